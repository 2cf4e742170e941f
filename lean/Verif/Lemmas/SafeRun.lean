import Verif.Lemmas.SafeRel

/-! Whole runs succeed for every kernel if the calls are timely. -/

namespace MSF
variable {A W X C F M T E : Type}

/-- Time of the state that the next IMU reading is propagated from. -/
def Core.imuTime (c : Core A W X C M T) : ℚ :=
  match c.itImu with
  | .fin => 0
  | .at k _ => k

/-- What holds between the calls.  `b` tells whether the filter is driven by IMU readings or by externally
propagated states. -/
structure Core.Sound (b : Bool) (c : Core A W X C M T) : Prop where
  sorted : SortedL c.states.nodes
  msorted : SortedL c.meas.nodes
  keyed : c.Keyed
  ne : c.inited = true → c.states.nodes ≠ []
  tp : c.inited = true → b = true ∨ c.predMade = true → c.TP
  imu : c.inited = true → b = true → ∃ n ∈ c.states.nodes, n.iter = c.itImu ∧
    ∀ k ∈ c.states.nodes, k.key ≤ n.key + 60

theorem Core.Sound.new [Zero A] (b : Bool) (K : Kernel A W X C M T E) : (Core.new K).Sound b :=
  ⟨List.Pairwise.nil, List.Pairwise.nil, fun n hn => (by cases hn), fun h => (by cases h), fun h => (by cases h),
    fun h => (by cases h)⟩

theorem Core.Sound.init (b : Bool) (K : Kernel A W X C M T E) (c : Core A W X C M T) (t : ℚ)
    (s : St A W X C) : (Core.init K c t s).Sound b := by
  have e : (c.states.clear.insert t s) = (⟨[⟨t, c.states.fresh, s⟩], c.states.fresh + 1⟩, .at t c.states.fresh) :=
    rfl
  have hn : (Core.init K c t s).states.nodes = [⟨t, c.states.fresh, s⟩] := by
    change (c.states.clear.insert t s).1.nodes = _
    rw [e]
  refine ⟨(by rw [hn]; exact List.pairwise_singleton _ _), List.Pairwise.nil, fun n hn => (by cases hn),
    fun _ => by rw [hn]; simp, fun _ _ => ⟨⟨t, c.states.fresh, s⟩, by rw [hn]; simp, le_rfl⟩, fun _ _ => ?_⟩
  refine ⟨⟨t, c.states.fresh, s⟩, by rw [hn]; simp, rfl, fun k hk => ?_⟩
  rw [hn, List.mem_singleton] at hk
  rw [hk]
  simp

theorem states_updateTime {V : Type} {b : Buf V} (hs : SortedL b.nodes) (t t' : ℚ) :
    SortedL (b.updateTime t t').1.nodes := by
  unfold Buf.updateTime
  split
  · exact hs
  · exact Buf.sorted_insert (b := { b with nodes := b.nodes.filter _ }) (hs.sublist List.filter_sublist) _ _

theorem updateTime_ne {V : Type} {b : Buf V} (h : b.nodes ≠ []) (t t' : ℚ) :
    (b.updateTime t t').1.nodes ≠ [] := by
  unfold Buf.updateTime
  split
  · exact h
  · rename_i n _
    obtain ⟨k, hk, -, -⟩ := Flow.insert_at (b := { b with nodes := b.nodes.filter (fun m => m.key ≠ n.key) }) t' n.val
    exact List.ne_nil_of_mem hk

theorem mem_insert_val {V : Type} {b : Buf V} {t : ℚ} {v : V} {n : Node V}
    (hn : n ∈ (b.insert t v).1.nodes) : n ∈ b.nodes ∨ n.val = v := by
  cases hf : b.find t with
  | some m => rw [Buf.insert_of_find hf] at hn; exact .inl hn
  | none =>
    rw [Buf.insert_of_none hf] at hn
    rcases mem_insertNode.1 hn with rfl | h
    · exact .inr rfl
    · exact .inl h

theorem endKey_insert {V : Type} {b : Buf V} (hs : SortedL b.nodes) (t : ℚ) (s : V)
    (h : b.nodes ≠ [] ∨ 0 ≤ t) : endKey 0 (b.insert t s).1.nodes = max (endKey 0 b.nodes) t := by
  have hs1 := Buf.sorted_insert hs t s
  obtain ⟨k, hkm, hkt, -⟩ := Flow.insert_at (b := b) t s
  obtain ⟨x, hx, ex, -⟩ := endKey_mem (t := 0) (List.ne_nil_of_mem hkm)
  apply le_antisymm
  · rw [← ex]
    rcases Flow.mem_insert_inv hx with h | h
    · exact le_max_of_le_left (endKey_ge hs x h)
    · rw [h]; exact le_max_right _ _
  · refine max_le ?_ (hkt.symm.le.trans (endKey_ge hs1 k hkm))
    by_cases hne : b.nodes = []
    · rw [hne]
      exact (h.resolve_left (fun h => h hne)).trans (hkt.symm.le.trans (endKey_ge hs1 k hkm))
    · obtain ⟨y, hy, ey, -⟩ := endKey_mem (t := 0) hne
      rw [← ey]
      exact endKey_ge hs1 y (Flow.mem_insert hy)

/-- The calls that do not fail.  `Due` allows:
* `Init` at any time;
* an IMU reading that is at most a minute older than every buffered state and, until enough readings have
  been received, at most 0.1 s away from the last one;
* a measurement that is at most a minute older than every buffered measurement; this is also asked of the
  pending measurement that an IMU reading or an external state gives another try. -/
def Core.Due (c : Core A W X C M T) : Api A W X C M E → Prop
  | .init _ _ => True
  | .imu t _ => c.inited = true → (∀ n ∈ c.states.nodes, n.key ≤ t + 60) ∧
      (c.predMade = false → |t - c.imuTime| ≤ 1 / 10) ∧
      ∀ m ∈ c.queue.head?, ∀ x ∈ c.meas.nodes, x.key ≤ m.time + 60
  | .ext _ _ _ => c.inited = true → c.predMade = true →
      ∀ m ∈ c.queue.head?, ∀ x ∈ c.meas.nodes, x.key ≤ m.time + 60
  | .meas m => c.inited = true → c.predMade = true → ∀ x ∈ c.meas.nodes, x.key ≤ m.time + 60

/-- The calls of a filter that is driven by IMU readings (`true`) or external states (`false`). -/
def Api.drives (b : Bool) : Api A W X C M E → Prop
  | .imu _ _ => b = true
  | .ext _ _ _ => b = false
  | _ => True

namespace Flow
variable [AddCommGroup A] [Module ℚ A] [AddCommGroup W] [Module ℚ W]
variable {f : Flow A W X C M T E}

theorem handlePending_tot (hf : f.Tame) (s1 s2) (ha : Applies s1 s2 f) (c : Core A W X C M T)
    (hg : c.Good) (hk : c.Keyed) (hle : ∀ m ∈ c.queue.head?, ∀ x ∈ c.meas.nodes, x.key ≤ m.time + 60) :
    Tot (handlePending (gnuEnv s1 s2) f c) fun c' => c'.Good ∧ c'.Keyed ∧ Core.Added c c' ∧
      (c.queue = [] → c' = c) := by
  unfold handlePending
  cases hq : c.queue with
  | nil => exact Tot.ok ⟨hg, hk, ⟨rfl, fun n hn _ => ⟨n, hn, rfl⟩, rfl, rfl, rfl⟩, fun _ => rfl⟩
  | cons m q =>
    refine (addMeasurement_tot hf s1 s2 ha { c with queue := q } m ⟨hg.sorted, hg.msorted, hg.tp⟩ hk
      (hle m (by rw [hq]; rfl))).mono fun c' h => ⟨h.1, h.2.1, ⟨h.2.2.1.newest, h.2.2.1.keep, h.2.2.1.itImu,
        h.2.2.1.inited, h.2.2.1.predMade⟩, fun h => (by cases h)⟩

theorem published_tot (c1 : Core A W X C M T) (hs : SortedL c1.states.nodes) (was : Bool) (s : St A W X C)
    {k : Node (St A W X C)} (hk : ∃ k' ∈ c1.states.nodes, k'.iter = k.iter) :
    Tot (Core.published c1 was s k.iter) fun _ => True := by
  unfold Core.published
  split
  · exact Tot.ok trivial
  · obtain ⟨k', hk', e⟩ := hk
    rw [← e, Buf.deref_mem hs hk']
    exact ⟨_, rfl, trivial⟩

theorem imuPropagate_tot (hf : f.Tame) (s1 s2) (ha : Applies s1 s2 f) (c : Core A W X C M T)
    (hg : c.Good) (hk : c.Keyed) (last : Node (St A W X C)) (t : ℚ) (u : Input A W)
    (hold : ∀ n ∈ c.states.nodes, n.key ≤ t + 60)
    (hle : ∀ m ∈ c.queue.head?, ∀ x ∈ c.meas.nodes, x.key ≤ m.time + 60) :
    Tot (imuPropagate (gnuEnv s1 s2) f c last t u) fun c' => c'.Good ∧ c'.Keyed ∧
      (∃ n ∈ c'.states.nodes, n.iter = c'.itImu ∧ n.key = t ∧ ∀ k ∈ c'.states.nodes, k.key ≤ n.key + 60) ∧
      endKey 0 c'.states.nodes = max (endKey 0 c.states.nodes) t ∧
      (c.queue = [] → c'.meas = c.meas ∧ c'.queue = [] ∧ c'.lastAmImu = c.lastAmImu ∧
        ((∀ n ∈ c.states.nodes, n.key ≠ t) → ∀ n ∈ c'.states.nodes, n.key = t → n.val.u = u)) := by
  rw [imuPropagate_form]
  generalize hsu : Core.imuState f.toKernel last t u = s
  have hsu : s.u = u := by rw [← hsu]; rfl
  obtain ⟨k, hkm, hkt, hki⟩ := insert_at (b := c.states) t s
  have hs1 : SortedL (c.states.insert t s).1.nodes := Buf.sorted_insert hg.sorted t s
  have htp : Core.TP ({ c with states := (c.states.insert t s).1, itImu := (c.states.insert t s).2 } :
      Core A W X C M T) := by
    obtain ⟨n, hn, hle'⟩ := hg.tp
    exact ⟨n, mem_insert hn, hle'⟩
  have hend := endKey_insert hg.sorted t s (.inl hg.ne)
  refine Tot.bind (propagatePOneStep_tot hf _ hs1 htp) fun c1 h => ?_
  obtain ⟨c0, hkept, htp0, hc1⟩ := h
  have hg1 : c1.Good ∧ c1.states = c0.states ∧ c1.meas = c0.meas ∧ c1.queue = c0.queue ∧
      c1.itImu = c0.itImu ∧ c1.lastAmImu = c0.lastAmImu := by
    have hs0 := hkept.sorted hs1
    have hm0 : SortedL c0.meas.nodes := by rw [hkept.meas]; exact hg.msorted
    rcases hc1 with rfl | rfl
    · exact ⟨⟨hs0, hm0, htp0⟩, rfl, rfl, rfl, rfl, rfl⟩
    · exact ⟨⟨hs0, hm0, htp0⟩, rfl, rfl, rfl, rfl, rfl⟩
  obtain ⟨hg1, hst, hme, hqu, hit, ham⟩ := hg1
  have hme' : c1.meas = c.meas := hme.trans hkept.meas
  have hqu' : c1.queue = c.queue := hqu.trans hkept.queue
  have hit' : c1.itImu = k.iter := hit.trans (hkept.itImu.trans hki)
  have htag : c1.states.nodes.map Node.tag = (c.states.insert t s).1.nodes.map Node.tag := by
    rw [hst]; exact hkept.tag
  obtain ⟨k', hk', ek, ekt⟩ := mem_of_tag htag.symm hkm
  have hend1 : endKey 0 c1.states.nodes = max (endKey 0 c.states.nodes) t :=
    (endKey_of_keys (keys_of_tag htag) 0).trans hend
  have hend60 : max (endKey 0 c.states.nodes) t ≤ t + 60 := by
    obtain ⟨y, hy, ey, -⟩ := endKey_mem (t := 0) hg.ne
    refine max_le ?_ (by linarith)
    rw [← ey]
    exact hold y hy
  have ham' : c1.lastAmImu = c.lastAmImu := ham.trans hkept.lastAm
  have hin : (∀ n ∈ c.states.nodes, n.key ≠ t) → ∀ n ∈ c1.states.nodes, n.key = t → n.val.u = u := by
    intro hfree n hn hnt
    have hm : (n.key, n.val.u) ∈ (c.states.insert t s).1.nodes.map (fun n => (n.key, n.val.u)) := by
      have := hkept.inputs
      rw [← hst] at this
      rw [← this]
      exact List.mem_map_of_mem (f := fun n : Node (St A W X C) => (n.key, n.val.u)) hn
    obtain ⟨n', hn', e⟩ := List.mem_map.1 hm
    rcases mem_insert_val hn' with h | h
    · exact absurd ((congrArg Prod.fst e).trans hnt) (hfree n' h)
    · have e2 : n'.val.u = n.val.u := congrArg Prod.snd e
      rw [← e2, h]
      exact hsu
  rw [hki]
  refine Tot.bind (published_tot c1 hg1.sorted _ s ⟨k', hk', ek⟩) fun cur _ => ?_
  have hk1 : c1.Keyed := by
    unfold Core.Keyed
    rw [hme']; exact hk
  unfold imuEnd
  have fin : ∀ c' : Core A W X C M T, c'.Good → c'.itImu = k.iter →
      endKey 0 c'.states.nodes = max (endKey 0 c.states.nodes) t →
      (∃ n' ∈ c'.states.nodes, n'.iter = k.iter) →
      (∃ n ∈ c'.states.nodes, n.iter = c'.itImu ∧ n.key = t ∧ ∀ k ∈ c'.states.nodes, k.key ≤ n.key + 60) := by
    intro c' hg' hi he ⟨n', hn', e⟩
    have hnt : n'.key = t := (Core.key_of_iter e).trans hkt
    refine ⟨n', hn', by rw [hi, e], hnt, fun x hx => ?_⟩
    rw [hnt]
    exact (endKey_ge hg'.sorted x hx).trans (by rw [he]; exact hend60)
  split
  · refine (handlePending_tot hf s1 s2 ha ({ c1 with
        out := c1.out ++ [.afterPropagation t cur.x cur.P], predMade := true } : Core A W X C M T)
        ⟨hg1.sorted, hg1.msorted, hg1.tp⟩ hk1 (by
          change ∀ m ∈ c1.queue.head?, ∀ x ∈ c1.meas.nodes, x.key ≤ m.time + 60
          rw [hqu', hme']; exact hle)).mono fun c' h => ?_
    obtain ⟨hg', hk'', hadd, hq⟩ := h
    have he' : endKey 0 c'.states.nodes = max (endKey 0 c.states.nodes) t := hadd.newest.trans hend1
    refine ⟨hg', hk'', fin c' hg' (hadd.itImu.trans hit') he' ?_, he', fun hq0 => ?_⟩
    · obtain ⟨n', hn', e⟩ := hadd.keep k' hk' (by
        change endKey 0 c1.states.nodes - 60 ≤ k'.key
        rw [hend1, ekt, hkt]
        linarith)
      exact ⟨n', hn', e.trans ek⟩
    · rw [hq (by change c1.queue = []; rw [hqu', hq0])]
      exact ⟨hme', hqu'.trans hq0, ham', hin⟩
  · exact Tot.ok ⟨⟨hg1.sorted, hg1.msorted, hg1.tp⟩, hk1, fin _ ⟨hg1.sorted, hg1.msorted, hg1.tp⟩ hit' hend1
      ⟨k', hk', ek⟩, hend1, fun hq0 => ⟨hme', hqu'.trans hq0, ham', hin⟩⟩

theorem Core.Sound.good {c : Core A W X C M T} {b : Bool} (h : c.Sound b) (hi : c.inited = true)
    (hb : b = true ∨ c.predMade = true) : c.Good := ⟨h.sorted, h.msorted, h.tp hi hb⟩

theorem processIMU_tot (hf : f.Tame) (s1 s2) (ha : Applies s1 s2 f) (c : Core A W X C M T)
    (hc : c.Sound true) (t : ℚ) (u : Input A W) (hd : c.Due (.imu t u : Api A W X C M E)) :
    Tot (processIMU (gnuEnv s1 s2) f c t u) fun c' => c'.Sound true ∧ (c'.inited = true →
      c.inited = true ∧ (c.imuTime ≠ invalidTime → c'.imuTime = t ∧
      endKey 0 c'.states.nodes = max (endKey 0 c.states.nodes) t ∧
      (c.queue = [] → c'.meas = c.meas ∧ c'.queue = [] ∧ ∀ n ∈ c.states.nodes, n.iter = c.itImu →
        c'.lastAmImu = (if f.spike u.a = true then c.lastAmImu else n.val.u.a) ∧
        ((∀ n ∈ c.states.nodes, n.key ≠ t) → ∀ n ∈ c'.states.nodes, n.key = t →
          n.val.u = if f.spike u.a = true then { u with a := c.lastAmImu } else u)))) := by
  rw [processIMU_form]
  by_cases hi : c.inited = false
  · rw [if_pos hi]
    exact Tot.ok ⟨hc, fun h => by rw [hi] at h; cases h⟩
  rw [if_neg hi]
  rw [Bool.not_eq_false] at hi
  obtain ⟨n, hn, hni, hn60⟩ := hc.imu hi rfl
  obtain ⟨hold, hclose, hle⟩ := hd hi
  have hstart : Core.imuStart (gnuEnv s1 s2) c t = .ok n.iter := by
    unfold Core.imuStart
    rw [if_neg (by rw [← hni]; simp [Node.iter]), hni]
  have htime : c.imuTime = n.key := by unfold Core.imuTime; rw [← hni]; rfl
  refine Tot.bind_eq hstart (Tot.bind_eq (Buf.deref_mem hc.sorted hn) ?_)
  unfold imuBody
  by_cases h1 : n.key = invalidTime
  · rw [if_pos h1, hni]
    exact Tot.ok ⟨hc, fun _ => ⟨hi, fun h => absurd (htime.trans h1) h⟩⟩
  rw [if_neg h1]
  split
  · exact Tot.ok ⟨⟨hc.sorted, hc.msorted, hc.keyed, fun h => (by cases h), fun h => (by cases h),
      fun h => (by cases h)⟩, fun h => (by cases h)⟩
  · split
    · rename_i _ h2
      have := hclose h2.1
      rw [htime] at this
      exact absurd h2.2 (not_lt.2 this)
    · refine (imuPropagate_tot hf s1 s2 ha ({ c with
          itImu := n.iter
          lastAmImu := if f.spike u.a = true then c.lastAmImu else n.val.u.a } : Core A W X C M T)
          ⟨hc.sorted, hc.msorted, hc.tp hi (.inl rfl)⟩ hc.keyed n t _ hold hle).mono fun c' h => ?_
      obtain ⟨hg, hk, ⟨k, hk1, hk2, hk3, hk4⟩, hend, hq⟩ := h
      refine ⟨⟨hg.sorted, hg.msorted, hk, fun _ => hg.ne, fun _ _ => hg.tp, fun _ _ =>
        ⟨k, hk1, hk2, hk4⟩⟩, fun _ => ⟨hi, fun _ => ⟨?_, hend, fun hq0 => ?_⟩⟩⟩
      · unfold Core.imuTime
        rw [← hk2]
        exact hk3
      · obtain ⟨b1, b2, b3, b4⟩ := hq hq0
        refine ⟨b1, b2, fun n' hn' hni' => ⟨?_, b4⟩⟩
        rw [b3, Buf.key_inj hc.sorted hn' hn (Core.key_of_iter (hni'.trans hni.symm))]

theorem extEnd_tot (hf : f.Tame) (s1 s2) (ha : Applies s1 s2 f) (c : Core A W X C M T)
    (hs : SortedL c.states.nodes) (hms : SortedL c.meas.nodes) (hk : c.Keyed) (t : ℚ) (s : St A W X C)
    (htp : c.TP ∨ c.tP = t)
    (hle : ∀ m ∈ c.queue.head?, ∀ x ∈ c.meas.nodes, x.key ≤ m.time + 60) :
    Tot (extEnd (gnuEnv s1 s2) f c t s) fun c' => (c'.Good ∧ c'.Keyed) ∧
      ((c.states.nodes ≠ [] ∨ 0 ≤ t) → endKey 0 c'.states.nodes = max (endKey 0 c.states.nodes) t) ∧
      (c.queue = [] → c'.meas = c.meas ∧ c'.queue = []) := by
  unfold extEnd
  obtain ⟨k, hkm, hkt, hki⟩ := insert_at (b := c.states) t s
  have hs1 : SortedL (c.states.insert t s).1.nodes := Buf.sorted_insert hs t s
  have htp : Core.TP ({ c with states := (c.states.insert t s).1 } : Core A W X C M T) := by
    rcases htp with ⟨n, hn, hle'⟩ | h
    · exact ⟨n, mem_insert hn, hle'⟩
    · exact ⟨k, hkm, by rw [hkt]; exact h.le⟩
  refine Tot.bind (propagatePOneStep_tot hf _ hs1 htp) fun c1 h => ?_
  obtain ⟨c0, hkept, htp0, hc1⟩ := h
  have hg1 : c1.Good ∧ c1.states = c0.states ∧ c1.meas = c0.meas ∧ c1.queue = c0.queue := by
    have hs0 := hkept.sorted hs1
    have hm0 : SortedL c0.meas.nodes := by rw [hkept.meas]; exact hms
    rcases hc1 with rfl | rfl
    · exact ⟨⟨hs0, hm0, htp0⟩, rfl, rfl, rfl⟩
    · exact ⟨⟨hs0, hm0, htp0⟩, rfl, rfl, rfl⟩
  obtain ⟨hg1, hst, hme, hqu⟩ := hg1
  have hme' : c1.meas = c.meas := hme.trans hkept.meas
  have hqu' : c1.queue = c.queue := hqu.trans hkept.queue
  have htag : c1.states.nodes.map Node.tag = (c.states.insert t s).1.nodes.map Node.tag := by
    rw [hst]; exact hkept.tag
  obtain ⟨k', hk', ek, ekt⟩ := mem_of_tag htag.symm hkm
  rw [hki]
  refine Tot.bind (published_tot c1 hg1.sorted _ s ⟨k', hk', ek⟩) fun cur _ => ?_
  have hk1 : c1.Keyed := by
    unfold Core.Keyed
    rw [hme']; exact hk
  refine (handlePending_tot hf s1 s2 ha ({ c1 with
      out := c1.out ++ [.afterPropagation t cur.x cur.P], predMade := true } : Core A W X C M T)
      ⟨hg1.sorted, hg1.msorted, hg1.tp⟩ hk1 (by
    change ∀ m ∈ c1.queue.head?, ∀ x ∈ c1.meas.nodes, x.key ≤ m.time + 60
    rw [hqu', hme']; exact hle)).mono fun c' h => ⟨⟨h.1, h.2.1⟩, fun h0 => ?_, fun hq0 => ?_⟩
  · rw [h.2.2.1.newest, ← endKey_insert hs t s h0]
    exact endKey_of_keys (keys_of_tag htag) 0
  · rw [h.2.2.2 (by change c1.queue = []; rw [hqu', hq0])]
    exact ⟨hme', hqu'.trans hq0⟩

theorem processExternal_tot (hf : f.Tame) (s1 s2) (ha : Applies s1 s2 f) (c : Core A W X C M T)
    (hc : c.Sound false) (t : ℚ) (u : Input A W) (e : Option E) (hd : c.Due (.ext t u e)) :
    Tot (processExternal (gnuEnv s1 s2) f c t u e) fun c' => c'.Sound false ∧
      (0 < t → c'.inited = true → c'.predMade = true → c.inited = true ∧
        (c.predMade = false ∨ endKey 0 c.states.nodes ≠ invalidTime →
        (endKey 0 c'.states.nodes = if c.predMade = true then max (endKey 0 c.states.nodes) t else t) ∧
        (c.predMade = true → c.queue = [] → c'.meas = c.meas ∧ c'.queue = []) ∧
        (c.predMade = false → c'.meas.nodes = [] ∧ c'.queue = []))) := by
  rw [processExternal_form]
  by_cases hi : c.inited = false
  · rw [if_pos hi]; exact Tot.ok ⟨hc, fun _ h => by rw [hi] at h; cases h⟩
  rw [if_neg hi]
  rw [Bool.not_eq_false] at hi
  have of : ∀ c' : Core A W X C M T, c'.Good ∧ c'.Keyed → c'.Sound false := fun c' h =>
    ⟨h.1.sorted, h.1.msorted, h.2, fun _ => h.1.ne, fun _ _ => h.1.tp, fun _ h => (by cases h)⟩
  cases hl : c.states.last with
  | none =>
    have : c.states.nodes = [] := by
      unfold Buf.last at hl
      exact List.getLast?_eq_none_iff.1 hl
    exact absurd this (hc.ne hi)
  | some last =>
    have hend : endKey 0 c.states.nodes = last.key := by
      obtain ⟨x, hx, ex, hlast⟩ := endKey_mem (t := 0) (hc.ne hi)
      unfold Buf.last at hl
      rw [hlast, Option.some.injEq] at hl
      rw [← ex, hl]
    dsimp only
    split
    · rename_i h0
      refine Tot.ok ⟨hc, fun _ _ hp => ⟨hi, fun h => ?_⟩⟩
      rcases h with h | h
      · rw [hp] at h; cases h
      · exact absurd (hend.trans h0) h
    · split
      · rename_i h5
        refine Tot.ok ⟨⟨states_updateTime hc.sorted _ _, hc.msorted, hc.keyed, fun h => updateTime_ne (hc.ne h) _ _,
          fun _ h => h.elim (fun h => (by cases h)) fun h => (by rw [show c.predMade = false from h5.1] at h; cases h),
          fun _ h => (by cases h)⟩, fun _ _ hp => ?_⟩
        rw [show c.predMade = false from h5.1] at hp
        cases hp
      · split
        · rename_i hp
          refine (extEnd_tot hf s1 s2 ha _ ?_ ?_ ?_ t _ ?_ ?_).mono fun c' h => ⟨of c' h.1, fun ht _ _ =>
            ⟨hi, fun _ => ⟨?_, fun hp' => ?_, fun _ => ?_⟩⟩⟩
          · exact List.Pairwise.nil
          · exact List.Pairwise.nil
          · intro n hn
            cases hn
          · exact .inr rfl
          · intro m hm
            cases hm
          · rw [h.2.1 (.inr ht.le), if_neg (by rw [hp]; simp)]
            exact max_eq_right ht.le
          · rw [hp] at hp'; cases hp'
          · obtain ⟨a1, a2⟩ := h.2.2 rfl
            exact ⟨by rw [a1]; rfl, a2⟩
        · rename_i hp
          rw [Bool.not_eq_false] at hp
          refine (extEnd_tot hf s1 s2 ha _ ?_ ?_ ?_ t _ ?_ ?_).mono fun c' h => ⟨of c' h.1, fun _ _ _ =>
            ⟨hi, fun _ => ⟨?_, fun _ hq => h.2.2 hq, fun hp' => ?_⟩⟩⟩
          · exact hc.sorted
          · exact hc.msorted
          · exact hc.keyed
          · exact .inl (hc.tp hi (.inr hp))
          · exact hd hi hp
          · rw [h.2.1 (.inl (hc.ne hi)), if_pos hp]
          · rw [hp] at hp'; cases hp'

theorem addMeasurement_sound (hf : f.Tame) (s1 s2) (ha : Applies s1 s2 f) {b : Bool} (c : Core A W X C M T)
    (hc : c.Sound b) (m : Meas M) (hd : c.Due (.meas m : Api A W X C M E)) :
    Tot (addMeasurement (gnuEnv s1 s2) f c m) fun c' => c'.Sound b ∧ c'.inited = c.inited ∧ c'.predMade = c.predMade ∧
      (c.inited = true → c'.imuTime = c.imuTime ∧
      endKey 0 c'.states.nodes = endKey 0 c.states.nodes ∧
      (∀ x ∈ c'.meas.nodes, x ∈ c.meas.nodes ∨ x.key = m.time) ∧
      (m.time ≤ endKey 0 c.states.nodes → c'.queue = c.queue)) := by
  by_cases h1 : c.inited = false ∨ c.predMade = false
  · unfold addMeasurement
    rw [if_pos h1]
    exact Tot.ret ⟨hc, rfl, rfl, fun _ => ⟨rfl, rfl, fun x hx => .inl hx, fun _ => rfl⟩⟩
  rw [not_or, Bool.not_eq_false, Bool.not_eq_false] at h1
  have hg := Core.Sound.good hc h1.1 (.inr h1.2)
  refine (addMeasurement_tot hf s1 s2 ha c m hg hc.keyed (hd h1.1 h1.2)).mono fun c' h => ?_
  obtain ⟨hg', hk', hadd, hme, hq⟩ := h
  refine ⟨⟨hg'.sorted, hg'.msorted, hk', fun _ => hg'.ne, fun _ _ => hg'.tp, fun _ hb => ?_⟩, hadd.inited, hadd.predMade,
    fun _ => ⟨by unfold Core.imuTime; rw [hadd.itImu], hadd.newest, hme, fun hle => ?_⟩⟩
  · obtain ⟨n, hn, hni, h60⟩ := hc.imu h1.1 hb
    obtain ⟨x, hx, ex, -⟩ := endKey_mem (t := 0) hg.ne
    have hend : endKey 0 c.states.nodes ≤ n.key + 60 := by rw [← ex]; exact h60 x hx
    obtain ⟨n', hn', e⟩ := hadd.keep n hn (by linarith)
    refine ⟨n', hn', by rw [e, hadd.itImu, hni], fun k hk => ?_⟩
    rw [Core.key_of_iter e]
    exact (endKey_ge hg'.sorted k hk).trans (by rw [hadd.newest]; exact hend)
  · rcases hq with h | ⟨-, -, -, h⟩
    · exact h
    · obtain ⟨x, hx, ex, hlast⟩ := endKey_mem (t := 0) hg.ne
      have : timeOf c.states.last = x.key := by unfold Buf.last; rw [hlast]; rfl
      rw [this, ex] at h
      exact absurd h (not_lt.2 hle)

/-- **Every timely call succeeds.** -/
theorem api_tot (hf : f.Tame) (s1 s2) (ha : Applies s1 s2 f) {b : Bool} (c : Core A W X C M T)
    (hc : c.Sound b) (o : Api A W X C M E) (hb : o.drives b) (hd : c.Due o) :
    Tot (api (gnuEnv s1 s2) f c o) fun c' => c'.Sound b := by
  cases o with
  | init t s => exact Tot.ok (Core.Sound.init b f.toKernel c t s)
  | imu t u =>
    have hb' : b = true := hb
    subst hb'
    exact (processIMU_tot hf s1 s2 ha c hc t u hd).mono fun c' h => h.1
  | ext t u e =>
    have hb' : b = false := hb
    subst hb'
    exact (processExternal_tot hf s1 s2 ha c hc t u e hd).mono fun c' h => h.1
  | meas m => exact (addMeasurement_sound hf s1 s2 ha c hc m hd).mono fun c' h => h.1

end Flow
end MSF
