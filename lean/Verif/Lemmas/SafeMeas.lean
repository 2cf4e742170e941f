import Verif.Lemmas.SafeClosest

/-! `AddMeasurement` succeeds for every kernel if no buffered measurement is more than a minute newer. -/

namespace MSF
variable {A W X C M T E : Type}

namespace Core

/-- `c'` differs from `c` in the values of the states only, as far as the control flow is concerned. -/
structure Moved (c c' : Core A W X C M T) : Prop where
  tag : c'.states.nodes.map Node.tag = c.states.nodes.map Node.tag
  meas : c'.meas = c.meas
  queue : c'.queue = c.queue
  itImu : c'.itImu = c.itImu
  inited : c'.inited = c.inited
  predMade : c'.predMade = c.predMade
  tP : c'.tP = c.tP

theorem Moved.refl (c : Core A W X C M T) : Moved c c := ⟨rfl, rfl, rfl, rfl, rfl, rfl, rfl⟩

theorem Moved.trans {c c1 c2 : Core A W X C M T} (h : Moved c c1) (h' : Moved c1 c2) : Moved c c2 :=
  ⟨h'.tag.trans h.tag, h'.meas.trans h.meas, h'.queue.trans h.queue,
    h'.itImu.trans h.itImu, h'.inited.trans h.inited, h'.predMade.trans h.predMade, h'.tP.trans h.tP⟩

theorem Moved.later {c c' : Core A W X C M T} (h : Moved c c') : Later c c' where
  newest := endKey_of_keys (keys_of_tag h.tag) 0
  keep n hn _ := by
    obtain ⟨n', hn', e, -⟩ := mem_of_tag h.tag.symm hn
    exact ⟨n', hn', e⟩
  meas := ⟨[], by rw [h.meas]; rfl, by simp⟩
  queue := h.queue
  itImu := h.itImu
  inited := h.inited
  predMade := h.predMade

theorem Moved.good {c c' : Core A W X C M T} (h : Moved c c') (hg : c.Good) : c'.Good where
  sorted := sorted_of_keys (keys_of_tag h.tag).symm hg.sorted
  msorted := by rw [h.meas]; exact hg.msorted
  tp := by
    obtain ⟨n, hn, hle⟩ := hg.tp
    obtain ⟨n', hn', -, e⟩ := mem_of_tag h.tag.symm hn
    exact ⟨n', hn', by rw [h.tP, e]; exact hle⟩

theorem propLoop_tot (K : Kernel A W X C M T E) : ∀ (fuel : Nat) (c : Core A W X C M T)
    (L : List (Node (St A W X C))) (a : Node (St A W X C)) (B : List (Node (St A W X C))) (stop : Iter),
    B.length < fuel → c.states.nodes = L ++ a :: B → SortedL c.states.nodes →
    (stop = .fin ∨ ∃ d ∈ a :: B, stop = d.iter) →
    Tot (propLoop K fuel c a.iter (Buf.toIter B.head?) stop) fun r => Moved c r.1 := by
  intro fuel
  induction fuel with
  | zero => intro c L a B stop h; exact absurd h (Nat.not_lt_zero _)
  | succ fuel ih =>
    intro c L a B stop hfuel hl hs hstop
    unfold propLoop
    by_cases hend : a.iter = stop ∨ Buf.toIter B.head? = stop
    · rw [if_pos hend]
      exact Tot.ok (Moved.refl c)
    · rw [if_neg hend]
      rw [not_or] at hend
      cases B with
      | nil =>
        rcases hstop with h | ⟨d, hd, h⟩
        · exact absurd h.symm hend.2
        · rw [List.mem_singleton.1 hd] at h
          exact absurd h.symm hend.1
      | cons b B =>
        change Tot (c.states.deref a.iter >>= fun _ => c.states.deref b.iter >>= _) _
        refine Tot.bind_eq (Buf.deref_mem hs (by rw [hl]; simp)) ?_
        refine Tot.bind_eq (a := b) (Buf.deref_mem hs (by rw [hl]; simp)) ?_
        by_cases hinv : a.key = invalidTime ∨ b.key = invalidTime
        · rw [if_pos hinv]; exact Tot.ret (Moved.refl c)
        rw [if_neg hinv]
        by_cases hfl : c.inited = false ∨ c.predMade = false
        · rw [if_pos hfl]; exact Tot.ret (Moved.refl c)
        rw [if_neg hfl]
        have hmv : Moved c { c with
            states := c.states.modify b.key
              (fun s => { s with x := K.prop (b.key - a.key) a.val.u a.val.x s.u }) } :=
          ⟨tag_modify _ _, rfl, rfl, rfl, rfl, rfl, rfl⟩
        revert hmv
        generalize ({ c with
            states := c.states.modify b.key
              (fun s => { s with x := K.prop (b.key - a.key) a.val.u a.val.x s.u }) } :
                Core A W X C M T) = c1
        intro hmv
        have hs' : SortedL c1.states.nodes := sorted_of_keys (keys_of_tag hmv.tag).symm hs
        have htag := hmv.tag
        rw [hl] at htag
        obtain ⟨L', a', R', hl', -, ha', hR'⟩ := split_of_map htag
        obtain ⟨b', B', rfl, hb', hB'⟩ := List.map_eq_cons_iff.1 hR'
        have hai := (iter_of_tag ha').1
        have hbi := (iter_of_tag hb').1
        change Tot (c1.states.incr a.iter >>= fun cur => c1.states.incr b.iter >>= fun next =>
          propLoop K fuel c1 cur next stop) _
        refine Tot.bind_eq (a := b'.iter) ?_ (Tot.bind_eq (a := Buf.toIter B'.head?) ?_ ?_)
        · rw [← hai, Buf.incr_at hl' hs']; rfl
        · rw [← hbi]
          exact Buf.incr_at (A := L' ++ [a']) (by rw [hl']; simp) hs'
        · have hlen : B'.length < fuel := by
            have : B'.length = B.length := by simpa using congrArg List.length hB'
            simp only [List.length_cons] at hfuel
            omega
          refine (ih c1 (L' ++ [a']) b' B' stop hlen (by rw [hl']; simp) hs' ?_).mono fun r h =>
            hmv.trans h
          rcases hstop with h | ⟨d, hd, h⟩
          · exact .inl h
          · rcases List.mem_cons.1 hd with rfl | hd
            · exact absurd h.symm hend.1
            · have hR : (b' :: B').map Node.tag = (b :: B).map Node.tag := hR'
              obtain ⟨d', hd', e, -⟩ := mem_of_tag hR.symm hd
              exact .inr ⟨d', hd', h.trans e.symm⟩

theorem repropagate_tot (K : Kernel A W X C M T E) (c : Core A W X C M T) (hg : c.Good) {t k : ℚ}
    {MA MB : List (Node (Meas M))} (hm : c.meas.nodes = MA ++ MB) (hMB : ∀ m ∈ MB, t ≤ m.key)
    (hadj : ∀ n ∈ c.states.nodes, t ≤ n.key → k ≤ n.key) (hnew : ∃ n ∈ c.states.nodes, k ≤ n.key) :
    Tot (repropagate K c k (Buf.toIter MB.head?)) fun r => Moved c r.1 := by
  obtain ⟨L, a, B, hl, ha, hL, hka⟩ := Buf.iterAtValue_ok hg.sorted hnew
  have hlen : B.length < c.states.size + 1 := by
    simp only [Buf.size, hl, List.length_append, List.length_cons]
    omega
  have hmain : ∀ stop, (stop = .fin ∨ ∃ d ∈ a :: B, stop = d.iter) →
      Tot (c.states.incr (c.states.iterAtValue k) >>= fun next =>
        propLoop K (c.states.size + 1) c (c.states.iterAtValue k) next stop) fun r => Moved c r.1 := by
    intro stop hstop
    rw [ha]
    exact Tot.bind_eq (Buf.incr_at hl hg.sorted) (propLoop_tot K _ c L a B stop hlen hl hg.sorted hstop)
  cases MB with
  | nil => exact hmain .fin (.inl rfl)
  | cons m MB =>
    have hd : c.meas.deref m.iter = .ok m := Buf.deref_mem hg.msorted (by rw [hm]; simp)
    rw [repropagate_form]
    change Tot ((c.meas.deref m.iter >>= _) >>= _) _
    rw [hd]
    change Tot ((if c.states.iterClosestAfter m.key ≠ .fin then
        c.states.incr (c.states.iterClosestAfter m.key)
          else pure (c.states.iterClosestAfter m.key)) >>= _) _
    unfold Buf.iterClosestAfter
    cases hu : c.states.upperBound m.key with
    | none => exact hmain .fin (.inl rfl)
    | some e =>
      have he : e ∈ c.states.nodes ∧ m.key < e.key := by
        unfold Buf.upperBound at hu
        exact ⟨List.mem_of_find?_eq_some hu, by simpa using List.find?_some hu⟩
      have hek : k ≤ e.key := hadj e he.1 ((hMB m (by simp)).trans he.2.le)
      change Tot ((if e.iter ≠ .fin then c.states.incr e.iter else pure e.iter) >>= _) _
      rw [if_pos (by simp [Node.iter])]
      have he' : e ∈ a :: B := by
        have := he.1
        rw [hl] at this
        rcases List.mem_append.1 this with h | h
        · exact absurd (hL e h) (not_lt.2 hek)
        · exact h
      obtain ⟨P, Q, hPQ⟩ := List.append_of_mem he'
      have hl2 : c.states.nodes = (L ++ P) ++ e :: Q := by rw [hl, hPQ]; simp
      refine Tot.bind_eq (Buf.incr_at hl2 hg.sorted) (hmain _ ?_)
      cases Q with
      | nil => exact .inl rfl
      | cons q Q => exact .inr ⟨q, by rw [hPQ]; simp, rfl⟩

end Core

/-- The keys of the measurement buffer are the times of the measurements. -/
def Core.Keyed (c : Core A W X C M T) : Prop := ∀ n ∈ c.meas.nodes, n.val.time = n.key

theorem Core.Later.keyed {c c' : Core A W X C M T} (h : Core.Later c c') (hk : c.Keyed) : c'.Keyed := by
  obtain ⟨D, e, -⟩ := h.meas
  intro n hn
  exact hk n (by rw [e]; simp [hn])

namespace Flow

/-- What is needed of `apply`. -/
def Applies (s1 s2 : Nat → List ℚ → Bool) (f : Flow A W X C M T E) : Prop :=
  ∀ (c : Core A W X C M T) (m : Node (Meas M)) (s : Node (St A W X C)), c.Good → c.Keyed →
    m ∈ c.meas.nodes → (∀ x ∈ c.meas.nodes, x.key ≤ m.key + 60) →
    Core.Found f.numX s1 c m.key s.key →
    Tot (f.apply (gnuEnv s1 s2) c m.val s) fun c' => c'.Good ∧ Core.Later c c' ∧
      ∀ n ∈ c'.states.nodes, m.key ≤ n.key → s.key ≤ n.key

theorem absFlow_applies (s1 s2) (K : Kernel A W X C M T E) : Applies s1 s2 K.absFlow := by
  intro c m s hg hk hm hle hf
  refine Tot.ok ?_
  have htag : (Core.applyMeas K c m.val s).states.nodes.map Node.tag = c.states.nodes.map Node.tag := by
    unfold Core.applyMeas
    dsimp only
    split
    · exact tag_modify _ _
    · rfl
  have hsub : ∀ n ∈ (Core.applyMeas K c m.val s).states.nodes, ∃ n0 ∈ c.states.nodes, n0.key = n.key := by
    intro n hn
    obtain ⟨n0, h0, -, e⟩ := mem_of_tag htag hn
    exact ⟨n0, h0, e⟩
  refine ⟨⟨sorted_of_keys (keys_of_tag htag).symm hg.sorted, hg.msorted, ?_⟩,
    ⟨endKey_of_keys (keys_of_tag htag) 0, fun n hn _ => ?_, ⟨[], rfl, by simp⟩, rfl, rfl, rfl, rfl⟩,
    fun n hn h => ?_⟩
  · have htp : (Core.applyMeas K c m.val s).tP = s.key ∨ (Core.applyMeas K c m.val s).tP = c.tP := by
      unfold Core.applyMeas
      dsimp only
      split
      · exact .inl rfl
      · exact .inr rfl
    have : ∃ n ∈ c.states.nodes, (Core.applyMeas K c m.val s).tP ≤ n.key := by
      rcases htp with h | h <;> rw [h]
      · exact hf.newest
      · exact hg.tp
    obtain ⟨n, hn, hle⟩ := this
    obtain ⟨n', hn', -, e⟩ := mem_of_tag htag.symm hn
    exact ⟨n', hn', by rw [e]; exact hle⟩
  · obtain ⟨n', hn', e, -⟩ := mem_of_tag htag.symm hn
    exact ⟨n', hn', e⟩
  · obtain ⟨n0, h0, e⟩ := hsub n hn
    rw [← e] at h ⊢
    exact hf.below n0 h0 h

variable [AddCommGroup A] [Module ℚ A] [AddCommGroup W] [Module ℚ W]
variable {f : Flow A W X C M T E}

/-- A measurement that is at most a minute older than all others survives. -/
theorem keeps_meas {c c' : Core A W X C M T} (h : Core.Later c c') {MA MB : List (Node (Meas M))}
    {m : Node (Meas M)} (hm : c.meas.nodes = MA ++ m :: MB) (hle : ∀ x ∈ c.meas.nodes, x.key ≤ m.key + 60) :
    ∃ MA', c'.meas.nodes = MA' ++ m :: MB := by
  obtain ⟨D, e, hD⟩ := h.meas
  obtain ⟨x, hx, ex, -⟩ := endKey_mem (t := 0) (l := c.meas.nodes) (by rw [hm]; simp)
  have hend : endKey 0 c.meas.nodes - 60 ≤ m.key := by
    have := hle x hx
    rw [ex] at this
    linarith
  obtain ⟨A3, -, h3⟩ := append_prefix_old (hm.symm.trans e) hD hend
  exact ⟨A3, h3⟩

theorem measLoop_tot (hf : f.Tame) (s1 s2) (ha : Applies s1 s2 f) : ∀ (fuel : Nat)
    (c : Core A W X C M T) (MA MB : List (Node (Meas M))) (ap : Bool), MB.length < fuel → c.Good → c.Keyed →
    c.meas.nodes = MA ++ MB → (∀ m ∈ MB, ∀ x ∈ c.meas.nodes, x.key ≤ m.key + 60) →
    Tot (measLoop (gnuEnv s1 s2) f fuel c (Buf.toIter MB.head?) ap) fun r =>
      r.1.Good ∧ Core.Later c r.1 := by
  intro fuel
  induction fuel with
  | zero => intro c MA MB ap h; exact absurd h (Nat.not_lt_zero _)
  | succ fuel ih =>
    intro c MA MB ap hfuel hg hk hm hle
    cases MB with
    | nil =>
      change Tot (measLoop (gnuEnv s1 s2) f (fuel + 1) c .fin ap) _
      unfold measLoop
      rw [if_pos rfl]
      exact Tot.ok ⟨hg, Core.Later.refl c⟩
    | cons m MB =>
      have next : ∀ (c' : Core A W X C M T) (ap' : Bool), c'.Good → Core.Later c c' →
          Tot (measLoop (gnuEnv s1 s2) f fuel c' (Buf.toIter MB.head?) ap') fun r =>
            r.1.Good ∧ Core.Later c r.1 := by
        intro c' ap' hg' hlat
        obtain ⟨MA', hm'⟩ := keeps_meas hlat hm (hle m (by simp))
        refine (ih c' (MA' ++ [m]) MB ap' (by simpa using hfuel) hg' (hlat.keyed hk) (by rw [hm']; simp)
          fun x hx y hy => ?_).mono fun r h => ⟨h.1, hlat.trans h.2⟩
        obtain ⟨D, e, -⟩ := hlat.meas
        exact hle x (by simp [hx]) y (by rw [e]; simp [hy])
      have step : ∀ (c' : Core A W X C M T) (ap' : Bool), c'.Good → Core.Later c c' →
          Tot (c'.meas.incr m.iter >>= fun it => measLoop (gnuEnv s1 s2) f fuel c' it ap') fun r =>
            r.1.Good ∧ Core.Later c r.1 := by
        intro c' ap' hg' hlat
        obtain ⟨MA', hm'⟩ := keeps_meas hlat hm (hle m (by simp))
        exact Tot.bind_eq (Buf.incr_at hm' hg'.msorted) (next c' ap' hg' hlat)
      change Tot (measLoop (gnuEnv s1 s2) f (fuel + 1) c m.iter ap) _
      unfold measLoop
      rw [if_neg (by simp [Node.iter])]
      refine Tot.bind_eq (a := m) (Buf.deref_mem hg.msorted (by rw [hm]; simp)) ?_
      by_cases h0 : m.key ≤ 0
      · rw [if_pos h0]
        exact step c ap hg (Core.Later.refl c)
      rw [if_neg h0]
      refine Tot.bind (getClosestState_tot hf s1 s2 c hg m.key) fun r hr => ?_
      obtain ⟨c1, st⟩ := r
      obtain ⟨hlat, hg1, hkeys, hfound⟩ := hr
      dsimp only at hlat hg1 hkeys hfound ⊢
      cases st with
      | none => exact step c1 ap hg1 hlat
      | some s =>
        dsimp only
        by_cases hs0 : s.key ≤ 0
        · rw [if_pos hs0]; exact step c1 ap hg1 hlat
        rw [if_neg hs0]
        obtain ⟨MA1, hm1⟩ := keeps_meas hlat hm (hle m (by simp))
        have hle1 : ∀ x ∈ c1.meas.nodes, x.key ≤ m.key + 60 := by
          intro x hx
          obtain ⟨D, e, -⟩ := hlat.meas
          exact hle m (by simp) x (by rw [e]; simp [hx])
        refine Tot.bind_eq (a := m) (Buf.deref_mem hg1.msorted (by rw [hm1]; simp)) ?_
        refine Tot.bind (ha c1 m s hg1 (hlat.keyed hk) (by rw [hm1]; simp) hle1 (hfound s rfl))
          fun c2 h2 => ?_
        obtain ⟨hg2, hlat2, hadj⟩ := h2
        have hlat02 := hlat.trans hlat2
        obtain ⟨MA2, hm2⟩ := keeps_meas hlat02 hm (hle m (by simp))
        refine Tot.bind_eq (Buf.incr_at hm2 hg2.msorted) ?_
        have hnew : ∃ n ∈ c2.states.nodes, s.key ≤ n.key := by
          obtain ⟨n, hn, e, -⟩ := endKey_mem (t := 0) hg2.ne
          obtain ⟨n1, hn1, hle'⟩ := (hfound s rfl).newest
          exact ⟨n, hn, by rw [e, hlat2.newest]; exact hle'.trans (endKey_ge hg1.sorted n1 hn1)⟩
        have hMB : ∀ x ∈ MB, m.key ≤ x.key := by
          intro x hx
          have := hg.msorted
          rw [hm, SortedL.append_iff, SortedL.cons_iff] at this
          exact (this.2.1.1 x hx).le
        refine Tot.bind (Core.repropagate_tot f.toKernel c2 hg2 (MA := MA2 ++ [m]) (MB := MB)
          (by rw [hm2]; simp) hMB hadj hnew) fun r hr => ?_
        obtain ⟨c3, ab⟩ := r
        dsimp only at hr ⊢
        have hg3 := hr.good hg2
        have hlat3 := hlat02.trans hr.later
        cases ab with
        | true => exact Tot.ret ⟨hg3, hlat3⟩
        | false => exact next c3 true hg3 hlat3

theorem finishMeas_tot (hf : f.Tame) (c : Core A W X C M T) (hg : c.Good) :
    Tot (finishMeas f c) fun c' => c'.Good ∧ Core.Later c c' := by
  unfold finishMeas
  refine Tot.bind (propPToState_tot hf c _ hg.sorted hg.tp) fun c1 h => ?_
  have hg1 := h.1.good hg h.2
  cases c1.states.last with
  | none => exact Tot.ret ⟨hg1, h.1.later⟩
  | some n =>
    have hl := h.1.later
    exact Tot.ret ⟨⟨hg1.sorted, hg1.msorted, hg1.tp⟩, ⟨hl.newest, hl.keep, hl.meas, hl.queue, hl.itImu,
      hl.inited, hl.predMade⟩⟩

/-- What `AddMeasurement` leaves behind; unlike `Later`, it may add a measurement. -/
structure _root_.MSF.Core.Added (c c' : Core A W X C M T) : Prop where
  newest : endKey 0 c'.states.nodes = endKey 0 c.states.nodes
  keep : ∀ n ∈ c.states.nodes, endKey 0 c.states.nodes - 60 ≤ n.key →
    ∃ n' ∈ c'.states.nodes, n'.iter = n.iter
  itImu : c'.itImu = c.itImu
  inited : c'.inited = c.inited
  predMade : c'.predMade = c.predMade

theorem addMeasurement_tot (hf : f.Tame) (s1 s2) (ha : Applies s1 s2 f) (c : Core A W X C M T)
    (m : Meas M) (hg : c.Good) (hk : c.Keyed) (hle : ∀ x ∈ c.meas.nodes, x.key ≤ m.time + 60) :
    Tot (addMeasurement (gnuEnv s1 s2) f c m) fun c' => c'.Good ∧ c'.Keyed ∧ Core.Added c c' ∧
      (∀ x ∈ c'.meas.nodes, x ∈ c.meas.nodes ∨ x.key = m.time) ∧
      (c'.queue = c.queue ∨ c'.queue = c.queue ++ [m] ∧ c.inited = true ∧ c.predMade = true ∧
        timeOf c.states.last < m.time) := by
  have same : c.Good ∧ c.Keyed ∧ Core.Added c c ∧
      (∀ x ∈ c.meas.nodes, x ∈ c.meas.nodes ∨ x.key = m.time) ∧
      (c.queue = c.queue ∨ c.queue = c.queue ++ [m] ∧ c.inited = true ∧ c.predMade = true ∧
        timeOf c.states.last < m.time) :=
    ⟨hg, hk, ⟨rfl, fun n hn _ => ⟨n, hn, rfl⟩, rfl, rfl, rfl⟩, fun x hx => .inl hx, .inl rfl⟩
  unfold addMeasurement
  by_cases h1 : c.inited = false ∨ c.predMade = false
  · rw [if_pos h1]; exact Tot.ret same
  rw [if_neg h1]
  rw [not_or, Bool.not_eq_false, Bool.not_eq_false] at h1
  by_cases h2 : m.time > timeOf c.states.last
  · rw [if_pos h2]
    exact Tot.ret ⟨⟨hg.sorted, hg.msorted, hg.tp⟩, hk, ⟨rfl, fun n hn _ => ⟨n, hn, rfl⟩, rfl, rfl, rfl⟩,
      fun x hx => .inl hx, .inr ⟨rfl, h1.1, h1.2, h2⟩⟩
  rw [if_neg h2]
  by_cases h3 : m.time < timeOf c.states.first
  · rw [if_pos h3]; exact Tot.ret same
  rw [if_neg h3]
  have hms : SortedL (c.meas.insert m.time m).1.nodes := Buf.sorted_insert hg.msorted m.time m
  obtain ⟨k, hkm, hkt, hki⟩ := insert_at (b := c.meas) m.time m
  obtain ⟨MA, MB, hsplit⟩ := List.append_of_mem hkm
  have hg1 : Core.Good ({ c with meas := (c.meas.insert m.time m).1, fuzzy := false } : Core A W X C M T) :=
    ⟨hg.sorted, hms, hg.tp⟩
  have hk1 : Core.Keyed ({ c with meas := (c.meas.insert m.time m).1, fuzzy := false } : Core A W X C M T) := by
    intro n hn
    change n ∈ (c.meas.insert m.time m).1.nodes at hn
    cases hfd : c.meas.find m.time with
    | some x => rw [Buf.insert_of_find hfd] at hn; exact hk n hn
    | none =>
      rw [Buf.insert_of_none hfd] at hn
      rcases mem_insertNode.1 hn with rfl | h
      · rfl
      · exact hk n h
  have hins : ∀ x ∈ (c.meas.insert m.time m).1.nodes, x ∈ c.meas.nodes ∨ x.key = m.time :=
    fun x hx => mem_insert_inv hx
  change Tot (measLoop (gnuEnv s1 s2) f ((c.meas.insert m.time m).1.size + 1)
    { c with meas := (c.meas.insert m.time m).1, fuzzy := false } (c.meas.insert m.time m).2 false >>= _) _
  rw [hki]
  refine Tot.bind (measLoop_tot hf s1 s2 ha _ _ MA (k :: MB) false ?_ hg1 hk1 hsplit ?_) fun r hr => ?_
  · simp only [Buf.size, hsplit, List.length_append, List.length_cons]
    omega
  · intro x hx y hy
    have hkx : k.key ≤ x.key := by
      rcases List.mem_cons.1 hx with rfl | hx
      · exact le_rfl
      · have := hms
        rw [hsplit, SortedL.append_iff, SortedL.cons_iff] at this
        exact (this.2.1.1 x hx).le
    rcases hins y hy with h | h
    · have := hle y h
      linarith
    · linarith
  · obtain ⟨c1, ap, ab⟩ := r
    obtain ⟨hg2, hlat⟩ := hr
    dsimp only at hg2 hlat ⊢
    have fin : ∀ c' : Core A W X C M T, c'.Good → Core.Later ({ c with
          meas := (c.meas.insert m.time m).1, fuzzy := false } : Core A W X C M T) c' →
        c'.Good ∧ c'.Keyed ∧ Core.Added c c' ∧
        (∀ x ∈ c'.meas.nodes, x ∈ c.meas.nodes ∨ x.key = m.time) ∧
        (c'.queue = c.queue ∨ c'.queue = c.queue ++ [m] ∧ c.inited = true ∧ c.predMade = true ∧
          timeOf c.states.last < m.time) := by
      intro c' hg' hl
      refine ⟨hg', hl.keyed hk1, ⟨hl.newest, hl.keep, hl.itImu, hl.inited, hl.predMade⟩, fun x hx => ?_,
        .inl hl.queue⟩
      obtain ⟨D, e, -⟩ := hl.meas
      exact hins x (by
        have : x ∈ D ++ c'.meas.nodes := by simp [hx]
        rw [← e] at this
        exact this)
    split
    · exact Tot.ret (fin c1 hg2 hlat)
    · exact (finishMeas_tot hf c1 hg2).mono fun c' h => fin c' h.1 (hlat.trans h.2)

end Flow
end MSF
