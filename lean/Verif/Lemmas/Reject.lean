import Verif.Lemmas.Order

/-!
# A rejected measurement in the batch filter; IMU-only runs; backward search of measurements
-/

namespace MSF
open Spec
variable {A W X C M T E : Type}

section
variable [AddCommGroup A] [Module ℚ A] [AddCommGroup W] [Module ℚ W]

/-- A sorted consistent trajectory with the right times and inputs is the batch filter. -/
theorem batch_of {K : Kernel A W X C M T E} {s0 : X × C} {L : Log A W M} {l : List (SN A W X C)}
    (hs : SortedL l)
    (hk : ∀ k, k ∈ l.map Node.key ↔ k ∈ L.stamps ∨ ∃ m ∈ L.hist, target L.stamps m.time = k)
    (hi : ∀ n ∈ l, n.val.u = inputAt L.imu n.key) (hc : Cons K (measAt L.stamps L.hist) s0 l) :
    l.map entry = Spec.batch K s0.1 s0.2 L := by
  have hk : l.map Node.key = times L := by
    rw [Buf.sorted_iff_keys] at hs
    refine List.SortedLT.eq_of_mem_iff hs.sortedLT (times_sortedLT L) ?_
    intro k
    rw [hk k, mem_times]
  unfold Spec.batch
  rw [← hk]
  cases l with
  | nil => rfl
  | cons a l =>
    have h1 := hc.head a rfl
    have h2 := hi a (by simp)
    simp only [List.map_cons]
    rw [correct_eq_updXP, ← h1, ← h2]
    have := forward_of_chain K (inputAt L.imu) (measAt L.stamps L.hist) l a hc.chain
      (fun n hn => hi n (by simp [hn]))
    rw [this]
    rfl

/-- Adding a measurement that the state at its time rejects leaves the trajectory consistent. -/
theorem Inv.cons_reject {K : Kernel A W X C M T E} (hK : K.Regular) {s0 : X × C}
    {c : Core A W X C M T} {L : Log A W M} {D : List (SN A W X C)} (h : Inv K s0 c L D) {m : Meas M}
    (hdist : ∀ m' ∈ L.hist, target L.stamps m'.time ≠ target L.stamps m.time)
    {n : SN A W X C} (hn : n ∈ c.states.nodes) (hnk : n.key = target L.stamps m.time) {tr : T}
    (hrej : (K.update tr m.body n.val.x n.val.P).applied = false) :
    Cons K (measAt L.stamps (L.hist ++ [m])) s0 (D ++ c.states.nodes) := by
  obtain ⟨A1, B, hAB⟩ := List.append_of_mem hn
  have hmsn : ∀ k, measAt L.stamps (L.hist ++ [m]) k = if target L.stamps m.time = k then some m.body
      else measAt L.stamps L.hist k := fun k => measAt_append hdist k
  have hnone : measAt L.stamps L.hist n.key = none := measAt_none (by rw [hnk]; exact hdist)
  have hc := h.cons
  have hs := h.sorted
  rw [hAB, ← List.append_assoc] at hc hs
  rw [hAB, ← List.append_assoc]
  have hc1 : Cons K (measAt L.stamps L.hist) s0 ((D ++ A1 ++ [n]) ++ B) := by simpa using hc
  have hc2 := Cons.snoc.1 hc1.prefix
  rw [hnone] at hc2
  rw [SortedL.append_iff, SortedL.cons_iff] at hs
  have hcn : Cons K (measAt L.stamps (L.hist ++ [m])) s0 (D ++ A1 ++ [n]) := by
    rw [Cons.snoc]
    refine ⟨hc2.1.congr ?_, ?_⟩
    · intro z hz
      rw [hmsn, if_neg]
      rw [← hnk]
      exact (hs.2.2 z hz n (by simp)).ne'
    · rw [hmsn, if_pos hnk.symm]
      have e : (n.val.x, n.val.P) = prior K s0 (D ++ A1) n := hc2.2
      rw [← e]
      exact (hK.updXP_reject hrej).symm
  refine ⟨?_, ?_⟩
  · have : (D ++ A1 ++ n :: B).head? = (D ++ A1 ++ [n]).head? := by
      cases (D ++ A1) <;> simp
    rw [this]; exact hcn.head
  · rw [List.isChain_split]
    refine ⟨hcn.chain, ?_⟩
    have hch := hc.chain
    rw [List.isChain_split] at hch
    refine rel_tail_congr hch.2 ?_
    intro b hb
    rw [hmsn, if_neg]
    rw [← hnk]
    exact (hs.2.1.1 b hb).ne

omit [AddCommGroup A] [Module ℚ A] [AddCommGroup W] [Module ℚ W] in
/-- Forgetting states older than some time does not matter for those that are newer. -/
theorem filter_recent {N : ℚ} {D l : List (SN A W X C)} (h : ∀ d ∈ D, d.key < N - 60) :
    ((D ++ l).map entry).filter (fun e => N - 60 ≤ e.1) =
      (l.map entry).filter (fun e => N - 60 ≤ e.1) := by
  rw [List.map_append, List.filter_append]
  have : (D.map entry).filter (fun e => decide (N - 60 ≤ e.1)) = [] := by
    rw [List.filter_eq_nil_iff]
    intro e he
    obtain ⟨d, hd, rfl⟩ := List.mem_map.1 he
    have := h d hd
    intro hle
    exact absurd (of_decide_eq_true hle) (not_le.2 this)
  rw [this, List.nil_append]

/-! ## Init and IMU readings only -/

/-- What IMU processing needs to be safe. -/
structure ImuSafe (c : Core A W X C M T) (prev : ℚ) : Prop where
  sorted : SortedL c.states.nodes
  tP : ∃ n ∈ c.states.nodes, n.key = c.tP
  itImu : ∃ n ∈ c.states.nodes, c.itImu = n.iter ∧ n.key = prev
  queue : c.queue = []

omit [AddCommGroup A] [Module ℚ A] [AddCommGroup W] [Module ℚ W] in
theorem ImuSafe.init (K : Kernel A W X C M T E) (c : Core A W X C M T) (t : ℚ) (s : St A W X C) :
    ImuSafe (c.init K t s) t := by
  have hn : (c.init K t s).states.nodes = [⟨t, c.states.fresh, s⟩] := rfl
  refine ⟨by rw [hn]; simp [SortedL], ?_, ?_, rfl⟩
  · exact ⟨⟨t, c.states.fresh, s⟩, by rw [hn]; simp, rfl⟩
  · exact ⟨⟨t, c.states.fresh, s⟩, by rw [hn]; simp, rfl, rfl⟩

omit [AddCommGroup A] [Module ℚ A] [AddCommGroup W] [Module ℚ W] in
/-- The covariance step keeps keys and identities of the nodes. -/
theorem propagatePOneStep_safe (K : Kernel A W X C M T E) (c : Core A W X C M T)
    (hs : SortedL c.states.nodes) (ht : ∃ n ∈ c.states.nodes, n.key = c.tP) :
    ∃ c', Core.propagatePOneStep K c = .ok c' ∧
      c'.states.nodes.map frame = c.states.nodes.map frame ∧
      (∃ n ∈ c'.states.nodes, n.key = c'.tP) ∧ c'.itImu = c.itImu ∧ c'.queue = c.queue := by
  obtain ⟨n, hn, hk⟩ := ht
  obtain ⟨A1, B, hAB⟩ := List.append_of_mem hn
  unfold Core.propagatePOneStep
  have hit : c.states.iterAtValue c.tP = n.iter := by rw [← hk]; exact Core.iterAtValue_mem hs hn
  have hi : c.states.incr n.iter = .ok (Buf.toIter B.head?) := Buf.incr_at hAB hs
  simp only [hit, hi, bind, Except.bind, pure, Except.pure]
  cases B with
  | nil => exact ⟨c, by simp [Buf.toIter], rfl, ⟨n, hn, hk⟩, rfl, rfl⟩
  | cons b B =>
    have hb : b ∈ c.states.nodes := by rw [hAB]; simp
    have hne : (Buf.toIter (b :: B).head?) ≠ .fin := by simp [Buf.toIter, Node.iter]
    have hd : c.states.deref (Buf.toIter (b :: B).head?) = .ok b := Buf.deref_mem hs hb
    simp only [if_neg hne, Buf.deref_mem hs hn, hd]
    have hfr : (Core.predictCov K c n b).states.nodes.map frame = c.states.nodes.map frame ∧
        (∃ z ∈ (Core.predictCov K c n b).states.nodes, z.key = (Core.predictCov K c n b).tP) ∧
        (Core.predictCov K c n b).itImu = c.itImu ∧ (Core.predictCov K c n b).queue = c.queue := by
      unfold Core.predictCov
      split
      · exact ⟨rfl, ⟨n, hn, hk⟩, rfl, rfl⟩
      · have hfr : ∀ f : St A W X C → St A W X C, (∀ v, (f v).u = v.u) →
            (c.states.modify b.key f).nodes.map frame = c.states.nodes.map frame := by
          intro f hf
          simp only [Buf.modify, List.map_map]
          refine List.map_congr_left ?_
          intro z _
          simp only [Function.comp]
          split <;> simp [frame, hf]
        have h1 := hfr (fun s => { s with P := K.predP (b.key - n.key) n.val.P s.u s.x }) (fun _ => rfl)
        refine ⟨h1, ?_, rfl, rfl⟩
        obtain ⟨z, hz, e⟩ := mem_of_frame h1.symm hb
        exact ⟨z, hz, congrArg Prod.fst e⟩
    split
    · exact ⟨_, rfl, hfr⟩
    · exact ⟨_, rfl, hfr.1, hfr.2.1, hfr.2.2⟩

/-- One IMU reading close to the previous stamp. -/
theorem ImuSafe.imu {K : Kernel A W X C M T E} {c : Core A W X C M T} {prev : ℚ} (env : Env)
    (h : c.inited = true → ImuSafe c prev) (t : ℚ) (u : Input A W) (ht : |t - prev| ≤ 1 / 10) :
    ∃ c', Core.processIMU env K c t u = .ok c' ∧
      (c'.inited = true → ImuSafe c' t ∨ c' = c ∧ prev = invalidTime) := by
  cases hi : c.inited with
  | false => exact ⟨c, by simp [Core.processIMU, hi, pure, Except.pure], by simp [hi]⟩
  | true =>
    have h := h hi
    obtain ⟨last, hl, hit, hlk⟩ := h.itImu
    have hd : c.states.deref c.itImu = .ok last := by rw [hit]; exact Buf.deref_mem h.sorted hl
    have hne : c.itImu ≠ .fin := by rw [hit]; simp [Node.iter]
    unfold Core.processIMU
    rw [if_neg (by simp [hi])]
    simp only [if_neg hne, bind, Except.bind, pure, Except.pure, hd]
    by_cases hinv : last.key = invalidTime
    · rw [if_pos hinv]
      exact ⟨c, rfl, fun _ => Or.inr ⟨rfl, hlk ▸ hinv⟩⟩
    rw [if_neg hinv]
    split
    · exact ⟨_, rfl, by simp⟩
    rw [if_neg (by
      rintro ⟨_, h2⟩
      rw [hlk] at h2
      exact absurd ht (not_le.2 h2))]
    -- the propagation step
    have key : ∀ (c1 : Core A W X C M T) (u1 : Input A W), c1.states = c.states → c1.tP = c.tP →
        c1.queue = c.queue → ∃ c', Core.imuPropagate env K c1 last t u1 = .ok c' ∧
          ImuSafe c' t := by
      intro c1 u1 hc1s hc1t hc1q
      unfold Core.imuPropagate
      obtain ⟨b, it, hb⟩ : ∃ b it, c1.states.insert t
          (⟨u1, K.prop (t - last.key) last.val.u last.val.x u1, K.P0⟩ : St A W X C) = (b, it) :=
        ⟨_, _, rfl⟩
      have hsb : SortedL b.nodes := by
        have := Buf.sorted_insert (b := c1.states) (by rw [hc1s]; exact h.sorted) t
          (⟨u1, K.prop (t - last.key) last.val.u last.val.x u1, K.P0⟩ : St A W X C)
        rw [hb] at this; exact this
      have hmem : (∀ z ∈ c.states.nodes, z ∈ b.nodes) ∧ ∃ z ∈ b.nodes, it = z.iter ∧ z.key = t := by
        cases hf : c1.states.find t with
        | some z =>
          rw [Buf.insert_of_find hf] at hb
          obtain ⟨rfl, rfl⟩ := Prod.mk.inj hb
          have := Buf.find_some hf
          exact ⟨by rw [hc1s]; exact fun z hz => hz, z, this.1, rfl, this.2⟩
        | none =>
          rw [Buf.insert_of_none hf] at hb
          obtain ⟨rfl, rfl⟩ := Prod.mk.inj hb
          refine ⟨?_, ?_⟩
          · intro z hz
            exact mem_insertNode.2 (Or.inr (by rw [hc1s]; exact hz))
          · exact ⟨_, mem_insertNode.2 (Or.inl rfl), rfl, rfl⟩
      simp only [hb, bind, Except.bind, pure, Except.pure]
      obtain ⟨n0, hn0, hk0⟩ := h.tP
      obtain ⟨c2, e2, hfr, htP, hit2, hq2⟩ := propagatePOneStep_safe K
        { c1 with states := b, itImu := it } hsb ⟨n0, hmem.1 n0 hn0, by simp only; rw [hc1t]; exact hk0⟩
      rw [e2]
      simp only
      obtain ⟨z, hz, hzi, hzk⟩ := hmem.2
      obtain ⟨z', hz', ez⟩ := mem_of_frame hfr.symm hz
      have hs2 : SortedL c2.states.nodes := (sorted_of_frame hfr).2 hsb
      have hzi' : z'.iter = it := by
        rw [hzi]
        simp only [frame, Prod.mk.injEq] at ez
        simp [Node.iter, ez.1, ez.2.1]
      have hd2 : c2.states.deref it = .ok z' := by rw [← hzi']; exact Buf.deref_mem hs2 hz'
      have hzk' : z'.key = t := (congrArg Prod.fst ez).trans hzk
      have safe : ∀ o pm, ImuSafe ({ c2 with out := o, predMade := pm } : Core A W X C M T) t := by
        intro o pm
        exact ⟨hs2, htP, ⟨z', hz', hit2.trans hzi'.symm, hzk'⟩, hq2.trans (hc1q.trans h.queue)⟩
      have hq0 : c2.queue = [] := hq2.trans (hc1q.trans h.queue)
      have hpend : ∀ o pm, Core.handlePending env K
          ({ c2 with out := o, predMade := pm } : Core A W X C M T) =
          .ok { c2 with out := o, predMade := pm } := by
        intro o pm
        unfold Core.handlePending
        simp only [hq0]
      have tail : ∀ cur : St A W X C, ∃ c',
          (if (if c2.states.size > 3 then
                ({ c2 with out := c2.out ++ [.afterPropagation t cur.x cur.P], predMade := true } :
                  Core A W X C M T)
              else { c2 with out := c2.out ++ [.afterPropagation t cur.x cur.P] }).predMade = true then
            Core.handlePending env K (if c2.states.size > 3 then
                { c2 with out := c2.out ++ [.afterPropagation t cur.x cur.P], predMade := true }
              else { c2 with out := c2.out ++ [.afterPropagation t cur.x cur.P] })
          else .ok (if c2.states.size > 3 then
                { c2 with out := c2.out ++ [.afterPropagation t cur.x cur.P], predMade := true }
              else { c2 with out := c2.out ++ [.afterPropagation t cur.x cur.P] })) = .ok c' ∧
          ImuSafe c' t := by
        intro cur
        by_cases hsz : c2.states.size > 3
        · simp only [if_pos hsz, if_true]
          rw [hpend]
          exact ⟨_, rfl, safe _ _⟩
        · simp only [if_neg hsz]
          split
          · exact ⟨_, hpend _ c2.predMade, safe _ _⟩
          · exact ⟨_, rfl, safe _ c2.predMade⟩
      split
      · exact tail ⟨u1, K.prop (t - last.key) last.val.u last.val.x u1, K.P0⟩
      · rw [hd2]
        exact tail z'.val
    obtain ⟨c', e', hs'⟩ := key
      (if K.spike u.a = true then c else { c with lastAmImu := last.val.u.a })
      (if K.spike u.a = true then { u with a := c.lastAmImu } else u)
      (by split <;> rfl) (by split <;> rfl) (by split <;> rfl)
    refine ⟨c', ?_, fun _ => Or.inl hs'⟩
    exact e'

end

/-- Iterator to the last of some nodes, or `bb`. -/
def lastOr (bb : Iter) (l : List (Node (Meas M))) : Iter :=
  match l.getLast? with
  | none => bb
  | some n => n.iter

/-- The backward search finds the last earlier measurement of the sensor. -/
theorem prevLoop_eq (env : Env) (c : Core A W X C M T) (t : ℚ) (sensor : Int) (bb : Iter)
    (hbb : c.meas.decBegin env.pm = .ok bb) (hs : SortedL c.meas.nodes) :
    ∀ (P : List (Node (Meas M))) (fuel : Nat), P.length < fuel →
      ∀ B, c.meas.nodes = P ++ B → (∀ n ∈ P, n.key ≠ t) → (∀ n ∈ P, n.iter ≠ bb) →
      Core.prevLoop env c t sensor bb fuel (lastOr bb P) =
        .ok (lastOr bb (P.filter (fun n => n.val.sensor = sensor))) := by
  intro P
  induction P using List.reverseRecOn with
  | nil =>
    intro fuel hf B _ _ _
    obtain ⟨f, rfl⟩ : ∃ f, fuel = f + 1 := ⟨fuel - 1, by simp at hf; omega⟩
    simp [Core.prevLoop, lastOr]
  | append_singleton P x ih =>
    intro fuel hf B hl hk hb
    obtain ⟨f, rfl⟩ : ∃ f, fuel = f + 1 := ⟨fuel - 1, by simp at hf; omega⟩
    have hx : x ∈ c.meas.nodes := by rw [hl]; simp
    have e : lastOr bb (P ++ [x]) = x.iter := by simp [lastOr]
    rw [e]
    unfold Core.prevLoop
    rw [if_neg (hb x (by simp)), Buf.deref_mem hs hx]
    simp only [bind, Except.bind, pure, Except.pure]
    by_cases hsx : x.val.sensor = sensor
    · rw [if_neg (by simp [hsx])]
      simp [List.filter_append, hsx, lastOr]
    · rw [if_pos ⟨hk x (by simp), hsx⟩]
      have hdec : c.meas.decr env.pm x.iter = .ok (lastOr bb P) := by
        rcases List.eq_nil_or_concat P with rfl | ⟨P', y, rfl⟩
        · rw [Buf.decr_first (B := B) (by simpa using hl) hs, hbb]; simp [lastOr]
        · rw [List.concat_eq_append] at hl ⊢
          rw [Buf.decr_at (A := P') (m := y) (n := x) (B := B) (by simpa using hl) hs]
          simp [lastOr]
      rw [hdec]
      simp only
      rw [ih f (by simp at hf; omega) (x :: B) (by simpa using hl)
        (fun n hn => hk n (by simp [hn])) (fun n hn => hb n (by simp [hn]))]
      simp [List.filter_append, hsx]

end MSF
