import Verif.Lemmas.Nearest

/-!
# Properties C01–C06: the time-ordered buffer
-/

namespace MSF
variable {V : Type}

/-! ## Specification -/

/-- The public mutating operations of the buffer. -/
inductive BufOp (V : Type) where
  | insert (t : ℚ) (v : V)
  | updateTime (told tnew : ℚ)
  | clearOlderThan (age : ℚ)
  | clear

/-- One operation on the model. -/
def BufOp.run (p : Plat) (b : Buf V) : BufOp V → Except UB (Buf V)
  | .insert t v => .ok (b.insert t v).1
  | .updateTime told tnew => .ok (b.updateTime told tnew).1
  | .clearOlderThan age => b.clearOlderThan p age
  | .clear => .ok b.clear

/-- A sequence of operations. -/
def BufOp.runAll (p : Plat) : Buf V → List (BufOp V) → Except UB (Buf V)
  | b, [] => .ok b
  | b, o :: os => (o.run p b).bind fun b' => runAll p b' os

/-- Abstract content of a buffer: a partial function from times to objects. -/
def Buf.content (b : Buf V) (t : ℚ) : Option V := (b.valueAt t).map Node.val

/-- What each operation does to the abstract map. -/
inductive SpecStep : (ℚ → Option V) → BufOp V → (ℚ → Option V) → Prop where
  /-- inserting at a free time adds the object -/
  | insertFree {m t v} : m t = none → SpecStep m (.insert t v) (fun s => if s = t then some v else m s)
  /-- inserting at an occupied time changes nothing -/
  | insertOccupied {m t v w} : m t = some w → SpecStep m (.insert t v) m
  /-- re-timing an object that does not exist changes nothing -/
  | updateMissing {m told tnew} : m told = none → SpecStep m (.updateTime told tnew) m
  /-- re-timing to a free time moves the object -/
  | updateMove {m told tnew v} : m told = some v → (told = tnew ∨ m tnew = none) →
      SpecStep m (.updateTime told tnew)
        (fun s => if s = tnew then some v else if s = told then none else m s)
  /-- re-timing to another object's time loses the moved object -/
  | updateDrop {m told tnew v w} : m told = some v → told ≠ tnew → m tnew = some w →
      SpecStep m (.updateTime told tnew) (fun s => if s = told then none else m s)
  /-- clean-up removes everything before some time -/
  | clean {m age} (cut : ℚ) : SpecStep m (.clearOlderThan age) (fun s => if s < cut then none else m s)
  /-- clean-up may find nothing to remove -/
  | cleanNothing {m age} : SpecStep m (.clearOlderThan age) m
  | clear {m} : SpecStep m .clear (fun _ => none)

/-- Runs of the abstract map. -/
inductive SpecRun : (ℚ → Option V) → List (BufOp V) → (ℚ → Option V) → Prop where
  | nil {m} : SpecRun m [] m
  | cons {m m' m'' o os} : SpecStep m o m' → SpecRun m' os m'' → SpecRun m (o :: os) m''

/-! ## C01 -/

theorem Buf.content_some {b : Buf V} (hs : SortedL b.nodes) {t : ℚ} {v : V} :
    b.content t = some v ↔ ∃ n ∈ b.nodes, n.key = t ∧ n.val = v := by
  unfold Buf.content Buf.valueAt
  rw [Option.map_eq_some_iff]
  constructor
  · rintro ⟨n, hn, rfl⟩
    exact ⟨n, (Buf.find_some hn).1, (Buf.find_some hn).2, rfl⟩
  · rintro ⟨n, hn, rfl, rfl⟩
    exact ⟨n, Buf.find_eq_some hs hn, rfl⟩

theorem Buf.content_none {b : Buf V} {t : ℚ} :
    b.content t = none ↔ ∀ n ∈ b.nodes, n.key ≠ t := by
  unfold Buf.content Buf.valueAt
  rw [Option.map_eq_none_iff, Buf.find_none_iff]

/-- Two sorted buffers with the same (key, value) pairs have the same content. -/
theorem Buf.content_ext {b : Buf V} (hs : SortedL b.nodes) {m : ℚ → Option V}
    (h1 : ∀ n ∈ b.nodes, m n.key = some n.val)
    (h2 : ∀ t v, m t = some v → ∃ n ∈ b.nodes, n.key = t ∧ n.val = v) : b.content = m := by
  funext t
  cases hm : m t with
  | none =>
    rw [Buf.content_none]
    intro n hn hk
    have := h1 n hn
    rw [hk, hm] at this
    cases this
  | some v => exact (Buf.content_some hs).2 (h2 t v hm)

theorem content_insert_free {b : Buf V} (hs : SortedL b.nodes) {t : ℚ} {v : V}
    (h : b.content t = none) :
    (b.insert t v).1.content = fun s => if s = t then some v else b.content s := by
  have hf : b.find t = none := Buf.find_none_iff.2 (Buf.content_none.1 h)
  apply Buf.content_ext (Buf.sorted_insert hs t v)
  · intro n hn
    rw [Buf.insert_of_none hf] at hn
    rcases mem_insertNode.1 hn with rfl | hn
    · simp
    · have := Buf.content_none.1 h n hn
      simp only [this, if_false]
      exact (Buf.content_some hs).2 ⟨n, hn, rfl, rfl⟩
  · intro s w hw
    rw [Buf.insert_of_none hf]
    simp only at hw ⊢
    split at hw
    · rename_i hst
      exact ⟨_, mem_insertNode.2 (Or.inl rfl), hst.symm, by simpa using hw⟩
    · obtain ⟨n, hn, h1, h2⟩ := (Buf.content_some hs).1 hw
      exact ⟨n, mem_insertNode.2 (Or.inr hn), h1, h2⟩

theorem content_insert_occupied {b : Buf V} {t : ℚ} {v w : V}
    (h : b.content t = some w) : (b.insert t v).1 = b := by
  unfold Buf.content Buf.valueAt at h
  rw [Option.map_eq_some_iff] at h
  obtain ⟨n, hn, _⟩ := h
  rw [Buf.insert_of_find hn]

theorem content_erase {b : Buf V} (hs : SortedL b.nodes) (k : ℚ) :
    ({ b with nodes := b.nodes.filter (fun m => m.key ≠ k) } : Buf V).content =
      fun s => if s = k then none else b.content s := by
  apply Buf.content_ext (Buf.sorted_filter hs _)
  · intro n hn
    simp only [List.mem_filter, decide_eq_true_eq] at hn
    simp only [hn.2, if_false]
    exact (Buf.content_some hs).2 ⟨n, hn.1, rfl, rfl⟩
  · intro s w hw
    split at hw
    · simp at hw
    · rename_i hsk
      obtain ⟨n, hn, h1, h2⟩ := (Buf.content_some hs).1 hw
      exact ⟨n, by simp [hn, h1, hsk], h1, h2⟩

theorem content_suffix {b : Buf V} (hs : SortedL b.nodes) (k : ℚ) :
    ({ b with nodes := b.nodes.filter (fun m => k ≤ m.key) } : Buf V).content =
      fun s => if s < k then none else b.content s := by
  apply Buf.content_ext (Buf.sorted_filter hs _)
  · intro n hn
    simp only [List.mem_filter, decide_eq_true_eq] at hn
    simp only [not_lt.2 hn.2, if_false]
    exact (Buf.content_some hs).2 ⟨n, hn.1, rfl, rfl⟩
  · intro s w hw
    split at hw
    · simp at hw
    · rename_i hsk
      obtain ⟨n, hn, h1, h2⟩ := (Buf.content_some hs).1 hw
      exact ⟨n, by simp [hn, h1, not_lt.1 hsk], h1, h2⟩

theorem updateTime_eq {b : Buf V} {told tnew : ℚ} {n : Node V} (h : b.find told = some n) :
    (b.updateTime told tnew).1 =
      (({ b with nodes := b.nodes.filter (fun m => m.key ≠ told) } : Buf V).insert tnew n.val).1 := by
  have hk := (Buf.find_some h).2
  unfold Buf.updateTime
  rw [h]
  simp only [hk]

/-- Every operation keeps the order and refines the abstract map. -/
theorem step_refines (p : Plat) {b b' : Buf V} (hs : SortedL b.nodes) (o : BufOp V)
    (h : o.run p b = .ok b') : SortedL b'.nodes ∧ SpecStep b.content o b'.content := by
  cases o with
  | insert t v =>
    simp only [BufOp.run, Except.ok.injEq] at h
    subst h
    refine ⟨Buf.sorted_insert hs t v, ?_⟩
    cases hc : b.content t with
    | none => rw [content_insert_free hs hc]; exact .insertFree hc
    | some w => rw [content_insert_occupied hc]; exact .insertOccupied hc
  | updateTime told tnew =>
    simp only [BufOp.run, Except.ok.injEq] at h
    subst h
    cases hf : b.find told with
    | none =>
      have : (b.updateTime told tnew).1 = b := by unfold Buf.updateTime; rw [hf]
      rw [this]
      exact ⟨hs, .updateMissing (Buf.content_none.2 (Buf.find_none_iff.1 hf))⟩
    | some n =>
      rw [updateTime_eq hf]
      set b1 : Buf V := { b with nodes := b.nodes.filter (fun m => m.key ≠ told) } with hb1
      have hs1 : SortedL b1.nodes := Buf.sorted_filter hs _
      have hc1 : b1.content = fun s => if s = told then none else b.content s := content_erase hs told
      have hv : b.content told = some n.val :=
        (Buf.content_some hs).2 ⟨n, (Buf.find_some hf).1, (Buf.find_some hf).2, rfl⟩
      refine ⟨Buf.sorted_insert hs1 tnew n.val, ?_⟩
      cases hc : b1.content tnew with
      | none =>
        rw [content_insert_free hs1 hc, hc1]
        refine .updateMove hv ?_
        rw [hc1] at hc
        simp only at hc
        split at hc
        · rename_i h; exact Or.inl h.symm
        · exact Or.inr hc
      | some w =>
        rw [content_insert_occupied hc, hc1]
        rw [hc1] at hc
        simp only at hc
        split at hc
        · simp at hc
        · rename_i h; exact .updateDrop hv (fun e => h e.symm) hc
  | clearOlderThan age =>
    simp only [BufOp.run, Buf.clearOlderThan, bind, Except.bind, pure, Except.pure] at h
    split at h
    · simp only [Except.ok.injEq] at h; subst h; exact ⟨hs, .cleanNothing⟩
    · split at h
      · simp at h
      · split at h
        · simp at h
        · rename_i n _
          split at h
          · simp at h
          · split at h
            · simp only [Except.ok.injEq] at h
              subst h
              refine ⟨Buf.sorted_filter hs _, ?_⟩
              rw [content_suffix hs]
              exact .clean n.key
            · simp only [Except.ok.injEq] at h; subst h; exact ⟨hs, .cleanNothing⟩
  | clear =>
    simp only [BufOp.run, Except.ok.injEq] at h
    subst h
    refine ⟨by simp [Buf.clear, SortedL], ?_⟩
    have : b.clear.content = fun _ => none := by
      funext t; exact Buf.content_none.2 (by simp [Buf.clear])
    rw [this]
    exact .clear

/-- **C01**. After any sequence of operations the objects are in strictly increasing time order, an
object is found exactly at its own time, and the content evolved as an abstract map. -/
theorem C01_buffer_is_ordered_map (p : Plat) (ops : List (BufOp V)) (b : Buf V)
    (h : BufOp.runAll p {} ops = .ok b) :
    b.nodes.Pairwise (fun x y => x.key < y.key) ∧
    (∀ n t, b.valueAt t = some n ↔ n ∈ b.nodes ∧ n.key = t) ∧
    SpecRun (fun _ => none) ops b.content := by
  have key : ∀ (ops : List (BufOp V)) (b0 b : Buf V), SortedL b0.nodes →
      BufOp.runAll p b0 ops = .ok b → SortedL b.nodes ∧ SpecRun b0.content ops b.content := by
    intro ops
    induction ops with
    | nil =>
      intro b0 b hs h
      simp only [BufOp.runAll, Except.ok.injEq] at h
      subst h
      exact ⟨hs, .nil⟩
    | cons o os ih =>
      intro b0 b hs h
      simp only [BufOp.runAll] at h
      cases ho : o.run p b0 with
      | error e => rw [ho] at h; simp [Except.bind] at h
      | ok b1 =>
        rw [ho] at h
        simp only [Except.bind] at h
        obtain ⟨hs1, st⟩ := step_refines p hs o ho
        obtain ⟨hs2, rn⟩ := ih b1 b hs1 h
        exact ⟨hs2, .cons st rn⟩
  obtain ⟨hs, hr⟩ := key ops {} b (by simp [SortedL]) h
  refine ⟨hs, fun n t => Buf.find_iff hs, ?_⟩
  have : ({} : Buf V).content = fun _ => none := by
    funext t; exact Buf.content_none.2 (by simp)
  rw [← this]
  exact hr

/-- Non-vacuity of C01: a run that inserts out of order, hits an occupied time, re-times and cleans. -/
example : (BufOp.runAll (.gnu fun _ _ => false) {}
    [.insert 3 'a', .insert 1 'b', .insert 2 'c', .insert 2 'd', .updateTime 1 70,
     .insert 75 'e', .clearOlderThan 60]).toOption.map Buf.keys = some [3, 70, 75] := by
  decide +kernel

/-- The hypothesis of C01 always holds on libstdc++ for positive ages: no operation fails. -/
theorem C01_runs_succeed (shape : Nat → List ℚ → Bool) (b : Buf V) (hs : SortedL b.nodes)
    (o : BufOp V) (hage : ∀ age, o = .clearOlderThan age → 0 < age) :
    ∃ b', o.run (.gnu shape) b = .ok b' := by
  cases o with
  | insert t v => exact ⟨_, rfl⟩
  | updateTime told tnew => exact ⟨_, rfl⟩
  | clear => exact ⟨_, rfl⟩
  | clearOlderThan age =>
    have ha := hage age rfl
    simp only [BufOp.run, Buf.clearOlderThan, bind, Except.bind, pure, Except.pure]
    split
    · exact ⟨_, rfl⟩
    · rename_i hold
      by_cases hne : b.nodes = []
      · simp [Buf.last, Buf.first, hne] at hold; linarith
      · obtain ⟨n, hn, hit⟩ := Buf.iterClosest_gnu_ok shape hs hne (timeOf b.last - age)
        rw [hit]
        simp only [Buf.deref_mem hs hn]
        cases hb : b.nodes with
        | nil => exact absurd hb hne
        | cons a l =>
          rw [Buf.begin_cons hb, Buf.deref_mem hs (by simp [hb])]
          simp only
          split <;> exact ⟨_, rfl⟩

/-! ## C02 -/

/-- **C02**. The pointer query returns a nearest object, the earlier one on a tie; it returns the
invalid object exactly on an empty buffer.  (`-1` is the reserved `INVALID_TIME`.) -/
theorem C02_closest_is_nearest (b : Buf V) (hs : b.nodes.Pairwise (fun x y => x.key < y.key))
    (hinv : ∀ n ∈ b.nodes, n.key ≠ -1) (t : ℚ) :
    (b.closest t = none ↔ b.nodes = []) ∧
    ∀ n, b.closest t = some n → n ∈ b.nodes ∧
      ∀ m ∈ b.nodes, |n.key - t| ≤ |m.key - t| ∧ (|n.key - t| = |m.key - t| → n.key ≤ m.key) := by
  change SortedL b.nodes at hs
  by_cases hne : b.nodes = []
  · have : b.closest t = none := by
      simp [Buf.closest, Buf.valueAt, Buf.find, hne, Buf.closestBefore, Buf.closestAfter,
        Buf.upperBound, timeOf]
    simp [this, hne]
  · suffices h : ∃ n, b.closest t = some n ∧ NearestIn t b.nodes n by
      obtain ⟨n, hn, hN⟩ := h
      refine ⟨by simp [hn, hne], ?_⟩
      intro m hm
      rw [hn, Option.some.injEq] at hm
      exact hm ▸ hN
    cases hf : b.find t with
    | some n =>
      refine ⟨n, Buf.closest_of_find hf, (Buf.find_some hf).1, ?_⟩
      intro m _
      rw [(Buf.find_some hf).2]
      simp only [sub_self, abs_zero]
      refine ⟨abs_nonneg _, fun h => ?_⟩
      have := abs_eq_zero.1 h.symm
      linarith
    | none =>
      rcases Buf.position hs hne hf with ⟨n, B, hl, ht⟩ | ⟨A, n, hl, ht⟩ | ⟨A, m, n, B, hl, h1, h2⟩
      · exact ⟨n, Buf.closest_below hl hs ht hinv, nearest_of_below hl hs ht⟩
      · exact ⟨n, Buf.closest_above hl hs ht hinv, nearest_of_above hl hs ht⟩
      · refine ⟨_, ?_, nearest_of_between hl hs h1 h2⟩
        rw [Buf.closest_between hl hs h1 h2 hinv]
        split <;> rfl

/-- Non-vacuity of C02: a tie between 1 and 3 goes to the earlier object. -/
example : let b : Buf Char := ⟨[⟨1, 0, 'a'⟩, ⟨3, 1, 'b'⟩, ⟨7, 2, 'c'⟩], 3⟩
    b.nodes.Pairwise (fun x y => x.key < y.key) ∧ (∀ n ∈ b.nodes, n.key ≠ -1) ∧
    b.closest 2 = some ⟨1, 0, 'a'⟩ ∧ b.closest 6 = some ⟨7, 2, 'c'⟩ := by
  decide +kernel

/-- The one-sided pointer queries: `GetClosestAfter` yields the first object strictly after `t`;
`GetClosestBefore` yields the last object strictly before `t`, and the first object if there is none. -/
theorem C02_before_after (b : Buf V) (hs : b.nodes.Pairwise (fun x y => x.key < y.key)) (t : ℚ) :
    (∀ n, b.closestAfter t = some n ↔ n ∈ b.nodes ∧ t < n.key ∧ ∀ m ∈ b.nodes, t < m.key → n.key ≤ m.key) ∧
    (∀ n, b.closestBefore t = some n ↔
      n ∈ b.nodes ∧ ((n.key < t ∧ ∀ m ∈ b.nodes, m.key < t → m.key ≤ n.key) ∨
        ((∀ m ∈ b.nodes, t ≤ m.key) ∧ ∀ m ∈ b.nodes, n.key ≤ m.key))) := by
  change SortedL b.nodes at hs
  have inj : ∀ n ∈ b.nodes, ∀ m ∈ b.nodes, n.key = m.key → n = m := by
    intro n hn m hm h
    have h1 := Buf.find_eq_some hs hn
    have h2 := Buf.find_eq_some hs hm
    rw [h, h2] at h1
    exact (Option.some.inj h1).symm
  constructor
  · intro n
    unfold Buf.closestAfter Buf.upperBound
    constructor
    · intro h
      refine ⟨List.mem_of_find?_eq_some h, by simpa using List.find?_some h, ?_⟩
      intro m hm htm
      rw [List.find?_eq_some_iff_append] at h
      obtain ⟨_, as, bs, hl, has⟩ := h
      rw [hl] at hm
      rw [hl, SortedL.append_iff, SortedL.cons_iff] at hs
      rcases List.mem_append.1 hm with h | h
      · have := has m h; simp at this; linarith
      · rcases List.mem_cons.1 h with rfl | h
        · exact le_rfl
        · exact (hs.2.1.1 m h).le
    · rintro ⟨hn, htn, hmin⟩
      cases hf : b.nodes.find? (fun n => decide (t < n.key)) with
      | none =>
        rw [List.find?_eq_none] at hf
        exact absurd htn (by simpa using hf n hn)
      | some k =>
        have hk := List.mem_of_find?_eq_some hf
        have hk2 : t < k.key := by simpa using List.find?_some hf
        rw [List.find?_eq_some_iff_append] at hf
        obtain ⟨_, as, bs, hl, has⟩ := hf
        have hkn : k.key ≤ n.key := by
          rw [hl] at hn
          rw [hl, SortedL.append_iff, SortedL.cons_iff] at hs
          rcases List.mem_append.1 hn with h | h
          · have := has n h; simp at this; linarith
          · rcases List.mem_cons.1 h with rfl | h
            · exact le_rfl
            · exact (hs.2.1.1 n h).le
        rw [inj k hk n hn (le_antisymm hkn (hmin k hk hk2))]
  · obtain ⟨A, B, hl, hA, hB⟩ := SortedL.split _ hs t
    intro n
    rw [Buf.closestBefore_split hl hA hB]
    rcases List.eq_nil_or_concat A with rfl | ⟨A', k, rfl⟩
    · simp only [List.getLast?_nil]
      have hBn : b.nodes = B := by simpa using hl
      have hall : ∀ m ∈ b.nodes, t ≤ m.key := by rw [hBn]; exact hB
      constructor
      · intro h
        have hn : n ∈ b.nodes := List.mem_of_head? h
        refine ⟨hn, Or.inr ⟨hall, ?_⟩⟩
        cases hb : b.nodes with
        | nil => simp [hb] at h
        | cons a l =>
          rw [hb, List.head?_cons, Option.some.injEq] at h
          subst h
          rw [hb, SortedL.cons_iff] at hs
          intro m hm
          rcases List.mem_cons.1 hm with rfl | hm
          · exact le_rfl
          · exact (hs.1 m hm).le
      · rintro ⟨hn, h | ⟨_, hmin⟩⟩
        · exact absurd h.1 (not_lt.2 (hall n hn))
        · cases hb : b.nodes with
          | nil => simp [hb] at hn
          | cons a l =>
            simp only [List.head?_cons, Option.some.injEq]
            apply inj a (by simp [hb]) n hn
            apply le_antisymm _ (hmin a (by simp [hb]))
            rw [hb, SortedL.cons_iff] at hs
            rw [hb] at hn
            rcases List.mem_cons.1 hn with rfl | hn
            · exact le_rfl
            · exact (hs.1 n hn).le
    · have hkm : k ∈ b.nodes := by rw [hl]; simp
      have hk : k.key < t := hA k (by simp)
      have hmax : ∀ m ∈ b.nodes, m.key < t → m.key ≤ k.key := by
        intro m hm hmt
        rw [hl] at hm
        rw [hl, SortedL.append_iff, List.concat_eq_append, SortedL.append_iff] at hs
        rcases List.mem_append.1 hm with h | h
        · rw [List.concat_eq_append] at h
          rcases List.mem_append.1 h with h | h
          · exact (hs.1.2.2 m h k (by simp)).le
          · simp only [List.mem_singleton] at h; rw [h]
        · exact absurd hmt (not_lt.2 (hB m h))
      simp only [List.concat_eq_append, List.getLast?_append, List.getLast?_singleton, Option.some_or,
        Option.some.injEq]
      constructor
      · rintro rfl; exact ⟨hkm, Or.inl ⟨hk, hmax⟩⟩
      · rintro ⟨hn, ⟨hnt, hnmax⟩ | ⟨h, _⟩⟩
        · exact inj k hkm n hn (le_antisymm (hnmax k hkm hk) (hmax n hn hnt))
        · exact absurd hk (not_lt.2 (h k hkm))

/-! ## C03 -/

/-- **C03 (partial)**. On libstdc++ the iterator query designates the object of the pointer query,
except possibly for two-element buffers whose tree root is the smaller element.
Full claim: the same without the hypothesis `h2`; it is false, see `C03_violated`. -/
theorem C03_iterator_query_agrees_partial (shape : Nat → List ℚ → Bool) (b : Buf V)
    (hs : b.nodes.Pairwise (fun x y => x.key < y.key)) (hne : b.nodes ≠ [])
    (hinv : ∀ n ∈ b.nodes, n.key ≠ -1)
    (h2 : b.nodes.length ≠ 2 ∨ shape b.fresh b.keys = false) (t : ℚ) :
    ∃ n, b.closest t = some n ∧ b.iterClosest (.gnu shape) t = .ok n.iter := by
  obtain ⟨n, _, h⟩ := Buf.iterClosest_gnu (shape := shape) (t := t) hs hne hinv h2
  exact ⟨n, h⟩

/-- Non-vacuity of C03 (partial). -/
example : let b : Buf Char := ⟨[⟨1, 0, 'a'⟩, ⟨3, 1, 'b'⟩, ⟨7, 2, 'c'⟩], 3⟩
    b.nodes.Pairwise (fun x y => x.key < y.key) ∧ b.nodes ≠ [] ∧ b.nodes.length ≠ 2 ∧
    b.iterClosest (.gnu fun _ _ => true) 6 = .ok (.at 7 2) := by
  decide +kernel

/-- **C03 is violated**: inserting 1 and then 2 gives a tree with root 1 (leftmost); the query for
`19/10` then designates the object at 1 although the one at 2 is closer. -/
theorem C03_violated :
    ∃ (shape : Nat → List ℚ → Bool) (b : Buf Char) (t : ℚ) (n m : Node Char),
      BufOp.runAll (.gnu shape) {} [.insert 1 'a', .insert 2 'b'] = .ok b ∧
      b.closest t = some n ∧ b.iterClosest (.gnu shape) t = .ok m.iter ∧
      |n.key - t| < |m.key - t| :=
  ⟨fun _ _ => true, ⟨[⟨1, 0, 'a'⟩, ⟨2, 1, 'b'⟩], 2⟩, 19/10, ⟨2, 1, 'b'⟩, ⟨1, 0, 'a'⟩,
    by decide +kernel⟩

/-! ## C04 -/

/-- **C04 is violated**, for every non-empty buffer and every query time without an exact hit: the
iterator query decrements `begin()`. -/
theorem C04_violated (b : Buf V) (hs : b.nodes.Pairwise (fun x y => x.key < y.key))
    (hne : b.nodes ≠ []) (t : ℚ) (ht : ∀ n ∈ b.nodes, n.key ≠ t) :
    b.iterClosest .std t = .error .decBegin ∧ b.iterBeforeBegin .std = .error .decBegin := by
  change SortedL b.nodes at hs
  have hf : b.find t = none := Buf.find_none_iff.2 ht
  refine ⟨?_, rfl⟩
  unfold Buf.iterClosest
  rw [hf]
  simp only [bind, Except.bind, Buf.iterBeforeBegin, Buf.decBegin]
  cases h : b.iterClosestBefore .std t with
  | ok it => rfl
  | error e =>
    -- the only failure of the first step is itself a decrement of begin()
    unfold Buf.iterClosestBefore at h
    rcases Buf.position hs hne hf with ⟨n, B, hl, hlt⟩ | ⟨A, n, hl, hlt⟩ | ⟨A, m, n, B, hl, h1, h2⟩
    · have hs' := hs
      rw [hl, SortedL.cons_iff] at hs'
      have hlb : b.lowerBound t = some n := by
        rw [Buf.lowerBound_split (A := []) (B := n :: B) (by simp [hl]) (by simp)]
        · simp
        · intro m hm
          rcases List.mem_cons.1 hm with rfl | hm
          · exact hlt.le
          · exact (hlt.trans (hs'.1 m hm)).le
      rw [hlb] at h
      simp only [Buf.toIter] at h
      rw [Buf.decr_first hl hs] at h
      simpa [Buf.decBegin] using h.symm
    · have hs' := hs
      rw [hl, SortedL.append_iff] at hs'
      have hlb : b.lowerBound t = none := by
        rw [Buf.lowerBound_split (A := A ++ [n]) (B := []) (by simp [hl]) _ (by simp)]
        · simp
        · intro m hm
          rcases List.mem_append.1 hm with h | h
          · exact (hs'.2.2 m h n (by simp)).trans hlt
          · simp only [List.mem_singleton] at h; rw [h]; exact hlt
      rw [hlb] at h
      simp only [Buf.toIter] at h
      rw [Buf.decr_fin hl] at h
      simp at h
    · have hs' := hs
      rw [hl, SortedL.append_iff, SortedL.cons_iff, SortedL.cons_iff] at hs'
      have hlb : b.lowerBound t = some n := by
        rw [Buf.lowerBound_split (A := A ++ [m]) (B := n :: B) (by simp [hl])]
        · simp
        · intro k hk
          rcases List.mem_append.1 hk with h | h
          · exact (hs'.2.2 k h m (by simp)).trans h1
          · simp only [List.mem_singleton] at h; rw [h]; exact h1
        · intro k hk
          rcases List.mem_cons.1 hk with rfl | hk
          · exact h2.le
          · exact (h2.trans (hs'.2.1.2.1 k hk)).le
      rw [hlb] at h
      simp only [Buf.toIter] at h
      rw [Buf.decr_at hl hs] at h
      simp at h

/-- Non-vacuity of C04: the buffer of the second unit-test style query. -/
example : let b : Buf Char := ⟨[⟨1, 0, 'a'⟩, ⟨3, 1, 'b'⟩, ⟨7, 2, 'c'⟩], 3⟩
    b.nodes ≠ [] ∧ (∀ n ∈ b.nodes, n.key ≠ 2) ∧ b.iterClosest .std 2 = .error .decBegin := by
  decide +kernel

/-- **C04 (partial)**. Defined under the standard: the nearest query with an exact hit, and the
"closest before" query when some object is strictly before the query time; the result is the last
such object.  Full claim: no query on a non-empty buffer is undefined; false by `C04_violated`. -/
theorem C04_defined_queries_partial (b : Buf V)
    (hs : b.nodes.Pairwise (fun x y => x.key < y.key)) (t : ℚ) :
    (∀ n ∈ b.nodes, n.key = t → b.iterClosest .std t = .ok n.iter) ∧
    ((∃ n ∈ b.nodes, n.key < t) →
      ∃ n ∈ b.nodes, b.iterClosestBefore .std t = .ok n.iter ∧ n.key < t ∧
        ∀ m ∈ b.nodes, m.key < t → m.key ≤ n.key) := by
  change SortedL b.nodes at hs
  constructor
  · rintro n hn rfl
    exact Buf.iterClosest_of_find (Buf.find_eq_some hs hn)
  · rintro ⟨n0, hn0, h0⟩
    obtain ⟨A, B, hl, hA, hB⟩ := SortedL.split _ hs t
    rcases List.eq_nil_or_concat A with rfl | ⟨A', k, rfl⟩
    · exact absurd h0 (not_lt.2 (hB n0 (by simpa [hl] using hn0)))
    · rw [List.concat_eq_append] at hl hA
      refine ⟨k, by rw [hl]; simp, ?_, hA k (by simp), ?_⟩
      · unfold Buf.iterClosestBefore
        rw [Buf.lowerBound_split hl hA hB]
        cases B with
        | nil => simpa [Buf.toIter] using Buf.decr_fin (by simpa using hl)
        | cons n B =>
          simp only [List.head?_cons, Buf.toIter]
          exact Buf.decr_at (A := A') (B := B) (by rw [hl]; simp) hs
      · intro m hm hmt
        rw [hl] at hm
        rw [hl, SortedL.append_iff, SortedL.append_iff] at hs
        rcases List.mem_append.1 hm with h | h
        · rcases List.mem_append.1 h with h | h
          · exact (hs.1.2.2 m h k (by simp)).le
          · simp only [List.mem_singleton] at h; rw [h]
        · exact absurd hmt (not_lt.2 (hB m h))

/-- Non-vacuity of C04 (partial). -/
example : let b : Buf Char := ⟨[⟨1, 0, 'a'⟩, ⟨3, 1, 'b'⟩, ⟨7, 2, 'c'⟩], 3⟩
    b.iterClosest .std 3 = .ok (.at 3 1) ∧ b.iterClosestBefore .std 5 = .ok (.at 3 1) := by
  decide +kernel

/-! ## C05 -/

/-- **C05**. Clean-up removes a prefix only, keeps the newest object and everything not older than
`age` relative to it, and leaves at most one object older than that.  Holds on every platform on
which the call is defined. -/
theorem C05_cleanup_keeps_recent (p : Plat) (b b' : Buf V)
    (hs : b.nodes.Pairwise (fun x y => x.key < y.key)) (age : ℚ) (hage : 0 ≤ age)
    (newest : Node V) (hnew : b.nodes.getLast? = some newest)
    (h : b.clearOlderThan p age = .ok b') :
    b'.nodes <:+ b.nodes ∧ b'.nodes.getLast? = some newest ∧
    (∀ n ∈ b.nodes, newest.key - n.key ≤ age → n ∈ b'.nodes) ∧
    (b'.nodes.filter (fun n => age < newest.key - n.key)).length ≤ 1 := by
  obtain ⟨A, r, B, hl, hl', _, hA, hB⟩ := clear_split hs hage hnew h
  rw [hl']
  refine ⟨⟨A, hl.symm⟩, ?_, ?_, ?_⟩
  · rw [hl, List.getLast?_append] at hnew
    cases hrB : (r :: B).getLast? with
    | none => simp at hrB
    | some z => rw [hrB] at hnew; simpa using hnew
  · intro n hn hle
    rw [hl] at hn
    rcases List.mem_append.1 hn with hn | hn
    · have := hA n hn; linarith
    · exact hn
  · have : B.filter (fun n => decide (age < newest.key - n.key)) = [] := by
      rw [List.filter_eq_nil_iff]
      intro x hx
      have := hB x hx
      simp only [decide_eq_true_eq, not_lt]
      linarith
    rw [List.filter_cons, this]
    split <;> simp

/-- Non-vacuity of C05: one of the two old objects goes, the one next to the cut stays. -/
example : (Buf.clearOlderThan (.gnu fun _ _ => false)
      ⟨[⟨1, 0, 'a'⟩, ⟨9, 1, 'b'⟩, ⟨20, 2, 'c'⟩, ⟨70, 3, 'd'⟩], 4⟩ 60).toOption.map Buf.keys
    = some [9, 20, 70] := by
  decide +kernel

/-! ## C06 -/

/-- **C06 is violated**: re-timing an object to an occupied time loses it. -/
theorem C06_violated :
    ∃ (b : Buf Char) (told tnew : ℚ), b.content told = some 'a' ∧
      (b.updateTime told tnew).1.content tnew ≠ some 'a' ∧
      (b.updateTime told tnew).1.size + 1 = b.size :=
  ⟨⟨[⟨1, 0, 'a'⟩, ⟨3, 1, 'b'⟩], 2⟩, 1, 3, by decide +kernel⟩

/-- **C06 (partial)**. If the new time is free (or unchanged) the object is found at the new time, the
old time is vacated, every other object stays and the object is returned.  Full claim: without
`hfree`; false by `C06_violated`. -/
theorem C06_retime_partial (b : Buf V) (hs : b.nodes.Pairwise (fun x y => x.key < y.key))
    (told tnew : ℚ) (v : V) (hv : b.content told = some v)
    (hfree : told = tnew ∨ b.content tnew = none) :
    (b.updateTime told tnew).1.content =
        (fun s => if s = tnew then some v else if s = told then none else b.content s) ∧
    (b.updateTime told tnew).2.map (fun n => (n.key, n.val)) = some (tnew, v) := by
  change SortedL b.nodes at hs
  have hv' := hv
  unfold Buf.content Buf.valueAt at hv'
  rw [Option.map_eq_some_iff] at hv'
  obtain ⟨n, hf, rfl⟩ := hv'
  have hc1 := content_erase hs told
  have hs1 : SortedL ({ b with nodes := b.nodes.filter (fun m => m.key ≠ told) } : Buf V).nodes :=
    Buf.sorted_filter hs _
  have hfree1 : ({ b with nodes := b.nodes.filter (fun m => m.key ≠ told) } : Buf V).content tnew
      = none := by
    rw [hc1]
    rcases hfree with h | h
    · simp [h]
    · simp [h]
  have hfst : (b.updateTime told tnew).1.content =
        (fun s => if s = tnew then some n.val else if s = told then none else b.content s) := by
    rw [updateTime_eq hf, content_insert_free hs1 hfree1, hc1]
  refine ⟨hfst, ?_⟩
  have hsnd : (b.updateTime told tnew).2 = (b.updateTime told tnew).1.find tnew := by
    unfold Buf.updateTime; rw [hf]
  rw [hsnd]
  have := congrFun hfst tnew
  simp only [if_true] at this
  unfold Buf.content Buf.valueAt at this
  rw [Option.map_eq_some_iff] at this
  obtain ⟨k, hk, e⟩ := this
  rw [hk]
  simp [e, (Buf.find_some hk).2]

/-- Non-vacuity of C06 (partial). -/
example : let b : Buf Char := ⟨[⟨1, 0, 'a'⟩, ⟨3, 1, 'b'⟩], 2⟩
    b.content 3 = some 'b' ∧ b.content 2 = none ∧ (b.updateTime 3 2).1.keys = [1, 2] := by
  decide +kernel

end MSF
