import Verif.Lemmas.SortedContainer
import Mathlib.Tactic.Ring

/-!
# Nearest objects and clean-up of the time-ordered buffer
-/

namespace MSF
variable {V : Type}

/-- `n` is nearest to `t` among the nodes `l`, the earliest such node on a tie. -/
def NearestIn (t : ℚ) (l : List (Node V)) (n : Node V) : Prop :=
  n ∈ l ∧ ∀ m ∈ l, |n.key - t| ≤ |m.key - t| ∧ (|n.key - t| = |m.key - t| → n.key ≤ m.key)

theorem nearest_of_between {b : Buf V} {t : ℚ} {m n : Node V} {A B : List (Node V)}
    (hl : b.nodes = A ++ m :: n :: B) (hs : SortedL b.nodes) (h1 : m.key < t) (h2 : t < n.key) :
    NearestIn t b.nodes (if |n.key - t| < |m.key - t| then n else m) := by
  rw [hl, SortedL.append_iff, SortedL.cons_iff, SortedL.cons_iff] at hs
  have e1 : |n.key - t| = n.key - t := abs_of_pos (by linarith)
  have e2 : |m.key - t| = t - m.key := by rw [abs_of_neg (by linarith)]; ring
  refine ⟨?_, ?_⟩
  · rw [hl]; split <;> simp
  · intro k hk
    rw [hl] at hk
    have hk' : k.key ≤ m.key ∨ n.key ≤ k.key := by
      simp only [List.mem_append, List.mem_cons] at hk
      rcases hk with h | rfl | rfl | h
      · exact Or.inl (hs.2.2 k h m (by simp)).le
      · exact Or.inl le_rfl
      · exact Or.inr le_rfl
      · exact Or.inr (hs.2.1.2.1 k h).le
    rcases hk' with hk' | hk'
    · have e3 : |k.key - t| = t - k.key := by rw [abs_of_neg (by linarith)]; ring
      split
      · rename_i h; rw [e1, e2] at h; rw [e1, e3]; constructor
        · linarith
        · intro h'; linarith
      · rw [e2, e3]; constructor
        · linarith
        · intro h'; linarith
    · have e3 : |k.key - t| = k.key - t := abs_of_pos (by linarith)
      split
      · rw [e1, e3]; constructor
        · linarith
        · intro h'; linarith
      · rename_i h; rw [e1, e2] at h; rw [e2, e3]; constructor
        · linarith
        · intro h'; linarith

theorem nearest_of_below {b : Buf V} {t : ℚ} {n : Node V} {B : List (Node V)}
    (hl : b.nodes = n :: B) (hs : SortedL b.nodes) (h : t < n.key) : NearestIn t b.nodes n := by
  rw [hl, SortedL.cons_iff] at hs
  refine ⟨by simp [hl], ?_⟩
  intro k hk
  have hk' : n.key ≤ k.key := by
    rw [hl] at hk
    rcases List.mem_cons.1 hk with rfl | hk
    · exact le_rfl
    · exact (hs.1 k hk).le
  rw [abs_of_pos (by linarith : 0 < n.key - t), abs_of_pos (by linarith : 0 < k.key - t)]
  exact ⟨by linarith, fun _ => hk'⟩

theorem nearest_of_above {b : Buf V} {t : ℚ} {n : Node V} {A : List (Node V)}
    (hl : b.nodes = A ++ [n]) (hs : SortedL b.nodes) (h : n.key < t) : NearestIn t b.nodes n := by
  rw [hl, SortedL.append_iff] at hs
  refine ⟨by simp [hl], ?_⟩
  intro k hk
  have hk' : k.key ≤ n.key := by
    rw [hl] at hk
    rcases List.mem_append.1 hk with hk | hk
    · exact (hs.2.2 k hk n (by simp)).le
    · simp only [List.mem_singleton] at hk; rw [hk]
  rw [abs_of_neg (by linarith : n.key - t < 0), abs_of_neg (by linarith : k.key - t < 0)]
  exact ⟨by linarith, fun h => by linarith⟩

theorem decBegin_cases {p : Plat} {b : Buf V} {it : Iter} (h : b.decBegin p = .ok it) :
    it = .fin ∨ it = b.begin := by
  unfold Buf.decBegin at h
  split at h
  · simp at h
  · split at h <;> (try split at h) <;> simp_all [Buf.begin, Buf.toIter]

theorem decBegin_of_iterClosest {p : Plat} {b : Buf V} {t : ℚ} {it : Iter} (hf : b.find t = none)
    (h : b.iterClosest p t = .ok it) : ∃ it', b.decBegin p = .ok it' := by
  unfold Buf.iterClosest at h
  rw [hf] at h
  simp only [bind, Except.bind] at h
  split at h
  · simp at h
  · simp only [Buf.iterBeforeBegin] at h
    cases hd : b.decBegin p with
    | ok it' => exact ⟨it', rfl⟩
    | error e => rw [hd] at h; simp at h

theorem filter_ge_split {b : Buf V} {A B : List (Node V)} {r : Node V}
    (hl : b.nodes = A ++ r :: B) (hs : SortedL b.nodes) :
    b.nodes.filter (fun m => r.key ≤ m.key) = r :: B := by
  rw [hl, SortedL.append_iff, SortedL.cons_iff] at hs
  rw [hl, List.filter_append, List.filter_eq_nil_iff.2, List.filter_eq_self.2, List.nil_append]
  · intro m hm
    rcases List.mem_cons.1 hm with rfl | hm
    · simp
    · simpa using (hs.2.1.1 m hm).le
  · intro m hm
    simpa using hs.2.2 m hm r (by simp)

/-- What a successful clean-up with something to clean does. -/
theorem clear_split {p : Plat} {b b' : Buf V} (hs : SortedL b.nodes) {age : ℚ} (hage : 0 ≤ age)
    {newest : Node V} (hnew : b.nodes.getLast? = some newest)
    (h : b.clearOlderThan p age = .ok b') :
    ∃ A r B, b.nodes = A ++ r :: B ∧ b'.nodes = r :: B ∧ b'.fresh = b.fresh ∧
      (∀ a ∈ A, a.key < newest.key - age) ∧ (∀ x ∈ B, newest.key - age ≤ x.key) := by
  obtain ⟨L, hL⟩ := List.getLast?_eq_some_iff.1 hnew
  have hlast : timeOf b.last = newest.key := by simp [Buf.last, hnew, timeOf]
  cases hb : b.nodes with
  | nil => simp [hb] at hnew
  | cons f rest =>
  have hfirst : timeOf b.first = f.key := by simp [Buf.first, hb, timeOf]
  have hsf := hs
  rw [hb, SortedL.cons_iff] at hsf
  have hfm : f ∈ b.nodes := by simp [hb]
  simp only [Buf.clearOlderThan, bind, Except.bind, pure, Except.pure, hlast, hfirst] at h
  split at h
  · rename_i hlt
    simp only [Except.ok.injEq] at h
    subst h
    refine ⟨[], f, rest, by simp, hb, rfl, by simp, ?_⟩
    intro x hx
    have := hsf.1 x hx
    linarith
  · rename_i hge
    have hge' : f.key ≤ newest.key - age := by linarith
    split at h
    · simp at h
    · rename_i it hit
      split at h
      · simp at h
      · rename_i n hn
        rw [Buf.begin_cons hb, Buf.deref_mem hs hfm] at h
        simp only at h
        obtain ⟨hnm, rfl⟩ := Buf.deref_ok hn
        -- it suffices to know where the designated node sits
        have key : ∃ A B, b.nodes = A ++ n :: B ∧ (∀ a ∈ A, a.key < newest.key - age) ∧
            (∀ x ∈ B, newest.key - age ≤ x.key) := by
          cases hf : b.find (newest.key - age) with
          | some k =>
            rw [Buf.iterClosest_of_find hf, Except.ok.injEq] at hit
            have hkn : k = n := by
              have h1 := Buf.deref_mem hs (Buf.find_some hf).1
              rw [hit, hn] at h1
              exact (Except.ok.inj h1).symm
            subst hkn
            obtain ⟨A, B, hl⟩ := List.append_of_mem hnm
            have hk := (Buf.find_some hf).2
            have hs' := hs
            rw [hl, SortedL.append_iff, SortedL.cons_iff] at hs'
            exact ⟨A, B, hl, fun a ha => hk ▸ hs'.2.2 a ha k (by simp),
              fun x hx => hk ▸ (hs'.2.1.1 x hx).le⟩
          | none =>
            obtain ⟨it', hd⟩ := decBegin_of_iterClosest hf hit
            rcases Buf.position hs (by simp [hb]) hf with
              ⟨g, B, hl, ht⟩ | ⟨A, g, hl, ht⟩ | ⟨A, m, g, B, hl, h1, h2⟩
            · rw [hb] at hl; obtain ⟨rfl, rfl⟩ := List.cons.inj hl; linarith
            · rw [hL] at hl
              have := (List.append_inj' hl rfl).2
              simp only [List.cons.injEq, and_true] at this
              subst this; linarith
            · have hs' := hs
              rw [hl, SortedL.append_iff, SortedL.cons_iff, SortedL.cons_iff] at hs'
              have tail : ∀ x ∈ g :: B, newest.key - age ≤ x.key := by
                intro x hx
                rcases List.mem_cons.1 hx with rfl | hx
                · exact h2.le
                · exact (h2.trans (hs'.2.1.2.1 x hx)).le
              have front : ∀ x ∈ A, x.key < newest.key - age := fun x hx =>
                (hs'.2.2 x hx m (by simp)).trans h1
              have sameIter : ∀ k ∈ b.nodes, k.iter = n.iter → k = n := by
                intro k hk e
                have := Buf.deref_mem hs hk
                rw [e, hn] at this
                exact (Except.ok.inj this).symm
              have caseM : m.iter = n.iter → ∃ A B, b.nodes = A ++ n :: B ∧
                  (∀ a ∈ A, a.key < newest.key - age) ∧ (∀ x ∈ B, newest.key - age ≤ x.key) := by
                intro e
                have := sameIter m (by rw [hl]; simp) e
                subst this
                exact ⟨A, g :: B, hl, front, tail⟩
              rw [Buf.iterClosest_between hl hs h1 h2 hd] at hit
              split at hit
              · rename_i hm
                rw [Except.ok.injEq] at hit
                rcases decBegin_cases hd with e | e
                · rw [e] at hm; simp [Node.iter] at hm
                · exact caseM (hm.trans (e.trans hit))
              · split at hit
                · rw [Except.ok.injEq] at hit
                  have := sameIter g (by rw [hl]; simp) hit
                  subst this
                  refine ⟨A ++ [m], B, by simp [hl], ?_, fun x hx => tail x (by simp [hx])⟩
                  intro x hx
                  rcases List.mem_append.1 hx with hx | hx
                  · exact front x hx
                  · simp only [List.mem_singleton] at hx; rw [hx]; exact h1
                · rw [Except.ok.injEq] at hit
                  exact caseM hit
        obtain ⟨A, B, hl, hA, hB⟩ := key
        split at h
        · simp only [Except.ok.injEq] at h
          subst h
          exact ⟨A, n, B, hb ▸ hl, filter_ge_split hl hs, rfl, hA, hB⟩
        · rename_i hle
          simp only [Except.ok.injEq] at h
          subst h
          refine ⟨[], f, rest, by simp, hb, rfl, by simp, ?_⟩
          cases A with
          | nil =>
            rw [hb] at hl; obtain ⟨rfl, rfl⟩ := List.cons.inj hl; exact hB
          | cons a A =>
            exfalso
            apply hle
            have := hl
            rw [hb] at this
            obtain ⟨rfl, rfl⟩ := List.cons.inj this
            exact hsf.1 n (by simp)


theorem nearest_unique {t : ℚ} {b : Buf V} (hs : SortedL b.nodes) {n m : Node V}
    (hn : NearestIn t b.nodes n) (hm : NearestIn t b.nodes m) : n = m := by
  have h1 := hn.2 m hm.1
  have h2 := hm.2 n hn.1
  have he : |n.key - t| = |m.key - t| := le_antisymm h1.1 h2.1
  have hk : n.key = m.key := le_antisymm (h1.2 he) (h2.2 he.symm)
  have f1 := Buf.find_eq_some hs hn.1
  have f2 := Buf.find_eq_some hs hm.1
  rw [hk, f2] at f1
  exact (Option.some.inj f1).symm

/-- On libstdc++ and with at least three objects, the iterator query designates the nearest one. -/
theorem iterClosest_nearest {shape : Nat → List ℚ → Bool} {b : Buf V} {t : ℚ} {n : Node V}
    (hs : SortedL b.nodes) (hinv : ∀ m ∈ b.nodes, m.key ≠ invalidTime)
    (hlen : 3 ≤ b.nodes.length) (hn : NearestIn t b.nodes n) :
    b.iterClosest (.gnu shape) t = .ok n.iter := by
  have hne : b.nodes ≠ [] := by rintro h; simp [h] at hlen
  obtain ⟨m, hm, hc, hi⟩ := Buf.iterClosest_gnu (shape := shape) (t := t) hs hne hinv
    (Or.inl (by omega))
  have hN : NearestIn t b.nodes m := by
    cases hf : b.find t with
    | some k =>
      rw [Buf.closest_of_find hf, Option.some.injEq] at hc
      subst hc
      refine ⟨hm, ?_⟩
      intro m _
      rw [(Buf.find_some hf).2]
      simp only [sub_self, abs_zero]
      refine ⟨abs_nonneg _, fun h => ?_⟩
      have := abs_eq_zero.1 h.symm
      linarith
    | none =>
      rcases Buf.position hs hne hf with ⟨k, B, hl, ht⟩ | ⟨A, k, hl, ht⟩ | ⟨A, i, k, B, hl, h1, h2⟩
      · rw [Buf.closest_below hl hs ht hinv, Option.some.injEq] at hc
        subst hc; exact nearest_of_below hl hs ht
      · rw [Buf.closest_above hl hs ht hinv, Option.some.injEq] at hc
        subst hc; exact nearest_of_above hl hs ht
      · have h := nearest_of_between hl hs h1 h2
        rw [Buf.closest_between hl hs h1 h2 hinv] at hc
        split at hc <;> rename_i hlt <;> rw [Option.some.injEq] at hc <;> subst hc
        · rwa [if_pos hlt] at h
        · rwa [if_neg hlt] at h
  rw [nearest_unique hs hn hN]
  exact hi

/-- Clean-up with a positive age never fails on libstdc++. -/
theorem clear_gnu (shape : Nat → List ℚ → Bool) {b : Buf V} (hs : SortedL b.nodes) {age : ℚ}
    (ha : 0 < age) : ∃ b', b.clearOlderThan (.gnu shape) age = .ok b' := by
  simp only [Buf.clearOlderThan, bind, Except.bind, pure, Except.pure]
  split
  · exact ⟨_, rfl⟩
  · rename_i hold
    by_cases hne : b.nodes = []
    · simp [Buf.last, Buf.first, hne] at hold; linarith
    · obtain ⟨n, hn, hit⟩ := Buf.iterClosest_gnu_ok shape hs hne (timeOf b.last - age)
      rw [hit]
      simp only [Buf.deref_mem hs hn]
      cases hb : b.nodes with
      | nil => exact absurd hb hne
      | cons a l =>
        rw [Buf.begin_cons hb, Buf.deref_mem hs (by simp [hb])]
        simp only
        split <;> exact ⟨_, rfl⟩

end MSF
