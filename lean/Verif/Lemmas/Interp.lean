import Verif.Lemmas.Target
import Verif.Lemmas.SortedContainer

/-!
# Interpolated inputs
-/

namespace MSF
variable {A W X C M T E : Type}
variable [AddCommGroup A] [Module ℚ A] [AddCommGroup W] [Module ℚ W]

/-- All states between `tl` and `tr` have inputs on a line. -/
def OnLine (tl tr : ℚ) (ul ur : Input A W) (l : List (Node (St A W X C))) : Prop :=
  ∀ k ∈ l, tl ≤ k.key → k.key ≤ tr → k.val.u = Spec.between (tl, ul) (tr, ur) k.key

omit [AddCommGroup A] [Module ℚ A] [AddCommGroup W] [Module ℚ W] in
theorem pred_spec {V : Type} {b : Buf V} {t : ℚ} (hs : SortedL b.nodes) {m : Node V} (hm : m ∈ b.nodes)
    (hmt : m.key < t) : ∃ n ∈ b.nodes, b.closestBefore t = some n ∧ m.key ≤ n.key ∧ n.key < t := by
  have hne : b.nodes.filter (fun n => n.key < t) ≠ [] := by
    intro h
    rw [List.filter_eq_nil_iff] at h
    exact h m hm (by simpa using hmt)
  obtain ⟨n, hn⟩ : ∃ n, (b.nodes.filter (fun n => n.key < t)).getLast? = some n := by
    cases e : (b.nodes.filter (fun n => n.key < t)).getLast? with
    | none => simp at e; exact absurd (by simpa using e) hne
    | some n => exact ⟨n, rfl⟩
  have hmem := List.mem_of_getLast? hn
  rw [List.mem_filter] at hmem
  refine ⟨n, hmem.1, ?_, ?_, by simpa using hmem.2⟩
  · unfold Buf.closestBefore Buf.pred
    cases e : b.nodes with
    | nil => rw [e] at hm; simp at hm
    | cons a l => simp only [← e, hn]
  · rcases List.eq_nil_or_concat (b.nodes.filter (fun n => n.key < t)) with h | ⟨l, x, h⟩
    · exact absurd h hne
    · rw [List.concat_eq_append] at h
      have hx : x = n := by
        rw [h] at hn; simpa using hn
      have hsf := Buf.sorted_filter hs (fun n => decide (n.key < t))
      rw [h, SortedL.append_iff] at hsf
      have : m ∈ b.nodes.filter (fun n => n.key < t) := by
        rw [List.mem_filter]; exact ⟨hm, by simpa using hmt⟩
      rw [h] at this
      rcases List.mem_append.1 this with h' | h'
      · rw [← hx]; exact (hsf.2.2 m h' x (by simp)).le
      · simp only [List.mem_singleton] at h'; rw [h', hx]

omit [AddCommGroup A] [Module ℚ A] [AddCommGroup W] [Module ℚ W] in
theorem upper_spec {V : Type} {b : Buf V} {t : ℚ} (hs : SortedL b.nodes) {m : Node V} (hm : m ∈ b.nodes)
    (hmt : t < m.key) : ∃ n ∈ b.nodes, b.closestAfter t = some n ∧ n.key ≤ m.key ∧ t < n.key := by
  unfold Buf.closestAfter Buf.upperBound
  cases e : b.nodes.find? (fun n => t < n.key) with
  | none =>
    rw [List.find?_eq_none] at e
    exact absurd hmt (by simpa using e m hm)
  | some n =>
    refine ⟨n, List.mem_of_find?_eq_some e, rfl, ?_, by simpa using List.find?_some e⟩
    obtain ⟨_, as, bs, h, hno⟩ := List.find?_eq_some_iff_append.1 e
    rw [h] at hm hs
    rw [SortedL.append_iff, SortedL.cons_iff] at hs
    rcases List.mem_append.1 hm with hm | hm
    · have := hno m hm; simp at this; exact absurd hmt (not_lt.2 this)
    · rcases List.mem_cons.1 hm with rfl | hm
      · exact le_refl _
      · exact (hs.2.1.1 m hm).le

theorem interpolate_step (K : Kernel A W X C M T E) (c : Core A W X C M T) (n : SN A W X C) (t : ℚ)
    (hs : SortedL c.states.nodes) {l r : SN A W X C} (hl : l ∈ c.states.nodes)
    (hr : r ∈ c.states.nodes) (ul ur : Input A W) (htl : l.key < t) (htr : t < r.key)
    (hline : OnLine l.key r.key ul ur c.states.nodes) :
    SortedL (Core.interpolate K c n t).1.states.nodes ∧
    (∀ k ∈ c.states.nodes, k ∈ (Core.interpolate K c n t).1.states.nodes) ∧
    (∀ k ∈ (Core.interpolate K c n t).1.states.nodes, k ∈ c.states.nodes ∨ k.key = t) ∧
    OnLine l.key r.key ul ur (Core.interpolate K c n t).1.states.nodes := by
  obtain ⟨l', hl', el, hl1, hl2⟩ := pred_spec hs hl htl
  obtain ⟨r', hr', er, hr1, hr2⟩ := upper_spec hs hr htr
  unfold Core.interpolate
  split
  · rw [el, er]
    simp only
    split
    · have hul := hline l' hl' hl1 (by linarith)
      have hur := hline r' hr' (by linarith) hr1
      cases hf : c.states.find t with
      | some m =>
        simp only [Buf.insert_of_find hf]
        exact ⟨hs, fun k hk => hk, fun k hk => Or.inl hk, hline⟩
      | none =>
        simp only [Buf.insert_of_none hf]
        refine ⟨sorted_insertNode hs (by
            intro m hm; exact Buf.find_none hf m hm), ?_, ?_, ?_⟩
        · intro k hk; exact mem_insertNode.2 (Or.inr hk)
        · intro k hk
          rcases mem_insertNode.1 hk with rfl | hk
          · exact Or.inr rfl
          · exact Or.inl hk
        · intro k hk h1 h2
          rcases mem_insertNode.1 hk with rfl | hk
          · simp only
            rw [hul, hur]
            exact lerp_between (r := (l.key, ul)) (r' := (r.key, ur)) (by simp only; linarith)
              (by linarith) t
          · exact hline k hk h1 h2
    · exact ⟨hs, fun k hk => hk, fun k hk => Or.inl hk, hline⟩
  · exact ⟨hs, fun k hk => hk, fun k hk => Or.inl hk, hline⟩

/-- Interpolation requests one after the other; each comes with the state the code found nearest. -/
def interpolateAll (K : Kernel A W X C M T E) : Core A W X C M T → List (SN A W X C × ℚ) →
    Core A W X C M T
  | c, [] => c
  | c, q :: qs => interpolateAll K (Core.interpolate K c q.1 q.2).1 qs

theorem interpolateAll_line (K : Kernel A W X C M T E) (l r : SN A W X C) (ul ur : Input A W) :
    ∀ (qs : List (SN A W X C × ℚ)) (c : Core A W X C M T), SortedL c.states.nodes →
    l ∈ c.states.nodes → r ∈ c.states.nodes → (∀ q ∈ qs, l.key < q.2 ∧ q.2 < r.key) →
    OnLine l.key r.key ul ur c.states.nodes →
    (∀ k ∈ c.states.nodes, k ∈ (interpolateAll K c qs).states.nodes) ∧
    (∀ k ∈ (interpolateAll K c qs).states.nodes, k ∈ c.states.nodes ∨ ∃ q ∈ qs, k.key = q.2) ∧
    OnLine l.key r.key ul ur (interpolateAll K c qs).states.nodes
  | [], c, _, _, _, _, h => ⟨fun _ hk => hk, fun _ hk => Or.inl hk, h⟩
  | q :: qs, c, hs, hl, hr, hq, h => by
    obtain ⟨h1, h2, h3, h4⟩ := interpolate_step K c q.1 q.2 hs hl hr ul ur (hq q (by simp)).1
      (hq q (by simp)).2 h
    obtain ⟨g1, g2, g3⟩ := interpolateAll_line K l r ul ur qs (Core.interpolate K c q.1 q.2).1 h1
      (h2 l hl) (h2 r hr) (fun q' hq' => hq q' (by simp [hq'])) h4
    refine ⟨fun k hk => g1 k (h2 k hk), ?_, g3⟩
    intro k hk
    rcases g2 k hk with hk | ⟨q', hq', e⟩
    · rcases h3 k hk with hk | hk
      · exact Or.inl hk
      · exact Or.inr ⟨q, by simp, hk⟩
    · exact Or.inr ⟨q', by simp [hq'], e⟩

end MSF
