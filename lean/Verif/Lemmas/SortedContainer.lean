import Verif.Model.SortedContainer
import Mathlib.Data.List.Basic
import Mathlib.Tactic.Linarith

/-! Helper lemmas about the container model. -/

namespace MSF

variable {V : Type}

/-- Strictly increasing keys. -/
def SortedL (l : List (Node V)) : Prop := l.Pairwise (fun a b => a.key < b.key)

namespace SortedL

theorem append_iff {A B : List (Node V)} :
    SortedL (A ++ B) ↔ SortedL A ∧ SortedL B ∧ ∀ a ∈ A, ∀ b ∈ B, a.key < b.key := by
  simp [SortedL, List.pairwise_append]

theorem cons_iff {n : Node V} {B : List (Node V)} :
    SortedL (n :: B) ↔ (∀ b ∈ B, n.key < b.key) ∧ SortedL B := by
  simp [SortedL, List.pairwise_cons]

theorem sublist {A B : List (Node V)} (h : SortedL B) (s : A.Sublist B) : SortedL A :=
  List.Pairwise.sublist s h

/-- Every sorted list splits at a time. -/
theorem split (l : List (Node V)) (h : SortedL l) (t : ℚ) :
    ∃ A B, l = A ++ B ∧ (∀ a ∈ A, a.key < t) ∧ (∀ b ∈ B, t ≤ b.key) := by
  induction l with
  | nil => exact ⟨[], [], by simp⟩
  | cons n l ih =>
    rw [cons_iff] at h
    by_cases hn : n.key < t
    · obtain ⟨A, B, rfl, hA, hB⟩ := ih h.2
      exact ⟨n :: A, B, by simp, by simpa [hn] using hA, hB⟩
    · refine ⟨[], n :: l, by simp, by simp, ?_⟩
      intro b hb
      rcases List.mem_cons.1 hb with rfl | hb
      · exact not_lt.1 hn
      · exact (not_lt.1 hn).trans (h.1 b hb).le

end SortedL

theorem find?_none_of {p : Node V → Bool} {l : List (Node V)} (h : ∀ a ∈ l, p a = false) :
    l.find? p = none := by
  rw [List.find?_eq_none]; intro a ha; simp [h a ha]

theorem find?_append_left_none {p : Node V → Bool} {A B : List (Node V)}
    (h : ∀ a ∈ A, p a = false) : (A ++ B).find? p = B.find? p := by
  rw [List.find?_append, find?_none_of h]; simp

theorem find?_head {p : Node V → Bool} {B : List (Node V)} (h : ∀ b ∈ B, p b = true) :
    B.find? p = B.head? := by
  cases B with
  | nil => rfl
  | cons b B => simp [h b (by simp)]

theorem getLast?_filter_split {p : Node V → Bool} {A B : List (Node V)}
    (hA : ∀ a ∈ A, p a = true) (hB : ∀ b ∈ B, p b = false) :
    ((A ++ B).filter p).getLast? = A.getLast? := by
  rw [List.filter_append, List.filter_eq_self.2 hA, List.filter_eq_nil_iff.2 (by simpa using hB)]
  simp

namespace Buf

variable {b : Buf V} {A B : List (Node V)} {t : ℚ}

theorem lowerBound_split (hl : b.nodes = A ++ B) (hA : ∀ a ∈ A, a.key < t)
    (hB : ∀ n ∈ B, t ≤ n.key) : b.lowerBound t = B.head? := by
  unfold lowerBound
  rw [hl, find?_append_left_none (by intro a ha; simpa using hA a ha), find?_head]
  intro n hn; simpa using hB n hn

theorem pred_split (hl : b.nodes = A ++ B) (hA : ∀ a ∈ A, a.key < t)
    (hB : ∀ n ∈ B, t ≤ n.key) : b.pred t = A.getLast? := by
  unfold pred
  rw [hl, getLast?_filter_split]
  · intro a ha; simpa using hA a ha
  · intro n hn; simpa using hB n hn

theorem upperBound_split (hl : b.nodes = A ++ B) (hA : ∀ a ∈ A, a.key ≤ t)
    (hB : ∀ n ∈ B, t < n.key) : b.upperBound t = B.head? := by
  unfold upperBound
  rw [hl, find?_append_left_none (by intro a ha; simpa using hA a ha), find?_head]
  intro n hn; simpa using hB n hn

theorem find_split_none (hl : b.nodes = A ++ B) (hA : ∀ a ∈ A, a.key < t)
    (hB : ∀ n ∈ B, t < n.key) : b.find t = none := by
  unfold find
  rw [hl]
  apply find?_none_of
  intro n hn
  rcases List.mem_append.1 hn with h | h
  · simpa using (hA n h).ne
  · simpa using (hB n h).ne'

theorem find_eq {n : Node V} (hl : b.nodes = A ++ n :: B) (hs : SortedL b.nodes) :
    b.find n.key = some n := by
  unfold find
  rw [hl, find?_append_left_none]
  · simp
  · intro a ha
    rw [hl, SortedL.append_iff] at hs
    simpa using (hs.2.2 a ha n (by simp)).ne

theorem find_eq_some (hs : SortedL b.nodes) {n : Node V} (hn : n ∈ b.nodes) :
    b.find n.key = some n := by
  obtain ⟨A, B, hl⟩ := List.append_of_mem hn
  exact find_eq hl hs

theorem find_some {n : Node V} (h : b.find t = some n) : n ∈ b.nodes ∧ n.key = t := by
  unfold find at h
  exact ⟨List.mem_of_find?_eq_some h, by simpa using List.find?_some h⟩

theorem find_none (h : b.find t = none) : ∀ n ∈ b.nodes, n.key ≠ t := by
  unfold find at h
  simpa using h

theorem find_none_iff : b.find t = none ↔ ∀ n ∈ b.nodes, n.key ≠ t := by
  unfold find
  simp

theorem find_iff (hs : SortedL b.nodes) {n : Node V} :
    b.find t = some n ↔ n ∈ b.nodes ∧ n.key = t := by
  constructor
  · exact find_some
  · rintro ⟨hn, rfl⟩; exact find_eq_some hs hn

theorem deref_mem (hs : SortedL b.nodes) {n : Node V} (hn : n ∈ b.nodes) :
    b.deref n.iter = .ok n := by
  have := find_eq_some hs hn
  unfold find at this
  simp [deref, Node.iter, this]

theorem deref_ok {it : Iter} {n : Node V} (h : b.deref it = .ok n) :
    n ∈ b.nodes ∧ it = n.iter := by
  unfold deref at h
  cases it with
  | fin => simp at h
  | «at» k i =>
    simp only at h
    split at h
    · simp at h
    · rename_i m hm
      split at h
      · rename_i hi
        simp only [Except.ok.injEq] at h
        subst h
        have := List.find?_some hm
        simp only [decide_eq_true_eq] at this
        exact ⟨List.mem_of_find?_eq_some hm, by simp [Node.iter, this, hi]⟩
      · simp at h

theorem incr_at {n : Node V} (hl : b.nodes = A ++ n :: B) (hs : SortedL b.nodes) :
    b.incr n.iter = .ok (toIter B.head?) := by
  have hd := deref_mem hs (n := n) (by rw [hl]; simp)
  have hs' := hs
  rw [hl, SortedL.append_iff, SortedL.cons_iff] at hs'
  have hu : b.upperBound n.key = B.head? := by
    apply upperBound_split (A := A ++ [n]) (by simp [hl])
    · intro a ha
      rcases List.mem_append.1 ha with h | h
      · exact (hs'.2.2 a h n (by simp)).le
      · simp only [List.mem_singleton] at h; rw [h]
    · exact hs'.2.1.1
  unfold incr
  simp only [Node.iter] at hd ⊢
  rw [hd]
  simp only [bind, Except.bind, pure, Except.pure, hu]

theorem decr_at {p : Plat} {n m : Node V} (hl : b.nodes = A ++ m :: n :: B)
    (hs : SortedL b.nodes) : b.decr p n.iter = .ok m.iter := by
  have hd := deref_mem hs (n := n) (by rw [hl]; simp)
  have hs' := hs
  rw [hl, SortedL.append_iff, SortedL.cons_iff, SortedL.cons_iff] at hs'
  have hu : b.pred n.key = some m := by
    rw [pred_split (A := A ++ [m]) (B := n :: B) (by simp [hl])]
    · simp
    · intro a ha
      rcases List.mem_append.1 ha with h | h
      · exact hs'.2.2 a h n (by simp)
      · simp only [List.mem_singleton] at h; rw [h]; exact hs'.2.1.1 n (by simp)
    · intro c hc
      rcases List.mem_cons.1 hc with rfl | h
      · exact le_rfl
      · exact (hs'.2.1.2.1 c h).le
  unfold decr
  simp only [Node.iter] at hd ⊢
  rw [hd]
  simp only [bind, Except.bind, pure, Except.pure, hu]

theorem decr_first {p : Plat} {n : Node V} (hl : b.nodes = n :: B)
    (hs : SortedL b.nodes) : b.decr p n.iter = b.decBegin p := by
  have hd := deref_mem hs (n := n) (by rw [hl]; simp)
  have hs' := hs
  rw [hl, SortedL.cons_iff] at hs'
  have hu : b.pred n.key = none := by
    rw [pred_split (A := []) (B := n :: B) (by simp [hl])]
    · simp
    · simp
    · intro c hc
      rcases List.mem_cons.1 hc with rfl | h
      · exact le_rfl
      · exact (hs'.1 c h).le
  unfold decr
  simp only [Node.iter] at hd ⊢
  rw [hd]
  simp only [bind, Except.bind, hu]

theorem decr_fin {p : Plat} {n : Node V} (hl : b.nodes = A ++ [n]) :
    b.decr p .fin = .ok n.iter := by
  unfold decr; simp [hl]

end Buf

theorem mem_insertNode {n m : Node V} {l : List (Node V)} :
    m ∈ insertNode n l ↔ m = n ∨ m ∈ l := by
  induction l with
  | nil => simp [insertNode]
  | cons a l ih =>
    unfold insertNode
    split
    · simp
    · simp only [List.mem_cons, ih]; tauto

theorem insertNode_append {n : Node V} {A B : List (Node V)}
    (hA : ∀ a ∈ A, a.key < n.key) (hB : ∀ b ∈ B, n.key < b.key) :
    insertNode n (A ++ B) = A ++ n :: B := by
  induction A with
  | nil =>
    cases B with
    | nil => rfl
    | cons b B => simp [insertNode, hB b (by simp)]
  | cons a A ih =>
    have ha := hA a (by simp)
    rw [List.cons_append, insertNode, if_neg (not_lt.2 ha.le), ih (fun x hx => hA x (by simp [hx]))]
    simp

theorem sorted_insertNode {n : Node V} {l : List (Node V)} (hs : SortedL l)
    (hn : ∀ m ∈ l, m.key ≠ n.key) : SortedL (insertNode n l) := by
  obtain ⟨A, B, rfl, hA, hB⟩ := SortedL.split l hs n.key
  have hB' : ∀ b ∈ B, n.key < b.key := fun b hb =>
    lt_of_le_of_ne (hB b hb) (fun h => hn b (by simp [hb]) h.symm)
  rw [insertNode_append hA hB']
  rw [SortedL.append_iff] at hs ⊢
  refine ⟨hs.1, SortedL.cons_iff.2 ⟨hB', hs.2.1⟩, ?_⟩
  intro a ha b hb
  rcases List.mem_cons.1 hb with rfl | hb
  · exact hA a ha
  · exact hs.2.2 a ha b hb

namespace Buf
variable {b : Buf V}

theorem insert_of_find {t : ℚ} {n : Node V} (h : b.find t = some n) (v : V) :
    b.insert t v = (b, n.iter) := by
  unfold insert; rw [h]

theorem insert_of_none {t : ℚ} (h : b.find t = none) (v : V) :
    b.insert t v = ({ nodes := insertNode ⟨t, b.fresh, v⟩ b.nodes, fresh := b.fresh + 1 },
      .at t b.fresh) := by
  unfold insert; rw [h]; rfl

theorem sorted_insert (hs : SortedL b.nodes) (t : ℚ) (v : V) :
    SortedL (b.insert t v).1.nodes := by
  cases h : b.find t with
  | some n => rw [insert_of_find h]; exact hs
  | none => rw [insert_of_none h]; exact sorted_insertNode hs (find_none h)

theorem sorted_filter (hs : SortedL b.nodes) (p : Node V → Bool) :
    SortedL (b.nodes.filter p) := hs.sublist List.filter_sublist

theorem keys_modify (k : ℚ) (f : V → V) : (b.modify k f).keys = b.keys := by
  unfold modify keys
  simp only [List.map_map]
  apply List.map_congr_left
  intro n _
  simp only [Function.comp]
  split <;> rfl

theorem sorted_iff_keys {l : List (Node V)} : SortedL l ↔ (l.map Node.key).Pairwise (· < ·) := by
  simp [SortedL, List.pairwise_map]

theorem sorted_modify (hs : SortedL b.nodes) (k : ℚ) (f : V → V) :
    SortedL (b.modify k f).nodes := by
  rw [sorted_iff_keys] at hs ⊢
  have := keys_modify (b := b) k f
  unfold keys at this
  rw [this]; exact hs

theorem modify_split {A B : List (Node V)} {n : Node V} (hl : b.nodes = A ++ n :: B)
    (hs : SortedL b.nodes) (f : V → V) :
    (b.modify n.key f).nodes = A ++ { n with val := f n.val } :: B := by
  rw [hl, SortedL.append_iff, SortedL.cons_iff] at hs
  unfold modify
  simp only [hl, List.map_append, List.map_cons, if_true]
  congr 1
  · conv_rhs => rw [← List.map_id A]
    apply List.map_congr_left
    intro a ha
    simp [(hs.2.2 a ha n (by simp)).ne]
  · congr 1
    conv_rhs => rw [← List.map_id B]
    apply List.map_congr_left
    intro a ha
    simp [(hs.2.1.1 a ha).ne']

end Buf
end MSF

namespace MSF
namespace Buf
variable {V : Type} {b : Buf V} {t : ℚ}

/-- Split of a sorted list at a time that is not a key. -/
theorem split_strict (hs : SortedL b.nodes) (hf : b.find t = none) :
    ∃ A B, b.nodes = A ++ B ∧ (∀ a ∈ A, a.key < t) ∧ (∀ n ∈ B, t < n.key) := by
  obtain ⟨A, B, hl, hA, hB⟩ := SortedL.split _ hs t
  refine ⟨A, B, hl, hA, fun n hn => lt_of_le_of_ne (hB n hn) ?_⟩
  exact fun h => find_none hf n (by rw [hl]; simp [hn]) h.symm

theorem closestBefore_split {A B : List (Node V)} (hl : b.nodes = A ++ B)
    (hA : ∀ a ∈ A, a.key < t) (hB : ∀ n ∈ B, t ≤ n.key) :
    b.closestBefore t = match A.getLast? with
      | some m => some m
      | none => b.nodes.head? := by
  unfold closestBefore
  rw [pred_split hl hA hB]
  cases hn : b.nodes with
  | nil =>
    rw [hn] at hl
    have : A = [] := (List.append_eq_nil_iff.1 hl.symm).1
    simp [this]
  | cons n l => cases A.getLast? <;> simp

/-- Result of the iterator query for a time below all keys. -/
theorem iterClosest_below {p : Plat} {n : Node V} {B : List (Node V)} (hl : b.nodes = n :: B)
    (hs : SortedL b.nodes) (ht : t < n.key) {it : Iter} (hd : b.decBegin p = .ok it) :
    b.iterClosest p t = .ok n.iter := by
  have hs' := hs
  rw [hl, SortedL.cons_iff] at hs'
  have hB : ∀ m ∈ n :: B, t < m.key := by
    intro m hm
    rcases List.mem_cons.1 hm with rfl | hm
    · exact ht
    · exact ht.trans (hs'.1 m hm)
  have hf : b.find t = none := find_split_none (A := []) (B := n :: B) (by simp [hl]) (by simp) hB
  have hlb : b.lowerBound t = some n := by
    rw [lowerBound_split (A := []) (B := n :: B) (by simp [hl]) (by simp)
      (fun m hm => (hB m hm).le)]; simp
  have hcb : b.iterClosestBefore p t = .ok it := by
    unfold iterClosestBefore
    rw [hlb]
    simp only [toIter]
    rw [decr_first hl hs, hd]
  unfold iterClosest
  rw [hf]
  simp only [bind, Except.bind, hcb, iterBeforeBegin, hd, if_true, pure, Except.pure]
  simp [begin, hl, toIter]

/-- Result of the iterator query for a time above all keys. -/
theorem iterClosest_above {p : Plat} {n : Node V} {A : List (Node V)} (hl : b.nodes = A ++ [n])
    (hs : SortedL b.nodes) (ht : n.key < t) {it : Iter} (hd : b.decBegin p = .ok it)
    (hne : it = n.iter → A = []) :
    b.iterClosest p t = .ok n.iter := by
  have hs' := hs
  rw [hl, SortedL.append_iff] at hs'
  have hA : ∀ m ∈ A ++ [n], m.key < t := by
    intro m hm
    rcases List.mem_append.1 hm with h | h
    · exact (hs'.2.2 m h n (by simp)).trans ht
    · simp only [List.mem_singleton] at h; rw [h]; exact ht
  have hf : b.find t = none := find_split_none (A := A ++ [n]) (B := []) (by simp [hl]) hA (by simp)
  have hlb : b.lowerBound t = none := by
    rw [lowerBound_split (A := A ++ [n]) (B := []) (by simp [hl]) hA (by simp)]; simp
  have hub : b.upperBound t = none := by
    rw [upperBound_split (A := A ++ [n]) (B := []) (by simp [hl])
      (fun m hm => (hA m hm).le) (by simp)]; simp
  have hcb : b.iterClosestBefore p t = .ok n.iter := by
    unfold iterClosestBefore
    rw [hlb]
    simp only [toIter]
    rw [decr_fin hl]
  unfold iterClosest
  rw [hf]
  simp only [bind, Except.bind, hcb, iterBeforeBegin, hd, pure, Except.pure, iterClosestAfter, hub,
    toIter, if_true]
  split
  · rename_i h
    have := hne h.symm
    subst this
    simp [begin, hl, toIter]
  · simp [Node.iter]

/-- Result of the iterator query between two neighbouring keys. -/
theorem iterClosest_between {p : Plat} {m n : Node V} {A B : List (Node V)}
    (hl : b.nodes = A ++ m :: n :: B) (hs : SortedL b.nodes) (h1 : m.key < t) (h2 : t < n.key)
    {it : Iter} (hd : b.decBegin p = .ok it) :
    b.iterClosest p t =
      if m.iter = it then .ok b.begin
      else if |n.key - t| < |m.key - t| then .ok n.iter else .ok m.iter := by
  have hs' := hs
  rw [hl, SortedL.append_iff, SortedL.cons_iff, SortedL.cons_iff] at hs'
  have hA : ∀ a ∈ A ++ [m], a.key < t := by
    intro a ha
    rcases List.mem_append.1 ha with h | h
    · exact (hs'.2.2 a h m (by simp)).trans h1
    · simp only [List.mem_singleton] at h; rw [h]; exact h1
  have hB : ∀ a ∈ n :: B, t < a.key := by
    intro a ha
    rcases List.mem_cons.1 ha with rfl | h
    · exact h2
    · exact h2.trans (hs'.2.1.2.1 a h)
  have hl' : b.nodes = (A ++ [m]) ++ (n :: B) := by simp [hl]
  have hf : b.find t = none := find_split_none hl' hA hB
  have hlb : b.lowerBound t = some n := by
    rw [lowerBound_split hl' hA (fun a ha => (hB a ha).le)]; simp
  have hub : b.upperBound t = some n := by
    rw [upperBound_split hl' (fun a ha => (hA a ha).le) hB]; simp
  have hcb : b.iterClosestBefore p t = .ok m.iter := by
    unfold iterClosestBefore
    rw [hlb]
    simp only [toIter]
    rw [decr_at hl hs]
  have hdn := deref_mem hs (n := n) (by rw [hl]; simp)
  have hdm := deref_mem hs (n := m) (by rw [hl]; simp)
  unfold iterClosest
  rw [hf]
  simp only [bind, Except.bind, hcb, iterBeforeBegin, hd, pure, Except.pure, iterClosestAfter, hub,
    toIter, hdn, hdm]
  split
  · rfl
  · have e1 : m.iter ≠ .fin := by simp [Node.iter]
    have e2 : n.iter ≠ .fin := by simp [Node.iter]
    simp only [if_neg e1, if_neg e2]

/-- `--begin()` on libstdc++ never fails on a non-empty map. -/
theorem decBegin_gnu {shape : Nat → List ℚ → Bool} (hne : b.nodes ≠ []) :
    ∃ it, b.decBegin (.gnu shape) = .ok it ∧
      (it = .fin ∨ (it = b.begin ∧
        (b.nodes.length = 1 ∨ (b.nodes.length = 2 ∧ shape b.fresh b.keys = true)))) := by
  unfold decBegin
  match hb : b.nodes with
  | [] => exact absurd hb hne
  | [n] => exact ⟨_, rfl, by simp [begin, hb, toIter]⟩
  | [n, m] =>
    by_cases h : shape b.fresh b.keys = true
    · exact ⟨n.iter, by simp [h], by simp [begin, hb, toIter, h]⟩
    · exact ⟨.fin, by simp [h], by simp⟩
  | _ :: _ :: _ :: _ => exact ⟨_, rfl, by simp⟩

/-- Trichotomy for the position of a time that is not a key. -/
theorem position (hs : SortedL b.nodes) (hne : b.nodes ≠ []) (hf : b.find t = none) :
    (∃ n B, b.nodes = n :: B ∧ t < n.key) ∨ (∃ A n, b.nodes = A ++ [n] ∧ n.key < t) ∨
    (∃ A m n B, b.nodes = A ++ m :: n :: B ∧ m.key < t ∧ t < n.key) := by
  obtain ⟨A, B, hl, hA, hB⟩ := split_strict hs hf
  rcases List.eq_nil_or_concat A with rfl | ⟨A', m, rfl⟩
  · cases B with
    | nil => simp at hl; exact absurd hl hne
    | cons n B => exact Or.inl ⟨n, B, by simpa using hl, hB n (by simp)⟩
  · cases B with
    | nil => exact Or.inr (Or.inl ⟨A', m, by simpa using hl, hA m (by simp)⟩)
    | cons n B =>
      exact Or.inr (Or.inr ⟨A', m, n, B, by simpa using hl, hA m (by simp), hB n (by simp)⟩)

theorem closest_of_find {n : Node V} (h : b.find t = some n) : b.closest t = some n := by
  unfold closest valueAt; rw [h]

theorem closest_below {n : Node V} {B : List (Node V)} (hl : b.nodes = n :: B)
    (hs : SortedL b.nodes) (ht : t < n.key) (hinv : ∀ m ∈ b.nodes, m.key ≠ invalidTime) :
    b.closest t = some n := by
  have hs' := hs
  rw [hl, SortedL.cons_iff] at hs'
  have hB : ∀ m ∈ n :: B, t < m.key := by
    intro m hm
    rcases List.mem_cons.1 hm with rfl | hm
    · exact ht
    · exact ht.trans (hs'.1 m hm)
  have hl' : b.nodes = [] ++ (n :: B) := by simp [hl]
  have hf : b.find t = none := find_split_none hl' (by simp) hB
  have hub : b.upperBound t = some n := by rw [upperBound_split hl' (by simp) hB]; simp
  have hcb : b.closestBefore t = some n := by
    rw [closestBefore_split hl' (by simp) (fun m hm => (hB m hm).le)]; simp [hl]
  unfold closest valueAt
  rw [hf]
  simp only [hcb, closestAfter, hub, timeOf]
  have := hinv n (by rw [hl]; simp)
  simp [this]

theorem closest_above {n : Node V} {A : List (Node V)} (hl : b.nodes = A ++ [n])
    (hs : SortedL b.nodes) (ht : n.key < t) (hinv : ∀ m ∈ b.nodes, m.key ≠ invalidTime) :
    b.closest t = some n := by
  have hs' := hs
  rw [hl, SortedL.append_iff] at hs'
  have hA : ∀ m ∈ A ++ [n], m.key < t := by
    intro m hm
    rcases List.mem_append.1 hm with h | h
    · exact (hs'.2.2 m h n (by simp)).trans ht
    · simp only [List.mem_singleton] at h; rw [h]; exact ht
  have hl' : b.nodes = (A ++ [n]) ++ [] := by simp [hl]
  have hf : b.find t = none := find_split_none hl' hA (by simp)
  have hub : b.upperBound t = none := by
    rw [upperBound_split hl' (fun m hm => (hA m hm).le) (by simp)]; simp
  have hcb : b.closestBefore t = some n := by
    rw [closestBefore_split hl' hA (by simp)]; simp
  unfold closest valueAt
  rw [hf]
  simp only [hcb, closestAfter, hub, timeOf]
  have := hinv n (by rw [hl]; simp)
  simp [this]

theorem closest_between {m n : Node V} {A B : List (Node V)}
    (hl : b.nodes = A ++ m :: n :: B) (hs : SortedL b.nodes) (h1 : m.key < t) (h2 : t < n.key)
    (hinv : ∀ m ∈ b.nodes, m.key ≠ invalidTime) :
    b.closest t = if |n.key - t| < |m.key - t| then some n else some m := by
  have hs' := hs
  rw [hl, SortedL.append_iff, SortedL.cons_iff, SortedL.cons_iff] at hs'
  have hA : ∀ a ∈ A ++ [m], a.key < t := by
    intro a ha
    rcases List.mem_append.1 ha with h | h
    · exact (hs'.2.2 a h m (by simp)).trans h1
    · simp only [List.mem_singleton] at h; rw [h]; exact h1
  have hB : ∀ a ∈ n :: B, t < a.key := by
    intro a ha
    rcases List.mem_cons.1 ha with rfl | h
    · exact h2
    · exact h2.trans (hs'.2.1.2.1 a h)
  have hl' : b.nodes = (A ++ [m]) ++ (n :: B) := by simp [hl]
  have hf : b.find t = none := find_split_none hl' hA hB
  have hub : b.upperBound t = some n := by
    rw [upperBound_split hl' (fun a ha => (hA a ha).le) hB]; simp
  have hcb : b.closestBefore t = some m := by
    rw [closestBefore_split hl' hA (fun a ha => (hB a ha).le)]; simp
  unfold closest valueAt
  rw [hf]
  simp only [hcb, closestAfter, hub, timeOf]
  have i1 := hinv m (by rw [hl]; simp)
  have i2 := hinv n (by rw [hl]; simp)
  simp [i1, i2]

end Buf
end MSF

namespace MSF
namespace Buf
variable {V : Type} {b : Buf V} {t : ℚ}

theorem iterClosest_of_find {p : Plat} {n : Node V} (h : b.find t = some n) :
    b.iterClosest p t = .ok n.iter := by
  unfold iterClosest; rw [h]

theorem begin_cons {n : Node V} {B : List (Node V)} (hl : b.nodes = n :: B) : b.begin = n.iter := by
  simp [begin, hl, toIter]

/-- Two nodes of a sorted buffer with equal iterators are at the same position. -/
theorem iter_ne {m n : Node V} (h : m.key ≠ n.key) : m.iter ≠ n.iter := by
  simp [Node.iter, h]

/-- On libstdc++, with anything but two elements (or two with the root not leftmost), the iterator
query and the pointer query agree. -/
theorem iterClosest_gnu {shape : Nat → List ℚ → Bool} (hs : SortedL b.nodes) (hne : b.nodes ≠ [])
    (hinv : ∀ m ∈ b.nodes, m.key ≠ invalidTime)
    (h2 : b.nodes.length ≠ 2 ∨ shape b.fresh b.keys = false) :
    ∃ n, n ∈ b.nodes ∧ b.closest t = some n ∧ b.iterClosest (.gnu shape) t = .ok n.iter := by
  cases hf : b.find t with
  | some n => exact ⟨n, (find_some hf).1, closest_of_find hf, iterClosest_of_find hf⟩
  | none =>
    obtain ⟨it, hd, hit⟩ := decBegin_gnu (shape := shape) hne
    rcases position hs hne hf with ⟨n, B, hl, ht⟩ | ⟨A, n, hl, ht⟩ | ⟨A, m, n, B, hl, h1, h2'⟩
    · exact ⟨n, by simp [hl], closest_below hl hs ht hinv, iterClosest_below hl hs ht hd⟩
    · refine ⟨n, by simp [hl], closest_above hl hs ht hinv, iterClosest_above hl hs ht hd ?_⟩
      intro hin
      rcases hit with hit | ⟨hit, hlen⟩
      · rw [hit] at hin; simp [Node.iter] at hin
      · rcases hlen with hlen | ⟨hlen, hsh⟩
        · rw [hl] at hlen
          simpa using hlen
        · rcases h2 with h2 | h2
          · exact absurd hlen h2
          · rw [h2] at hsh; simp at hsh
    · rw [iterClosest_between hl hs h1 h2' hd, closest_between hl hs h1 h2' hinv]
      have hmit : m.iter ≠ it := by
        intro hmi
        rcases hit with hit | ⟨hit, hlen⟩
        · rw [hit] at hmi; simp [Node.iter] at hmi
        · rcases hlen with hlen | ⟨hlen, hsh⟩
          · rw [hl] at hlen; simp at hlen; omega
          · rcases h2 with h2 | h2
            · exact h2 hlen
            · rw [h2] at hsh; simp at hsh
      rw [if_neg hmit]
      split
      · exact ⟨n, by simp [hl], rfl, rfl⟩
      · exact ⟨m, by simp [hl], rfl, rfl⟩

/-- On libstdc++ the iterator query on a non-empty buffer always yields a buffered node. -/
theorem iterClosest_gnu_ok (shape : Nat → List ℚ → Bool) (hs : SortedL b.nodes)
    (hne : b.nodes ≠ []) (t : ℚ) : ∃ n ∈ b.nodes, b.iterClosest (.gnu shape) t = .ok n.iter := by
  cases hf : b.find t with
  | some n => exact ⟨n, (find_some hf).1, iterClosest_of_find hf⟩
  | none =>
    obtain ⟨it, hd, hit⟩ := decBegin_gnu (shape := shape) hne
    rcases position hs hne hf with ⟨n, B, hl, ht⟩ | ⟨A, n, hl, ht⟩ | ⟨A, m, n, B, hl, h1, h2'⟩
    · exact ⟨n, by simp [hl], iterClosest_below hl hs ht hd⟩
    · refine ⟨n, by simp [hl], iterClosest_above hl hs ht hd ?_⟩
      intro hin
      rcases hit with hit | ⟨hit, -⟩
      · rw [hit] at hin; simp [Node.iter] at hin
      · cases A with
        | nil => rfl
        | cons a A =>
          exfalso
          rw [begin_cons (n := a) (B := A ++ [n]) (by simp [hl])] at hit
          rw [hit] at hin
          have hs' := hs
          rw [hl, List.cons_append, SortedL.cons_iff] at hs'
          exact iter_ne (hs'.1 n (by simp)).ne hin
    · rw [iterClosest_between hl hs h1 h2' hd]
      split
      · cases hb : b.nodes with
        | nil => exact absurd hb hne
        | cons a l => exact ⟨a, by simp, by rw [begin_cons hb]⟩
      · split
        · exact ⟨n, by simp [hl], rfl⟩
        · exact ⟨m, by simp [hl], rfl⟩

end Buf
end MSF
