import Verif.Model.Core
import Mathlib.Tactic.Linarith
import Mathlib.Tactic.Ring

/-! The buffer operations commute with a change of the stored objects and a shift of all times. -/

namespace MSF

/-- Shift the time an iterator points to. -/
def Iter.shift (d : ℚ) : Iter → Iter
  | .fin => .fin
  | .at k i => .at (k + d) i

/-- The same map implementation, seen with shifted times: the shape of the tree depends on the order
of the keys, not on where the time axis starts. -/
def Plat.shift (d : ℚ) : Plat → Plat
  | .std => .std
  | .gnu shape => .gnu fun n ks => shape n (ks.map (· - d))

variable {V V' : Type} (g : V → V') (d : ℚ)

def Node.shift (n : Node V) : Node V' := ⟨n.key + d, n.id, g n.val⟩

def Buf.shift (b : Buf V) : Buf V' := ⟨b.nodes.map (Node.shift g d), b.fresh⟩

@[simp] theorem Node.shift_key (n : Node V) : (n.shift g d).key = n.key + d := rfl
@[simp] theorem Node.shift_val (n : Node V) : (n.shift g d).val = g n.val := rfl
theorem Node.shift_iter (n : Node V) : (n.shift g d).iter = n.iter.shift d := rfl

theorem Iter.shift_inj (a b : Iter) : a.shift d = b.shift d ↔ a = b := by
  cases a <;> cases b <;> simp [Iter.shift]

theorem Iter.shift_fin (a : Iter) : a.shift d = .fin ↔ a = .fin := by
  cases a <;> simp [Iter.shift]

namespace Buf

theorem shift_toIter (o : Option (Node V)) :
    toIter (o.map (Node.shift g d)) = (toIter o).shift d := by
  cases o <;> rfl

theorem shift_find (b : Buf V) (t : ℚ) :
    (b.shift g d).find (t + d) = (b.find t).map (Node.shift g d) := by
  simp [Buf.shift, find, List.find?_map, Function.comp_def]

theorem shift_lowerBound (b : Buf V) (t : ℚ) :
    (b.shift g d).lowerBound (t + d) = (b.lowerBound t).map (Node.shift g d) := by
  simp [Buf.shift, lowerBound, List.find?_map, Function.comp_def]

theorem shift_upperBound (b : Buf V) (t : ℚ) :
    (b.shift g d).upperBound (t + d) = (b.upperBound t).map (Node.shift g d) := by
  simp [Buf.shift, upperBound, List.find?_map, Function.comp_def]

theorem shift_pred (b : Buf V) (t : ℚ) :
    (b.shift g d).pred (t + d) = (b.pred t).map (Node.shift g d) := by
  simp [Buf.shift, pred, List.filter_map, Function.comp_def]

theorem shift_deref (b : Buf V) (it : Iter) :
    (b.shift g d).deref (it.shift d) = (b.deref it).map (Node.shift g d) := by
  cases it with
  | fin => rfl
  | «at» k i =>
    have h := shift_find g d b k
    simp only [find] at h
    simp only [deref, Iter.shift, h]
    cases hf : b.nodes.find? (fun n => n.key = k) with
    | none => rfl
    | some n =>
      simp only [Option.map_some]
      by_cases hi : n.id = i
      · have hi' : (n.shift g d).id = i := hi
        simp only [hi, hi', if_true]; rfl
      · have hi' : ¬ (n.shift g d).id = i := hi
        simp only [hi, hi', if_false]; rfl

theorem shift_keys (b : Buf V) : ((b.shift g d).keys.map (· - d)) = b.keys := by
  simp [Buf.shift, keys, Function.comp_def]

theorem shift_decBegin (p : Plat) (b : Buf V) :
    (b.shift g d).decBegin (p.shift d) = (b.decBegin p).map (Iter.shift d) := by
  cases p with
  | std => rfl
  | gnu shape =>
    have hk := shift_keys g d b
    cases b with
    | mk nodes fresh =>
      rcases nodes with _ | ⟨n, _ | ⟨m, _ | ⟨k, l⟩⟩⟩
      · rfl
      · rfl
      · simp only [decBegin, Plat.shift, hk]
        simp only [Buf.shift, List.map_cons, List.map_nil]
        split <;> rfl
      · rfl

theorem shift_incr (b : Buf V) (it : Iter) :
    (b.shift g d).incr (it.shift d) = (b.incr it).map (Iter.shift d) := by
  cases it with
  | fin => rfl
  | «at» k i =>
    have h := shift_deref g d b (.at k i)
    simp only [Iter.shift] at h
    simp only [incr, Iter.shift, h]
    cases b.deref (.at k i) with
    | error e => rfl
    | ok n =>
      change Except.ok (toIter ((b.shift g d).upperBound (n.key + d))) = _
      rw [shift_upperBound, shift_toIter]
      rfl

theorem shift_getLast (b : Buf V) :
    (b.shift g d).nodes.getLast? = b.nodes.getLast?.map (Node.shift g d) := by
  simp [Buf.shift]

theorem shift_decr (p : Plat) (b : Buf V) (it : Iter) :
    (b.shift g d).decr (p.shift d) (it.shift d) = (b.decr p it).map (Iter.shift d) := by
  cases it with
  | fin =>
    simp only [decr, Iter.shift, shift_getLast]
    cases b.nodes.getLast? with
    | none => exact shift_decBegin g d p b
    | some n => rfl
  | «at» k i =>
    have h := shift_deref g d b (.at k i)
    simp only [Iter.shift] at h
    simp only [decr, Iter.shift, h]
    cases b.deref (.at k i) with
    | error e => rfl
    | ok n =>
      have h2 := shift_pred g d b n.key
      simp only [Except.map, bind, Except.bind, Node.shift_key, h2]
      cases b.pred n.key with
      | none => exact shift_decBegin g d p b
      | some m => rfl

theorem shift_modify (b : Buf V) (k : ℚ) {f : V → V} {f' : V' → V'} (h : ∀ v, g (f v) = f' (g v)) :
    (b.shift g d).modify (k + d) f' = (b.modify k f).shift g d := by
  simp only [modify, Buf.shift, List.map_map, Buf.mk.injEq, and_true]
  refine List.map_congr_left fun n _ => ?_
  simp only [Function.comp_apply, Node.shift_key, add_left_inj]
  split
  · simp only [Node.shift, h]
  · rfl

theorem shift_clear (b : Buf V) : (b.shift g d).clear = b.clear.shift g d := rfl

theorem shift_size (b : Buf V) : (b.shift g d).size = b.size := by simp [size, Buf.shift]

theorem shift_insertNode (n : Node V) (l : List (Node V)) :
    insertNode (n.shift g d) (l.map (Node.shift g d)) = (insertNode n l).map (Node.shift g d) := by
  induction l with
  | nil => rfl
  | cons m l ih =>
    simp only [List.map_cons, insertNode, Node.shift_key, add_lt_add_iff_right]
    split
    · rfl
    · rw [List.map_cons, ih]

theorem shift_insert (b : Buf V) (t : ℚ) (v : V) :
    (b.shift g d).insert (t + d) (g v) =
      ((b.insert t v).1.shift g d, (b.insert t v).2.shift d) := by
  simp only [insert, shift_find]
  cases b.find t with
  | some n => rfl
  | none =>
    simp only [Option.map_none, Prod.mk.injEq]
    refine ⟨?_, rfl⟩
    simp only [Buf.shift, Buf.mk.injEq, and_true]
    exact shift_insertNode g d ⟨t, b.fresh, v⟩ b.nodes

theorem shift_iterAtValue (b : Buf V) (t : ℚ) :
    (b.shift g d).iterAtValue (t + d) = (b.iterAtValue t).shift d := by
  simp only [iterAtValue, shift_find, shift_lowerBound]
  cases b.find t with
  | some n => rfl
  | none => exact shift_toIter g d _

theorem shift_iterClosestBefore (p : Plat) (b : Buf V) (t : ℚ) :
    (b.shift g d).iterClosestBefore (p.shift d) (t + d) =
      (b.iterClosestBefore p t).map (Iter.shift d) := by
  simp only [iterClosestBefore, shift_lowerBound, shift_toIter, shift_decr]

theorem shift_iterClosestAfter (b : Buf V) (t : ℚ) :
    (b.shift g d).iterClosestAfter (t + d) = (b.iterClosestAfter t).shift d := by
  simp only [iterClosestAfter, shift_upperBound, shift_toIter]

theorem shift_begin (b : Buf V) : (b.shift g d).begin = b.begin.shift d := by
  simp only [begin, Buf.shift, List.head?_map]
  exact shift_toIter g d _

theorem shift_iterClosest (p : Plat) (b : Buf V) (t : ℚ) :
    (b.shift g d).iterClosest (p.shift d) (t + d) = (b.iterClosest p t).map (Iter.shift d) := by
  simp only [iterClosest, shift_find]
  cases b.find t with
  | some n => rfl
  | none =>
    simp only [Option.map_none, shift_iterClosestBefore, iterBeforeBegin, shift_decBegin]
    cases b.iterClosestBefore p t with
    | error e => rfl
    | ok tm =>
      cases b.decBegin p with
      | error e => rfl
      | ok bb =>
        simp only [Except.map, bind, Except.bind, shift_iterClosestAfter, Iter.shift_inj,
          Iter.shift_fin]
        by_cases h1 : tm = bb
        · simp only [h1, if_true, pure, Except.pure, shift_begin]
        · simp only [h1, if_false]
          by_cases h2 : tm = .fin
          · simp only [h2, if_true, pure, Except.pure]
          · simp only [h2, if_false]
            by_cases h3 : b.iterClosestAfter t = .fin
            · simp only [h3, if_true, pure, Except.pure]
            · simp only [h3, if_false, shift_deref]
              cases b.deref (b.iterClosestAfter t) with
              | error e => rfl
              | ok np =>
                cases b.deref tm with
                | error e => rfl
                | ok nm =>
                  simp only [Except.map, Node.shift_key, add_sub_add_right_eq_sub, pure, Except.pure]
                  split <;> rfl

theorem shift_closestBefore (b : Buf V) (t : ℚ) :
    (b.shift g d).closestBefore (t + d) = (b.closestBefore t).map (Node.shift g d) := by
  have h := shift_pred g d b t
  cases b with
  | mk nodes fresh =>
    cases nodes with
    | nil => rfl
    | cons n l =>
      simp only [closestBefore, h]
      simp only [Buf.shift, List.map_cons]
      cases (Buf.mk (n :: l) fresh).pred t <;> rfl

theorem shift_closestAfter (b : Buf V) (t : ℚ) :
    (b.shift g d).closestAfter (t + d) = (b.closestAfter t).map (Node.shift g d) :=
  shift_upperBound g d b t

theorem shift_last (b : Buf V) : (b.shift g d).last = b.last.map (Node.shift g d) :=
  shift_getLast g d b

theorem shift_first (b : Buf V) : (b.shift g d).first = b.first.map (Node.shift g d) := by
  simp [first, Buf.shift]

theorem shift_clearOlderThan (p : Plat) (b : Buf V) (age : ℚ) :
    (b.shift g d).clearOlderThan (p.shift d) age = (b.clearOlderThan p age).map (Buf.shift g d) := by
  by_cases hb : b.nodes = []
  · obtain ⟨nodes, fresh⟩ := b
    obtain rfl : nodes = [] := hb
    simp only [clearOlderThan, last, first, Buf.shift, List.map_nil, List.getLast?_nil,
      List.head?_nil, timeOf, sub_self]
    split
    · rfl
    · cases p <;> rfl
  · obtain ⟨l, hl⟩ : ∃ l, b.last = some l := by
      cases h : b.last with
      | none => exact absurd (List.getLast?_eq_none_iff.1 h) hb
      | some l => exact ⟨l, rfl⟩
    obtain ⟨f, hf⟩ : ∃ f, b.first = some f := by
      cases h : b.first with
      | none => exact absurd (List.head?_eq_none_iff.1 h) hb
      | some f => exact ⟨f, rfl⟩
    simp only [clearOlderThan, shift_last, shift_first, hl, hf, Option.map_some, timeOf,
      Node.shift_key, add_sub_add_right_eq_sub]
    split
    · rfl
    · have e : l.key + d - age = (l.key - age) + d := by ring
      rw [e, shift_iterClosest]
      cases b.iterClosest p (l.key - age) with
      | error e => rfl
      | ok it =>
        simp only [Except.map, bind, Except.bind, shift_deref, shift_begin]
        cases b.deref it with
        | error e => rfl
        | ok n =>
          cases b.deref b.begin with
          | error e => rfl
          | ok f =>
            simp only [Node.shift_key, gt_iff_lt, add_lt_add_iff_right, pure,
              Except.pure]
            split
            · congr 1
              simp only [Buf.shift, List.filter_map, Buf.mk.injEq, and_true]
              congr 1
              refine List.filter_congr fun m _ => ?_
              simp
            · rfl

theorem shift_updateTime (b : Buf V) (told tnew : ℚ) :
    ((b.shift g d).updateTime (told + d) (tnew + d)).1 = (b.updateTime told tnew).1.shift g d := by
  simp only [updateTime, shift_find]
  cases b.find told with
  | none => rfl
  | some n =>
    simp only [Option.map_some]
    have e : (⟨(b.shift g d).nodes.filter (fun m => m.key ≠ (n.shift g d).key), b.fresh⟩ : Buf V') =
        Buf.shift g d ⟨b.nodes.filter (fun m => m.key ≠ n.key), b.fresh⟩ := by
      simp only [Buf.shift, List.filter_map, Buf.mk.injEq, and_true]
      congr 1
      refine List.filter_congr fun m _ => ?_
      simp
    have h := shift_insert g d ⟨b.nodes.filter (fun m => m.key ≠ n.key), b.fresh⟩ tnew n.val
    rw [← e] at h
    exact congrArg Prod.fst h

end Buf
end MSF
