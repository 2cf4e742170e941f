import Verif.Model.State
import Mathlib.Tactic.Ring
import Mathlib.Tactic.Linarith
import Mathlib.Data.List.FinRange
import Mathlib.Data.List.OfFn

/-! # Lemmas on the state layout -/

namespace MSF

variable {R : Type} {D : List VarDesc}

/-- Offset of the variable at position `i`: the lengths of all variables before it. -/
def offset (len : VarDesc → Nat) (D : List VarDesc) (i : Nat) : Nat := total len (D.take i)

@[simp] theorem total_nil (len : VarDesc → Nat) : total len [] = 0 := rfl

@[simp] theorem total_cons (len : VarDesc → Nat) (d : VarDesc) (l : List VarDesc) :
    total len (d :: l) = len d + total len l := by simp [total]

theorem total_append (len : VarDesc → Nat) (l l' : List VarDesc) :
    total len (l ++ l') = total len l + total len l' := by simp [total]

theorem offset_zero (len : VarDesc → Nat) : offset len D 0 = 0 := rfl

theorem offset_succ (len : VarDesc → Nat) (i : Nat) (h : i < D.length) :
    offset len D (i + 1) = offset len D i + len D[i] := by
  rw [offset, offset, ← List.take_append_getElem h, total_append]
  simp [total]

theorem offset_length (len : VarDesc → Nat) : offset len D D.length = total len D := by
  simp [offset]

theorem offset_mono (len : VarDesc → Nat) {i j : Nat} (h : i ≤ j) :
    offset len D i ≤ offset len D j := by
  obtain ⟨k, rfl⟩ := Nat.exists_eq_add_of_le h
  induction k with
  | zero => exact le_rfl
  | succ k ih =>
    refine le_trans (ih (Nat.le_add_right _ _)) ?_
    by_cases hk : i + k < D.length
    · rw [← Nat.add_assoc, offset_succ len _ hk]; omega
    · rw [offset, offset, List.take_of_length_le (by omega), List.take_of_length_le (by omega)]

theorem offset_le_total (len : VarDesc → Nat) (i : Nat) : offset len D i ≤ total len D := by
  by_cases h : i ≤ D.length
  · rw [← offset_length]; exact offset_mono len h
  · rw [offset, List.take_of_length_le (by omega)]

theorem offset_add_len_le (len : VarDesc → Nat) (i : Nat) (h : i < D.length) :
    offset len D i + len D[i] ≤ total len D := by
  rw [← offset_succ len i h]; exact offset_le_total len _

/-! ### Indexing check -/

theorem checkStateIndexing_eq_zero (l : List VarDesc) (k : Nat) :
    checkStateIndexing l k false = 0 ↔ ∀ i (h : i < l.length), l[i].name = k + i := by
  induction l generalizing k with
  | nil => simp [checkStateIndexing]
  | cons d l ih =>
    simp only [checkStateIndexing, Nat.add_eq_zero_iff, ih]
    constructor
    · rintro ⟨h1, h2⟩ i hi
      cases i with
      | zero =>
        by_contra hne
        simp at hne
        simp [hne] at h1
      | succ i =>
        have := h2 i (by simpa using hi)
        rw [List.getElem_cons_succ]
        omega
    · intro h
      refine ⟨?_, fun i hi => ?_⟩
      · have := h 0 (by simp)
        simp at this
        simp [this]
      · have := h (i + 1) (by simpa using hi)
        simp at this
        omega

theorem indexingErrors_eq_zero :
    indexingErrors D = 0 ↔ ∀ i (h : i < D.length), D[i].name = i := by
  cases D with
  | nil => simp [indexingErrors, checkStateIndexing]
  | cons d l =>
    rw [indexingErrors, List.isEmpty_cons, checkStateIndexing_eq_zero]
    simp

theorem nodup_of_indexing (h : indexingErrors D = 0) : D.Nodup := by
  rw [indexingErrors_eq_zero] at h
  rw [List.nodup_iff_injective_get]
  intro a b hab
  have ha := h a a.2
  have hb := h b b.2
  simp only [List.get_eq_getElem] at hab
  rw [hab] at ha
  exact Fin.ext (ha.symm.trans hb)

/-! ### Counting and start indices -/

theorem countStatesLinear_eq (len : VarDesc → Nat) (l : List VarDesc) :
    countStatesLinear len l false = total len l := by
  induction l with
  | nil => rfl
  | cons d l ih => simp [countStatesLinear, ih]

theorem countStates_eq (len : VarDesc → Nat) (h : indexingErrors D = 0) :
    countStates len D = some (total len D) := by
  rw [countStates, if_pos h, h]
  cases D with
  | nil => rfl
  | cons d l => rw [List.isEmpty_cons, countStatesLinear_eq, Nat.add_zero]

theorem computeStartIndex_mem (len : VarDesc → Nat) (T : VarDesc) (l : List VarDesc) (cur : Int)
    (h : T ∈ l) :
    computeStartIndex len T l false cur false =
      some (cur + (total len (l.take (l.idxOf T)) : Nat)) := by
  induction l generalizing cur with
  | nil => cases h
  | cons d l ih =>
    rw [computeStartIndex]
    by_cases hd : d = T
    · subst hd
      simp [computeStartIndex]
    · have hm : T ∈ l := (List.mem_cons.1 h).resolve_left (fun e => hd e.symm)
      rw [decide_eq_false hd, ih _ hm, List.idxOf_cons_ne _ hd, List.take_succ_cons, total_cons]
      simp

theorem computeStartIndex_not_mem (len : VarDesc → Nat) (T : VarDesc) (l : List VarDesc)
    (cur : Int) (h : T ∉ l) :
    computeStartIndex len T l false cur false = some (cur + (total len l : Nat) - 1) := by
  induction l generalizing cur with
  | nil => simp [computeStartIndex]; omega
  | cons d l ih =>
    simp only [List.mem_cons, not_or] at h
    rw [computeStartIndex, decide_eq_false (fun e => h.1 e.symm), ih _ h.2, total_cons]
    simp
    omega

/-- The start index of the variable at position `i` is its offset. -/
theorem startIndex_get (len : VarDesc → Nat) (h : indexingErrors D = 0) (i : Nat)
    (hi : i < D.length) : startIndex len D D[i] = some (offset len D i : Int) := by
  have hidx : D.idxOf D[i] = i := (nodup_of_indexing h).idxOf_getElem i hi
  have hmem : D[i] ∈ D := List.getElem_mem hi
  have hne : D.isEmpty = false := by
    cases D with
    | nil => cases hmem
    | cons _ _ => rfl
  rw [startIndex, if_pos h, hne, h]
  by_cases hh : D.head? = some D[i]
  · have hi0 : i = 0 := by
      cases D with
      | nil => cases hmem
      | cons d l =>
        rw [List.head?_cons, Option.some.injEq] at hh
        rw [← hh] at hidx
        simpa using hidx.symm
    subst hi0
    rw [decide_eq_true hh]
    simp [computeStartIndex, offset]
  · rw [decide_eq_false hh, computeStartIndex_mem _ _ _ _ hmem, hidx]
    simp [offset]

/-- A type that does not occur gets the (useless) index `total - 1`. -/
theorem startIndex_absent (len : VarDesc → Nat) (h : indexingErrors D = 0) (T : VarDesc)
    (hT : T ∉ D) : startIndex len D T = some ((total len D : Int) - 1) := by
  rw [startIndex, if_pos h, h]
  cases D with
  | nil => simp [computeStartIndex]
  | cons d l =>
    have hd : ¬ (d :: l).head? = some T := by
      rw [List.head?_cons, Option.some.injEq]
      rintro rfl
      exact hT (by simp)
    rw [decide_eq_false hd, List.isEmpty_cons, computeStartIndex_not_mem _ _ _ _ hT]
    simp

/-- Position in the layout: which variable owns index `k`. -/
theorem exists_owner (len : VarDesc → Nat) (k : Nat) (hk : k < total len D) :
    ∃ i, ∃ h : i < D.length, offset len D i ≤ k ∧ k < offset len D i + len D[i] := by
  have key : ∀ n, n ≤ D.length → k < offset len D n →
      ∃ i, ∃ h : i < D.length, offset len D i ≤ k ∧ k < offset len D i + len D[i] := by
    intro n
    induction n with
    | zero => intro _ h; simp [offset_zero] at h
    | succ n ih =>
      intro hn h
      by_cases hc : k < offset len D n
      · exact ih (by omega) hc
      · exact ⟨n, by omega, by omega, by rw [← offset_succ len n (by omega)]; exact h⟩
  exact key D.length le_rfl (by rw [offset_length]; exact hk)

theorem owner_unique (len : VarDesc → Nat) (k : Nat) {i j : Nat} (hi : i < D.length)
    (hj : j < D.length) (h1 : offset len D i ≤ k) (h2 : k < offset len D i + len D[i])
    (h3 : offset len D j ≤ k) (h4 : k < offset len D j + len D[j]) : i = j := by
  rw [← offset_succ len i hi] at h2
  rw [← offset_succ len j hj] at h4
  rcases lt_trichotomy i j with h | h | h
  · have := offset_mono (D := D) len (show i + 1 ≤ j from h); omega
  · exact h
  · have := offset_mono (D := D) len (show j + 1 ≤ i from h); omega

/-! ### Segments and arrays -/

theorem segment_some {n : Nat} (c : Fin n → R) (start len : Nat) (h : start + len ≤ n) :
    segment c (start : Int) len = some fun j : Fin len => c ⟨start + j, by omega⟩ := by
  simp only [segment]
  rw [dif_pos ⟨by omega, by simpa using h⟩]
  rfl

theorem writeAt_eq (pre mid xs post : List R) (h : mid.length = xs.length) :
    writeAt (pre ++ mid ++ post) (pre.length : Int) xs = some (pre ++ xs ++ post) := by
  induction xs generalizing pre mid with
  | nil =>
    rw [List.length_nil, List.length_eq_zero_iff] at h
    subst h
    rfl
  | cons x xs ih =>
    cases mid with
    | nil => simp at h
    | cons m mid =>
      simp only [List.length_cons, Nat.add_right_cancel_iff] at h
      rw [writeAt, if_pos (by simp)]
      have e : (pre ++ m :: mid ++ post).set (Int.toNat (pre.length : Int)) x
          = (pre ++ [x]) ++ mid ++ post := by
        simp
      rw [e]
      have := ih (pre ++ [x]) mid h
      simp only [List.length_append, List.length_cons, List.length_nil, Nat.zero_add,
        Nat.cast_add, Nat.cast_one] at this
      rw [this]
      simp

theorem writeAt_out_of_range (a : List R) (start : Int) (x : R) (xs : List R)
    (h : ¬ (0 ≤ start ∧ start.toNat < a.length)) : writeAt a start (x :: xs) = none := by
  rw [writeAt, if_neg h]

theorem Val.toList_length (k : Kind) (x : Val R k) : (Val.toList k x).length = k.stateLen := by
  cases k with
  | vec n => simp [Val.toList, Kind.stateLen]
  | quat => rfl

theorem Val.toList_injective (k : Kind) : Function.Injective (Val.toList (R := R) k) := by
  intro x y h
  cases k with
  | vec n => exact List.ofFn_injective h
  | quat =>
    simp only [Val.toList, List.cons.injEq, and_true] at h
    exact Quat.ext h.1 h.2.1 h.2.2.1 h.2.2.2

/-- The values of all variables, in order. -/
def flatVals (s : Vars R D) : List R :=
  (List.finRange D.length).flatMap fun i => Val.toList _ (s i).val

theorem flatVals_take_length (s : Vars R D) (k : Nat) (hk : k ≤ D.length) :
    (((List.finRange D.length).take k).flatMap fun i => Val.toList _ (s i).val).length
      = offset stateLen D k := by
  induction k with
  | zero => rfl
  | succ k ih =>
    have hk' : k < (List.finRange D.length).length := by simpa using hk
    rw [← List.take_append_getElem hk', List.flatMap_append, List.length_append,
      ih (by omega), offset_succ stateLen k (by omega)]
    simp only [List.flatMap_cons, List.flatMap_nil, List.append_nil, Val.toList_length]
    congr 1
    simp [stateLen]

theorem toFullStateMsg_eq [Zero R] (s : Vars R D) (h : indexingErrors D = 0) :
    toFullStateMsg s = some (flatVals s) := by
  have key : ∀ k, k ≤ D.length →
      ((List.finRange D.length).take k).foldlM (fullToArray s)
        (List.replicate (total stateLen D) 0) =
      some ((((List.finRange D.length).take k).flatMap fun i => Val.toList _ (s i).val) ++
        List.replicate (total stateLen D - offset stateLen D k) 0) := by
    intro k
    induction k with
    | zero => intro _; simp [offset_zero]
    | succ k ih =>
      intro hk
      have hk' : k < (List.finRange D.length).length := by simpa using hk
      rw [← List.take_append_getElem hk', List.foldlM_append, ih (by omega)]
      have hg : (List.finRange D.length)[k] = ⟨k, by omega⟩ := by simp
      rw [hg]
      simp only [List.foldlM_cons, List.foldlM_nil, Option.bind_eq_bind, Option.bind_some,
        List.flatMap_append, List.flatMap_cons, List.flatMap_nil, List.append_nil]
      have hst : startIndex stateLen D (D.get ⟨k, by omega⟩) = some (offset stateLen D k : Int) :=
        startIndex_get stateLen h k (by omega)
      simp only [fullToArray, hst, Option.bind_eq_bind, Option.bind_some]
      have hle := offset_add_len_le (D := D) stateLen k (by omega)
      have hsplit : List.replicate (total stateLen D - offset stateLen D k) (0 : R) =
          List.replicate (stateLen D[k]) 0 ++
            List.replicate (total stateLen D - offset stateLen D (k + 1)) 0 := by
        rw [← List.replicate_add, offset_succ stateLen k (by omega)]
        congr 1
        omega
      rw [hsplit, ← List.append_assoc]
      have hw := writeAt_eq
        (((List.finRange D.length).take k).flatMap fun i => Val.toList _ (s i).val)
        (List.replicate (stateLen D[k]) 0) (Val.toList _ (s ⟨k, by omega⟩).val)
        (List.replicate (total stateLen D - offset stateLen D (k + 1)) 0)
        (by rw [Val.toList_length, List.length_replicate]; rfl)
      rw [flatVals_take_length s k (by omega)] at hw
      rw [hw]
      simp
  have := key D.length le_rfl
  rw [List.take_of_length_le (by simp)] at this
  rw [toFullStateMsg, countStates_eq _ h]
  simp only [Option.bind_eq_bind, Option.bind_some]
  rw [this, offset_length]
  simp [flatVals]

theorem flatVals_length (s : Vars R D) : (flatVals s).length = total stateLen D := by
  have := flatVals_take_length s D.length le_rfl
  rw [List.take_of_length_le (by simp), offset_length] at this
  exact this

theorem allSome_of {n : Nat} {β : Fin n → Type} {f : (i : Fin n) → Option (β i)}
    {g : (i : Fin n) → β i} (h : ∀ i, f i = some (g i)) : allSome f = some g := by
  rw [allSome, dif_pos (fun i => by rw [h i]; rfl)]
  congr 1
  funext i
  simp [h i]

theorem allSome_eq_some {n : Nat} {β : Fin n → Type} {f : (i : Fin n) → Option (β i)}
    {g : (i : Fin n) → β i} (h : allSome f = some g) (i : Fin n) : f i = some (g i) := by
  rw [allSome] at h
  split at h
  · rw [← Option.some.inj h]
    simp
  · cases h

end MSF
