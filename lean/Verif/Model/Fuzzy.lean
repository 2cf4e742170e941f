import Verif.Model.State
import Mathlib.Data.List.Sort

/-!
# Model of the fuzzy-tracking detector (msf_core/include/msf_core/msf_checkFuzzyTracking.h) and of
`GetMedian` (msf_core/include/msf_core/msf_tools.h)
-/

namespace MSF

/-- Postcondition of `std::nth_element(begin, begin + k, end)`: a permutation of the data in which
the element at `k` is not smaller than those before and not larger than those behind it. -/
structure NthElement {R : Type} [LinearOrder R] (data : List R) (k : Nat) (m : List R) : Prop where
  perm : m.Perm data
  before : ∀ i (hi : i < m.length) (hk : k < m.length), i ≤ k → m[i] ≤ m[k]
  behind : ∀ i (hi : i < m.length) (hk : k < m.length), k ≤ i → m[k] ≤ m[i]

/-- `GetMedian`, msf_tools.h:28-47: any result the specification of `nth_element` allows; 0 for an
empty vector. -/
def MedianResult {R : Type} [LinearOrder R] [Zero R] (data : List R) (x : R) : Prop :=
  if data.length = 0 then x = 0
  else ∃ m, NthElement data (data.length / 2) m ∧ m[data.length / 2]? = some x

/-- An executable version of `GetMedian` (selection by sorting). -/
def getMedian {R : Type} [LinearOrder R] [Zero R] (data : List R) : R :=
  match (data.insertionSort (· ≤ ·))[data.length / 2]? with
  | some x => x
  | none => 0

/-- `nBuff_`, msf_checkFuzzyTracking.h:31. -/
def nBuff : Nat := 30

/-- Members of `CheckFuzzyTracking`: the row counter and the buffer, one row per quaternion
(`coeffs()`, columns x y z w). -/
structure Tracker (R : Type) where
  timer : Nat
  qbuff : Fin nBuff → Fin 4 → R

namespace Tracker
variable {R : Type}

/-- `Reset`, msf_checkFuzzyTracking.h:42-46. -/
def reset [Zero R] : Tracker R := { timer := 1, qbuff := fun _ _ => 0 }

/-- `qbuff_.block<1, 4>(row, 0) = q.coeffs()`; `none` if the row is out of range. -/
def writeRow (t : Tracker R) (row : Nat) (q : Quat R) : Option (Fin nBuff → Fin 4 → R) :=
  if h : row < nBuff then some (Function.update t.qbuff ⟨row, h⟩ q.coeffs) else none

/-- The median quaternion, msf_checkFuzzyTracking.h:83-88. -/
def medianQuat [LinearOrder R] [Zero R] (t : Tracker R) : Quat R :=
  let col := fun j : Fin 4 => getMedian (List.ofFn fun i => t.qbuff i j)
  ⟨col 3, col 0, col 1, col 2⟩

/-- The test of L90-91, `max(vec.maxCoeff, -vec.minCoeff) / fabs(w) * 2 > thres`.  With `w = 0`
IEEE division gives infinity (greater than every threshold) or, for `0 / 0`, NaN (not greater). -/
def exceeds [Field R] [LinearOrder R] (e : Quat R) (thres : R) : Bool :=
  let m := max (max (max e.x e.y) e.z) (-(min (min e.x e.y) e.z))
  if e.w = 0 then decide (0 < m) else decide (thres < m / |e.w| * 2)

end Tracker

/-- The quaternion held by a variable, if it is one. -/
def quatOf {R : Type} : (k : Kind) → Val R k → Option (Quat R)
  | .quat, q => some q
  | .vec _, _ => none

/-- Type of the position found by `IndexOfBestNonTemporalDriftingState`. -/
def bestIndex (D : List VarDesc) : Option (Fin D.length) :=
  match indexOfBestNonTemporalDriftingState D with
  | none => none
  | some j => if h : 0 ≤ j ∧ j.toNat < D.length then some ⟨j.toNat, h.2⟩ else none

/-- `CheckFuzzyTracking::Check`, msf_checkFuzzyTracking.h:52-121, for a state definition with a
non-drifting state: new tracker, new state variables, `isfuzzy`.  `none`: a failing
`static_assert` (the state is not a quaternion) or a row out of range. -/
def fuzzyCheck {R : Type} [Field R] [LinearOrder R] {D : List VarDesc} (t : Tracker R)
    (delay buff : Vars R D) (thres : R) : Option (Tracker R × Vars R D × Bool) := do
  let i ← bestIndex D
  let q ← quatOf _ (delay i).val
  if t.timer > nBuff then
    let errq := q.conj.mul t.medianQuat
    if Tracker.exceeds errq thres then
      return (t, copyNonPropagationStates buff delay, true)
    else
      let b ← t.writeRow (t.timer - nBuff - 1) q
      return ({ timer := t.timer % nBuff + nBuff + 1, qbuff := b }, delay, false)
  else
    let b ← t.writeRow (t.timer - 1) q
    return ({ timer := t.timer + 1, qbuff := b }, delay, false)

/-- `Check` of either specialisation: without a non-drifting state (index -1, type `void_`) it does
nothing and returns false, msf_checkFuzzyTracking.h:124-134. -/
def fuzzyCheck' {R : Type} [Field R] [LinearOrder R] {D : List VarDesc} (t : Tracker R)
    (delay buff : Vars R D) (thres : R) : Option (Tracker R × Vars R D × Bool) :=
  if indexOfBestNonTemporalDriftingState D = some (-1) then some (t, delay, false)
  else fuzzyCheck t delay buff thres

end MSF
