import Verif.Model.Layout
import Verif.Model.Quat

/-!
# State objects: `StateVar_T`, `GenericState_T` and the functors of msf_tmp.h

A state object over a state definition `D` holds one value per variable.  `boost::fusion::for_each`
with a functor becomes a function on the index.  Access to a part of a vector outside its range
(an Eigen assertion, undefined in release builds) is `none`.
-/

namespace MSF

/-- Values of a state variable. -/
abbrev Val (R : Type) : Kind → Type
  | .vec n => Fin n → R
  | .quat => Quat R

/-- Total length of a state definition under a length function. -/
def total (len : VarDesc → Nat) (D : List VarDesc) : Nat := (D.map len).sum

/-- `StateVar_T`, msf_state.h:40-70: value, noise block `Q`, flag `hasResetValue`. -/
structure StateVar (R : Type) (k : Kind) where
  val : Val R k
  Q : Matrix (Fin k.errLen) (Fin k.errLen) R
  hasReset : Bool

/-- The tuple `statevars`. -/
abbrev Vars (R : Type) (D : List VarDesc) := (i : Fin D.length) → StateVar R (D.get i).kind

/-- Error state matrices. -/
abbrev ErrMat (R : Type) (D : List VarDesc) :=
  Matrix (Fin (total errLen D)) (Fin (total errLen D)) R

/-- `GenericState_T`, msf_state.h:78-161 (without the members `noise_gyr`, `noise_acc`). -/
structure EKFState (R : Type) (D : List VarDesc) where
  vars : Vars R D
  w_m : V3 R
  a_m : V3 R
  time : R
  P : ErrMat R D
  Fd : ErrMat R D
  Qd : ErrMat R D

section
variable {R : Type} {D : List VarDesc}

/-- The zero vector or the identity quaternion. -/
def Val.reset [CommRing R] : (k : Kind) → Val R k
  | .vec _ => fun _ => 0
  | .quat => Quat.one

/-- `ResetState`, msf_tmp.h:782-794: keeps `Q` and `hasResetValue`. -/
def resetState [CommRing R] (s : Vars R D) : Vars R D :=
  fun i => { s i with val := Val.reset _ }

/-- `CopyInitStates(old)`, msf_tmp.h:799-814.  The variable is looked up by its name, which equals
its position (`CheckCorrectIndexing`). -/
def copyInitStates (old s : Vars R D) : Vars R D :=
  fun i => if (old i).hasReset then old i else s i

/-- `CopyNonPropagationStates(old)`, msf_tmp.h:819-848. -/
def copyNonPropagationStates (old s : Vars R D) : Vars R D :=
  fun i => if (D.get i).stype = .coreProp then s i else old i

/-- `data.block<len, 1>(start, 0)` of a vector of length `n`. -/
def segment {n : Nat} (c : Fin n → R) (start : Int) (len : Nat) : Option (Fin len → R) :=
  if h : 0 ≤ start ∧ start.toNat + len ≤ n then
    some fun j => c ⟨start.toNat + j, by have := j.2; omega⟩
  else none

/-- `M.block<a, b>(i, j) = B`. -/
def setBlock {n m a b : Nat} (M : Matrix (Fin n) (Fin m) R) (i j : Nat)
    (B : Matrix (Fin a) (Fin b) R) : Matrix (Fin n) (Fin m) R :=
  Matrix.of fun r c =>
    if h : (i ≤ r ∧ r < i + a) ∧ (j ≤ c ∧ c < j + b) then
      B ⟨r - i, by omega⟩ ⟨c - j, by omega⟩
    else M r c

/-- `M.block<a, b>(i, j)`, with the precondition that the block lies inside the matrix. -/
def getBlock {n m : Nat} (M : Matrix (Fin n) (Fin m) R) (i j a b : Nat)
    (hi : i + a ≤ n) (hj : j + b ≤ m) : Matrix (Fin a) (Fin b) R :=
  Matrix.of fun r c => M ⟨i + r, by omega⟩ ⟨j + c, by omega⟩

end

/-- `CorrectState::operator()` for vectors, msf_tmp.h:917-935. -/
def correctVec {R : Type} [CommRing R] {D : List VarDesc} (c : Fin (total errLen D) → R)
    (d : VarDesc) (n : Nat) (x : Fin n → R) : Option (Fin n → R) := do
  let start ← startIndex errLen D d
  let seg ← segment c start n
  if d.multiplicative then some fun j => x j * seg j
  else some fun j => x j + seg j

/-- `CorrectState::operator()` for quaternions, msf_tmp.h:936-958.  `var_T` does not carry the
OPTIONS of the variable; a `static_assert` rejects the multiplicative option. -/
noncomputable def correctQuat {D : List VarDesc} (c : Fin (total errLen D) → ℝ)
    (d : VarDesc) (q : Quat ℝ) : Option (Quat ℝ) := do
  let start ← startIndex errLen D { d with options := 0 }
  if d.multiplicative then none
  else
    let seg ← segment c start 3
    (q.mul (quatFromSmallAngle seg)).normalize

/-- `CorrectState` on a variable of either kind. -/
noncomputable def correctVal {D : List VarDesc} (c : Fin (total errLen D) → ℝ) (d : VarDesc) :
    (k : Kind) → Val ℝ k → Option (Val ℝ k)
  | .vec n, x => correctVec c d n x
  | .quat, q => correctQuat c d q

/-- Collect the results of a functor that may fail on some variable. -/
def allSome {n : Nat} {β : Fin n → Type} (f : (i : Fin n) → Option (β i)) :
    Option ((i : Fin n) → β i) :=
  if h : ∀ i, (f i).isSome then some fun i => (f i).get (h i) else none

/-- `GenericState_T::Correct`, msf_state_inl.h:69-77. -/
noncomputable def correct {D : List VarDesc} (s : Vars ℝ D) (c : Fin (total errLen D) → ℝ) :
    Option (Vars ℝ D) :=
  allSome fun i => (correctVal c (D.get i) _ (s i).val).map fun v => { s i with val := v }

section
variable {R : Type} {D : List VarDesc}

/-- The numbers of a variable in message order: vectors entry by entry, quaternions as w, x, y, z. -/
def Val.toList : (k : Kind) → Val R k → List R
  | .vec _, x => List.ofFn x
  | .quat, q => [q.w, q.x, q.y, q.z]

/-- `data[start + i] = xs[i]` for all `i`; `none` if an index is out of range. -/
def writeAt (a : List R) (start : Int) : List R → Option (List R)
  | [] => some a
  | x :: xs =>
    if 0 ≤ start ∧ start.toNat < a.length then writeAt (a.set start.toNat x) (start + 1) xs
    else none

/-- `FullStatetoDoubleArray::operator()`, msf_tmp.h:1134-1170. -/
def fullToArray (s : Vars R D) (a : List R) (i : Fin D.length) : Option (List R) := do
  let start ← startIndex stateLen D (D.get i)
  writeAt a start (Val.toList _ (s i).val)

/-- `ToFullStateMsg`, msf_state_inl.h:165-174: resize to the number of states (new elements are
zero) and run the functor over all variables in order. -/
def toFullStateMsg [Zero R] (s : Vars R D) : Option (List R) := do
  let n ← countStates stateLen D
  (List.finRange D.length).foldlM (fullToArray s) (List.replicate n 0)

/-- `CoreStatetoDoubleArray::operator()`, msf_tmp.h:963-1038: only core states are written, at
their index in the full state. -/
def coreToArray (s : Vars R D) (a : List R) (i : Fin D.length) : Option (List R) :=
  match (D.get i).stype with
  | .aux => some a
  | .auxNonDrift => some a
  | _ => do
    let start ← startIndex stateLen D (D.get i)
    writeAt a start (Val.toList _ (s i).val)

/-- `ToCoreStateMsg`, msf_state_inl.h:177-186. -/
def toCoreStateMsg [Zero R] (s : Vars R D) : Option (List R) := do
  let n ← countStates coreStateLen D
  (List.finRange D.length).foldlM (coreToArray s) (List.replicate n 0)

/-- `CalculateIndicesInErrorState`, msf_state_inl.h:204-211 with `GetIndicesInErrorState`
(msf_tmp.h:1044-1065): one triple (name, start index, length) per variable. -/
def indicesInErrorState (D : List VarDesc) : Option (List (Nat × Int × Nat)) :=
  D.mapM fun d => (startIndex errLen D d).map fun s => (d.name, s, errLen d)

/-- `CopyQBlocksFromAuxiliaryStatesToQ::operator()`, msf_tmp.h:853-907. -/
def copyQBlock (s : Vars R D) (Q : ErrMat R D) (i : Fin D.length) : Option (ErrMat R D) :=
  match (D.get i).stype with
  | .coreProp => some Q
  | .coreNoProp => some Q
  | _ => do
    let start ← startIndex errLen D (D.get i)
    if 0 ≤ start ∧ start.toNat + (D.get i).kind.errLen ≤ total errLen D then
      some (setBlock Q start.toNat start.toNat (s i).Q)
    else none

/-- The `for_each` over `CopyQBlocksFromAuxiliaryStatesToQ`, msf_core_inl.h:529-531. -/
def copyQBlocks (s : Vars R D) (Q : ErrMat R D) : Option (ErrMat R D) :=
  (List.finRange D.length).foldlM (copyQBlock s) Q

/-- `ClearCrossCov<INDEX>`, msf_state_inl.h:288-312: save the diagonal block, zero rows and
columns, write the block back. -/
def clearCrossCov [Zero R] (P : ErrMat R D) (i : Nat) : Option (ErrMat R D) := do
  let d ← D[i]?
  let start ← startIndex errLen D d
  let k := errLen d
  if h : 0 ≤ start ∧ start.toNat + k ≤ total errLen D then
    let s := start.toNat
    let cov := getBlock P s s k k h.2 h.2
    let P := setBlock P s 0 (0 : Matrix (Fin k) (Fin (total errLen D)) R)
    let P := setBlock P 0 s (0 : Matrix (Fin (total errLen D)) (Fin k) R)
    some (setBlock P s s cov)
  else none

end

/-- A state definition that starts with the core states. -/
abbrev coreDef (aux : List VarDesc) : List VarDesc := coreDescs ++ aux

namespace EKFState
variable {R : Type} {aux : List VarDesc}

abbrev ip : Fin (coreDef aux).length := ⟨0, by simp [coreDef, coreDescs]⟩
abbrev iv : Fin (coreDef aux).length := ⟨1, by simp [coreDef, coreDescs]⟩
abbrev iq : Fin (coreDef aux).length := ⟨2, by simp [coreDef, coreDescs]⟩
abbrev ibw : Fin (coreDef aux).length := ⟨3, by simp [coreDef, coreDescs]⟩
abbrev iba : Fin (coreDef aux).length := ⟨4, by simp [coreDef, coreDescs]⟩

/-- `Get<p>()`, `Get<v>()`, `Get<q>()`, `Get<b_w>()`, `Get<b_a>()`, msf_state_inl.h:55-67. -/
def p (s : Vars R (coreDef aux)) : V3 R := (s ip).val
def v (s : Vars R (coreDef aux)) : V3 R := (s iv).val
def q (s : Vars R (coreDef aux)) : Quat R := (s iq).val
def b_w (s : Vars R (coreDef aux)) : V3 R := (s ibw).val
def b_a (s : Vars R (coreDef aux)) : V3 R := (s iba).val

/-- Assignment through the non-const `Get<..>()`. -/
def setP (s : Vars R (coreDef aux)) (x : V3 R) : Vars R (coreDef aux) :=
  Function.update s ip { s ip with val := x }
def setV (s : Vars R (coreDef aux)) (x : V3 R) : Vars R (coreDef aux) :=
  Function.update s iv { s iv with val := x }
def setQ (s : Vars R (coreDef aux)) (x : Quat R) : Vars R (coreDef aux) :=
  Function.update s iq { s iq with val := x }

end EKFState

end MSF
