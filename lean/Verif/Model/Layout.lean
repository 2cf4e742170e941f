import Mathlib.Data.List.Basic
import Mathlib.Algebra.BigOperators.Group.List.Basic

/-!
# Model of the compile-time state layout computations (msf_core/include/msf_core/msf_tmp.h)

A state definition (the `fusion_vector` of `StateVar_T` types) is a list of `VarDesc`.  Template
specialisations become pattern matching; a template without matching specialisation or a failing
`static_assert` (a compile error) becomes `none`.
-/

namespace MSF

/-- The value type of a `StateVar_T`: `Eigen::Matrix<double, N, 1>` or `Eigen::Quaterniond`. -/
inductive Kind where
  | vec (n : Nat)
  | quat
  deriving DecidableEq, Repr

/-- State types, msf_fwds.h:26-31. -/
inductive SType where
  | coreProp
  | coreNoProp
  | aux
  | auxNonDrift
  deriving DecidableEq, Repr

/-- A type `StateVar_T<type_T, name_T, STATETYPE, OPTIONS>`, msf_state.h:40-70. -/
structure VarDesc where
  kind : Kind
  name : Nat
  stype : SType
  options : Nat
  deriving DecidableEq, Repr

/-- `options & correctionMultiplicative`, msf_fwds.h:33-36. -/
def VarDesc.multiplicative (d : VarDesc) : Bool := d.options.testBit 0

/-- `CorrectionStateLengthForType`, msf_tmp.h:130-152, as a function of the value type. -/
def Kind.errLen : Kind → Nat
  | .vec n => n
  | .quat => 3

/-- `StateLengthForType`, msf_tmp.h:154-176. -/
def Kind.stateLen : Kind → Nat
  | .vec n => n
  | .quat => 4

/-- `CorrectionStateLengthForType` of a state variable type. -/
def errLen (d : VarDesc) : Nat := d.kind.errLen

/-- `StateLengthForType` of a state variable type. -/
def stateLen (d : VarDesc) : Nat := d.kind.stateLen

/-- `CoreStateLengthForType`, msf_tmp.h:178-229: zero unless the state type is one of the two core
types. -/
def coreStateLen (d : VarDesc) : Nat :=
  match d.kind, d.stype with
  | .vec n, .coreNoProp => n
  | .quat, .coreNoProp => 4
  | .vec n, .coreProp => n
  | .quat, .coreProp => 4
  | _, _ => 0

/-- `CoreErrorStateLengthForType`, msf_tmp.h:231-282. -/
def coreErrLen (d : VarDesc) : Nat :=
  match d.kind, d.stype with
  | .vec n, .coreNoProp => n
  | .quat, .coreNoProp => 3
  | .vec n, .coreProp => n
  | .quat, .coreProp => 3
  | _, _ => 0

/-- `PropagatedCoreStateLengthForType`, msf_tmp.h:284-328. -/
def propStateLen (d : VarDesc) : Nat :=
  match d.kind, d.stype with
  | .vec n, .coreProp => n
  | .quat, .coreProp => 4
  | _, _ => 0

/-- `PropagatedCoreErrorStateLengthForType`, msf_tmp.h:330-374. -/
def propErrLen (d : VarDesc) : Nat :=
  match d.kind, d.stype with
  | .vec n, .coreProp => n
  | .quat, .coreProp => 3
  | _, _ => 0

/-- `CheckStateIndexing`, msf_tmp.h:521-558.  `atEnd` is the template parameter `T`; it is computed
from the position *before* the step, so the end iterator (type `void_`, name -1) is visited once
and counts no error. -/
def checkStateIndexing : List VarDesc → Nat → Bool → Nat
  | _, _, true => 0
  | [], _, false => 0 + 0
  | d :: l, idx, false => (if d.name = idx then 0 else 1) + checkStateIndexing l (idx + 1) false

/-- `CheckCorrectIndexing<Sequence>::indexingerrors`, msf_tmp.h:682-697. -/
def indexingErrors (D : List VarDesc) : Nat := checkStateIndexing D 0 D.isEmpty

/-- `CountStatesLinear`, msf_tmp.h:492-516.  The end iterator is visited once with length 0. -/
def countStatesLinear (len : VarDesc → Nat) : List VarDesc → Bool → Nat
  | _, true => 0
  | [], false => 0 + 0
  | d :: l, false => len d + countStatesLinear len l false

/-- `CountStates<Sequence, Counter>::value`, msf_tmp.h:732-743; `none` when the `static_assert` in
`CheckStateIndexing` fails. -/
def countStates (len : VarDesc → Nat) (D : List VarDesc) : Option Nat :=
  if indexingErrors D = 0 then some (countStatesLinear len D D.isEmpty + indexingErrors D)
  else none

/-- `ComputeStartIndex`, msf_tmp.h:580-620, on the list from `First` on.  Parameters as in the
template: `TypeFound`, `CurrentVal`, `EndOfList`.  There is no specialisation for
`TypeFound = EndOfList = true`. -/
def computeStartIndex (len : VarDesc → Nat) (T : VarDesc) :
    List VarDesc → Bool → Int → Bool → Option Int
  | _, false, _, true => some (-1)
  | _, true, _, true => none
  | _, true, _, false => some 0
  | [], false, cur, false =>
    -- `First` is the end: next step has EndOfList = true and the type was not found
    some (cur + (-1))
  | d :: l, false, cur, false =>
    (computeStartIndex len T l (decide (d = T)) (len d) false).map (cur + ·)

/-- `GetStartIndex<Sequence, StateVarT, Counter>::value`, msf_tmp.h:748-763. -/
def startIndex (len : VarDesc → Nat) (D : List VarDesc) (T : VarDesc) : Option Int :=
  if indexingErrors D = 0 then
    (computeStartIndex len T D (decide (D.head? = some T)) 0 D.isEmpty).map
      (· + (indexingErrors D : Int))
  else none

/-- `GetEnumStateType<Sequence, INDEX>` (msf_tmp.h:563-574) followed by `GetStartIndex` for the
error state: `GetStartIndexInCorrection`, msf_tmp.h:768-779. -/
def startIndexInCorrection (D : List VarDesc) (i : Nat) : Option Int :=
  match D[i]? with
  | none => none
  | some T => startIndex errLen D T

/-- `FindBestNonTemporalDriftingStateImpl`, msf_tmp.h:626-674. -/
def findBest : List VarDesc → Int → Bool → Bool → Int
  | _, best, _, true => best
  | [], best, _, false =>
    -- the end iterator: not a quaternion, not non-drifting
    best
  | d :: l, best, foundQ, false =>
    let isQ := decide (d.kind = .quat) && decide (d.stype = .auxNonDrift)
    let isP := decide (d.stype = .auxNonDrift) && !foundQ
    let best' : Int := if isQ then d.name else if isP then d.name else best
    findBest l best' (foundQ || isQ) false

/-- `IndexOfBestNonTemporalDriftingState<Sequence>::value`, msf_tmp.h:709-726. -/
def indexOfBestNonTemporalDriftingState (D : List VarDesc) : Option Int :=
  if indexingErrors D = 0 then some (findBest D (-1) false D.isEmpty) else none

/-- The core states every shipped state definition starts with (e.g.
msf_updates/src/pose_msf/msf_statedef.hpp:33-62); `StaticAssertCoreStateOrderingCorrect`
(static_ordering_assertions.h:25-79) requires p, v, q, b_w, b_a at correction indices 0, 3, 6, 9,
12. -/
def coreDescs : List VarDesc :=
  [⟨.vec 3, 0, .coreProp, 0⟩, ⟨.vec 3, 1, .coreProp, 0⟩, ⟨.quat, 2, .coreProp, 0⟩,
   ⟨.vec 3, 3, .coreNoProp, 0⟩, ⟨.vec 3, 4, .coreNoProp, 0⟩]

/-- `StaticAssertCoreStateOrderingCorrect`, msf_core/static_ordering_assertions.h:25-79, for the
enumerators `p v q b_w b_a`. -/
def coreOrderingOk (D : List VarDesc) (p v q bw ba : Nat) : Bool :=
  decide (startIndexInCorrection D p = some 0 ∧ startIndexInCorrection D v = some 3 ∧
    startIndexInCorrection D q = some 6 ∧ startIndexInCorrection D bw = some 9 ∧
    startIndexInCorrection D ba = some 12)

end MSF
