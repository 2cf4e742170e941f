import Verif.Model.Relative

/-!
# Access to the noise blocks of the state

`GenericState_T::GetQBlock`, msf_state.h:169-187 and msf_state_inl.h:79-109.
-/

namespace MSF

section
variable {R : Type} {D : List VarDesc}

/-- The condition of the `static_assert` in the non-const `GetQBlock`, msf_state_inl.h:89-92. -/
def qBlockAllowed (t : SType) : Bool := t != .coreProp || t != .coreNoProp

/-- `s.GetQBlock<i>() = B` through the non-const overload, msf_state_inl.h:79-98; `none` if the
`static_assert` stops the compiler. -/
def writeQBlock (s : Vars R D) (i : Fin D.length)
    (B : Matrix (Fin (D.get i).kind.errLen) (Fin (D.get i).kind.errLen) R) : Option (Vars R D) :=
  if qBlockAllowed (D.get i).stype then some (Function.update s i { s i with Q := B }) else none

/-- The data members of `StateVar_T`, msf_state.h:62-64, with what they hold. -/
inductive Member (R : Type) (k : Kind)
  | block (Q : Matrix (Fin k.errLen) (Fin k.errLen) R)
  | value (v : Val R k)
  | flag (b : Bool)

/-- Lookup of a data member by name, msf_state.h:62-64. -/
def StateVar.member {k : Kind} (v : StateVar R k) (name : String) : Option (Member R k) :=
  if name = "Q" then some (.block v.Q)
  else if name = "state_" then some (.value v.val)
  else if name = "hasResetValue" then some (.flag v.hasReset)
  else none

/-- The const overload of `GetQBlock<i>()`, msf_state_inl.h:101-109: it returns the member `Q_`.  The function
is a template, so that a missing member stops the compiler only where the function is used; `none` is this
outcome. -/
def readQBlock (s : Vars R D) (i : Fin D.length) :
    Option (Matrix (Fin (D.get i).kind.errLen) (Fin (D.get i).kind.errLen) R) :=
  match (s i).member "Q_" with
  | some (.block Q) => some Q
  | _ => none

/-- An assignment to the noise block of a variable. -/
structure QWrite (R : Type) (D : List VarDesc) where
  i : Fin D.length
  B : Matrix (Fin (D.get i).kind.errLen) (Fin (D.get i).kind.errLen) R

/-- A `CalculateQAuxiliaryStates` that consists of the assignments `ws`, in order. -/
def runQWrites (s : Vars R D) (ws : List (QWrite R D)) : Option (Vars R D) :=
  ws.foldlM (fun s w => writeQBlock s w.i w.B) s

end

end MSF
