import Verif.Model.FilterKernel
import Verif.Model.Core
import Mathlib.Data.Option.Basic

/-!
# The same inputs up to the signs of quaternions

The vocabulary of C106: a quaternion and its opposite stand for the same rotation.
-/

namespace MSF

open Core

/-! ### Runs on equivalent inputs -/

section
variable {A W X C M T E : Type}

/-- Calls with related arguments. -/
inductive Api.Equiv (rx : X → X → Prop) (rm : M → M → Prop) (re : E → E → Prop) :
    Api A W X C M E → Api A W X C M E → Prop
  | init (t : ℚ) (u : Input A W) (x x' : X) (P : C) : rx x x' →
    Api.Equiv rx rm re (.init t ⟨u, x, P⟩) (.init t ⟨u, x', P⟩)
  | imu (t : ℚ) (u : Input A W) : Api.Equiv rx rm re (.imu t u) (.imu t u)
  | ext (t : ℚ) (u : Input A W) (e e' : E) : re e e' →
    Api.Equiv rx rm re (.ext t u (some e)) (.ext t u (some e'))
  | noExt (t : ℚ) (u : Input A W) : Api.Equiv rx rm re (.ext t u none) (.ext t u none)
  | meas (t : ℚ) (sensor : Int) (m m' : M) : rm m m' →
    Api.Equiv rx rm re (.meas ⟨t, sensor, m⟩) (.meas ⟨t, sensor, m'⟩)

/-- Publications of related states, with the same covariance at the same time. -/
inductive Event.Equiv (rx : X → X → Prop) : Event X C → Event X C → Prop
  | initial (t : ℚ) (x x' : X) (P : C) : rx x x' → Event.Equiv rx (.initial t x P) (.initial t x' P)
  | afterPropagation (t : ℚ) (x x' : X) (P : C) : rx x x' →
    Event.Equiv rx (.afterPropagation t x P) (.afterPropagation t x' P)
  | afterUpdate (t : ℚ) (x x' : X) (P : C) : rx x x' →
    Event.Equiv rx (.afterUpdate t x P) (.afterUpdate t x' P)

/-- Two runs end alike: the same undefined behaviour, or related publications. -/
def SameOutcome (rx : X → X → Prop) : Except UB (Core A W X C M T) → Except UB (Core A W X C M T) → Prop
  | .ok c, .ok c' => List.Forall₂ (Event.Equiv rx) c.out c'.out
  | .error e, .error e' => e = e'
  | _, _ => False

end

/-! ### Signs -/

/-- The opposite quaternion. -/
def Quat.neg {R : Type} [Neg R] (q : Quat R) : Quat R := ⟨-q.w, -q.x, -q.y, -q.z⟩

/-- The opposite of a quaternion variable; a vector stays. -/
def negVal : (k : Kind) → Val ℝ k → Val ℝ k
  | .vec _, x => x
  | .quat, q => Quat.neg q

/-- The same values up to the signs of quaternions.  The quaternion that the fuzzy tracker watches
must agree. -/
def SameValues {D : List VarDesc} (x y : Values D) : Prop :=
  ∀ i, y i = x i ∨ (bestIndex D ≠ some i ∧ y i = negVal _ (x i))

/-- The same for a state, which may not be a number. -/
def SameState {D : List VarDesc} : Option (Values D) → Option (Values D) → Prop :=
  Option.Rel SameValues

/-- The same reading up to the sign of the attitude. -/
def SameReading (m m' : Reading) : Prop :=
  m' = m ∨ ∃ ix fixed enable thr z, m = .pose ix fixed enable thr z ∧
    m' = .pose ix fixed enable thr { z with z_q := z.z_q.neg }

/-- The same external state up to the sign of the attitude. -/
def SameExt (e e' : ExtState) : Prop := e' = e ∨ e' = { e with q := e.q.neg }

/-- The run of a filter does not depend on the signs of the quaternions it is given: if the calls
agree up to signs, chosen anew for every call, so do the publications. -/
def SignInvariant {aux : List VarDesc} (np : NoiseParams ℝ (coreDef aux)) (uc : UserCalc (coreDef aux)) :
    Prop :=
  ∀ (env : Env) (calls calls' : List (Api (V3 ℝ) (V3 ℝ) (Option (Values (coreDef aux)))
    (Option (ErrMat ℝ (coreDef aux))) Reading ExtState)),
    List.Forall₂ (Api.Equiv SameState SameReading SameExt) calls calls' →
    SameOutcome SameState
      (Core.apis env (readingKernel np uc) (Core.new (readingKernel np uc)) calls)
      (Core.apis env (readingKernel np uc) (Core.new (readingKernel np uc)) calls')

end MSF
