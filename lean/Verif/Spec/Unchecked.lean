import Verif.Model.FilterKernel

/-!
# The measurement update without the fuzzy-tracking check

Reference for the filters with a non-drifting attitude: a Kalman update whose result depends on the
state and the measurement only.
-/

namespace MSF

open Matrix

/-- Values, covariance and whether the measurement was accepted. -/
noncomputable def uncheckedUpdate {aux : List VarDesc} (uc : UserCalc (coreDef aux))
    (m : SensorMeas (coreDef aux)) (x : Values (coreDef aux)) (P : ErrMat ℝ (coreDef aux)) :
    Option (Values (coreDef aux) × ErrMat ℝ (coreDef aux) × Bool) := do
  let P ← clearFixed m.fixed m.cleared P
  let H ← m.H (toVars x)
  let r ← m.r (toVars x)
  match ← calculateCorrection m.enable m.thr P H r m.R with
  | none => some (x, P, false)
  | some (c, P') =>
    let c := if uc.fixedBias then zeroBias (uc.augment c) else uc.augment c
    let s ← correct (toVars x) c
    some (values (uc.sanity s (toVars x) c), P', true)

/-- The same on covariances and means that may be NaN, with the tracker of the filter. -/
noncomputable def unchecked {aux : List VarDesc} (np : NoiseParams ℝ (coreDef aux))
    (uc : UserCalc (coreDef aux)) (tr : Tracker ℝ) (m : SensorMeas (coreDef aux))
    (x : Option (Values (coreDef aux))) (P : Option (ErrMat ℝ (coreDef aux))) :
    Upd (Option (Values (coreDef aux))) (Option (ErrMat ℝ (coreDef aux))) (Tracker ℝ) :=
  match x, P with
  | some x', some P' =>
    match uncheckedUpdate uc m x' P' with
    | some u => ⟨((sensorKernel np uc).update tr m x P).tr, some u.1, some u.2.1, u.2.2, false⟩
    | none => ⟨tr, none, none, true, false⟩
  | _, _ => ⟨tr, none, none, true, false⟩

/-- A filter whose sensors deliver readings of type `M`, which are turned into measurements by `f`. -/
noncomputable def fedKernel {aux : List VarDesc} {M : Type} (np : NoiseParams ℝ (coreDef aux))
    (uc : UserCalc (coreDef aux)) (f : M → SensorMeas (coreDef aux)) :
    Kernel (V3 ℝ) (V3 ℝ) (Option (Values (coreDef aux))) (Option (ErrMat ℝ (coreDef aux)))
      M (Tracker ℝ) ExtState :=
  { sensorKernel np uc with update := fun tr m x P => (sensorKernel np uc).update tr (f m) x P }

/-- The same filter without the fuzzy-tracking check. -/
noncomputable def uncheckedKernel {aux : List VarDesc} {M : Type} (np : NoiseParams ℝ (coreDef aux))
    (uc : UserCalc (coreDef aux)) (f : M → SensorMeas (coreDef aux)) :
    Kernel (V3 ℝ) (V3 ℝ) (Option (Values (coreDef aux))) (Option (ErrMat ℝ (coreDef aux)))
      M (Tracker ℝ) ExtState :=
  { sensorKernel np uc with update := fun tr m x P => unchecked np uc tr (f m) x P }

/-- No reading both fixes a state and is subject to the outlier test.  (With a fixed state, a rejected
measurement still clears cross covariances.) -/
def PlainFeed {aux : List VarDesc} {M : Type} (f : M → SensorMeas (coreDef aux)) : Prop :=
  ∀ m, (f m).fixed = 0 ∨ (f m).enable = false

end MSF
