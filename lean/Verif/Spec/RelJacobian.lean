import Verif.Spec.Deriv
import Verif.Model.Sensors

/-!
# Derivatives of functions of two states
-/

namespace MSF

/-- The function `res` of an older and a newer state changes along the error state directions `δo` and
`δn` with derivative `d`.  For small `ε` the corrected states and `res` of them exist. -/
def DerivAlongBoth {D : List VarDesc} {m : Nat} (res : Vars ℝ D → Vars ℝ D → Option (Fin m → ℝ))
    (so sn : Vars ℝ D) (δo δn : Fin (total errLen D) → ℝ) (d : Fin m → ℝ) : Prop :=
  ∃ f : ℝ → Fin m → ℝ,
    (∀ᶠ ε in nhds (0 : ℝ), ((correct so (ε • δo)).bind fun so' =>
      (correct sn (ε • δn)).bind fun sn' => res so' sn') = some (f ε)) ∧ HasDerivAt f d 0

/-- The residual of a relative pose measurement as a function of the two states. -/
noncomputable def relPoseRes {aux : List VarDesc} (ix : PoseIdx) (prev z : V3 ℝ × Quat ℝ)
    (so sn : Vars ℝ (coreDef aux)) : Option (Fin 7 → ℝ) :=
  (poseView ix so).bind fun vo => (poseView ix sn).bind fun vn => PoseView.relResidual vo vn prev z

end MSF
