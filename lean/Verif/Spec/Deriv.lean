import Verif.Model.State
import Mathlib.Analysis.Calculus.Deriv.Basic

/-!
# What it means for a measurement matrix to be a derivative

The error state is defined by the filter's own correction: the state with error `ε δ` is
`correct s (ε δ)`.
-/

namespace MSF

/-- The function `res` of the state changes along the error state direction `δ` with derivative
`d`.  For small `ε` the corrected state and `res` of it exist. -/
def DerivAlong {D : List VarDesc} {m : Nat} (res : Vars ℝ D → Option (Fin m → ℝ)) (s : Vars ℝ D)
    (δ : Fin (total errLen D) → ℝ) (d : Fin m → ℝ) : Prop :=
  ∃ f : ℝ → Fin m → ℝ, (∀ᶠ ε in nhds (0 : ℝ), (correct s (ε • δ)).bind res = some (f ε)) ∧
    HasDerivAt f d 0

/-- No variable carries an option (all corrections are additive or small rotations). -/
def PlainVars (D : List VarDesc) : Prop := ∀ d ∈ D, d.options = 0

end MSF
