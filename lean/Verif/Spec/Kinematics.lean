import Mathlib.Algebra.Quaternion
import Mathlib.Analysis.Calculus.Deriv.Basic
import Mathlib.Analysis.Real.Sqrt

/-! Continuous-time motion of a rigid body with an IMU, stated with Mathlib's quaternions. -/

namespace MSF

open Quaternion

/-- A vector as a pure quaternion. -/
def pureQ (u : Fin 3 → ℝ) : ℍ[ℝ] := ⟨0, u 0, u 1, u 2⟩

/-- The vector part of a quaternion. -/
def vecQ (a : ℍ[ℝ]) : Fin 3 → ℝ := ![a.imI, a.imJ, a.imK]

/-- The four coordinates of a quaternion. -/
def coordQ (a : ℍ[ℝ]) : Fin 4 → ℝ := ![a.re, a.imI, a.imJ, a.imK]

/-- `q` (attitude, body to world), `v` and `p` (velocity and position in the world frame) are the
motion of a body with angular rate `w` and specific force `f`, both in the body frame, under gravity
`g`: the attitude obeys `q' = q w / 2`, the velocity `v' = q f q* - g` and the position `p' = v`. -/
structure RigidMotion (w f : ℝ → Fin 3 → ℝ) (g : Fin 3 → ℝ) (q : ℝ → ℍ[ℝ]) (v p : ℝ → Fin 3 → ℝ) :
    Prop where
  unit : ∀ t, normSq (q t) = 1
  att : ∀ t i, HasDerivAt (fun s => coordQ (q s) i) (coordQ (q t * pureQ (w t)) i / 2) t
  vel : ∀ t i, HasDerivAt (fun s => v s i) (vecQ (q t * pureQ (f t) * star (q t)) i - g i) t
  pos : ∀ t i, HasDerivAt (fun s => p s i) (v t i) t

end MSF
