import Verif.Model.FilterKernel
import Verif.Model.Core

/-!
# Rotating the world frame about the vertical axis

The vocabulary of C105: what a rotation of the world frame does to a state, to a covariance, to a
reading, to a call of the core and to a publication.
-/

namespace MSF

open Matrix EKFState Core

variable {aux : List VarDesc}

/-- A unit quaternion whose rotation leaves the vertical axis. -/
structure IsYaw (g : Quat ℝ) : Prop where
  unit : g.normSq = 1
  vert : g.toRot *ᵥ ![0, 0, 1] = ![0, 0, 1]

/-- Rotate position, velocity and attitude. -/
def rotVars (g : Quat ℝ) (s : Vars ℝ (coreDef aux)) : Vars ℝ (coreDef aux) :=
  setQ (setV (setP s (g.toRot *ᵥ p s)) (g.toRot *ᵥ v s)) (g.mul (q s))

/-- The same for the values. -/
def rotVals (g : Quat ℝ) (x : Values (coreDef aux)) : Values (coreDef aux) :=
  values (rotVars g (toVars x))

/-- The rotation of the errors of position and velocity. -/
def rotErr (R : M33 ℝ) : ErrMat ℝ (coreDef aux) := setBlock (setBlock 1 0 0 R) 3 3 R

/-- The covariance in the rotated frame. -/
def rotCov (R : M33 ℝ) (P : ErrMat ℝ (coreDef aux)) : ErrMat ℝ (coreDef aux) :=
  rotErr R * P * (rotErr R)ᵀ

/-- The same reading after a rotation of the world frame: positions are rotated with their noise, a
height stays. -/
def Reading.turn (g : Quat ℝ) : Reading → Reading
  | .position pip fixed enable thr z R_ =>
    .position pip fixed enable thr (g.toRot *ᵥ z) (g.toRot * R_ * g.toRotᵀ)
  | r => r

/-- A position sensor or a pressure sensor whose offset or bias is an auxiliary variable. -/
def Reading.Turns (aux : List VarDesc) : Reading → Prop
  | .position pip _ _ _ _ R_ => 5 ≤ pip ∧ (∃ h : pip < (coreDef aux).length,
      ((coreDef aux)[pip]).kind = .vec 3) ∧ R_ᵀ = R_
  | .pressure bp _ _ _ _ => 5 ≤ bp ∧ ∃ h : bp < (coreDef aux).length,
      ((coreDef aux)[bp]).kind = .vec 1
  | _ => False

/-- An externally propagated state in the rotated frame. -/
def ExtState.turn (g : Quat ℝ) (e : ExtState) : ExtState :=
  ⟨g.toRot *ᵥ e.p, g.toRot *ᵥ e.v, g.mul e.q⟩

/-- The same call in the rotated frame. -/
def Api.turn (g : Quat ℝ) :
    Api (V3 ℝ) (V3 ℝ) (Option (Values (coreDef aux))) (Option (ErrMat ℝ (coreDef aux))) Reading ExtState →
      Api (V3 ℝ) (V3 ℝ) (Option (Values (coreDef aux))) (Option (ErrMat ℝ (coreDef aux))) Reading ExtState
  | .init t s => .init t ⟨s.u, s.x.map (rotVals g), s.P.map (rotCov g.toRot)⟩
  | .imu t u => .imu t u
  | .ext t u e => .ext t u (e.map (ExtState.turn g))
  | .meas m => .meas { m with body := m.body.turn g }

/-- The same publication in the rotated frame. -/
def Event.turn (g : Quat ℝ) :
    Event (Option (Values (coreDef aux))) (Option (ErrMat ℝ (coreDef aux))) →
      Event (Option (Values (coreDef aux))) (Option (ErrMat ℝ (coreDef aux)))
  | .initial t x P => .initial t (x.map (rotVals g)) (P.map (rotCov g.toRot))
  | .afterPropagation t x P => .afterPropagation t (x.map (rotVals g)) (P.map (rotCov g.toRot))
  | .afterUpdate t x P => .afterUpdate t (x.map (rotVals g)) (P.map (rotCov g.toRot))

end MSF
