import Verif.Spec.Heading
import Verif.Model.Sensors
import Verif.Model.StateDefs

/-!
# Rotating the world frame of the pose filter

The camera frame stays where it is: the attitude and the origin of the camera frame in the world are
estimated states and change with the world frame.
-/

namespace MSF

open Matrix EKFState

/-- Rotate position, velocity, attitude, and attitude and position of the camera frame (`q_wv`, `p_wv`,
variables 6 and 7 of the pose filter, msf_updates/src/pose_msf/msf_statedef.hpp:37-53). -/
noncomputable def turnVars (g : Quat ℝ) (s : Vars ℝ (coreDef poseAux)) : Vars ℝ (coreDef poseAux) :=
  let qwv : Quat ℝ := (s ⟨6, by decide⟩).val
  let pwv : V3 ℝ := (s ⟨7, by decide⟩).val
  Function.update
    (Function.update (rotVars g s) ⟨6, by decide⟩
      { s ⟨6, by decide⟩ with val := (qwv.mul g.conj : Quat ℝ) })
    ⟨7, by decide⟩ { s ⟨7, by decide⟩ with val := (g.toRot *ᵥ pwv : V3 ℝ) }

/-- The rotation of the errors of position, velocity, `q_wv` and `p_wv`. -/
noncomputable def turnErr (R : M33 ℝ) : ErrMat ℝ (coreDef poseAux) :=
  rotErr R * setBlock 1 16 16 R * setBlock 1 19 19 R

/-- The same state in the rotated frame. -/
noncomputable def turnedState (g : Quat ℝ) (s : EKFState ℝ (coreDef poseAux)) :
    EKFState ℝ (coreDef poseAux) :=
  { s with vars := turnVars g s.vars, P := turnErr g.toRot * s.P * (turnErr g.toRot)ᵀ }

end MSF
