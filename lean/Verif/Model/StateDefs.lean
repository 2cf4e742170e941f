import Verif.Model.Layout

/-!
# State definitions of the shipped filters (msf_updates/src/*/msf_statedef.hpp)

Only the auxiliary states; the core states `p`, `v`, `q`, `b_w`, `b_a` are `coreDef`.
-/

namespace MSF

/-- The pose filter: scale `L`, `q_wv`, `p_wv`, `q_ic`, `p_ic`
(msf_updates/src/pose_msf/msf_statedef.hpp:63-71). -/
def poseAux : List VarDesc :=
  [⟨.vec 1, 5, .aux, 0⟩, ⟨.quat, 6, .auxNonDrift, 0⟩, ⟨.vec 3, 7, .aux, 0⟩, ⟨.quat, 8, .aux, 0⟩,
   ⟨.vec 3, 9, .aux, 0⟩]

/-- The position and spherical filters: `p_ip`
(msf_updates/src/position_msf/msf_statedef.hpp, spherical_msf/msf_statedef.hpp). -/
def positionAux : List VarDesc := [⟨.vec 3, 5, .aux, 0⟩]

/-- The pose-pressure filter: the pose filter and the pressure bias `b_p`
(msf_updates/src/pose_pressure_msf/msf_statedef.hpp). -/
def posePressureAux : List VarDesc := poseAux ++ [⟨.vec 1, 10, .aux, 0⟩]

/-- The position-pose filter: the pose filter and `p_ip`
(msf_updates/src/position_pose_msf/msf_statedef.hpp:46-68). -/
def positionPoseAux : List VarDesc := poseAux ++ [⟨.vec 3, 10, .aux, 0⟩]

end MSF
