import Verif.Model.Update
import Verif.Model.Similarity
import Verif.Model.StateDefs
import Mathlib.Analysis.SpecialFunctions.Trigonometric.Basic

/-!
# Initialization and the hooks of the shipped sensor managers
(msf_core/include/msf_core/implementation/msf_core_inl.h `SetPCore`, `Init`;
msf_measurement_inl.h `MSF_InitMeasurement::Apply`; msf_updates/src/*/*_sensormanager.h)

ROS parameters and the stored measurements of the handlers are arguments.  Waiting, logging and
publishing are left out; the buffers are part of `Verif.Model.Core`.  A division by zero and the
normalisation of a zero quaternion (the C++ code continues with infinities and NaN) are `none`.
-/

namespace MSF

open Matrix

/-! ### Core -/

/-- The numbers of `P_core` in units of 0.0001, msf_core_inl.h:72-86. -/
def pCoreTable : List (List Int) :=
  [[166, 122, -15, 211, 74, 0, 12, -12, 1, 0, 0, 0, -3, -2, 0],
   [129, 508, -20, 179, 432, 6, 20, 4, -2, 0, 0, 0, 3, -2, 0],
   [-13, -9, 142, -27, 57, 79, 7, 7, 0, 0, 0, 0, -1, -4, -1],
   [210, 162, -26, 437, 83, -17, 16, -21, -14, 0, 0, 0, 3, -1, 0],
   [93, 461, 36, 153, 650, -16, 25, 13, 0, 0, 0, 0, 3, 2, 0],
   [0, 5, 80, -19, -21, 130, 1, 1, 0, 0, 0, 0, -3, 1, -1],
   [12, 24, 6, 17, 37, 1, 5, 0, 1, 0, 0, 0, 0, -1, 0],
   [-11, 8, 7, -23, 19, 1, 0, 5, -1, 0, 0, 0, 1, -1, 0],
   [1, -2, 0, -14, 1, 0, 0, -1, 6, 0, 0, 0, 0, 0, 0],
   [0, 0, 0, 0, 0, 0, 0, 0, 0, 0, 0, 0, 0, 0, 0],
   [0, 0, 0, 0, 0, 0, 0, 0, 0, 0, 0, 0, 0, 0, 0],
   [0, 0, 0, 0, 0, 0, 0, 0, 0, 0, 0, 0, 0, 0, 0],
   [-3, 3, -1, 3, 3, -3, 0, 1, 0, 0, 0, 0, 10, 0, 0],
   [-2, -2, -4, -1, 3, 1, -1, 0, 0, 0, 0, 0, 0, 10, 0],
   [0, 0, -1, 0, 0, -1, 0, 0, 0, 0, 0, 0, 0, 0, 1]]

/-- `P_core` before the symmetrisation, msf_core_inl.h:70-86. -/
def pCoreRaw (R : Type) [Field R] : Matrix (Fin 15) (Fin 15) R :=
  Matrix.of fun i j => (((pCoreTable[i.val]?.getD [])[j.val]?.getD 0 : Int) : R) / 10000

/-- `MSF_Core::SetPCore`, msf_core_inl.h:58-90. -/
def setPCore (R : Type) [Field R] (n : Nat) : Matrix (Fin n) (Fin n) R :=
  setBlock ((0.0001 : R) • (1 : Matrix (Fin n) (Fin n) R)) 0 0 (symInPlace (pCoreRaw R))

/-- `MSF_InitMeasurement`, msf_measurement.h:166-243. -/
structure InitMeas (R : Type) (D : List VarDesc) where
  vars : Vars R D
  P : ErrMat R D
  a_m : V3 R
  w_m : V3 R
  time : R
  containsReadings : Bool

/-- The variables of a new init measurement: no reset values. -/
def noInit {R : Type} [CommRing R] (D : List VarDesc) : Vars R D := fun _ => ⟨Val.reset _, 0, false⟩

/-- `SetStateInitValue<INDEX>`, msf_measurement.h:204-208. -/
def setInit {R : Type} {D : List VarDesc} (s : Vars R D) (i : Fin D.length)
    (x : Val R (D.get i).kind) : Vars R D :=
  Function.update s i { s i with val := x, hasReset := true }

open Classical in
/-- `MSF_InitMeasurement::Apply`, msf_measurement_inl.h:200-228.  The comparison of the smallest and
the largest coefficient of `P` with zero is a comparison of `P` with zero. -/
noncomputable def InitMeas.apply {R : Type} [CommRing R] {D : List VarDesc} (m : InitMeas R D)
    (s : EKFState R D) : EKFState R D :=
  { s with
    time := m.time
    vars := copyInitStates m.vars s.vars
    P := if m.P = 0 then s.P else m.P
    a_m := if m.containsReadings then m.a_m else 0
    w_m := if m.containsReadings then m.w_m else 0 }

/-- The state that `MSF_Core::Init` inserts into the empty state buffer, msf_core_inl.h:561-579. -/
noncomputable def coreInit {R : Type} [Field R] {D : List VarDesc} (m : InitMeas R D) :
    EKFState R D :=
  m.apply
    { vars := noInit D, w_m := 0, a_m := 0, time := 0, P := setPCore R _, Fd := 1, Qd := 0 }

/-! ### Managers -/

/-- The gravity used by the managers, pose_sensormanager.h:160, position_sensormanager.h:105,
spherical_sensormanager.h:102, position_pose_sensormanager.h:131,
pose_pressure_sensormanager.h:122. -/
def managerGravity {R : Type} [Field R] : V3 R := ![0, 0, 9.81]

/-- The core part of every `Init`: position and attitude as computed, velocity and biases zero. -/
def initCore {R : Type} [CommRing R] {aux : List VarDesc} (p : V3 R) (q : Quat R) :
    Vars R (coreDef aux) :=
  let s : Vars R (coreDef aux) := noInit _
  let s := setInit s ⟨0, by simp [coreDef, coreDescs]⟩ p
  let s := setInit s ⟨1, by simp [coreDef, coreDescs]⟩ (fun _ => 0 : V3 R)
  let s := setInit s ⟨2, by simp [coreDef, coreDescs]⟩ q
  let s := setInit s ⟨3, by simp [coreDef, coreDescs]⟩ (fun _ => 0 : V3 R)
  setInit s ⟨4, by simp [coreDef, coreDescs]⟩ (fun _ => 0 : V3 R)

/-- The init measurement with zero `P` (`SetStateCovariance` does nothing), zero rates and the
acceleration `a_m = q.inverse() * g`. -/
noncomputable def initMeas {aux : List VarDesc} (vars : Vars ℝ (coreDef aux)) (q : Quat ℝ)
    (time : ℝ) : InitMeas ℝ (coreDef aux) :=
  ⟨vars, 0, q.inverse.rotate managerGravity, 0, time, true⟩

open Classical in
/-- `PoseSensorManager::Init`, pose_sensormanager.h:154-235.  `p_vc` and `q_cv` are the stored
measurement of the handler, `received` its flag `ReceivedFirstMeasurement`. -/
noncomputable def poseInit (scale : ℝ) (received : Bool) (p_vc : V3 ℝ) (q_cv : Quat ℝ)
    (p_ic : V3 ℝ) (q_ic : Quat ℝ) (time : ℝ) : Option (InitMeas ℝ (coreDef poseAux)) := do
  let q_wv : Quat ℝ := Quat.one
  let p_wv : V3 ℝ := 0
  let q_ic ← q_ic.normalize
  let q := if received then ((q_ic.mul q_cv.conj).mul q_wv).conj else q_wv
  let q ← q.normalize
  if scale = 0 then none
  else
    let p : V3 ℝ := p_wv + scale⁻¹ • (q_wv.conj.toRot *ᵥ p_vc) - q.toRot *ᵥ p_ic
    let s := initCore p q
    let s := setInit s ⟨5, by decide⟩ (fun _ => scale : Fin 1 → ℝ)
    let s := setInit s ⟨6, by decide⟩ q_wv
    let s := setInit s ⟨7, by decide⟩ p_wv
    let s := setInit s ⟨8, by decide⟩ q_ic
    let s := setInit s ⟨9, by decide⟩ p_ic
    some (initMeas s q time)

/-- `yawq`, position_sensormanager.h:114-117, spherical_sensormanager.h:111-114,
position_pose_sensormanager.h:188-190. -/
noncomputable def yawQuat (degrees : ℝ) : Option (Quat ℝ) :=
  let yaw := degrees / 180 * Real.pi
  (⟨Real.cos (yaw / 2), 0, 0, Real.sin (yaw / 2)⟩ : Quat ℝ).normalize

/-- `PositionSensorManager::Init`, position_sensormanager.h:94-162.  The scale is not used. -/
noncomputable def positionInit (yaw : ℝ) (p_vc p_ip : V3 ℝ) (time : ℝ) :
    Option (InitMeas ℝ (coreDef positionAux)) := do
  let q ← yawQuat yaw
  let p : V3 ℝ := p_vc - q.toRot *ᵥ p_ip
  some (initMeas (setInit (initCore p q) ⟨5, by decide⟩ p_ip) q time)

/-- `SensorManager::Init` of the spherical filter, spherical_sensormanager.h:91-164. -/
noncomputable def sphericalInit (yaw : ℝ) (angles : Fin 2 → ℝ) (distance : ℝ) (p_ip : V3 ℝ)
    (time : ℝ) : Option (InitMeas ℝ (coreDef positionAux)) := do
  let q ← yawQuat yaw
  let p_vc : V3 ℝ := ![distance * Real.sin (angles 0) * Real.cos (angles 1),
    distance * Real.sin (angles 0) * Real.sin (angles 1), distance * Real.cos (angles 0)]
  let p : V3 ℝ := p_vc - q.toRot *ᵥ p_ip
  some (initMeas (setInit (initCore p q) ⟨5, by decide⟩ p_ip) q time)

open Classical in
/-- `PositionPoseSensorManager::Init`, position_pose_sensormanager.h:124-236. -/
noncomputable def positionPoseInit (scale yaw : ℝ) (p_pos p_vc : V3 ℝ) (q_vc : Quat ℝ)
    (p_ic : V3 ℝ) (q_ic : Quat ℝ) (p_ip : V3 ℝ) (time : ℝ) :
    Option (InitMeas ℝ (coreDef positionPoseAux)) := do
  let q_ic ← q_ic.normalize
  let q ← yawQuat yaw
  let q_wv := ((q.mul q_ic).mul q_vc.conj).conj
  if scale = 0 then none
  else
    let p_vision : V3 ℝ := scale⁻¹ • (q_wv.conj.toRot *ᵥ p_vc) - q.toRot *ᵥ p_ic
    let p : V3 ℝ := p_pos - q.toRot *ᵥ p_ip
    let p_wv := p - p_vision
    let s := initCore p q
    let s := setInit s ⟨5, by decide⟩ (fun _ => scale : Fin 1 → ℝ)
    let s := setInit s ⟨6, by decide⟩ q_wv
    let s := setInit s ⟨7, by decide⟩ p_wv
    let s := setInit s ⟨8, by decide⟩ q_ic
    let s := setInit s ⟨9, by decide⟩ p_ic
    let s := setInit s ⟨10, by decide⟩ p_ip
    some (initMeas s q time)

open Classical in
/-- `PosePressureSensorManager::Init`, pose_pressure_sensormanager.h:115-195.  No init value for
`p_wv`. -/
noncomputable def posePressureInit (scale : ℝ) (received : Bool) (p_vc : V3 ℝ) (q_vc : Quat ℝ)
    (z_pressure : ℝ) (p_ic : V3 ℝ) (q_ic : Quat ℝ) (time : ℝ) :
    Option (InitMeas ℝ (coreDef posePressureAux)) := do
  let q_wv : Quat ℝ := Quat.one
  if scale = 0 then none
  else
    let b_p := p_vc 2 / scale - z_pressure
    let q_ic ← q_ic.normalize
    let q := if received then ((q_ic.mul q_vc.conj).mul q_wv).conj else q_wv
    let q ← q.normalize
    let p : V3 ℝ := scale⁻¹ • (q_wv.conj.toRot *ᵥ p_vc) - q.toRot *ᵥ p_ic
    let s := initCore p q
    let s := setInit s ⟨5, by decide⟩ (fun _ => scale : Fin 1 → ℝ)
    let s := setInit s ⟨6, by decide⟩ q_wv
    let s := setInit s ⟨8, by decide⟩ q_ic
    let s := setInit s ⟨9, by decide⟩ p_ic
    let s := setInit s ⟨10, by decide⟩ (fun _ => b_p : Fin 1 → ℝ)
    some (initMeas s q time)

/-- What a height request leads to. -/
inductive HeightRequest (R : Type) where
  /-- Refused, the filter is unchanged. -/
  | refused
  /-- `Init` is called with this scale. -/
  | init (scale : R)
  /-- `Init` is called with the quotient of a number and zero. -/
  | divByZero

open Classical in
/-- Service `initialize_msf_height`: `PoseSensorManager::InitHeight`,
pose_sensormanager.h:124-152.  `p` is the stored position measurement. -/
noncomputable def initHeight (p : V3 ℝ) (height : ℝ) : HeightRequest ℝ :=
  if p = 0 then .refused
  else if 0.01 < |height| then .init (p 2 / height)
  else .refused

open Classical in
/-- Checkbox "set height": pose_sensormanager.h:100-113, pose_pressure_sensormanager.h:96-108,
position_pose_sensormanager.h:109-121. -/
noncomputable def configHeight (p : V3 ℝ) (height : ℝ) : HeightRequest ℝ :=
  if p = 0 then .refused
  else if height = 0 then .divByZero
  else .init (p 2 / height)

/-- The sanity check of the pose, pose_pressure and position_pose managers: a negative scale
(variable 5) becomes 0.1 (pose_sensormanager.h:287-303, pose_pressure_sensormanager.h:245-261,
position_pose_sensormanager.h:288-305). -/
noncomputable def scaleSanity {rest : List VarDesc}
    (a : Vars ℝ (coreDef (⟨.vec 1, 5, .aux, 0⟩ :: rest))) :
    Vars ℝ (coreDef (⟨.vec 1, 5, .aux, 0⟩ :: rest)) :=
  let i : Fin (coreDef (⟨.vec 1, 5, .aux, 0⟩ :: rest)).length := ⟨5, by simp [coreDef, coreDescs]⟩
  let L : Fin 1 → ℝ := (a i).val
  if L 0 < 0 then Function.update a i { a i with val := (fun _ => 0.1 : Fin 1 → ℝ) } else a

/-- `AugmentCorrectionVector` and `SanityCheckCorrection` of the pose, pose-pressure and
position-pose managers (pose_sensormanager.h:282-303 and the same functions of the others). -/
noncomputable def scaleCalc {rest : List VarDesc} (fixedBias : Bool) :
    UserCalc (coreDef (⟨.vec 1, 5, .aux, 0⟩ :: rest)) :=
  ⟨id, fun a _ _ => scaleSanity a, fixedBias⟩

/-- The same of the position and spherical managers: both functions do nothing
(position_sensormanager.h:189-203, spherical_sensormanager.h:190-204). -/
def plainCalc {aux : List VarDesc} (fixedBias : Bool) : UserCalc (coreDef aux) :=
  ⟨id, fun a _ _ => a, fixedBias⟩

/-! ### Process noise of the auxiliary states -/

/-- The dynamic parameters of the shipped filters for the process noise (standard deviation) of the
auxiliary states (msf_updates/cfg/*.cfg); a filter reads those it has. -/
structure AuxNoise (R : Type) where
  scale : R
  q_wv : R
  p_wv : R
  q_ic : R
  p_ic : R
  bias_p : R
  p_ip : R

/-- `state.GetQBlock<INDEX>() = (dt * n.cwiseProduct(n)).asDiagonal()` with `n` constant `σ`. -/
def setQBlock {R : Type} [CommRing R] {D : List VarDesc} (s : Vars R D) (i : Fin D.length)
    (dt σ : R) : Vars R D :=
  Function.update s i { s i with Q := Matrix.diagonal fun _ => dt * (σ * σ) }

/-- `CalculateQAuxiliaryStates`, pose_sensormanager.h:248-272. -/
def poseQAux {R : Type} [CommRing R] (n : AuxNoise R) (s : Vars R (coreDef poseAux)) (dt : R) :
    Vars R (coreDef poseAux) :=
  let s := setQBlock s ⟨5, by decide⟩ dt n.scale
  let s := setQBlock s ⟨6, by decide⟩ dt n.q_wv
  let s := setQBlock s ⟨7, by decide⟩ dt n.p_wv
  let s := setQBlock s ⟨8, by decide⟩ dt n.q_ic
  setQBlock s ⟨9, by decide⟩ dt n.p_ic

/-- `CalculateQAuxiliaryStates`, position_sensormanager.h:172-180,
spherical_sensormanager.h:174-181. -/
def positionQAux {R : Type} [CommRing R] (n : AuxNoise R) (s : Vars R (coreDef positionAux))
    (dt : R) : Vars R (coreDef positionAux) :=
  setQBlock s ⟨5, by decide⟩ dt n.p_ip

/-- `CalculateQAuxiliaryStates`, pose_pressure_sensormanager.h:208-235: there is no assignment for
`p_wv`. -/
def posePressureQAux {R : Type} [CommRing R] (n : AuxNoise R)
    (s : Vars R (coreDef posePressureAux)) (dt : R) : Vars R (coreDef posePressureAux) :=
  let s := setQBlock s ⟨5, by decide⟩ dt n.scale
  let s := setQBlock s ⟨6, by decide⟩ dt n.q_wv
  let s := setQBlock s ⟨8, by decide⟩ dt n.q_ic
  let s := setQBlock s ⟨9, by decide⟩ dt n.p_ic
  setQBlock s ⟨10, by decide⟩ dt n.bias_p

/-- `CalculateQAuxiliaryStates`, position_pose_sensormanager.h:249-273: there is no assignment for
`p_ip`. -/
def positionPoseQAux {R : Type} [CommRing R] (n : AuxNoise R)
    (s : Vars R (coreDef positionPoseAux)) (dt : R) : Vars R (coreDef positionPoseAux) :=
  let s := setQBlock s ⟨5, by decide⟩ dt n.scale
  let s := setQBlock s ⟨6, by decide⟩ dt n.q_wv
  let s := setQBlock s ⟨7, by decide⟩ dt n.p_wv
  let s := setQBlock s ⟨8, by decide⟩ dt n.q_ic
  setQBlock s ⟨9, by decide⟩ dt n.p_ic

end MSF
