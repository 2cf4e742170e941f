import Verif.Model.Sensors
import Verif.Model.Handlers

/-!
# From pose messages to measurements

Source: msf_updates/include/msf_updates/pose_sensor_handler/implementation/pose_sensorhandler.hpp and
pose_measurement.h.  Messages are arbitrary.  Logging, the sequence watch dog (a warning), the determinant
check of every hundredth message (a warning) and the distorter are not modelled; the fixed states are in
`Model/Config`.
-/

namespace MSF

/-- A message on one of the four topics of the pose sensor (pose_sensorhandler.hpp:69-90). -/
structure PoseInput (R : Type) where
  kind : PoseMsgKind
  stamp : R
  pos : V3 R
  att : Quat R
  cov : Fin 36 → R

/-- What happens to a handler: messages and `SetNoises`, `SetDelay` from dynamic reconfigure,
pose_sensorhandler.hpp:130-140. -/
inductive PoseEvent (R : Type)
  | msg (m : PoseInput R)
  | setNoises (n_zp n_zq : R)
  | setDelay (delay : R)

/-- The members of `PoseSensorHandler` that are used; `throttle` holds those of `Model/Handlers`. -/
structure PoseSource (R : Type) where
  throttle : PoseHandler R
  worldSensor : Bool
  n_zp : R
  n_zq : R
  delay : R
  z_p : V3 R
  z_q : Quat R

/-- The measurement handed to `AddMeasurement`: time and data. -/
structure MadePose (R : Type) where
  time : R
  meas : PoseMeas R

section
variable {R : Type} [Field R] [LinearOrder R]

/-- The constructor, pose_sensorhandler.hpp:27-95. -/
def PoseSource.init (fixedCov world : Bool) (minDt : R) : PoseSource R :=
  ⟨PoseHandler.init fixedCov minDt, world, 1 / 1000000, 1 / 1000000, 0, 0, Quat.one⟩

/-- The covariance that reaches `ProcessPoseMeasurement`: transforms and poses without covariance are
copied into a new message, whose covariance is zero (pose_sensorhandler.hpp:245-300). -/
def PoseInput.readCov (m : PoseInput R) : Fin 36 → R :=
  match m.kind with
  | .poseWithCovariance => m.cov
  | .odometry => m.cov
  | .transform => 0
  | .pose => 0

/-- The four `MeasurementCallback`s with `ProcessPoseMeasurement`, pose_sensorhandler.hpp:142-300: the
measurement is made from the message and stored for `Init`. -/
def PoseSource.callback (h : PoseSource R) (m : PoseInput R) : PoseSource R × Option (MadePose R) :=
  let r := h.throttle.callback m.kind m.stamp
  if r.2 then
    let z := makePose ⟨h.n_zp, h.n_zq, h.worldSensor, h.throttle.useFixedCovariance⟩ m.pos m.att m.readCov
    ({ h with throttle := r.1, z_p := z.z_p, z_q := z.z_q }, some ⟨m.stamp - h.delay, z⟩)
  else ({ h with throttle := r.1 }, none)

/-- One event. -/
def PoseSource.step (h : PoseSource R) : PoseEvent R → PoseSource R × Option (MadePose R)
  | .msg m => h.callback m
  | .setNoises p q => ({ h with n_zp := p, n_zq := q }, none)
  | .setDelay d => ({ h with delay := d }, none)

/-- A sequence of events; the measurements made, in order. -/
def PoseSource.run (h : PoseSource R) : List (PoseEvent R) → PoseSource R × List (MadePose R)
  | [] => (h, [])
  | e :: es =>
    let r := h.step e
    let rest := r.1.run es
    (rest.1, r.2.toList ++ rest.2)

end

end MSF
