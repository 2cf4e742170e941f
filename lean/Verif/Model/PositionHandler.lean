import Verif.Model.Sensors

/-!
# The message handler of the position sensor

Source: msf_updates/include/msf_updates/position_sensor_handler/implementation/position_sensorhandler.hpp
and position_measurement.h.  Messages are arbitrary.  Logging, the sequence watch dog (a warning) and the
determinant check of every hundredth message (a warning) are not modelled.  The conversion of a satellite
fix to a position is `GpsHandlers.navSatFix`; here the message carries the converted position.
-/

namespace MSF

/-- `position_covariance_type` of sensor_msgs/NavSatFix; any other byte is treated as `unknown`,
position_sensorhandler.hpp:217-227. -/
inductive CovType
  | unknown
  | approximated
  | diagonalKnown
  | known
  deriving DecidableEq

/-- The message types of the position sensor (position_sensorhandler.hpp:136-230), with stamp, position
and what else is read. -/
inductive PositionMsg (R : Type)
  | point (stamp : R) (p : V3 R)
  | transform (seq : Nat) (stamp : R) (p : V3 R)
  | navSat (stamp : R) (enu : V3 R) (type : CovType) (cov : Fin 9 → R)

/-- What happens to a handler: messages and `SetNoises`, `SetDelay` from dynamic reconfigure,
position_sensorhandler.hpp:77-87. -/
inductive PositionEvent (R : Type)
  | msg (m : PositionMsg R)
  | setNoises (n_zp : R)
  | setDelay (delay : R)

/-- The members of `PositionSensorHandler` that are used. -/
structure PositionHandler (R : Type) where
  useFixedCovariance : Bool
  n_zp : R
  delay : R
  z_p : V3 R
  receivedFirst : Bool

/-- The measurement handed to `AddMeasurement`: time, position, `R_`. -/
structure MadePosition (R : Type) where
  time : R
  z_p : V3 R
  R_ : M33 R

section
variable {R : Type} [Field R] [DecidableEq R]

/-- The constructor, position_sensorhandler.hpp:27-76. -/
def PositionHandler.init (fixedCov : Bool) : PositionHandler R := ⟨fixedCov, 1 / 1000000, 0, 0, false⟩

/-- `ProcessPositionMeasurement`, position_sensorhandler.hpp:95-134, with `MakeFromSensorReadingImpl`. -/
def PositionHandler.process (h : PositionHandler R) (stamp : R) (p : V3 R) (cov : Fin 9 → R) :
    PositionHandler R × Option (MadePosition R) :=
  let h := { h with receivedFirst := true }
  if h.useFixedCovariance = false ∧ cov 0 = 0 then (h, none)
  else
    let meas : MadePosition R := ⟨stamp - h.delay, p, positionCov h.useFixedCovariance h.n_zp cov⟩
    ({ h with z_p := meas.z_p }, some meas)

/-- The three `MeasurementCallback`s, position_sensorhandler.hpp:136-230.  The covariance of a message
that is not filled in is zero. -/
def PositionHandler.callback (h : PositionHandler R) : PositionMsg R → PositionHandler R × Option (MadePosition R)
  | .point stamp p => h.process stamp p 0
  | .transform seq stamp p => if seq % 5 ≠ 0 then (h, none) else h.process stamp p 0
  | .navSat stamp enu type cov =>
    h.process stamp enu
      (if type = .known then cov else if type = .diagonalKnown then cov else if type = .approximated then cov else 0)

/-- One event. -/
def PositionHandler.step (h : PositionHandler R) : PositionEvent R → PositionHandler R × Option (MadePosition R)
  | .msg m => h.callback m
  | .setNoises n => ({ h with n_zp := n }, none)
  | .setDelay d => ({ h with delay := d }, none)

/-- A sequence of events; the measurements made, in order. -/
def PositionHandler.run (h : PositionHandler R) : List (PositionEvent R) → PositionHandler R × List (MadePosition R)
  | [] => (h, [])
  | e :: es =>
    let r := h.step e
    let rest := r.1.run es
    (rest.1, r.2.toList ++ rest.2)

end

end MSF
