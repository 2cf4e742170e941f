import Verif.Model.Sensors

/-!
# The message handlers of the spherical position sensor

Source: msf_updates/include/msf_updates/spherical_position_sensor/implementation/spherical_sensorhandler.hpp
and spherical_measurement.h.  The two handlers read the same parameter `use_fixed_covariance`.  Logging and
the sequence watch dog (a warning) are not modelled; the fixed states are in `Model/Config`.
-/

namespace MSF

/-- What happens to the two handlers: messages (stamp and `point`) on `angle_input` and `distance_input`, and
`SetNoises`, `SetDelay` from dynamic reconfigure, spherical_sensorhandler.hpp:68-78 and :173-183. -/
inductive SphericalEvent (R : Type)
  | angle (stamp : R) (point : V3 R)
  | distance (stamp : R) (point : V3 R)
  | angleNoise (n : R)
  | distanceNoise (n : R)
  | angleDelay (d : R)
  | distanceDelay (d : R)

/-- The members of `AngleSensorHandler` and `DistanceSensorHandler` that are used. -/
structure SphericalHandlers (R : Type) where
  useFixedCovariance : Bool
  n_za : R
  n_zd : R
  delay_a : R
  delay_d : R
  z_a : Fin 2 → R
  z_d : R

/-- The measurement handed to `AddMeasurement`: time, reading, `R_`. -/
inductive MadeSpherical (R : Type)
  | angle (time : R) (z_a : Fin 2 → R) (R_ : Matrix (Fin 2) (Fin 2) R)
  | distance (time : R) (z_d : R) (R_ : Matrix (Fin 1) (Fin 1) R)

namespace SphericalHandlers

section
variable {R : Type} [Field R]

/-- The constructors, spherical_sensorhandler.hpp:27-66 and :132-171. -/
def init (fixedCov : Bool) : SphericalHandlers R := ⟨fixedCov, 1 / 1000000, 1 / 1000000, 0, 0, 0, 0⟩

/-- `AngleSensorHandler::MeasurementCallback`, spherical_sensorhandler.hpp:80-128, with
`MakeFromSensorReadingImpl`, spherical_measurement.h:47-69 (both branches give the same `R_`). -/
def angleCallback (h : SphericalHandlers R) (stamp : R) (point : V3 R) :
    SphericalHandlers R × Option (MadeSpherical R) :=
  if h.useFixedCovariance = false then (h, none)
  else
    let z_a : Fin 2 → R := ![point 0, point 1]
    ({ h with z_a := z_a }, some (.angle (stamp - h.delay_a) z_a (.diagonal fun _ => h.n_za * h.n_za)))

/-- `DistanceSensorHandler::MeasurementCallback`, spherical_sensorhandler.hpp:185-230, with
`MakeFromSensorReadingImpl`, spherical_measurement.h:337-355 (both branches give the same `R_`). -/
def distanceCallback (h : SphericalHandlers R) (stamp : R) (point : V3 R) :
    SphericalHandlers R × Option (MadeSpherical R) :=
  if h.useFixedCovariance = false then (h, none)
  else
    let z_d := point 2
    ({ h with z_d := z_d }, some (.distance (stamp - h.delay_d) z_d (.diagonal fun _ => h.n_zd * h.n_zd)))

/-- One event. -/
def step (h : SphericalHandlers R) : SphericalEvent R → SphericalHandlers R × Option (MadeSpherical R)
  | .angle t p => h.angleCallback t p
  | .distance t p => h.distanceCallback t p
  | .angleNoise n => ({ h with n_za := n }, none)
  | .distanceNoise n => ({ h with n_zd := n }, none)
  | .angleDelay d => ({ h with delay_a := d }, none)
  | .distanceDelay d => ({ h with delay_d := d }, none)

/-- A sequence of events; the measurements made, in order. -/
def run (h : SphericalHandlers R) : List (SphericalEvent R) → SphericalHandlers R × List (MadeSpherical R)
  | [] => (h, [])
  | e :: es =>
    let r := h.step e
    let rest := r.1.run es
    (rest.1, r.2.toList ++ rest.2)

end

end SphericalHandlers

end MSF
