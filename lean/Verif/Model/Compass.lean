import Mathlib.Analysis.SpecialFunctions.Complex.Arg
import Verif.Model.Managers

/-!
# The node that passes a compass heading to a filter

Source: msf_updates/src/position_msf/init_yaw_from_compass.py, msf_updates/cfg/SinglePositionSensor.cfg.
The node keeps the heading of the last message and sends it every two seconds to the parameter
`position_yaw_init` of the filter.  Not in the repository and modelled as documented:
`tf.transformations.euler_from_quaternion` (static axes xyz), the clamping of a parameter to the range in
the .cfg file by dynamic_reconfigure, and rospy, which logs an exception of a callback and carries on.
The connection to the parameter server is assumed to work.
-/

namespace MSF

/-- The topics of the node, init_yaw_from_compass.py:61-68. -/
inductive CompassMsg
  | imu (orientation : Quat ℝ)
  | orientationQuaternion (q : Quat ℝ)
  | orientationDegrees (v : V3 ℝ)
  | headingRadians (h : ℝ)

/-- What happens: a message arrives, or the loop in :74-78 sends the heading. -/
inductive CompassEvent
  | msg (m : CompassMsg)
  | tick

/-- The globals of the node (:14-15) and the parameter of the filter. -/
structure Compass where
  heading : ℝ
  isInit : Bool
  yawInit : ℝ

/-- The third angle of `euler_from_quaternion` (used in :33 and :48): the first column of the matrix of
the normalised quaternion, zero if the column is vertical; four times the machine precision is the
threshold in tf. -/
noncomputable def eulerYaw (q : Quat ℝ) : ℝ :=
  let n := q.x * q.x + q.y * q.y + q.z * q.z + q.w * q.w
  let eps : ℝ := 4 / 2 ^ 52
  if n < eps then 0
  else
    let m00 := 1 - 2 * (q.y * q.y + q.z * q.z) / n
    let m10 := 2 * (q.x * q.y + q.z * q.w) / n
    if Real.sqrt (m00 * m00 + m10 * m10) > eps then Complex.arg ⟨m00, m10⟩ else 0

/-- `math.degrees`. -/
noncomputable def degrees (x : ℝ) : ℝ := x * (180 / Real.pi)

/-- The callbacks, init_yaw_from_compass.py:30-56.  `callback_orientation_quaternion` hands the message
itself to `euler_from_quaternion`, which expects a sequence (:46-48): an exception, no effect. -/
noncomputable def Compass.callback (c : Compass) : CompassMsg → Compass
  | .imu q => { c with heading := degrees (eulerYaw q), isInit := true }
  | .orientationQuaternion _ => c
  | .orientationDegrees v => { c with heading := v 2, isInit := true }
  | .headingRadians h => { c with heading := degrees h, isInit := true }

/-- The parameter stays within its range, SinglePositionSensor.cfg:38. -/
noncomputable def clampYaw (x : ℝ) : ℝ := max (-180) (min 180 x)

/-- One event; nothing is sent before the first heading, init_yaw_from_compass.py:71-72. -/
noncomputable def Compass.step (c : Compass) : CompassEvent → Compass
  | .msg m => c.callback m
  | .tick => if c.isInit then { c with yawInit := clampYaw c.heading } else c

/-- All events, from the start with the default of the parameter. -/
noncomputable def Compass.run (es : List CompassEvent) : Compass :=
  es.foldl Compass.step ⟨0, false, 0⟩

end MSF
