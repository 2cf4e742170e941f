import Verif.Model.External

/-!
# Run-time configuration of the shipped nodes

From `dynamic_reconfigure` callbacks and sensor messages to the measurement objects that are given to
the core and the calls of `Init`, and together with the IMU handler to the calls of the core.  What a measurement does to the filter is modelled elsewhere
(`Model/Sensors`, `Model/Managers`).
-/

namespace MSF

/-- The five nodes of `msf_updates/src`. -/
inductive NodeKind
  | pose
  | posePressure
  | position
  | positionPose
  | spherical
  deriving DecidableEq

/-- The sensor handlers of `msf_updates`. -/
inductive SensorKind
  | pose
  | position
  | pressure
  | angle
  | distance
  deriving DecidableEq

/-- The handlers each manager creates: pose_sensormanager.h:56-59, pose_pressure_sensormanager.h:54-61,
position_sensormanager.h:57-59, position_pose_sensormanager.h:62-68, spherical_sensormanager.h:48-53. -/
def NodeKind.has : NodeKind → SensorKind → Bool
  | .pose, .pose => true
  | .posePressure, .pose => true
  | .posePressure, .pressure => true
  | .position, .position => true
  | .positionPose, .pose => true
  | .positionPose, .position => true
  | .spherical, .angle => true
  | .spherical, .distance => true
  | _, _ => false

/-- The parameters of `msf_updates/cfg/*.cfg` read in the callbacks and handlers below, all five files
together; a node has those of its own file. -/
structure Cfg (R : Type) where
  core_init_filter : Bool
  core_set_height : Bool
  core_height : R
  pose_initial_scale : R
  pose_fixed_scale : Bool
  pose_fixed_p_ic : Bool
  pose_fixed_q_ic : Bool
  pose_fixed_p_wv : Bool
  pose_fixed_q_wv : Bool
  pose_noise_meas_p : R
  pose_noise_meas_q : R
  pose_delay : R
  position_noise_meas : R
  position_delay : R
  /-- `position_fixed_p_ip`, in the spherical node `fixed_p_ip`. -/
  fixed_p_ip : Bool
  press_noise_meas_p : R
  /-- PosePressureSensor.cfg:63. -/
  press_reset : Bool
  angle_noise_meas : R
  angle_delay : R
  distance_noise_meas : R
  distance_delay : R

/-- State variables a sensor can be told not to estimate. -/
inductive FixedVar
  | L
  | q_ic
  | p_ic
  | q_wv
  | p_wv
  | p_ip
  deriving DecidableEq

/-- What a handler remembers of the configuration: `n_zp_`, `n_zq_` (one entry for sensors with one
noise) and `delay_`. -/
structure Settings (R : Type) where
  noises : List R
  delay : R

/-- A measurement object: the sensor, the time given to `MakeFromSensorReading`, the noises and fixed
states given to its constructor. -/
structure Made (R : Type) where
  sensor : SensorKind
  time : R
  noises : List R
  fixed : List FixedVar
  deriving DecidableEq

/-- What leaves manager and handlers towards the core: `AddMeasurement` or the manager's `Init`. -/
inductive ToCore (R : Type)
  | meas (m : Made R)
  | init (scale : R)
  deriving DecidableEq

/-- Message types of the position sensor. -/
inductive PositionMsgKind
  | point
  | transform
  | navSatFix
  deriving DecidableEq

/-- A sensor message: what the handlers look at.  `cov0` is the first entry of the covariance that
reaches `ProcessPositionMeasurement`; `z` the position the handler keeps in `z_p_`. -/
inductive SensorMsg (R : Type)
  | pose (kind : PoseMsgKind) (stamp : R) (z : V3 R)
  | position (kind : PositionMsgKind) (seq : Nat) (stamp cov0 : R)
  | pressure (seq : Nat) (stamp : R)
  | angle (stamp : R)
  | distance (stamp : R)

/-- The stamp of a message. -/
def SensorMsg.stamp {R : Type} : SensorMsg R → R
  | .pose _ t _ => t
  | .position _ _ t _ => t
  | .pressure _ t => t
  | .angle t => t
  | .distance t => t

/-- The sensor a message comes from. -/
def SensorMsg.sensor {R : Type} : SensorMsg R → SensorKind
  | .pose .. => .pose
  | .position .. => .position
  | .pressure .. => .pressure
  | .angle _ => .angle
  | .distance _ => .distance

/-- What happens to a node. -/
inductive NodeEvent (R : Type)
  | config (cfg : Cfg R) (level : Nat)
  | msg (m : SensorMsg R)
  /-- The services of the pose node, pose_sensormanager.h:120-152. -/
  | initScale (scale : R)
  | initHeight (height : R)

/-- A node: manager and handlers.  `fixedCov` is `use_fixed_covariance_` of the position and spherical
handlers, `cfg` is `config_`. -/
structure RosNode (R : Type) where
  kind : NodeKind
  fixedCov : Bool
  cfg : Cfg R
  settings : SensorKind → Settings R
  pose : PoseHandler R
  z_p : V3 R

section
variable {R : Type} [Field R] [LinearOrder R]

/-- Members set by the constructors of the handlers: noises 1e-6 and delay 0
(pose_sensorhandler.hpp:32-35, position_sensorhandler.hpp:31-32, pressure_sensorhandler.hpp:29,
spherical_sensorhandler.hpp:32-33 and :136-137). -/
def Settings.initial : SensorKind → Settings R
  | .pose => ⟨[1 / 1000000, 1 / 1000000], 0⟩
  | _ => ⟨[1 / 1000000], 0⟩

/-- A node after construction, before the configuration server has called back (it does so when the
callback is set); `junk` is the configuration until then. -/
def RosNode.init (kind : NodeKind) (fixedCov : Bool) (minDt : R) (junk : Cfg R) : RosNode R :=
  ⟨kind, fixedCov, junk, Settings.initial, PoseHandler.init fixedCov minDt, 0⟩

/-- `SetNoises` of one handler (pose_sensorhandler.hpp:130-135, position_sensorhandler.hpp:78-82,
pressure_sensorhandler.hpp:53-55, spherical_sensorhandler.hpp:68-72 and :173-177). -/
def RosNode.setNoises (n : RosNode R) (s : SensorKind) (l : List R) : RosNode R :=
  { n with settings := fun s' => if s' = s then { n.settings s with noises := l } else n.settings s' }

/-- `SetDelay` of one handler (pose_sensorhandler.hpp:137-140, position_sensorhandler.hpp:84-88,
spherical_sensorhandler.hpp:74-78 and :179-183); the pressure handler has none. -/
def RosNode.setDelay (n : RosNode R) (s : SensorKind) (d : R) : RosNode R :=
  { n with settings := fun s' => if s' = s then { n.settings s with delay := d } else n.settings s' }

/-- `level & INIT_FILTER` with `core_init_filter`; INIT_FILTER is 1 in all cfg files. -/
def initRequested (cfg : Cfg R) (level : Nat) : Bool := level.testBit 0 && cfg.core_init_filter

/-- `level & SET_HEIGHT` with `core_set_height`; SET_HEIGHT is 4. -/
def heightRequested (cfg : Cfg R) (level : Nat) : Bool := level.testBit 2 && cfg.core_set_height

/-- The "set height" part of the callbacks, pose_sensormanager.h:104-116: `none` if refused because the
position kept by the pose handler is zero. -/
def heightInit (z_p : V3 R) (cfg : Cfg R) (level : Nat) : Option (List (ToCore R)) :=
  if heightRequested cfg level then
    if z_p 0 = 0 ∧ z_p 1 = 0 ∧ z_p 2 = 0 then none else some [.init (z_p 2 / cfg.core_height)]
  else some []

/-- `Config` of the five managers: pose_sensormanager.h:94-118, pose_pressure_sensormanager.h:87-113,
position_sensormanager.h:83-92, position_pose_sensormanager.h:93-122, spherical_sensormanager.h:77-89.
The check boxes are switched off in the copy of the configuration that goes back to the server, not in
`config_`. -/
def RosNode.config (n : RosNode R) (cfg : Cfg R) (level : Nat) : RosNode R × List (ToCore R) :=
  let n := { n with cfg := cfg }
  match n.kind with
  | .pose =>
    let n := (n.setNoises .pose [cfg.pose_noise_meas_p, cfg.pose_noise_meas_q]).setDelay .pose
      cfg.pose_delay
    let a := if initRequested cfg level then [.init cfg.pose_initial_scale] else []
    match heightInit n.z_p cfg level with
    | none => (n, a)
    | some b => (n, a ++ b)
  | .posePressure =>
    let a := if initRequested cfg level then [.init cfg.pose_initial_scale] else []
    match heightInit n.z_p cfg level with
    | none => (n, a)
    | some b =>
      ((n.setNoises .pose [cfg.pose_noise_meas_p, cfg.pose_noise_meas_q]).setNoises .pressure
        [cfg.press_noise_meas_p], a ++ b)
  | .position =>
    let n := (n.setNoises .position [cfg.position_noise_meas]).setDelay .position cfg.position_delay
    (n, if initRequested cfg level then [.init 1] else [])
  | .positionPose =>
    let n := (n.setNoises .pose [cfg.pose_noise_meas_p, cfg.pose_noise_meas_q]).setDelay .pose
      cfg.pose_delay
    let n := (n.setNoises .position [cfg.position_noise_meas]).setDelay .position cfg.position_delay
    let a := if initRequested cfg level then [.init cfg.pose_initial_scale] else []
    match heightInit n.z_p cfg level with
    | none => (n, a)
    | some b => (n, a ++ b)
  | .spherical =>
    let n := (n.setNoises .angle [cfg.angle_noise_meas]).setDelay .angle cfg.angle_delay
    let n := (n.setNoises .distance [cfg.distance_noise_meas]).setDelay .distance cfg.distance_delay
    (n, if initRequested cfg level then [.init 1] else [])

/-- The fixed states of a pose measurement, pose_sensorhandler.hpp:168-191. -/
def poseFixed (cfg : Cfg R) : List FixedVar :=
  (if cfg.pose_fixed_scale then [.L] else []) ++ (if cfg.pose_fixed_p_ic then [.p_ic] else []) ++
    (if cfg.pose_fixed_q_ic then [.q_ic] else []) ++ (if cfg.pose_fixed_p_wv then [.p_wv] else []) ++
    (if cfg.pose_fixed_q_wv then [.q_wv] else [])

/-- The fixed states of position and spherical measurements, position_sensorhandler.hpp:116-122,
spherical_sensorhandler.hpp:109-115 and :211-217. -/
def pointFixed (cfg : Cfg R) : List FixedVar := if cfg.fixed_p_ip then [.p_ip] else []

/-- The measurement of a sensor for a stamp: stamp minus `delay_` (pose_sensorhandler.hpp:193-198,
position_sensorhandler.hpp:124-129, spherical_sensorhandler.hpp:118-123 and :220-225).  The pressure
handler uses the stamp (pressure_sensorhandler.hpp:73-77), here: its delay stays 0. -/
def RosNode.make (n : RosNode R) (s : SensorKind) (stamp : R) (fixed : List FixedVar) : Made R :=
  ⟨s, stamp - (n.settings s).delay, (n.settings s).noises, fixed⟩

/-- The message callbacks of the handlers: pose_sensorhandler.hpp:142-300,
position_sensorhandler.hpp:96-230, pressure_sensorhandler.hpp:57-90,
spherical_sensorhandler.hpp:80-128 and :185-230.  A node without the handler gets no such messages. -/
def RosNode.message (n : RosNode R) (m : SensorMsg R) : RosNode R × List (ToCore R) :=
  if n.kind.has m.sensor then
    match m with
    | .pose kind stamp z =>
      let r := n.pose.callback kind stamp
      if r.2 then ({ n with pose := r.1, z_p := z }, [.meas (n.make .pose stamp (poseFixed n.cfg))])
      else ({ n with pose := r.1 }, [])
    | .position kind seq stamp cov0 =>
      if (kind = .transform ∧ seq % 5 ≠ 0) ∨ (n.fixedCov = false ∧ cov0 = 0) then (n, [])
      else (n, [.meas (n.make .position stamp (pointFixed n.cfg))])
    | .pressure seq stamp =>
      if seq % 10 ≠ 0 then (n, []) else (n, [.meas (n.make .pressure stamp [])])
    | .angle stamp =>
      if n.fixedCov = false then (n, []) else (n, [.meas (n.make .angle stamp (pointFixed n.cfg))])
    | .distance stamp =>
      if n.fixedCov = false then (n, []) else (n, [.meas (n.make .distance stamp (pointFixed n.cfg))])
  else (n, [])

/-- The service `InitHeight` of the pose node, pose_sensormanager.h:128-152;
`MIN_INITIALIZATION_HEIGHT` is 0.01. -/
def RosNode.serviceHeight (n : RosNode R) (h : R) : List (ToCore R) :=
  if n.kind = .pose then
    if n.z_p 0 = 0 ∧ n.z_p 1 = 0 ∧ n.z_p 2 = 0 then []
    else if 1 / 100 < |h| then [.init (n.z_p 2 / h)] else []
  else []

/-- One event. -/
def RosNode.step (n : RosNode R) : NodeEvent R → RosNode R × List (ToCore R)
  | .config cfg level => n.config cfg level
  | .msg m => n.message m
  | .initScale s => (n, if n.kind = .pose then [.init s] else [])
  | .initHeight h => (n, n.serviceHeight h)

/-- A run: the node afterwards and what every event sent to the core. -/
def RosNode.run (n : RosNode R) : List (NodeEvent R) → RosNode R × List (List (ToCore R))
  | [] => (n, [])
  | e :: es =>
    let r := n.step e
    let rest := r.1.run es
    (rest.1, r.2 :: rest.2)

end

/-! ### The whole node -/

/-- Managers that create an IMU handler: pose_sensormanager.h:53-55, pose_pressure_sensormanager.h:50-52,
position_sensormanager.h:53-55, position_pose_sensormanager.h:56-58.  The handler subscribes to
`imu_state_input` and `hl_state_input` in its constructor (msf_IMUHandler_ROS.h:31-59); nothing else
calls `ProcessIMU`.  The constructor of the spherical manager (spherical_sensormanager.h:46-58) makes
none. -/
def NodeKind.hasImu : NodeKind → Bool
  | .spherical => false
  | _ => true

/-- What arrives at a node: configuration, services and sensor messages at the time `now` with content
`b`, IMU messages and external states. -/
inductive NodeInput (A W R B : Type)
  | node (now : ℚ) (b : B) (e : NodeEvent ℚ)
  | imu (t : ℚ) (u : Input A W)
  | state (m : ExtMsg A W R)

section
variable {A W X C M R B : Type}

/-- How the contents of messages get into measurements and initial states. -/
structure Contents (X A W C M B : Type) where
  id : SensorKind → Int
  body : B → Made ℚ → M
  init : B → RosNode ℚ → ℚ → St A W X C

/-- What goes to the core, as callbacks of `Model/External`. -/
def ToCore.call (k : Contents X A W C M B) (n : RosNode ℚ) (now : ℚ) (b : B) :
    ToCore ℚ → RosCall A W X C M R
  | .meas m => .meas ⟨m.time, k.id m.sensor, k.body b m⟩
  | .init scale => .init now (k.init b n scale)

/-- The calls of a run.  Messages on the topics of the IMU are lost without the handler. -/
def nodeCalls (k : Contents X A W C M B) : RosNode ℚ → List (NodeInput A W R B) →
    List (RosCall A W X C M R)
  | _, [] => []
  | n, .node now b e :: es =>
    (n.step e).2.map (ToCore.call k (n.step e).1 now b) ++ nodeCalls k (n.step e).1 es
  | n, .imu t u :: es => (if n.kind.hasImu then [.imu t u] else []) ++ nodeCalls k n es
  | n, .state m :: es => (if n.kind.hasImu then [.state m] else []) ++ nodeCalls k n es

end
end MSF
