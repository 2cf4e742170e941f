import Verif.Model.Quat
import Verif.Model.Timing

/-!
# Message handlers: pose throttling, pressure averaging, sensor ids, correction messages

Messages are arbitrary; logging and the sequence watch dog (a warning) are not modelled.
-/

namespace MSF

/-! ### Pose sensor -/

/-- The message types of the pose sensor (pose_sensorhandler.hpp:207-300). -/
inductive PoseMsgKind
  | poseWithCovariance
  | odometry
  | transform
  | pose
  deriving DecidableEq

/-- The members of `PoseSensorHandler` that decide whether a message is used. -/
structure PoseHandler (R : Type) where
  useFixedCovariance : Bool
  minimumDt : R
  previous : R
  receivedFirst : Bool

section
variable {R : Type} [Field R] [LinearOrder R]

/-- The constructor, pose_sensorhandler.hpp:27-35 and :45-48; `received_first_measurement_` starts
false (msf_sensorhandler.h:55-62). -/
def PoseHandler.init (fixedCov : Bool) (minDt : R) : PoseHandler R :=
  ⟨fixedCov, minDt, 0, false⟩

/-- The small time correction, pose_sensorhandler.hpp:149. -/
def poseEpsilon : R := 1 / 1000

/-- `ProcessPoseMeasurement` up to the construction of the measurement,
pose_sensorhandler.hpp:143-159: whether a measurement is made. -/
def PoseHandler.process (h : PoseHandler R) (stamp : R) : PoseHandler R × Bool :=
  let h := { h with receivedFirst := true }
  if stamp - h.previous ≤ h.minimumDt - poseEpsilon then (h, false)
  else ({ h with previous := stamp }, true)

/-- The four `MeasurementCallback`s, pose_sensorhandler.hpp:207-300. -/
def PoseHandler.callback (h : PoseHandler R) (kind : PoseMsgKind) (stamp : R) :
    PoseHandler R × Bool :=
  match kind with
  | .poseWithCovariance => h.process stamp
  | .odometry => h.process stamp
  | .transform => if h.useFixedCovariance then h.process stamp else (h, false)
  | .pose => if h.useFixedCovariance then h.process stamp else (h, false)

/-- A sequence of messages; the stamps of the measurements made, in order. -/
def PoseHandler.run (h : PoseHandler R) : List (PoseMsgKind × R) → PoseHandler R × List R
  | [] => (h, [])
  | m :: ms =>
    let r := h.callback m.1 m.2
    let rest := r.1.run ms
    (rest.1, if r.2 then m.2 :: rest.2 else rest.2)

end

/-! ### Pressure sensor -/

/-- Members of `PressureSensorHandler`, pressure_sensorhandler.h:31-38; `heightbuffsize` is 10. -/
structure PressureHandler (R : Type) where
  z_p : R
  z_average_p : R
  heightbuff : Fin 10 → R

section
variable {R : Type} [Field R]

/-- The constructor, pressure_sensorhandler.hpp:24-51.  `z_p_` and `z_average_p` are not
initialized; `junk` stands for what is found there. -/
def PressureHandler.init (junk junk' : R) : PressureHandler R := ⟨junk, junk', fun _ => 0⟩

/-- `memcpy(dst, src, n)` inside one array, positions and length in elements; `none` (undefined
behaviour, C11 7.24.2.1) if the two ranges overlap or leave the array. -/
def memcpyWithin {n : Nat} (a : Fin n → R) (dst src len : Nat) : Option (Fin n → R) :=
  if (dst + len ≤ src ∨ src + len ≤ dst ∨ len = 0) ∧ dst + len ≤ n then
    if h : src + len ≤ n then
      some fun i => if h' : dst ≤ i.val ∧ i.val < dst + len then
        a ⟨src + (i.val - dst), by omega⟩ else a i
    else none
  else none

/-- The same copy through a buffer (`memmove`), which is what common `memcpy` implementations do
for a forward copy to lower addresses. -/
def memmoveWithin {n : Nat} (a : Fin n → R) (dst src len : Nat) : Option (Fin n → R) :=
  if dst + len ≤ n then
    if h : src + len ≤ n then
      some fun i => if h' : dst ≤ i.val ∧ i.val < dst + len then
        a ⟨src + (i.val - dst), by omega⟩ else a i
    else none
  else none

/-- How an array is copied onto itself. -/
abbrev CopyWithin (R : Type) := (n : Nat) → (Fin n → R) → Nat → Nat → Nat → Option (Fin n → R)

/-- `MeasurementCallback`, pressure_sensorhandler.hpp:57-90, for a given way to copy; the number of
the message is `seq`, its height `z`.  The second component is the reading of the measurement that
is given to the core, if any. -/
def PressureHandler.callback (copy : CopyWithin R) (h : PressureHandler R) (seq : Nat) (z : R) :
    Option (PressureHandler R × Option R) :=
  if seq % 10 ≠ 0 then some (h, none)
  else
    let h := { h with z_p := z }
    match copy 10 h.heightbuff 0 1 (10 - 1) with
    | none => none
    | some b =>
      let b := Function.update b ⟨10 - 1, by decide⟩ z
      let sum := (List.finRange 10).foldl (fun s k => s + b k) 0
      some ({ h with heightbuff := b, z_average_p := sum / 10 }, some z)

/-- A sequence of messages. -/
def PressureHandler.run (copy : CopyWithin R) (h : PressureHandler R) :
    List (Nat × R) → Option (PressureHandler R × List R)
  | [] => some (h, [])
  | m :: ms =>
    (h.callback copy m.1 m.2).bind fun r =>
      (r.1.run copy ms).map fun rest => (rest.1, r.2.toList ++ rest.2)

end

/-! ### Sensor ids -/

/-- `MSF_SensorManager`: the counter and the id of every handler (handlers are numbered), with
`constants::INVALID_ID` = -1 before `SetSensorID`. -/
structure SensorManager where
  nextId : Nat
  ids : Nat → Int

/-- The constructors, msf_sensormanager_inl.h:24-30 and msf_sensorhandler.h:55-62. -/
def SensorManager.init : SensorManager := ⟨0, fun _ => -1⟩

/-- `AddHandler`, msf_sensormanager.h:75-78; `none`: overflow of the 32 bit counter. -/
def SensorManager.addHandler (m : SensorManager) (handler : Nat) : Option SensorManager :=
  if m.nextId = Timing.intMax then none
  else some ⟨m.nextId + 1, Function.update m.ids handler m.nextId⟩

/-- A sequence of `AddHandler` calls. -/
def SensorManager.addAll (m : SensorManager) : List Nat → Option SensorManager
  | [] => some m
  | h :: hs => (m.addHandler h).bind fun m => m.addAll hs

/-! ### Correction messages -/



/-- The core states that are read. -/
structure CoreState (R : Type) where
  p : V3 R
  v : V3 R
  q : Quat R
  b_w : V3 R
  b_a : V3 R

/-- Flags of `ExtEkf`, sensor_fusion_comm/msg/ExtEkf.msg. -/
inductive ExtFlag
  | initialization
  | stateCorrection
  deriving DecidableEq

section
variable {R : Type} [Field R] [LinearOrder R]

/-- The correction message of `PublishStateAfterUpdate`, msf_sensormanagerROS.h:243-317, for a
connected subscriber and a state that passes `CheckStateForNumeric`.  `hl` is
`hl_state_buf_.state`; `HLI_EKF_STATE_SIZE` is 16 (:43).  `none`: access behind the end of the buffer.  The fields of the message are
32 bit floats; rounding is not modelled. -/
def correctionMsg (playback : Bool) (hl : List R) (s : CoreState R) :
    Option ((Fin 16 → R) × ExtFlag) :=
  if playback then
    some (fun i => if i.val = 6 then 1 else 0, .initialization)
  else if h : hl.length < 16 then none
  else
    let b : Fin 16 → R := fun i => hl.get ⟨i, by have := i.2; omega⟩
    let hl_q : Quat R := ⟨b 6, b 7, b 8, b 9⟩
    let c := hl_q.inverse.mul s.q
    some (![s.p 0 - b 0, s.p 1 - b 1, s.p 2 - b 2,
      s.v 0 - b 3, s.v 1 - b 4, s.v 2 - b 5,
      c.w, c.x, c.y, c.z,
      s.b_w 0 - b 10, s.b_w 1 - b 11, s.b_w 2 - b 12,
      s.b_a 0 - b 13, s.b_a 1 - b 14, s.b_a 2 - b 15], .stateCorrection)

/-- `hl_state_buf_.state.resize(HLI_EKF_STATE_SIZE, 0)`, msf_sensormanagerROS.h:116: the buffer
until the first message of the external propagation. -/
def initialHlBuffer : List R := List.replicate 16 0

end

end MSF
