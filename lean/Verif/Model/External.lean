import Verif.Model.FilterKernel
import Verif.Model.Handlers

/-!
# External state propagation
(msf_core/include/msf_core/msf_IMUHandler_ROS.h, msf_sensormanagerROS.h)

A flight controller ("HL") may propagate position, velocity and attitude itself.  It sends its state
on `hl_state_input`; the filter takes it over and sends corrections back on `correction`.

The numbers of a message are `Option R`; `none` stands for NaN and the infinities.  The fields of a
message are 32 bit floats; rounding is not modelled.  `none` as the result of a callback stands for
undefined behaviour, in the core or by reading behind the end of a message.
-/

namespace MSF

/-- Message `ExtEkf` as received, sensor_fusion_comm/msg/ExtEkf.msg.  `header.seq` is not used. -/
structure ExtMsg (A W R : Type) where
  stamp : ℚ
  u : Input A W
  state : List (Option R)
  flag : Int

/-- `ExtEkf::ignore_state` and `ExtEkf::current_state`. -/
def ignoreState : Int := 0
def currentState : Int := 1

/-- Message `ExtEkf` as sent on `correction`; the inputs are zero. -/
structure CorrMsg (R : Type) where
  stamp : ℚ
  state : Fin 16 → Option R
  flag : ExtFlag

/-- Callbacks of the node: an initialization (from a service or a dynamic reconfigure callback of the
manager), an IMU message, an external state, a measurement that its handler gives to the core. -/
inductive RosCall (A W X C M R : Type) where
  | init (t : ℚ) (s : St A W X C)
  | imu (t : ℚ) (u : Input A W)
  | state (m : ExtMsg A W R)
  | meas (m : Meas M)

/-- What the callbacks need to know about the states of a filter: its core states (`none` if one of
them is not a number, `CheckStateForNumeric`, msf_state_inl.h:228-240) and how an external state is
made from position, velocity and attitude as received. -/
structure RosView (R X E : Type) where
  core : X → Option (CoreState R)
  ext : V3 R → V3 R → Quat R → E

/-- Settings: `data_playback_` and whether `correction` has subscribers. -/
structure RosConf where
  playback : Bool
  connected : Bool

/-- The manager (msf_sensormanagerROS.h:56-80) with its core, `hl_state_buf_.state` and the messages
sent on `correction`. -/
structure Ros (A W X C M T R : Type) where
  core : Core A W X C M T
  hl : List (Option R)
  sent : List (CorrMsg R)

section
variable {A W X C M T E R : Type}

/-- Three or four consecutive numbers, if they are numbers. -/
def num3 (f : Nat → Option R) (i : Nat) : Option (V3 R) := do
  some ![← f i, ← f (i + 1), ← f (i + 2)]

/-- See `num3`. -/
def num4 (f : Nat → Option R) (i : Nat) : Option (Quat R) := do
  some ⟨← f i, ← f (i + 1), ← f (i + 2), ← f (i + 3)⟩

/-- Entry `i` of the vector of numbers in a message, for `i` smaller than its length. -/
def msgEntry (l : List (Option R)) (i : Nat) : Option R := (l[i]?).getD none

/-- `StateCallback`, msf_IMUHandler_ROS.h:62-109: the call of `ProcessExternallyPropagatedState`.
`CheckForNumeric` looks at the first ten entries, and only if the flag says `current_state`.  The
quaternion is normalized (:94) in any case; a NaN that this gives has no effect unless the state is
used, so the normalization is part of `view.ext`. -/
def stateCallback (playback : Bool) (view : RosView R X E) (m : ExtMsg A W R) :
    Option (Api A W X C M E) :=
  if m.state.length < 10 then none
  else
    let flag := if playback then ignoreState else m.flag
    let e : Option E :=
      if flag = currentState then do
        let p ← num3 (msgEntry m.state) 0
        let v ← num3 (msgEntry m.state) 3
        let q ← num4 (msgEntry m.state) 6
        some (view.ext p v q)
      else none
    some (.ext m.stamp m.u e)

/-- The call of the core a callback makes.  `IMUCallback`, msf_IMUHandler_ROS.h:111-130, compares
sequence numbers only to warn. -/
def RosCall.toApi (playback : Bool) (view : RosView R X E) :
    RosCall A W X C M R → Option (Api A W X C M E)
  | .init t s => some (.init t s)
  | .imu t u => some (.imu t u)
  | .state m => stateCallback playback view m
  | .meas m => some (.meas m)

/-- The numbers of the core states in message order. -/
def CoreState.numbers (s : CoreState R) : Fin 16 → R :=
  ![s.p 0, s.p 1, s.p 2, s.v 0, s.v 1, s.v 2, s.q.w, s.q.x, s.q.y, s.q.z,
    s.b_w 0, s.b_w 1, s.b_w 2, s.b_a 0, s.b_a 1, s.b_a 2]

/-- The message of `PublishStateInitial`, msf_sensormanagerROS.h:186-213 (sent in any case). -/
def initialMsg (view : RosView R X E) (t : ℚ) (x : X) : CorrMsg R :=
  ⟨t, fun i => (view.core x).map fun s => s.numbers i, .initialization⟩

variable [Field R] [LinearOrder R]

/-- The attitude of the correction, msf_sensormanagerROS.h:288-295. -/
def corrQuat (hl : Nat → Option R) (s : CoreState R) : Option (Quat R) :=
  (num4 hl 6).map fun q => q.inverse.mul s.q

/-- The entries of a correction, msf_sensormanagerROS.h:267-315.  `correctionMsg` is the same for a
buffer of numbers. -/
def corrEntries (hl : Nat → Option R) (s : CoreState R) : Fin 16 → Option R :=
  fun i =>
    if i.val = 6 then (corrQuat hl s).map (·.w)
    else if i.val = 7 then (corrQuat hl s).map (·.x)
    else if i.val = 8 then (corrQuat hl s).map (·.y)
    else if i.val = 9 then (corrQuat hl s).map (·.z)
    else (hl i).map fun b => s.numbers i - b

/-- `PublishStateAfterUpdate`, msf_sensormanagerROS.h:238-328, the part about `correction`; the reads
of `hl_state_buf_.state` come before the check of the state. -/
def updateMsg (cfg : RosConf) (view : RosView R X E) (hl : List (Option R)) (t : ℚ) (x : X) :
    Option (List (CorrMsg R)) :=
  if cfg.connected = false then some []
  else if cfg.playback = false ∧ hl.length < 16 then none
  else
    match view.core x with
    | none => some []
    | some s =>
      if cfg.playback then some [⟨t, fun i => some (if i.val = 6 then 1 else 0), .initialization⟩]
      else some [⟨t, corrEntries (msgEntry hl) s, .stateCorrection⟩]

/-- What is sent on `correction` for what the core publishes. -/
def publish (cfg : RosConf) (view : RosView R X E) (hl : List (Option R)) :
    List (Event X C) → Option (List (CorrMsg R))
  | [] => some []
  | .initial t x _ :: es => (publish cfg view hl es).map fun ms => initialMsg view t x :: ms
  | .afterPropagation _ _ _ :: es => publish cfg view hl es
  | .afterUpdate t x _ :: es =>
    (updateMsg cfg view hl t x).bind fun m => (publish cfg view hl es).map fun ms => m ++ ms

/-- The node after its start; the buffer is `hl_state_buf_.state.resize(HLI_EKF_STATE_SIZE, 0)`,
msf_sensormanagerROS.h:116. -/
def Ros.new [Zero A] (K : Kernel A W X C M T E) : Ros A W X C M T R :=
  ⟨Core.new K, List.replicate 16 (some 0), []⟩

/-- `SetHLControllerStateBuffer`, msf_sensormanagerROS.h:160-162, called for every external state
(msf_IMUHandler_ROS.h:63-64), whatever it contains. -/
def RosCall.buffer (hl : List (Option R)) : RosCall A W X C M R → List (Option R)
  | .state m => m.state
  | _ => hl

/-- One callback; the buffer is set first. -/
def Ros.call [AddCommGroup A] [Module ℚ A] [AddCommGroup W] [Module ℚ W] (env : Env)
    (K : Kernel A W X C M T E) (view : RosView R X E) (cfg : RosConf) (m : Ros A W X C M T R)
    (o : RosCall A W X C M R) : Option (Ros A W X C M T R) :=
  (o.toApi cfg.playback view).bind fun a =>
    (Core.api env K m.core a).toOption.bind fun c =>
      (publish cfg view (o.buffer m.hl) (c.out.drop m.core.out.length)).map fun ms =>
        ⟨c, o.buffer m.hl, m.sent ++ ms⟩

/-- A sequence of callbacks. -/
def Ros.calls [AddCommGroup A] [Module ℚ A] [AddCommGroup W] [Module ℚ W] (env : Env)
    (K : Kernel A W X C M T E) (view : RosView R X E) (cfg : RosConf) :
    Ros A W X C M T R → List (RosCall A W X C M R) → Option (Ros A W X C M T R)
  | m, [] => some m
  | m, o :: os => (m.call env K view cfg o).bind fun m => m.calls env K view cfg os

end

/-! ### The shipped filters -/

section
variable {aux : List VarDesc}

/-- The core states of a filter. -/
def coreStateOf (s : Vars ℝ (coreDef aux)) : CoreState ℝ :=
  ⟨EKFState.p s, EKFState.v s, EKFState.q s, EKFState.b_w s, EKFState.b_a s⟩

/-- Position, velocity and normalized attitude; `none` if the attitude cannot be normalized. -/
noncomputable def filterView : RosView ℝ (Option (Values (coreDef aux))) (Option ExtState) where
  core x := x.map fun x => coreStateOf (toVars x)
  ext p v q := q.normalize.map fun q => ⟨p, v, q⟩

/-- The kernel of a filter that is fed with readings of the shipped sensors and external states. -/
noncomputable def rosKernel (np : NoiseParams ℝ (coreDef aux)) (uc : UserCalc (coreDef aux)) :
    Kernel (V3 ℝ) (V3 ℝ) (Option (Values (coreDef aux))) (Option (ErrMat ℝ (coreDef aux)))
      Reading (Tracker ℝ) (Option ExtState) :=
  let K := readingKernel np uc
  { prop := K.prop
    extProp := fun e x => e.bind fun e => K.extProp e x
    predP := K.predP
    update := K.update
    P0 := K.P0
    tr0 := K.tr0
    spike := K.spike
    numX := K.numX
    numPos := K.numPos }

end

end MSF
