import Verif.Model.Covariance

/-!
# Messages about a state
(implementation/msf_state_inl.h:111-160, msf_sensormanagerROS.h:215-385)

What the manager sends when the core publishes a state.  The messages on `correction` are in
`Model/External.lean`.  Sequence numbers and frame names are not modelled.  `none` as a result is
undefined behaviour.
-/

namespace MSF

open Matrix

/-- The topics, msf_sensormanagerROS.h:98-114, and the broadcast transform. -/
inductive Topic where
  | pose | odometry | extState | stateOut | poseAfterUpdate | tf | covCore | covAux | covCoreAux
  deriving DecidableEq

/-- What a message contains: `PoseWithCovarianceStamped`, `Odometry`, `ExtState`,
`DoubleArrayStamped`, a transform, `DoubleMatrixStamped` (rows, columns, data). -/
inductive Content (R : Type) where
  | pose (p : V3 R) (q : Quat R) (cov : Fin 36 → R)
  | odometry (p : V3 R) (q : Quat R) (cov : Fin 36 → R) (linear angular : V3 R)
      (twistCov : Fin 36 → R)
  | ext (p : V3 R) (q : Quat R) (v : V3 R)
  | array (data : List R)
  | transform (p : V3 R) (q : Quat R)
  | matrix (rows cols : Nat) (data : List R)

/-- A message; `stamp` is `header.stamp`. -/
structure OutMsg (R : Type) where
  topic : Topic
  stamp : R
  content : Content R

section
variable {R : Type} [Field R] [LinearOrder R] {aux : List VarDesc}

/-- `ToPoseMsg`, msf_state_inl.h:111-120.  The arrays of a new message are zero. -/
def toPoseMsg (s : EKFState R (coreDef aux)) : Option (Content R) := do
  let cov ← getPoseCovariance 0 2 s.P 0
  some (.pose (EKFState.p s.vars) (EKFState.q s.vars) cov)

/-- `ToOdometryMsg`, msf_state_inl.h:125-149.  `ng` is the member `noise_gyr`, `junk` an uninitialised
local matrix. -/
def toOdometryMsg (ng : V3 R) (junk : Matrix (Fin 6) (Fin 6) R) (s : EKFState R (coreDef aux)) :
    Option (Content R) := do
  let cov ← getPoseCovariance 0 2 s.P 0
  let vI := (EKFState.q s.vars).inverse.toRot *ᵥ EKFState.v s.vars
  let twist ← getTwistCovariance s.vars s.P ng junk 0
  some (.odometry (EKFState.p s.vars) (EKFState.q s.vars) cov vI (s.w_m - EKFState.b_w s.vars) twist)

/-- `ToExtStateMsg`, msf_state_inl.h:153-162. -/
def toExtStateMsg (s : EKFState R (coreDef aux)) : Content R :=
  .ext (EKFState.p s.vars) (EKFState.q s.vars) (EKFState.v s.vars)

/-- `PublishStateAfterPropagation`, msf_sensormanagerROS.h:209-237: all three topics if any of them
has subscribers. -/
def publishPropagation (subs : Topic → Bool) (ng : V3 R) (junk : Matrix (Fin 6) (Fin 6) R)
    (s : EKFState R (coreDef aux)) : Option (List (OutMsg R)) := do
  if subs .extState || subs .pose || subs .odometry then
    let m ← toPoseMsg s
    let o ← toOdometryMsg ng junk s
    some [⟨.pose, s.time, m⟩, ⟨.odometry, s.time, o⟩, ⟨.extState, s.time, toExtStateMsg s⟩]
  else some []

/-- A message that is sent if its topic has subscribers. -/
def ifSubscribed (subs : Topic → Bool) (t : Topic) (stamp : R) (c : Option (Content R)) :
    Option (List (OutMsg R)) :=
  if subs t then c.map fun c => [⟨t, stamp, c⟩] else some []

/-- `PublishStateAfterUpdate`, msf_sensormanagerROS.h:329-385, the part after the correction.
`state_out` and the transform are sent in any case; the transform has the time `now` of the
computer (L359). -/
def publishUpdate (subs : Topic → Bool) (now : R) (s : EKFState R (coreDef aux)) :
    Option (List (OutMsg R)) := do
  let full ← toFullStateMsg s.vars
  let m ← ifSubscribed subs .poseAfterUpdate s.time (toPoseMsg s)
  let c ← ifSubscribed subs .covCore s.time
    ((getCoreCovariance s.P).map fun d => .matrix d.1 d.2.1 d.2.2)
  let a ← ifSubscribed subs .covAux s.time
    ((getAuxCovariance s.P).map fun d => .matrix d.1 d.2.1 d.2.2)
  let x ← ifSubscribed subs .covCoreAux s.time
    ((getCoreAuxCovariance s.P).map fun d => .matrix d.1 d.2.1 d.2.2)
  some (⟨.stateOut, s.time, .array full⟩ :: m ++
    ⟨.tf, now, .transform (EKFState.p s.vars) (EKFState.q s.vars)⟩ :: c ++ a ++ x)

end

end MSF
