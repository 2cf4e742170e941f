import Mathlib.Data.List.Basic

/-!
# The relay node of msf_distort (msf_distort/src/msf_distort.cc)

Despite its name the node does not distort messages; it passes them on or holds them back.
-/

namespace MSF

/-- The five topics of the node, with an input and an output each, msf_distort.cc:39-51 and :106-118. -/
inductive RelayTopic
  | poseWithCovariance
  | transform
  | pose
  | navSatFix
  | point
  deriving DecidableEq, Repr

/-- `MSF_DistortConfig`, msf_distort/cfg/MSF_Distort.cfg:46-47. -/
structure RelayConfig where
  publishPose : Bool
  publishPosition : Bool
  deriving DecidableEq, Repr

/-- Default values, MSF_Distort.cfg:46-47. -/
def RelayConfig.default : RelayConfig := ⟨true, true⟩

/-- What the node gets: a new configuration or a message of a topic.  The type of the content depends on the
topic. -/
inductive RelayEvent (M : RelayTopic → Type)
  | config (c : RelayConfig)
  | msg (t : RelayTopic) (m : M t)

variable {M : RelayTopic → Type}

/-- The five overloads of `MeasurementCallback`, msf_distort.cc:57-86: the message that is published and the
topic it is published on. -/
def relayCallback (c : RelayConfig) : (t : RelayTopic) → M t → Option (Sigma M)
  | .poseWithCovariance, m => if c.publishPose then some ⟨.poseWithCovariance, m⟩ else none
  | .transform, m => if c.publishPose then some ⟨.transform, m⟩ else none
  | .pose, m => if c.publishPose then some ⟨.pose, m⟩ else none
  | .navSatFix, m => if c.publishPosition then some ⟨.navSatFix, m⟩ else none
  | .point, m => if c.publishPosition then some ⟨.point, m⟩ else none

/-- `ros::spin()`, msf_distort.cc:134, with the callbacks of the node: what is published, in order.  `c` is the
member `config_`; `setCallback` (:104) sets it before the node subscribes.  Messages that ROS drops because a
queue is full are not part of the list. -/
def relayRun (c : RelayConfig) : List (RelayEvent M) → List (Sigma M)
  | [] => []
  | .config c' :: es => relayRun c' es
  | .msg t m :: es => (relayCallback c t m).toList ++ relayRun c es

end MSF
