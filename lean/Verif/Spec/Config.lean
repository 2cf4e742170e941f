import Verif.Model.Config

/-!
# What the configuration asks for
-/

namespace MSF

section
variable {R : Type} [Field R]

/-- The delay of a sensor in the configuration; there is none for the pressure sensor. -/
def Cfg.delay (cfg : Cfg R) : SensorKind → R
  | .pose => cfg.pose_delay
  | .position => cfg.position_delay
  | .pressure => 0
  | .angle => cfg.angle_delay
  | .distance => cfg.distance_delay

/-- The noises of a sensor in the configuration. -/
def Cfg.noises (cfg : Cfg R) : SensorKind → List R
  | .pose => [cfg.pose_noise_meas_p, cfg.pose_noise_meas_q]
  | .position => [cfg.position_noise_meas]
  | .pressure => [cfg.press_noise_meas_p]
  | .angle => [cfg.angle_noise_meas]
  | .distance => [cfg.distance_noise_meas]

/-- Whether a sensor is asked to leave a state variable alone. -/
def Cfg.isFixed (cfg : Cfg R) : SensorKind → FixedVar → Bool
  | .pose, .L => cfg.pose_fixed_scale
  | .pose, .q_ic => cfg.pose_fixed_q_ic
  | .pose, .p_ic => cfg.pose_fixed_p_ic
  | .pose, .q_wv => cfg.pose_fixed_q_wv
  | .pose, .p_wv => cfg.pose_fixed_p_wv
  | .position, .p_ip => cfg.fixed_p_ip
  | .angle, .p_ip => cfg.fixed_p_ip
  | .distance, .p_ip => cfg.fixed_p_ip
  | _, _ => false

/-- Configuration events. -/
def NodeEvent.isConfig : NodeEvent R → Bool
  | .config .. => true
  | _ => false

/-- Pose messages. -/
def NodeEvent.isPose : NodeEvent R → Bool
  | .msg (.pose ..) => true
  | _ => false

/-- The measurements among what goes to the core. -/
def ToCore.made? : ToCore R → Option (Made R)
  | .meas m => some m
  | .init _ => none

end

/-- IMU readings and external states that arrive. -/
def NodeInput.inertial {A W R B : Type} (X C M : Type) : NodeInput A W R B → Option (RosCall A W X C M R)
  | .node .. => none
  | .imu t u => some (.imu t u)
  | .state m => some (.state m)

/-- Callbacks of the IMU handler. -/
def RosCall.isInertial {A W X C M R : Type} : RosCall A W X C M R → Bool
  | .imu .. => true
  | .state _ => true
  | _ => false

end MSF
