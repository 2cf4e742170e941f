import Verif.Model.Quat

/-!
# Pose distortion (msf_updates/src/msf_distort/PoseDistorter.cc, pose_measurement.h)

The random number generator is not modelled: the numbers it returns are arguments (`Draw`).  For a
standard deviation of zero every draw is the configured mean.
-/

namespace MSF

/-- Members `posdrift_`, `attdrift_`, `scaledrift_` of `PoseDistorter`, PoseDistorter.h:33-35. -/
structure Distorter where
  posdrift : V3 ℝ
  attdrift : Quat ℝ
  scaledrift : ℝ

/-- What one call draws from `d_pos_`, `d_scale` and `d_att_`, PoseDistorter.h:40-42. -/
structure Draw where
  pos : V3 ℝ
  scale : ℝ
  att : V3 ℝ

namespace Distorter

/-- Constructor, PoseDistorter.cc:30-32.  The distributions are replaced by the draws. -/
def init : Distorter := ⟨0, Quat.one, 1⟩

/-- `Distort(pos, dt)`, PoseDistorter.cc:48-73: new drift and distorted position. -/
def distortPos (d : Distorter) (u : Draw) (dt : ℝ) (p : V3 ℝ) : Distorter × V3 ℝ :=
  let deltapos : V3 ℝ := fun i => u.pos i * dt
  let deltascale := u.scale * dt
  let posdrift := d.posdrift + deltapos
  let scaledrift := d.scaledrift + deltascale
  (⟨posdrift, d.attdrift, scaledrift⟩, fun i => (p + posdrift) i * scaledrift)

/-- `Distort(att, dt)`, PoseDistorter.cc:75-92.  `none` if the increment cannot be normalized. -/
noncomputable def distortAtt (d : Distorter) (u : Draw) (dt : ℝ) (q : Quat ℝ) :
    Option (Distorter × Quat ℝ) := do
  let rpydist : V3 ℝ := fun i => u.att i * dt
  let deltaquat ← (quatFromSmallAngle rpydist).normalize
  let attdrift := d.attdrift.mul deltaquat
  pure (⟨d.posdrift, attdrift, d.scaledrift⟩, q.mul attdrift)

/-- `Distort(pos, att, dt)`, PoseDistorter.cc:94-98. -/
noncomputable def distort (d : Distorter) (u : Draw) (dt : ℝ) (p : V3 ℝ) (q : Quat ℝ) :
    Option (Distorter × V3 ℝ × Quat ℝ) := do
  let (d₁, p') := d.distortPos u dt p
  let (d₂, q') ← d₁.distortAtt u dt q
  pure (d₂, p', q')

end Distorter

/-- What the pose handlers of a process share and own when they distort: the function-local static
`tlast` of `MakeFromSensorReadingImpl`, pose_measurement.h:67, and one distorter per handler,
pose_sensorhandler.hpp:124-126. -/
structure DistortState (ι : Type) where
  tlast : ℝ
  dist : ι → Distorter

/-- A pose message of handler `i`, with the numbers that are drawn for it. -/
structure PoseMsg (ι : Type) where
  sensor : ι
  time : ℝ
  pos : V3 ℝ
  att : Quat ℝ
  draw : Draw

namespace DistortState
variable {ι : Type} [DecidableEq ι]

/-- Start of the process: `static double tlast = 0`, new distorters. -/
def init : DistortState ι := ⟨0, fun _ => Distorter.init⟩

/-- pose_measurement.h:66-73: the distortion of a message while the measurement is built. -/
noncomputable def receive (s : DistortState ι) (m : PoseMsg ι) :
    Option (DistortState ι × V3 ℝ × Quat ℝ) :=
  if s.tlast ≠ 0 then do
    let dt := m.time - s.tlast
    let (d, p, q) ← (s.dist m.sensor).distort m.draw dt m.pos m.att
    pure (⟨m.time, Function.update s.dist m.sensor d⟩, p, q)
  else
    pure (⟨m.time, s.dist⟩, m.pos, m.att)

/-- A sequence of messages. -/
noncomputable def receiveAll (s : DistortState ι) : List (PoseMsg ι) →
    Option (DistortState ι × List (V3 ℝ × Quat ℝ))
  | [] => some (s, [])
  | m :: ms => do
    let (s₁, p, q) ← s.receive m
    let (s₂, rest) ← receiveAll s₁ ms
    pure (s₂, (p, q) :: rest)

end DistortState

end MSF
