import Verif.Model.Quat
import Mathlib.Analysis.SpecialFunctions.Trigonometric.Inverse

/-!
# Trajectory evaluation (msf_eval/src/msf_eval.cpp)

The bag is given by the list of its estimate messages and the list of its ground truth messages, in
bag order.  `sm::kinematics::Transformation` is not part of the repository; it is modelled as a unit
quaternion and a translation that compose like rigid transformations.  The evaluation negates the
vector part of the message quaternions (it stores JPL quaternions), so that the rotation matrix of the
transformation is the one of the message quaternion.  Time stamps and durations are rationals.
Console output and the two lists `poses_EVAL`, `poses_GT` of plotted positions are left out.
-/

namespace MSF

open Matrix

/-- `sm::kinematics::Transformation`: rotation and translation. -/
@[ext] structure Trafo where
  q : Quat ℝ
  t : V3 ℝ

namespace Trafo

/-- `Transformation::operator*`. -/
def mul (a b : Trafo) : Trafo := ⟨a.q.mul b.q, a.q.toRot *ᵥ b.t + a.t⟩

/-- `Transformation::inverse()`. -/
def inv (a : Trafo) : Trafo := ⟨a.q.conj, -(a.q.conj.toRot *ᵥ a.t)⟩

/-- `Transformation(T.q().normalized(), T.t())`, msf_eval.cpp:275-276. -/
noncomputable def normalized (a : Trafo) : Option Trafo := do
  let q ← a.q.normalize
  pure ⟨q, a.t⟩

end Trafo

namespace Eval

/-- `geometry_msgs::PoseWithCovarianceStamped`: stamp, pose, diagonal of the covariance. -/
structure EvalMsg where
  time : ℚ
  pose : Trafo
  cov : Fin 6 → ℝ

/-- `geometry_msgs::TransformStamped`: stamp and transform. -/
structure GtMsg where
  time : ℚ
  pose : Trafo

/-- One line of the output file, msf_eval.cpp:319-323. -/
structure Row where
  time : ℚ
  ds : ℝ
  transErr : ℝ
  rotErr : ℝ
  zErr : ℝ
  cov : Fin 6 → ℝ

/-- `dt`, msf_eval.cpp:87: added to the stamps of the ground truth. -/
def gtShift : ℚ := 39 / 10000
/-- `timeSyncThreshold`, msf_eval.cpp:88. -/
def syncThreshold : ℚ := 5 / 1000
/-- `timeDiscretization`, msf_eval.cpp:89. -/
def startStep : ℚ := 10
/-- `trajectoryTimeDiscretization`, msf_eval.cpp:90. -/
def rowStep : ℚ := 49 / 1000
/-- `startTimeOffset`, msf_eval.cpp:91. -/
def startOffset₀ : ℚ := 10

/-- `time_GT`, msf_eval.cpp:180 and 224. -/
def GtMsg.stamp (g : GtMsg) : ℚ := g.time + gtShift

/-- Time alignment, msf_eval.cpp:175-205: skips the ground truth that is not later than the first
estimate.  `none`: "Time synchronization failed". -/
def align (t₀ : ℚ) : List GtMsg → Option (List GtMsg)
  | [] => none
  | g :: gs => if g.stamp ≤ t₀ then align t₀ gs else some (g :: gs)

/-- `while (time_GT > time_EKF)`, msf_eval.cpp:233-248.  The iterator is the rest of the list; the
empty result is `terminate`. -/
def seek (tg : ℚ) : List EvalMsg → List EvalMsg
  | [] => []
  | e :: es => if e.time < tg then seek tg es else e :: es

/-- Variables of one run, msf_eval.cpp:207-214. -/
structure Vars where
  ctr : Nat
  ds : ℝ
  lastTime : ℚ
  gtLast : Trafo
  align : Trafo

/-- Initial values, msf_eval.cpp:207-214 (default constructed transformations are the identity). -/
def Vars.init : Vars := ⟨0, 0, 0, ⟨Quat.one, 0⟩, ⟨Quat.one, 0⟩⟩

/-- `Vector3d::norm()`. -/
noncomputable def norm3 (v : V3 ℝ) : ℝ := Real.sqrt (sqNorm3 v)

/-- Comparison of one pair, msf_eval.cpp:251-330.  `b` is the calibration `T_BaBg`.  `none` if a
quaternion cannot be normalized. -/
noncomputable def compare (b : Trafo) (start : ℚ) (g : GtMsg) (e : EvalMsg) (v : Vars) :
    Option (Vars × List Row) := do
  let waBa := e.pose
  let wgBg := g.pose
  let waWg := if v.ctr = 0 then (waBa.mul b).mul wgBg.inv else v.align
  let gtLast := if v.ctr = 0 then wgBg else v.gtLast
  let dT ← (waBa.mul (((waWg.mul wgBg).mul b.inv).inv)).normalized
  let waBaGt ← ((waWg.mul wgBg).mul b.inv).normalized
  let ds := v.ds + norm3 (wgBg.t - gtLast.t)
  let ez : V3 ℝ := ![0, 0, 1]
  let ez' := dT.q.toRot *ᵥ ez
  let zErr := Real.arccos (min 1 (ez ⬝ᵥ ez'))
  if |g.stamp - e.time| < syncThreshold ∧ e.time - v.lastTime > rowStep then
    pure (⟨v.ctr + 1, ds, e.time, wgBg, waWg⟩,
      [⟨g.stamp - start, ds, norm3 (waBa.t - waBaGt.t), 2 * Real.arccos (min 1 |dT.q.w|), zErr, e.cov⟩])
  else
    pure (⟨v.ctr + 1, ds, v.lastTime, wgBg, waWg⟩, [])

/-- Loop over the ground truth, msf_eval.cpp:218-333: final variables and the rows written. -/
noncomputable def loop (b : Trafo) (start offset : ℚ) :
    List GtMsg → List EvalMsg → Vars → Option (Vars × List Row)
  | [], _, v => some (v, [])
  | g :: gs, es, v =>
    match seek g.stamp es with
    | [] => some (v, [])
    | e :: es' =>
      if offset ≤ g.stamp - start then do
        let (v₁, r₁) ← compare b start g e v
        let (v₂, r₂) ← loop b start offset gs (e :: es') v₁
        pure (v₂, r₁ ++ r₂)
      else loop b start offset gs (e :: es') v

/-- How the program ends. -/
inductive Outcome
  /-- "Time synchronization failed" or a topic is empty. -/
  | failed
  /-- The rows of the runs from the different start points. -/
  | done (runs : List (List Row))

/-- The runs from different starting points, msf_eval.cpp:165-345, for at most `fuel` of them.
`none`: a quaternion could not be normalized or the fuel is used up. -/
noncomputable def runs (b : Trafo) (single : Bool) (start : ℚ) (gs : List GtMsg) (es : List EvalMsg) :
    Nat → ℚ → Option (List (List Row))
  | 0, _ => none
  | fuel + 1, offset => do
    let (v, rows) ← loop b start offset gs es Vars.init
    if v.ctr = 0 ∨ single then pure [rows]
    else
      let rest ← runs b single start gs es fuel (offset + startStep)
      pure (rows :: rest)

/-- `main`, msf_eval.cpp:137-345. -/
noncomputable def main (b : Trafo) (single : Bool) (gts : List GtMsg) (es : List EvalMsg) (fuel : Nat) :
    Option Outcome :=
  match es with
  | [] => some .failed
  | e₀ :: _ =>
    match align e₀.time gts with
    | none => some .failed
    | some [] => some .failed
    | some (g :: gs) => (runs b single g.stamp (g :: gs) es fuel startOffset₀).map .done

end Eval

end MSF
