import Verif.Model.Eval

/-!
# Specification of the trajectory evaluation
-/

namespace MSF
open Matrix
namespace Eval

/-- What should be compared: every ground truth message at least `offset` after the start, with the
first estimate that is not before it. -/
def pairs (start offset : ℚ) (gs : List GtMsg) (es : List EvalMsg) : List (GtMsg × EvalMsg) :=
  gs.filterMap fun g => if offset ≤ g.stamp - start then
    (es.find? fun e => g.stamp ≤ e.time).map fun e => (g, e) else none

/-- Length of a polygon. -/
noncomputable def pathLength : List (V3 ℝ) → ℝ
  | a :: b :: l => norm3 (b - a) + pathLength (b :: l)
  | _ => 0

/-- The frame alignment for which a pair matches: estimate = alignment * ground truth * calibration⁻¹. -/
def alignment (b : Trafo) (p : GtMsg × EvalMsg) : Trafo := (p.2.pose.mul b).mul p.1.pose.inv

/-- The ground truth seen in the frames of the estimate. -/
def expectedPose (a b : Trafo) (g : GtMsg) : Trafo := (a.mul g.pose).mul b.inv

/-- Rotation angle of a unit quaternion. -/
noncomputable def angle (q : Quat ℝ) : ℝ := 2 * Real.arccos (min 1 |q.w|)

/-- Angle between the vertical axis and its image. -/
noncomputable def tilt (q : Quat ℝ) : ℝ :=
  Real.arccos (min 1 (![0, 0, 1] ⬝ᵥ (q.toRot *ᵥ ![0, 0, 1])))

end Eval
end MSF
