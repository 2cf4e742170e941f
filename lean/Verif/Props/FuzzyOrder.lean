import Verif.Model.Fuzzy
import Verif.Spec.Batch
import Verif.Props.Batch

/-!
# Fuzzy tracking and the arrival order of measurements
-/

namespace MSF.FuzzyOrder
open MSF Spec

/-- One non-drifting attitude, as `q_wv` of the pose filters. -/
def D : List VarDesc := [⟨.quat, 0, .auxNonDrift, 0⟩]

/-- State variables holding the attitude `q`. -/
def vars (q : Quat ℚ) : Vars ℚ D := fun
  | ⟨0, _⟩ => ⟨q, 0, false⟩

/-- A filter for the attitude alone: it is constant, a measurement replaces it, and then
`CheckFuzzyTracking::Check` runs as in `ApplyCorrection` (msf_core_inl.h:592-593). -/
def K : Kernel ℚ ℚ (Quat ℚ) ℚ (Quat ℚ) (Tracker ℚ) Unit where
  prop _ _ x _ := x
  extProp _ x := x
  predP _ P _ _ := P
  update tr z x P :=
    match fuzzyCheck' tr (vars z) (vars x) (1 / 10) with
    | some (tr', s, f) => ⟨tr', (s ⟨0, by decide⟩).val, P, true, f⟩
    | none => ⟨tr, x, P, true, false⟩
  P0 := 0
  tr0 := Tracker.reset
  spike a := decide (50 < |a|)
  numX _ := true
  numPos _ := true

def imus : List (Op ℚ ℚ (Quat ℚ)) :=
  [1, 2, 3, 4].map fun i : ℚ => .imu (1 + i / 10) ⟨0, 0⟩

/-- Eight measurements of the identity, 10 ms apart, between the last two IMU readings. -/
def level : List (Op ℚ ℚ (Quat ℚ)) :=
  (List.range 8).map fun i => .meas ⟨13/10 + (2 + 10 * (i : ℚ)) / 1000, 0, ⟨1, 0, 0, 0⟩⟩

/-- One newer measurement of another attitude (a rotation of about 37 degrees). -/
def tilted : Op ℚ ℚ (Quat ℚ) := .meas ⟨1395/1000, 0, ⟨4/5, 3/5, 0, 0⟩⟩

def env : Env := ⟨.gnu fun _ _ => false, .gnu fun _ _ => false⟩
def s0 : St ℚ ℚ (Quat ℚ) ℚ := ⟨⟨0, 0⟩, ⟨1, 0, 0, 0⟩, 1⟩
def c0 : Core ℚ ℚ (Quat ℚ) ℚ (Quat ℚ) (Tracker ℚ) := Core.new K

def lastX (r : Except UB (Core ℚ ℚ (Quat ℚ) ℚ (Quat ℚ) (Tracker ℚ))) : Option (Quat ℚ) :=
  match r with
  | .ok c => c.states.nodes.getLast?.map fun n => n.val.x
  | .error _ => none

/-- The calls with the measurements in time order. -/
def inOrder : List (Op ℚ ℚ (Quat ℚ)) := imus ++ (level ++ [tilted])

/-- The same calls, the eight older measurements arriving newest first. -/
def lateFirst : List (Op ℚ ℚ (Quat ℚ)) := imus ++ (level.reverse ++ [tilted])

/-- **The arrival order matters in filters with a non-drifting attitude.**  Both runs are
admissible in the sense of C09, have the same IMU readings and the same measurements, none of which is
ever rejected by an outlier test, and leave no measurement waiting.  In time order the filter ends
with the last measured attitude; in the other order the older measurements were re-applied until the
window of the fuzzy-tracking check was full, and the last measurement is undone.  The kernel differs
from those of C09 only in that its update reads the window. -/
theorem C74_arrival_order_violated :
    (∀ tr m x P, (K.update tr m x P).applied = true) ∧
    (startLog 1 s0.u c0.lastAmImu).okRun K.spike (fun _ => true) inOrder ∧
    (startLog 1 s0.u c0.lastAmImu).okRun K.spike (fun _ => true) lateFirst ∧
    imuOps inOrder = imuOps lateFirst ∧
    ((startLog 1 s0.u c0.lastAmImu).counted K.spike inOrder).Perm
      ((startLog 1 s0.u c0.lastAmImu).counted K.spike lateFirst) ∧
    ((startLog 1 s0.u c0.lastAmImu).run K.spike inOrder).queue = [] ∧
    ((startLog 1 s0.u c0.lastAmImu).run K.spike lateFirst).queue = [] ∧
    lastX (Core.calls env K (c0.init K 1 s0) inOrder) = some ⟨4/5, 3/5, 0, 0⟩ ∧
    lastX (Core.calls env K (c0.init K 1 s0) lateFirst) = some ⟨1, 0, 0, 0⟩ := by
  refine ⟨fun tr m x P => ?_, ?_⟩
  · simp only [K]
    cases fuzzyCheck' tr (vars m) (vars x) (1 / 10) <;> rfl
  · decide +kernel

/-- With the window still empty an update is the plain one: the runs differ by the window only. -/
example (z x : Quat ℚ) : (K.update Tracker.reset z x 1).x = z := rfl

end MSF.FuzzyOrder
