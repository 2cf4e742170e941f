import Verif.Model.Core

/-!
# A small concrete filter used by the examples and counterexamples

Scalar position with rational covariance; the update is the scalar Kalman update.  The examples run
the model on it; no property theorem is about this kernel alone, except the counterexamples.
-/

namespace MSF.Demo
open MSF

/-- Scalar filter that never rejects. -/
def K : Kernel ℚ ℚ ℚ ℚ ℚ Unit Unit where
  prop dt uo x un := x + dt * ((uo.a + un.a) / 2)
  extProp _ x := x
  predP dt P _ _ := P + dt
  update _ m x P := ⟨(), x + P / (P + 1) * (m - x), P / (P + 1), true, false⟩
  P0 := 0
  tr0 := ()
  spike a := decide (50 < |a|)
  numX _ := true
  numPos _ := true

/-- The same filter with an outlier test: measurements more than 10 away are rejected. -/
def Kout : Kernel ℚ ℚ ℚ ℚ ℚ Unit Unit :=
  { K with update := fun _ m x P =>
      if |m - x| > 10 then ⟨(), x, P, false, false⟩
      else ⟨(), x + P / (P + 1) * (m - x), P / (P + 1), true, false⟩ }

/-- The filter before `Init`. -/
def c0 : Core ℚ ℚ ℚ ℚ ℚ Unit := Core.new K

/-- Initial state. -/
def s0 : St ℚ ℚ ℚ ℚ := ⟨⟨0, 0⟩, 0, 1⟩

/-- libstdc++ with some tree shape. -/
def env : Env := ⟨.gnu fun _ _ => false, .gnu fun _ _ => false⟩

def imu (t a : ℚ) : Op ℚ ℚ ℚ := .imu t ⟨a, 0⟩
def meas (t z : ℚ) : Op ℚ ℚ ℚ := .meas ⟨t, 0, z⟩

/-- Observable contents of a result: times, means and covariances of the buffered states. -/
def view (r : Except UB (Core ℚ ℚ ℚ ℚ ℚ Unit)) : Option (List (ℚ × ℚ × ℚ)) :=
  match r with
  | .ok c => some (c.states.nodes.map fun n => (n.key, n.val.x, n.val.P))
  | .error _ => none

/-- Whether undefined behaviour is reached, and which. -/
def ub (r : Except UB (Core ℚ ℚ ℚ ℚ ℚ Unit)) : Option UB :=
  match r with
  | .ok _ => none
  | .error e => some e

end MSF.Demo
