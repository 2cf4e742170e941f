import Verif.Spec.Process
import Mathlib.Tactic.FinCases
import Mathlib.Tactic.Module

/-!
# The blocks of the third-order noise expansion
-/

namespace MSF

open Matrix

variable {R : Type} [Field R] [CharZero R]

/-- The blocks of `lyap3` for the error dynamics and a block-diagonal noise density. -/
def lyapBlocks (C : M33 R) (w a : V3 R) (N A W B : M33 R) (dt : R) : BM R :=
  let S := C * skew a
  let k := skew w
  !![(dt ^ 3 / 3) • N, (dt ^ 2 / 2) • N, -(dt ^ 3 / 6) • (S * W), 0, -(dt ^ 3 / 6) • (C * A);
     (dt ^ 2 / 2) • N, dt • N + (dt ^ 3 / 3) • (S * W * Sᵀ + C * A * Cᵀ),
       -(dt ^ 2 / 2) • (S * W) + (dt ^ 3 / 6) • (S * k * W) + (dt ^ 3 / 3) • (S * W * kᵀ),
       (dt ^ 3 / 6) • (S * B), -(dt ^ 2 / 2) • (C * A);
     -(dt ^ 3 / 6) • (W * Sᵀ),
       -(dt ^ 2 / 2) • (W * Sᵀ) + (dt ^ 3 / 6) • (W * kᵀ * Sᵀ) + (dt ^ 3 / 3) • (k * W * Sᵀ),
       dt • W - (dt ^ 2 / 2) • (k * W + W * kᵀ) +
         (dt ^ 3 / 6) • (k * k * W + (2 : R) • (k * W * kᵀ) + (2 : R) • B + W * kᵀ * kᵀ),
       -(dt ^ 2 / 2) • B + (dt ^ 3 / 6) • (k * B), 0;
     0, (dt ^ 3 / 6) • (B * Sᵀ), -(dt ^ 2 / 2) • B + (dt ^ 3 / 6) • (B * kᵀ), dt • B, 0;
     -(dt ^ 3 / 6) • (A * Cᵀ), -(dt ^ 2 / 2) • (A * Cᵀ), 0, 0, dt • A]

set_option maxHeartbeats 2000000 in
theorem lyap_blocks (C : M33 R) (w a : V3 R) (N A W B : M33 R) (dt : R) :
    lyap3 (errDyn C w a) (diagonal ![0, N, W, B, A]) dt = lyapBlocks C w a N A W B dt := by
  have h : bT (errDyn C w a) = !![0,0,0,0,0; 1,0,0,0,0; 0, -(C * skew a)ᵀ, -(skew w)ᵀ, 0, 0; 0,0,-1,0,0;0,-Cᵀ,0,0,0] := by
    refine Matrix.ext fun b b' => ?_
    fin_cases b <;> fin_cases b' <;> simp [bT, errDyn]
  have hd : (diagonal ![0, N, W, B, A] : BM R) = !![0,0,0,0,0; 0,N,0,0,0; 0,0,W,0,0; 0,0,0,B,0; 0,0,0,0,A] := by
    refine Matrix.ext fun b b' => ?_
    fin_cases b <;> fin_cases b' <;> simp [diagonal]
  unfold lyap3
  rw [h, hd]
  unfold errDyn lyapBlocks
  generalize C * skew a = S
  generalize skew w = k
  refine Matrix.ext fun b b' => ?_
  fin_cases b <;> fin_cases b' <;> simp [Matrix.vecHead, Matrix.vecTail, mul_assoc] <;> try module

end MSF
