import Verif.Lemmas.CalcQ
import Verif.Lemmas.Lyap
import Mathlib.Tactic.LinearCombination

/-!
# `CalcQCore` against the noise expansion, block by block

Two families of inputs: no gyro noise, and no body rate and specific force.
-/

namespace MSF

open Matrix CalcQ

section
variable {R : Type} [Field R]

/-- Rotation matrix of a quaternion in homogeneous form. -/
def hrot (q : Quat R) : M33 R :=
  !![q.w * q.w + q.x * q.x - q.y * q.y - q.z * q.z, 2 * (q.x * q.y - q.w * q.z),
       2 * (q.x * q.z + q.w * q.y);
     2 * (q.x * q.y + q.w * q.z), q.w * q.w - q.x * q.x + q.y * q.y - q.z * q.z,
       2 * (q.y * q.z - q.w * q.x);
     2 * (q.x * q.z - q.w * q.y), 2 * (q.y * q.z + q.w * q.x),
       q.w * q.w - q.x * q.x - q.y * q.y + q.z * q.z]

theorem toRot_hom (q : Quat R) (h : q.normSq = 1) : q.toRot = hrot q := by
  simp only [Quat.normSq] at h
  ext i j
  fin_cases i <;> fin_cases j <;> simp [Quat.toRot, hrot] <;>
    first | ring1 | linear_combination h | linear_combination -h

theorem hrot_00 (q : Quat R) :
    hrot q 0 0 = q.w * q.w + q.x * q.x - q.y * q.y - q.z * q.z := rfl
theorem hrot_01 (q : Quat R) : hrot q 0 1 = 2 * (q.x * q.y - q.w * q.z) := rfl
theorem hrot_02 (q : Quat R) : hrot q 0 2 = 2 * (q.x * q.z + q.w * q.y) := rfl
theorem hrot_10 (q : Quat R) : hrot q 1 0 = 2 * (q.x * q.y + q.w * q.z) := rfl
theorem hrot_11 (q : Quat R) :
    hrot q 1 1 = q.w * q.w - q.x * q.x + q.y * q.y - q.z * q.z := rfl
theorem hrot_12 (q : Quat R) : hrot q 1 2 = 2 * (q.y * q.z - q.w * q.x) := rfl
theorem hrot_20 (q : Quat R) : hrot q 2 0 = 2 * (q.x * q.z - q.w * q.y) := rfl
theorem hrot_21 (q : Quat R) : hrot q 2 1 = 2 * (q.y * q.z + q.w * q.x) := rfl
theorem hrot_22 (q : Quat R) :
    hrot q 2 2 = q.w * q.w - q.x * q.x - q.y * q.y + q.z * q.z := rfl

theorem conj_diag_apply (C : M33 R) (d : V3 R) (i j : Fin 3) :
    (C * diagonal d * Cᵀ) i j = C i 0 * d 0 * C j 0 + C i 1 * d 1 * C j 1 + C i 2 * d 2 * C j 2 := by
  simp [mul_apply, Fin.sum_univ_three, diagonal]

theorem diag_00 (d : V3 R) : (diagonal d : M33 R) 0 0 = d 0 := rfl
theorem diag_11 (d : V3 R) : (diagonal d : M33 R) 1 1 = d 1 := rfl
theorem diag_22 (d : V3 R) : (diagonal d : M33 R) 2 2 = d 2 := rfl
theorem diag_01 (d : V3 R) : (diagonal d : M33 R) 0 1 = 0 := rfl
theorem diag_02 (d : V3 R) : (diagonal d : M33 R) 0 2 = 0 := rfl
theorem diag_10 (d : V3 R) : (diagonal d : M33 R) 1 0 = 0 := rfl
theorem diag_12 (d : V3 R) : (diagonal d : M33 R) 1 2 = 0 := rfl
theorem diag_20 (d : V3 R) : (diagonal d : M33 R) 2 0 = 0 := rfl
theorem diag_21 (d : V3 R) : (diagonal d : M33 R) 2 1 = 0 := rfl

/-- The expansion when gyro noise does not reach velocity and position. -/
def simpleQ (C : M33 R) (na nba nw nbw : V3 R) (dt : R) : BM R :=
  let N := C * diagonal (fun i => na i ^ 2) * Cᵀ
  let A : M33 R := diagonal (fun i => nba i ^ 2)
  let W : M33 R := diagonal (fun i => nw i ^ 2)
  let B : M33 R := diagonal (fun i => nbw i ^ 2)
  !![(dt ^ 3 / 3) • N, (dt ^ 2 / 2) • N, 0, 0, -(dt ^ 3 / 6) • (C * A);
     (dt ^ 2 / 2) • N, dt • N + (dt ^ 3 / 3) • (C * A * Cᵀ), 0, 0, -(dt ^ 2 / 2) • (C * A);
     0, 0, dt • W + (dt ^ 3 / 3) • B, -(dt ^ 2 / 2) • B, 0;
     0, 0, -(dt ^ 2 / 2) • B, dt • B, 0;
     -(dt ^ 3 / 6) • (A * Cᵀ), -(dt ^ 2 / 2) • (A * Cᵀ), 0, 0, dt • A]

/-- Compare a block entry by entry. -/
macro "blk_entries" : tactic => `(tactic| (
  ext i j
  simp only [Matrix.add_apply, Matrix.smul_apply, conj_diag_apply, mul_diagonal, diagonal_mul,
    transpose_apply, Matrix.zero_apply]
  fin_cases i <;> fin_cases j <;>
    simp only [hrot_00, hrot_01, hrot_02, hrot_10, hrot_11, hrot_12, hrot_20, hrot_21, hrot_22,
      diag_00, diag_01, diag_02, diag_10, diag_11, diag_12, diag_20, diag_21, diag_22,
      of_apply, cons_val, smul_eq_mul, Fin.zero_eta, Fin.mk_one, Fin.reduceFinMk, mul_zero,
      add_zero, neg_zero, zero_mul] <;>
    try ring))

variable [CharZero R]
set_option maxRecDepth 4000

theorem acc_00 (q : Quat R) (w a na nba : V3 R) (dt : R) :
    qBlock (mkIn dt q w a na nba 0 0) 0 0 =
      (dt ^ 3 / 3) • (hrot q * diagonal (fun i => na i ^ 2) * (hrot q)ᵀ) := by
  rw [qBlock_0_0]
  try unfold_tmp
  blk_entries

theorem acc_01 (q : Quat R) (w a na nba : V3 R) (dt : R) :
    qBlock (mkIn dt q w a na nba 0 0) 0 1 =
      (dt ^ 2 / 2) • (hrot q * diagonal (fun i => na i ^ 2) * (hrot q)ᵀ) := by
  rw [qBlock_0_1]
  try unfold_tmp
  blk_entries

theorem acc_02 (q : Quat R) (w a na nba : V3 R) (dt : R) :
    qBlock (mkIn dt q w a na nba 0 0) 0 2 =
      0 := by
  rw [qBlock_0_2]
  try unfold_tmp
  blk_entries

theorem acc_03 (q : Quat R) (w a na nba : V3 R) (dt : R) :
    qBlock (mkIn dt q w a na nba 0 0) 0 3 =
      0 := by
  rw [qBlock_0_3]
  try unfold_tmp
  blk_entries

theorem acc_04 (q : Quat R) (w a na nba : V3 R) (dt : R) :
    qBlock (mkIn dt q w a na nba 0 0) 0 4 =
      -(dt ^ 3 / 6) • (hrot q * diagonal (fun i => nba i ^ 2)) := by
  rw [qBlock_0_4]
  try unfold_tmp
  blk_entries

theorem acc_10 (q : Quat R) (w a na nba : V3 R) (dt : R) :
    qBlock (mkIn dt q w a na nba 0 0) 1 0 =
      (dt ^ 2 / 2) • (hrot q * diagonal (fun i => na i ^ 2) * (hrot q)ᵀ) := by
  rw [qBlock_1_0]
  try unfold_tmp
  blk_entries

theorem acc_11 (q : Quat R) (w a na nba : V3 R) (dt : R) :
    qBlock (mkIn dt q w a na nba 0 0) 1 1 =
      dt • (hrot q * diagonal (fun i => na i ^ 2) * (hrot q)ᵀ) + (dt ^ 3 / 3) • (hrot q * diagonal (fun i => nba i ^ 2) * (hrot q)ᵀ) := by
  rw [qBlock_1_1]
  try unfold_tmp
  blk_entries

theorem acc_12 (q : Quat R) (w a na nba : V3 R) (dt : R) :
    qBlock (mkIn dt q w a na nba 0 0) 1 2 =
      0 := by
  rw [qBlock_1_2]
  try unfold_tmp
  blk_entries

theorem acc_13 (q : Quat R) (w a na nba : V3 R) (dt : R) :
    qBlock (mkIn dt q w a na nba 0 0) 1 3 =
      0 := by
  rw [qBlock_1_3]
  try unfold_tmp
  blk_entries

theorem acc_14 (q : Quat R) (w a na nba : V3 R) (dt : R) :
    qBlock (mkIn dt q w a na nba 0 0) 1 4 =
      -(dt ^ 2 / 2) • (hrot q * diagonal (fun i => nba i ^ 2)) := by
  rw [qBlock_1_4]
  try unfold_tmp
  blk_entries

theorem acc_20 (q : Quat R) (w a na nba : V3 R) (dt : R) :
    qBlock (mkIn dt q w a na nba 0 0) 2 0 =
      0 := by
  rw [qBlock_2_0]
  try unfold_tmp
  blk_entries

theorem acc_21 (q : Quat R) (w a na nba : V3 R) (dt : R) :
    qBlock (mkIn dt q w a na nba 0 0) 2 1 =
      0 := by
  rw [qBlock_2_1]
  try unfold_tmp
  blk_entries

theorem acc_22 (q : Quat R) (w a na nba : V3 R) (dt : R) :
    qBlock (mkIn dt q w a na nba 0 0) 2 2 =
      0 := by
  rw [qBlock_2_2]
  try unfold_tmp
  blk_entries

theorem acc_23 (q : Quat R) (w a na nba : V3 R) (dt : R) :
    qBlock (mkIn dt q w a na nba 0 0) 2 3 =
      0 := by
  rw [qBlock_2_3]
  try unfold_tmp
  blk_entries

theorem acc_24 (q : Quat R) (w a na nba : V3 R) (dt : R) :
    qBlock (mkIn dt q w a na nba 0 0) 2 4 =
      0 := by
  rw [qBlock_2_4]
  try unfold_tmp
  blk_entries

theorem acc_30 (q : Quat R) (w a na nba : V3 R) (dt : R) :
    qBlock (mkIn dt q w a na nba 0 0) 3 0 =
      0 := by
  rw [qBlock_3_0]
  try unfold_tmp
  blk_entries

theorem acc_31 (q : Quat R) (w a na nba : V3 R) (dt : R) :
    qBlock (mkIn dt q w a na nba 0 0) 3 1 =
      0 := by
  rw [qBlock_3_1]
  try unfold_tmp
  blk_entries

theorem acc_32 (q : Quat R) (w a na nba : V3 R) (dt : R) :
    qBlock (mkIn dt q w a na nba 0 0) 3 2 =
      0 := by
  rw [qBlock_3_2]
  try unfold_tmp
  blk_entries

theorem acc_33 (q : Quat R) (w a na nba : V3 R) (dt : R) :
    qBlock (mkIn dt q w a na nba 0 0) 3 3 =
      0 := by
  rw [qBlock_3_3]
  try unfold_tmp
  blk_entries

theorem acc_34 (q : Quat R) (w a na nba : V3 R) (dt : R) :
    qBlock (mkIn dt q w a na nba 0 0) 3 4 =
      0 := by
  rw [qBlock_3_4]
  try unfold_tmp
  blk_entries

theorem acc_40 (q : Quat R) (w a na nba : V3 R) (dt : R) :
    qBlock (mkIn dt q w a na nba 0 0) 4 0 =
      -(dt ^ 3 / 6) • (diagonal (fun i => nba i ^ 2) * (hrot q)ᵀ) := by
  rw [qBlock_4_0]
  try unfold_tmp
  blk_entries

theorem acc_41 (q : Quat R) (w a na nba : V3 R) (dt : R) :
    qBlock (mkIn dt q w a na nba 0 0) 4 1 =
      -(dt ^ 2 / 2) • (diagonal (fun i => nba i ^ 2) * (hrot q)ᵀ) := by
  rw [qBlock_4_1]
  try unfold_tmp
  blk_entries

theorem acc_42 (q : Quat R) (w a na nba : V3 R) (dt : R) :
    qBlock (mkIn dt q w a na nba 0 0) 4 2 =
      0 := by
  rw [qBlock_4_2]
  try unfold_tmp
  blk_entries

theorem acc_43 (q : Quat R) (w a na nba : V3 R) (dt : R) :
    qBlock (mkIn dt q w a na nba 0 0) 4 3 =
      0 := by
  rw [qBlock_4_3]
  try unfold_tmp
  blk_entries

theorem acc_44 (q : Quat R) (w a na nba : V3 R) (dt : R) :
    qBlock (mkIn dt q w a na nba 0 0) 4 4 =
      dt • diagonal (fun i => nba i ^ 2) := by
  rw [qBlock_4_4]
  try unfold_tmp
  blk_entries

theorem rest_00 (q : Quat R) (na nba nw nbw : V3 R) (dt : R) :
    qBlock (mkIn dt q 0 0 na nba nw nbw) 0 0 =
      (dt ^ 3 / 3) • (hrot q * diagonal (fun i => na i ^ 2) * (hrot q)ᵀ) := by
  rw [qBlock_0_0]
  try unfold_tmp
  blk_entries

theorem rest_01 (q : Quat R) (na nba nw nbw : V3 R) (dt : R) :
    qBlock (mkIn dt q 0 0 na nba nw nbw) 0 1 =
      (dt ^ 2 / 2) • (hrot q * diagonal (fun i => na i ^ 2) * (hrot q)ᵀ) := by
  rw [qBlock_0_1]
  try unfold_tmp
  blk_entries

theorem rest_02 (q : Quat R) (na nba nw nbw : V3 R) (dt : R) :
    qBlock (mkIn dt q 0 0 na nba nw nbw) 0 2 =
      0 := by
  rw [qBlock_0_2]
  try unfold_tmp
  blk_entries

theorem rest_03 (q : Quat R) (na nba nw nbw : V3 R) (dt : R) :
    qBlock (mkIn dt q 0 0 na nba nw nbw) 0 3 =
      0 := by
  rw [qBlock_0_3]
  try unfold_tmp
  blk_entries

theorem rest_04 (q : Quat R) (na nba nw nbw : V3 R) (dt : R) :
    qBlock (mkIn dt q 0 0 na nba nw nbw) 0 4 =
      -(dt ^ 3 / 6) • (hrot q * diagonal (fun i => nba i ^ 2)) := by
  rw [qBlock_0_4]
  try unfold_tmp
  blk_entries

theorem rest_10 (q : Quat R) (na nba nw nbw : V3 R) (dt : R) :
    qBlock (mkIn dt q 0 0 na nba nw nbw) 1 0 =
      (dt ^ 2 / 2) • (hrot q * diagonal (fun i => na i ^ 2) * (hrot q)ᵀ) := by
  rw [qBlock_1_0]
  try unfold_tmp
  blk_entries

theorem rest_11 (q : Quat R) (na nba nw nbw : V3 R) (dt : R) :
    qBlock (mkIn dt q 0 0 na nba nw nbw) 1 1 =
      dt • (hrot q * diagonal (fun i => na i ^ 2) * (hrot q)ᵀ) + (dt ^ 3 / 3) • (hrot q * diagonal (fun i => nba i ^ 2) * (hrot q)ᵀ) := by
  rw [qBlock_1_1]
  try unfold_tmp
  blk_entries

theorem rest_12 (q : Quat R) (na nba nw nbw : V3 R) (dt : R) :
    qBlock (mkIn dt q 0 0 na nba nw nbw) 1 2 =
      0 := by
  rw [qBlock_1_2]
  try unfold_tmp
  blk_entries

theorem rest_13 (q : Quat R) (na nba nw nbw : V3 R) (dt : R) :
    qBlock (mkIn dt q 0 0 na nba nw nbw) 1 3 =
      0 := by
  rw [qBlock_1_3]
  try unfold_tmp
  blk_entries

theorem rest_14 (q : Quat R) (na nba nw nbw : V3 R) (dt : R) :
    qBlock (mkIn dt q 0 0 na nba nw nbw) 1 4 =
      -(dt ^ 2 / 2) • (hrot q * diagonal (fun i => nba i ^ 2)) := by
  rw [qBlock_1_4]
  try unfold_tmp
  blk_entries

theorem rest_20 (q : Quat R) (na nba nw nbw : V3 R) (dt : R) :
    qBlock (mkIn dt q 0 0 na nba nw nbw) 2 0 =
      0 := by
  rw [qBlock_2_0]
  try unfold_tmp
  blk_entries

theorem rest_21 (q : Quat R) (na nba nw nbw : V3 R) (dt : R) :
    qBlock (mkIn dt q 0 0 na nba nw nbw) 2 1 =
      0 := by
  rw [qBlock_2_1]
  try unfold_tmp
  blk_entries

theorem rest_22 (q : Quat R) (na nba nw nbw : V3 R) (dt : R) :
    qBlock (mkIn dt q 0 0 na nba nw nbw) 2 2 =
      dt • diagonal (fun i => nw i ^ 2) + (dt ^ 3 / 3) • diagonal (fun i => nbw i ^ 2) := by
  rw [qBlock_2_2]
  try unfold_tmp
  blk_entries

theorem rest_23 (q : Quat R) (na nba nw nbw : V3 R) (dt : R) :
    qBlock (mkIn dt q 0 0 na nba nw nbw) 2 3 =
      -(dt ^ 2 / 2) • diagonal (fun i => nbw i ^ 2) := by
  rw [qBlock_2_3]
  try unfold_tmp
  blk_entries

theorem rest_24 (q : Quat R) (na nba nw nbw : V3 R) (dt : R) :
    qBlock (mkIn dt q 0 0 na nba nw nbw) 2 4 =
      0 := by
  rw [qBlock_2_4]
  try unfold_tmp
  blk_entries

theorem rest_30 (q : Quat R) (na nba nw nbw : V3 R) (dt : R) :
    qBlock (mkIn dt q 0 0 na nba nw nbw) 3 0 =
      0 := by
  rw [qBlock_3_0]
  try unfold_tmp
  blk_entries

theorem rest_31 (q : Quat R) (na nba nw nbw : V3 R) (dt : R) :
    qBlock (mkIn dt q 0 0 na nba nw nbw) 3 1 =
      0 := by
  rw [qBlock_3_1]
  try unfold_tmp
  blk_entries

theorem rest_32 (q : Quat R) (na nba nw nbw : V3 R) (dt : R) :
    qBlock (mkIn dt q 0 0 na nba nw nbw) 3 2 =
      -(dt ^ 2 / 2) • diagonal (fun i => nbw i ^ 2) := by
  rw [qBlock_3_2]
  try unfold_tmp
  blk_entries

theorem rest_33 (q : Quat R) (na nba nw nbw : V3 R) (dt : R) :
    qBlock (mkIn dt q 0 0 na nba nw nbw) 3 3 =
      dt • diagonal (fun i => nbw i ^ 2) := by
  rw [qBlock_3_3]
  try unfold_tmp
  blk_entries

theorem rest_34 (q : Quat R) (na nba nw nbw : V3 R) (dt : R) :
    qBlock (mkIn dt q 0 0 na nba nw nbw) 3 4 =
      0 := by
  rw [qBlock_3_4]
  try unfold_tmp
  blk_entries

theorem rest_40 (q : Quat R) (na nba nw nbw : V3 R) (dt : R) :
    qBlock (mkIn dt q 0 0 na nba nw nbw) 4 0 =
      -(dt ^ 3 / 6) • (diagonal (fun i => nba i ^ 2) * (hrot q)ᵀ) := by
  rw [qBlock_4_0]
  try unfold_tmp
  blk_entries

theorem rest_41 (q : Quat R) (na nba nw nbw : V3 R) (dt : R) :
    qBlock (mkIn dt q 0 0 na nba nw nbw) 4 1 =
      -(dt ^ 2 / 2) • (diagonal (fun i => nba i ^ 2) * (hrot q)ᵀ) := by
  rw [qBlock_4_1]
  try unfold_tmp
  blk_entries

theorem rest_42 (q : Quat R) (na nba nw nbw : V3 R) (dt : R) :
    qBlock (mkIn dt q 0 0 na nba nw nbw) 4 2 =
      0 := by
  rw [qBlock_4_2]
  try unfold_tmp
  blk_entries

theorem rest_43 (q : Quat R) (na nba nw nbw : V3 R) (dt : R) :
    qBlock (mkIn dt q 0 0 na nba nw nbw) 4 3 =
      0 := by
  rw [qBlock_4_3]
  try unfold_tmp
  blk_entries

theorem rest_44 (q : Quat R) (na nba nw nbw : V3 R) (dt : R) :
    qBlock (mkIn dt q 0 0 na nba nw nbw) 4 4 =
      dt • diagonal (fun i => nba i ^ 2) := by
  rw [qBlock_4_4]
  try unfold_tmp
  blk_entries

end

end MSF
