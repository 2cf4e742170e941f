import Verif.Lemmas.CalcQSpec

/-!
# Blocks of `CalcQCore` that agree with the noise expansion for all inputs
-/

namespace MSF

open Matrix CalcQ

variable {R : Type} [Field R] [CharZero R]
set_option maxRecDepth 4000

theorem gen_00 (q : Quat R) (w a na nba nw nbw : V3 R) (dt : R) :
    qBlock (mkIn dt q w a na nba nw nbw) 0 0 =
      (dt ^ 3 / 3) • (hrot q * diagonal (fun i => na i ^ 2) * (hrot q)ᵀ) := by
  rw [qBlock_0_0]
  try unfold_tmp
  blk_entries

theorem gen_03 (q : Quat R) (w a na nba nw nbw : V3 R) (dt : R) :
    qBlock (mkIn dt q w a na nba nw nbw) 0 3 =
      0 := by
  rw [qBlock_0_3]
  try unfold_tmp
  blk_entries

theorem gen_04 (q : Quat R) (w a na nba nw nbw : V3 R) (dt : R) :
    qBlock (mkIn dt q w a na nba nw nbw) 0 4 =
      -(dt ^ 3 / 6) • (hrot q * diagonal (fun i => nba i ^ 2)) := by
  rw [qBlock_0_4]
  try unfold_tmp
  blk_entries

theorem gen_14 (q : Quat R) (w a na nba nw nbw : V3 R) (dt : R) :
    qBlock (mkIn dt q w a na nba nw nbw) 1 4 =
      -(dt ^ 2 / 2) • (hrot q * diagonal (fun i => nba i ^ 2)) := by
  rw [qBlock_1_4]
  try unfold_tmp
  blk_entries

theorem gen_24 (q : Quat R) (w a na nba nw nbw : V3 R) (dt : R) :
    qBlock (mkIn dt q w a na nba nw nbw) 2 4 =
      0 := by
  rw [qBlock_2_4]
  try unfold_tmp
  blk_entries

theorem gen_30 (q : Quat R) (w a na nba nw nbw : V3 R) (dt : R) :
    qBlock (mkIn dt q w a na nba nw nbw) 3 0 =
      0 := by
  rw [qBlock_3_0]
  try unfold_tmp
  blk_entries

theorem gen_33 (q : Quat R) (w a na nba nw nbw : V3 R) (dt : R) :
    qBlock (mkIn dt q w a na nba nw nbw) 3 3 =
      dt • diagonal (fun i => nbw i ^ 2) := by
  rw [qBlock_3_3]
  try unfold_tmp
  blk_entries

theorem gen_34 (q : Quat R) (w a na nba nw nbw : V3 R) (dt : R) :
    qBlock (mkIn dt q w a na nba nw nbw) 3 4 =
      0 := by
  rw [qBlock_3_4]
  try unfold_tmp
  blk_entries

theorem gen_40 (q : Quat R) (w a na nba nw nbw : V3 R) (dt : R) :
    qBlock (mkIn dt q w a na nba nw nbw) 4 0 =
      -(dt ^ 3 / 6) • (diagonal (fun i => nba i ^ 2) * (hrot q)ᵀ) := by
  rw [qBlock_4_0]
  try unfold_tmp
  blk_entries

theorem gen_41 (q : Quat R) (w a na nba nw nbw : V3 R) (dt : R) :
    qBlock (mkIn dt q w a na nba nw nbw) 4 1 =
      -(dt ^ 2 / 2) • (diagonal (fun i => nba i ^ 2) * (hrot q)ᵀ) := by
  rw [qBlock_4_1]
  try unfold_tmp
  blk_entries

theorem gen_42 (q : Quat R) (w a na nba nw nbw : V3 R) (dt : R) :
    qBlock (mkIn dt q w a na nba nw nbw) 4 2 =
      0 := by
  rw [qBlock_4_2]
  try unfold_tmp
  blk_entries

theorem gen_43 (q : Quat R) (w a na nba nw nbw : V3 R) (dt : R) :
    qBlock (mkIn dt q w a na nba nw nbw) 4 3 =
      0 := by
  rw [qBlock_4_3]
  try unfold_tmp
  blk_entries

theorem gen_44 (q : Quat R) (w a na nba nw nbw : V3 R) (dt : R) :
    qBlock (mkIn dt q w a na nba nw nbw) 4 4 =
      dt • diagonal (fun i => nba i ^ 2) := by
  rw [qBlock_4_4]
  try unfold_tmp
  blk_entries

end MSF
