import Verif.Lemmas.CalcQSpec
import Verif.Props.CovBlocks

/-!
# Lemmas on covariance prediction
-/

namespace MSF

open Matrix CalcQ

/-! ### Noise matrices -/

section
variable {R : Type} [Field R]

theorem qBlock_acc [CharZero R] (q : Quat R) (w a na nba : V3 R) (dt : R) (b b' : Fin 5) :
    qBlock (mkIn dt q w a na nba 0 0) b b' = simpleQ (hrot q) na nba 0 0 dt b b' :=
  match b, b' with
  | 0, 0 => acc_00 q w a na nba dt
  | 0, 1 => acc_01 q w a na nba dt
  | 0, 2 => acc_02 q w a na nba dt
  | 0, 3 => acc_03 q w a na nba dt
  | 0, 4 => acc_04 q w a na nba dt
  | 1, 0 => acc_10 q w a na nba dt
  | 1, 1 => acc_11 q w a na nba dt
  | 1, 2 => acc_12 q w a na nba dt
  | 1, 3 => acc_13 q w a na nba dt
  | 1, 4 => acc_14 q w a na nba dt
  | 2, 0 => acc_20 q w a na nba dt
  | 2, 1 => acc_21 q w a na nba dt
  | 2, 2 => (acc_22 q w a na nba dt).trans (by simp [simpleQ])
  | 2, 3 => (acc_23 q w a na nba dt).trans (by simp [simpleQ])
  | 2, 4 => acc_24 q w a na nba dt
  | 3, 0 => acc_30 q w a na nba dt
  | 3, 1 => acc_31 q w a na nba dt
  | 3, 2 => (acc_32 q w a na nba dt).trans (by simp [simpleQ])
  | 3, 3 => (acc_33 q w a na nba dt).trans (by simp [simpleQ])
  | 3, 4 => acc_34 q w a na nba dt
  | 4, 0 => acc_40 q w a na nba dt
  | 4, 1 => acc_41 q w a na nba dt
  | 4, 2 => acc_42 q w a na nba dt
  | 4, 3 => acc_43 q w a na nba dt
  | 4, 4 => acc_44 q w a na nba dt

theorem qBlock_rest [CharZero R] (q : Quat R) (na nba nw nbw : V3 R) (dt : R) (b b' : Fin 5) :
    qBlock (mkIn dt q 0 0 na nba nw nbw) b b' = simpleQ (hrot q) na nba nw nbw dt b b' :=
  match b, b' with
  | 0, 0 => rest_00 q na nba nw nbw dt
  | 0, 1 => rest_01 q na nba nw nbw dt
  | 0, 2 => rest_02 q na nba nw nbw dt
  | 0, 3 => rest_03 q na nba nw nbw dt
  | 0, 4 => rest_04 q na nba nw nbw dt
  | 1, 0 => rest_10 q na nba nw nbw dt
  | 1, 1 => rest_11 q na nba nw nbw dt
  | 1, 2 => rest_12 q na nba nw nbw dt
  | 1, 3 => rest_13 q na nba nw nbw dt
  | 1, 4 => rest_14 q na nba nw nbw dt
  | 2, 0 => rest_20 q na nba nw nbw dt
  | 2, 1 => rest_21 q na nba nw nbw dt
  | 2, 2 => rest_22 q na nba nw nbw dt
  | 2, 3 => rest_23 q na nba nw nbw dt
  | 2, 4 => rest_24 q na nba nw nbw dt
  | 3, 0 => rest_30 q na nba nw nbw dt
  | 3, 1 => rest_31 q na nba nw nbw dt
  | 3, 2 => rest_32 q na nba nw nbw dt
  | 3, 3 => rest_33 q na nba nw nbw dt
  | 3, 4 => rest_34 q na nba nw nbw dt
  | 4, 0 => rest_40 q na nba nw nbw dt
  | 4, 1 => rest_41 q na nba nw nbw dt
  | 4, 2 => rest_42 q na nba nw nbw dt
  | 4, 3 => rest_43 q na nba nw nbw dt
  | 4, 4 => rest_44 q na nba nw nbw dt

theorem skew_zero : skew (0 : V3 R) = 0 := by
  ext i j; fin_cases i <;> fin_cases j <;> simp [skew]

theorem diagonal_zero_sq : (diagonal (fun i => (0 : V3 R) i ^ 2) : M33 R) = 0 := by
  ext i j; fin_cases i <;> fin_cases j <;> simp [diagonal]

theorem lyap_acc [CharZero R] (C : M33 R) (w a na nba : V3 R) (dt : R) :
    lyap3 (errDyn C w a) (noiseDensity C na nba 0 0) dt = simpleQ C na nba 0 0 dt := by
  rw [noiseDensity, lyap_blocks, lyapBlocks, simpleQ]
  simp only [diagonal_zero_sq, Matrix.mul_zero, Matrix.zero_mul, smul_zero, add_zero, sub_zero,
    zero_add]

theorem lyap_rest [CharZero R] (C : M33 R) (na nba nw nbw : V3 R) (dt : R) :
    lyap3 (errDyn C 0 0) (noiseDensity C na nba nw nbw) dt = simpleQ C na nba nw nbw dt := by
  rw [noiseDensity, lyap_blocks, lyapBlocks, simpleQ]
  simp only [skew_zero, transpose_zero, Matrix.mul_zero, Matrix.zero_mul, smul_zero, add_zero,
    sub_zero, zero_add]
  congr 1
  have e : ∀ B : M33 R, (dt ^ 3 / 6) • ((2 : R) • B) = (dt ^ 3 / 3) • B := by
    intro B
    rw [smul_smul]
    congr 1
    ring
  rw [e]

end

/-! ### Positive semidefiniteness of the noise -/

/-- The scalar noise matrix of one axis. -/
noncomputable def axisQ (a b w g T : ℝ) : Matrix (Fin 5) (Fin 5) ℝ :=
  !![a * T ^ 3 / 3, a * T ^ 2 / 2, 0, 0, -(b * T ^ 3 / 6);
     a * T ^ 2 / 2, a * T + b * T ^ 3 / 3, 0, 0, -(b * T ^ 2 / 2);
     0, 0, w * T + g * T ^ 3 / 3, -(g * T ^ 2 / 2), 0;
     0, 0, -(g * T ^ 2 / 2), g * T, 0;
     -(b * T ^ 3 / 6), -(b * T ^ 2 / 2), 0, 0, b * T]

theorem axisQ_psd (a b w g T : ℝ) (hb : 0 ≤ b) (hw : 0 ≤ w) (hg : 0 ≤ g) (hT : 0 ≤ T)
    (h : b * T ^ 2 ≤ 9 * a) : (axisQ a b w g T).PosSemidef := by
  refine PosSemidef.of_dotProduct_mulVec_nonneg ?_ ?_
  · ext i j
    fin_cases i <;> fin_cases j <;> simp [axisQ]
  · intro x
    have e : star x ⬝ᵥ (axisQ a b w g T *ᵥ x) =
        b * T * (x 4 - T * x 1 / 2 - T ^ 2 * x 0 / 6) ^ 2 +
        (a - b * T ^ 2 / 9) * T * ((x 1 + T * x 0 / 2) ^ 2 + T ^ 2 * x 0 ^ 2 / 12) +
        b * T ^ 3 / 108 * ((T * x 0 - 3 * x 1) ^ 2 + 12 * x 1 ^ 2) +
        w * T * x 2 ^ 2 + g * T * ((x 3 - T * x 2 / 2) ^ 2 + T ^ 2 * x 2 ^ 2 / 12) := by
      simp [axisQ, dotProduct, mulVec, Fin.sum_univ_five]
      ring
    rw [e]
    have h' : 0 ≤ a - b * T ^ 2 / 9 := by linarith
    positivity

set_option maxHeartbeats 2000000 in
theorem simpleQ_axis (C : M33 ℝ) (hC : C * Cᵀ = 1) (na nba nw nbw T : ℝ) (b b' : Fin 5) :
    simpleQ C (fun _ => na) (fun _ => nba) (fun _ => nw) (fun _ => nbw) T b b' =
      axisQ (na ^ 2) (nba ^ 2) (nw ^ 2) (nbw ^ 2) T b b' •
        (if b = 4 then (if b' = 4 then 1 else Cᵀ) else (if b' = 4 then C else 1) : M33 ℝ) := by
  have hs : ∀ s : ℝ, (diagonal (fun _ => s ^ 2) : M33 ℝ) = s ^ 2 • (1 : M33 ℝ) := by
    intro s
    rw [smul_one_eq_diagonal]
  simp only [simpleQ, hs, Matrix.mul_smul, Matrix.smul_mul, Matrix.mul_one, Matrix.one_mul, hC]
  clear hs hC
  generalize Cᵀ = D
  match b, b' with
  | 0, 0 => simp [axisQ] <;> module
  | 0, 1 => simp [axisQ] <;> module
  | 0, 2 => simp [axisQ] <;> module
  | 0, 3 => simp [axisQ] <;> module
  | 0, 4 => simp [axisQ] <;> module
  | 1, 0 => simp [axisQ] <;> module
  | 1, 1 => simp [axisQ] <;> module
  | 1, 2 => simp [axisQ] <;> module
  | 1, 3 => simp [axisQ] <;> module
  | 1, 4 => simp [axisQ] <;> module
  | 2, 0 => simp [axisQ] <;> module
  | 2, 1 => simp [axisQ] <;> module
  | 2, 2 => simp [axisQ] <;> module
  | 2, 3 => simp [axisQ] <;> module
  | 2, 4 => simp [axisQ] <;> module
  | 3, 0 => simp [axisQ] <;> module
  | 3, 1 => simp [axisQ] <;> module
  | 3, 2 => simp [axisQ] <;> module
  | 3, 3 => simp [axisQ] <;> module
  | 3, 4 => simp [axisQ] <;> module
  | 4, 0 => simp [axisQ] <;> module
  | 4, 1 => simp [axisQ] <;> module
  | 4, 2 => simp [axisQ] <;> module
  | 4, 3 => simp [axisQ] <;> module
  | 4, 4 => simp [axisQ] <;> module

/-- Core noise of isotropic parameters as a sum over the axes. -/
theorem simpleQ_psd (C : M33 ℝ) (hC : C * Cᵀ = 1) (na nba nw nbw T : ℝ) (hT : 0 ≤ T)
    (h : nba ^ 2 * T ^ 2 ≤ 9 * na ^ 2) :
    (comp (Fin 5) (Fin 5) (Fin 3) (Fin 3) ℝ (simpleQ C (fun _ => na) (fun _ => nba) (fun _ => nw)
      (fun _ => nbw) T)).PosSemidef := by
  have hC' : Cᵀ * C = 1 := mul_eq_one_comm.1 hC
  let E : Fin 3 → Matrix (Fin 5 × Fin 3) (Fin 5) ℝ := fun k => Matrix.of fun r b =>
    if r.1 = b then (if b = 4 then C k r.2 else if r.2 = k then 1 else 0) else 0
  have key : comp (Fin 5) (Fin 5) (Fin 3) (Fin 3) ℝ (simpleQ C (fun _ => na) (fun _ => nba)
      (fun _ => nw) (fun _ => nbw) T) =
      ∑ k, E k * axisQ (na ^ 2) (nba ^ 2) (nw ^ 2) (nbw ^ 2) T * (E k)ᵀ := by
    have hent : ∀ (M : Matrix (Fin 5) (Fin 5) ℝ) (b b' : Fin 5) (i j : Fin 3) (k : Fin 3),
        (E k * M * (E k)ᵀ) (b, i) (b', j) = M b b' *
          ((if b = 4 then C k i else if i = k then 1 else 0) *
          (if b' = 4 then C k j else if j = k then 1 else 0)) := by
      intro M b b' i j k
      simp only [E, mul_apply, of_apply, transpose_apply, ite_mul, zero_mul, mul_ite, mul_zero,
        Finset.sum_ite_eq, Finset.mem_univ, if_true]
      ring_nf
    refine Matrix.ext fun ⟨b, i⟩ ⟨b', j⟩ => ?_
    rw [Matrix.sum_apply]
    simp only [hent, comp_apply, simpleQ_axis C hC, ← Finset.mul_sum, Matrix.smul_apply,
      smul_eq_mul]
    congr 1
    by_cases h1 : b = 4 <;> by_cases h2 : b' = 4
    · simp only [h1, h2, if_true]
      rw [← hC', mul_apply]
      rfl
    · simp [h1, h2]
    · simp [h1, h2]
    · simp [h1, h2, one_apply]
  rw [key]
  exact posSemidef_sum _ fun k _ =>
    psd_congr (axisQ_psd _ _ _ _ _ (by positivity) (by positivity) (by positivity) hT h) _

end MSF
