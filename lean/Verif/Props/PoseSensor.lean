import Verif.Props.Jacobian
import Verif.Props.Similarity

/-!
# C46: conversion of received poses
-/

namespace MSF

open Matrix

/-! ### A block diagonal 7x7 matrix -/

/-- Block diagonal of two 3x3 blocks and a number. -/
def diag7 {R : Type} [Zero R] (A B : M33 R) (y : R) : Matrix (Fin 7) (Fin 7) R :=
  !![A 0 0, A 0 1, A 0 2, 0, 0, 0, 0;
     A 1 0, A 1 1, A 1 2, 0, 0, 0, 0;
     A 2 0, A 2 1, A 2 2, 0, 0, 0, 0;
     0, 0, 0, B 0 0, B 0 1, B 0 2, 0;
     0, 0, 0, B 1 0, B 1 1, B 1 2, 0;
     0, 0, 0, B 2 0, B 2 1, B 2 2, 0;
     0, 0, 0, 0, 0, 0, y]

theorem diag7_quad (A B : M33 ℝ) (y : ℝ) (x : Fin 7 → ℝ) :
    x ⬝ᵥ (diag7 A B y *ᵥ x) = ![x 0, x 1, x 2] ⬝ᵥ (A *ᵥ ![x 0, x 1, x 2]) +
      ![x 3, x 4, x 5] ⬝ᵥ (B *ᵥ ![x 3, x 4, x 5]) + y * (x 6 * x 6) := by
  simp only [Matrix.mulVec, dotProduct, Fin.sum_univ_seven, Fin.sum_univ_three, diag7]
  simp
  ring

theorem diag7_symm {A B : M33 ℝ} (hA : Aᵀ = A) (hB : Bᵀ = B) (y : ℝ) :
    (diag7 A B y)ᵀ = diag7 A B y := by
  have a : ∀ i j, A i j = A j i := fun i j => congrFun (congrFun hA j) i
  have b : ∀ i j, B i j = B j i := fun i j => congrFun (congrFun hB j) i
  ext i j
  fin_cases i <;> fin_cases j <;> simp [diag7] <;> first | exact a _ _ | exact b _ _

theorem diag7_psd {A B : M33 ℝ} (hA : A.PosSemidef) (hB : B.PosSemidef) {y : ℝ} (hy : 0 ≤ y) :
    (diag7 A B y).PosSemidef := by
  refine PosSemidef.of_dotProduct_mulVec_nonneg ?_ fun x => ?_
  · have := diag7_symm (A := A) (B := B) (by simpa [IsSymm] using hA.1)
      (by simpa [IsSymm] using hB.1) y
    rwa [IsHermitian, conjTranspose_eq_transpose_of_trivial]
  · rw [star_trivial, diag7_quad]
    have h1 := hA.dotProduct_mulVec_nonneg ![x 0, x 1, x 2]
    have h2 := hB.dotProduct_mulVec_nonneg ![x 3, x 4, x 5]
    rw [star_trivial] at h1 h2
    have := mul_nonneg hy (mul_self_nonneg (x 6))
    linarith

theorem diag7_posDef {A B : M33 ℝ} (hA : A.PosDef) (hB : B.PosDef) {y : ℝ} (hy : 0 < y) :
    (diag7 A B y).PosDef := by
  refine PosDef.of_dotProduct_mulVec_pos (diag7_psd hA.posSemidef hB.posSemidef hy.le).1
    fun x hx => ?_
  rw [star_trivial, diag7_quad]
  have h1 := hA.posSemidef.dotProduct_mulVec_nonneg ![x 0, x 1, x 2]
  have h2 := hB.posSemidef.dotProduct_mulVec_nonneg ![x 3, x 4, x 5]
  rw [star_trivial] at h1 h2
  have h3 := mul_nonneg hy.le (mul_self_nonneg (x 6))
  by_cases c1 : ![x 0, x 1, x 2] = 0
  · by_cases c2 : ![x 3, x 4, x 5] = 0
    · by_cases c3 : x 6 = 0
      · exfalso
        apply hx
        funext i
        have a := fun k => congrFun c1 k
        have b := fun k => congrFun c2 k
        fin_cases i
        · exact a 0
        · exact a 1
        · exact a 2
        · exact b 0
        · exact b 1
        · exact b 2
        · exact c3
      · have := mul_pos hy (mul_self_pos.2 c3)
        linarith
    · have := hB.dotProduct_mulVec_pos c2
      rw [star_trivial] at this
      linarith
  · have := hA.dotProduct_mulVec_pos c1
    rw [star_trivial] at this
    linarith

/-- Block diagonal of two 3x3 blocks. -/
def diag6 {R : Type} [Zero R] (A B : M33 R) : Matrix (Fin 6) (Fin 6) R :=
  !![A 0 0, A 0 1, A 0 2, 0, 0, 0;
     A 1 0, A 1 1, A 1 2, 0, 0, 0;
     A 2 0, A 2 1, A 2 2, 0, 0, 0;
     0, 0, 0, B 0 0, B 0 1, B 0 2;
     0, 0, 0, B 1 0, B 1 1, B 1 2;
     0, 0, 0, B 2 0, B 2 1, B 2 2]

theorem diag6_transpose (A B : M33 ℝ) : (diag6 A B)ᵀ = diag6 Aᵀ Bᵀ := by
  ext i j
  fin_cases i <;> fin_cases j <;> rfl

theorem diag6_mul (A B A' B' : M33 ℝ) : diag6 A B * diag6 A' B' = diag6 (A * A') (B * B') := by
  ext i j
  fin_cases i <;> fin_cases j <;>
    simp [diag6, Matrix.mul_apply, Fin.sum_univ_six, Fin.sum_univ_three]

/-! ### C46 -/

/-- The position and the attitude block of the covariance in a ROS message (row-major). -/
def covPos {R : Type} (cov : Fin 36 → R) : M33 R := (rowMajor6 cov).submatrix lo3 lo3
def covAtt {R : Type} (cov : Fin 36 → R) : M33 R := (rowMajor6 cov).submatrix hi3 hi3

theorem makePose_noise_world (cfg : PoseCfg ℝ) (pos : V3 ℝ) (att : Quat ℝ) (cov : Fin 36 → ℝ)
    (hf : cfg.fixedCovariance = false) (hw : cfg.worldSensor = true) :
    makePose cfg pos att cov = ⟨pos, att, diag7 (covPos cov)ᵀ (covAtt cov)ᵀ (1 / 1000000)⟩ := by
  unfold makePose
  rw [if_neg (by simp [hf]), if_pos hw]
  congr 1
  ext i j
  fin_cases i <;> fin_cases j <;> rfl

theorem makePose_noise_sensor (cfg : PoseCfg ℝ) (pos : V3 ℝ) (att : Quat ℝ) (cov : Fin 36 → ℝ)
    (hf : cfg.fixedCovariance = false) (hw : cfg.worldSensor = false) :
    makePose cfg pos att cov = ⟨-att.toRotᵀ *ᵥ pos, att.conj,
      diag7 (att.toRotᵀ * (covPos cov)ᵀ * att.toRot) (att.toRotᵀ * (covAtt cov)ᵀ * att.toRot)
        (1 / 1000000)⟩ := by
  unfold makePose
  rw [if_neg (by simp [hf]), if_neg (by simp [hw])]
  congr 1
  set C := att.toRot
  have hR : (setBlock (setBlock (setBlock (setBlock (0 : Matrix (Fin 7) (Fin 7) ℝ) 0 0
      (ofArray6 cov)) 0 3 (0 : M33 ℝ)) 3 0 (0 : M33 ℝ)) 6 6
      (Matrix.of fun (_ _ : Fin 1) => (1 / 1000000 : ℝ))) =
      diag7 (covPos cov)ᵀ (covAtt cov)ᵀ (1 / 1000000) := by
    ext i j
    fin_cases i <;> fin_cases j <;> rfl
  have hC : setBlock (setBlock (0 : Matrix (Fin 6) (Fin 6) ℝ) 0 0 C) 3 3 C = diag6 C C := by
    ext i j
    fin_cases i <;> fin_cases j <;> rfl
  have hg : getBlock (diag7 (covPos cov)ᵀ (covAtt cov)ᵀ (1 / 1000000)) 0 0 6 6 (by decide)
      (by decide) = diag6 (covPos cov)ᵀ (covAtt cov)ᵀ := by
    ext i j
    fin_cases i <;> fin_cases j <;> rfl
  simp only [hR, hC, hg, diag6_transpose, diag6_mul]
  refine congrArg _ ?_
  ext i j
  fin_cases i <;> fin_cases j <;> rfl

theorem makePose_noise_fixed (cfg : PoseCfg ℝ) (pos : V3 ℝ) (att : Quat ℝ) (cov : Fin 36 → ℝ)
    (hf : cfg.fixedCovariance = true) :
    makePose cfg pos att cov = ⟨pos, att, diag7 (Matrix.diagonal fun _ => cfg.n_zp * cfg.n_zp)
      (Matrix.diagonal fun _ => cfg.n_zq * cfg.n_zq) (1 / 1000000)⟩ := by
  unfold makePose
  rw [if_pos hf]
  refine congrArg _ ?_
  ext i j
  fin_cases i <;> fin_cases j <;> rfl

/-- The stored pose is the inverse of the received one: first one, then the other transform leaves
every point in place. -/
def InversePose (pos : V3 ℝ) (att : Quat ℝ) (m : PoseMeas ℝ) : Prop :=
  att.mul m.z_q = Quat.one ∧ m.z_q.mul att = Quat.one ∧
    ∀ x, att.toRot *ᵥ (m.z_q.toRot *ᵥ x + m.z_p) + pos = x

/-- The full claim: in both covariance modes the stored pose of a sensor that reports the world seen
from the sensor is the inverse of the received one. -/
def inverseClaim : Prop :=
  ∀ (cfg : PoseCfg ℝ) (pos : V3 ℝ) (att : Quat ℝ) (cov : Fin 36 → ℝ), att.normSq = 1 →
    cfg.worldSensor = false → InversePose pos att (makePose cfg pos att cov)

theorem rot_mul_transpose {q : Quat ℝ} (h : q.normSq = 1) : q.toRot * q.toRotᵀ = 1 :=
  mul_eq_one_comm.1 (rot_transpose_mul h)

/-- **C46, partial.**  With the covariance of the message the stored pose of an inverse sensor is
the inverse of the received one and the position noise is that of the inverted position.  Missing:
the mode with fixed covariance, where nothing is inverted (`C46_fixed_violated`). -/
theorem C46_inverse_partial (cfg : PoseCfg ℝ) (pos : V3 ℝ) (att : Quat ℝ) (cov : Fin 36 → ℝ)
    (hq : att.normSq = 1) (hf : cfg.fixedCovariance = false) (hw : cfg.worldSensor = false) :
    InversePose pos att (makePose cfg pos att cov) := by
  rw [makePose_noise_sensor cfg pos att cov hf hw]
  refine ⟨by rw [Quat.mul_conj_self, hq]; rfl, by rw [Quat.conj_mul_self, hq]; rfl, fun x => ?_⟩
  simp only
  rw [toRot_conj, Matrix.mulVec_add, Matrix.mulVec_mulVec, Matrix.neg_mulVec, Matrix.mulVec_neg,
    Matrix.mulVec_mulVec, rot_mul_transpose hq, Matrix.one_mulVec, Matrix.one_mulVec,
    neg_add_cancel_right]

/-- A sensor that reports its own pose in the world is stored as received. -/
theorem C46_world (cfg : PoseCfg ℝ) (pos : V3 ℝ) (att : Quat ℝ) (cov : Fin 36 → ℝ)
    (hw : cfg.worldSensor = true) :
    (makePose cfg pos att cov).z_p = pos ∧ (makePose cfg pos att cov).z_q = att := by
  cases hf : cfg.fixedCovariance with
  | true => rw [makePose_noise_fixed cfg pos att cov hf]; exact ⟨rfl, rfl⟩
  | false => rw [makePose_noise_world cfg pos att cov hf hw]; exact ⟨rfl, rfl⟩

/-- **C46, noise.**  In every mode, for every unit attitude and valid covariance in the message, the
stored noise is a valid covariance; it is positive definite if the configured or received one is. -/
theorem C46_noise (cfg : PoseCfg ℝ) (pos : V3 ℝ) (att : Quat ℝ) (cov : Fin 36 → ℝ)
    (hq : att.normSq = 1) (hc : (rowMajor6 cov).PosSemidef) :
    (makePose cfg pos att cov).R_.PosSemidef ∧
    ((if cfg.fixedCovariance then cfg.n_zp ≠ 0 ∧ cfg.n_zq ≠ 0 else (rowMajor6 cov).PosDef) →
      (makePose cfg pos att cov).R_.PosDef) := by
  have hp : (covPos cov)ᵀ.PosSemidef := (hc.submatrix lo3).transpose
  have ha : (covAtt cov)ᵀ.PosSemidef := (hc.submatrix hi3).transpose
  have hp' : (rowMajor6 cov).PosDef → (covPos cov)ᵀ.PosDef := fun h =>
    (h.submatrix (e := lo3) (Fin.castAdd_injective 3 3)).transpose
  have ha' : (rowMajor6 cov).PosDef → (covAtt cov)ᵀ.PosDef := fun h =>
    (h.submatrix (e := hi3) (Fin.natAdd_injective 3 3)).transpose
  have hinj : Function.Injective att.toRot.mulVec := by
    intro x y hxy
    have := congrArg (att.toRotᵀ.mulVec) hxy
    simpa [Matrix.mulVec_mulVec, rot_transpose_mul hq] using this
  cases hf : cfg.fixedCovariance with
  | true =>
    rw [makePose_noise_fixed cfg pos att cov hf]
    constructor
    · exact diag7_psd (PosSemidef.diagonal fun _ => mul_self_nonneg _)
        (PosSemidef.diagonal fun _ => mul_self_nonneg _) (by norm_num)
    · rintro ⟨h1, h2⟩
      exact diag7_posDef (PosDef.diagonal fun _ => mul_self_pos.2 h1)
        (PosDef.diagonal fun _ => mul_self_pos.2 h2) (by norm_num)
  | false =>
    cases hw : cfg.worldSensor with
    | true =>
      rw [makePose_noise_world cfg pos att cov hf hw]
      exact ⟨diag7_psd hp ha (by norm_num), fun h => diag7_posDef (hp' h) (ha' h) (by norm_num)⟩
    | false =>
      rw [makePose_noise_sensor cfg pos att cov hf hw]
      constructor
      · exact diag7_psd (by simpa using hp.conjTranspose_mul_mul_same att.toRot)
          (by simpa using ha.conjTranspose_mul_mul_same att.toRot) (by norm_num)
      · intro h
        exact diag7_posDef (by simpa using (hp' h).conjTranspose_mul_mul_same hinj)
          (by simpa using (ha' h).conjTranspose_mul_mul_same hinj) (by norm_num)

/-- The received position has the covariance `covPos`; the linear map to the stored position
`z_p = -Rᵀ p` turns it into the stored noise. -/
theorem C46_position_noise (cfg : PoseCfg ℝ) (pos : V3 ℝ) (att : Quat ℝ) (cov : Fin 36 → ℝ)
    (hs : (rowMajor6 cov).IsSymm) (hf : cfg.fixedCovariance = false)
    (hw : cfg.worldSensor = false) (i j : Fin 3) :
    (makePose cfg pos att cov).R_ (Fin.castLE (by decide) i) (Fin.castLE (by decide) j) =
      ((-att.toRotᵀ) * covPos cov * (-att.toRotᵀ)ᵀ) i j := by
  rw [makePose_noise_sensor cfg pos att cov hf hw]
  have e : (covPos cov)ᵀ = covPos cov := by
    rw [covPos, Matrix.transpose_submatrix, hs]
  rw [e, Matrix.transpose_neg, Matrix.transpose_transpose, Matrix.mul_neg, Matrix.neg_mul,
    Matrix.neg_mul, neg_neg]
  fin_cases i <;> fin_cases j <;> rfl

/-- **C46 is violated with fixed covariance.**  The received pose is stored as it is. -/
theorem C46_fixed_violated : ¬ inverseClaim := by
  intro h
  obtain ⟨-, -, h3⟩ := h ⟨1, 1, false, true⟩ ![1, 0, 0] Quat.one 0
    (by simp [Quat.one, Quat.normSq]) rfl
  have := congrFun (h3 0) 0
  rw [makePose_noise_fixed _ _ _ _ rfl] at this
  simp [one_toRot] at this

/-- A message that meets the hypotheses: a turned pose with the identity as covariance. -/
example : (⟨3 / 5, 0, 4 / 5, 0⟩ : Quat ℝ).normSq = 1 ∧
    (rowMajor6 (toArray6 (1 : Matrix (Fin 6) (Fin 6) ℝ))).PosDef ∧
    (makePose ⟨1, 1, false, false⟩ ![1, 2, 3] ⟨3 / 5, 0, 4 / 5, 0⟩
      (toArray6 (1 : Matrix (Fin 6) (Fin 6) ℝ))).R_.PosDef := by
  have h1 : (⟨3 / 5, 0, 4 / 5, 0⟩ : Quat ℝ).normSq = 1 := by norm_num [Quat.normSq]
  have h2 : (rowMajor6 (toArray6 (1 : Matrix (Fin 6) (Fin 6) ℝ))).PosDef := by
    rw [rowMajor6_toArray6, Matrix.transpose_one]; exact PosDef.one
  exact ⟨h1, h2, (C46_noise _ _ _ _ h1 h2.posSemidef).2 h2⟩

end MSF
