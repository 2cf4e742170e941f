import Mathlib.Analysis.Matrix.Order
import Mathlib.LinearAlgebra.Matrix.Block
import Verif.Props.Predict

/-!
# Determinants of covariances and of the transition
-/

namespace MSF
open Matrix

section
variable {n : Type} [Fintype n] [DecidableEq n]

theorem one_le_det_one_add {C : Matrix n n ℝ} (hC : C.PosSemidef) : 1 ≤ (1 + C).det := by
  have h : (1 + C).IsHermitian := (PosSemidef.one.add hC).isHermitian
  rw [h.det_eq_prod_eigenvalues]
  refine Finset.one_le_prod fun i _ => ?_
  rw [RCLike.ofReal_real_eq_id, id, h.eigenvalues_eq]
  have h1 := hC.dotProduct_mulVec_nonneg (h.eigenvectorBasis i).ofLp
  have h2 : star (h.eigenvectorBasis i).ofLp ⬝ᵥ (h.eigenvectorBasis i).ofLp = (1 : ℝ) := by
    have := EuclideanSpace.inner_eq_star_dotProduct (𝕜 := ℝ) (h.eigenvectorBasis i) (h.eigenvectorBasis i)
    rw [dotProduct_comm, ← this, real_inner_self_eq_norm_sq, h.eigenvectorBasis.norm_eq_one]
    norm_num
  rw [Matrix.add_mulVec, one_mulVec, dotProduct_add, h2]
  simpa using h1

open scoped MatrixOrder Matrix.Norms.L2Operator in
/-- More noise, more volume. -/
theorem det_le_det_add {A Q : Matrix n n ℝ} (hA : A.PosSemidef) (hQ : Q.PosSemidef) : A.det ≤ (A + Q).det := by
  by_cases h0 : A.det = 0
  · rw [h0]
    exact (hA.add hQ).det_nonneg
  obtain ⟨B, hB⟩ := CStarAlgebra.nonneg_iff_eq_star_mul_self.mp hA.nonneg
  have hB' : A = Bᵀ * B := hB
  have hu : IsUnit B.det := by
    refine isUnit_iff_ne_zero.2 fun h => h0 ?_
    rw [hB', det_mul, h, mul_zero]
  have hut : IsUnit Bᵀ.det := by rwa [det_transpose]
  have e : A + Q = Bᵀ * (1 + B⁻¹ᵀ * Q * B⁻¹) * B := by
    rw [Matrix.mul_add, Matrix.add_mul, Matrix.mul_one, ← hB', transpose_nonsing_inv, ← Matrix.mul_assoc,
      ← Matrix.mul_assoc, mul_nonsing_inv _ hut, Matrix.one_mul, Matrix.mul_assoc, nonsing_inv_mul _ hu, Matrix.mul_one]
  have hC : (B⁻¹ᵀ * Q * B⁻¹).PosSemidef := by
    have := psd_congr hQ B⁻¹ᵀ
    rwa [transpose_transpose] at this
  have h1 := one_le_det_one_add hC
  have h2 : (A + Q).det = A.det * (1 + B⁻¹ᵀ * Q * B⁻¹).det := by
    rw [e, det_mul, det_mul, hB', det_mul]
    ring
  rw [h2]
  exact le_mul_of_one_le_right hA.det_nonneg h1

end

/-- A transition that loses no volume and noise that is a covariance. -/
theorem volume_step {n : Type} [Fintype n] [DecidableEq n] {F P Q : Matrix n n ℝ} (h1 : 1 ≤ F.det)
    (hP : P.PosSemidef) (hQ : Q.PosSemidef) :
    P.det ≤ (F * P * Fᵀ + Q).det ∧ (P.PosDef → (F * P * Fᵀ + Q).PosDef) := by
  have hle : P.det ≤ (F * P * Fᵀ + Q).det := by
    refine le_trans ?_ (det_le_det_add (psd_congr hP F) hQ)
    rw [det_mul, det_mul, det_transpose]
    have h2 := hP.det_nonneg
    nlinarith [mul_nonneg h2 (mul_self_nonneg (F.det - 1)), mul_nonneg h2 (sub_nonneg.2 h1)]
  refine ⟨hle, fun hpd => ?_⟩
  have hpsd : (F * P * Fᵀ + Q).PosSemidef := (psd_congr hP F).add hQ
  exact hpsd.posDef_iff_det_ne_zero.2 (lt_of_lt_of_le hpd.det_pos hle).ne'

/-- The attitude block of the transition turns and stretches a little. -/
theorem fdBlocks_E_det (C : M33 ℝ) (w a : V3 ℝ) (dt : ℝ) :
    (fdBlocks C w a dt).E.det = 1 + ((w 0 ^ 2 + w 1 ^ 2 + w 2 ^ 2) * dt ^ 2) ^ 2 / 4 := by
  have : (fdBlocks C w a dt).E = 1 - dt • skew w + (dt * dt * (1 / 2)) • skew w * skew w := rfl
  rw [this, det_fin_three]
  simp [skew]
  ring

section
variable {aux : List VarDesc}

theorem coreBlock_entry (M : ErrMat ℝ (coreDef aux)) (r c : Fin (total errLen (coreDef aux)))
    (hr : r.val < 15) (hc : c.val < 15) : M r c =
      coreBlock M ⟨r.val / 3, by omega⟩ ⟨c.val / 3, by omega⟩ ⟨r.val % 3, by omega⟩ ⟨c.val % 3, by omega⟩ := by
  simp only [coreBlock, of_apply]
  congr 1 <;> exact Fin.ext (by simp; omega)

theorem coreBlock_one_ite (b b' : Fin 5) : coreBlock (1 : ErrMat ℝ (coreDef aux)) b b' = if b = b' then 1 else 0 := by
  ext i j
  simp only [coreBlock, of_apply, Matrix.one_apply]
  by_cases h : b = b'
  · subst h
    by_cases hij : i = j
    · subst hij; simp
    · have : (3 * b.val + i.val) ≠ 3 * b.val + j.val := fun e => hij (Fin.ext (by omega))
      rw [if_neg fun e => this (congrArg Fin.val e), if_pos rfl, Matrix.one_apply, if_neg hij]
  · have : (3 * b.val + i.val) ≠ 3 * b'.val + j.val := fun e => h (Fin.ext (by omega))
    simp [h, this]

/-- The blocks along which the transition is triangular: the attitude is one block. -/
def transBlock (r : Fin (total errLen (coreDef aux))) : Nat := if 6 ≤ r.val ∧ r.val < 9 then 6 else r.val

theorem setFd_lower (C : M33 ℝ) (w a : V3 ℝ) (dt : ℝ) (r c : Fin (total errLen (coreDef aux)))
    (hrc : transBlock r ≠ 6 ∧ r = c ∨ transBlock c < transBlock r) :
    setFd (fun b => 3 * b.idx.val) (1 : ErrMat ℝ (coreDef aux)) C w a dt r c = if r = c then 1 else 0 := by
  by_cases ho : 15 ≤ r.val ∨ 15 ≤ c.val
  · rw [setFd_outside _ (fun _ => rfl) _ _ _ _ _ _ _ ho, Matrix.one_apply]
  · push Not at ho
    rw [coreBlock_entry (setFd (fun b => 3 * b.idx.val) (1 : ErrMat ℝ (coreDef aux)) C w a dt) r c ho.1 ho.2, coreBlock_setFd _ (fun _ => rfl), coreBlock_one_ite]
    have hb : r.val / 3 > c.val / 3 ∨ (r.val / 3 = c.val / 3 ∧ r.val / 3 ≠ 2) := by
      unfold transBlock at hrc
      rcases hrc with ⟨h1, rfl⟩ | h
      · right
        split at h1 <;> omega
      · split at h <;> split at h <;> omega
    have n : ∀ x y : Fin 5, (x < y ∨ (x = 2 ∧ y = 2)) →
        ¬ ((⟨r.val / 3, by omega⟩ : Fin 5) = x ∧ (⟨c.val / 3, by omega⟩ : Fin 5) = y) := by
      rintro x y hxy ⟨rfl, rfl⟩
      rcases hxy with h | ⟨h, h'⟩
      · simp only [Fin.lt_def] at h
        omega
      · simp only [Fin.ext_iff] at h h'
        have : (2 : Fin 5).val = 2 := rfl
        omega
    rw [if_neg (n 2 3 (by decide)), if_neg (n 2 2 (by decide)), if_neg (n 1 4 (by decide)), if_neg (n 1 3 (by decide)),
      if_neg (n 1 2 (by decide)), if_neg (n 0 4 (by decide)), if_neg (n 0 3 (by decide)), if_neg (n 0 2 (by decide)),
      if_neg (n 0 1 (by decide))]
    by_cases h : r = c
    · subst h; simp
    · rw [if_neg h]
      split
      · rename_i e
        rw [Matrix.one_apply, if_neg]
        intro e'
        simp only [Fin.ext_iff] at e e'
        exact h (Fin.ext (by omega))
      · rfl

/-- The determinant of the transition is that of its attitude block. -/
theorem setFd_det (C : M33 ℝ) (w a : V3 ℝ) (dt : ℝ) :
    (setFd (fun b => 3 * b.idx.val) (1 : ErrMat ℝ (coreDef aux)) C w a dt).det =
      1 + ((w 0 ^ 2 + w 1 ^ 2 + w 2 ^ 2) * dt ^ 2) ^ 2 / 4 := by
  set F := setFd (fun b => 3 * b.idx.val) (1 : ErrMat ℝ (coreDef aux)) C w a dt with hF
  have ht : BlockTriangular F transBlock := by
    intro r c h
    rw [hF, setFd_lower C w a dt r c (.inr h), if_neg]
    rintro rfl
    exact lt_irrefl _ h
  have hle := core_le_total aux
  rw [ht.det, Finset.prod_eq_single 6]
  · let e : Fin 3 ≃ { r : Fin (total errLen (coreDef aux)) // transBlock r = 6 } :=
      { toFun := fun i => ⟨⟨6 + i.val, by omega⟩, by simp [transBlock]; omega⟩
        invFun := fun r => ⟨r.1.val - 6, by
          have := r.2
          unfold transBlock at this
          split at this <;> omega⟩
        left_inv := fun i => Fin.ext (by simp)
        right_inv := fun r => Subtype.ext (Fin.ext (by
          have := r.2
          unfold transBlock at this
          simp only
          split at this <;> omega)) }
    rw [← det_submatrix_equiv_self e, ← fdBlocks_E_det C w a dt]
    congr 1
    have : (fdBlocks C w a dt).E = coreBlock F 2 2 := by
      rw [hF, coreBlock_setFd _ (fun _ => rfl)]; simp
    rw [this]
    rfl
  · intro k _ hk
    have hs : ∀ r s : { r : Fin (total errLen (coreDef aux)) // transBlock r = k }, r = s := by
      intro r s
      have h1 := r.2
      have h2 := s.2
      unfold transBlock at h1 h2
      refine Subtype.ext (Fin.ext ?_)
      split at h1 <;> split at h2 <;> omega
    by_cases hne : Nonempty { r : Fin (total errLen (coreDef aux)) // transBlock r = k }
    · obtain ⟨r⟩ := hne
      have : Subsingleton { r : Fin (total errLen (coreDef aux)) // transBlock r = k } := ⟨hs⟩
      rw [det_eq_elem_of_subsingleton _ r]
      change F r.1 r.1 = 1
      rw [hF, setFd_lower C w a dt r.1 r.1 (.inl ⟨by rw [r.2]; exact hk, rfl⟩), if_pos rfl]
    · have := not_nonempty_iff.1 hne
      exact det_isEmpty
  · intro h
    exfalso
    refine h (Finset.mem_image.2 ⟨⟨6, by omega⟩, Finset.mem_univ _, ?_⟩)
    simp [transBlock]

end

end MSF
