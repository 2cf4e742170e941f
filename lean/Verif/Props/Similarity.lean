import Verif.Model.Similarity
import Verif.Props.Predict
import Mathlib.LinearAlgebra.Matrix.Rank
import Mathlib.Analysis.Matrix.Spectrum

/-!
# Properties of covariance messages (C54) and of the average similarity transform (C64)
-/

namespace MSF

open Matrix

/-! ### C54 -/

section
variable {R : Type}

theorem toArray6_apply (M : Matrix (Fin 6) (Fin 6) R) (i j : Fin 6) (h : 6 * j.val + i.val < 36) :
    toArray6 M ⟨6 * j + i, h⟩ = M i j := by
  unfold toArray6
  congr 1 <;> refine Fin.ext ?_ <;> simp only <;> omega

theorem ofArray6_toArray6 (M : Matrix (Fin 6) (Fin 6) R) : ofArray6 (toArray6 M) = M := by
  ext i j
  have := toArray6_apply M i j (by omega)
  rw [← this]
  simp only [ofArray6, colMajor6, Matrix.of_apply]
  congr 1
  exact Fin.ext (by simp only; omega)

theorem ofArray6_at (g : Fin 36 → R) (i j : Fin 6) (h : 6 * j.val + i.val < 36) :
    ofArray6 g i j = g ⟨6 * j + i, h⟩ := by
  simp only [ofArray6, colMajor6, Matrix.of_apply]
  congr 1
  exact Fin.ext (by simp only; omega)

theorem blockPos6_nat (n : Nat) (h : n + 3 ≤ 6) : blockPos6 (n : Int) = some ⟨n, h⟩ := by
  unfold blockPos6
  rw [dif_pos ⟨Int.natCast_nonneg n, by simpa using h⟩]
  simp

theorem getBlock_setBlock {n m a b : Nat} (M : Matrix (Fin n) (Fin m) R) (i j : Nat)
    (B : Matrix (Fin a) (Fin b) R) (hi : i + a ≤ n) (hj : j + b ≤ m) :
    getBlock (setBlock M i j B) i j a b hi hj = B := by
  ext r c
  simp [getBlock, setBlock]

theorem getBlock_setBlock_ne {n m a b a' b' : Nat} (M : Matrix (Fin n) (Fin m) R) (i j i' j' : Nat)
    (B : Matrix (Fin a) (Fin b) R) (hi : i' + a' ≤ n) (hj : j' + b' ≤ m)
    (hd : i + a ≤ i' ∨ i' + a' ≤ i ∨ j + b ≤ j' ∨ j' + b' ≤ j) :
    getBlock (setBlock M i j B) i' j' a' b' hi hj = getBlock M i' j' a' b' hi hj := by
  ext r c
  simp only [getBlock, setBlock, Matrix.of_apply]
  rw [dif_neg]
  have := r.2
  have := c.2
  omega

/-- **C54.**  For the documented positions (`cov::p = 0`, `cov::q = 3`) and any diagonal position:
the block written is the block read; reading the mirrored position gives the transpose; every entry
outside the two blocks is unchanged; a symmetric message stays symmetric (for a diagonal position:
if the block is symmetric). -/
theorem C54_round_trip (gcov : Fin 36 → R) (B : M33 R) (r c : Int)
    (hpos : (r = c ∧ 0 ≤ r ∧ r ≤ 3) ∨ (r = 0 ∧ c = 3) ∨ (r = 3 ∧ c = 0)) :
    ∃ g, eigenCovBlock gcov B r c = some g ∧
      covBlockToEigen g r c = some B ∧
      (r ≠ c → covBlockToEigen g c r = some Bᵀ) ∧
      (∀ i j : Fin 6, ¬ (r ≤ i ∧ i < r + 3 ∧ c ≤ j ∧ j < c + 3) →
        ¬ (c ≤ i ∧ i < c + 3 ∧ r ≤ j ∧ j < r + 3) →
        g ⟨6 * j + i, by omega⟩ = gcov ⟨6 * j + i, by omega⟩) ∧
      ((∀ i j : Fin 6, gcov ⟨6 * j + i, by omega⟩ = gcov ⟨6 * i + j, by omega⟩) →
        (r = c → Bᵀ = B) →
        ∀ i j : Fin 6, g ⟨6 * j + i, by omega⟩ = g ⟨6 * i + j, by omega⟩) := by
  obtain ⟨a, b, ha, hb, hab, hr, hc⟩ : ∃ a b : Nat, a + 3 ≤ 6 ∧ b + 3 ≤ 6 ∧
      (a = b ∨ a + 3 ≤ b ∨ b + 3 ≤ a) ∧ r = (a : Int) ∧ c = (b : Int) :=
    ⟨r.toNat, c.toNat, by omega, by omega, by omega, by omega, by omega⟩
  subst hr hc
  by_cases e : a = b
  · subst e
    refine ⟨toArray6 (setBlock (ofArray6 gcov) a a B), ?_, ?_, ?_, ?_, ?_⟩
    · simp [eigenCovBlock, blockPos6_nat a ha]
    · simp [covBlockToEigen, blockPos6_nat a ha, ofArray6_toArray6, getBlock_setBlock]
    · intro h; exact absurd rfl h
    · intro i j h1 h2
      rw [toArray6_apply, setBlock, Matrix.of_apply, dif_neg (by omega), ofArray6_at]
    · intro hs hB i j
      have hB := hB rfl
      rw [toArray6_apply, toArray6_apply, setBlock, Matrix.of_apply, Matrix.of_apply]
      by_cases h : (a ≤ i.val ∧ i.val < a + 3) ∧ (a ≤ j.val ∧ j.val < a + 3)
      · rw [dif_pos h, dif_pos (by omega)]
        conv_lhs => rw [← hB]
        rfl
      · rw [dif_neg h, dif_neg (by omega), ofArray6_at gcov i j (by omega), ofArray6_at gcov j i (by omega), hs]
  · have hne : (a : Int) ≠ (b : Int) := by omega
    have hd : a + 3 ≤ b ∨ b + 3 ≤ a := by omega
    refine ⟨toArray6 (setBlock (setBlock (ofArray6 gcov) a b B) b a Bᵀ), ?_, ?_, ?_, ?_, ?_⟩
    · simp [eigenCovBlock, blockPos6_nat a ha, blockPos6_nat b hb, e]
    · simp only [covBlockToEigen, blockPos6_nat a ha, blockPos6_nat b hb, Option.bind_eq_bind,
        Option.bind_some, ofArray6_toArray6]
      rw [getBlock_setBlock_ne _ _ _ _ _ _ _ _ (by omega), getBlock_setBlock]
    · intro _
      simp only [covBlockToEigen, blockPos6_nat a ha, blockPos6_nat b hb, Option.bind_eq_bind,
        Option.bind_some, ofArray6_toArray6]
      rw [getBlock_setBlock]
    · intro i j h1 h2
      rw [toArray6_apply, setBlock, Matrix.of_apply, dif_neg (by omega), setBlock, Matrix.of_apply,
        dif_neg (by omega), ofArray6_at]
    · intro hs _ i j
      rw [toArray6_apply, toArray6_apply]
      simp only [setBlock, Matrix.of_apply]
      by_cases h1 : (b ≤ i.val ∧ i.val < b + 3) ∧ (a ≤ j.val ∧ j.val < a + 3)
      · rw [dif_pos h1, dif_neg (by omega), dif_pos (by omega)]
        rfl
      · rw [dif_neg h1]
        by_cases h2 : (a ≤ i.val ∧ i.val < a + 3) ∧ (b ≤ j.val ∧ j.val < b + 3)
        · rw [dif_pos h2, dif_pos (by omega)]
          rfl
        · rw [dif_neg h2, dif_neg (by omega), dif_neg (by omega), ofArray6_at gcov i j (by omega), ofArray6_at gcov j i (by omega), hs]

/-- Writing at a position whose block overlaps its mirror image does not round-trip; such positions
are not documented. -/
theorem C54_overlap : ∃ g, eigenCovBlock (fun _ => (0 : ℚ)) !![1, 2, 3; 4, 5, 6; 7, 8, 9] 0 1 = some g ∧
    covBlockToEigen g 0 1 ≠ some !![1, 2, 3; 4, 5, 6; 7, 8, 9] := by
  refine ⟨_, rfl, ?_⟩
  decide +kernel

example : ∃ g, eigenCovBlock (fun k => (k : ℚ)) !![1, 2, 3; 4, 5, 6; 7, 8, 9] 0 3 = some g ∧
    covBlockToEigen g 3 0 = some !![1, 4, 7; 2, 5, 8; 3, 6, 9] := by
  refine ⟨_, rfl, ?_⟩
  decide +kernel

end

/-! ### C64 -/

/-- Specification of `SelfAdjointEigenSolver`: for a symmetric matrix the last eigenvector is a unit
eigenvector of the largest eigenvalue. -/
def TopEigenvector (M : M44 ℝ) (v : Fin 4 → ℝ) : Prop :=
  v ⬝ᵥ v = 1 ∧ ∃ l : ℝ, M *ᵥ v = l • v ∧ ∀ u, u ⬝ᵥ (M *ᵥ u) ≤ l * (u ⬝ᵥ u)

/-- Specification of `JacobiSVD`. -/
structure IsSVD (A : M44 ℝ) (d : SVD) : Prop where
  eq : A = d.U * diagonal d.S * d.Vᵀ
  orthU : d.Uᵀ * d.U = 1
  orthV : d.Vᵀ * d.V = 1
  nonneg : ∀ i, 0 ≤ d.S i

/-- Both solvers meet their specification (eigen solver: on symmetric matrices; singular values:
on positive semidefinite matrices). -/
structure Solvers.Correct (so : Solvers) : Prop where
  eig : ∀ M : M44 ℝ, Mᵀ = M → TopEigenvector M (so.lastEigenvector M)
  svd : ∀ A : M44 ℝ, A.PosSemidef → IsSVD A (so.svd A)

/-- Normal equations have a solution. -/
theorem normal_eq_solvable {m : Type} [Fintype m] (A : Matrix m (Fin 4) ℝ) (b : m → ℝ) :
    ∃ y, (Aᵀ * A) *ᵥ y = Aᵀ *ᵥ b := by
  have hle : LinearMap.range (Aᵀ * A).mulVecLin ≤ LinearMap.range Aᵀ.mulVecLin := by
    rintro _ ⟨y, rfl⟩
    exact ⟨A *ᵥ y, by simp⟩
  have hrank : (Aᵀ * A).rank = Aᵀ.rank := by
    rw [Matrix.rank_transpose_mul_self, Matrix.rank_transpose]
  have := Submodule.eq_of_le_of_finrank_eq hle hrank
  have hb : Aᵀ.mulVecLin b ∈ LinearMap.range (Aᵀ * A).mulVecLin := this ▸ ⟨b, rfl⟩
  obtain ⟨y, hy⟩ := hb
  exact ⟨y, hy⟩

theorem pinv_solves {m : Type} [Fintype m] (A : Matrix m (Fin 4) ℝ) (b : m → ℝ) (d : SVD) (eps : ℝ)
    (h : IsSVD (Aᵀ * A) d) (heps : 0 < eps) (hgap : ∀ i, d.S i = 0 ∨ eps ≤ d.S i) :
    (Aᵀ * A) *ᵥ ((d.V * diagonal (Sim.invS d.S eps) * d.Uᵀ) *ᵥ (Aᵀ *ᵥ b)) = Aᵀ *ᵥ b := by
  obtain ⟨y, hy⟩ := normal_eq_solvable A b
  rw [← hy, Matrix.mulVec_mulVec, Matrix.mulVec_mulVec]
  congr 1
  have hs : diagonal d.S * diagonal (Sim.invS d.S eps) * diagonal d.S = diagonal d.S := by
    rw [Matrix.diagonal_mul_diagonal, Matrix.diagonal_mul_diagonal]
    congr 1
    funext i
    rcases hgap i with h0 | h0
    · simp [h0]
    · have : d.S i ≠ 0 := (lt_of_lt_of_le heps h0).ne'
      simp only [Sim.invS, if_neg (not_lt.2 h0)]
      field_simp
  calc (Aᵀ * A) * (d.V * diagonal (Sim.invS d.S eps) * d.Uᵀ) * (Aᵀ * A)
      = d.U * diagonal d.S * (d.Vᵀ * d.V) * diagonal (Sim.invS d.S eps) * (d.Uᵀ * d.U) *
          diagonal d.S * d.Vᵀ := by rw [h.eq]; simp only [Matrix.mul_assoc]
    _ = d.U * (diagonal d.S * diagonal (Sim.invS d.S eps) * diagonal d.S) * d.Vᵀ := by
        rw [h.orthU, h.orthV]; simp only [Matrix.mul_assoc, Matrix.mul_one]
    _ = Aᵀ * A := by rw [hs, ← h.eq]

theorem normal_eq_optimal {m : Type} [Fintype m] (A : Matrix m (Fin 4) ℝ) (b : m → ℝ)
    (x y : Fin 4 → ℝ) (hx : (Aᵀ * A) *ᵥ x = Aᵀ *ᵥ b) :
    (A *ᵥ x - b) ⬝ᵥ (A *ᵥ x - b) ≤ (A *ᵥ y - b) ⬝ᵥ (A *ᵥ y - b) := by
  have e : A *ᵥ y - b = (A *ᵥ x - b) + A *ᵥ (y - x) := by rw [Matrix.mulVec_sub]; abel
  have horth : A *ᵥ (y - x) ⬝ᵥ (A *ᵥ x - b) = 0 := by
    have : Aᵀ *ᵥ (A *ᵥ x - b) = 0 := by
      rw [Matrix.mulVec_sub, Matrix.mulVec_mulVec, hx, sub_self]
    rw [dotProduct_comm, Matrix.dotProduct_mulVec, ← Matrix.mulVec_transpose, this, zero_dotProduct]
  rw [e, add_dotProduct, dotProduct_add, dotProduct_add, horth, dotProduct_comm (A *ᵥ x - b) (A *ᵥ (y - x)), horth]
  have : 0 ≤ A *ᵥ (y - x) ⬝ᵥ A *ᵥ (y - x) := by
    rw [dotProduct]
    exact Finset.sum_nonneg fun i _ => mul_self_nonneg _
  linarith

theorem rotate_eq {R : Type} [CommRing R] (q : Quat R) (v : V3 R) : q.rotate v = q.toRot *ᵥ v := by
  funext i
  fin_cases i <;>
    simp [Quat.rotate, Quat.toRot, Matrix.mulVec, dotProduct, Fin.sum_univ_three, Matrix.vecHead,
      Matrix.vecTail] <;> ring

theorem inverse_unit {q : Quat ℝ} (h : q.normSq = 1) : q.inverse = q.conj := by
  simp [Quat.inverse, h, Quat.conj]

theorem toRot_conj {R : Type} [CommRing R] (q : Quat R) : q.conj.toRot = q.toRotᵀ := by
  ext i j
  fin_cases i <;> fin_cases j <;> simp [Quat.conj, Quat.toRot] <;> ring

theorem sqNorm3_eq (v : V3 ℝ) : sqNorm3 v = v ⬝ᵥ v := by
  simp [sqNorm3, dotProduct, Fin.sum_univ_three]

theorem sqNorm3_rot {q : Quat ℝ} (h : q.normSq = 1) (v : V3 ℝ) :
    sqNorm3 (q.toRotᵀ *ᵥ v) = sqNorm3 v := by
  rw [sqNorm3_eq, sqNorm3_eq, Matrix.dotProduct_mulVec, ← Matrix.mulVec_transpose,
    Matrix.transpose_transpose, Matrix.mulVec_mulVec, toRot_orthogonal q h, Matrix.one_mulVec]

theorem rot_transpose_mul {q : Quat ℝ} (h : q.normSq = 1) : q.toRotᵀ * q.toRot = 1 :=
  mul_eq_one_comm.1 (toRot_orthogonal q h)

/-- Sum of the squared position residuals of a transform: the second position, scaled by `s`,
should be the first one displaced by `t` in the first body frame. -/
noncomputable def simCost (ms : List (Pose × Pose)) (t : V3 ℝ) (s : ℝ) : ℝ :=
  (ms.map fun m => sqNorm3 (s • m.2.position - m.1.position - m.1.orientation.toRot *ᵥ t)).sum

/-- Sum of the squared cosines of half the angles between a rotation and the relative rotations of
the pairs. -/
noncomputable def simScore (ms : List (Pose × Pose)) (v : Quat ℝ) : ℝ :=
  (ms.map fun m => ((m.1.orientation.conj.mul m.2.orientation).coeffs ⬝ᵥ v.coeffs) ^ 2).sum

theorem sum_get {α : Type} (l : List α) (f : α → ℝ) : ∑ i : Fin l.length, f (l.get i) = (l.map f).sum := by
  rw [← List.sum_ofFn]
  congr 1
  refine List.ext_getElem (by simp) fun i h1 h2 => by simp

theorem cost_eq (ms : List (Pose × Pose)) (h1 : ∀ m ∈ ms, m.1.orientation.normSq = 1)
    (x : Fin 4 → ℝ) :
    (Sim.matA ms *ᵥ x - Sim.vecB ms) ⬝ᵥ (Sim.matA ms *ᵥ x - Sim.vecB ms) =
      simCost ms ![x 0, x 1, x 2] (x 3) := by
  rw [dotProduct, Fintype.sum_prod_type, simCost, ← sum_get]
  refine Finset.sum_congr rfl fun i _ => ?_
  have hu := h1 (ms.get i) (List.get_mem ms i)
  rw [← sqNorm3_rot hu, sqNorm3_eq, dotProduct]
  refine Finset.sum_congr rfl fun k _ => ?_
  have e : (Sim.matA ms *ᵥ x - Sim.vecB ms) (i, k) =
      ((ms.get i).1.orientation.toRotᵀ *ᵥ (x 3 • (ms.get i).2.position - (ms.get i).1.position -
        (ms.get i).1.orientation.toRot *ᵥ ![x 0, x 1, x 2])) k := by
    rw [Matrix.mulVec_sub, Matrix.mulVec_sub, Matrix.mulVec_mulVec, rot_transpose_mul hu,
      Matrix.one_mulVec, Matrix.mulVec_smul]
    simp only [Pi.sub_apply, Pi.smul_apply, Matrix.mulVec, dotProduct, Fin.sum_univ_four, Sim.matA,
      Matrix.of_apply, Sim.vecB, inverse_unit hu, rotate_eq, toRot_conj, Fin.sum_univ_three]
    fin_cases k <;> simp [Matrix.one_apply] <;> ring
  rw [e]

theorem outerSum_fold (ms : List (Pose × Pose)) (M : M44 ℝ) (u : Fin 4 → ℝ) :
    u ⬝ᵥ ((ms.foldl (fun M m => M + vecMulVec (Sim.relRot m).coeffs (Sim.relRot m).coeffs) M) *ᵥ u) =
      u ⬝ᵥ (M *ᵥ u) + (ms.map fun m => ((Sim.relRot m).coeffs ⬝ᵥ u) ^ 2).sum := by
  induction ms generalizing M with
  | nil => simp
  | cons m ms ih =>
    rw [List.foldl_cons, ih, List.map_cons, List.sum_cons, Matrix.add_mulVec, dotProduct_add,
      add_assoc]
    congr 2
    simp only [vecMulVec, dotProduct, Matrix.mulVec, Matrix.of_apply, Fin.sum_univ_four]
    ring

theorem outerSum_symm (ms : List (Pose × Pose)) : (Sim.outerSum ms)ᵀ = Sim.outerSum ms := by
  have : ∀ (ms : List (Pose × Pose)) (M : M44 ℝ), Mᵀ = M →
      (ms.foldl (fun M m => M + vecMulVec (Sim.relRot m).coeffs (Sim.relRot m).coeffs) M)ᵀ =
      ms.foldl (fun M m => M + vecMulVec (Sim.relRot m).coeffs (Sim.relRot m).coeffs) M := by
    intro ms
    induction ms with
    | nil => intro M h; exact h
    | cons m ms ih =>
      intro M h
      refine ih _ ?_
      rw [Matrix.transpose_add, h, Matrix.transpose_vecMulVec]
  exact this ms 0 (Matrix.transpose_zero)

theorem score_eq (ms : List (Pose × Pose)) (h1 : ∀ m ∈ ms, m.1.orientation.normSq = 1)
    (v : Quat ℝ) : v.coeffs ⬝ᵥ (Sim.outerSum ms *ᵥ v.coeffs) = simScore ms v := by
  rw [Sim.outerSum, outerSum_fold, Matrix.zero_mulVec, dotProduct_zero, zero_add, simScore]
  congr 1
  refine List.map_congr_left fun m hm => ?_
  rw [Sim.relRot, inverse_unit (h1 m hm)]

theorem coeffs_ofCoeffs (c : Fin 4 → ℝ) : (Quat.ofCoeffs c).coeffs = c := by
  funext i; fin_cases i <;> rfl

theorem normSq_coeffs (q : Quat ℝ) : q.coeffs ⬝ᵥ q.coeffs = q.normSq := by
  simp [Quat.coeffs, Quat.normSq, dotProduct, Fin.sum_univ_four]
  ring

theorem gram_psd {m : Type} [Fintype m] (A : Matrix m (Fin 4) ℝ) : (Aᵀ * A).PosSemidef := by
  have := Matrix.posSemidef_conjTranspose_mul_self A
  rwa [Matrix.conjTranspose_eq_transpose_of_trivial] at this

/-- **C64.**  For every set of at least two pose pairs with unit quaternions in the first poses: the
call succeeds, the returned position and scale minimise the sum of squared position residuals over
all positions and scales, and the returned rotation is a unit quaternion that maximises the
alignment with the relative rotations over all unit quaternions.  (Solvers of Eigen correct, no
singular value strictly between 0 and `eps`.) -/
theorem C64_optimal (so : Solvers) (hso : so.Correct) (ms : List (Pose × Pose)) (eps : ℝ)
    (hlen : 2 ≤ ms.length) (h1 : ∀ m ∈ ms, m.1.orientation.normSq = 1) (heps : 0 < eps)
    (hgap : ∀ i, (so.svd ((Sim.matA ms)ᵀ * Sim.matA ms)).S i = 0 ∨
      eps ≤ (so.svd ((Sim.matA ms)ᵀ * Sim.matA ms)).S i) :
    ∃ pose scale, Sim.compute so ms eps = .ok pose scale ∧
      (∀ t s, simCost ms pose.position scale ≤ simCost ms t s) ∧
      pose.orientation.normSq = 1 ∧
      ∀ v : Quat ℝ, v.normSq = 1 → simScore ms v ≤ simScore ms pose.orientation := by
  have hd := hso.svd ((Sim.matA ms)ᵀ * Sim.matA ms) (gram_psd _)
  obtain ⟨e1, l, e2, e3⟩ := hso.eig _ (outerSum_symm ms)
  have hno : ¬ ∃ i, ¬ (so.svd ((Sim.matA ms)ᵀ * Sim.matA ms)).S i < eps ∧
      (so.svd ((Sim.matA ms)ᵀ * Sim.matA ms)).S i = 0 := by
    rintro ⟨i, hi, hi0⟩
    exact hi (hi0 ▸ heps)
  have hc : ∃ pose scale, Sim.compute so ms eps = .ok pose scale ∧
      pose.orientation = Quat.ofCoeffs (so.lastEigenvector (Sim.outerSum ms)) ∧
      ∃ x, x = ((so.svd ((Sim.matA ms)ᵀ * Sim.matA ms)).V *
          diagonal (Sim.invS (so.svd ((Sim.matA ms)ᵀ * Sim.matA ms)).S eps) *
          (so.svd ((Sim.matA ms)ᵀ * Sim.matA ms)).Uᵀ) *ᵥ ((Sim.matA ms)ᵀ *ᵥ Sim.vecB ms) ∧
        pose.position = ![x 0, x 1, x 2] ∧ scale = x 3 := by
    refine ⟨_, _, by rw [Sim.compute, if_neg (by omega)]; simp only; rw [if_neg hno], rfl, _, rfl,
      rfl, rfl⟩
  obtain ⟨pose, scale, hc, ho, x, hxd, hp, hs⟩ := hc
  refine ⟨pose, scale, hc, ?_, ?_, ?_⟩
  · intro t s
    have hx := pinv_solves (Sim.matA ms) (Sim.vecB ms) _ eps hd heps hgap
    rw [← hxd] at hx
    rw [hp, hs]
    have := normal_eq_optimal _ _ _ ![t 0, t 1, t 2, s] hx
    rw [cost_eq ms h1, cost_eq ms h1] at this
    have ht : (![t 0, t 1, t 2] : V3 ℝ) = t := by funext i; fin_cases i <;> rfl
    simpa [ht] using this
  · rw [ho, ← normSq_coeffs, coeffs_ofCoeffs]; exact e1
  · intro v hv
    rw [ho, ← score_eq ms h1, ← score_eq ms h1, coeffs_ofCoeffs, e2]
    have := e3 v.coeffs
    rw [normSq_coeffs, hv, mul_one] at this
    rw [dotProduct_smul, e1, smul_eq_mul, mul_one]
    exact this

/-- **C64, exact data.**  If one displacement `t`, scale `s` and rotation `q` explain all pairs, and
the positions determine the transform (the cost has no other zero), exactly this transform is
returned, the rotation up to the sign of the quaternion. -/
theorem C64_exact (so : Solvers) (hso : so.Correct) (ms : List (Pose × Pose)) (eps : ℝ)
    (hlen : 2 ≤ ms.length) (h1 : ∀ m ∈ ms, m.1.orientation.normSq = 1) (heps : 0 < eps)
    (hgap : ∀ i, (so.svd ((Sim.matA ms)ᵀ * Sim.matA ms)).S i = 0 ∨
      eps ≤ (so.svd ((Sim.matA ms)ᵀ * Sim.matA ms)).S i)
    (t : V3 ℝ) (s : ℝ) (q : Quat ℝ) (hq : q.normSq = 1)
    (hpos : ∀ m ∈ ms, s • m.2.position = m.1.position + m.1.orientation.toRot *ᵥ t)
    (hrot : ∀ m ∈ ms, m.2.orientation = m.1.orientation.mul q ∨
      m.2.orientation.coeffs = -(m.1.orientation.mul q).coeffs)
    (hdet : ∃ m ∈ ms, ∃ m' ∈ ms, m.1.orientation.toRotᵀ *ᵥ m.2.position ≠
      m'.1.orientation.toRotᵀ *ᵥ m'.2.position) :
    ∃ pose, Sim.compute so ms eps = .ok pose s ∧ pose.position = t ∧
      (pose.orientation = q ∨ pose.orientation.coeffs = -q.coeffs) := by
  obtain ⟨pose, scale, hc, hcost, hu, hscore⟩ := C64_optimal so hso ms eps hlen h1 heps hgap
  have hz : simCost ms t s = 0 := by
    rw [simCost]
    refine List.sum_eq_zero fun r hr => ?_
    obtain ⟨m, hm, rfl⟩ := List.mem_map.1 hr
    rw [hpos m hm, add_sub_cancel_left, sub_self]
    simp [sqNorm3]
  have hz' : simCost ms pose.position scale ≤ 0 := hz ▸ hcost t s
  have hall : ∀ m ∈ ms, scale • m.2.position = m.1.position + m.1.orientation.toRot *ᵥ pose.position := by
    intro m hm
    have hle : sqNorm3 (scale • m.2.position - m.1.position - m.1.orientation.toRot *ᵥ pose.position) ≤ 0 := by
      refine le_trans ?_ hz'
      rw [simCost]
      refine List.single_le_sum ?_ _ (List.mem_map.2 ⟨m, hm, rfl⟩)
      intro r hr
      obtain ⟨m', _, rfl⟩ := List.mem_map.1 hr
      exact sqNorm3_nonneg _
    have h0 := le_antisymm hle (sqNorm3_nonneg _)
    rw [sqNorm3_eq, dotProduct_self_eq_zero] at h0
    rw [sub_sub, sub_eq_zero] at h0
    exact h0
  have hdiff : ∀ m ∈ ms, (scale - s) • (m.1.orientation.toRotᵀ *ᵥ m.2.position) = pose.position - t := by
    intro m hm
    have e : (scale - s) • m.2.position = m.1.orientation.toRot *ᵥ (pose.position - t) := by
      rw [sub_smul, hall m hm, hpos m hm, Matrix.mulVec_sub]
      abel
    rw [← Matrix.mulVec_smul, e, Matrix.mulVec_mulVec, rot_transpose_mul (h1 m hm), Matrix.one_mulVec]
  have hs : scale = s := by
    obtain ⟨m, hm, m', hm', hne⟩ := hdet
    by_contra hne'
    have := (hdiff m hm).trans (hdiff m' hm').symm
    exact hne (smul_right_injective _ (sub_ne_zero.2 hne') this)
  subst hs
  have ht : pose.position = t := by
    obtain ⟨m, hm, _⟩ := hdet
    have := hdiff m hm
    rw [sub_self, zero_smul] at this
    exact (sub_eq_zero.1 this.symm)
  refine ⟨pose, hc, ht, ?_⟩
  have hterm : ∀ v : Quat ℝ, simScore ms v = ms.length * (q.coeffs ⬝ᵥ v.coeffs) ^ 2 := by
    intro v
    rw [simScore]
    have : ∀ m ∈ ms, ((m.1.orientation.conj.mul m.2.orientation).coeffs ⬝ᵥ v.coeffs) ^ 2 =
        (q.coeffs ⬝ᵥ v.coeffs) ^ 2 := by
      intro m hm
      have hid : m.1.orientation.conj.mul (m.1.orientation.mul q) = q := by
        rw [← Quat.mul_assoc', Quat.conj_mul_self, h1 m hm]
        exact Quat.one_mul' q
      rcases hrot m hm with h | h
      · rw [h, hid]
      · have : (m.1.orientation.conj.mul m.2.orientation).coeffs = -q.coeffs := by
          have hc : ∀ (a b c : Quat ℝ), b.coeffs = -c.coeffs → (a.mul b).coeffs = -(a.mul c).coeffs := by
            intro a b c e
            have ex : b.x = -c.x := congrFun e 0
            have ey : b.y = -c.y := congrFun e 1
            have ez : b.z = -c.z := congrFun e 2
            have ew : b.w = -c.w := congrFun e 3
            funext i
            fin_cases i <;> simp [Quat.coeffs, Quat.mul, ex, ey, ez, ew] <;> ring
          rw [hc _ _ _ h, hid]
        rw [this, neg_dotProduct, neg_sq]
    rw [List.map_congr_left this]
    simp
  have hq2 : q.coeffs ⬝ᵥ q.coeffs = 1 := by rw [normSq_coeffs, hq]
  have hv2 : pose.orientation.coeffs ⬝ᵥ pose.orientation.coeffs = 1 := by rw [normSq_coeffs, hu]
  have hge := hscore q hq
  rw [hterm, hterm, hq2, one_pow] at hge
  have hn : (0 : ℝ) < ms.length := by
    have : 0 < ms.length := by omega
    exact_mod_cast this
  have hge : 1 ≤ (q.coeffs ⬝ᵥ pose.orientation.coeffs) ^ 2 := le_of_mul_le_mul_left hge hn
  set c := q.coeffs ⬝ᵥ pose.orientation.coeffs with hcdef
  have hz2 : (pose.orientation.coeffs - c • q.coeffs) ⬝ᵥ (pose.orientation.coeffs - c • q.coeffs) = 1 - c ^ 2 := by
    rw [sub_dotProduct, dotProduct_sub, dotProduct_sub, smul_dotProduct, dotProduct_smul,
      smul_dotProduct, dotProduct_smul, hq2, hv2, dotProduct_comm pose.orientation.coeffs, ← hcdef]
    simp only [smul_eq_mul]
    ring
  have hnn : 0 ≤ (pose.orientation.coeffs - c • q.coeffs) ⬝ᵥ (pose.orientation.coeffs - c • q.coeffs) := by
    rw [dotProduct]
    exact Finset.sum_nonneg fun i _ => mul_self_nonneg _
  have hc1 : c ^ 2 = 1 := by linarith [hz2 ▸ hnn]
  rw [hc1, sub_self, dotProduct_self_eq_zero, sub_eq_zero] at hz2
  have hcc : ∀ a b : Quat ℝ, a.coeffs = b.coeffs → a = b := by
    intro a b e
    ext
    · exact congrFun e 3
    · exact congrFun e 0
    · exact congrFun e 1
    · exact congrFun e 2
  rw [sq] at hc1
  rcases mul_self_eq_one_iff.1 hc1 with h | h
  · exact Or.inl (hcc _ _ (by rw [hz2, h, one_smul]))
  · exact Or.inr (by rw [hz2, h, neg_smul, one_smul])

theorem symm_diagonalize (A : M44 ℝ) (hA : Aᵀ = A) :
    ∃ (U : M44 ℝ) (S : Fin 4 → ℝ), Uᵀ * U = 1 ∧ U * Uᵀ = 1 ∧ A = U * diagonal S * Uᵀ := by
  have hh : A.IsHermitian := by
    rw [Matrix.IsHermitian, Matrix.conjTranspose_eq_transpose_of_trivial]; exact hA
  refine ⟨hh.eigenvectorUnitary, hh.eigenvalues, ?_, ?_, ?_⟩
  · have := Unitary.coe_star_mul_self hh.eigenvectorUnitary
    rwa [Matrix.star_eq_conjTranspose, Matrix.conjTranspose_eq_transpose_of_trivial] at this
  · have := Unitary.coe_mul_star_self hh.eigenvectorUnitary
    rwa [Unitary.coe_star, Matrix.star_eq_conjTranspose,
      Matrix.conjTranspose_eq_transpose_of_trivial] at this
  · have := hh.spectral_theorem
    rw [Unitary.conjStarAlgAut_apply] at this
    rw [Matrix.star_eq_conjTranspose, Matrix.conjTranspose_eq_transpose_of_trivial] at this
    exact this

/-- Correct solvers exist, so the theorems are about something. -/
theorem correct_solvers_exist : ∃ so : Solvers, so.Correct := by
  have h1 : ∀ M : M44 ℝ, ∃ v, Mᵀ = M → TopEigenvector M v := by
    intro M
    by_cases hM : Mᵀ = M
    · obtain ⟨U, S, hU, hU', hd⟩ := symm_diagonalize M hM
      obtain ⟨i, hi⟩ := Finite.exists_max S
      refine ⟨U *ᵥ Pi.single i 1, fun _ => ⟨?_, S i, ?_, ?_⟩⟩
      · rw [Matrix.dotProduct_mulVec, ← Matrix.mulVec_transpose, Matrix.mulVec_mulVec, hU,
          Matrix.one_mulVec]
        simp
      · rw [hd, Matrix.mulVec_mulVec, Matrix.mul_assoc, hU, Matrix.mul_one, ← Matrix.mulVec_mulVec,
          ← Matrix.mulVec_smul]
        congr 1
        funext j
        by_cases hj : j = i
        · subst hj; simp [Matrix.mulVec_diagonal]
        · simp [Matrix.mulVec_diagonal, hj]
      · intro u
        have e1 : u ⬝ᵥ u = (Uᵀ *ᵥ u) ⬝ᵥ (Uᵀ *ᵥ u) := by
          rw [Matrix.dotProduct_mulVec, ← Matrix.mulVec_transpose, Matrix.transpose_transpose,
            Matrix.mulVec_mulVec, hU', Matrix.one_mulVec]
        have e2 : u ⬝ᵥ (M *ᵥ u) = (Uᵀ *ᵥ u) ⬝ᵥ (diagonal S *ᵥ (Uᵀ *ᵥ u)) := by
          conv_lhs => rw [hd]
          rw [← Matrix.mulVec_mulVec, ← Matrix.mulVec_mulVec, Matrix.dotProduct_mulVec,
            ← Matrix.mulVec_transpose]
        rw [e1, e2]
        simp only [dotProduct, Matrix.mulVec_diagonal, Finset.mul_sum]
        refine Finset.sum_le_sum fun j _ => ?_
        nlinarith [mul_self_nonneg ((Uᵀ *ᵥ u) j), hi j]
    · exact ⟨0, fun h => absurd h hM⟩
  have h2 : ∀ A : M44 ℝ, ∃ d, A.PosSemidef → IsSVD A d := by
    intro A
    by_cases hA : A.PosSemidef
    · obtain ⟨U, S, hU, hU', hd⟩ := symm_diagonalize A (psd_transpose_eq hA)
      refine ⟨⟨U, S, U⟩, fun _ => ⟨hd, hU, hU, ?_⟩⟩
      intro i
      have hp := hA.dotProduct_mulVec_nonneg (U *ᵥ Pi.single i 1)
      rw [star_trivial, Matrix.dotProduct_mulVec, ← Matrix.mulVec_transpose, psd_transpose_eq hA,
        hd, Matrix.mulVec_mulVec, Matrix.mul_assoc, hU, Matrix.mul_one, ← Matrix.mulVec_mulVec,
        Matrix.dotProduct_mulVec, ← Matrix.mulVec_transpose, Matrix.mulVec_mulVec, hU,
        Matrix.one_mulVec] at hp
      simpa [Matrix.mulVec_diagonal] using hp
    · exact ⟨⟨0, 0, 0⟩, fun h => absurd h hA⟩
  choose f hf using h1
  choose g hg using h2
  exact ⟨⟨f, g⟩, hf, hg⟩

/-- For all data some positive `eps` separates the zero singular values from the others. -/
theorem gap_exists (so : Solvers) (hso : so.Correct) (ms : List (Pose × Pose)) :
    ∃ eps > 0, ∀ i, (so.svd ((Sim.matA ms)ᵀ * Sim.matA ms)).S i = 0 ∨
      eps ≤ (so.svd ((Sim.matA ms)ᵀ * Sim.matA ms)).S i := by
  have hd := hso.svd ((Sim.matA ms)ᵀ * Sim.matA ms) (gram_psd _)
  obtain ⟨i, hi⟩ := Finite.exists_min fun i =>
    if (so.svd ((Sim.matA ms)ᵀ * Sim.matA ms)).S i = 0 then (1 : ℝ)
      else (so.svd ((Sim.matA ms)ᵀ * Sim.matA ms)).S i
  refine ⟨if (so.svd ((Sim.matA ms)ᵀ * Sim.matA ms)).S i = 0 then (1 : ℝ)
      else (so.svd ((Sim.matA ms)ᵀ * Sim.matA ms)).S i, ?_, fun j => ?_⟩
  · split
    · exact one_pos
    · rename_i h; exact lt_of_le_of_ne (hd.nonneg i) (Ne.symm h)
  · by_cases h : (so.svd ((Sim.matA ms)ᵀ * Sim.matA ms)).S j = 0
    · exact Or.inl h
    · have := hi j
      simp only [if_neg h] at this
      exact Or.inr this

/-- Two poses with different attitudes, scale 2, displacement (1, 0, 0), and a rotation by a half
turn: the hypotheses of `C64_exact` hold. -/
example : ∃ (so : Solvers) (eps : ℝ), ∃ pose,
    Sim.compute so [(⟨![1, 0, 0], ⟨1, 0, 0, 0⟩⟩, ⟨![1, 0, 0], ⟨0, 1, 0, 0⟩⟩),
      (⟨![0, 4, 0], ⟨0, 0, 0, 1⟩⟩, ⟨![-(1 / 2), 2, 0], ⟨0, 0, 1, 0⟩⟩)] eps = .ok pose 2 ∧
    pose.position = ![1, 0, 0] := by
  obtain ⟨so, hso⟩ := correct_solvers_exist
  obtain ⟨eps, h0, hgap⟩ := gap_exists so hso [(⟨![1, 0, 0], ⟨1, 0, 0, 0⟩⟩, ⟨![1, 0, 0], ⟨0, 1, 0, 0⟩⟩),
      (⟨![0, 4, 0], ⟨0, 0, 0, 1⟩⟩, ⟨![-(1 / 2), 2, 0], ⟨0, 0, 1, 0⟩⟩)]
  obtain ⟨pose, h1, h2, -⟩ := C64_exact so hso _ eps (by simp) (by simp [Quat.normSq]) h0 hgap
    ![1, 0, 0] 2 ⟨0, 1, 0, 0⟩ (by simp [Quat.normSq]) (by
      intro m hm
      rcases List.mem_cons.1 hm with rfl | hm
      · funext i; fin_cases i <;> simp [Quat.toRot, Matrix.mulVec, dotProduct, Fin.sum_univ_three] <;> norm_num
      · rw [List.mem_singleton] at hm
        subst hm
        funext i; fin_cases i <;> simp [Quat.toRot, Matrix.mulVec, dotProduct, Fin.sum_univ_three] <;> norm_num)
    (by simp [Quat.mul]) (by
      refine ⟨_, List.mem_cons_self, _, List.mem_cons_of_mem _ List.mem_cons_self, fun h => ?_⟩
      have := congrFun h 0
      simp [Quat.toRot, Matrix.mulVec, dotProduct, Fin.sum_univ_three] at this
      norm_num at this)
  exact ⟨so, eps, pose, h1, h2⟩

end MSF
