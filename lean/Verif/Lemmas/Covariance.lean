import Verif.Model.Covariance
import Mathlib.LinearAlgebra.Matrix.PosDef
import Mathlib.Algebra.Order.Star.Real

/-!
# Facts about covariance updates
-/

namespace MSF

open Matrix

/-! ### In-place symmetrisation -/

section
variable {k : Nat} {R : Type} [Field R]

theorem foldl_symStep_notMem (l : List (Fin k × Fin k)) (P : Matrix (Fin k) (Fin k) R)
    (r s : Fin k) (h : (r, s) ∉ l) : l.foldl symStep P r s = P r s := by
  induction l generalizing P with
  | nil => rfl
  | cons c l ih =>
    rw [List.mem_cons, not_or] at h
    rw [List.foldl_cons, ih _ h.2]
    simp only [symStep, Matrix.of_apply]
    rw [if_neg h.1]

theorem symStep_self (P : Matrix (Fin k) (Fin k) R) (r s : Fin k) :
    symStep P (r, s) r s = 1 / 2 * (P r s + P s r) := by
  simp [symStep]

theorem mem_colMajorCells (r s : Fin k) : (r, s) ∈ colMajorCells k := by
  simp [colMajorCells]

theorem pairwise_colMajorCells (k : Nat) :
    (colMajorCells k).Pairwise fun a b => a.2 < b.2 ∨ (a.2 = b.2 ∧ a.1 < b.1) := by
  unfold colMajorCells
  rw [List.pairwise_flatMap]
  have hlt : (List.finRange k).Pairwise (· < ·) := List.pairwise_lt_finRange k
  constructor
  · intro c _
    rw [List.pairwise_map]
    exact hlt.imp fun h => Or.inr ⟨rfl, h⟩
  · refine hlt.imp fun {a b} h => ?_
    intro x hx y hy
    simp only [List.mem_map] at hx hy
    obtain ⟨_, _, rfl⟩ := hx
    obtain ⟨_, _, rfl⟩ := hy
    exact Or.inl h

/-- A cell splits the traversal into earlier and later cells. -/
theorem colMajorCells_split (r s : Fin k) : ∃ l₁ l₂, colMajorCells k = l₁ ++ (r, s) :: l₂ ∧
    (r, s) ∉ l₁ ∧ (r, s) ∉ l₂ ∧ (s < r → (s, r) ∉ l₁) ∧ (r < s → (s, r) ∈ l₁ ∧ (s, r) ∉ l₂) := by
  obtain ⟨l₁, l₂, h⟩ := List.append_of_mem (mem_colMajorCells r s)
  have hp := pairwise_colMajorCells k
  rw [h, List.pairwise_append] at hp
  obtain ⟨-, h2, h12⟩ := hp
  rw [List.pairwise_cons] at h2
  have h1 : ∀ c ∈ l₁, c.2 < s ∨ (c.2 = s ∧ c.1 < r) := fun c hc => h12 c hc (r, s) (by simp)
  have h2' : ∀ c ∈ l₂, s < c.2 ∨ (s = c.2 ∧ r < c.1) := fun c hc => h2.1 c hc
  have e2 : (s, r) ∈ l₂ → ¬ r < s := by
    intro hm hlt
    have := h2' _ hm
    simp only at this
    omega
  refine ⟨l₁, l₂, h, fun hm => ?_, fun hm => ?_, fun hlt hm => ?_, fun hlt => ⟨?_, fun hm => e2 hm hlt⟩⟩
  · have := h1 _ hm; simp only at this; omega
  · have := h2' _ hm; simp only at this; omega
  · have := h1 _ hm; simp only at this; omega
  · have hm := mem_colMajorCells s r
    rw [h, List.mem_append, List.mem_cons] at hm
    rcases hm with hm | hm | hm
    · exact hm
    · simp only [Prod.mk.injEq] at hm; omega
    · exact absurd hlt (e2 hm)

/-- Below the diagonal the in-place assignment writes the mean. -/
theorem symInPlace_lower (P : Matrix (Fin k) (Fin k) R) (r s : Fin k) (h : s < r) :
    symInPlace P r s = 1 / 2 * (P r s + P s r) := by
  obtain ⟨l₁, l₂, hl, h1, h2, h3, -⟩ := colMajorCells_split r s
  rw [symInPlace, hl, List.foldl_append, List.foldl_cons, foldl_symStep_notMem _ _ _ _ h2,
    symStep_self, foldl_symStep_notMem _ _ _ _ h1, foldl_symStep_notMem _ _ _ _ (h3 h)]

/-- Above the diagonal it reads the value already written below the diagonal. -/
theorem symInPlace_upper (P : Matrix (Fin k) (Fin k) R) (r s : Fin k) (h : r < s) :
    symInPlace P r s = 1 / 2 * (P r s + 1 / 2 * (P s r + P r s)) := by
  obtain ⟨l₁, l₂, hl, h1, h2, -, h3⟩ := colMajorCells_split r s
  have hlow := symInPlace_lower P s r h
  obtain ⟨-, h4⟩ := h3 h
  rw [symInPlace, hl, List.foldl_append, List.foldl_cons] at hlow ⊢
  rw [foldl_symStep_notMem _ _ _ _ h4] at hlow
  rw [foldl_symStep_notMem _ _ _ _ h2, symStep_self, foldl_symStep_notMem _ _ _ _ h1]
  have hne : symStep (l₁.foldl symStep P) (r, s) s r = l₁.foldl symStep P s r := by
    simp only [symStep, Matrix.of_apply]
    rw [if_neg (by simp only [Prod.mk.injEq]; omega)]
  rw [hne] at hlow
  rw [hlow]

theorem symInPlace_diag [CharZero R] (P : Matrix (Fin k) (Fin k) R) (r : Fin k) :
    symInPlace P r r = P r r := by
  obtain ⟨l₁, l₂, hl, h1, h2, -, -⟩ := colMajorCells_split r r
  rw [symInPlace, hl, List.foldl_append, List.foldl_cons, foldl_symStep_notMem _ _ _ _ h2,
    symStep_self, foldl_symStep_notMem _ _ _ _ h1]
  ring

/-- A symmetric matrix is not changed. -/
theorem symInPlace_of_symm [CharZero R] (P : Matrix (Fin k) (Fin k) R) (h : Pᵀ = P) :
    symInPlace P = P := by
  ext r s
  have e : P s r = P r s := congrFun (congrFun h r) s
  rcases lt_trichotomy r s with h | rfl | h
  · rw [symInPlace_upper P r s h, e]; ring
  · exact symInPlace_diag P r
  · rw [symInPlace_lower P r s h, e]; ring

end

/-! ### Semidefinite algebra -/

section
variable {n m : Type} [Fintype n] [DecidableEq n] [Fintype m] [DecidableEq m]

omit [DecidableEq n] [DecidableEq m] in
theorem psd_congr {A : Matrix n n ℝ} (hA : A.PosSemidef) (B : Matrix m n ℝ) :
    (B * A * Bᵀ).PosSemidef := by
  have := hA.mul_mul_conjTranspose_same B
  rwa [conjTranspose_eq_transpose_of_trivial] at this

omit [Fintype n] [DecidableEq n] in
theorem psd_transpose_eq {A : Matrix n n ℝ} (hA : A.PosSemidef) : Aᵀ = A := by
  have := hA.isHermitian
  rwa [IsHermitian, conjTranspose_eq_transpose_of_trivial] at this

theorem joseph_psd {P : Matrix n n ℝ} {R : Matrix m m ℝ} (hP : P.PosSemidef) (hR : R.PosSemidef)
    (H : Matrix m n ℝ) (K : Matrix n m ℝ) :
    ((1 - K * H) * P * (1 - K * H)ᵀ + K * R * Kᵀ).PosSemidef :=
  (psd_congr hP _).add (psd_congr hR _)

omit [DecidableEq m] in
/-- Completing the square: the Joseph form for any gain. -/
theorem joseph_expand (P : Matrix n n ℝ) (hP : Pᵀ = P) (H : Matrix m n ℝ) (R : Matrix m m ℝ)
    (K : Matrix n m ℝ) :
    (1 - K * H) * P * (1 - K * H)ᵀ + K * R * Kᵀ =
      P - K * (H * P) - (H * P)ᵀ * Kᵀ + K * (H * P * Hᵀ + R) * Kᵀ := by
  rw [transpose_sub, transpose_mul, transpose_one, transpose_mul, hP]
  simp only [Matrix.sub_mul, Matrix.mul_sub, Matrix.one_mul, Matrix.mul_one, Matrix.mul_add,
    Matrix.add_mul, Matrix.mul_assoc]
  abel

/-- With the optimal gain the Joseph form is `(1 - KH) P`. -/
theorem joseph_optimal (P : Matrix n n ℝ) (hP : Pᵀ = P) (H : Matrix m n ℝ) (R : Matrix m m ℝ)
    (hS : IsUnit (H * P * Hᵀ + R).det) (K : Matrix n m ℝ)
    (hK : K = P * Hᵀ * (H * P * Hᵀ + R)⁻¹) :
    (1 - K * H) * P * (1 - K * H)ᵀ + K * R * Kᵀ = (1 - K * H) * P := by
  have hKS : K * (H * P * Hᵀ + R) = P * Hᵀ := by
    rw [hK, Matrix.mul_assoc, nonsing_inv_mul _ hS, Matrix.mul_one]
  rw [joseph_expand P hP, hKS, transpose_mul, hP, Matrix.sub_mul, Matrix.one_mul,
    Matrix.mul_assoc K H P]
  abel

/-- The update with the optimal gain in terms of `(HP)ᵀ S⁻¹ (HP)`. -/
theorem joseph_decrease (P : Matrix n n ℝ) (hP : P.PosSemidef) (H : Matrix m n ℝ)
    (R : Matrix m m ℝ) (hR : R.PosSemidef) :
    (P * Hᵀ * (H * P * Hᵀ + R)⁻¹ * H * P).PosSemidef := by
  have hS : (H * P * Hᵀ + R).PosSemidef := (psd_congr hP H).add hR
  have h := psd_congr hS.inv (P * Hᵀ)
  rw [transpose_mul, transpose_transpose, psd_transpose_eq hP, ← Matrix.mul_assoc] at h
  exact h

end

end MSF
