import Mathlib.MeasureTheory.Integral.Bochner.Basic
import Mathlib.MeasureTheory.Function.L2Space
import Mathlib.LinearAlgebra.Matrix.NonsingularInverse
import Mathlib.LinearAlgebra.Matrix.PosDef

/-!
# Random vectors with second moments

Independent of the model: what it means that a matrix is the covariance of a random error.
-/

namespace MSF

open Matrix MeasureTheory

variable {Ω : Type} [MeasurableSpace Ω] {m n k : Type}

/-- All components have finite second moments. -/
def SqInt (μ : Measure Ω) (u : Ω → n → ℝ) : Prop := ∀ i, MemLp (fun ω => u ω i) 2 μ

/-- The matrix of the second moments `E[u vᵀ]`; for errors with mean zero their (cross) covariance. -/
noncomputable def moment (μ : Measure Ω) (u : Ω → m → ℝ) (v : Ω → n → ℝ) : Matrix m n ℝ :=
  Matrix.of fun i j => ∫ ω, u ω i * v ω j ∂μ

/-- The mean of every component is zero. -/
def Centred (μ : Measure Ω) (u : Ω → n → ℝ) : Prop := ∀ i, ∫ ω, u ω i ∂μ = 0

/-- The components of `u` are uncorrelated with those of `v`. -/
def NoCorrelation (μ : Measure Ω) (u : Ω → m → ℝ) (v : Ω → n → ℝ) : Prop := moment μ u v = 0

variable {μ : Measure Ω}

theorem SqInt.integrable {u : Ω → m → ℝ} {v : Ω → n → ℝ} (hu : SqInt μ u) (hv : SqInt μ v) (i : m) (j : n) :
    Integrable (fun ω => u ω i * v ω j) μ := (hu i).integrable_mul (hv j)

theorem SqInt.add {u v : Ω → n → ℝ} (hu : SqInt μ u) (hv : SqInt μ v) : SqInt μ fun ω => u ω + v ω :=
  fun i => (hu i).add (hv i)

theorem SqInt.sub {u v : Ω → n → ℝ} (hu : SqInt μ u) (hv : SqInt μ v) : SqInt μ fun ω => u ω - v ω :=
  fun i => (hu i).sub (hv i)

theorem SqInt.mulVec [Fintype n] {u : Ω → n → ℝ} (hu : SqInt μ u) (A : Matrix m n ℝ) :
    SqInt μ fun ω => A *ᵥ u ω := by
  intro i
  simp only [Matrix.mulVec, dotProduct]
  exact memLp_finsetSum _ fun j _ => (hu j).const_mul _

theorem moment_transpose (u : Ω → m → ℝ) (v : Ω → n → ℝ) : (moment μ u v)ᵀ = moment μ v u := by
  ext i j
  simp only [moment, transpose_apply, of_apply]
  exact integral_congr_ae (.of_forall fun ω => mul_comm _ _)

theorem moment_add_left {u u' : Ω → m → ℝ} {v : Ω → n → ℝ} (hu : SqInt μ u) (hu' : SqInt μ u')
    (hv : SqInt μ v) : moment μ (fun ω => u ω + u' ω) v = moment μ u v + moment μ u' v := by
  ext i j
  simp only [moment, of_apply, Matrix.add_apply, Pi.add_apply, add_mul]
  exact integral_add (hu.integrable hv i j) (hu'.integrable hv i j)

theorem moment_sub_left {u u' : Ω → m → ℝ} {v : Ω → n → ℝ} (hu : SqInt μ u) (hu' : SqInt μ u')
    (hv : SqInt μ v) : moment μ (fun ω => u ω - u' ω) v = moment μ u v - moment μ u' v := by
  ext i j
  simp only [moment, of_apply, Matrix.sub_apply, Pi.sub_apply, sub_mul]
  exact integral_sub (hu.integrable hv i j) (hu'.integrable hv i j)

theorem moment_mulVec_left [Fintype m] {u : Ω → m → ℝ} {v : Ω → n → ℝ} (hu : SqInt μ u) (hv : SqInt μ v)
    (A : Matrix k m ℝ) : moment μ (fun ω => A *ᵥ u ω) v = A * moment μ u v := by
  ext i j
  simp only [moment, of_apply, Matrix.mul_apply, Matrix.mulVec, dotProduct, Finset.sum_mul]
  rw [integral_finsetSum _ fun l _ => by
    simpa only [mul_assoc] using (hu.integrable hv l j).const_mul (A i l)]
  exact Finset.sum_congr rfl fun l _ => by simp only [mul_assoc]; exact integral_const_mul _ _

theorem moment_add_right {u : Ω → m → ℝ} {v v' : Ω → n → ℝ} (hu : SqInt μ u) (hv : SqInt μ v)
    (hv' : SqInt μ v') : moment μ u (fun ω => v ω + v' ω) = moment μ u v + moment μ u v' := by
  rw [← moment_transpose, moment_add_left hv hv' hu, transpose_add, moment_transpose, moment_transpose]

theorem moment_sub_right {u : Ω → m → ℝ} {v v' : Ω → n → ℝ} (hu : SqInt μ u) (hv : SqInt μ v)
    (hv' : SqInt μ v') : moment μ u (fun ω => v ω - v' ω) = moment μ u v - moment μ u v' := by
  rw [← moment_transpose, moment_sub_left hv hv' hu, transpose_sub, moment_transpose, moment_transpose]

theorem moment_mulVec_right [Fintype n] {u : Ω → m → ℝ} {v : Ω → n → ℝ} (hu : SqInt μ u) (hv : SqInt μ v)
    (A : Matrix k n ℝ) : moment μ u (fun ω => A *ᵥ v ω) = moment μ u v * Aᵀ := by
  rw [← moment_transpose, moment_mulVec_left hv hu, transpose_mul, moment_transpose]

theorem NoCorrelation.symm {u : Ω → m → ℝ} {v : Ω → n → ℝ} (h : NoCorrelation μ u v) :
    NoCorrelation μ v u := by
  rw [NoCorrelation, ← moment_transpose, h, transpose_zero]

theorem Centred.add [IsFiniteMeasure μ] {u v : Ω → n → ℝ} (su : SqInt μ u) (sv : SqInt μ v)
    (hu : Centred μ u) (hv : Centred μ v) : Centred μ fun ω => u ω + v ω := by
  intro i
  simp only [Pi.add_apply]
  rw [integral_add ((su i).integrable (by norm_num)) ((sv i).integrable (by norm_num)), hu i, hv i, add_zero]

theorem Centred.sub [IsFiniteMeasure μ] {u v : Ω → n → ℝ} (su : SqInt μ u) (sv : SqInt μ v)
    (hu : Centred μ u) (hv : Centred μ v) : Centred μ fun ω => u ω - v ω := by
  intro i
  simp only [Pi.sub_apply]
  rw [integral_sub ((su i).integrable (by norm_num)) ((sv i).integrable (by norm_num)), hu i, hv i, sub_zero]

theorem Centred.mulVec [IsFiniteMeasure μ] [Fintype n] {u : Ω → n → ℝ} (su : SqInt μ u) (hu : Centred μ u)
    (A : Matrix m n ℝ) : Centred μ fun ω => A *ᵥ u ω := by
  intro i
  simp only [Matrix.mulVec, dotProduct]
  rw [integral_finsetSum _ fun j _ => ((su j).integrable (by norm_num)).const_mul _]
  refine Finset.sum_eq_zero fun j _ => ?_
  rw [integral_const_mul, hu j, mul_zero]

/-- A matrix of second moments is positive semidefinite. -/
theorem moment_psd [Fintype n] {u : Ω → n → ℝ} (hu : SqInt μ u) : (moment μ u u).PosSemidef := by
  refine PosSemidef.of_dotProduct_mulVec_nonneg ?_ fun x => ?_
  · rw [IsHermitian, conjTranspose_eq_transpose_of_trivial, moment_transpose]
  · have h1 : moment μ (fun ω => (Matrix.of fun (_ : Unit) i => x i) *ᵥ u ω)
        (fun ω => (Matrix.of fun (_ : Unit) i => x i) *ᵥ u ω) () () = x ⬝ᵥ (moment μ u u *ᵥ x) := by
      rw [moment_mulVec_left hu (hu.mulVec _), moment_mulVec_right hu hu]
      simp only [Matrix.mul_apply, of_apply, transpose_apply, dotProduct, Matrix.mulVec]
    rw [star_trivial, ← h1]
    exact integral_nonneg fun ω => mul_self_nonneg _

end MSF
