import Verif.Model.Propagate
import Mathlib.Tactic.Ring
import Mathlib.Tactic.Linarith
import Mathlib.Tactic.FieldSimp
import Mathlib.Tactic.FinCases
import Mathlib.Tactic.Positivity
import Mathlib.Tactic.NormNum
import Mathlib.LinearAlgebra.Matrix.Notation
import Mathlib.Data.Matrix.Reflection

/-! # Lemmas on quaternions and the attitude integration matrix -/

namespace MSF

section
variable {R : Type}

/-- `a·1 + Ω(u)`; these matrices are closed under products. -/
def comb [CommRing R] (a : R) (u : V3 R) : M44 R :=
  !![a, u 2, -u 1, u 0;
     -u 2, a, u 0, u 1;
     u 1, -u 0, a, u 2;
     -u 0, -u 1, -u 2, a]

theorem comb_eq [CommRing R] (a : R) (u : V3 R) : comb a u = a • (1 : M44 R) + omegaJPL u := by
  ext i j
  fin_cases i <;> fin_cases j <;> simp [comb, omegaJPL]

def cross3 [CommRing R] (u v : V3 R) : V3 R :=
  ![u 1 * v 2 - u 2 * v 1, u 2 * v 0 - u 0 * v 2, u 0 * v 1 - u 1 * v 0]

def dot3 [CommRing R] (u v : V3 R) : R := u 0 * v 0 + u 1 * v 1 + u 2 * v 2

theorem omega_mul [CommRing R] (u v : V3 R) :
    omegaJPL u * omegaJPL v = comb (-dot3 u v) (cross3 v u) := by
  ext i j
  fin_cases i <;> fin_cases j <;>
    simp [comb, omegaJPL, Matrix.mul_apply, Fin.sum_univ_succ, dot3, cross3] <;> ring

theorem comb_sub [CommRing R] (a b : R) (u v : V3 R) :
    comb a u - comb b v = comb (a - b) (u - v) := by
  ext i j
  fin_cases i <;> fin_cases j <;> simp [comb] <;> ring

theorem comb_add [CommRing R] (a b : R) (u v : V3 R) :
    comb a u + comb b v = comb (a + b) (u + v) := by
  ext i j
  fin_cases i <;> fin_cases j <;> simp [comb] <;> ring

theorem comb_smul [CommRing R] (t a : R) (u : V3 R) : t • comb a u = comb (t * a) (t • u) := by
  ext i j
  fin_cases i <;> fin_cases j <;> simp [comb]

theorem comb_normSq [CommRing R] (a : R) (u : V3 R) (q : Quat R) :
    (Quat.ofCoeffs ((comb a u).mulVec q.coeffs)).normSq = (a * a + sqNorm3 u) * q.normSq := by
  simp [Quat.ofCoeffs, comb, Matrix.mulVec, dotProduct, Fin.sum_univ_succ, Quat.coeffs,
    Quat.normSq, sqNorm3]
  ring

theorem omega_smul [CommRing R] (t : R) (u : V3 R) : t • omegaJPL u = omegaJPL (t • u) := by
  ext i j
  fin_cases i <;> fin_cases j <;> simp [omegaJPL]

theorem omega_sq [CommRing R] (u : V3 R) :
    omegaJPL u * omegaJPL u = (-sqNorm3 u) • (1 : M44 R) := by
  rw [omega_mul, comb_eq]
  have h : cross3 u u = 0 := by
    funext i; fin_cases i <;> simp [cross3] <;> ring
  rw [h]
  ext i j
  fin_cases i <;> fin_cases j <;> simp [omegaJPL, dot3, sqNorm3]

/-- The loop computes `I + A + A²/2 + A⁴/6 + A⁸/24`. -/
theorem matExpLoop_eq [Field R] (A : M44 R) :
    matExpLoop A = 1 + A + (2 : R)⁻¹ • A ^ 2 + (6 : R)⁻¹ • A ^ 4 + (24 : R)⁻¹ • A ^ 8 := by
  have h2 : A * A = A ^ 2 := (sq A).symm
  have h4 : A ^ 2 * A ^ 2 = A ^ 4 := (pow_add A 2 2).symm
  have h8 : A ^ 4 * A ^ 4 = A ^ 8 := (pow_add A 4 4).symm
  have e6 : (2 : R) * 3 = 6 := by norm_num
  have e24 : (6 : R) * 4 = 24 := by norm_num
  simp only [matExpLoop, List.foldl, seriesStep, h2, h4, h8]
  simp only [Nat.cast_one, Nat.cast_ofNat, one_mul, mul_one, inv_one, one_smul, e6, e24]

theorem matExp_omega [Field R] (u : V3 R) :
    matExpLoop (omegaJPL u) =
      comb (1 - sqNorm3 u / 2 + sqNorm3 u ^ 2 / 6 + sqNorm3 u ^ 4 / 24) u := by
  rw [matExpLoop_eq, comb_eq]
  have h2 : omegaJPL u ^ 2 = (-sqNorm3 u) • (1 : M44 R) := by rw [sq, omega_sq]
  have h4 : omegaJPL u ^ 4 = (sqNorm3 u ^ 2) • (1 : M44 R) := by
    have := pow_mul (omegaJPL u) 2 2
    rw [h2, smul_pow, one_pow, neg_sq] at this
    exact this
  have h8 : omegaJPL u ^ 8 = (sqNorm3 u ^ 4) • (1 : M44 R) := by
    have := pow_mul (omegaJPL u) 4 2
    rw [h4, smul_pow, one_pow, ← pow_mul] at this
    exact this
  rw [h2, h4, h8]
  simp only [smul_smul, div_eq_mul_inv, add_smul, sub_smul, one_smul]
  ext i j
  simp only [Matrix.add_apply, Matrix.sub_apply, Matrix.smul_apply, smul_eq_mul]
  ring

/-- The whole integration matrix has the form `a·1 + Ω(w)`. -/
theorem quatInt_comb [Field R] (ew ewold : V3 R) (dt : R) :
    ∃ n : R, n = sqNorm3 ((0.5 * dt) • (2 : R)⁻¹ • (ew + ewold)) ∧
    quatInt ew ewold dt = comb (1 - n / 2 + n ^ 2 / 6 + n ^ 4 / 24)
      ((0.5 * dt) • (2 : R)⁻¹ • (ew + ewold) +
        (dt * dt * (1 / 48)) • (cross3 ewold ew - cross3 ew ewold)) := by
  refine ⟨_, rfl, ?_⟩
  have hd : dot3 ew ewold = dot3 ewold ew := by simp only [dot3]; ring
  simp only [quatInt]
  rw [omega_smul, matExp_omega, omega_mul, omega_mul, comb_sub, comb_smul, comb_add, hd]
  congr 1
  ring

end

theorem scalarPart_pos (n : ℝ) (hn : 0 ≤ n) : 0 < 1 - n / 2 + n ^ 2 / 6 + n ^ 4 / 24 := by
  nlinarith [sq_nonneg (n - 3 / 2), pow_nonneg hn 4]

theorem sqNorm3_nonneg (u : V3 ℝ) : 0 ≤ sqNorm3 u := by
  simp only [sqNorm3]; nlinarith [mul_self_nonneg (u 0), mul_self_nonneg (u 1), mul_self_nonneg (u 2)]

namespace Quat

theorem normSq_nonneg (q : Quat ℝ) : 0 ≤ q.normSq := by
  simp only [normSq]
  nlinarith [mul_self_nonneg q.w, mul_self_nonneg q.x, mul_self_nonneg q.y, mul_self_nonneg q.z]

/-- A quaternion of positive norm can be normalized, and the result is a unit quaternion. -/
theorem normalize_pos {q : Quat ℝ} (h : 0 < q.normSq) :
    ∃ u, q.normalize = some u ∧ u.normSq = 1 ∧
      u = ⟨q.w / Real.sqrt q.normSq, q.x / Real.sqrt q.normSq, q.y / Real.sqrt q.normSq,
        q.z / Real.sqrt q.normSq⟩ := by
  have hs : 0 < Real.sqrt q.normSq := Real.sqrt_pos.2 h
  refine ⟨_, by simp only [normalize, if_neg hs.ne'], ?_, rfl⟩
  have hsq : Real.sqrt q.normSq * Real.sqrt q.normSq = q.normSq := Real.mul_self_sqrt h.le
  have e : ∀ x : ℝ, x / Real.sqrt q.normSq * (x / Real.sqrt q.normSq) = x * x / q.normSq := by
    intro x
    rw [div_mul_div_comm, hsq]
  have hd : q.normSq = q.w * q.w + q.x * q.x + q.y * q.y + q.z * q.z := rfl
  show _ + _ + _ + _ = _
  dsimp only
  rw [e, e, e, e, ← add_div, ← add_div, ← add_div, ← hd, div_self h.ne']

theorem normalize_unit {q : Quat ℝ} (h : q.normSq = 1) : q.normalize = some q := by
  simp [normalize, h]

section
variable {R : Type} [CommRing R]

theorem normSq_mul (a b : Quat R) : (a.mul b).normSq = a.normSq * b.normSq := by
  simp only [normSq, mul]; ring

theorem mul_assoc' (a b c : Quat R) : (a.mul b).mul c = a.mul (b.mul c) := by
  ext <;> simp only [mul] <;> ring

theorem mul_one' (a : Quat R) : a.mul one = a := by
  ext <;> simp [mul, one]

theorem one_mul' (a : Quat R) : (one : Quat R).mul a = a := by
  ext <;> simp [mul, one]

theorem conj_mul_self (a : Quat R) : a.conj.mul a = ⟨a.normSq, 0, 0, 0⟩ := by
  ext <;> simp only [mul, conj, normSq] <;> ring

theorem mul_conj_self (a : Quat R) : a.mul a.conj = ⟨a.normSq, 0, 0, 0⟩ := by
  ext <;> simp only [mul, conj, normSq] <;> ring

theorem conj_mul (a b : Quat R) : (a.mul b).conj = b.conj.mul a.conj := by
  ext <;> simp only [mul, conj] <;> ring

theorem conj_conj (a : Quat R) : a.conj.conj = a := by
  ext <;> simp [conj]

theorem normSq_conj (a : Quat R) : a.conj.normSq = a.normSq := by
  simp only [normSq, conj]; ring

theorem normSq_one : (one : Quat R).normSq = 1 := by simp [normSq, one]

end

end Quat

/-- The small-angle quaternion has unit norm in both branches. -/
theorem quatFromSmallAngle_unit (θ : V3 ℝ) : (quatFromSmallAngle θ).normSq = 1 := by
  have h0 : 0 ≤ sqNorm3 θ := sqNorm3_nonneg θ
  have hd : sqNorm3 θ = θ 0 * θ 0 + θ 1 * θ 1 + θ 2 * θ 2 := rfl
  simp only [quatFromSmallAngle]
  split
  · rename_i h
    simp only [Quat.normSq]
    rw [Real.mul_self_sqrt (by linarith)]
    linarith
  · have hp : 0 < 1 + sqNorm3 θ / 4 := by positivity
    have hs : 0 < Real.sqrt (1 + sqNorm3 θ / 4) := Real.sqrt_pos.2 hp
    have hm := Real.mul_self_sqrt hp.le
    simp only [Quat.normSq]
    generalize Real.sqrt (1 + sqNorm3 θ / 4) = s at hs hm ⊢
    have : s ≠ 0 := hs.ne'
    field_simp
    nlinarith

end MSF
