import Verif.Model.Managers
import Verif.Model.Sensors
import Verif.Props.Similarity
import Verif.Lemmas.Gps

/-!
# Helper lemmas on initialization
-/

namespace MSF

open Matrix

theorem normalize_scale {q u : Quat ℝ} (h : q.normalize = some u) :
    u.normSq = 1 ∧ ∃ c, 0 < c ∧ u = ⟨c * q.w, c * q.x, c * q.y, c * q.z⟩ := by
  have hp : 0 < q.normSq := by
    by_contra hn
    have : Real.sqrt q.normSq = 0 := Real.sqrt_eq_zero_of_nonpos (not_lt.1 hn)
    simp [Quat.normalize, this] at h
  obtain ⟨u', e, hu, he⟩ := Quat.normalize_pos hp
  rw [h, Option.some.injEq] at e
  subst e
  refine ⟨hu, (Real.sqrt q.normSq)⁻¹, inv_pos.2 (Real.sqrt_pos.2 hp), ?_⟩
  rw [he]
  simp only [div_eq_inv_mul]

theorem normSq_pos_of_ne {q : Quat ℝ} (h : q.normSq ≠ 0) : 0 < q.normSq := by
  rcases h.lt_or_gt with h' | h'
  · exfalso
    have : 0 ≤ q.normSq := by
      simp only [Quat.normSq]; nlinarith [mul_self_nonneg q.w, mul_self_nonneg q.x,
        mul_self_nonneg q.y, mul_self_nonneg q.z]
    linarith
  · exact h'

theorem yawQuat_eq (d : ℝ) : yawQuat d =
    some ⟨Real.cos (d / 180 * Real.pi / 2), 0, 0, Real.sin (d / 180 * Real.pi / 2)⟩ := by
  refine Quat.normalize_unit ?_
  have := Real.cos_sq_add_sin_sq (d / 180 * Real.pi / 2)
  simp only [Quat.normSq]
  nlinarith

theorem yawQuat_unit {d : ℝ} {q : Quat ℝ} (h : yawQuat d = some q) : q.normSq = 1 :=
  (normalize_scale h).1

theorem conj_toRot_transpose (q : Quat ℝ) : q.conj.toRotᵀ = q.toRot := by
  rw [toRot_conj, transpose_transpose]

theorem one_rot : (Quat.one : Quat ℝ).toRot = 1 := by
  ext i j; fin_cases i <;> fin_cases j <;> simp [Quat.one, Quat.toRot]

theorem one_conj : (Quat.one : Quat ℝ).conj = Quat.one := by simp [Quat.one, Quat.conj]

/-- The attitude residual vanishes if the measured attitude is a positive multiple of the
predicted one. -/
theorem attResidual_real {w : ℝ} (hw : w ≠ 0) :
    attResidual (⟨w, 0, 0, 0⟩ : Quat ℝ) = some 0 := by
  rw [attResidual, if_neg hw]
  congr 1
  funext i
  fin_cases i <;> simp [Quat.vec]

theorem yawResidual_one : yawResidual (Quat.one : Quat ℝ) = some 0 := by
  simp [yawResidual, Quat.one]

theorem rows7_zero : rows7 (0 : V3 ℝ) 0 0 = 0 := by
  funext i; fin_cases i <;> rfl

/-- The values that `MSF_Core::Init` leaves in the variables of the core. -/
theorem coreInit_time {D : List VarDesc} (m : InitMeas ℝ D) : (coreInit m).time = m.time := rfl

end MSF
