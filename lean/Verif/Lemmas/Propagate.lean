import Verif.Lemmas.Quat

/-! # Lemmas on state propagation -/

namespace MSF
namespace EKFState
variable {R : Type} {aux : List VarDesc} (s : Vars R (coreDef aux))

theorem q_setQ (x : Quat R) : q (setQ s x) = x := by simp [q, setQ]
theorem q_setV (x : V3 R) : q (setV s x) = q s :=
  congrArg StateVar.val (Function.update_of_ne (by simp [Fin.ext_iff]) _ _)
theorem q_setP (x : V3 R) : q (setP s x) = q s :=
  congrArg StateVar.val (Function.update_of_ne (by simp [Fin.ext_iff]) _ _)
theorem v_setQ (x : Quat R) : v (setQ s x) = v s :=
  congrArg StateVar.val (Function.update_of_ne (by simp [Fin.ext_iff]) _ _)
theorem v_setV (x : V3 R) : v (setV s x) = x := by simp [v, setV]
theorem v_setP (x : V3 R) : v (setP s x) = v s :=
  congrArg StateVar.val (Function.update_of_ne (by simp [Fin.ext_iff]) _ _)
theorem p_setQ (x : Quat R) : p (setQ s x) = p s :=
  congrArg StateVar.val (Function.update_of_ne (by simp [Fin.ext_iff]) _ _)
theorem p_setV (x : V3 R) : p (setV s x) = p s :=
  congrArg StateVar.val (Function.update_of_ne (by simp [Fin.ext_iff]) _ _)
theorem p_setP (x : V3 R) : p (setP s x) = x := by simp [p, setP]

theorem other_setQ (x : Quat R) (i : Fin (coreDef aux).length)
    (h : ((coreDef aux).get i).stype ≠ .coreProp) : setQ s x i = s i := by
  refine Function.update_of_ne ?_ _ _
  rintro rfl
  exact h rfl

theorem other_setV (x : V3 R) (i : Fin (coreDef aux).length)
    (h : ((coreDef aux).get i).stype ≠ .coreProp) : setV s x i = s i := by
  refine Function.update_of_ne ?_ _ _
  rintro rfl
  exact h rfl

theorem other_setP (x : V3 R) (i : Fin (coreDef aux).length)
    (h : ((coreDef aux).get i).stype ≠ .coreProp) : setP s x i = s i := by
  refine Function.update_of_ne ?_ _ _
  rintro rfl
  exact h rfl

theorem b_w_copy (old s : Vars R (coreDef aux)) :
    b_w (copyNonPropagationStates old s) = b_w old := rfl

theorem b_a_copy (old s : Vars R (coreDef aux)) :
    b_a (copyNonPropagationStates old s) = b_a old := rfl

end EKFState

open EKFState

variable {aux : List VarDesc}

/-- The integration matrix maps a unit quaternion to one of positive norm. -/
theorem quatInt_pos (ew ewold : V3 ℝ) (dt : ℝ) (q : Quat ℝ) (hq : q.normSq = 1) :
    0 < (Quat.ofCoeffs ((quatInt ew ewold dt).mulVec q.coeffs)).normSq := by
  obtain ⟨n, hn, h⟩ := quatInt_comb ew ewold dt
  rw [h, comb_normSq, hq, mul_one]
  have ha := scalarPart_pos n (by rw [hn]; exact sqNorm3_nonneg _)
  have := sqNorm3_nonneg ((0.5 * dt) • (2 : ℝ)⁻¹ • (ew + ewold) +
        (dt * dt * (1 / 48)) • (cross3 ewold ew - cross3 ew ewold))
  nlinarith [mul_pos ha ha]

/-- Everything `propagateState` computes, in one statement. -/
theorem propagateState_spec (old new : EKFState ℝ (coreDef aux)) (hq : (q old.vars).normSq = 1) :
    ∃ s qn, propagateState old new = some s ∧
      (Quat.ofCoeffs ((quatInt (new.w_m - b_w old.vars) (old.w_m - b_w old.vars)
        (new.time - old.time)).mulVec (q old.vars).coeffs)).normalize = some qn ∧
      qn.normSq = 1 ∧
      q s.vars = qn ∧
      v s.vars = v old.vars + (new.time - old.time) •
        ((2 : ℝ)⁻¹ • (qn.toRot.mulVec (new.a_m - b_a old.vars) +
          (q old.vars).toRot.mulVec (old.a_m - b_a old.vars)) - gravity) ∧
      p s.vars = p old.vars + (new.time - old.time) • ((2 : ℝ)⁻¹ • (v s.vars + v old.vars)) ∧
      (∀ i, ((coreDef aux).get i).stype ≠ .coreProp → s.vars i = old.vars i) ∧
      s.time = new.time ∧ s.w_m = new.w_m ∧ s.a_m = new.a_m ∧ s.P = new.P ∧ s.Fd = new.Fd ∧
      s.Qd = new.Qd := by
  obtain ⟨u, hu, hn, -⟩ := Quat.normalize_pos
    (quatInt_pos (new.w_m - b_w old.vars) (old.w_m - b_w old.vars) (new.time - old.time) _ hq)
  let c := copyNonPropagationStates old.vars (resetState new.vars)
  let dt := new.time - old.time
  let dv := (2 : ℝ)⁻¹ • (u.toRot.mulVec (new.a_m - b_a old.vars) +
    (q old.vars).toRot.mulVec (old.a_m - b_a old.vars))
  let s2 := setV (setQ c u) (v old.vars + dt • (dv - gravity))
  refine ⟨{ new with vars := setP s2 (p old.vars + dt • ((2 : ℝ)⁻¹ • (v s2 + v old.vars))) },
    u, ?_, hu, hn, ?_⟩
  · simp only [propagateState, b_w_copy, b_a_copy, hu, q_setQ]
    rfl
  · refine ⟨?_, ?_, ?_, ?_, rfl, rfl, rfl, rfl, rfl, rfl⟩
    · simp only [s2, q_setP, q_setV, q_setQ]
    · simp only [s2, v_setP, v_setV]
      rfl
    · simp only [p_setP, v_setP]
      rfl
    · intro i hi
      simp only [s2]
      rw [other_setP _ _ _ hi, other_setV _ _ _ hi, other_setQ _ _ _ hi]
      simp only [c, copyNonPropagationStates, if_neg hi]

theorem quatInt_zero (dt : ℝ) : quatInt (0 : V3 ℝ) 0 dt = 1 := by
  obtain ⟨n, hn, h⟩ := quatInt_comb (0 : V3 ℝ) 0 dt
  have hc : cross3 (0 : V3 ℝ) 0 = 0 := by funext i; fin_cases i <;> simp [cross3]
  have hn0 : n = 0 := by rw [hn]; simp [sqNorm3]
  rw [h, hn0, hc]
  ext i j
  fin_cases i <;> fin_cases j <;> simp [comb]

theorem ofCoeffs_coeffs (q : Quat ℝ) : Quat.ofCoeffs q.coeffs = q := rfl

/-- One step without rotation. -/
theorem propagate_zero_rate (old new : EKFState ℝ (coreDef aux)) (hq : (q old.vars).normSq = 1)
    (h1 : new.w_m = b_w old.vars) (h2 : old.w_m = b_w old.vars) (h3 : new.a_m = old.a_m) :
    ∃ s, propagateState old new = some s ∧ q s.vars = q old.vars ∧
      v s.vars = v old.vars + (new.time - old.time) •
        ((q old.vars).toRot.mulVec (old.a_m - b_a old.vars) - gravity) ∧
      p s.vars = p old.vars + (new.time - old.time) • v old.vars +
        ((new.time - old.time) ^ 2 / 2) •
          ((q old.vars).toRot.mulVec (old.a_m - b_a old.vars) - gravity) ∧
      (∀ i, ((coreDef aux).get i).stype ≠ .coreProp → s.vars i = old.vars i) ∧
      s.time = new.time ∧ s.w_m = new.w_m ∧ s.a_m = new.a_m := by
  obtain ⟨s, qn, hs, hqn, -, e1, e2, e3, e4, e5, e6, e7, -⟩ := propagateState_spec old new hq
  rw [h1, h2, sub_self, quatInt_zero, Matrix.one_mulVec, ofCoeffs_coeffs,
    Quat.normalize_unit hq] at hqn
  have hqq : q old.vars = qn := Option.some.inj hqn
  refine ⟨s, hs, by rw [e1, hqq], ?_, ?_, e4, e5, e6, e7⟩
  · rw [e2, ← hqq, h3]
    congr 2
    rw [← two_smul ℝ, smul_smul]
    norm_num
  · rw [e3, e2, ← hqq, h3]
    funext i
    simp only [Pi.add_apply, Pi.smul_apply, Pi.sub_apply, smul_eq_mul]
    ring

end MSF
