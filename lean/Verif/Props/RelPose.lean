import Verif.Props.YawRow
import Verif.Lemmas.CalcQSpec

/-!
# The residual of relative pose measurements
-/

namespace MSF

open Matrix

/-- Conjugating `e⁻¹` by a quaternion: the real part is scaled, the vector part is minus the rotated
vector part of `e`. -/
theorem sandwich_conj (u e : Quat ℝ) :
    ((u.mul e.conj).mul u.conj).w = u.normSq * e.w ∧
    ((u.mul e.conj).mul u.conj).vec = -(hrot u *ᵥ e.vec) := by
  refine ⟨?_, ?_⟩
  · simp [Quat.mul, Quat.conj, Quat.normSq]; ring
  · funext i
    fin_cases i <;>
      simp [Quat.mul, Quat.conj, Quat.vec, hrot, vecHead, vecTail] <;> ring

/-- **C77, partial.**  Let the old state predict the previous measurement exactly.  Then the position
rows and the yaw row of the relative residual are those of the absolute residual of the new
measurement, and the attitude rows are minus those of the absolute residual, turned by the predicted
motion between the two states. -/
theorem C77_relative_residual_partial (old new : PoseView ℝ) (z_p : V3 ℝ) (z_q : Quat ℝ)
    (ho : old.predAtt.normSq = 1) (hn : new.predAtt.normSq = 1) (r : Fin 7 → ℝ)
    (hr : new.residual z_p z_q = some r) :
    PoseView.relResidual old new (old.predPos, old.predAtt) (z_p, z_q) =
      some (rows7 ![r 0, r 1, r 2]
        (-((old.predAtt.conj.mul new.predAtt).toRot *ᵥ ![r 3, r 4, r 5])) (r 6)) := by
  have hu : (old.predAtt.conj.mul new.predAtt).normSq = 1 := by
    rw [Quat.normSq_mul, Quat.normSq_conj, ho, hn, one_mul]
  have herr : (new.predAtt.conj.mul old.predAtt).conj.mul (z_q.conj.mul old.predAtt) =
      ((old.predAtt.conj.mul new.predAtt).mul (new.predAtt.conj.mul z_q).conj).mul
        (old.predAtt.conj.mul new.predAtt).conj := by
    have h1 : (⟨new.predAtt.normSq, 0, 0, 0⟩ : Quat ℝ) = Quat.one := by rw [hn]; rfl
    simp only [Quat.conj_mul, Quat.conj_conj]
    simp only [Quat.mul_assoc']
    rw [← Quat.mul_assoc' new.predAtt new.predAtt.conj, Quat.mul_conj_self, h1, Quat.one_mul']
  obtain ⟨hw, hvec⟩ := sandwich_conj (old.predAtt.conj.mul new.predAtt) (new.predAtt.conj.mul z_q)
  rw [← herr] at hw hvec
  rw [hu, one_mul] at hw
  rw [PoseView.residual] at hr
  simp only [Option.bind_eq_bind, Option.bind_eq_some_iff] at hr
  obtain ⟨a, ha, y, hy, hr⟩ := hr
  rw [Option.some.injEq] at hr
  subst hr
  unfold attResidual at ha
  split at ha
  · cases ha
  rename_i hne
  rw [Option.some.injEq] at ha
  have hra : attResidual ((new.predAtt.conj.mul old.predAtt).conj.mul (z_q.conj.mul old.predAtt)) =
      some (-((old.predAtt.conj.mul new.predAtt).toRot *ᵥ a)) := by
    unfold attResidual
    rw [if_neg (by rw [hw]; exact hne), hvec, hw, ← toRot_hom _ hu, ← ha]
    congr 1
    funext i
    simp only [Pi.neg_apply, mulVec, dotProduct, Fin.sum_univ_three]
    ring
  have e0 : (![rows7 (z_p - new.predPos) a y 0, rows7 (z_p - new.predPos) a y 1,
      rows7 (z_p - new.predPos) a y 2] : V3 ℝ) = z_p - old.predPos - (new.predPos - old.predPos) := by
    funext i
    fin_cases i <;> simp [rows7]
  have e1 : (![rows7 (z_p - new.predPos) a y 3, rows7 (z_p - new.predPos) a y 4,
      rows7 (z_p - new.predPos) a y 5] : V3 ℝ) = a := by
    funext i
    fin_cases i <;> rfl
  rw [e0, e1]
  simp only [PoseView.relResidual, hra, hy, Option.bind_eq_bind, Option.bind_some]
  rfl

/-- The claim of C77: a relative pose measurement whose predecessor was predicted exactly has the
residual of the absolute measurement. -/
def relativeResidualClaim : Prop :=
  ∀ (old new : PoseView ℝ) (z_p : V3 ℝ) (z_q : Quat ℝ) (r : Fin 7 → ℝ),
    old.predAtt.normSq = 1 → new.predAtt.normSq = 1 → z_q.normSq = 1 →
    new.residual z_p z_q = some r →
    PoseView.relResidual old new (old.predPos, old.predAtt) (z_p, z_q) = some r

/-- The pose filter at the origin. -/
def originView : PoseView ℝ := ⟨0, Quat.one, 1, Quat.one, 0, Quat.one, 0⟩

theorem originView_att : originView.predAtt = Quat.one := one_predAtt 1

theorem originView_residual :
    originView.residual 0 ⟨4/5, 3/5, 0, 0⟩ = some (rows7 0 ![3/2, 0, 0] 0) := by
  have hp : originView.predPos = 0 := by simp [originView, PoseView.predPos]
  have ha : attResidual (originView.predAtt.conj.mul ⟨4/5, 3/5, 0, 0⟩) = some ![3/2, 0, 0] := by
    rw [originView_att]
    simp only [Quat.one, Quat.conj, Quat.mul]
    rw [attResidual, if_neg (by norm_num)]
    congr 1
    funext i
    fin_cases i <;> norm_num [Quat.vec]
  have hy : yawResidual originView.qwv = some 0 := by
    simp [originView, yawResidual, Quat.one]
  simp only [PoseView.residual, hp, ha, hy, Option.bind_eq_bind, Option.bind_some, sub_zero]

/-- **C77 is violated**: the camera has turned by about 74 degrees while the filter predicts no
motion.  The relative residual has the wrong sign, although the Jacobian of the new state is used with
the sign of the absolute measurement. -/
theorem C77_attitude_sign_violated : ¬ relativeResidualClaim := by
  intro h
  have h1 := h originView originView 0 ⟨4/5, 3/5, 0, 0⟩ _
    (by rw [originView_att]; simp [Quat.normSq, Quat.one])
    (by rw [originView_att]; simp [Quat.normSq, Quat.one]) (by norm_num [Quat.normSq])
    originView_residual
  rw [C77_relative_residual_partial originView originView 0 ⟨4/5, 3/5, 0, 0⟩
    (by rw [originView_att]; simp [Quat.normSq, Quat.one])
    (by rw [originView_att]; simp [Quat.normSq, Quat.one]) _ originView_residual,
    Option.some.injEq] at h1
  have h3 := congrFun h1 3
  have h1 : (Quat.one : Quat ℝ).conj.mul Quat.one = Quat.one := by
    simp [Quat.one, Quat.conj, Quat.mul]
  rw [originView_att, h1, one_toRot, one_mulVec] at h3
  change -(3 / 2 : ℝ) = 3 / 2 at h3
  norm_num at h3

/-- Hypotheses of C77: two different states, turned against each other, and a measurement of a third pose. -/
example : ∃ (old new : PoseView ℝ) (r : Fin 7 → ℝ), old.predAtt.normSq = 1 ∧ new.predAtt.normSq = 1 ∧
    old.predAtt ≠ new.predAtt ∧ new.residual ![1, 2, 3] ⟨4 / 5, 3 / 5, 0, 0⟩ = some r ∧ r 0 ≠ 0 := by
  refine ⟨⟨0, ⟨3 / 5, 0, 0, 4 / 5⟩, 1, Quat.one, 0, Quat.one, 0⟩, originView, rows7 ![1, 2, 3] ![3 / 2, 0, 0] 0,
    ?_, ?_, ?_, ?_, ?_⟩
  · simp only [PoseView.predAtt, Quat.one, Quat.conj, Quat.mul, Quat.normSq]
    norm_num
  · rw [originView_att]; simp [Quat.normSq, Quat.one]
  · rw [originView_att]
    simp only [PoseView.predAtt, Quat.one, Quat.conj, Quat.mul]
    intro h
    have := congrArg Quat.z h
    norm_num at this
  · have h := originView_residual
    simp only [PoseView.residual] at h ⊢
    have hp : originView.predPos = 0 := by simp [originView, PoseView.predPos]
    rw [hp, sub_zero] at h ⊢
    obtain ⟨a, ha, h⟩ := Option.bind_eq_some_iff.1 h
    obtain ⟨y, hy, h⟩ := Option.bind_eq_some_iff.1 h
    have h3 : a = ![3 / 2, 0, 0] := by
      funext i
      fin_cases i
      · exact congrFun (Option.some.inj h) 3
      · exact congrFun (Option.some.inj h) 4
      · exact congrFun (Option.some.inj h) 5
    have h6 : y = 0 := congrFun (Option.some.inj h) 6
    simp [ha, hy, h3, h6]
  · exact one_ne_zero

end MSF
