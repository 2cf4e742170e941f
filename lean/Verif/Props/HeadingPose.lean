import Verif.Lemmas.TurnPose
import Verif.Lemmas.LengthUnit3
import Verif.Props.Heading
import Verif.Props.FixedStates

/-!
# C105 for pose measurements

A camera reports poses in its own frame.  Where this frame lies in the world is estimated, so the
messages stay the same when the world frame is chosen differently: one has to start the filter with the
rotated state.
-/

namespace MSF

open Matrix EKFState Core

/-- The claim of C105 for one pose measurement without outlier test that raises no alarm, with the given
fixed states: the update of the state in the turned frame is the update in the turned frame. -/
def PoseTurns (fixed : Nat) : Prop :=
  ∀ (g : Quat ℝ) (fb : Bool) (thr : ℝ) (t t' t₂ t₂' : Tracker ℝ) (s s' s₂ : EKFState ℝ (coreDef poseAux))
    (z : PoseMeas ℝ), IsYaw g → UnitQuats s.vars → s.P.PosSemidef → z.R_.PosDef →
    (∀ i, i ≠ 6 → z.R_ i 6 = 0) →
    poseApply (aux := poseAux) (scaleCalc fb) t poseIx fixed false thr z s = some (t', s', false) →
    poseApply (aux := poseAux) (scaleCalc fb) t₂ poseIx fixed false thr z (turnedState g s) = some (t₂', s₂, false) →
    s₂ = turnedState g s'

/-- What an update without outlier test and without alarm consists of. -/
theorem poseApply_parts {fb : Bool} {fixed : Nat} {thr : ℝ} {t t' : Tracker ℝ}
    {s s' : EKFState ℝ (coreDef poseAux)} {z : PoseMeas ℝ}
    (h : poseApply (aux := poseAux) (scaleCalc fb) t poseIx fixed false thr z s = some (t', s', false)) :
    ∃ P H r s1, clearFixed fixed poseIx.clearOrder s.P = some P ∧ poseH poseIx fixed s.vars = some H ∧
      (viewOf s.vars).residual z.z_p z.z_q = some r ∧ (innovCov P H z.R_).det ≠ 0 ∧
      correct s.vars (if fb then zeroBias (gain P H z.R_ *ᵥ r) else gain P H z.R_ *ᵥ r) = some s1 ∧
      s' = { s with vars := scaleSanity s1, P := josephUpdate P H z.R_ (gain P H z.R_) } := by
  unfold poseApply at h
  simp only [Option.bind_eq_bind] at h
  obtain ⟨P, eP, h⟩ := Option.bind_eq_some_iff.1 h
  obtain ⟨H, eH, h⟩ := Option.bind_eq_some_iff.1 h
  rw [poseView_eq, Option.bind_some] at h
  obtain ⟨r, er, h⟩ := Option.bind_eq_some_iff.1 h
  unfold updateState at h
  simp only [Option.bind_eq_bind] at h
  obtain ⟨o, eo, h⟩ := Option.bind_eq_some_iff.1 h
  unfold calculateCorrection at eo
  by_cases hd : (innovCov P H z.R_).det = 0
  · rw [if_pos hd] at eo; cases eo
  · rw [if_neg hd, if_neg (by simp)] at eo
    obtain rfl := Option.some.inj eo
    simp only at h
    obtain ⟨x, ex, h⟩ := Option.bind_eq_some_iff.1 h
    obtain ⟨t1, vars, fz⟩ := x
    simp only [Option.some.injEq, Prod.mk.injEq] at h
    obtain ⟨rfl, rfl, rfl⟩ := h
    obtain ⟨s1, e1, rfl⟩ := applyCorrection_quiet ex
    exact ⟨P, H, r, s1, eP, eH, er, hd, e1, rfl⟩

/-- **C105 for pose measurements.**  For every rotation of the world frame, not only about the vertical:
with the origin of the camera frame fixed (`p_wv`), a pose measurement without outlier test that raises
no alarm does the same in both frames.  The trackers may differ.
`PoseTurns` is the claim; `C105_pose_violated` shows that the fixed origin is needed.  Missing: the outlier
test, which weighs the yaw of `q_wv` (`C105_pose_test_partial`, `C105_pose_test_violated`), and updates
with an alarm, which replace `q_wv` by the component-wise median of earlier values. -/
theorem C105_pose_partial (g : Quat ℝ) (hg : g.normSq = 1) (fixed : Nat) (hf : fixed.testBit 7 = true)
    (fb : Bool) (thr thr₂ : ℝ) (t t' t₂ t₂' : Tracker ℝ) (s s' s₂ : EKFState ℝ (coreDef poseAux))
    (z : PoseMeas ℝ) (hu : UnitQuats s.vars) (hP : s.Pᵀ = s.P) (hR : z.R_ᵀ = z.R_)
    (h6 : ∀ i, i ≠ 6 → z.R_ i 6 = 0)
    (h : poseApply (aux := poseAux) (scaleCalc fb) t poseIx fixed false thr z s = some (t', s', false))
    (h₂ : poseApply (aux := poseAux) (scaleCalc fb) t₂ poseIx fixed false thr₂ z (turnedState g s) = some (t₂', s₂, false)) :
    s₂ = turnedState g s' := by
  obtain ⟨P, H, r, s1, eP, eH, er, hd, e1, rfl⟩ := poseApply_parts h
  obtain ⟨P', H', r', s1', eP', eH', er', hd', e1', rfl⟩ := poseApply_parts h₂
  obtain ⟨Ha, Hb, a1, a2, hH, hrow⟩ := poseH_turn hg fixed hf s.vars hu
  obtain rfl := Option.some.inj (eH.symm.trans a1)
  obtain rfl := Option.some.inj (eH'.symm.trans a2)
  have hq : (viewOf s.vars).q.normSq = 1 := hu iq _ rfl
  have hw : (viewOf s.vars).qwv.normSq = 1 := hu ⟨6, by decide⟩ _ rfl
  have er2 : ((viewOf s.vars).turn g).residual z.z_p z.z_q = some r' := by
    rw [← viewOf_turn]; exact er'
  have hres := residual_turn hg _ hq hw z.z_p z.z_q er er2
  have eP2 : P' = turnErr g.toRot * P * (turnErr g.toRot)ᵀ := by
    have := clearFixed_turn g.toRot fixed poseIx.clearOrder (by decide) s.P
    rw [eP] at this
    exact Option.some.inj (eP'.symm.trans this)
  have hPs : Pᵀ = P := clearFixed_symm poseDef_ok.1 _ _ _ _ hP eP
  have hT : turnErr g.toRot * (turnErr g.toRot)ᵀ = 1 := turnErr_orth (toRot_orthogonal g hg)
  subst eP2
  have cc := calculateCorrection_rot hT (S := (1 : Matrix (Fin 7) (Fin 7) ℝ)) (by simp) false 0 hPs
    (H := H) (H' := H') (by rw [hH, Matrix.one_mul]) r hR
  have hrr : gain (turnErr g.toRot * P * (turnErr g.toRot)ᵀ) H' z.R_ *ᵥ r' =
      gain (turnErr g.toRot * P * (turnErr g.toRot)ᵀ) H' z.R_ *ᵥ r := by
    have hrow' : ∀ c, H' 6 c = 0 := by
      have e : H' = H * (turnErr g.toRot)ᵀ := by
        rw [← hH, Matrix.mul_assoc, hT, Matrix.mul_one]
      intro c
      rw [e, Matrix.mul_apply]
      exact Finset.sum_eq_zero fun k _ => by rw [hrow, zero_mul]
    funext i
    rw [mulVec, mulVec, dotProduct, dotProduct]
    refine Finset.sum_congr rfl fun j _ => ?_
    by_cases hj : j = 6
    · subst hj
      rw [gain_row_zero _ _ _ 6 hrow' h6 hd', zero_mul, zero_mul]
    · rw [hres j hj]
  simp only [calculateCorrection, one_mulVec, Matrix.one_mul, transpose_one, Matrix.mul_one] at cc
  rw [if_neg hd, if_neg hd', if_neg (by simp), if_neg (by simp)] at cc
  simp only [Option.map_some, Option.some.injEq, Prod.mk.injEq] at cc
  obtain ⟨c1, c2⟩ := cc
  rw [hrr, c1] at e1'
  have ec : (if fb then zeroBias (turnErr g.toRot *ᵥ (gain P H z.R_ *ᵥ r)) else
      turnErr g.toRot *ᵥ (gain P H z.R_ *ᵥ r)) =
      turnErr g.toRot *ᵥ (if fb then zeroBias (gain P H z.R_ *ᵥ r) else gain P H z.R_ *ᵥ r) := by
    cases fb
    · rfl
    · exact zeroBias_turn _ _
  rw [ec] at e1'
  have e2 := correct_turn hg s.vars hu
    (if fb then zeroBias (gain P H z.R_ *ᵥ r) else gain P H z.R_ *ᵥ r)
  rw [e1] at e2
  obtain rfl := Option.some.inj (e1'.symm.trans e2)
  rw [c2, scaleSanity_turn]
  simp only [turnedState]

/-! ### Runs -/

/-- From fresh trackers a pose measurement is applied and raises no alarm. -/
theorem poseApply_runs (fixed : Nat) (z : PoseMeas ℝ) (s : EKFState ℝ (coreDef poseAux))
    (hu : UnitQuats s.vars) (hP : s.P.PosSemidef) (hR : z.R_.PosDef) (r : Fin 7 → ℝ)
    (hr : (viewOf s.vars).residual z.z_p z.z_q = some r) (hc : clearFixed fixed poseIx.clearOrder s.P = some s.P) :
    ∃ t' s', poseApply (aux := poseAux) (scaleCalc false) Tracker.reset poseIx fixed false 0 z s =
      some (t', s', false) := by
  obtain ⟨H, hH, -⟩ := poseH_mulVec poseIx fixed s.vars _ poseDef_ok.1 (poseView_eq s.vars) poseIx_distinct
  have hS : (innovCov s.P H z.R_).PosDef := hR.posSemidef_add (psd_congr hP H)
  have hdet : (innovCov s.P H z.R_).det ≠ 0 := ((Matrix.isUnit_iff_isUnit_det _).1 hS.isUnit).ne_zero
  have hcc : calculateCorrection false 0 s.P H r z.R_ =
      some (some (gain s.P H z.R_ *ᵥ r, josephUpdate s.P H z.R_ (gain s.P H z.R_))) := by
    simp only [calculateCorrection]
    rw [if_neg hdet, if_neg (by simp)]
  obtain ⟨s1, hs1, -⟩ := correct_reads s.vars (gain s.P H z.R_ *ᵥ r) poseDef_ok.1 posePlain hu
  obtain ⟨t', hf⟩ := fuzzy_reset (scaleSanity s1) s.vars
  have ha : applyCorrection (aux := poseAux) (scaleCalc false) Tracker.reset s.vars (gain s.P H z.R_ *ᵥ r) =
      some (t', scaleSanity s1, false) := by
    change ((correct s.vars (gain s.P H z.R_ *ᵥ r)).bind fun s' =>
      fuzzyCheck' Tracker.reset (scaleSanity s') s.vars 0.1) = _
    rw [hs1]
    exact hf
  refine ⟨t', { s with P := josephUpdate s.P H z.R_ (gain s.P H z.R_), vars := scaleSanity s1 }, ?_⟩
  simp only [poseApply, hc, Option.bind_eq_bind, Option.bind_some, hH, poseView_eq, hr, updateState, hcc, ha]
  rfl

/-- The half turn about the vertical. -/
theorem halfTurn_yaw : IsYaw ⟨0, 0, 0, 1⟩ := by
  refine ⟨by norm_num [Quat.normSq], ?_⟩
  funext i
  fin_cases i <;> simp [Quat.toRot, mulVec, dotProduct, Fin.sum_univ_three]

/-- The residual in a frame that is turned by half a turn. -/
theorem fix_residual (z : V3 ℝ) (g : Quat ℝ) (hg : g = Quat.one ∨ g = ⟨0, 0, 0, 1⟩) :
    ∃ r, ((viewOf (scaleState 1)).turn g).residual z Quat.one = some r ∧ r 0 = z 0 := by
  have hu : g.normSq = 1 := by rcases hg with rfl | rfl <;> norm_num [Quat.normSq, Quat.one]
  have ev : viewOf (scaleState 1) = ⟨0, Quat.one, 1, Quat.one, 0, Quat.one, 0⟩ := rfl
  have hpa : ((viewOf (scaleState 1)).turn g).predAtt = Quat.one := by
    rw [PoseView.turn_predAtt hu, ev]; exact one_predAtt 1
  have hy : ∃ y, yawResidual ((viewOf (scaleState 1)).turn g).qwv = some y := by
    rw [ev]
    unfold yawResidual
    rw [if_neg]
    · exact ⟨_, rfl⟩
    · rcases hg with rfl | rfl <;> norm_num [PoseView.turn, Quat.mul, Quat.conj, Quat.one]
  have hpp : ((viewOf (scaleState 1)).turn g).predPos = 0 := by
    rw [PoseView.turn_predPos hu _ (by rw [ev]; exact Quat.normSq_one) (by rw [ev]; exact Quat.normSq_one), ev]
    simp [PoseView.predPos]
  obtain ⟨y, hy⟩ := hy
  refine ⟨rows7 (z - 0) 0 y, ?_, by simp [rows7]⟩
  simp only [PoseView.residual, hpa, hpp, hy, attResidual_exact (q := Quat.one) Quat.normSq_one,
    Option.bind_eq_bind, Option.bind_some]

theorem turn_one (v : PoseView ℝ) : v.turn Quat.one = v := by
  have : (Quat.one : Quat ℝ).conj = Quat.one := by simp [Quat.conj, Quat.one]
  simp [PoseView.turn, this, Quat.mul_one', Quat.one_mul', one_toRot]

/-- The hypotheses of the theorem are met: a filter at rest with a unit covariance takes a pose in both
frames, whichever states are fixed beside the origin. -/
example (fixed : Nat) (hf : fixed.testBit 7 = true) : ∃ t' s' t₂',
    poseApply (aux := poseAux) (scaleCalc false) Tracker.reset poseIx fixed false 0
      (makePose unitCfg ![1, 2, 3] Quat.one 0) (fixState 1) = some (t', s', false) ∧
    poseApply (aux := poseAux) (scaleCalc false) Tracker.reset poseIx fixed false 0
      (makePose unitCfg ![1, 2, 3] Quat.one 0) (turnedState ⟨0, 0, 0, 1⟩ (fixState 1)) =
        some (t₂', turnedState ⟨0, 0, 0, 1⟩ s', false) := by
  have hT : turnErr (Quat.toRot ⟨0, 0, 0, 1⟩) * (turnErr (Quat.toRot ⟨0, 0, 0, 1⟩))ᵀ = 1 :=
    turnErr_orth halfTurn_yaw.orth
  have hP : (turnedState ⟨0, 0, 0, 1⟩ (fixState 1)).P = 1 := by
    simp only [turnedState, fixState, Matrix.mul_one, hT]
  have hR : (makePose unitCfg ![1, 2, 3] Quat.one 0).R_.PosDef := unitCfg_posDef _ _ _
  obtain ⟨r, hr, -⟩ := fix_residual ![1, 2, 3] Quat.one (.inl rfl)
  obtain ⟨r', hr', -⟩ := fix_residual ![1, 2, 3] ⟨0, 0, 0, 1⟩ (.inr rfl)
  rw [turn_one] at hr
  rw [← viewOf_turn] at hr'
  obtain ⟨t', s', e⟩ := poseApply_runs fixed (makePose unitCfg ![1, 2, 3] Quat.one 0) (fixState 1)
    (scaleState_unit 1) PosSemidef.one hR r hr (clear_one poseDef_ok.1 fixed _ (by decide))
  obtain ⟨t₂, s₂, e₂⟩ := poseApply_runs fixed (makePose unitCfg ![1, 2, 3] Quat.one 0)
    (turnedState ⟨0, 0, 0, 1⟩ (fixState 1)) (turnVars_unit halfTurn_yaw.unit (scaleState_unit 1))
    (by rw [hP]; exact PosSemidef.one) hR r' hr' (by rw [hP]; exact clear_one poseDef_ok.1 fixed _ (by decide))
  refine ⟨t', s', t₂, e, ?_⟩
  rw [e₂, C105_pose_partial _ halfTurn_yaw.unit fixed hf false 0 0 _ _ _ _ _ _ _ _ (scaleState_unit 1)
    transpose_one (psd_transpose_eq hR.posSemidef) ?_ e e₂]
  intro i hi
  simp [makePose, unitCfg, hi]

/-! ### Violation -/

/-- The pose filter at rest with one uncertain number, the first coordinate of the camera frame. -/
noncomputable def originState : EKFState ℝ (coreDef poseAux) :=
  { blankState poseAux 0 0 0 with vars := scaleState 1, P := diagonal (Pi.single ⟨19, by decide⟩ 1) }

theorem originState_half : (turnedState ⟨0, 0, 0, 1⟩ originState).P = originState.P := by
  have col : turnErr (Quat.toRot ⟨0, 0, 0, 1⟩) *ᵥ Pi.single ⟨19, by decide⟩ 1 =
      -(Pi.single ⟨19, by decide⟩ 1 : Fin (total errLen (coreDef poseAux)) → ℝ) := by
    have h28 : total errLen (coreDef poseAux) = 28 := by decide
    funext k
    rw [turnErr_apply]
    have z19 : (setBlock 1 19 19 (Quat.toRot ⟨0, 0, 0, 1⟩) : ErrMat ℝ (coreDef poseAux)) *ᵥ
        Pi.single ⟨19, by decide⟩ 1 = -(Pi.single ⟨19, by decide⟩ 1 : _ → ℝ) := by
      funext k
      rw [rotAt_mulVec 19 (by decide)]
      have hs : segD (Pi.single ⟨19, by decide⟩ 1 : Fin (total errLen (coreDef poseAux)) → ℝ) 19 3 =
          ![1, 0, 0] := by
        funext j; fin_cases j <;> rfl
      split
      · rename_i h
        rw [hs]
        have : k.val = 19 ∨ k.val = 20 ∨ k.val = 21 := by omega
        rcases this with h | h | h
        · obtain rfl : k = ⟨19, by decide⟩ := Fin.ext h
          simp [Quat.toRot, mulVec, dotProduct, Fin.sum_univ_three]
          norm_num
        · obtain rfl : k = ⟨20, by decide⟩ := Fin.ext h
          simp [Quat.toRot, mulVec, dotProduct, Fin.sum_univ_three]
        · obtain rfl : k = ⟨21, by decide⟩ := Fin.ext h
          simp [Quat.toRot, mulVec, dotProduct, Fin.sum_univ_three]
      · rename_i h
        have hk : k ≠ ⟨19, by decide⟩ := by rintro rfl; simp at h
        rw [Pi.neg_apply, Pi.single_eq_of_ne hk, neg_zero]
    rw [z19, mulVec_neg, mulVec_neg, Pi.neg_apply, Pi.neg_apply]
    congr 1
    have low : ∀ R : M33 ℝ, (setBlock 1 16 16 R : ErrMat ℝ (coreDef poseAux)) *ᵥ
        Pi.single ⟨19, by decide⟩ 1 = (Pi.single ⟨19, by decide⟩ 1 : _ → ℝ) := by
      intro R
      funext k
      rw [rotAt_mulVec 16 (by decide)]
      have hs : segD (Pi.single ⟨19, by decide⟩ 1 : Fin (total errLen (coreDef poseAux)) → ℝ) 16 3 = 0 := by
        funext j; fin_cases j <;> rfl
      split
      · rename_i h
        have hk : k ≠ ⟨19, by decide⟩ := by rintro rfl; simp at h
        rw [hs, mulVec_zero, Pi.single_eq_of_ne hk]; rfl
      · rfl
    rw [low]
    by_cases hk : 6 ≤ k.val
    · exact rotErr_mulVec_aux _ _ _ hk
    · have h0 : ∀ b : Fin 5, b = 0 ∨ b = 1 → coreSeg (rotErr (Quat.toRot ⟨0, 0, 0, 1⟩) *ᵥ
          (Pi.single ⟨19, by decide⟩ 1 : Fin (total errLen (coreDef poseAux)) → ℝ)) b = 0 := by
        intro b hb
        rw [rotErr_mulVec_core _ _ _ hb]
        have : coreSeg (Pi.single ⟨19, by decide⟩ 1 : Fin (total errLen (coreDef poseAux)) → ℝ) b = 0 := by
          rcases hb with rfl | rfl <;> (funext j; fin_cases j <;> rfl)
        rw [this, mulVec_zero]
      have hne : k ≠ ⟨19, by decide⟩ := by rintro rfl; simp at hk
      rw [Pi.single_eq_of_ne hne]
      by_cases h3 : k.val < 3
      · have := congrFun (h0 0 (.inl rfl)) ⟨k.val, h3⟩
        exact (congrArg _ (Fin.ext (by simp))).trans this
      · have := congrFun (h0 1 (.inr rfl)) ⟨k.val - 3, by omega⟩
        exact (congrArg _ (Fin.ext (by simp; omega))).trans this
  ext i j
  have ci : ∀ i, turnErr (Quat.toRot ⟨0, 0, 0, 1⟩) i ⟨19, by decide⟩ =
      -(Pi.single ⟨19, by decide⟩ 1 : Fin (total errLen (coreDef poseAux)) → ℝ) i := by
    intro i
    have := congrFun col i
    rw [mulVec_single_one] at this
    exact this
  change (turnErr (Quat.toRot ⟨0, 0, 0, 1⟩) *
    (diagonal (Pi.single ⟨19, by decide⟩ 1) : ErrMat ℝ (coreDef poseAux)) *
    (turnErr (Quat.toRot ⟨0, 0, 0, 1⟩))ᵀ) i j =
    (diagonal (Pi.single ⟨19, by decide⟩ 1) : ErrMat ℝ (coreDef poseAux)) i j
  rw [Matrix.mul_apply, Finset.sum_eq_single ⟨19, by decide⟩]
  · rw [mul_diagonal, transpose_apply, ci, ci, Pi.single_eq_same, mul_one, diagonal_apply, neg_mul_neg]
    by_cases hij : i = j
    · subst hij
      rw [if_pos rfl]
      by_cases hi : i = ⟨19, by decide⟩
      · subst hi; rw [Pi.single_eq_same, mul_one]
      · rw [Pi.single_eq_of_ne hi, mul_zero]
    · rw [if_neg hij]
      by_cases hi : i = ⟨19, by decide⟩
      · rw [Pi.single_eq_of_ne (fun h => hij (hi.trans h.symm)), mul_zero]
      · rw [Pi.single_eq_of_ne hi, zero_mul]
  · intro k _ hk
    rw [mul_diagonal, Pi.single_eq_of_ne hk, mul_zero, zero_mul]
  · intro h; exact absurd (Finset.mem_univ _) h

/-- What a pose one metre to the side does to the origin of the camera frame: the same in both frames. -/
theorem origin_moves (fixed : Nat) (h7 : fixed.testBit 7 = false) (g : Quat ℝ)
    (hg : g = Quat.one ∨ g = ⟨0, 0, 0, 1⟩) (s : EKFState ℝ (coreDef poseAux)) (hu : UnitQuats s.vars)
    (hv : viewOf s.vars = (viewOf (scaleState 1)).turn g)
    (hP : s.P = diagonal (Pi.single ⟨19, by decide⟩ 1)) :
    ∃ t' s', poseApply (aux := poseAux) (scaleCalc false) Tracker.reset poseIx fixed false 0
      ⟨![1, 0, 0], Quat.one, diagonal fun _ => 1⟩ s = some (t', s', false) ∧ pwvOf s'.vars 0 = - (1 / 2) := by
  obtain ⟨H, hH, hm⟩ := poseH_mulVec poseIx fixed s.vars _ poseDef_ok.1 (poseView_eq s.vars) poseIx_distinct
  obtain ⟨r, hr, hr0⟩ := fix_residual ![1, 0, 0] g hg
  rw [← hv] at hr
  have hcol : ∀ r, H r ⟨19, by decide⟩ = (Pi.single 0 (-1) : Fin 7 → ℝ) r := by
    intro r
    have col : H r ⟨19, by decide⟩ = (H *ᵥ Pi.single ⟨19, by decide⟩ 1) r := by rw [mulVec_single_one]; rfl
    rw [col, hm]
    have z : ∀ l ∈ [0, 2, 6, 8, 9], segOf (D := coreDef poseAux) (Pi.single ⟨19, by decide⟩ (1 : ℝ)) l 3 = 0 := by
      intro l hl
      funext i
      simp only [List.mem_cons, List.not_mem_nil, or_false] at hl
      rcases hl with rfl | rfl | rfl | rfl | rfl <;> fin_cases i <;> rfl
    have z5' : segOf (D := coreDef poseAux) (Pi.single ⟨19, by decide⟩ (1 : ℝ)) poseIx.L 1 = 0 := by
      funext i; fin_cases i; rfl
    have o' : segOf (D := coreDef poseAux) (Pi.single ⟨19, by decide⟩ (1 : ℝ)) poseIx.pwv 3 = ![1, 0, 0] := by
      funext i; fin_cases i <;> rfl
    have h7' : fixed.testBit poseIx.pwv = false := h7
    simp only [z 0 (by decide), z 2 (by decide), z poseIx.qwv (by decide), z poseIx.qic (by decide),
      z poseIx.pic (by decide), z5', o', h7', mulVec_zero]
    fin_cases r <;> simp [pad, mulVec, dotProduct, Fin.sum_univ_three]
  obtain ⟨P', hP'⟩ := single_correction H ⟨19, by decide⟩ 0 1 (-1) (fun _ => 1) r hcol zero_le_one
    (fun _ => one_pos) 0
  obtain ⟨s1, hs1, hread, -⟩ := correct_reads s.vars
    (Pi.single ⟨19, by decide⟩ (1 * -1 * r 0 / (1 + 1 * -1 * -1))) poseDef_ok.1 posePlain hu
  obtain ⟨t', hf⟩ := fuzzy_reset (scaleSanity s1) s.vars
  have ha : applyCorrection (aux := poseAux) (scaleCalc false) Tracker.reset s.vars
      (Pi.single ⟨19, by decide⟩ (1 * -1 * r 0 / (1 + 1 * -1 * -1))) = some (t', scaleSanity s1, false) := by
    change ((correct s.vars (Pi.single ⟨19, by decide⟩ (1 * -1 * r 0 / (1 + 1 * -1 * -1)))).bind fun s' =>
      fuzzyCheck' Tracker.reset (scaleSanity s') s.vars 0.1) = _
    rw [hs1]
    exact hf
  have hc : clearFixed fixed poseIx.clearOrder s.P = some s.P := by
    rw [hP]; exact clear_diagonal poseDef_ok.1 fixed _ _ (by decide)
  refine ⟨t', { s with P := P', vars := scaleSanity s1 }, ?_, ?_⟩
  · rw [← hP] at hP'
    simp only [poseApply, hc, Option.bind_eq_bind, Option.bind_some, hH, poseView_eq, hr, updateState, hP', ha]
    rfl
  · have h0 : pwvOf s.vars = 0 := by
      have := congrArg PoseView.pwv hv
      change pwvOf s.vars = g.toRot *ᵥ (0 : V3 ℝ) at this
      rw [this, mulVec_zero]
    have h1 : pwvOf s1 = pwvOf s.vars + segOf (D := coreDef poseAux) (Pi.single ⟨19, by decide⟩
        (1 * -1 * r 0 / (1 + 1 * -1 * -1))) 7 3 :=
      Option.some.inj (hread 7 3 _ rfl)
    have h2 : pwvOf (scaleSanity s1) = pwvOf s1 := by
      have e : scaleSanity s1 = if ((s1 ⟨5, by decide⟩).val : Fin 1 → ℝ) 0 < 0 then
        Function.update s1 ⟨5, by decide⟩ { s1 ⟨5, by decide⟩ with val := (fun _ => 0.1 : Fin 1 → ℝ) } else s1 := rfl
      rw [e]
      split
      · rfl
      · rfl
    have h3 : segOf (D := coreDef poseAux) (Pi.single ⟨19, by decide⟩ (1 * -1 * r 0 / (1 + 1 * -1 * -1))) 7 3 0 =
      1 * -1 * r 0 / (1 + 1 * -1 * -1) := rfl
    rw [h2, h1, h0, zero_add, h3, hr0]
    norm_num

/-- **C105 is violated by pose measurements that estimate the origin of the camera frame.**  The
measurement matrix takes the origin as if it were given in the camera frame (C44), so a pose moves it the
same way whichever way the world frame points. -/
theorem C105_pose_violated (fixed : Nat) (h7 : fixed.testBit 7 = false) : ¬ PoseTurns fixed := by
  intro h
  obtain ⟨t', s', e, m⟩ := origin_moves fixed h7 Quat.one (.inl rfl) originState (scaleState_unit 1)
    (turn_one _).symm rfl
  obtain ⟨t₂, s₂, e₂, m₂⟩ := origin_moves fixed h7 ⟨0, 0, 0, 1⟩ (.inr rfl) (turnedState ⟨0, 0, 0, 1⟩ originState)
    (turnVars_unit halfTurn_yaw.unit (scaleState_unit 1)) (viewOf_turn _ _) originState_half
  have key := h _ _ _ _ _ _ _ _ _ _ _ halfTurn_yaw (scaleState_unit 1)
    (PosSemidef.diagonal fun i => by by_cases hi : i = ⟨19, by decide⟩ <;> simp [hi])
    (PosDef.diagonal fun _ => one_pos) (fun i hi => diagonal_apply_ne _ hi) e e₂
  rw [key] at m₂
  have e7 : pwvOf (turnedState ⟨0, 0, 0, 1⟩ s').vars = Quat.toRot ⟨0, 0, 0, 1⟩ *ᵥ pwvOf s'.vars := rfl
  rw [e7] at m₂
  simp [Quat.toRot, mulVec, dotProduct, Fin.sum_univ_three, m] at m₂

/-- Which fixed states make pose measurements independent of the heading: exactly those with the origin
of the camera frame. -/
theorem C105_pose_iff_partial (fixed : Nat) : PoseTurns fixed ↔ fixed.testBit 7 = true := by
  refine ⟨fun h => ?_, fun hf g fb thr t t' t₂ t₂' s s' s₂ z hy hu hP hR h6 h h₂ =>
    C105_pose_partial g hy.unit fixed hf fb thr thr t t' t₂ t₂' s s' s₂ z hu (psd_transpose_eq hP)
      (psd_transpose_eq hR.posSemidef) h6 h h₂⟩
  by_contra hn
  exact C105_pose_violated fixed (by simpa using hn) h

end MSF
