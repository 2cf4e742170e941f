import Verif.Props.HeadingPose

/-!
# C105 for the outlier test of pose measurements

The same measurements should be rejected whichever way the world frame points.
-/

namespace MSF

open Matrix EKFState Core

/-- The claim: the outlier test of a pose measurement has the same outcome for a state and for the same
state in a frame that is turned about the vertical.  `some none` is a rejected measurement. -/
def PoseTestTurns (fixed : Nat) : Prop :=
  ∀ (g : Quat ℝ) (thr : ℝ) (s : EKFState ℝ (coreDef poseAux)) (cfg : PoseCfg ℝ) (pos : V3 ℝ) (att : Quat ℝ)
    (cov : Fin 36 → ℝ) (P P' : ErrMat ℝ (coreDef poseAux))
    (H H' : Matrix (Fin 7) (Fin (total errLen (coreDef poseAux))) ℝ) (r r' : Fin 7 → ℝ),
    let z := makePose cfg pos att cov
    IsYaw g → UnitQuats s.vars → s.P.PosSemidef → z.R_.PosDef → 0 ≤ thr →
    clearFixed fixed poseIx.clearOrder s.P = some P →
    clearFixed fixed poseIx.clearOrder (turnedState g s).P = some P' →
    poseH poseIx fixed s.vars = some H → poseH poseIx fixed (turnedState g s).vars = some H' →
    (viewOf s.vars).residual z.z_p z.z_q = some r →
    (viewOf (turnedState g s).vars).residual z.z_p z.z_q = some r' →
    (calculateCorrection true thr P H r z.R_ = some none ↔
      calculateCorrection true thr P' H' r' z.R_ = some none)

/-- Splitting the last row off the Mahalanobis distance. -/
theorem mahSquared_split {k : Nat} (P : Matrix (Fin k) (Fin k) ℝ) (H : Matrix (Fin 7) (Fin k) ℝ)
    (R : Matrix (Fin 7) (Fin 7) ℝ) (ρ : ℝ) (hρ : ρ ≠ 0) (hP : Pᵀ = P) (hR : Rᵀ = R) (hH : H 6 = 0)
    (h6 : R *ᵥ Pi.single 6 1 = Pi.single 6 ρ) (hdet : (innovCov P H R).det ≠ 0) (r : Fin 7 → ℝ) (y : ℝ) :
    mahSquared P H R (Function.update r 6 y) =
      mahSquared P H R (Function.update r 6 0) + ρ⁻¹ * y ^ 2 := by
  set a : Fin 7 → ℝ := Function.update r 6 0 with ha
  have e : Function.update r 6 y = a + y • Pi.single 6 1 := by
    funext i
    by_cases hi : i = 6
    · subst hi; simp [ha]
    · simp [ha, hi]
  have hi := innovCov_inv_unit P H R 6 ρ hρ hH h6 hdet
  have hS : (innovCov P H R)⁻¹ᵀ = (innovCov P H R)⁻¹ := by
    rw [transpose_nonsing_inv]
    congr 1
    simp only [innovCov, transpose_add, transpose_mul, transpose_transpose, hP, hR, Matrix.mul_assoc]
  have ha6 : a 6 = 0 := by simp [ha]
  have c1 : a ⬝ᵥ ((innovCov P H R)⁻¹ *ᵥ Pi.single 6 1) = 0 := by
    rw [hi, dotProduct_single, ha6, zero_mul]
  have c2 : (Pi.single 6 1 : Fin 7 → ℝ) ⬝ᵥ ((innovCov P H R)⁻¹ *ᵥ a) = 0 := by
    rw [dotProduct_mulVec, ← mulVec_transpose, hS, dotProduct_comm]
    exact c1
  rw [e, mahSquared, mahSquared, mulVec_add, mulVec_smul, dotProduct_add, add_dotProduct, add_dotProduct,
    smul_dotProduct, dotProduct_smul, dotProduct_smul, smul_dotProduct, c1, c2, hi, single_dotProduct]
  simp
  ring

/-- **C105 for the outlier test, partial**: with the origin of the camera frame fixed, the squared
Mahalanobis distances of a pose in the two frames differ by 1000000 times the difference of the squared
yaw residuals, and by nothing else.  So the test has the same outcome if those residuals are equal up to
the sign.  Missing: yaw residuals that differ, where the claim is false (`C105_pose_test_violated`). -/
theorem C105_pose_test_partial (g : Quat ℝ) (hg : g.normSq = 1) (fixed : Nat) (hf : fixed.testBit 7 = true)
    (thr : ℝ) (s : EKFState ℝ (coreDef poseAux)) (cfg : PoseCfg ℝ) (pos : V3 ℝ) (att : Quat ℝ)
    (cov : Fin 36 → ℝ) (P P' : ErrMat ℝ (coreDef poseAux))
    (H H' : Matrix (Fin 7) (Fin (total errLen (coreDef poseAux))) ℝ) (r r' : Fin 7 → ℝ)
    (hu : UnitQuats s.vars) (hP : s.P.PosSemidef) (hR : (makePose cfg pos att cov).R_.PosDef)
    (eP : clearFixed fixed poseIx.clearOrder s.P = some P)
    (eP' : clearFixed fixed poseIx.clearOrder (turnedState g s).P = some P')
    (eH : poseH poseIx fixed s.vars = some H) (eH' : poseH poseIx fixed (turnedState g s).vars = some H')
    (er : (viewOf s.vars).residual (makePose cfg pos att cov).z_p (makePose cfg pos att cov).z_q = some r)
    (er' : (viewOf (turnedState g s).vars).residual (makePose cfg pos att cov).z_p
      (makePose cfg pos att cov).z_q = some r')
    (hdet : (innovCov P H (makePose cfg pos att cov).R_).det ≠ 0) :
    mahSquared P' H' (makePose cfg pos att cov).R_ r' =
      mahSquared P H (makePose cfg pos att cov).R_ r + 1000000 * (r' 6 ^ 2 - r 6 ^ 2) ∧
    (|r' 6| = |r 6| → (calculateCorrection true thr P H r (makePose cfg pos att cov).R_ = some none ↔
      calculateCorrection true thr P' H' r' (makePose cfg pos att cov).R_ = some none)) := by
  set R := (makePose cfg pos att cov).R_ with hRdef
  obtain ⟨Ha, Hb, a1, a2, hH, hrow⟩ := poseH_turn hg fixed hf s.vars hu
  obtain rfl := Option.some.inj (eH.symm.trans a1)
  obtain rfl := Option.some.inj (eH'.symm.trans a2)
  have hq : (viewOf s.vars).q.normSq = 1 := hu iq _ rfl
  have hw : (viewOf s.vars).qwv.normSq = 1 := hu ⟨6, by decide⟩ _ rfl
  have er2 : ((viewOf s.vars).turn g).residual (makePose cfg pos att cov).z_p
      (makePose cfg pos att cov).z_q = some r' := by
    rw [← viewOf_turn]; exact er'
  have hres := residual_turn hg _ hq hw _ _ er er2
  have eP2 : P' = turnErr g.toRot * P * (turnErr g.toRot)ᵀ := by
    have := clearFixed_turn g.toRot fixed poseIx.clearOrder (by decide) s.P
    rw [eP] at this
    exact Option.some.inj (eP'.symm.trans this)
  have hPs : Pᵀ = P := clearFixed_symm poseDef_ok.1 _ _ _ _ (psd_transpose_eq hP) eP
  have hS : innovCov P' H' R = innovCov P H R := by
    rw [innovCov, innovCov, eP2, ← hH, transpose_mul]
    simp only [Matrix.mul_assoc]
  have hmm : ∀ x, mahSquared P' H' R x = mahSquared P H R x := fun x => by
    rw [mahSquared, mahSquared, hS]
  have sp := mahSquared_split P H R (1 / 1000000) (by norm_num) hPs (psd_transpose_eq hR.posSemidef)
    (funext hrow) (makePose_row6 cfg pos att cov) hdet r
  have e1 : r = Function.update r 6 (r 6) := (Function.update_eq_self 6 r).symm
  have e2 : r' = Function.update r 6 (r' 6) := by
    funext i
    by_cases hi : i = 6
    · subst hi; simp
    · simp [hi, hres i hi]
  have key : mahSquared P' H' R r' = mahSquared P H R r + 1000000 * (r' 6 ^ 2 - r 6 ^ 2) := by
    have k1 := sp (r 6)
    have k2 := sp (r' 6)
    rw [← e1] at k1
    rw [← e2] at k2
    rw [hmm, k1, k2]
    ring
  refine ⟨key, fun hy => ?_⟩
  have hsq : r' 6 ^ 2 = r 6 ^ 2 := by rw [← sq_abs, hy, sq_abs]
  rw [hsq, sub_self, mul_zero, add_zero] at key
  rw [calculateCorrection, calculateCorrection, hS, if_neg hdet, if_neg hdet, key]
  by_cases hm : true = true ∧ mahRejects (mahSquared P H R r) thr
  · rw [if_pos hm, if_pos hm]
  · rw [if_neg hm, if_neg hm]; simp

/-- The hypotheses hold for a filter at rest and a half turn, with the predicted pose. -/
example (fixed : Nat) : ∃ (P P' : ErrMat ℝ (coreDef poseAux))
    (H H' : Matrix (Fin 7) (Fin (total errLen (coreDef poseAux))) ℝ) (r r' : Fin 7 → ℝ),
    UnitQuats (yawState Quat.one).vars ∧ (yawState Quat.one).P.PosSemidef ∧
    (makePose unitCfg 0 Quat.one 0).R_.PosDef ∧
    clearFixed fixed poseIx.clearOrder (yawState Quat.one).P = some P ∧
    clearFixed fixed poseIx.clearOrder (turnedState ⟨0, 0, 0, 1⟩ (yawState Quat.one)).P = some P' ∧
    poseH poseIx fixed (yawState Quat.one).vars = some H ∧
    poseH poseIx fixed (turnedState ⟨0, 0, 0, 1⟩ (yawState Quat.one)).vars = some H' ∧
    (viewOf (yawState Quat.one).vars).residual 0 Quat.one = some r ∧
    (viewOf (turnedState ⟨0, 0, 0, 1⟩ (yawState Quat.one)).vars).residual 0 Quat.one = some r' ∧
    (innovCov P H (makePose unitCfg 0 Quat.one 0).R_).det ≠ 0 ∧ |r' 6| = |r 6| := by
  have hT : turnErr (Quat.toRot ⟨0, 0, 0, 1⟩) * (turnErr (Quat.toRot ⟨0, 0, 0, 1⟩))ᵀ = 1 :=
    turnErr_orth (toRot_orthogonal _ halfTurn_yaw.unit)
  have hP' : (turnedState ⟨0, 0, 0, 1⟩ (yawState Quat.one)).P = 1 := by
    change turnErr (Quat.toRot ⟨0, 0, 0, 1⟩) * 1 * (turnErr (Quat.toRot ⟨0, 0, 0, 1⟩))ᵀ = 1
    rw [Matrix.mul_one, hT]
  have hc : clearFixed fixed poseIx.clearOrder (1 : ErrMat ℝ (coreDef poseAux)) = some 1 :=
    clear_one poseDef_ok.1 fixed _ (by decide)
  obtain ⟨H, hH, -⟩ := poseH_mulVec poseIx fixed (yawState Quat.one).vars _ poseDef_ok.1
    (poseView_eq _) poseIx_distinct
  obtain ⟨H', hH', -⟩ := poseH_mulVec poseIx fixed (turnedState ⟨0, 0, 0, 1⟩ (yawState Quat.one)).vars _
    poseDef_ok.1 (poseView_eq _) poseIx_distinct
  have n1 : (Quat.one : Quat ℝ).normSq = 1 := by norm_num [Quat.normSq, Quat.one]
  have hw : (viewOf (yawState Quat.one).vars) = ⟨0, Quat.one, 1, Quat.one, 0, Quat.one, 0⟩ := rfl
  have hpa : (viewOf (yawState Quat.one).vars).predAtt = Quat.one := by rw [hw]; exact one_predAtt 1
  have hpp : (viewOf (yawState Quat.one).vars).predPos = 0 := by rw [hw]; simp [PoseView.predPos]
  have hS : (innovCov 1 H (makePose unitCfg 0 Quat.one 0).R_).PosDef :=
    (unitCfg_posDef _ _ _).posSemidef_add (psd_congr PosSemidef.one H)
  refine ⟨1, 1, H, H', Pi.single 6 0, Pi.single 6 0, yawState_unit _ n1, PosSemidef.one,
    unitCfg_posDef _ _ _, hc, by rw [hP']; exact hc, hH, hH', ?_, ?_,
    ((Matrix.isUnit_iff_isUnit_det _).1 hS.isUnit).ne_zero, rfl⟩
  · rw [PoseView.residual, hpa, attResidual_exact n1, hpp, sub_self, ← rows7_yaw]
    have : yawResidual (viewOf (yawState Quat.one).vars).qwv = some 0 := by
      rw [hw, yawResidual, if_neg (by norm_num [Quat.one])]
      norm_num [Quat.one]
    rw [this]
    rfl
  · change (viewOf (turnVars ⟨0, 0, 0, 1⟩ (yawState Quat.one).vars)).residual 0 Quat.one = _
    rw [viewOf_turn, PoseView.residual, PoseView.turn_predAtt halfTurn_yaw.unit,
      PoseView.turn_predPos halfTurn_yaw.unit _ n1 n1, hpa, attResidual_exact n1, hpp, sub_self, ← rows7_yaw]
    have : yawResidual ((viewOf (yawState Quat.one).vars).turn ⟨0, 0, 0, 1⟩).qwv = some 0 := by
      have e : ((viewOf (yawState Quat.one).vars).turn ⟨0, 0, 0, 1⟩).qwv = ⟨0, 0, 0, -1⟩ := by
        rw [hw]
        simp [PoseView.turn, Quat.conj, Quat.mul, Quat.one]
      rw [e, yawResidual, if_neg (by norm_num)]
      norm_num
    rw [this]
    rfl

/-- The outlier test of a predicted pose. -/
theorem exact_test (P : ErrMat ℝ (coreDef poseAux)) (hP : P.PosSemidef)
    (H : Matrix (Fin 7) (Fin (total errLen (coreDef poseAux))) ℝ) (h6 : H 6 = 0) (cfg : PoseCfg ℝ) (pos : V3 ℝ)
    (att : Quat ℝ) (cov : Fin 36 → ℝ) (hR : (makePose cfg pos att cov).R_.PosDef) (y : ℝ) :
    calculateCorrection true 100 P H (Pi.single 6 y) (makePose cfg pos att cov).R_ = some none ↔
      (100 : ℝ) ^ 2 < 1000000 * y ^ 2 := by
  have hS : (innovCov P H (makePose cfg pos att cov).R_).PosDef := hR.posSemidef_add (psd_congr hP H)
  have hdet : (innovCov P H (makePose cfg pos att cov).R_).det ≠ 0 :=
    ((Matrix.isUnit_iff_isUnit_det _).1 hS.isUnit).ne_zero
  have hm : mahSquared P H (makePose cfg pos att cov).R_ (Pi.single 6 y) = 1000000 * y ^ 2 := by
    have hi := innovCov_inv_unit P H _ 6 _ (by norm_num) h6 (makePose_row6 cfg pos att cov) hdet
    have e : (Pi.single 6 y : Fin 7 → ℝ) = y • Pi.single 6 1 := by
      rw [← Pi.single_smul]; simp
    rw [mahSquared, e, mulVec_smul, hi, smul_dotProduct, dotProduct_smul, single_dotProduct, Pi.single_eq_same]
    norm_num
    ring
  rw [calculateCorrection, if_neg hdet, hm]
  by_cases hr : mahRejects (1000000 * y ^ 2) 100
  · rw [if_pos ⟨rfl, hr⟩]
    exact iff_of_true rfl ((mahRejects_iff _ _ (by norm_num)).1 hr)
  · rw [if_neg fun h => hr h.2]
    exact iff_of_false (by simp) fun h => hr ((mahRejects_iff _ _ (by norm_num)).2 h)

/-- **C105 is violated by the outlier test of pose measurements**, whichever states are fixed: a filter
at rest whose camera frame is the world frame takes the predicted pose; in a frame turned by 74° it
rejects the same pose, since the yaw of the camera frame counts as an error. -/
theorem C105_pose_test_violated (fixed : Nat) : ¬ PoseTestTurns fixed := by
  intro h
  set g : Quat ℝ := ⟨4/5, 0, 0, -(3/5)⟩ with hg
  have hy : IsYaw g := by
    refine ⟨by norm_num [hg, Quat.normSq], ?_⟩
    funext i
    fin_cases i <;> simp [hg, Quat.toRot, mulVec, dotProduct, Fin.sum_univ_three]
  have hT : turnErr g.toRot * (turnErr g.toRot)ᵀ = 1 := turnErr_orth (toRot_orthogonal g hy.unit)
  let s : EKFState ℝ (coreDef poseAux) := yawState Quat.one
  have hu : UnitQuats s.vars := yawState_unit _ (by norm_num [Quat.normSq, Quat.one])
  have hP' : (turnedState g s).P = 1 := by
    change turnErr g.toRot * 1 * (turnErr g.toRot)ᵀ = 1
    rw [Matrix.mul_one, hT]
  have hc : clearFixed fixed poseIx.clearOrder (1 : ErrMat ℝ (coreDef poseAux)) = some 1 :=
    clear_one poseDef_ok.1 fixed _ (by decide)
  obtain ⟨H, hH, -⟩ := poseH_mulVec poseIx fixed s.vars _ poseDef_ok.1 (poseView_eq s.vars) poseIx_distinct
  obtain ⟨H', hH', -⟩ := poseH_mulVec poseIx fixed (turnedState g s).vars _ poseDef_ok.1
    (poseView_eq (turnedState g s).vars) poseIx_distinct
  have hw : (viewOf s.vars) = ⟨0, Quat.one, 1, Quat.one, 0, Quat.one, 0⟩ := rfl
  have hpa : (viewOf s.vars).predAtt = Quat.one := by rw [hw]; exact one_predAtt 1
  have hpp : (viewOf s.vars).predPos = 0 := by rw [hw]; simp [PoseView.predPos]
  have n1 : (Quat.one : Quat ℝ).normSq = 1 := by norm_num [Quat.normSq, Quat.one]
  have hqw : ((viewOf s.vars).turn g).qwv = ⟨4/5, 0, 0, 3/5⟩ := by
    rw [hw]
    simp [PoseView.turn, hg, Quat.conj, Quat.mul, Quat.one]
  have hr : (viewOf s.vars).residual (makePose unitCfg 0 Quat.one 0).z_p (makePose unitCfg 0 Quat.one 0).z_q =
      some (Pi.single 6 0) := by
    change (viewOf s.vars).residual 0 Quat.one = _
    rw [PoseView.residual, hpa, attResidual_exact n1, hpp, sub_self, ← rows7_yaw]
    have : yawResidual (viewOf s.vars).qwv = some 0 := by
      rw [hw, yawResidual, if_neg (by norm_num [Quat.one])]
      norm_num [Quat.one]
    rw [this]
    rfl
  have hr' : (viewOf (turnedState g s).vars).residual (makePose unitCfg 0 Quat.one 0).z_p
      (makePose unitCfg 0 Quat.one 0).z_q = some (Pi.single 6 (-(24/7))) := by
    change (viewOf (turnVars g s.vars)).residual 0 Quat.one = _
    rw [viewOf_turn, PoseView.residual, PoseView.turn_predAtt hy.unit, PoseView.turn_predPos hy.unit _ n1 n1, hpa,
      attResidual_exact n1, hpp, sub_self, ← rows7_yaw, hqw, yaw_turned]
    rfl
  have key := h g 100 s unitCfg 0 Quat.one 0 1 1 H H' _ _ hy hu PosSemidef.one (unitCfg_posDef _ _ _)
    (by norm_num) hc (by rw [hP']; exact hc) hH hH' hr hr'
  rw [exact_test 1 PosSemidef.one H (poseH_row6 hH) _ _ _ _ (unitCfg_posDef _ _ _),
    exact_test 1 PosSemidef.one H' (poseH_row6 hH') _ _ _ _ (unitCfg_posDef _ _ _)] at key
  norm_num at key

end MSF
