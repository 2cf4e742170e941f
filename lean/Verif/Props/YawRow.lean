import Verif.Props.Jacobian
import Verif.Props.Covariance

/-!
# The yaw row of the pose measurement

Row 6 of the pose residual is the yaw of the vision frame, meant as a measurement of value zero.
-/

namespace MSF

open Matrix

section
variable {n : Nat} {m : Type} [Fintype m] [DecidableEq m]

/-- If a row of `H` is zero and the row and column of `R` hold only the diagonal entry `ρ`, then the
innovation covariance maps the unit vector of this row to `ρ` times itself. -/
theorem innovCov_unit (P : Matrix (Fin n) (Fin n) ℝ) (H : Matrix m (Fin n) ℝ) (R : Matrix m m ℝ)
    (i : m) (ρ : ℝ) (hH : H i = 0) (hR : R *ᵥ Pi.single i 1 = Pi.single i ρ) :
    innovCov P H R *ᵥ Pi.single i 1 = Pi.single i ρ := by
  have h0 : Hᵀ *ᵥ Pi.single i 1 = 0 := by
    funext j
    rw [mulVec_single_one]
    exact congrFun hH j
  rw [innovCov, add_mulVec, ← mulVec_mulVec, h0, mulVec_zero, zero_add, hR]

theorem innovCov_inv_unit (P : Matrix (Fin n) (Fin n) ℝ) (H : Matrix m (Fin n) ℝ)
    (R : Matrix m m ℝ) (i : m) (ρ : ℝ) (hρ : ρ ≠ 0) (hH : H i = 0)
    (hR : R *ᵥ Pi.single i 1 = Pi.single i ρ) (hdet : (innovCov P H R).det ≠ 0) :
    (innovCov P H R)⁻¹ *ᵥ Pi.single i 1 = Pi.single i ρ⁻¹ := by
  have h := innovCov_unit P H R i ρ hH hR
  have hs : (Pi.single i 1 : m → ℝ) = innovCov P H R *ᵥ (Pi.single i ρ⁻¹) := by
    have : (Pi.single i ρ⁻¹ : m → ℝ) = ρ⁻¹ • Pi.single i 1 := by
      rw [← Pi.single_smul]; simp
    rw [this, mulVec_smul, h, ← Pi.single_smul]
    simp [hρ]
  rw [hs, mulVec_mulVec, nonsing_inv_mul _ (isUnit_iff_ne_zero.2 hdet), one_mulVec]

/-- The gain has a zero column for such a row. -/
theorem gain_unit (P : Matrix (Fin n) (Fin n) ℝ) (H : Matrix m (Fin n) ℝ) (R : Matrix m m ℝ)
    (i : m) (ρ : ℝ) (hρ : ρ ≠ 0) (hH : H i = 0) (hR : R *ᵥ Pi.single i 1 = Pi.single i ρ)
    (hdet : (innovCov P H R).det ≠ 0) : gain P H R *ᵥ Pi.single i 1 = 0 := by
  have h0 : Hᵀ *ᵥ Pi.single i ρ⁻¹ = 0 := by
    have : (Pi.single i ρ⁻¹ : m → ℝ) = ρ⁻¹ • Pi.single i 1 := by
      rw [← Pi.single_smul]; simp
    rw [this, mulVec_smul]
    have : Hᵀ *ᵥ Pi.single i 1 = 0 := by
      funext j
      rw [mulVec_single_one]
      exact congrFun hH j
    rw [this, smul_zero]
  rw [gain, ← mulVec_mulVec, innovCov_inv_unit P H R i ρ hρ hH hR hdet, ← mulVec_mulVec, h0,
    mulVec_zero]

end

theorem putBlock_row {D : List VarDesc} {m a b : Nat} {H H' : Matrix (Fin m) (Fin (total errLen D)) ℝ}
    {row i : Nat} {B : Matrix (Fin a) (Fin b) ℝ} {off : Nat} (h : putBlock H row i B off = some H')
    (k : Fin m) (hk : k.val < row ∨ row + a ≤ k.val) : H' k = H k := by
  unfold putBlock at h
  simp only [Option.bind_eq_bind, Option.bind_eq_some_iff] at h
  obtain ⟨st, _, h⟩ := h
  split at h
  · rw [Option.some.injEq] at h
    subst h
    funext j
    simp only [setBlock, of_apply]
    rw [dif_neg]
    omega
  · cases h

/-- Row 6 of the Jacobian of the pose measurement is zero in every state. -/
theorem poseH_row6 {aux : List VarDesc} {ix : PoseIdx} {fixed : Nat} {s : Vars ℝ (coreDef aux)}
    {H : Matrix (Fin 7) (Fin (total errLen (coreDef aux))) ℝ} (h : poseH ix fixed s = some H) :
    H 6 = 0 := by
  unfold poseH at h
  simp only [Option.bind_eq_bind, Option.bind_eq_some_iff] at h
  obtain ⟨v, _, H1, h1, H2, h2, H3, h3, H4, h4, H5, h5, H6, h6, H7, h7, H8, h8, h9⟩ := h
  rw [putBlock_row h9 6 (by decide), putBlock_row h8 6 (by decide), putBlock_row h7 6 (by decide),
    putBlock_row h6 6 (by decide), putBlock_row h5 6 (by decide), putBlock_row h4 6 (by decide),
    putBlock_row h3 6 (by decide), putBlock_row h2 6 (by decide), putBlock_row h1 6 (by decide)]
  rfl

/-- The noise of row 6 is `1e-6` and independent of the other rows, for every configuration. -/
theorem makePose_row6 (cfg : PoseCfg ℝ) (pos : V3 ℝ) (att : Quat ℝ) (cov : Fin 36 → ℝ) :
    (makePose cfg pos att cov).R_ *ᵥ Pi.single 6 1 = Pi.single 6 (1 / 1000000) := by
  rw [mulVec_single_one]
  funext i
  unfold makePose
  split
  · fin_cases i <;> simp [diagonal, Pi.single, Function.update]
  · simp only
    split
    · fin_cases i <;> simp [setBlock, Pi.single, Function.update]
    · fin_cases i <;> simp [setBlock, Pi.single, Function.update]

theorem rows7_yaw (y : ℝ) : rows7 0 0 y = Pi.single 6 y := by
  funext i
  fin_cases i <;> simp [rows7, Pi.single, Function.update]

theorem attResidual_exact {q : Quat ℝ} (hq : q.normSq = 1) : attResidual (q.conj.mul q) = some 0 := by
  rw [Quat.conj_mul_self, hq, attResidual, if_neg one_ne_zero]
  congr 1
  funext i
  fin_cases i <;> simp [Quat.vec]

/-- **C75, partial: when the predicted pose passes the outlier test.**  Take any state with positive
semidefinite covariance and a pose measurement, built by the handler from any message, that equals the
prediction exactly.  Its Mahalanobis distance is 1000 times the yaw residual `y` of the vision frame:
the measurement is dropped exactly when the test is enabled and the threshold is smaller than that,
and otherwise the correction is zero. -/
theorem C75_exact_pose_partial {aux : List VarDesc} (uc : UserCalc (coreDef aux)) (t : Tracker ℝ)
    (ix : PoseIdx) (en : Bool) (thr : ℝ) (ht : 0 ≤ thr) (s : EKFState ℝ (coreDef aux))
    (hP : s.P.PosSemidef) (v : PoseView ℝ) (hv : poseView ix s.vars = some v)
    (H : Matrix (Fin 7) (Fin (total errLen (coreDef aux))) ℝ) (hH : poseH ix 0 s.vars = some H)
    (hq : v.predAtt.normSq = 1) (y : ℝ) (hy : yawResidual v.qwv = some y)
    (cfg : PoseCfg ℝ) (pos : V3 ℝ) (att : Quat ℝ) (cov : Fin 36 → ℝ)
    (hR : (makePose cfg pos att cov).R_.PosDef)
    (hzp : (makePose cfg pos att cov).z_p = v.predPos)
    (hzq : (makePose cfg pos att cov).z_q = v.predAtt) :
    (en = true → thr < 1000 * |y| →
      poseApply uc t ix 0 en thr (makePose cfg pos att cov) s = some (t, s, false)) ∧
    (en = false ∨ 1000 * |y| ≤ thr → ∃ P',
      poseApply uc t ix 0 en thr (makePose cfg pos att cov) s =
        (applyCorrection uc t s.vars 0).map fun a =>
          (a.1, { s with P := P', vars := a.2.1 }, a.2.2)) := by
  have hS : (innovCov s.P H (makePose cfg pos att cov).R_).PosDef :=
    hR.posSemidef_add (psd_congr hP H)
  have hdet : IsUnit (innovCov s.P H (makePose cfg pos att cov).R_).det :=
    (Matrix.isUnit_iff_isUnit_det _).1 hS.isUnit
  have h6 := poseH_row6 hH
  have hres : v.residual v.predPos v.predAtt = some (Pi.single 6 y) := by
    rw [PoseView.residual, attResidual_exact hq, hy, ← rows7_yaw, sub_self]
    rfl
  have hx : (H * s.P * Hᵀ + (makePose cfg pos att cov).R_) *ᵥ Pi.single 6 (1000000 * y) =
      Pi.single 6 y := by
    have h := innovCov_unit s.P H _ 6 _ h6 (makePose_row6 cfg pos att cov)
    have e : (Pi.single 6 (1000000 * y) : Fin 7 → ℝ) = (1000000 * y) • Pi.single 6 1 := by
      rw [← Pi.single_smul]; simp
    rw [e, mulVec_smul]
    change _ • (innovCov s.P H _ *ᵥ _) = _
    rw [h, ← Pi.single_smul]
    congr 1
    rw [smul_eq_mul]; ring
  have hd : (Pi.single 6 y : Fin 7 → ℝ) ⬝ᵥ Pi.single 6 (1000000 * y) = (1000 * |y|) ^ 2 := by
    rw [single_dotProduct, Pi.single_eq_same, mul_pow, sq_abs]; ring
  have hap : poseApply uc t ix 0 en thr (makePose cfg pos att cov) s =
      updateState uc t s en thr H (Pi.single 6 y) (makePose cfg pos att cov).R_ := by
    have hcl : clearFixed 0 ix.clearOrder s.P = some s.P := by
      simp [clearFixed, PoseIdx.clearOrder]
    simp only [poseApply, hcl, Option.bind_eq_bind, Option.bind_some, hH, hv, hzp, hzq, hres]
  refine ⟨fun he hlt => ?_, fun h => ?_⟩
  · rw [hap, he]
    refine C31_outlier_ignored uc t s thr ht H _ _ _ hdet hx ?_
    rw [hd]
    exact pow_lt_pow_left₀ hlt ht two_ne_zero
  · refine ⟨josephUpdate s.P H (makePose cfg pos att cov).R_ (gain s.P H (makePose cfg pos att cov).R_), ?_⟩
    rw [hap, C31_inlier_applied uc t s en thr ht H _ _ _ hdet hx]
    · have : (s.P * Hᵀ) *ᵥ Pi.single 6 (1000000 * y) = 0 := by
        have e : (Pi.single 6 (1000000 * y) : Fin 7 → ℝ) = (1000000 * y) • Pi.single 6 1 := by
          rw [← Pi.single_smul]; simp
        have h0 : Hᵀ *ᵥ Pi.single 6 1 = 0 := by
          funext j
          rw [mulVec_single_one]
          exact congrFun h6 j
        rw [e, mulVec_smul, ← mulVec_mulVec, h0, mulVec_zero, smul_zero]
      rw [this]
    · rcases h with h | h
      · exact Or.inl h
      · right
        rw [hd]
        exact pow_le_pow_left₀ (by positivity) h 2

/-- **C76 is violated: the value of the yaw residual does not matter.**  In every state, with every
covariance and every message, two residuals that differ only in the yaw row give the same correction
and covariance once the measurement is accepted. -/
theorem C76_yaw_value_violated {aux : List VarDesc} (ix : PoseIdx) (fixed : Nat)
    (s : Vars ℝ (coreDef aux)) (P : ErrMat ℝ (coreDef aux))
    (H : Matrix (Fin 7) (Fin (total errLen (coreDef aux))) ℝ) (hH : poseH ix fixed s = some H)
    (cfg : PoseCfg ℝ) (pos : V3 ℝ) (att : Quat ℝ) (cov : Fin 36 → ℝ) (thr : ℝ) (r r' : Fin 7 → ℝ)
    (hr : ∀ i, i ≠ 6 → r i = r' i) :
    calculateCorrection false thr P H r (makePose cfg pos att cov).R_ =
      calculateCorrection false thr P H r' (makePose cfg pos att cov).R_ := by
  unfold calculateCorrection
  by_cases hdet : (innovCov P H (makePose cfg pos att cov).R_).det = 0
  · rw [if_pos hdet, if_pos hdet]
  · rw [if_neg hdet, if_neg hdet, if_neg (by simp), if_neg (by simp)]
    have hk := gain_unit P H _ 6 _ (by norm_num) (poseH_row6 hH) (makePose_row6 cfg pos att cov) hdet
    have hd : r = r' + (r 6 - r' 6) • Pi.single 6 1 := by
      funext i
      by_cases hi : i = 6
      · subst hi; simp
      · simp [hr i hi, hi]
    have : gain P H (makePose cfg pos att cov).R_ *ᵥ r =
        gain P H (makePose cfg pos att cov).R_ *ᵥ r' := by
      rw [hd, mulVec_add, mulVec_smul, hk, smul_zero, add_zero]
    simp only [this]

/-- A state of the pose filter with unit scale and the attitude `a` of the vision frame. -/
noncomputable def yawState (a : Quat ℝ) : EKFState ℝ (coreDef poseAux) :=
  { blankState poseAux 0 0 0 with
    vars := Function.update (scaleState 1) ⟨6, by decide⟩ ⟨a, 0, false⟩
    P := 1 }

theorem yawState_view (a : Quat ℝ) :
    poseView poseIx (yawState a).vars = some ⟨0, Quat.one, 1, Quat.one, 0, a, 0⟩ := rfl

theorem yawState_unit (a : Quat ℝ) (ha : a.normSq = 1) : UnitQuats (yawState a).vars := by
  intro i q hq
  by_cases h : i = ⟨6, by decide⟩
  · subst h
    simp only [yawState, Function.update_self] at hq
    have : some a = some q := hq
    rw [← Option.some.inj this]; exact ha
  · simp only [yawState] at hq
    rw [Function.update_of_ne h] at hq
    exact scaleState_unit 1 i q hq

/-- The noise parameters 1 m and 1 rad used as fixed covariance. -/
def unitCfg : PoseCfg ℝ := ⟨1, 1, true, true⟩

theorem unitCfg_posDef (pos : V3 ℝ) (att : Quat ℝ) (cov : Fin 36 → ℝ) :
    (makePose unitCfg pos att cov).R_.PosDef := by
  simp only [makePose, unitCfg, if_true]
  refine PosDef.diagonal fun i => ?_
  fin_cases i <;> simp

/-- The claim of C75: with the default threshold 100, a pose measurement with the predicted position
and attitude is not rejected. -/
def exactPoseClaim : Prop :=
  ∀ (aux : List VarDesc) (ix : PoseIdx) (s : EKFState ℝ (coreDef aux)) (v : PoseView ℝ)
    (H : Matrix (Fin 7) (Fin (total errLen (coreDef aux))) ℝ) (r : Fin 7 → ℝ) (cfg : PoseCfg ℝ)
    (pos : V3 ℝ) (att : Quat ℝ) (cov : Fin 36 → ℝ),
    s.P.PosSemidef → UnitQuats s.vars → poseView ix s.vars = some v → poseH ix 0 s.vars = some H →
    (makePose cfg pos att cov).z_p = v.predPos → (makePose cfg pos att cov).z_q = v.predAtt →
    (makePose cfg pos att cov).R_.PosDef → v.residual v.predPos v.predAtt = some r →
    calculateCorrection true 100 s.P H r (makePose cfg pos att cov).R_ ≠ some none

theorem yaw_turned : yawResidual (⟨4/5, 0, 0, 3/5⟩ : Quat ℝ) = some (-(24/7)) := by
  rw [yawResidual, if_neg (by norm_num)]
  norm_num

theorem turned_predAtt : (PoseView.mk 0 Quat.one 1 Quat.one 0 ⟨4/5, 0, 0, 3/5⟩ 0 :
    PoseView ℝ).predAtt = ⟨4/5, 0, 0, 3/5⟩ := by
  simp [PoseView.predAtt, Quat.mul_one']

theorem turned_predPos : (PoseView.mk 0 Quat.one 1 Quat.one 0 ⟨4/5, 0, 0, 3/5⟩ 0 :
    PoseView ℝ).predPos = 0 := by
  simp [PoseView.predPos]

/-- **C75 is violated**: the vision frame is turned by about 74 degrees about the vertical. -/
theorem C75_violated : ¬ exactPoseClaim := by
  intro h
  obtain ⟨H, hH, -⟩ := poseH_mulVec poseIx 0 (yawState ⟨4/5, 0, 0, 3/5⟩).vars _ poseDef_ok.1
    (yawState_view _) poseIx_distinct
  have hu : (⟨4/5, 0, 0, 3/5⟩ : Quat ℝ).normSq = 1 := by norm_num [Quat.normSq]
  have hz : (makePose unitCfg 0 ⟨4/5, 0, 0, 3/5⟩ 0).z_p = 0 := rfl
  refine h poseAux poseIx (yawState ⟨4/5, 0, 0, 3/5⟩) _ H (Pi.single 6 (-(24/7))) unitCfg 0
    ⟨4/5, 0, 0, 3/5⟩ 0 PosSemidef.one (yawState_unit _ hu) (yawState_view _) hH
    (hz.trans turned_predPos.symm) turned_predAtt.symm (unitCfg_posDef _ _ _) ?_ ?_
  · rw [PoseView.residual, turned_predAtt, attResidual_exact hu, sub_self, ← rows7_yaw]
    simp only [yaw_turned]
    rfl
  · have hS : (innovCov (1 : ErrMat ℝ (coreDef poseAux)) H (makePose unitCfg 0 ⟨4/5, 0, 0, 3/5⟩ 0).R_).PosDef :=
      (unitCfg_posDef _ _ _).posSemidef_add (psd_congr PosSemidef.one H)
    have hdet : (innovCov (1 : ErrMat ℝ (coreDef poseAux)) H (makePose unitCfg 0 ⟨4/5, 0, 0, 3/5⟩ 0).R_).det ≠ 0 :=
      ((Matrix.isUnit_iff_isUnit_det _).1 hS.isUnit).ne_zero
    change calculateCorrection true 100 (1 : ErrMat ℝ (coreDef poseAux)) H _ _ = _
    rw [calculateCorrection, if_neg hdet, if_pos]
    refine ⟨rfl, ?_⟩
    rw [mahRejects_iff _ _ (by norm_num), mahSquared]
    have hi := innovCov_inv_unit (1 : ErrMat ℝ (coreDef poseAux)) H _ 6 _ (by norm_num)
      (poseH_row6 hH) (makePose_row6 unitCfg 0 ⟨4/5, 0, 0, 3/5⟩ 0) hdet
    have e : (Pi.single 6 (-(24/7)) : Fin 7 → ℝ) = (-(24/7) : ℝ) • Pi.single 6 1 := by
      rw [← Pi.single_smul]; simp
    rw [e, mulVec_smul, hi, smul_dotProduct, dotProduct_smul, single_dotProduct, Pi.single_eq_same]
    norm_num

/-- The hooks of the pose manager, biases not fixed. -/
noncomputable def poseCalc : UserCalc (coreDef poseAux) := scaleCalc false

/-- **C76 is violated: an accepted measurement does not turn the vision frame back.**  The vision
frame is turned by about 74 degrees, the measurement equals the prediction, the outlier test is off:
the measurement is applied and the yaw residual stays `-24/7`. -/
theorem C76_yaw_stays_violated : ∃ t' s' v,
    poseApply poseCalc Tracker.reset poseIx 0 false 100
      (makePose unitCfg 0 ⟨4/5, 0, 0, 3/5⟩ 0) (yawState ⟨4/5, 0, 0, 3/5⟩) = some (t', s', false) ∧
    poseView poseIx s'.vars = some v ∧ yawResidual v.qwv = some (-(24/7)) := by
  have hu : (⟨4/5, 0, 0, 3/5⟩ : Quat ℝ).normSq = 1 := by norm_num [Quat.normSq]
  obtain ⟨H, hH, -⟩ := poseH_mulVec poseIx 0 (yawState ⟨4/5, 0, 0, 3/5⟩).vars _ poseDef_ok.1
    (yawState_view _) poseIx_distinct
  have hz : (makePose unitCfg 0 ⟨4/5, 0, 0, 3/5⟩ 0).z_p = 0 := rfl
  obtain ⟨P', h⟩ := (C75_exact_pose_partial poseCalc Tracker.reset poseIx false 100
    (by norm_num) (yawState ⟨4/5, 0, 0, 3/5⟩) PosSemidef.one _ (yawState_view _) H hH
    (by rw [turned_predAtt]; exact hu) _ yaw_turned unitCfg 0 ⟨4/5, 0, 0, 3/5⟩ 0
    (unitCfg_posDef _ _ _) (hz.trans turned_predPos.symm) turned_predAtt.symm).2 (Or.inl rfl)
  obtain ⟨s0, e0, hv, hq⟩ := correct_zero (yawState ⟨4/5, 0, 0, 3/5⟩).vars poseDef_ok.1 posePlain
    (yawState_unit _ hu)
  have hL : (s0 ⟨5, by decide⟩).val = (fun _ => 1 : Fin 1 → ℝ) := by
    have : getVec s0 5 1 = some fun _ => 1 := hv 5 1 _ rfl
    exact Option.some.inj this
  have hs : scaleSanity s0 = s0 := by
    refine if_neg ?_
    have : (show Fin 1 → ℝ from (s0 ⟨5, by decide⟩).val) 0 = 1 := congrFun hL 0
    change ¬ (show Fin 1 → ℝ from (s0 ⟨5, by decide⟩).val) 0 < 0
    rw [this]
    norm_num
  have h6 : getQuat s0 6 = some ⟨4/5, 0, 0, 3/5⟩ := hq 6 _ rfl
  have hq6 : quatOf _ (s0 ⟨6, by decide⟩).val = some ⟨4/5, 0, 0, 3/5⟩ := h6
  have hb : bestIndex (coreDef poseAux) = some ⟨6, by decide⟩ := by decide +kernel
  have hd : indexOfBestNonTemporalDriftingState (coreDef poseAux) ≠ some (-1) := by decide +kernel
  have hf : ∃ t', fuzzyCheck' (Tracker.reset : Tracker ℝ) s0 (yawState ⟨4/5, 0, 0, 3/5⟩).vars 0.1 =
      some (t', s0, false) := by
    unfold fuzzyCheck' fuzzyCheck
    rw [if_neg hd, hb]
    simp only [Option.bind_eq_bind, Option.bind_some, hq6]
    rw [if_neg (by decide)]
    exact ⟨_, rfl⟩
  obtain ⟨t', hf⟩ := hf
  have ha : applyCorrection poseCalc Tracker.reset (yawState ⟨4/5, 0, 0, 3/5⟩).vars 0 =
      some (t', s0, false) := by
    change ((correct (yawState ⟨4/5, 0, 0, 3/5⟩).vars 0).bind fun s' =>
      fuzzyCheck' Tracker.reset (scaleSanity s') (yawState ⟨4/5, 0, 0, 3/5⟩).vars 0.1) = _
    rw [e0]
    change fuzzyCheck' Tracker.reset (scaleSanity s0) (yawState ⟨4/5, 0, 0, 3/5⟩).vars 0.1 = _
    rw [show (scaleSanity s0 : Vars ℝ (coreDef poseAux)) = s0 from hs]
    exact hf
  rw [h, ha]
  refine ⟨_, _, ⟨EKFState.p s0, EKFState.q s0, 1, Quat.one, 0, ⟨4/5, 0, 0, 3/5⟩, 0⟩, rfl, ?_,
    yaw_turned⟩
  have e1 : getVec s0 poseIx.L 1 = some fun _ => 1 := hv _ _ _ rfl
  have e2 : getQuat s0 poseIx.qic = some Quat.one := hq _ _ rfl
  have e3 : getVec s0 poseIx.pic 3 = some 0 := hv _ _ _ rfl
  have e4 : getVec s0 poseIx.pwv 3 = some 0 := hv _ _ _ rfl
  have e5 : getQuat s0 poseIx.qwv = some ⟨4/5, 0, 0, 3/5⟩ := h6
  change poseView poseIx s0 = _
  simp only [poseView, e1, e2, e3, e4, e5, Option.bind_eq_bind, Option.bind_some]

end MSF
