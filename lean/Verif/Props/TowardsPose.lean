import Mathlib.Analysis.Real.Pi.Bounds
import Verif.Props.Towards
import Verif.Props.YawRow
import Verif.Props.PoseSensor

/-!
# C117 for poses and angles
-/

namespace MSF

open Matrix

/-- A state of the pose filter one metre from the origin. -/
noncomputable def metreState : Vars ℝ (coreDef poseAux) :=
  Function.update (scaleState 1) ⟨0, by decide⟩ ⟨(![1, 0, 0] : V3 ℝ), 0, false⟩

theorem metreState_view : poseView poseIx metreState =
    some ⟨![1, 0, 0], Quat.one, 1, Quat.one, 0, Quat.one, 0⟩ := rfl

theorem metreState_unit : UnitQuats metreState := by
  intro i q hq
  by_cases h : i = ⟨0, by decide⟩
  · subst h
    simp only [metreState, Function.update_self] at hq
    cases hq
  · simp only [metreState] at hq
    rw [Function.update_of_ne h] at hq
    exact scaleState_unit 1 i q hq

/-- An update of the pose filter that is accepted while the check of the drift has no history. -/
theorem sensorUpdate_pose {m : SensorMeas (coreDef poseAux)}
    {x : Values (coreDef poseAux)} {s' : Vars ℝ (coreDef poseAux)}
    {P P' : ErrMat ℝ (coreDef poseAux)} {H r c} (hf : clearFixed m.fixed m.cleared P = some P)
    (hH : m.H (toVars x) = some H)
    (hr : m.r (toVars x) = some r) (hc : calculateCorrection m.enable m.thr P H r m.R = some (some (c, P')))
    (hs : correct (toVars x) c = some s') {l : ℝ} (hl : getVec s' 5 1 = some fun _ => l) (h0 : 0 ≤ l) :
    ∃ t', sensorUpdate poseCalc Tracker.reset m x P = some ⟨t', values s', P', true, false⟩ := by
  have hb : bestIndex (coreDef poseAux) = some ⟨6, by decide⟩ := by decide +kernel
  have hd : indexOfBestNonTemporalDriftingState (coreDef poseAux) ≠ some (-1) := by decide +kernel
  have hL : (s' ⟨5, by decide⟩).val = (fun _ => l : Fin 1 → ℝ) := Option.some.inj hl
  have hsan : scaleSanity s' = s' := by
    refine if_neg ?_
    change ¬ (show Fin 1 → ℝ from (s' ⟨5, by decide⟩).val) 0 < 0
    rw [show (show Fin 1 → ℝ from (s' ⟨5, by decide⟩).val) 0 = l from congrFun hL 0]
    exact not_lt.2 h0
  obtain ⟨q, hq⟩ : ∃ q, quatOf _ (s' ⟨6, by decide⟩).val = some q := ⟨_, rfl⟩
  have hfz : ∃ t', fuzzyCheck' (Tracker.reset : Tracker ℝ) s' (toVars x) 0.1 = some (t', s', false) := by
    unfold fuzzyCheck' fuzzyCheck
    rw [if_neg hd, hb]
    simp only [Option.bind_eq_bind, Option.bind_some, hq]
    rw [if_neg (by decide)]
    exact ⟨_, rfl⟩
  obtain ⟨t', hfz⟩ := hfz
  refine ⟨t', ?_⟩
  have ha : applyCorrection poseCalc Tracker.reset (toVars x) c = some (t', s', false) := by
    change ((correct (toVars x) c).bind fun s' => fuzzyCheck' Tracker.reset (scaleSanity s') (toVars x) 0.1) = _
    rw [hs]
    change fuzzyCheck' Tracker.reset (scaleSanity s') (toVars x) 0.1 = _
    rw [show (scaleSanity s' : Vars ℝ (coreDef poseAux)) = s' from hsan]
    exact hfz
  simp only [sensorUpdate, measUpdate, hf, hH, hr, hc, ha, Option.bind_eq_bind, Option.bind_some]

/-- The camera reports 19 metres along the first axis. -/
noncomputable def metreMeas : PoseMeas ℝ := makePose unitCfg ![19, 0, 0] Quat.one 0

theorem metreMeas_noise : metreMeas.R_ = diag7 1 1 (1 / 1000000) := by
  rw [metreMeas, makePose_noise_fixed _ _ _ _ rfl]
  simp [unitCfg]

/-- The entries of the error state of the first coordinate and of the scale. -/
def metreVars (i : Fin (total errLen (coreDef poseAux))) : Prop := i.val = 0 ∨ i.val = 15

instance : DecidablePred metreVars := fun i => inferInstanceAs (Decidable (i.val = 0 ∨ i.val = 15))

/-- Only the first coordinate and the scale are uncertain. -/
noncomputable def metreCov : ErrMat ℝ (coreDef poseAux) := onlyVar metreVars

theorem metre_residual (p : V3 ℝ) (L : ℝ) :
    (PoseView.mk p Quat.one L Quat.one 0 Quat.one 0).residual metreMeas.z_p metreMeas.z_q =
      some (rows7 (![19, 0, 0] - L • p) 0 0) := by
  have e1 : (PoseView.mk p Quat.one L Quat.one 0 Quat.one 0 : PoseView ℝ).predAtt = Quat.one := by
    simp [PoseView.predAtt, Quat.mul_one']
  have e2 : (PoseView.mk p Quat.one L Quat.one 0 Quat.one 0 : PoseView ℝ).predPos = L • p := by
    have : (Quat.one : Quat ℝ).conj.toRot = 1 := by
      ext i j; fin_cases i <;> fin_cases j <;> simp [Quat.one, Quat.conj, Quat.toRot]
    simp [PoseView.predPos, this]
  have e3 : yawResidual (Quat.one : Quat ℝ) = some 0 := by
    rw [yawResidual, if_neg (by simp [Quat.one])]; simp [Quat.one]
  have hz : metreMeas.z_q = Quat.one := rfl
  have hp : metreMeas.z_p = ![19, 0, 0] := rfl
  rw [PoseView.residual, e1, e2, hz, hp, attResidual_exact (by simp [Quat.normSq, Quat.one])]
  simp only [e3]
  rfl

theorem metre_rows (p : ℝ) (L : ℝ) : rows7 ((![19, 0, 0] : V3 ℝ) - L • ![p, 0, 0]) 0 0 = Pi.single 0 (19 - L * p) := by
  funext i
  fin_cases i <;> simp [rows7, Pi.single, Function.update]

theorem segOf_off (k : Fin (total errLen (coreDef poseAux))) (i n : Nat)
    (h : ∀ j : Fin n, k.val ≠ offset errLen (coreDef poseAux) i + j.val) :
    segOf (Pi.single k 1 : Fin _ → ℝ) i n = 0 := by
  funext j
  simp only [segOf, segD]
  split
  · exact Pi.single_eq_of_ne (fun e => h j (congrArg Fin.val e).symm) _
  · rfl

/-- Both uncertain variables have the same effect on the prediction. -/
theorem metre_column {H} (hH : poseH poseIx 0 metreState = some H) (k) (hk : metreVars k) (i : Fin 7) :
    H i k = (Pi.single 0 1 : Fin 7 → ℝ) i := by
  obtain ⟨H', hH', hm⟩ := poseH_mulVec poseIx 0 metreState _ poseDef_ok.1 metreState_view poseIx_distinct
  obtain rfl := Option.some.inj (hH.symm.trans hH')
  have e : H *ᵥ (Pi.single k 1) = fun i => H i k := by rw [mulVec_single_one]; rfl
  change (fun i => H i k) i = _
  rw [← e, hm]
  have o2 : offset errLen (coreDef poseAux) 2 = 6 := rfl
  have s2 : segOf (Pi.single k 1 : Fin _ → ℝ) 2 3 = 0 := segOf_off k 2 3 fun j => by
    have := j.2
    rcases hk with h | h <;> rw [o2, h] <;> omega
  have hother : ∀ i, 16 ≤ offset errLen (coreDef poseAux) i → segOf (Pi.single k 1 : Fin _ → ℝ) i 3 = 0 :=
    fun i hi => segOf_off k i 3 fun j => by rcases hk with h | h <;> rw [h] <;> omega
  rw [s2, hother poseIx.qwv (by decide +kernel), hother poseIx.pic (by decide +kernel),
    hother poseIx.pwv (by decide +kernel), hother poseIx.qic (by decide +kernel)]
  simp only [mulVec_zero]
  have p0 : ∀ n : Nat, (pad n (0 : V3 ℝ) : Fin 7 → ℝ) = 0 := by
    intro n; funext j; simp [pad]
  simp only [p0, add_zero, zero_add, one_toRot, Nat.zero_testBit, Bool.false_eq_true, if_false]
  rcases hk with h | h
  · obtain rfl : k = ⟨0, by decide⟩ := Fin.ext h
    have s0 : segOf (Pi.single ⟨0, by decide⟩ 1 : Fin (total errLen (coreDef poseAux)) → ℝ) 0 3 = ![1, 0, 0] := by
      funext j; fin_cases j <;> rfl
    have sL : segOf (Pi.single ⟨0, by decide⟩ 1 : Fin (total errLen (coreDef poseAux)) → ℝ) poseIx.L 1 = 0 := by
      funext j; fin_cases j; rfl
    rw [s0, sL]
    clear * -
    fin_cases i <;> simp [pad, Pi.single, Function.update]
  · obtain rfl : k = ⟨15, by decide⟩ := Fin.ext h
    have s0 : segOf (Pi.single ⟨15, by decide⟩ 1 : Fin (total errLen (coreDef poseAux)) → ℝ) 0 3 = 0 := by
      funext j; fin_cases j <;> rfl
    have sL : segOf (Pi.single ⟨15, by decide⟩ 1 : Fin (total errLen (coreDef poseAux)) → ℝ) poseIx.L 1 = fun _ => 1 := by
      funext j; fin_cases j; rfl
    rw [s0, sL]
    clear * -
    fin_cases i <;> simp [pad, Pi.single, Function.update, mulVec, dotProduct, Fin.sum_univ_three]

/-- The correction: six metres and a scale larger by six. -/
theorem metre_correction {H} (hH : poseH poseIx 0 metreState = some H) (k) :
    (gain metreCov H metreMeas.R_ *ᵥ Pi.single 0 18) k = if metreVars k then 6 else 0 := by
  have hHi := metre_column hH
  have hR : metreMeas.R_.PosDef := unitCfg_posDef _ _ _
  have hP : metreCov.PosSemidef := onlyVar_psd _
  have hSu : IsUnit (innovCov metreCov H metreMeas.R_).det :=
    (Matrix.isUnit_iff_isUnit_det _).1 (hR.posSemidef_add (psd_congr hP H)).isUnit
  have hPH : metreCov * Hᵀ = Matrix.of fun k i => if metreVars k then (Pi.single 0 1 : Fin 7 → ℝ) i else 0 := by
    rw [metreCov, onlyVar_mul]
    ext k i
    simp only [of_apply, transpose_apply]
    split
    · rename_i hk
      exact hHi k hk i
    · rfl
  have hcard : (Finset.univ.filter metreVars).card = 2 := by decide +kernel
  have hHP : ∀ i j, (H * metreCov * Hᵀ) i j =
      2 * ((Pi.single 0 1 : Fin 7 → ℝ) i * (Pi.single 0 1 : Fin 7 → ℝ) j) := by
    intro i j
    rw [Matrix.mul_assoc, hPH, Matrix.mul_apply]
    have : ∀ k, H i k * (Matrix.of fun k i => if metreVars k then (Pi.single 0 1 : Fin 7 → ℝ) i else 0) k j =
        if metreVars k then (Pi.single 0 1 : Fin 7 → ℝ) i * (Pi.single 0 1 : Fin 7 → ℝ) j else 0 := by
      intro k
      simp only [of_apply]
      split
      · rename_i hk
        rw [hHi k hk i]
      · rw [mul_zero]
    rw [Finset.sum_congr rfl fun k _ => this k, ← Finset.sum_filter, Finset.sum_const, hcard]
    simp
  have hSx : innovCov metreCov H metreMeas.R_ *ᵥ Pi.single 0 6 = Pi.single 0 18 := by
    have e : innovCov metreCov H metreMeas.R_ *ᵥ Pi.single 0 6 =
        fun i => innovCov metreCov H metreMeas.R_ i 0 * 6 := by
      rw [mulVec_single]; rfl
    have e2 : ∀ i, innovCov metreCov H metreMeas.R_ i 0 = (H * metreCov * Hᵀ) i 0 + metreMeas.R_ i 0 := fun i => rfl
    rw [e]
    funext i
    change innovCov metreCov H metreMeas.R_ i 0 * 6 = _
    rw [e2, hHP, metreMeas_noise]
    clear * -
    fin_cases i <;> simp [diag7, Pi.single, Function.update]
    norm_num
  have e : (innovCov metreCov H metreMeas.R_)⁻¹ *ᵥ Pi.single 0 18 = Pi.single 0 6 := by
    rw [← hSx, mulVec_mulVec, nonsing_inv_mul _ hSu, one_mulVec]
  rw [gain, hPH, ← mulVec_mulVec, e]
  have e3 : ∀ A : Matrix (Fin (total errLen (coreDef poseAux))) (Fin 7) ℝ, (A *ᵥ Pi.single 0 6) k = A k 0 * 6 := by
    intro A
    rw [mulVec_single]; rfl
  rw [e3]
  simp only [of_apply, Pi.single_eq_same]
  split <;> simp

theorem metre_segments {c : Fin (total errLen (coreDef poseAux)) → ℝ} (hck : ∀ k, c k = if metreVars k then 6 else 0) :
    segOf c 0 3 = ![6, 0, 0] ∧ (segOf c 5 1 = fun _ => 6) ∧ segOf c 2 3 = 0 ∧ segOf c 6 3 = 0 ∧ segOf c 7 3 = 0 ∧
      segOf c 8 3 = 0 ∧ segOf c 9 3 = 0 := by
  have off : ∀ i n, (∀ j : Fin n, offset errLen (coreDef poseAux) i + j.val ≠ 0 ∧
      offset errLen (coreDef poseAux) i + j.val ≠ 15) → segOf c i n = 0 := by
    intro i n h
    funext j
    simp only [segOf, segD]
    split
    · rw [hck, if_neg]
      · rfl
      · rintro (e | e)
        · exact (h j).1 e
        · exact (h j).2 e
    · rfl
  refine ⟨?_, ?_, off 2 3 (by decide +kernel), off 6 3 (by decide +kernel), off 7 3 (by decide +kernel),
    off 8 3 (by decide +kernel), off 9 3 (by decide +kernel)⟩
  · funext j
    fin_cases j
    · exact (hck _).trans (if_pos (by decide +kernel))
    · exact (hck _).trans (if_neg (by decide +kernel))
    · exact (hck _).trans (if_neg (by decide +kernel))
  · funext j
    fin_cases j
    exact (hck _).trans (if_pos (by decide +kernel))

theorem metre_noise_inv (a : ℝ) : metreMeas.R_⁻¹ *ᵥ (Pi.single 0 a) = Pi.single 0 a := by
  have hR : metreMeas.R_.PosDef := unitCfg_posDef _ _ _
  have e : metreMeas.R_ *ᵥ Pi.single 0 a = Pi.single 0 a := by
    rw [metreMeas_noise, mulVec_single]
    funext i
    fin_cases i <;> simp [diag7, Matrix.col, Pi.single, Function.update]
  conv_lhs => rw [← e]
  rw [mulVec_mulVec, nonsing_inv_mul _ ((Matrix.isUnit_iff_isUnit_det _).1 hR.isUnit), one_mulVec]

/-- **C117 is violated by poses.**  One metre from the origin, position along one axis and scale are equally
uncertain; the camera reports 19 metres.  The update changes both, by six, and predicts 49 metres afterwards: the
error grows from 18 to 30 metres and changes its sign, because the prediction is the product of scale and
position. -/
theorem C117_pose_violated :
    ¬ TowardsClaim poseCalc fun rd _ => ∃ pos, rd = .pose poseIx 0 false 0 (makePose unitCfg pos Quat.one 0) := by
  intro h
  have hP : metreCov.PosSemidef := onlyVar_psd _
  have hu : UnitQuats (toVars (values metreState)) := metreState_unit
  have hv : poseView poseIx (toVars (values metreState)) = _ := metreState_view
  have hR : metreMeas.R_.PosDef := unitCfg_posDef _ _ _
  obtain ⟨H, hH, -⟩ := poseH_mulVec poseIx 0 metreState _ poseDef_ok.1 metreState_view poseIx_distinct
  have hr : (poseView poseIx (toVars (values metreState))).bind (fun v => v.residual metreMeas.z_p metreMeas.z_q) =
      some (Pi.single 0 18 : Fin 7 → ℝ) := by
    rw [hv, Option.bind_some, metre_residual, metre_rows]
    norm_num
  have hcc := correction_accepted metreCov hP H metreMeas.R_ hR (Pi.single 0 18)
  obtain ⟨c0, cL, c2, c6, c7, c8, c9⟩ := metre_segments (metre_correction hH)
  generalize gain metreCov H metreMeas.R_ *ᵥ Pi.single 0 18 = c at hcc c0 cL c2 c6 c7 c8 c9
  obtain ⟨s1, hs1, hread, hreadq⟩ := correct_reads (toVars (values metreState)) c poseDef_ok.1 posePlain hu
  have hp1 : getVec s1 0 3 = some ![7, 0, 0] := by
    rw [hread 0 3 ![1, 0, 0] rfl, c0]
    congr 1
    funext i
    fin_cases i <;> simp
    norm_num
  have hL1 : getVec s1 5 1 = some fun _ => 7 := by
    rw [hread 5 1 (fun _ => 1) rfl, cL]
    congr 1
    funext i
    simp; norm_num
  have hone : ∀ i, segOf c i 3 = 0 → getQuat (toVars (values metreState)) i = some Quat.one →
      getQuat s1 i = some Quat.one := by
    intro i hi hq
    rw [hreadq i _ hq, hi, quatFromSmallAngle_zero, Quat.mul_one']
  have hq2 := hone 2 c2 rfl
  have hq6 := hone 6 c6 rfl
  have h7 : getVec s1 7 3 = some 0 := by
    rw [hread 7 3 0 rfl, c7, add_zero]
  have hq8 := hone 8 c8 rfl
  have h9 : getVec s1 9 3 = some 0 := by
    rw [hread 9 3 0 rfl, c9, add_zero]
  set m := (Reading.pose poseIx 0 false 0 metreMeas).meas (aux := poseAux) with hm
  have a1 : m.H (toVars (values metreState)) = some H := hH
  have a2 : m.r (toVars (values metreState)) = some (Pi.single 0 18 : Fin 7 → ℝ) := hr
  have a3 : calculateCorrection m.enable m.thr metreCov H (Pi.single 0 18 : Fin 7 → ℝ) m.R = _ := hcc
  have a4 : clearFixed m.fixed m.cleared metreCov = some metreCov := clearFixed_zero _ _
  refine (sensorUpdate_pose (m := m) (x := values metreState) a4 a1 a2 a3 hs1 hL1 (by norm_num)).elim fun t' hup => ?_
  have hv1 : poseView poseIx (toVars (values s1)) = some ⟨![7, 0, 0], Quat.one, 7, Quat.one, 0, Quat.one, 0⟩ := by
    have e1 : EKFState.p (toVars (values s1)) = ![7, 0, 0] := Option.some.inj ((getVec_p s1).symm.trans hp1)
    have e2 : EKFState.q (toVars (values s1)) = Quat.one := Option.some.inj ((getQuat_q s1).symm.trans hq2)
    unfold poseView
    have g5 : getVec (toVars (values s1)) poseIx.L 1 = _ := hL1
    have g8 : getQuat (toVars (values s1)) poseIx.qic = _ := hq8
    have g9 : getVec (toVars (values s1)) poseIx.pic 3 = _ := h9
    have g6 : getQuat (toVars (values s1)) poseIx.qwv = _ := hq6
    have g7 : getVec (toVars (values s1)) poseIx.pwv 3 = _ := h7
    rw [g5, g8, g9, g6, g7, e1, e2]
    rfl
  have hok : ∃ pos, Reading.pose poseIx 0 false 0 metreMeas =
      .pose poseIx 0 false 0 (makePose unitCfg pos Quat.one 0) := ⟨![19, 0, 0], rfl⟩
  refine (h (.pose poseIx 0 false 0 metreMeas) (values metreState) metreCov Tracker.reset _ hok hu hP hR hup
    rfl rfl).elim fun (r : Fin 7 → ℝ) k => k.elim fun (r' : Fin 7 → ℝ) k => ?_
  have e1 := k.1
  have e2 : (poseView poseIx (toVars (values s1))).bind (fun v => v.residual metreMeas.z_p metreMeas.z_q) = some r' :=
    k.2.1
  have hle : r' ⬝ᵥ (metreMeas.R_⁻¹ *ᵥ r') ≤ r ⬝ᵥ (metreMeas.R_⁻¹ *ᵥ r) := k.2.2.1
  clear k
  rw [hv1, Option.bind_some, metre_residual, metre_rows] at e2
  obtain rfl := Option.some.inj (hr.symm.trans e1)
  obtain rfl := Option.some.inj e2
  rw [metre_noise_inv, metre_noise_inv, single_dotProduct, single_dotProduct, Pi.single_eq_same,
    Pi.single_eq_same] at hle
  norm_num at hle

/-- The IMU is one metre from the origin; its first two coordinates are known to be on a line. -/
noncomputable def lineVec : Fin (total errLen (coreDef positionAux)) → ℝ :=
  fun k => if k.val = 0 then -3 else if k.val = 1 then 1 else 0

theorem lineVec_segments (a : ℝ) : segOf (a • lineVec) 0 3 = ![-3 * a, a, 0] ∧ segOf (a • lineVec) 2 3 = 0 ∧
    segOf (a • lineVec) 5 3 = 0 := by
  refine ⟨?_, ?_, ?_⟩
  · funext j
    fin_cases j
    · change a * (if (0 : ℕ) = 0 then -3 else _) = _
      rw [if_pos rfl]; simp [mul_comm]
    · change a * (if (1 : ℕ) = 0 then -3 else if (1 : ℕ) = 1 then 1 else 0) = _
      rw [if_neg (by decide), if_pos rfl]; simp
    · change a * (if (2 : ℕ) = 0 then -3 else if (2 : ℕ) = 1 then 1 else 0) = _
      rw [if_neg (by decide), if_neg (by decide)]; simp
  · funext j
    fin_cases j <;> exact mul_zero a
  · funext j
    fin_cases j <;> exact mul_zero a

/-- One metre along the first axis. -/
noncomputable def ahead : Vars ℝ (coreDef positionAux) := posState ![1, 0, 0] Quat.one 0

theorem ahead_column {H} (hH : angleH 5 ahead = some H) : H *ᵥ lineVec = ![0, 1] := by
  obtain ⟨H', hH', hm⟩ := angleH_mulVec 5 ahead 0 positionDef_ok.1 (posValues_reads ![1, 0, 0] Quat.one 0).1 (by decide)
    (by rw [show EKFState.p ahead = ![1, 0, 0] from rfl]; simp)
  obtain rfl := Option.some.inj (hH.symm.trans hH')
  have e := lineVec_segments 1
  rw [one_smul] at e
  rw [hm, e.1, e.2.1, e.2.2, show EKFState.p ahead = ![1, 0, 0] from rfl]
  funext i
  fin_cases i <;> simp [angleHp, mulVec, dotProduct, Fin.sum_univ_three]

theorem ahead_correction {H} (hH : angleH 5 ahead = some H) :
    gain (vecMulVec lineVec lineVec) H (1 : Matrix (Fin 2) (Fin 2) ℝ) *ᵥ ![0, 1] = (1 / 2 : ℝ) • lineVec := by
  have hw := ahead_column hH
  have hPH : vecMulVec lineVec lineVec * Hᵀ = vecMulVec lineVec ![0, 1] := by
    rw [vecMulVec_mul, vecMul_transpose, hw]
  have hS : innovCov (vecMulVec lineVec lineVec) H (1 : Matrix (Fin 2) (Fin 2) ℝ) = Matrix.diagonal ![1, 2] := by
    rw [innovCov, Matrix.mul_assoc, hPH, mul_vecMulVec, hw]
    ext i j
    fin_cases i <;> fin_cases j <;> simp [vecMulVec] 
    norm_num
  have hSi : (Matrix.diagonal ![1, 2] : Matrix (Fin 2) (Fin 2) ℝ)⁻¹ = Matrix.diagonal ![1, 1 / 2] := by
    refine inv_eq_right_inv ?_
    rw [diagonal_mul_diagonal, ← diagonal_one]
    congr 1
    funext i
    fin_cases i <;> simp
  rw [gain, hPH, hS, hSi, vecMulVec_mul, vecMulVec_mulVec]
  funext k
  simp [vecMul_diagonal, dotProduct, Fin.sum_univ_two, mul_comm]

theorem ahead_residual {s : Vars ℝ (coreDef positionAux)} (hl : getVec s 5 3 = some 0) {a b : ℝ}
    (hp : EKFState.p s = ![a, b, 0]) {φ : ℝ} (hφ : azimuth a b = some φ) (h0 : a * a + b * b ≠ 0) :
    angleResidual 5 ![Real.pi / 2, 1] s = some ![0, wrapOnce (1 - φ)] := by
  have e : sensorPos 5 s = some ![a, b, 0] := by
    simp [sensorPos, hl, hp]
  have h1 : inclination ![a, b, 0] = some (Real.pi / 2) := by
    have : radius ![a, b, 0] ≠ 0 := by
      have h2 : 0 < a * a + b * b := lt_of_le_of_ne (add_nonneg (mul_self_nonneg a) (mul_self_nonneg b)) (Ne.symm h0)
      simp only [radius]
      simp
      exact (Real.sqrt_pos.2 h2).ne'
    simp [inclination, this]
  rw [angleResidual, e, Option.bind_eq_bind, Option.bind_some, h1]
  simp [hφ]

theorem wrapOnce_id {r : ℝ} (h1 : -Real.pi ≤ r) (h2 : r ≤ Real.pi) : wrapOnce r = r := by
  simp only [wrapOnce]
  rw [if_neg (not_lt.2 h1), if_neg (not_lt.2 h2)]

/-- **C117 is violated by angles.**  The IMU is one metre from the tracker; its position is uncertain along a line that
passes the tracker in front.  The measured azimuth is one radian, the predicted one zero: the update moves the
IMU past the tracker, and the azimuth is then 135°, so that the error has grown from 57° to 78° and has changed its
sign. -/
theorem C117_angle_violated :
    ¬ TowardsClaim (plainCalc (aux := positionAux) false)
      fun rd _ => ∃ n, rd = .angle 5 0 false 0 ![Real.pi / 2, 1] n := by
  intro h
  let x : Values (coreDef positionAux) := values ahead
  have hu : UnitQuats (toVars x) := posState_unit _ _ _ (by simp [Quat.normSq, Quat.one])
  have hl : getVec (toVars x) 5 3 = some 0 := (posValues_reads ![1, 0, 0] Quat.one 0).1
  have hp : EKFState.p (toVars x) = ![1, 0, 0] := rfl
  obtain ⟨H, hH, -⟩ := angleH_mulVec 5 ahead 0 positionDef_ok.1 hl (by decide)
    (by rw [show EKFState.p ahead = ![1, 0, 0] from rfl]; simp)
  have hr : angleResidual 5 ![Real.pi / 2, 1] (toVars x) = some ![0, 1] := by
    rw [ahead_residual hl hp (φ := 0) (by simp [azimuth, atanQuot]) (by norm_num)]
    have := Real.pi_gt_three
    rw [wrapOnce_id (by linarith) (by linarith), sub_zero]
  have hP : (vecMulVec lineVec lineVec).PosSemidef := by
    simpa using posSemidef_vecMulVec_self_star lineVec
  have hR1 : (Matrix.diagonal fun _ => 1 * 1 : Matrix (Fin 2) (Fin 2) ℝ) = 1 := by simp
  have hR : (Matrix.diagonal fun _ => 1 * 1 : Matrix (Fin 2) (Fin 2) ℝ).PosDef := by
    rw [hR1]; exact PosDef.one
  have hcc := correction_accepted _ hP H _ hR ![0, 1]
  have hc : gain (vecMulVec lineVec lineVec) H (Matrix.diagonal fun _ => 1 * 1) *ᵥ ![0, 1] = (1 / 2 : ℝ) • lineVec := by
    rw [hR1]; exact ahead_correction hH
  obtain ⟨s1, hs1, hread, -⟩ := correct_reads (toVars x) _ positionDef_ok.1 positionDef_ok.2 hu
  have hup := sensorUpdate_position (x := x) (m := (Reading.angle 5 0 false 0 ![Real.pi / 2, 1] 1).meas)
    (clearFixed_zero _ _) hH hr hcc hs1
  rw [hc] at hread
  obtain ⟨c0, -, c5⟩ := lineVec_segments (1 / 2)
  have hl' : getVec (toVars (values s1)) 5 3 = some 0 := by
    rw [getVec_toVars_values, hread 5 3 _ hl, c5, add_zero]
  have hp' : EKFState.p (toVars (values s1)) = ![-(1 / 2), 1 / 2, 0] := by
    have e := hread _ _ _ (getVec_p (toVars x))
    rw [getVec_p, Option.some.injEq, c0, hp] at e
    refine e.trans ?_
    funext i
    fin_cases i <;> simp <;> norm_num
  have hr' : angleResidual 5 ![Real.pi / 2, 1] (toVars (values s1)) = some ![0, 1 - 3 * Real.pi / 4] := by
    rw [ahead_residual hl' hp' (φ := 3 * Real.pi / 4) ?_ (by norm_num)]
    · have := Real.pi_gt_three
      rw [wrapOnce_id (by linarith) (by linarith)]
    · have : (1 / 2 : ℝ) / -(1 / 2) = -1 := by norm_num
      simp only [azimuth, atanQuot]
      rw [if_neg (by norm_num), this, Real.arctan_neg, Real.arctan_one]
      norm_num
      ring
  refine (h (.angle 5 0 false 0 ![Real.pi / 2, 1] 1) x (vecMulVec lineVec lineVec) Tracker.reset _ ⟨1, rfl⟩ hu hP hR hup
    rfl rfl).elim fun (r : Fin 2 → ℝ) k => k.elim fun (r' : Fin 2 → ℝ) k => ?_
  obtain rfl : ![0, 1] = r := Option.some.inj (hr.symm.trans k.1)
  obtain rfl : ![0, 1 - 3 * Real.pi / 4] = r' := Option.some.inj (hr'.symm.trans k.2.1)
  have hle := k.2.2.1
  change ![0, 1 - 3 * Real.pi / 4] ⬝ᵥ ((Matrix.diagonal fun _ => 1 * 1 : Matrix (Fin 2) (Fin 2) ℝ)⁻¹ *ᵥ
    ![0, 1 - 3 * Real.pi / 4]) ≤ ![0, 1] ⬝ᵥ ((Matrix.diagonal fun _ => 1 * 1 : Matrix (Fin 2) (Fin 2) ℝ)⁻¹ *ᵥ ![0, 1]) at hle
  rw [hR1, inv_one, one_mulVec, one_mulVec] at hle
  simp only [dotProduct, Fin.sum_univ_two] at hle
  simp at hle
  have := Real.pi_gt_three
  nlinarith

end MSF
