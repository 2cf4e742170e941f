import Verif.Props.Unobservable
import Verif.Props.TowardsPose
import Verif.Props.InitMotion

/-!
# C72, C119: examples for updates of the filters of the nodes

The hypotheses of `C72_scale_partial`, `C119_position` and `C119_pose_partial` hold for updates of the filters
of the nodes.
-/

namespace MSF

open Matrix EKFState Core Spec

/-- Non-vacuity of `C119_position`: with the antenna at the IMU a position says nothing about the
attitude, and something about the position. -/
example : ∃ u, sensorUpdate (plainCalc (aux := positionAux) false) Tracker.reset
      (Reading.position 5 0 false 0 ![1, 2, 3] 1).meas (values (posState 0 Quat.one 0)) 1 = some u ∧
    infoAlong u.P (Pi.single ⟨6, by decide⟩ 1) =
      infoAlong (1 : ErrMat ℝ (coreDef positionAux)) (Pi.single ⟨6, by decide⟩ 1) ∧
    infoAlong (1 : ErrMat ℝ (coreDef positionAux)) (Pi.single ⟨0, by decide⟩ 1) <
      infoAlong u.P (Pi.single ⟨0, by decide⟩ 1) := by
  have hl := (posValues_reads 0 Quat.one 0).1
  have hu : UnitQuats (toVars (values (posState 0 Quat.one 0))) :=
    posState_unit _ _ _ (by simp [Quat.normSq, Quat.one])
  obtain ⟨H, hH, hm⟩ := positionH_mulVec 5 0 (toVars (values (posState 0 Quat.one 0))) 0 positionDef_ok.1 hl
    (by decide)
  obtain ⟨H', hH', hJ⟩ := C44_position 5 0 (toVars (values (posState 0 Quat.one 0))) 0 ![1, 2, 3]
    positionDef_ok.1 positionDef_ok.2 hu hl (by decide)
  obtain rfl := Option.some.inj (hH.symm.trans hH')
  have hr : positionResidual 5 ![1, 2, 3] (toVars (values (posState 0 Quat.one 0))) = some ![1, 2, 3] := by
    simp only [positionResidual, sensorPos, hl, Option.bind_eq_bind, Option.bind_some, mulVec_zero, add_zero,
      (posValues_reads 0 Quat.one 0).2.1, sub_zero]
  have hcc := correction_accepted (1 : ErrMat ℝ (coreDef positionAux)) PosSemidef.one H 1 PosDef.one ![1, 2, 3]
  obtain ⟨s1, hs1, -⟩ := correct_reads (toVars (values (posState 0 Quat.one 0)))
    (gain (1 : ErrMat ℝ (coreDef positionAux)) H 1 *ᵥ ![1, 2, 3]) positionDef_ok.1 positionDef_ok.2 hu
  have hup := sensorUpdate_position (m := (Reading.position 5 0 false 0 ![1, 2, 3] 1).meas)
    (clear_one positionDef_ok.1 0 [5] (by decide)) hH hr hcc hs1
  have key := fun δ => C119_position _ 5 le_rfl false 0 ![1, 2, 3] 1 PosDef.one positionDef_ok.1
    positionDef_ok.2 _ _ hu 1 PosDef.one _ hup rfl δ _ (hJ δ fun h => by simp at h)
  refine ⟨_, hup, (key _).1 ?_, (key _).2 fun h => ?_⟩
  · rw [hm]
    have s0 : segOf (Pi.single ⟨6, by decide⟩ 1 : Fin (total errLen (coreDef positionAux)) → ℝ) 0 3 = 0 := by
      funext j; fin_cases j <;> rfl
    have s5 : segOf (Pi.single ⟨6, by decide⟩ 1 : Fin (total errLen (coreDef positionAux)) → ℝ) 5 3 = 0 := by
      funext j; fin_cases j <;> rfl
    rw [s0, s5]
    have : skew (0 : V3 ℝ) = 0 := by ext i j; fin_cases i <;> fin_cases j <;> simp [skew]
    simp [this]
  · rw [hm] at h
    have s0 : segOf (Pi.single ⟨0, by decide⟩ 1 : Fin (total errLen (coreDef positionAux)) → ℝ) 0 3 =
        ![1, 0, 0] := by
      funext j; fin_cases j <;> rfl
    have s2 : segOf (Pi.single ⟨0, by decide⟩ 1 : Fin (total errLen (coreDef positionAux)) → ℝ) 2 3 = 0 := by
      funext j; fin_cases j <;> rfl
    have s5 : segOf (Pi.single ⟨0, by decide⟩ 1 : Fin (total errLen (coreDef positionAux)) → ℝ) 5 3 = 0 := by
      funext j; fin_cases j <;> rfl
    rw [s0, s2, s5] at h
    have := congrFun h 0
    simp at this

/-- Vehicle and frame of the camera move together along the first axis. -/
noncomputable def bothDir : Fin (total errLen (coreDef poseAux)) → ℝ :=
  fun k => if k.val = 0 ∨ k.val = 19 then 1 else 0

/-- Non-vacuity of `C119_pose_partial`: a pose that agrees with its prediction, scale one, aligned frame;
vehicle and frame of the camera move together along the first axis. -/
example : ∃ u, sensorUpdate poseCalc Tracker.reset
      (Reading.pose poseIx 0 false 0 ⟨0, Quat.one, 1⟩).meas (values (scaleState 1)) 1 = some u ∧
    infoAlong u.P bothDir = infoAlong 1 bothDir := by
  have hu : UnitQuats (toVars (values (scaleState 1))) := scaleState_unit 1
  have hv : poseView poseIx (toVars (values (scaleState 1))) =
      some ⟨0, Quat.one, 1, Quat.one, 0, Quat.one, 0⟩ := rfl
  have hz : attResidual ((PoseView.mk 0 Quat.one 1 Quat.one 0 Quat.one 0 : PoseView ℝ).predAtt.conj.mul
      Quat.one) = some 0 := by rw [one_predAtt]; exact one_att
  have e3 : yawResidual (Quat.one : Quat ℝ) = some 0 := by
    rw [yawResidual, if_neg (by simp [Quat.one])]; simp [Quat.one]
  have hr : poseRes poseIx 0 Quat.one (toVars (values (scaleState 1))) = some 0 := by
    simp only [poseRes, hv, Option.bind_some, PoseView.residual, hz, e3, Option.bind_eq_bind]
    have : (PoseView.mk 0 Quat.one 1 Quat.one 0 Quat.one 0 : PoseView ℝ).predPos = 0 := by
      simp [PoseView.predPos]
    rw [this]
    congr 1
    funext i
    fin_cases i <;> simp [rows7]
  obtain ⟨H, hH, hm⟩ := poseH_mulVec poseIx 0 (toVars (values (scaleState 1))) _ poseDef_ok.1 hv poseIx_distinct
  have hcc := correction_accepted (1 : ErrMat ℝ (coreDef poseAux)) PosSemidef.one H 1 PosDef.one 0
  obtain ⟨s1, hs1, hg, -⟩ := correct_reads (toVars (values (scaleState 1)))
    (gain (1 : ErrMat ℝ (coreDef poseAux)) H 1 *ᵥ 0) poseDef_ok.1 posePlain hu
  have hl : getVec s1 5 1 = some fun _ => 1 := by
    rw [hg 5 1 (fun _ => 1) rfl, mulVec_zero]
    congr 1
    funext j
    fin_cases j
    simp [segOf, segD]
  obtain ⟨t', hup⟩ := sensorUpdate_pose (m := (Reading.pose poseIx 0 false 0 ⟨0, Quat.one, 1⟩).meas)
    (clear_one poseDef_ok.1 0 _ (by decide)) hH hr hcc hs1 hl zero_le_one
  have hs : IsShift poseIx.pwv 0 ![1, 0, 0] bothDir := by
    refine ⟨?_, ?_, fun _ h => absurd (show (3 : Nat) = 1 from h) (by decide), fun i h0 h1 h2 j hj k hk => ?_⟩
    · funext j
      fin_cases j <;> rfl
    · funext j
      fin_cases j <;> rfl
    · rw [owns_iff (indexingErrors_eq_zero.2 poseDef_ok.1)] at hk
      have key : ∀ j : Fin (coreDef poseAux).length, j.val ≠ 0 → j.val ≠ 7 →
          ∀ k : Fin (total errLen (coreDef poseAux)),
            offset errLen (coreDef poseAux) j ≤ k ∧ k < offset errLen (coreDef poseAux) j +
              errLen ((coreDef poseAux).get j) → ¬ (k.val = 0 ∨ k.val = 19) := by
        decide +kernel
      exact if_neg (key j (hj ▸ h0) (hj ▸ h1) k hk)
  obtain ⟨H1, hH1, hHδ⟩ := poseH_shift (fixed := 0) poseDef_ok.1 hv poseIx_distinct (bp := 0) (by decide)
    (Nat.zero_testBit _) hs
  obtain rfl := Option.some.inj (hH.symm.trans hH1)
  obtain ⟨H2, hH2, hc⟩ := pose_compare poseIx 0 _ _ 0 Quat.one poseDef_ok.1 posePlain hu hv poseIx_distinct hz
    one_yaw
  obtain rfl := Option.some.inj (hH.symm.trans hH2)
  have hder := hc bothDir fun i _ hf => by simp at hf
  have h1 : (1 : ℝ) • (Quat.one : Quat ℝ).toRot = 1 := by rw [one_toRot, one_smul]
  have sq : segOf bothDir poseIx.qwv 3 = 0 := by
    funext j
    fin_cases j <;> rfl
  have h0 : -(H *ᵥ bothDir) + rows7 (((1 : ℝ) • (Quat.one : Quat ℝ).toRot - 1) *ᵥ segOf bothDir poseIx.pwv 3) 0
      (yawDeriv Quat.one (segOf bothDir poseIx.qwv 3)) = 0 := by
    rw [hHδ, sq]
    simp only [h1, sub_self, zero_mulVec]
    have hy0 : yawDeriv (Quat.one : Quat ℝ) (0 : V3 ℝ) = 0 := by simp [yawDeriv, pureH, Quat.mul]
    rw [hy0]
    funext i
    fin_cases i <;> simp [rows7, pad]
  rw [h0] at hder
  exact ⟨_, hup, C119_pose_partial _ poseIx false 0 ⟨0, Quat.one, 1⟩ PosDef.one poseDef_ok.1 posePlain _ _ hu _ hv
    poseIx_distinct hz one_yaw 1 PosDef.one _ hup rfl _ hder (.inr h1)⟩

/-- The measurement matrix that reads the scale. -/
noncomputable def readScale : Matrix (Fin 1) (Fin (total errLen (coreDef poseAux))) ℝ :=
  Matrix.of fun _ k => if k = ⟨15, by decide⟩ then 1 else 0

/-- Non-vacuity of `C72_scale_partial`: an update that pulls the scale from 1 to -4. -/
example : ∃ t' s', updateState poseCalc Tracker.reset
      (⟨scaleState 1, 0, 0, 0, 1, 1, 0⟩ : EKFState ℝ (coreDef poseAux)) false 0 readScale (fun _ => -10) 1 =
      some (t', s', false) ∧ ∃ L, scaleOf s'.vars = some L ∧ 0 ≤ L := by
  have hcc := correction_accepted (1 : ErrMat ℝ (coreDef poseAux)) PosSemidef.one readScale 1 PosDef.one
    (fun _ => -10)
  obtain ⟨s1, hs1, -⟩ := correct_reads (scaleState 1)
    (gain (1 : ErrMat ℝ (coreDef poseAux)) readScale 1 *ᵥ fun _ => -10) poseDef_ok.1 posePlain (scaleState_unit 1)
  have hb : bestIndex (coreDef poseAux) = some ⟨6, by decide⟩ := by decide +kernel
  have hd : indexOfBestNonTemporalDriftingState (coreDef poseAux) ≠ some (-1) := by decide +kernel
  set s' : Vars ℝ (coreDef poseAux) := scaleSanity s1 with hs'
  obtain ⟨q, hq⟩ : ∃ q, quatOf _ (s' ⟨6, by decide⟩).val = some q := ⟨_, rfl⟩
  have hfz : ∃ t', fuzzyCheck' (Tracker.reset : Tracker ℝ) s' (scaleState 1) 0.1 = some (t', s', false) := by
    unfold fuzzyCheck' fuzzyCheck
    rw [if_neg hd, hb]
    simp only [Option.bind_eq_bind, Option.bind_some, hq]
    rw [if_neg (by decide)]
    exact ⟨_, rfl⟩
  obtain ⟨t', hfz⟩ := hfz
  have ha : applyCorrection poseCalc Tracker.reset (scaleState 1)
      (gain (1 : ErrMat ℝ (coreDef poseAux)) readScale 1 *ᵥ fun _ => -10) = some (t', s', false) := by
    change ((correct (scaleState 1) (gain (1 : ErrMat ℝ (coreDef poseAux)) readScale 1 *ᵥ fun _ => -10)).bind fun s' => fuzzyCheck' Tracker.reset (scaleSanity s') (scaleState 1) 0.1) = _
    rw [hs1]
    exact hfz
  have hstep : updateState poseCalc Tracker.reset
      (⟨scaleState 1, 0, 0, 0, 1, 1, 0⟩ : EKFState ℝ (coreDef poseAux)) false 0 readScale (fun _ => -10) 1 =
      some (t', ⟨s', 0, 0, 0, josephUpdate 1 readScale 1 (gain 1 readScale 1), 1, 0⟩, false) := by
    unfold updateState
    simp only [hcc, Option.bind_eq_bind, Option.bind_some, ha]
  have hrun := Relation.ReflTransGen.single (ScaleStep.update hstep)
  exact ⟨_, _, hstep, C72_scale_partial false hrun ⟨1, rfl, zero_le_one⟩⟩

end MSF
