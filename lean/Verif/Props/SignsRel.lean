import Verif.Props.Signs
import Verif.Lemmas.RelQuot

/-!
# C106 for runs with relative measurements

The signs of quaternions do not matter either if pose sensors are used as relative sensors: the
residual of a relative pose multiplies the attitudes of two measurements and of two states.
-/

namespace MSF

open Matrix EKFState Core Quat

variable {aux : List VarDesc}

/-- The same reading up to the sign of the attitude; both are absolute or both relative. -/
def SameRelReading (m m' : RelReading) : Prop :=
  SameReading m.reading m'.reading ∧ m'.relative = m.relative

/-- The run of a filter with absolute and relative sensors does not depend on the signs of the
quaternions it is given. -/
def RelSignInvariant (np : NoiseParams ℝ (coreDef aux)) (uc : UserCalc (coreDef aux)) : Prop :=
  ∀ (env : Env) (calls calls' : List (Api (V3 ℝ) (V3 ℝ) (Option (Values (coreDef aux)))
    (Option (ErrMat ℝ (coreDef aux)) × Option (ErrMat ℝ (coreDef aux))) RelReading ExtState)),
    List.Forall₂ (Api.Equiv SameState SameRelReading SameExt) calls calls' →
    SameOutcome SameState ((relKernel np uc).run env calls) ((relKernel np uc).run env calls')

theorem SameRelReading.equiv : Equivalence SameRelReading where
  refl _ := ⟨SameReading.equiv.refl _, rfl⟩
  symm h := ⟨SameReading.equiv.symm h.1, h.2.symm⟩
  trans h h' := ⟨SameReading.equiv.trans h.1 h'.1, h'.2.trans h.2⟩

theorem SameReading.isPose {m m' : Reading} (h : SameReading m m') : m.isPose = m'.isPose := by
  rcases h with rfl | ⟨ix, fixed, en, thr, z, rfl, rfl⟩ <;> rfl

theorem SameRelReading.ignored {m m' : RelReading} (h : SameRelReading m m') : m.ignored = m'.ignored := by
  obtain ⟨r, b⟩ := m
  obtain ⟨r', b'⟩ := m'
  obtain ⟨h, rfl⟩ := h
  rcases h with h | ⟨ix, fixed, en, thr, z, h, h'⟩
  · simp only at h
    subst h
    rfl
  · simp only at h h'
    subst h h'
    rfl

theorem predict_same_Fd (np : NoiseParams ℝ (coreDef aux))
    (hq : ∀ s s' dt i, (∀ j, (s j).Q = (s' j).Q) → (np.qAux s dt i).Q = (np.qAux s' dt i).Q)
    (old new new' : EKFState ℝ (coreDef aux)) (tP : ℝ) (h : SameVars new.vars new'.vars)
    (hw : new'.w_m = new.w_m) (ha : new'.a_m = new.a_m) (ht : new'.time = new.time) :
    (predictProcessCovariance np old new' tP).map (fun r => r.1.Fd) =
      (predictProcessCovariance np old new tP).map (fun r => r.1.Fd) := by
  unfold predictProcessCovariance
  obtain ⟨b, hb⟩ := h.q_sgn
  simp only [hw, ha, ht, h.bw, h.ba, hb, toRot_sgn, calcQCore_sgn]
  split
  · rfl
  · simp only [Option.bind_eq_bind]
    cases coreStarts (coreDef aux) with
    | none => rfl
    | some st =>
      simp only [Option.bind_some]
      cases calcQCore (D := coreDef aux) (CalcQ.mkIn (new.time - old.time) (q new.vars) (new.w_m - b_w new.vars)
          (new.a_m - b_a new.vars) (fun _ => np.acc) (fun _ => np.accBias) (fun _ => np.gyr)
          (fun _ => np.gyrBias)) old.Qd with
      | none => rfl
      | some Qd =>
        simp only [Option.bind_some]
        rw [copyQBlocks_congr (fun i => hq new'.vars new.vars _ i fun j => (h.Q j).symm)]
        cases copyQBlocks (np.qAux new.vars (new.time - old.time)) Qd <;> rfl

/-- The residual of a relative pose does not see signs. -/
theorem relResidual_sgn (vo vn : PoseView ℝ) (a0 a1 a2 b0 b1 b2 c d : Bool) (zo zn : V3 ℝ) (qo qn : Quat ℝ) :
    PoseView.relResidual { vo with q := sgn a0 vo.q, qic := sgn a1 vo.qic, qwv := sgn a2 vo.qwv }
      { vn with q := sgn b0 vn.q, qic := sgn b1 vn.qic, qwv := sgn b2 vn.qwv } (zo, sgn c qo) (zn, sgn d qn) =
    PoseView.relResidual vo vn (zo, qo) (zn, qn) := by
  simp only [PoseView.relResidual, PoseView.predAtt, PoseView.predPos,
    toRot_sgn, conj_sgn, sgn_mul, mul_sgn, sgn_sgn, attResidual_sgn, yawResidual_sgn]

theorem relPoseUpdate_same {uc : UserCalc (coreDef aux)} (hu : uc.Signless) (tr : Tracker ℝ) (ix : PoseIdx)
    (fixed : Nat) {xo xo' x x' : Values (coreDef aux)} (ho : SameValues xo xo') (hx : SameValues x x')
    (Po F P : ErrMat ℝ (coreDef aux)) (c d : Bool) (zp z : PoseMeas ℝ) :
    Option.Rel (fun u u' : Upd (Values (coreDef aux)) (ErrMat ℝ (coreDef aux)) (Tracker ℝ) =>
      u'.tr = u.tr ∧ SameValues u.x u'.x ∧ u'.P = u.P ∧ u'.applied = u.applied ∧ u'.fuzzy = u.fuzzy)
      (relPoseUpdate uc tr ix fixed zp z xo Po F x P)
      (relPoseUpdate uc tr ix fixed { zp with z_q := sgn c zp.z_q } { z with z_q := sgn d z.z_q } xo' Po F x' P) := by
  unfold relPoseUpdate
  obtain ⟨a0, a1, a2, ha⟩ := poseView_same ho.vars ix
  obtain ⟨b0, b1, b2, hb⟩ := poseView_same hx.vars ix
  rw [poseH_same ho.vars, poseH_same hx.vars, ha, hb]
  simp only [Option.bind_eq_bind]
  cases poseH ix fixed (toVars xo) with
  | none => exact .none
  | some Ho =>
  cases poseH ix fixed (toVars x) with
  | none => exact .none
  | some Hn =>
  cases poseView ix (toVars xo) with
  | none => exact .none
  | some vo =>
  cases poseView ix (toVars x) with
  | none => exact .none
  | some vn =>
  simp only [Option.map_some, Option.bind_some, relResidual_sgn]
  cases PoseView.relResidual vo vn (zp.z_p, zp.z_q) (z.z_p, z.z_q) with
  | none => exact .none
  | some r =>
  simp only [Option.bind_some]
  cases calculateCorrectionRelative Po P F (-Ho) Hn r z.R_ with
  | none => exact .none
  | some cP =>
  simp only [Option.bind_some]
  have := applyCorrection_same hu tr hx.vars cP.1
  revert this
  generalize applyCorrection uc tr (toVars x) cP.1 = a
  generalize applyCorrection uc tr (toVars x') cP.1 = b
  intro this
  cases this with
  | none => exact .none
  | some h' => exact .some ⟨h'.1, h'.2.1.values, rfl, rfl, h'.2.2⟩

theorem relReadingUpdate_same {uc : UserCalc (coreDef aux)} (hu : uc.Signless) (tr : Tracker ℝ)
    {m1 m1' m2 m2' : RelReading} (h1 : SameRelReading m1 m1') (h2 : SameRelReading m2 m2')
    {xo xo' x x' : Option (Values (coreDef aux))} (ho : SameState xo xo') (hx : SameState x x')
    (Po F P : Option (ErrMat ℝ (coreDef aux))) :
    (relReadingUpdate uc tr m1 m2 xo Po F x P).tr = (relReadingUpdate uc tr m1' m2' xo' Po F x' P).tr ∧
    SameState (relReadingUpdate uc tr m1 m2 xo Po F x P).x (relReadingUpdate uc tr m1' m2' xo' Po F x' P).x ∧
    (relReadingUpdate uc tr m1 m2 xo Po F x P).P = (relReadingUpdate uc tr m1' m2' xo' Po F x' P).P ∧
    (relReadingUpdate uc tr m1 m2 xo Po F x P).applied =
      (relReadingUpdate uc tr m1' m2' xo' Po F x' P).applied ∧
    (relReadingUpdate uc tr m1 m2 xo Po F x P).fuzzy =
      (relReadingUpdate uc tr m1' m2' xo' Po F x' P).fuzzy := by
  have key : ∀ (ix1 ix : PoseIdx) (f1 f : Nat) (e1 e : Bool) (t1 t : ℝ) (zp z : PoseMeas ℝ) (c d br1 br2 : Bool),
      (relReadingUpdate uc tr ⟨.pose ix1 f1 e1 t1 zp, br1⟩ ⟨.pose ix f e t z, br2⟩ xo Po F x P).tr =
        (relReadingUpdate uc tr ⟨.pose ix1 f1 e1 t1 { zp with z_q := sgn c zp.z_q }, br1⟩
          ⟨.pose ix f e t { z with z_q := sgn d z.z_q }, br2⟩ xo' Po F x' P).tr ∧
      SameState (relReadingUpdate uc tr ⟨.pose ix1 f1 e1 t1 zp, br1⟩ ⟨.pose ix f e t z, br2⟩ xo Po F x P).x
        (relReadingUpdate uc tr ⟨.pose ix1 f1 e1 t1 { zp with z_q := sgn c zp.z_q }, br1⟩
          ⟨.pose ix f e t { z with z_q := sgn d z.z_q }, br2⟩ xo' Po F x' P).x ∧
      (relReadingUpdate uc tr ⟨.pose ix1 f1 e1 t1 zp, br1⟩ ⟨.pose ix f e t z, br2⟩ xo Po F x P).P =
        (relReadingUpdate uc tr ⟨.pose ix1 f1 e1 t1 { zp with z_q := sgn c zp.z_q }, br1⟩
          ⟨.pose ix f e t { z with z_q := sgn d z.z_q }, br2⟩ xo' Po F x' P).P ∧
      (relReadingUpdate uc tr ⟨.pose ix1 f1 e1 t1 zp, br1⟩ ⟨.pose ix f e t z, br2⟩ xo Po F x P).applied =
        (relReadingUpdate uc tr ⟨.pose ix1 f1 e1 t1 { zp with z_q := sgn c zp.z_q }, br1⟩
          ⟨.pose ix f e t { z with z_q := sgn d z.z_q }, br2⟩ xo' Po F x' P).applied ∧
      (relReadingUpdate uc tr ⟨.pose ix1 f1 e1 t1 zp, br1⟩ ⟨.pose ix f e t z, br2⟩ xo Po F x P).fuzzy =
        (relReadingUpdate uc tr ⟨.pose ix1 f1 e1 t1 { zp with z_q := sgn c zp.z_q }, br1⟩
          ⟨.pose ix f e t { z with z_q := sgn d z.z_q }, br2⟩ xo' Po F x' P).fuzzy := by
    intro ix1 ix f1 f e1 e t1 t zp z c d br1 br2
    unfold relReadingUpdate
    simp only [Option.bind_eq_bind]
    cases ho with
    | none => exact ⟨rfl, .none, rfl, rfl, rfl⟩
    | some ho =>
    cases Po with
    | none => exact ⟨rfl, .none, rfl, rfl, rfl⟩
    | some Po =>
    cases F with
    | none => exact ⟨rfl, .none, rfl, rfl, rfl⟩
    | some F =>
    cases hx with
    | none => exact ⟨rfl, .none, rfl, rfl, rfl⟩
    | some hx =>
    cases P with
    | none => exact ⟨rfl, .none, rfl, rfl, rfl⟩
    | some P =>
      have := relPoseUpdate_same hu tr ix f ho hx Po F P c d zp z
      simp only [Option.bind_some]
      revert this
      generalize relPoseUpdate uc tr ix f _ _ _ Po F _ P = a
      generalize relPoseUpdate uc tr ix f _ _ _ Po F _ P = b
      intro this
      cases this with
      | none => exact ⟨rfl, .none, rfl, rfl, rfl⟩
      | some h =>
        obtain ⟨g1, g2, g3, g4, g5⟩ := h
        exact ⟨g1.symm, .some g2, by simp only [g3], g4.symm, g5.symm⟩
  obtain ⟨r1, br1⟩ := m1
  obtain ⟨r1', br1'⟩ := m1'
  obtain ⟨r2, br2⟩ := m2
  obtain ⟨r2', br2'⟩ := m2'
  obtain ⟨h1, e1⟩ := h1
  obtain ⟨h2, e2⟩ := h2
  simp only at h1 h2 e1 e2
  subst e1 e2
  have ns : ∀ r : Reading, r.isPose = true → ∃ ix f e t z, r = .pose ix f e t z := by
    intro r hr
    cases r with
    | pose ix f e t z => exact ⟨ix, f, e, t, z, rfl⟩
    | _ => cases hr
  have form : ∀ {r r' : Reading}, SameReading r r' → r.isPose = true →
      ∃ ix f e t z b, r = .pose ix f e t z ∧ r' = .pose ix f e t { z with z_q := sgn b z.z_q } := by
    intro r r' h hr
    rcases h with rfl | ⟨ix, f, e, t, z, rfl, rfl⟩
    · obtain ⟨ix, f, e, t, z, rfl⟩ := ns _ hr
      exact ⟨ix, f, e, t, z, false, rfl, rfl⟩
    · exact ⟨ix, f, e, t, z, true, rfl, rfl⟩
  have none1 : ∀ (r1 r2 : Reading) (b1 b2 : Bool) (xo : Option (Values (coreDef aux))) (x),
      (r1.isPose && r2.isPose) = false →
      relReadingUpdate uc tr ⟨r1, b1⟩ ⟨r2, b2⟩ xo Po F x P = ⟨tr, x, P, false, false⟩ := by
    intro r1 r2 b1 b2 xo x hr
    cases r1 <;> cases r2 <;> first | rfl | cases hr
  by_cases hp : (r1.isPose && r2.isPose) = true
  · rw [Bool.and_eq_true] at hp
    obtain ⟨ix1, f1, e1, t1, z1, c, rfl, rfl⟩ := form h1 hp.1
    obtain ⟨ix, f, e, t, z, d, rfl, rfl⟩ := form h2 hp.2
    exact key _ _ _ _ _ _ _ _ _ _ _ _ _ _
  · have hp : (r1.isPose && r2.isPose) = false := by simpa using hp
    rw [none1 r1 r2 _ _ _ _ hp, none1 r1' r2' _ _ _ _ (by rw [← h1.isPose, ← h2.isPose]; exact hp)]
    exact ⟨rfl, hx, rfl, rfl, rfl⟩

theorem sign_rcongr (np : NoiseParams ℝ (coreDef aux)) (uc : UserCalc (coreDef aux)) (hu : uc.Signless)
    (hn : bestIndex (coreDef aux) ≠ some iq)
    (hq : ∀ s s' dt i, (∀ j, (s j).Q = (s' j).Q) → (np.qAux s dt i).Q = (np.qAux s' dt i).Q) :
    RCongr (relKernel np uc) ⟨SameState, SameState.equiv⟩ ⟨SameRelReading, SameRelReading.equiv⟩
      ⟨SameExt, SameExt.equiv⟩ :=
  have K := sign_congr np uc hu hn hq
  { kernel :=
      { prop := K.prop
        extProp := K.extProp
        predP := K.predP
        update := fun tr m m' s s' P hm hs => by
          change ((if m.ignored then (⟨tr, s, P, false, false⟩ : Upd _ _ _) else
              (readingKernel np uc).update tr m.reading s P).tr =
            (if m'.ignored then (⟨tr, s', P, false, false⟩ : Upd _ _ _) else
              (readingKernel np uc).update tr m'.reading s' P).tr) ∧
            SameState (if m.ignored then (⟨tr, s, P, false, false⟩ : Upd _ _ _) else
              (readingKernel np uc).update tr m.reading s P).x
            (if m'.ignored then (⟨tr, s', P, false, false⟩ : Upd _ _ _) else
              (readingKernel np uc).update tr m'.reading s' P).x ∧
            ((if m.ignored then (⟨tr, s, P, false, false⟩ : Upd _ _ _) else
              (readingKernel np uc).update tr m.reading s P).P =
            (if m'.ignored then (⟨tr, s', P, false, false⟩ : Upd _ _ _) else
              (readingKernel np uc).update tr m'.reading s' P).P) ∧
            ((if m.ignored then (⟨tr, s, P, false, false⟩ : Upd _ _ _) else
              (readingKernel np uc).update tr m.reading s P).applied =
            (if m'.ignored then (⟨tr, s', P, false, false⟩ : Upd _ _ _) else
              (readingKernel np uc).update tr m'.reading s' P).applied) ∧
            ((if m.ignored then (⟨tr, s, P, false, false⟩ : Upd _ _ _) else
              (readingKernel np uc).update tr m.reading s P).fuzzy =
            (if m'.ignored then (⟨tr, s', P, false, false⟩ : Upd _ _ _) else
              (readingKernel np uc).update tr m'.reading s' P).fuzzy)
          rw [SameRelReading.ignored hm]
          split
          · exact ⟨rfl, hs, rfl, rfl, rfl⟩
          · exact K.update tr m.reading m'.reading s s' P hm.1 hs
        numX := K.numX
        numPos := K.numPos }
    fd := fun dt u s s' hs => by
      cases hs with
      | none => rfl
      | some h =>
        rename_i x x'
        have e := predict_same_Fd np hq (mkState (noInit _) ⟨0, 0⟩ 0 0) (mkState (toVars x) u (dt : ℝ) 0)
          (mkState (toVars x') u (dt : ℝ) 0) 0 h.vars rfl rfl rfl
        have e3 : ∀ o : Option (EKFState ℝ (coreDef aux) × EKFState ℝ (coreDef aux) × ℝ),
            (o.bind fun r => some r.1.Fd) = o.map fun r => r.1.Fd := fun o => by cases o <;> rfl
        exact (e3 _).trans (e.symm.trans (e3 _).symm)
    isRel := fun m m' h => by
      change (m.relative && m.reading.isPose) = (m'.relative && m'.reading.isPose)
      rw [h.2, h.1.isPose]
    cast := fun m m' h => h.1.isPose
    clear := fun m m' P h => by
      change m.reading.clearP P = m'.reading.clearP P
      unfold Reading.clearP
      obtain ⟨e1, e2, -⟩ := reading_same (SameVars.refl (noInit (coreDef aux))) h.1
      rw [e1, e2]
    relUpdate := fun tr m1 m1' m2 m2' xo xo' Po G s s' P h1 h2 ho hs =>
      relReadingUpdate_same hu tr h1 h2 ho hs Po G P }

/-- **C106, partial**, for runs with absolute and relative sensors.
Missing: the quaternion that the tracker watches (`C106_watched_violated`). -/
theorem C106_relative_signs_partial (np : NoiseParams ℝ (coreDef aux)) (uc : UserCalc (coreDef aux))
    (hu : uc.Signless) (hn : bestIndex (coreDef aux) ≠ some iq)
    (hq : ∀ s s' dt i, (∀ j, (s j).Q = (s' j).Q) → (np.qAux s dt i).Q = (np.qAux s' dt i).Q) :
    RelSignInvariant np uc :=
  fun env _ _ hc => (sign_rcongr np uc hu hn hq).run env hc

/-- **C106 for the shipped filters with a pose sensor**, absolute or relative, any process noise. -/
theorem C106_relative_shipped_partial (a b g c : ℝ) (n : AuxNoise ℝ) (fixedBias : Bool) :
    RelSignInvariant (noiseOf a b g c (poseQAux n)) (scaleCalc fixedBias) ∧
    RelSignInvariant (noiseOf a b g c (posePressureQAux n)) (scaleCalc fixedBias) ∧
    RelSignInvariant (noiseOf a b g c (positionPoseQAux n)) (scaleCalc fixedBias) := by
  refine ⟨C106_relative_signs_partial _ _ (scaleCalc_signless _) (by decide +kernel) fun s s' dt i h => ?_,
    C106_relative_signs_partial _ _ (scaleCalc_signless _) (by decide +kernel) fun s s' dt i h => ?_,
    C106_relative_signs_partial _ _ (scaleCalc_signless _) (by decide +kernel) fun s s' dt i h => ?_⟩
  · exact setQBlock_Q (setQBlock_Q (setQBlock_Q (setQBlock_Q (setQBlock_Q h _ _ _) _ _ _) _ _ _) _ _ _) _ _ _ i
  · exact setQBlock_Q (setQBlock_Q (setQBlock_Q (setQBlock_Q (setQBlock_Q h _ _ _) _ _ _) _ _ _) _ _ _) _ _ _ i
  · exact setQBlock_Q (setQBlock_Q (setQBlock_Q (setQBlock_Q (setQBlock_Q h _ _ _) _ _ _) _ _ _) _ _ _) _ _ _ i

/-- Calls that agree up to signs: two relative poses, the second with the other sign. -/
example (u : Input (V3 ℝ) (V3 ℝ)) (x : Values (coreDef poseAux)) (P : ErrMat ℝ (coreDef poseAux))
    (ix : PoseIdx) (z z' : PoseMeas ℝ) :
    List.Forall₂ (Api.Equiv SameState SameRelReading SameExt)
      ([.init 1 ⟨u, some x, (some P, some 1)⟩, .imu 2 u, .imu 3 u, .meas ⟨2, 0, .pose ix 0 false 0 z, true⟩,
        .meas ⟨3, 0, .pose ix 0 false 0 z', true⟩] :
        List (Api (V3 ℝ) (V3 ℝ) (Option (Values (coreDef poseAux)))
          (Option (ErrMat ℝ (coreDef poseAux)) × Option (ErrMat ℝ (coreDef poseAux))) RelReading ExtState))
      [.init 1 ⟨u, some x, (some P, some 1)⟩, .imu 2 u, .imu 3 u, .meas ⟨2, 0, .pose ix 0 false 0 z, true⟩,
        .meas ⟨3, 0, .pose ix 0 false 0 { z' with z_q := z'.z_q.neg }, true⟩] :=
  .cons (.init _ _ _ _ _ (.some (.refl x))) (.cons (.imu _ _) (.cons (.imu _ _)
    (.cons (.meas _ _ _ _ ⟨.inl rfl, rfl⟩)
      (.cons (.meas _ _ _ _ ⟨.inr ⟨ix, 0, false, 0, z', rfl, rfl⟩, rfl⟩) .nil))))

end MSF
