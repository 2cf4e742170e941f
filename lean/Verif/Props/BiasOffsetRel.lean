import Verif.Lemmas.RelInput
import Verif.Props.BiasOffset
import Verif.Props.TranslationRel

/-!
# C128 with relative measurements

The counterpart of `Props/BiasOffset.lean` for runs with absolute and relative measurements.
-/

namespace MSF

open Matrix EKFState Core

section
variable {D : List VarDesc} {C : Type}

/-- The same call with an IMU that has additional offsets. -/
def Api.addOffsetRel (c d : V3 ℝ) :
    Api (V3 ℝ) (V3 ℝ) (Option (Values D)) C RelReading ExtState →
      Api (V3 ℝ) (V3 ℝ) (Option (Values D)) C RelReading ExtState
  | .init t s => .init t ⟨MSF.addOffset c d s.u, s.x.map (addBias c d), s.P⟩
  | .imu t u => .imu t (MSF.addOffset c d u)
  | .ext t u e => .ext t (MSF.addOffset c d u) e
  | .meas m => .meas m

/-- The acceleration is at most 50 m/s², with and without the offset. -/
def Api.ModerateRel (c : V3 ℝ) :
    Api (V3 ℝ) (V3 ℝ) (Option (Values D)) C RelReading ExtState → Prop
  | .imu _ u => sqNorm3 u.a ≤ 50 ^ 2 ∧ sqNorm3 (u.a + c) ≤ 50 ^ 2
  | .ext _ u _ => sqNorm3 u.a ≤ 50 ^ 2 ∧ sqNorm3 (u.a + c) ≤ 50 ^ 2
  | _ => True

/-- The variables of the sensor are not the biases of the IMU. -/
def Api.NoBiasRel :
    Api (V3 ℝ) (V3 ℝ) (Option (Values D)) C RelReading ExtState → Prop
  | .meas m => m.body.reading.NoBias
  | _ => True

end

variable {aux : List VarDesc}

/-- For every sequence of calls with moderate accelerations, of absolute and relative sensors: the run with
offsets publishes the same states with larger biases, the same covariances and the same times; if one run ends in
undefined behaviour, so does the other. -/
def RelOffsetIsBias (np : NoiseParams ℝ (coreDef aux)) (uc : UserCalc (coreDef aux)) : Prop :=
  ∀ (c d : V3 ℝ) (env : Env) (calls : List (Api (V3 ℝ) (V3 ℝ) (Option (Values (coreDef aux)))
    (Option (ErrMat ℝ (coreDef aux)) × Option (ErrMat ℝ (coreDef aux))) RelReading ExtState)),
    (∀ o ∈ calls, o.NoBiasRel ∧ o.ModerateRel c) →
    ((relKernel np uc).run env (calls.map (Api.addOffsetRel c d))).map Core.out =
      ((relKernel np uc).run env calls).map fun k => k.out.map (Event.addBias c d)

/-- The transition `Fd` does not see a bias with the same offset. -/
theorem predict_biased_Fd {a : Values (coreDef aux)} (np : NoiseParams ℝ (coreDef aux))
    (hq : ∀ s dt i, (np.qAux (movedVars a s) dt i).Q = (np.qAux s dt i).Q)
    (old new : EKFState ℝ (coreDef aux)) (t : ℝ) :
    (predictProcessCovariance np old { new with vars := movedVars a new.vars
                                                w_m := new.w_m + off3 a ibw rfl
                                                a_m := new.a_m + off3 a iba rfl } t).map
        (fun r => r.1.Fd) =
      (predictProcessCovariance np old new t).map (fun r => r.1.Fd) := by
  unfold predictProcessCovariance
  simp only [bw_moved, ba_moved, Movable.q_eq, add_sub_add_right_eq_sub]
  split
  · rfl
  · have hcopy : ∀ Q, copyQBlocks (np.qAux (movedVars a new.vars) (new.time - old.time)) Q =
        copyQBlocks (np.qAux new.vars (new.time - old.time)) Q := by
      intro Q
      unfold copyQBlocks
      congr 1
      funext Q i
      unfold copyQBlock
      rw [hq]
    simp only [hcopy, Option.bind_eq_bind]
    cases coreStarts (coreDef aux) with
    | none => rfl
    | some s =>
      simp only [Option.bind_some]
      cases calcQCore _ old.Qd with
      | none => rfl
      | some Qd =>
        simp only [Option.bind_some]
        cases copyQBlocks _ Qd with
        | none => rfl
        | some Q => rfl

theorem poseView_biased (c d : V3 ℝ) (x : Values (coreDef aux)) (ix : PoseIdx)
    (hL : ix.L ≠ 3 ∧ ix.L ≠ 4) (hc : ix.pic ≠ 3 ∧ ix.pic ≠ 4) (hw : ix.pwv ≠ 3 ∧ ix.pwv ≠ 4) :
    poseView ix (toVars (moved (biasOff (coreDef aux) c d) x)) = poseView ix (toVars x) := by
  rw [← poseView_unbiased c d _ ix hL hc hw, toVars_moved, unmoved_moved]

/-- The relative update commutes with an offset of the biases. -/
theorem relPoseUpdate_biased (c d : V3 ℝ) (uc : UserCalc (coreDef aux))
    (hs : ∀ x y z, uc.sanity (movedVars (biasOff _ c d) x) (movedVars (biasOff _ c d) y) z =
      movedVars (biasOff _ c d) (uc.sanity x y z))
    (tr : Tracker ℝ) (ix : PoseIdx) (fixed : Nat) (hL : ix.L ≠ 3 ∧ ix.L ≠ 4) (hc : ix.pic ≠ 3 ∧ ix.pic ≠ 4)
    (hw : ix.pwv ≠ 3 ∧ ix.pwv ≠ 4) (prev z : PoseMeas ℝ) (xo x : Values (coreDef aux))
    (Po F P : ErrMat ℝ (coreDef aux)) :
    relPoseUpdate uc tr ix fixed prev z (moved (biasOff _ c d) xo) Po F (moved (biasOff _ c d) x) P =
      (relPoseUpdate uc tr ix fixed prev z xo Po F x P).map
        fun u => ⟨u.tr, moved (biasOff _ c d) u.x, u.P, u.applied, u.fuzzy⟩ := by
  have hv := fun y : Values (coreDef aux) => poseView_biased c d y ix hL hc hw
  have hH : ∀ y, poseH ix fixed (toVars (moved (biasOff (coreDef aux) c d) y)) = poseH ix fixed (toVars y) := by
    intro y
    simp only [poseH, hv]
  unfold relPoseUpdate
  rw [hH x, hH xo, hv xo, hv x]
  simp only [Option.bind_eq_bind]
  cases poseH ix fixed (toVars xo) with
  | none => rfl
  | some Ho =>
  cases poseH ix fixed (toVars x) with
  | none => rfl
  | some Hn =>
  cases poseView ix (toVars xo) with
  | none => rfl
  | some vo =>
  cases poseView ix (toVars x) with
  | none => rfl
  | some vn =>
  simp only [Option.bind_some]
  cases PoseView.relResidual vo vn (prev.z_p, prev.z_q) (z.z_p, z.z_q) with
  | none => rfl
  | some r =>
  simp only [Option.bind_some]
  cases calculateCorrectionRelative Po P F (-Ho) Hn r z.R_ with
  | none => rfl
  | some cP =>
  simp only [Option.bind_some, toVars_moved, applyCorrection_moved (biasOff_only c d).mult uc hs]
  cases applyCorrection uc tr (toVars x) cP.1 with
  | none => rfl
  | some r => rfl

theorem relReadingUpdate_biased (c d : V3 ℝ) (uc : UserCalc (coreDef aux))
    (hs : ∀ x y z, uc.sanity (movedVars (biasOff _ c d) x) (movedVars (biasOff _ c d) y) z =
      movedVars (biasOff _ c d) (uc.sanity x y z))
    (tr : Tracker ℝ) (m1 m2 : RelReading) (h2 : m2.reading.NoBias)
    (xo x : Option (Values (coreDef aux))) (Po F P : Option (ErrMat ℝ (coreDef aux))) :
    relReadingUpdate uc tr m1 m2 (xo.map (moved (biasOff _ c d))) Po F
        (x.map (moved (biasOff _ c d))) P =
      (fun r : Upd _ _ _ => ⟨r.tr, r.x.map (moved (biasOff _ c d)), r.P, r.applied, r.fuzzy⟩)
        (relReadingUpdate uc tr m1 m2 xo Po F x P) := by
  obtain ⟨r1, b1⟩ := m1
  obtain ⟨r2, b2⟩ := m2
  cases r1 with
  | pose ix1 f1 e1 t1 z1 =>
    cases r2 with
    | pose ix f e t z =>
      obtain ⟨hL, hc, hw⟩ := h2
      unfold relReadingUpdate
      simp only [Option.bind_eq_bind]
      cases xo with
      | none => rfl
      | some xo =>
      cases Po with
      | none => rfl
      | some Po =>
      cases F with
      | none => rfl
      | some F =>
      cases x with
      | none => rfl
      | some x =>
      cases P with
      | none => rfl
      | some P =>
        simp only [Option.map_some, Option.bind_some, relPoseUpdate_biased c d uc hs tr ix f hL hc hw]
        cases relPoseUpdate uc tr ix f z1 z xo Po F x P <;> rfl
    | _ => rfl
  | _ => rfl

theorem relKernel_fd_biased (c d : V3 ℝ) (np : NoiseParams ℝ (coreDef aux))
    (hq : ∀ s dt i, (np.qAux (movedVars (biasOff _ c d) s) dt i).Q = (np.qAux s dt i).Q)
    (uc : UserCalc (coreDef aux)) (dt : ℚ) (u : Input (V3 ℝ) (V3 ℝ)) (x : Option (Values (coreDef aux))) :
    (relKernel np uc).fd dt (addOffset c d u) (x.map (moved (biasOff _ c d))) = (relKernel np uc).fd dt u x := by
  cases x with
  | none => simp only [relKernel, Option.map_none, Option.bind_eq_bind, Option.bind_none]
  | some x =>
    have e := predict_biased_Fd np hq (mkState (noInit _) ⟨0, 0⟩ 0 0)
      (mkState (toVars x) u (dt : ℝ) 0) 0
    have e3 : ∀ o : Option (EKFState ℝ (coreDef aux) × EKFState ℝ (coreDef aux) × ℝ),
        (o.bind fun r => some r.1.Fd) = o.map fun r => r.1.Fd := fun o => by cases o <;> rfl
    have e2 : mkState (toVars (moved (biasOff _ c d) x)) (addOffset c d u) (dt : ℝ) 0 =
      { mkState (toVars x) u (dt : ℝ) 0 with
        vars := movedVars (biasOff _ c d) (mkState (toVars x) u (dt : ℝ) 0).vars
        w_m := (mkState (toVars x) u (dt : ℝ) 0).w_m + off3 (biasOff (coreDef aux) c d) ibw rfl
        a_m := (mkState (toVars x) u (dt : ℝ) 0).a_m + off3 (biasOff (coreDef aux) c d) iba rfl } := rfl
    simp only [relKernel, Option.map_some, Option.bind_eq_bind, Option.bind_some]
    rw [e2]
    exact (e3 _).trans (e.trans (e3 _).symm)

/-- The offset as a morphism of kernels with relative measurements. -/
noncomputable def relBiasHom (c d : V3 ℝ) (np : NoiseParams ℝ (coreDef aux))
    (hq : ∀ s dt i, (np.qAux (movedVars (biasOff _ c d) s) dt i).Q = (np.qAux s dt i).Q)
    (uc : UserCalc (coreDef aux))
    (hs : ∀ x y z, uc.sanity (movedVars (biasOff _ c d) x) (movedVars (biasOff _ c d) y) z =
      movedVars (biasOff _ c d) (uc.sanity x y z)) :
    RIHom (fun _ => True) (relKernel_onlyMeas np uc fun m => m.reading.NoBias).restrict (relKernel np uc) :=
  let S := biasHom (biasOff_only c d) np hq uc hs
  { u := addOffset c d
    x := fun s => s.1.map (moved (biasOff _ c d))
    c := Subtype.val
    m := fun _ b => b.1
    t := id
    e := fun e => e.1
    lerp := S.lerp
    prop := fun dt u s u' => S.prop dt u s.1 u'
    extProp := fun e s => S.extProp e.1 s.1
    predP := fun dt P u s => S.predP dt P.1 u s.1
    update := fun i tr b s P => by
      change (if b.1.ignored then (⟨tr, s.1.map (moved (biasOff _ c d)), P.1, false, false⟩ :
        Upd _ _ _) else (sensorKernel np uc).update tr b.1.reading.meas
          (s.1.map (moved (biasOff _ c d))) P.1) = (fun r : Upd _ _ _ => ⟨r.tr, r.x.map (moved (biasOff _ c d)),
            r.P, r.applied, r.fuzzy⟩) (if b.1.ignored then (⟨tr, s.1, P.1, false, false⟩ : Upd _ _ _)
              else (sensorKernel np uc).update tr b.1.reading.meas s.1 P.1)
      split
      · rfl
      · have e := S.update 0 tr b.1.reading.meas s.1 P.1
        change (sensorKernel np uc).update tr (b.1.reading.meas.moved (biasOff _ c d)) _ _ = _ at e
        rw [Reading.meas_unbiased c d _ b.2] at e
        exact e
    P0 := rfl
    tr0 := rfl
    numX := fun s => S.numX s.1
    numPos := fun s => S.numPos s.1
    g := Subtype.val
    fd := fun dt u s => relKernel_fd_biased c d np hq uc dt u s.1
    fd0 := rfl
    mulF := fun _ _ => rfl
    isRel := fun _ _ => rfl
    cast := fun _ _ => rfl
    clear := fun i b P hr => (relKernel_onlyMeas np uc fun m => m.reading.NoBias).hom.clear i b P hr
    relUpdate := fun m1 m2 q1 q2 hs12 hr hca tr xo Po G s P => by
      have e := (relKernel_onlyMeas np uc fun m => m.reading.NoBias).hom.relUpdate m1 m2 q1 q2 hs12 hr hca
        tr xo Po G s P
      have e2 := relReadingUpdate_biased c d uc hs tr m1.body.1 m2.body.1 m2.body.2 xo.1 s.1
        ((relKernel_onlyMeas np uc fun m => m.reading.NoBias).restrict.clear m2.body Po).1 G.1
        ((relKernel_onlyMeas np uc fun m => m.reading.NoBias).restrict.clear m2.body P).1
      refine e2.trans ?_
      exact congrArg (fun r : Upd _ _ _ => (⟨r.tr, r.x.map (moved (biasOff _ c d)), r.P, r.applied,
        r.fuzzy⟩ : Upd _ _ _)) e }

/-- **C128 (partial)** for runs with absolute and relative measurements.  Missing: spikes, as in
`C128_offset_partial`. -/
theorem C128_relative_partial (np : NoiseParams ℝ (coreDef aux))
    (hq : ∀ s s' dt i, (∀ j, (s j).Q = (s' j).Q) → (np.qAux s dt i).Q = (np.qAux s' dt i).Q)
    (uc : UserCalc (coreDef aux))
    (hs : ∀ c d x y z, uc.sanity (movedVars (biasOff _ c d) x) (movedVars (biasOff _ c d) y) z =
      movedVars (biasOff _ c d) (uc.sanity x y z)) : RelOffsetIsBias np uc := by
  intro c d env calls hfit
  have I := relKernel_onlyMeas np uc fun m => m.reading.NoBias
  obtain ⟨os, rfl⟩ := I.lift_apis calls (fun o ho => by
    cases o with
    | init => exact ⟨trivial, trivial, trivial⟩
    | imu => trivial
    | ext => exact fun _ _ => trivial
    | meas m => exact (hfit _ ho).1)
  have key : ∀ v : V3 ℝ, sqNorm3 v ≤ 50 ^ 2 → (relKernel np uc).spike v = false := by
    intro v hv
    change decide (50 * 50 < sqNorm3 v) = false
    rw [decide_eq_false_iff_not]
    linarith
  have k1 := I.hom.run env os (fun o _ => by cases o <;> trivial)
  have k2 := (relBiasHom c d np (fun s dt i => hq _ _ _ _ fun _ => rfl) uc (hs c d)).run env os
    (fun o _ => by cases o <;> trivial) (fun o ho => by
      have hh := (hfit _ (List.mem_map_of_mem ho)).2
      cases o with
      | init t s => trivial
      | imu t u => exact ⟨key _ hh.1, key _ hh.2⟩
      | ext t u e => exact ⟨key _ hh.1, key _ hh.2⟩
      | meas m => trivial)
  have hm : moved (biasOff (coreDef aux) c d) = addBias c d := funext fun x => moved_biasOff c d x
  have el : (os.map (I.hom.pair.api 0)).map (Api.addOffsetRel c d) = os.map
      ((relBiasHom c d np (fun s dt i => hq _ _ _ _ fun _ => rfl) uc (hs c d)).pair.api 0) := by
    rw [List.map_map]
    refine List.map_congr_left fun o _ => ?_
    cases o with
    | init t s =>
      change Api.init _ ⟨_, Option.map (addBias c d) s.x.1, _⟩ =
        Api.init _ ⟨_, Option.map (moved (biasOff (coreDef aux) c d)) s.x.1, _⟩
      rw [hm]
      rfl
    | imu t u => rfl
    | ext t u e => cases e <;> rfl
    | meas m => rfl
  rw [el, k1, k2]
  cases I.restrict.run env os with
  | error e => rfl
  | ok k =>
    change Except.ok _ = Except.ok _
    congr 1
    change k.out.map _ = (k.out.map _).map _
    rw [List.map_map]
    refine List.map_congr_left fun e _ => ?_
    cases e with
    | initial t x P =>
      change Event.initial _ (Option.map (moved (biasOff (coreDef aux) c d)) x.1) _ =
        Event.initial _ (Option.map (addBias c d) x.1) _
      rw [hm]
      rfl
    | afterPropagation t x P =>
      change Event.afterPropagation _ (Option.map (moved (biasOff (coreDef aux) c d)) x.1) _ =
        Event.afterPropagation _ (Option.map (addBias c d) x.1) _
      rw [hm]
      rfl
    | afterUpdate t x P =>
      change Event.afterUpdate _ (Option.map (moved (biasOff (coreDef aux) c d)) x.1) _ =
        Event.afterUpdate _ (Option.map (addBias c d) x.1) _
      rw [hm]
      rfl

/-- **C128 (partial)** for the shipped filters with pose sensors, absolute or relative. -/
theorem C128_relative_shipped_partial (a b g c : ℝ) (n : AuxNoise ℝ) (fixedBias : Bool) :
    RelOffsetIsBias (noiseOf a b g c (poseQAux n)) (scaleCalc fixedBias) ∧
    RelOffsetIsBias (noiseOf a b g c (posePressureQAux n)) (scaleCalc fixedBias) ∧
    RelOffsetIsBias (noiseOf a b g c (positionPoseQAux n)) (scaleCalc fixedBias) := by
  refine ⟨C128_relative_partial _ ?_ _ (fun c d x _ _ => scaleSanity_biased c d x),
    C128_relative_partial _ ?_ _ (fun c d x _ _ => scaleSanity_biased c d x),
    C128_relative_partial _ ?_ _ (fun c d x _ _ => scaleSanity_biased c d x)⟩
  all_goals
    intro s s' dt i h
    exact setQBlock_Q (setQBlock_Q (setQBlock_Q (setQBlock_Q (setQBlock_Q h _ _ _) _ _ _) _ _ _)
      _ _ _) _ _ _ _

/-- Calls that meet the hypothesis with an offset: two relative poses and a position between them. -/
example (s : St (V3 ℝ) (V3 ℝ) (Option (Values (coreDef positionPoseAux)))
    (Option (ErrMat ℝ (coreDef positionPoseAux)) × Option (ErrMat ℝ (coreDef positionPoseAux))))
    (z z' : PoseMeas ℝ) :
    ∀ o ∈ ([.init 1 s, .imu 2 ⟨![0, 0, 10], 0⟩, .imu 3 ⟨![0, 0, 12], ![1, 0, 0]⟩, .imu 4 ⟨![1, 0, 12], 0⟩,
      .meas ⟨2, 1, .pose ⟨5, 8, 9, 6, 7⟩ 0 true 6 z, true⟩,
      .meas ⟨3, 0, .position 10 0 false 0 1 1, false⟩,
      .meas ⟨4, 1, .pose ⟨5, 8, 9, 6, 7⟩ 0 true 6 z', true⟩] : List (Api (V3 ℝ) (V3 ℝ)
        (Option (Values (coreDef positionPoseAux)))
        (Option (ErrMat ℝ (coreDef positionPoseAux)) × Option (ErrMat ℝ (coreDef positionPoseAux)))
        RelReading ExtState)), o.NoBiasRel ∧ o.ModerateRel ![1, 2, 3] := by
  simp [Api.NoBiasRel, Reading.NoBias, Api.ModerateRel, sqNorm3]
  norm_num

end MSF
