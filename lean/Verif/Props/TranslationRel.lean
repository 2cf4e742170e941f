import Verif.Props.Translation
import Verif.Lemmas.RelRuns

/-!
# C82 for runs with relative measurements

The origin of the world frame does not matter either if pose sensors are used as relative sensors.
-/

namespace MSF

open Matrix EKFState Core

variable {aux : List VarDesc} {W : Nat → Bool}

/-- The reading of a sensor in the moved frame; a relative sensor stays relative. -/
def RelReading.translate (d : V3 ℝ) (m : RelReading) : RelReading := ⟨m.reading.translate d, m.relative⟩

/-- The same call in the moved frame. -/
def Api.translateRel {D : List VarDesc} {C : Type} (W : Nat → Bool) (d : V3 ℝ) :
    Api (V3 ℝ) (V3 ℝ) (Option (Values D)) C RelReading ExtState →
      Api (V3 ℝ) (V3 ℝ) (Option (Values D)) C RelReading ExtState
  | .init t s => .init t { s with x := s.x.map (MSF.translate W d) }
  | .imu t u => .imu t u
  | .ext t u e => .ext t u (e.map fun e => { e with p := e.p + d })
  | .meas m => .meas { m with body := m.body.translate d }

/-- All measurements of a call fit, as in `Api.Fits`. -/
def Api.FitsRel {D : List VarDesc} {C : Type} (W : Nat → Bool) :
    Api (V3 ℝ) (V3 ℝ) (Option (Values D)) C RelReading ExtState → Prop
  | .meas m => m.body.reading.Fits W
  | _ => True

/-- No restriction but one on the measurements. -/
theorem relKernel_onlyMeas (np : NoiseParams ℝ (coreDef aux)) (uc : UserCalc (coreDef aux))
    (Im : RelReading → Prop) : RelInv (relKernel np uc) (fun _ => True) (fun _ => True) (fun _ => True) Im
      (fun _ => True) where
  kernel := ⟨fun _ _ _ _ _ => trivial, fun _ _ _ _ => trivial, fun _ _ _ _ _ _ => trivial,
    fun _ _ _ _ _ _ _ => ⟨trivial, trivial⟩, trivial⟩
  fd _ _ _ _ := trivial
  fd0 := trivial
  mulF _ _ _ _ := trivial
  idem m P := m.reading.clearP_idem P
  clear _ _ _ _ _ := trivial
  relUpdate _ _ _ _ _ _ _ _ _ _ _ _ _ _ _ _ _ := ⟨trivial, trivial⟩

/-- The transition `Fd` does not see a translation. -/
theorem predict_moved_Fd {a : Values (coreDef aux)} (h : Movable a) (np : NoiseParams ℝ (coreDef aux))
    (hq : ∀ s dt i, (np.qAux (movedVars a s) dt i).Q = (np.qAux s dt i).Q)
    (old new : EKFState ℝ (coreDef aux)) (t : ℝ) :
    (predictProcessCovariance np old { new with vars := movedVars a new.vars } t).map
        (fun r => r.1.Fd) =
      (predictProcessCovariance np old new t).map (fun r => r.1.Fd) := by
  unfold predictProcessCovariance
  simp only [h.bw_eq, h.ba_eq, Movable.q_eq]
  split
  · rfl
  · have hcopy : ∀ Q, copyQBlocks (np.qAux (movedVars a new.vars) (new.time - old.time)) Q =
        copyQBlocks (np.qAux new.vars (new.time - old.time)) Q := by
      intro Q
      unfold copyQBlocks
      congr 1
      funext Q i
      unfold copyQBlock
      rw [hq]
    simp only [hcopy, Option.bind_eq_bind]
    cases coreStarts (coreDef aux) with
    | none => rfl
    | some s =>
      simp only [Option.bind_some]
      cases calcQCore _ old.Qd with
      | none => rfl
      | some Qd =>
        simp only [Option.bind_some]
        cases copyQBlocks _ Qd with
        | none => rfl
        | some Q => rfl

theorem toVars_moved_world (d : V3 ℝ) (x : Values (coreDef aux)) :
    unmovedVars (worldOff (coreDef aux) W d) (toVars (moved (worldOff (coreDef aux) W d) x)) = toVars x := by
  rw [toVars_moved, unmoved_moved]

/-- A moved pose view, the other way round. -/
theorem poseView_moved (h : WorldVars aux W) (d : V3 ℝ) (x : Values (coreDef aux)) (ix : PoseIdx)
    (hL : W ix.L = false) (hc : W ix.pic = false) (hw : W ix.pwv = true) :
    poseView ix (toVars x) = (poseView ix (toVars (moved (worldOff (coreDef aux) W d) x))).map
      fun v => { v with p := v.p - d, pwv := v.pwv - d } := by
  rw [← poseView_unmoved h d _ ix hL hc hw, toVars_moved_world]

theorem poseH_moved (h : WorldVars aux W) (d : V3 ℝ) (x : Values (coreDef aux)) (ix : PoseIdx)
    (fixed : Nat) (hL : W ix.L = false) (hc : W ix.pic = false) (hw : W ix.pwv = true) :
    poseH ix fixed (toVars (moved (worldOff (coreDef aux) W d) x)) = poseH ix fixed (toVars x) := by
  have hd : ∀ a b : V3 ℝ, -(a - d) + (b - d) = -a + b := fun a b => by abel
  simp only [poseH, poseView_moved h d x ix hL hc hw, Option.bind_eq_bind]
  cases poseView ix (toVars (moved (worldOff (coreDef aux) W d) x)) with
  | none => rfl
  | some v => simp only [Option.map_some, Option.bind_some, hd]

/-- The relative update commutes with a translation. -/
theorem relPoseUpdate_moved (h : WorldVars aux W) (d : V3 ℝ) (uc : UserCalc (coreDef aux))
    (hs : ∀ x y c, uc.sanity (movedVars (worldOff _ W d) x) (movedVars (worldOff _ W d) y) c =
      movedVars (worldOff _ W d) (uc.sanity x y c))
    (tr : Tracker ℝ) (ix : PoseIdx) (fixed : Nat) (hL : W ix.L = false) (hc : W ix.pic = false)
    (hw : W ix.pwv = true) (prev z : PoseMeas ℝ) (xo x : Values (coreDef aux))
    (Po F P : ErrMat ℝ (coreDef aux)) :
    relPoseUpdate uc tr ix fixed prev z (moved (worldOff _ W d) xo) Po F (moved (worldOff _ W d) x) P =
      (relPoseUpdate uc tr ix fixed prev z xo Po F x P).map
        fun u => ⟨u.tr, moved (worldOff _ W d) u.x, u.P, u.applied, u.fuzzy⟩ := by
  have hd : ∀ a b : V3 ℝ, -(a - d) + (b - d) = -a + b := fun a b => by abel
  have hv := fun y => poseView_moved h d y ix hL hc hw
  unfold relPoseUpdate
  rw [poseH_moved h d x ix fixed hL hc hw, poseH_moved h d xo ix fixed hL hc hw]
  rw [hv xo, hv x]
  simp only [Option.bind_eq_bind]
  cases poseH ix fixed (toVars xo) with
  | none => rfl
  | some Ho =>
  cases poseH ix fixed (toVars x) with
  | none => rfl
  | some Hn =>
  cases poseView ix (toVars (moved (worldOff (coreDef aux) W d) xo)) with
  | none => rfl
  | some vo =>
  cases poseView ix (toVars (moved (worldOff (coreDef aux) W d) x)) with
  | none => rfl
  | some vn =>
  simp only [Option.map_some, Option.bind_some]
  have er : PoseView.relResidual { vo with p := vo.p - d, pwv := vo.pwv - d }
      { vn with p := vn.p - d, pwv := vn.pwv - d } (prev.z_p, prev.z_q) (z.z_p, z.z_q) =
      PoseView.relResidual vo vn (prev.z_p, prev.z_q) (z.z_p, z.z_q) := by
    simp only [PoseView.relResidual, PoseView.predPos, PoseView.predAtt, hd]
  rw [er]
  cases PoseView.relResidual vo vn (prev.z_p, prev.z_q) (z.z_p, z.z_q) with
  | none => rfl
  | some r =>
  simp only [Option.bind_some]
  cases calculateCorrectionRelative Po P F (-Ho) Hn r z.R_ with
  | none => rfl
  | some cP =>
  simp only [Option.bind_some, toVars_moved, applyCorrection_moved (h.movable d).mult uc hs]
  cases applyCorrection uc tr (toVars x) cP.1 with
  | none => rfl
  | some r => rfl

theorem Reading.translate_isPose (d : V3 ℝ) (r : Reading) : (r.translate d).isPose = r.isPose := by
  cases r <;> rfl

theorem RelReading.translate_ignored (d : V3 ℝ) (m : RelReading) :
    (m.translate d).ignored = m.ignored := by
  obtain ⟨r, b⟩ := m
  cases r <;> rfl

theorem relReadingUpdate_moved (h : WorldVars aux W) (d : V3 ℝ) (uc : UserCalc (coreDef aux))
    (hs : ∀ x y c, uc.sanity (movedVars (worldOff _ W d) x) (movedVars (worldOff _ W d) y) c =
      movedVars (worldOff _ W d) (uc.sanity x y c))
    (tr : Tracker ℝ) (m1 m2 : RelReading) (h2 : m2.reading.Fits W)
    (xo x : Option (Values (coreDef aux))) (Po F P : Option (ErrMat ℝ (coreDef aux))) :
    relReadingUpdate uc tr (m1.translate d) (m2.translate d) (xo.map (moved (worldOff _ W d))) Po F
        (x.map (moved (worldOff _ W d))) P =
      (fun r : Upd _ _ _ => ⟨r.tr, r.x.map (moved (worldOff _ W d)), r.P, r.applied, r.fuzzy⟩)
        (relReadingUpdate uc tr m1 m2 xo Po F x P) := by
  obtain ⟨r1, b1⟩ := m1
  obtain ⟨r2, b2⟩ := m2
  cases r1 with
  | pose ix1 f1 e1 t1 z1 =>
    cases r2 with
    | pose ix f e t z =>
      obtain ⟨hL, hc, hw⟩ : W ix.L = false ∧ W ix.pic = false ∧ W ix.pwv = true := h2
      unfold relReadingUpdate
      simp only [RelReading.translate, Reading.translate, Option.bind_eq_bind]
      cases xo with
      | none => rfl
      | some xo =>
      cases Po with
      | none => rfl
      | some Po =>
      cases F with
      | none => rfl
      | some F =>
      cases x with
      | none => rfl
      | some x =>
      cases P with
      | none => rfl
      | some P =>
        simp only [Option.map_some, Option.bind_some, relPoseUpdate_moved h d uc hs tr ix f hL hc hw]
        cases relPoseUpdate uc tr ix f z1 z xo Po F x P <;> rfl
    | _ => rfl
  | _ => rfl

/-- The translation as a morphism of kernels with relative measurements. -/
noncomputable def relMovedHom (h : WorldVars aux W) (d : V3 ℝ) (np : NoiseParams ℝ (coreDef aux))
    (hq : ∀ s dt i, (np.qAux (movedVars (worldOff _ W d) s) dt i).Q = (np.qAux s dt i).Q)
    (uc : UserCalc (coreDef aux))
    (hs : ∀ x y c, uc.sanity (movedVars (worldOff _ W d) x) (movedVars (worldOff _ W d) y) c =
      movedVars (worldOff _ W d) (uc.sanity x y c)) :
    RHom (fun _ => True) (relKernel_onlyMeas np uc fun m => m.reading.Fits W).restrict (relKernel np uc) :=
  let S := sensorHom (h.movable d) np hq uc hs
  { x := fun s => s.1.map (moved (worldOff _ W d))
    c := Subtype.val
    m := fun _ b => b.1.translate d
    t := id
    e := fun e => e.1.moved d
    f := id
    f_false := rfl
    f_or := fun _ _ => rfl
    prop := fun dt u s u' => S.prop dt u s.1 u'
    extProp := fun e s => by
      have := S.extProp e.1 s.1
      change (sensorKernel np uc).extProp (e.1.moved (off3 (worldOff (coreDef aux) W d) ip rfl)) _ = _ at this
      rw [h.off] at this
      exact this
    predP := fun dt P u s => S.predP dt P.1 u s.1
    update := fun i tr b s P => by
      change (if (b.1.translate d).ignored then (⟨tr, s.1.map (moved (worldOff _ W d)), P.1, false, false⟩ :
        Upd _ _ _) else (sensorKernel np uc).update tr (b.1.reading.translate d).meas
          (s.1.map (moved (worldOff _ W d))) P.1) = (fun r : Upd _ _ _ => ⟨r.tr, r.x.map (moved (worldOff _ W d)),
            r.P, r.applied, r.fuzzy⟩) (if b.1.ignored then (⟨tr, s.1, P.1, false, false⟩ : Upd _ _ _)
              else (sensorKernel np uc).update tr b.1.reading.meas s.1 P.1)
      rw [RelReading.translate_ignored]
      split
      · rfl
      · rw [Reading.meas_translate h d _ b.2]
        exact S.update 0 tr b.1.reading.meas s.1 P.1
    P0 := rfl
    tr0 := rfl
    spike := fun _ => rfl
    numX := fun s => S.numX s.1
    numPos := fun s => S.numPos s.1
    g := Subtype.val
    fd := fun dt u s => by
      obtain ⟨s, -⟩ := s
      cases s with
      | none => rfl
      | some x =>
        have e := predict_moved_Fd (h.movable d) np hq (mkState (noInit _) ⟨0, 0⟩ 0 0)
          (mkState (toVars x) u (dt : ℝ) 0) 0
        have e3 : ∀ o : Option (EKFState ℝ (coreDef aux) × EKFState ℝ (coreDef aux) × ℝ),
            (o.bind fun r => some r.1.Fd) = o.map fun r => r.1.Fd := fun o => by cases o <;> rfl
        exact (e3 _).trans (e.trans (e3 _).symm)
    fd0 := rfl
    mulF := fun _ _ => rfl
    isRel := fun _ b => by
      change ((b.1.relative && (b.1.reading.translate d).isPose) : Bool) =
        (b.1.relative && b.1.reading.isPose)
      rw [Reading.translate_isPose]
    cast := fun _ b => Reading.translate_isPose d _
    clear := fun i b P hr => by
      have e := (relKernel_onlyMeas np uc fun m => m.reading.Fits W).hom.clear i b P hr
      refine Eq.trans ?_ e
      change (b.1.reading.translate d).clearP P.1 = b.1.reading.clearP P.1
      unfold Reading.clearP
      rw [Reading.meas_translate h d _ b.2]
      rfl
    relUpdate := fun m1 m2 q1 q2 hs12 hr hca tr xo Po G s P => by
      have e := (relKernel_onlyMeas np uc fun m => m.reading.Fits W).hom.relUpdate m1 m2 q1 q2 hs12 hr hca
        tr xo Po G s P
      have e2 := relReadingUpdate_moved h d uc hs tr m1.body.1 m2.body.1 m2.body.2 xo.1 s.1
        ((relKernel_onlyMeas np uc fun m => m.reading.Fits W).restrict.clear m2.body Po).1 G.1
        ((relKernel_onlyMeas np uc fun m => m.reading.Fits W).restrict.clear m2.body P).1
      refine e2.trans ?_
      exact congrArg (fun r : Upd _ _ _ => (⟨r.tr, r.x.map (moved (worldOff _ W d)), r.P, r.applied,
        r.fuzzy⟩ : Upd _ _ _)) e }

/-- For every sequence of calls, the run in the moved frame publishes the moved states with the same
covariances at the same times, whether sensors are absolute or relative; if one run ends in undefined
behaviour, so does the other. -/
def RelTranslationInvariant (W : Nat → Bool) (np : NoiseParams ℝ (coreDef aux))
    (uc : UserCalc (coreDef aux)) : Prop :=
  ∀ (d : V3 ℝ) (env : Env) (calls : List (Api (V3 ℝ) (V3 ℝ) (Option (Values (coreDef aux)))
    (Option (ErrMat ℝ (coreDef aux)) × Option (ErrMat ℝ (coreDef aux))) RelReading ExtState)),
    (∀ o ∈ calls, o.FitsRel W) →
    ((relKernel np uc).run env (calls.map (Api.translateRel W d))).map Core.out =
      ((relKernel np uc).run env calls).map fun c => c.out.map (Event.translate W d)

/-- **C82** for runs with relative measurements. -/
theorem C82_relative (h : WorldVars aux W) (np : NoiseParams ℝ (coreDef aux))
    (hq : ∀ s s' dt i, (∀ j, (s j).Q = (s' j).Q) → (np.qAux s dt i).Q = (np.qAux s' dt i).Q)
    (uc : UserCalc (coreDef aux))
    (hs : ∀ d x y c, uc.sanity (movedVars (worldOff _ W d) x) (movedVars (worldOff _ W d) y) c =
      movedVars (worldOff _ W d) (uc.sanity x y c)) : RelTranslationInvariant W np uc := by
  intro d env calls hfit
  have I := relKernel_onlyMeas np uc fun m => m.reading.Fits W
  obtain ⟨os, rfl⟩ := I.lift_apis calls (fun o ho => by
    cases o with
    | init => exact ⟨trivial, trivial, trivial⟩
    | imu => trivial
    | ext => exact fun _ _ => trivial
    | meas m => exact hfit _ ho)
  have k1 := I.hom.run env os (fun o _ => by cases o <;> trivial)
  have k2 := (relMovedHom h d np (fun s dt i => hq _ _ _ _ fun _ => rfl) uc (hs d)).run env os
    (fun o _ => by cases o <;> trivial)
  have hm : moved (worldOff (coreDef aux) W d) = translate W d :=
    funext fun x => moved_worldOff W d x
  have el : (os.map (I.hom.pair.api 0)).map (Api.translateRel W d) = os.map
      ((relMovedHom h d np (fun s dt i => hq _ _ _ _ fun _ => rfl) uc (hs d)).pair.api 0) := by
    rw [List.map_map]
    refine List.map_congr_left fun o _ => ?_
    cases o with
    | init t s =>
      change Api.init _ ⟨_, Option.map (translate W d) s.x.1, _⟩ =
        Api.init _ ⟨_, Option.map (moved (worldOff (coreDef aux) W d)) s.x.1, _⟩
      rw [hm]
      rfl
    | imu t u => rfl
    | ext t u e => cases e <;> rfl
    | meas m => rfl
  rw [el, k1, k2]
  cases I.restrict.run env os with
  | error e => rfl
  | ok c =>
    change Except.ok _ = Except.ok _
    congr 1
    change c.out.map _ = (c.out.map _).map _
    rw [List.map_map]
    refine List.map_congr_left fun e _ => ?_
    cases e with
    | initial t x P =>
      change Event.initial _ (Option.map (moved (worldOff (coreDef aux) W d)) x.1) _ =
        Event.initial _ (Option.map (translate W d) x.1) _
      rw [hm]
      rfl
    | afterPropagation t x P =>
      change Event.afterPropagation _ (Option.map (moved (worldOff (coreDef aux) W d)) x.1) _ =
        Event.afterPropagation _ (Option.map (translate W d) x.1) _
      rw [hm]
      rfl
    | afterUpdate t x P =>
      change Event.afterUpdate _ (Option.map (moved (worldOff (coreDef aux) W d)) x.1) _ =
        Event.afterUpdate _ (Option.map (translate W d) x.1) _
      rw [hm]
      rfl

/-- **C82 for the pose filter** with absolute or relative pose measurements. -/
theorem C82_relative_pose_filter (a b g c : ℝ) (n : AuxNoise ℝ) (fixedBias : Bool) :
    RelTranslationInvariant poseWorld (noiseOf a b g c (poseQAux n)) (scaleCalc fixedBias) := by
  refine C82_relative (poseWorld_vars []) _ ?_ _ (fun d x _ _ => scaleSanity_moved rfl d x)
  intro s s' dt i h
  exact setQBlock_Q (setQBlock_Q (setQBlock_Q (setQBlock_Q (setQBlock_Q h _ _ _) _ _ _) _ _ _)
    _ _ _) _ _ _ _

/-- **C82 for the pose-pressure filter** with absolute or relative pose measurements. -/
theorem C82_relative_pose_pressure_filter (a b g c : ℝ) (n : AuxNoise ℝ) (fixedBias : Bool) :
    RelTranslationInvariant poseWorld (noiseOf a b g c (posePressureQAux n)) (scaleCalc fixedBias) := by
  refine C82_relative (poseWorld_vars _) _ ?_ _ (fun d x _ _ => scaleSanity_moved rfl d x)
  intro s s' dt i h
  exact setQBlock_Q (setQBlock_Q (setQBlock_Q (setQBlock_Q (setQBlock_Q h _ _ _) _ _ _) _ _ _)
    _ _ _) _ _ _ _

/-- **C82 for the position-pose filter** with absolute or relative pose measurements. -/
theorem C82_relative_position_pose_filter (a b g c : ℝ) (n : AuxNoise ℝ) (fixedBias : Bool) :
    RelTranslationInvariant poseWorld (noiseOf a b g c (positionPoseQAux n)) (scaleCalc fixedBias) := by
  refine C82_relative (poseWorld_vars _) _ ?_ _ (fun d x _ _ => scaleSanity_moved rfl d x)
  intro s s' dt i h
  exact setQBlock_Q (setQBlock_Q (setQBlock_Q (setQBlock_Q (setQBlock_Q h _ _ _) _ _ _) _ _ _)
    _ _ _) _ _ _ _

/-- Calls that meet the hypothesis: two relative poses and a position between them. -/
example (s : St (V3 ℝ) (V3 ℝ) (Option (Values (coreDef positionPoseAux)))
    (Option (ErrMat ℝ (coreDef positionPoseAux)) × Option (ErrMat ℝ (coreDef positionPoseAux))))
    (u : Input (V3 ℝ) (V3 ℝ)) (z z' : PoseMeas ℝ) :
    ∀ o ∈ ([.init 1 s, .imu 2 u, .imu 3 u, .imu 4 u, .meas ⟨2, 1, .pose ⟨5, 8, 9, 6, 7⟩ 0 true 6 z, true⟩,
      .meas ⟨3, 0, .position 10 0 false 0 1 1, false⟩,
      .meas ⟨4, 1, .pose ⟨5, 8, 9, 6, 7⟩ 0 true 6 z', true⟩] : List (Api (V3 ℝ) (V3 ℝ)
        (Option (Values (coreDef positionPoseAux)))
        (Option (ErrMat ℝ (coreDef positionPoseAux)) × Option (ErrMat ℝ (coreDef positionPoseAux)))
        RelReading ExtState)), o.FitsRel poseWorld := by
  simp [Api.FitsRel, Reading.Fits, poseWorld]

end MSF
