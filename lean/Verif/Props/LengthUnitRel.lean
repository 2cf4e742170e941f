import Verif.Lemmas.LengthUnitRel
import Verif.Props.LengthUnit
import Verif.Props.TranslationRel

/-!
# C121 for runs with relative measurements

The unit of length of the camera map does not matter either if pose sensors are used as relative
sensors.
-/

namespace MSF

open Matrix EKFState Core

variable {rest : List VarDesc}

/-- The reading of a sensor in the other unit; a relative sensor stays relative. -/
def RelReading.unit (k : ℝ) (m : RelReading) : RelReading := ⟨m.reading.unit k, m.relative⟩

/-- The same call in the other unit. -/
noncomputable def Api.unitRel (k : ℝ) :
    Api (V3 ℝ) (V3 ℝ) (Option (Values (coreDef (scaleVar :: rest))))
        (Option (ErrMat ℝ (coreDef (scaleVar :: rest))) × Option (ErrMat ℝ (coreDef (scaleVar :: rest))))
        RelReading ExtState →
      Api (V3 ℝ) (V3 ℝ) (Option (Values (coreDef (scaleVar :: rest))))
        (Option (ErrMat ℝ (coreDef (scaleVar :: rest))) × Option (ErrMat ℝ (coreDef (scaleVar :: rest))))
        RelReading ExtState
  | .init t s => .init t ⟨s.u, s.x.map (unitVals k), (s.P.1.map (unitCov k), s.P.2.map (unitTrans k))⟩
  | .imu t u => .imu t u
  | .ext t u e => .ext t u e
  | .meas m => .meas { m with body := m.body.unit k }

/-- The same publication in the other unit: state, covariance, and the transition that the state holds. -/
noncomputable def Event.unitRel (k : ℝ) :
    Event (Option (Values (coreDef (scaleVar :: rest))))
        (Option (ErrMat ℝ (coreDef (scaleVar :: rest))) × Option (ErrMat ℝ (coreDef (scaleVar :: rest)))) →
      Event (Option (Values (coreDef (scaleVar :: rest))))
        (Option (ErrMat ℝ (coreDef (scaleVar :: rest))) × Option (ErrMat ℝ (coreDef (scaleVar :: rest))))
  | .initial t x P => .initial t (x.map (unitVals k)) (P.1.map (unitCov k), P.2.map (unitTrans k))
  | .afterPropagation t x P =>
    .afterPropagation t (x.map (unitVals k)) (P.1.map (unitCov k), P.2.map (unitTrans k))
  | .afterUpdate t x P => .afterUpdate t (x.map (unitVals k)) (P.1.map (unitCov k), P.2.map (unitTrans k))

/-- As `UnitInvariant`, for runs whose sensors may be relative. -/
def RelUnitInvariant (k : ℝ) (np np' : NoiseParams ℝ (coreDef (scaleVar :: rest)))
    (uc uc' : UserCalc (coreDef (scaleVar :: rest))) (Im : Reading → Prop) : Prop :=
  ∀ (env : Env) (calls : List (Api (V3 ℝ) (V3 ℝ) (Option (Values (coreDef (scaleVar :: rest))))
      (Option (ErrMat ℝ (coreDef (scaleVar :: rest))) × Option (ErrMat ℝ (coreDef (scaleVar :: rest))))
      RelReading ExtState)),
    (∀ o ∈ calls, o.Reads fun m => Im m.reading) →
    ((relKernel np' uc').run env (calls.map (Api.unitRel k))).map Core.out =
      ((relKernel np uc).run env calls).map fun c => c.out.map (Event.unitRel k)

theorem Reading.unit_isPose (k : ℝ) (r : Reading) : (r.unit k).isPose = r.isPose := by
  cases r <;> rfl

theorem RelReading.unit_ignored (k : ℝ) (m : RelReading) : (m.unit k).ignored = m.ignored := by
  obtain ⟨r, b⟩ := m
  cases r <;> rfl

theorem clearP_unit (ho : Ordered (scaleVar :: rest)) (k : ℝ) (m : Reading)
    (P : Option (ErrMat ℝ (coreDef (scaleVar :: rest)))) :
    (m.unit k).clearP (P.map (unitCov k)) = (m.clearP P).map (unitCov k) := by
  have e1 : (Reading.meas (aux := scaleVar :: rest) (m.unit k)).fixed =
      (Reading.meas (aux := scaleVar :: rest) m).fixed := by cases m <;> rfl
  have e2 : (Reading.meas (aux := scaleVar :: rest) (m.unit k)).cleared =
      (Reading.meas (aux := scaleVar :: rest) m).cleared := by cases m <;> rfl
  unfold Reading.clearP
  rw [e1, e2]
  cases P with
  | none => rfl
  | some P => exact clearFixed_unit ho k _ _ P

theorem relReadingUpdate_unit (ho : Ordered (scaleVar :: rest))
    (hp : PlainQuats (coreDef (scaleVar :: rest))) {k : ℝ} (hk : 0 < k) (ρ : ℝ) (fb : Bool)
    (tr : Tracker ℝ) (m1 m2 : RelReading) (h2 : m2.reading.InUnits)
    (xo x : Option (Values (coreDef (scaleVar :: rest))))
    (Po F P : Option (ErrMat ℝ (coreDef (scaleVar :: rest)))) :
    relReadingUpdate (scaleCalcWith (k * ρ) fb) tr (m1.unit k) (m2.unit k) (xo.map (unitVals k))
        (Po.map (unitCov k)) (F.map (unitTrans k)) (x.map (unitVals k)) (P.map (unitCov k)) =
      (fun r : Upd _ _ _ => ⟨r.tr, r.x.map (unitVals k), r.P.map (unitCov k), r.applied, r.fuzzy⟩)
        (relReadingUpdate (scaleCalcWith ρ fb) tr m1 m2 xo Po F x P) := by
  obtain ⟨r1, b1⟩ := m1
  obtain ⟨r2, b2⟩ := m2
  cases r1 with
  | pose ix1 f1 e1 t1 z1 =>
    cases r2 with
    | pose ix f e t z =>
      obtain ⟨hL, hf⟩ : ix.L = 5 ∧ f.testBit ix.pwv = true := h2
      unfold relReadingUpdate
      simp only [RelReading.unit, Reading.unit, Option.bind_eq_bind]
      cases xo with
      | none => rfl
      | some xo =>
      cases Po with
      | none => rfl
      | some Po =>
      cases F with
      | none => rfl
      | some F =>
      cases x with
      | none => rfl
      | some x =>
      cases P with
      | none => rfl
      | some P =>
        simp only [Option.map_some, Option.bind_some, relPoseUpdate_unit ho hp hk ρ fb tr ix hL f hf]
        cases relPoseUpdate (scaleCalcWith ρ fb) tr ix f z1 z xo Po F x P <;> rfl
    | _ => rfl
  | _ => rfl

/-- The change of unit as a morphism of kernels with relative measurements. -/
noncomputable def relUnitHom (ho : Ordered (scaleVar :: rest))
    (hp : PlainQuats (coreDef (scaleVar :: rest)))
    {np np' : NoiseParams ℝ (coreDef (scaleVar :: rest))} {k : ℝ} (hn : UnitNoise k np np')
    (hk : 0 < k) (ρ : ℝ) (fb : Bool) :
    RHom (fun _ => True)
      (relKernel_onlyMeas np (scaleCalcWith ρ fb) fun m => m.reading.InUnits).restrict
      (relKernel np' (scaleCalcWith (k * ρ) fb)) :=
  let S := unitHom ho hp hn hk ρ fb
  { x := fun s => s.1.map (unitVals k)
    c := fun P => P.1.map (unitCov k)
    m := fun _ b => b.1.unit k
    t := id
    e := fun e => e.1
    f := id
    f_false := rfl
    f_or := fun _ _ => rfl
    prop := fun dt u s u' => S.prop dt u s u'
    extProp := fun e s => S.extProp e s
    predP := fun dt P u s => S.predP dt P u s
    update := fun i tr b s P => by
      change (if (b.1.unit k).ignored then (⟨tr, s.1.map (unitVals k), P.1.map (unitCov k), false, false⟩ :
        Upd _ _ _) else (readingKernel np' (scaleCalcWith (k * ρ) fb)).update tr (b.1.reading.unit k)
          (s.1.map (unitVals k)) (P.1.map (unitCov k))) = (fun r : Upd _ _ _ => ⟨r.tr, r.x.map (unitVals k),
            r.P.map (unitCov k), r.applied, r.fuzzy⟩) (if b.1.ignored then (⟨tr, s.1, P.1, false, false⟩ :
              Upd _ _ _) else (readingKernel np (scaleCalcWith ρ fb)).update tr b.1.reading s.1 P.1)
      rw [RelReading.unit_ignored]
      split
      · rfl
      · exact S.update i tr ⟨b.1.reading, b.2⟩ s P
    P0 := S.P0
    tr0 := rfl
    spike := fun _ => rfl
    numX := fun s => S.numX s
    numPos := fun s => S.numPos s
    g := fun F => F.1.map (unitTrans k)
    fd := fun dt u s => by
      obtain ⟨s, -⟩ := s
      cases s with
      | none => rfl
      | some x =>
        have e := fd_unit ho hk np np' (dt : ℝ) u (toVars x)
        rw [← toVars_unitVals] at e
        have e3 : ∀ o : Option (EKFState ℝ (coreDef (scaleVar :: rest)) ×
            EKFState ℝ (coreDef (scaleVar :: rest)) × ℝ),
            (o.bind fun r => some r.1.Fd) = o.map fun r => r.1.Fd := fun o => by cases o <;> rfl
        refine (e3 _).trans (e.trans ?_)
        refine Eq.trans ?_ (congrArg (Option.map (unitTrans k)) (e3 _)).symm
        rw [Option.map_map]
        rfl
    fd0 := congrArg some (unitTrans_one hk).symm
    mulF := fun a b => by
      obtain ⟨a, -⟩ := a
      obtain ⟨b, -⟩ := b
      cases a with
      | none => rfl
      | some a =>
        cases b with
        | none => rfl
        | some b => exact congrArg some (unitTrans_mul hk a b)
    isRel := fun _ b => by
      change ((b.1.relative && (b.1.reading.unit k).isPose) : Bool) =
        (b.1.relative && b.1.reading.isPose)
      rw [Reading.unit_isPose]
    cast := fun _ b => Reading.unit_isPose k _
    clear := fun i b P hr => by
      have e := (relKernel_onlyMeas np (scaleCalcWith ρ fb) fun m => m.reading.InUnits).hom.clear i b P hr
      refine (clearP_unit ho k b.1.reading P.1).trans ?_
      exact congrArg (Option.map (unitCov k)) e
    relUpdate := fun m1 m2 q1 q2 hs12 hr hca tr xo Po G s P => by
      have e := (relKernel_onlyMeas np (scaleCalcWith ρ fb) fun m => m.reading.InUnits).hom.relUpdate
        m1 m2 q1 q2 hs12 hr hca tr xo Po G s P
      have e2 := relReadingUpdate_unit ho hp hk ρ fb tr m1.body.1 m2.body.1 m2.body.2 xo.1 s.1
        ((relKernel_onlyMeas np (scaleCalcWith ρ fb) fun m => m.reading.InUnits).restrict.clear
          m2.body Po).1 G.1
        ((relKernel_onlyMeas np (scaleCalcWith ρ fb) fun m => m.reading.InUnits).restrict.clear m2.body P).1
      refine e2.trans ?_
      exact congrArg (fun r : Upd _ _ _ => (⟨r.tr, r.x.map (unitVals k), r.P.map (unitCov k), r.applied,
        r.fuzzy⟩ : Upd _ _ _)) e }

/-- **C121 for runs with relative measurements**, as far as it holds: for every filter with a scale,
every environment and every sequence of calls whose poses, absolute or relative, come with a fixed
origin of the camera frame.

The full statement would allow an estimated origin of the camera frame and the constant 0.1 of
`SanityCheckCorrection` in both units, as in `C121_unit_partial`. -/
theorem C121_relative_partial (ho : Ordered (scaleVar :: rest))
    (hp : PlainQuats (coreDef (scaleVar :: rest))) {k : ℝ} (hk : 0 < k)
    {np np' : NoiseParams ℝ (coreDef (scaleVar :: rest))} (hn : UnitNoise k np np') (ρ : ℝ)
    (fixedBias : Bool) :
    RelUnitInvariant k np np' (scaleCalcWith ρ fixedBias) (scaleCalcWith (k * ρ) fixedBias)
      Reading.InUnits := by
  intro env calls hc
  have I := relKernel_onlyMeas np (scaleCalcWith ρ fixedBias) fun m => m.reading.InUnits
  obtain ⟨os, rfl⟩ := I.lift_apis calls (fun o ho => by
    cases o with
    | init => exact ⟨trivial, trivial, trivial⟩
    | imu => trivial
    | ext => exact fun _ _ => trivial
    | meas m => exact hc _ ho)
  have k1 := I.hom.run env os (fun o _ => by cases o <;> trivial)
  have k2 := (relUnitHom ho hp hn hk ρ fixedBias).run env os (fun o _ => by cases o <;> trivial)
  have el : (os.map (I.hom.pair.api 0)).map (Api.unitRel k) =
      os.map ((relUnitHom ho hp hn hk ρ fixedBias).pair.api 0) := by
    rw [List.map_map]
    refine List.map_congr_left fun o _ => ?_
    cases o with
    | init t s => rfl
    | imu t u => rfl
    | ext t u e => cases e <;> rfl
    | meas m => rfl
  rw [el, k1, k2]
  cases I.restrict.run env os with
  | error e => rfl
  | ok c =>
    change Except.ok _ = Except.ok _
    congr 1
    change c.out.map _ = (c.out.map _).map _
    rw [List.map_map]
    refine List.map_congr_left fun e _ => ?_
    cases e <;> rfl

/-- **C121 with relative measurements for the three shipped filters with a scale.** -/
theorem C121_relative_filters_partial (a b g c : ℝ) (n : AuxNoise ℝ) {k : ℝ} (hk : 0 < k) (ρ : ℝ)
    (fixedBias : Bool) :
    RelUnitInvariant k (noiseOf a b g c (poseQAux n))
        (noiseOf a b g c (poseQAux { n with scale := k * n.scale })) (scaleCalcWith ρ fixedBias)
        (scaleCalcWith (k * ρ) fixedBias) Reading.InUnits ∧
      RelUnitInvariant k (noiseOf a b g c (posePressureQAux n))
        (noiseOf a b g c (posePressureQAux { n with scale := k * n.scale })) (scaleCalcWith ρ fixedBias)
        (scaleCalcWith (k * ρ) fixedBias) Reading.InUnits ∧
      RelUnitInvariant k (noiseOf a b g c (positionPoseQAux n))
        (noiseOf a b g c (positionPoseQAux { n with scale := k * n.scale })) (scaleCalcWith ρ fixedBias)
        (scaleCalcWith (k * ρ) fixedBias) Reading.InUnits :=
  ⟨C121_relative_partial poseDef_ok.1 poseDef_ok.2 hk (poseNoise_unit a b g c n k) ρ fixedBias,
    C121_relative_partial posePressureDef_ok.1 posePressureDef_ok.2.quats hk
      (posePressureNoise_unit a b g c n k) ρ fixedBias,
    C121_relative_partial (show Ordered positionPoseAux by unfold Ordered; decide)
      (by unfold PlainQuats; decide) hk (positionPoseNoise_unit a b g c n k) ρ fixedBias⟩

/-- Calls that meet the hypothesis: two relative poses at a known origin of the camera frame, and a
position between them. -/
example (s : St (V3 ℝ) (V3 ℝ) (Option (Values (coreDef positionPoseAux)))
    (Option (ErrMat ℝ (coreDef positionPoseAux)) × Option (ErrMat ℝ (coreDef positionPoseAux))))
    (u : Input (V3 ℝ) (V3 ℝ)) (z z' : PoseMeas ℝ) :
    ∀ o ∈ ([.init 1 s, .imu 2 u, .imu 3 u, .imu 4 u, .meas ⟨2, 1, .pose ⟨5, 8, 9, 6, 7⟩ 128 true 6 z, true⟩,
      .meas ⟨3, 0, .position 10 0 false 0 1 1, false⟩,
      .meas ⟨4, 1, .pose ⟨5, 8, 9, 6, 7⟩ 128 true 6 z', true⟩] : List (Api (V3 ℝ) (V3 ℝ)
        (Option (Values (coreDef positionPoseAux)))
        (Option (ErrMat ℝ (coreDef positionPoseAux)) × Option (ErrMat ℝ (coreDef positionPoseAux)))
        RelReading ExtState)), o.Reads fun m => m.reading.InUnits := by
  simp only [List.mem_cons, List.not_mem_nil, or_false]
  rintro o (rfl | rfl | rfl | rfl | rfl | rfl | rfl)
  all_goals first | trivial | exact ⟨rfl, by decide⟩

end MSF
