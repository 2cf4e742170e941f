import Verif.Lemmas.FlowSpikes
import Verif.Props.BiasSpikes
import Verif.Props.BiasOffsetRel

/-!
# C128 with spikes and relative measurements
-/

namespace MSF

open Matrix EKFState Core

variable {aux : List VarDesc}

/-- As `RelOffsetIsBias`, for runs whose spikes fit. -/
def RelOffsetIsBiasSpikes (np : NoiseParams ℝ (coreDef aux)) (uc : UserCalc (coreDef aux)) : Prop :=
  ∀ (c d : V3 ℝ) (env : Env) (calls : List (Api (V3 ℝ) (V3 ℝ) (Option (Values (coreDef aux)))
    (Option (ErrMat ℝ (coreDef aux)) × Option (ErrMat ℝ (coreDef aux))) RelReading ExtState)),
    (∀ o ∈ calls, o.NoBiasRel) → SpikesFit c calls →
    ((relKernel np uc).run env (calls.map (Api.addOffsetRel c d))).map Core.out =
      ((relKernel np uc).run env calls).map fun k => k.out.map (Event.addBias c d)

/-- What `SpikesFit` says about the calls of the kernel. -/
theorem relTame_of_fit (c d : V3 ℝ) (np : NoiseParams ℝ (coreDef aux)) {uc : UserCalc (coreDef aux)}
    (hq : ∀ s dt i, (np.qAux (movedVars (biasOff _ c d) s) dt i).Q = (np.qAux s dt i).Q)
    (hs : ∀ x y z, uc.sanity (movedVars (biasOff _ c d) x) (movedVars (biasOff _ c d) y) z =
      movedVars (biasOff _ c d) (uc.sanity x y z))
    (os : List (Api (V3 ℝ) (V3 ℝ) {_x : Option (Values (coreDef aux)) // True}
      ({_P : Option (ErrMat ℝ (coreDef aux)) // True} × {_G : Option (ErrMat ℝ (coreDef aux)) // True})
      {m : RelReading // m.reading.NoBias} {_e : ExtState // True}))
    (h : SpikesFit c (os.map ((relKernel_onlyMeas np uc fun m => m.reading.NoBias).hom.pair.api 0))) :
    (relBiasHom c d np hq uc hs).pair.Tame os where
  agree o ho := by
    have key : ∀ u : Input (V3 ℝ) (V3 ℝ), (SpikeValue u.a ↔ SpikeValue (u.a + c)) →
        (sensorKernel np uc).spike (u.a + c) = (sensorKernel np uc).spike u.a := by
      intro u hu
      rw [Bool.eq_iff_iff, spike_value, spike_value]
      exact hu.symm
    have ho' := List.mem_map_of_mem
      (f := (relKernel_onlyMeas np uc fun m => m.reading.NoBias).hom.pair.api 0) ho
    cases o with
    | init t s => trivial
    | imu t u => exact key u (h.imu_agree _ u ho')
    | ext t u e => exact key u (h.ext_agree _ u _ ho')
    | meas m => trivial
  imu pre t u post e hsp := by
    subst e
    obtain ⟨p, t0, s, t1, u1, q, e, h0, h1⟩ := h.imu _ _ u _ (List.map_append ..)
      ((spike_value np uc _).1 hsp)
    obtain ⟨p', q', rfl, rfl, e2⟩ := List.map_eq_append_iff.1 e
    obtain ⟨o1, q1, rfl, ho1, e3⟩ := List.map_eq_cons_iff.1 e2
    obtain ⟨o2, q2, rfl, ho2, rfl⟩ := List.map_eq_cons_iff.1 e3
    cases o1 with
    | init t' s' =>
      cases o2 with
      | imu t'' u'' =>
        have e0 : t' + 0 = t0 := by
          have : Api.init (t' + 0) _ = Api.init t0 s := ho1
          injection this
        have e1 : u'' = u1 := by
          have : Api.imu (t'' + 0) u'' = Api.imu t1 u1 := ho2
          injection this
        rw [add_zero] at e0
        subst e0 e1
        exact ⟨p', t', s', t'', u'', q2, rfl, h0, (spike_value_false np uc _).2 h1⟩
      | _ => cases ho2
    | _ => cases ho1
  ext pre t u x post e hsp := by
    subst e
    obtain ⟨p, t0, s, t1, u1, x1, q, e, h0, h1⟩ := h.ext _ _ u _ _ (List.map_append ..)
      ((spike_value np uc _).1 hsp)
    obtain ⟨p', q', rfl, rfl, e2⟩ := List.map_eq_append_iff.1 e
    obtain ⟨o1, q1, rfl, ho1, e3⟩ := List.map_eq_cons_iff.1 e2
    obtain ⟨o2, q2, rfl, ho2, rfl⟩ := List.map_eq_cons_iff.1 e3
    cases o1 with
    | init t' s' =>
      cases o2 with
      | ext t'' u'' x'' =>
        have e0 : t' + 0 = t0 := by
          have : Api.init (t' + 0) _ = Api.init t0 s := ho1
          injection this
        have e1 : u'' = u1 := by
          have : Api.ext (t'' + 0) u'' _ = Api.ext t1 u1 x1 := ho2
          injection this
        rw [add_zero] at e0
        subst e0 e1
        exact ⟨p', t', s', t'', u'', x'', q2, rfl, h0, (spike_value_false np uc _).2 h1⟩
      | _ => cases ho2
    | _ => cases ho1

/-- **C128 (partial), with spikes and relative measurements.**  Missing as in `C128_spikes_partial`. -/
theorem C128_relative_spikes_partial (np : NoiseParams ℝ (coreDef aux))
    (hq : ∀ s s' dt i, (∀ j, (s j).Q = (s' j).Q) → (np.qAux s dt i).Q = (np.qAux s' dt i).Q)
    (uc : UserCalc (coreDef aux))
    (hs : ∀ c d x y z, uc.sanity (movedVars (biasOff _ c d) x) (movedVars (biasOff _ c d) y) z =
      movedVars (biasOff _ c d) (uc.sanity x y z)) : RelOffsetIsBiasSpikes np uc := by
  intro c d env calls hfit hsp
  have I := relKernel_onlyMeas np uc fun m => m.reading.NoBias
  obtain ⟨os, rfl⟩ := I.lift_apis calls (fun o ho => by
    cases o with
    | init => exact ⟨trivial, trivial, trivial⟩
    | imu => trivial
    | ext => exact fun _ _ => trivial
    | meas m => exact hfit _ ho)
  have k1 := I.hom.run env os (fun o _ => by cases o <;> trivial)
  have k2 := (relBiasHom c d np (fun s dt i => hq _ _ _ _ fun _ => rfl) uc (hs c d)).run_tame (Fa := fun a => a + c) (fun _ => rfl) (fun _ _ => rfl) env os
    (fun o _ => by cases o <;> trivial) (relTame_of_fit c d np _ (hs c d) os hsp)
  have hm : moved (biasOff (coreDef aux) c d) = addBias c d := funext fun x => moved_biasOff c d x
  have el : (os.map (I.hom.pair.api 0)).map (Api.addOffsetRel c d) = os.map
      ((relBiasHom c d np (fun s dt i => hq _ _ _ _ fun _ => rfl) uc (hs c d)).pair.api 0) := by
    rw [List.map_map]
    refine List.map_congr_left fun o _ => ?_
    cases o with
    | init t s =>
      change Api.init _ ⟨_, Option.map (addBias c d) s.x.1, _⟩ =
        Api.init _ ⟨_, Option.map (moved (biasOff (coreDef aux) c d)) s.x.1, _⟩
      rw [hm]
      rfl
    | imu t u => rfl
    | ext t u e => cases e <;> rfl
    | meas m => rfl
  rw [el, k1, k2]
  cases I.restrict.run env os with
  | error e => rfl
  | ok k =>
    change Except.ok _ = Except.ok _
    congr 1
    change k.out.map _ = (k.out.map _).map _
    rw [List.map_map]
    refine List.map_congr_left fun e _ => ?_
    cases e with
    | initial t x P =>
      change Event.initial _ (Option.map (moved (biasOff (coreDef aux) c d)) x.1) _ =
        Event.initial _ (Option.map (addBias c d) x.1) _
      rw [hm]
      rfl
    | afterPropagation t x P =>
      change Event.afterPropagation _ (Option.map (moved (biasOff (coreDef aux) c d)) x.1) _ =
        Event.afterPropagation _ (Option.map (addBias c d) x.1) _
      rw [hm]
      rfl
    | afterUpdate t x P =>
      change Event.afterUpdate _ (Option.map (moved (biasOff (coreDef aux) c d)) x.1) _ =
        Event.afterUpdate _ (Option.map (addBias c d) x.1) _
      rw [hm]
      rfl

/-- **C128 (partial), with spikes**, for the shipped filters with pose sensors, absolute or relative. -/
theorem C128_relative_spikes_shipped_partial (a b g c : ℝ) (n : AuxNoise ℝ) (fixedBias : Bool) :
    RelOffsetIsBiasSpikes (noiseOf a b g c (poseQAux n)) (scaleCalc fixedBias) ∧
    RelOffsetIsBiasSpikes (noiseOf a b g c (posePressureQAux n)) (scaleCalc fixedBias) ∧
    RelOffsetIsBiasSpikes (noiseOf a b g c (positionPoseQAux n)) (scaleCalc fixedBias) := by
  refine ⟨C128_relative_spikes_partial _ ?_ _ (fun c d x _ _ => scaleSanity_biased c d x),
    C128_relative_spikes_partial _ ?_ _ (fun c d x _ _ => scaleSanity_biased c d x),
    C128_relative_spikes_partial _ ?_ _ (fun c d x _ _ => scaleSanity_biased c d x)⟩
  all_goals
    intro s s' dt i h
    exact setQBlock_Q (setQBlock_Q (setQBlock_Q (setQBlock_Q (setQBlock_Q h _ _ _) _ _ _) _ _ _)
      _ _ _) _ _ _ _

/-- Calls with a spike that meet the hypothesis, with an offset: initialization, a good reading, a spike and
two relative poses. -/
example (s : St (V3 ℝ) (V3 ℝ) (Option (Values (coreDef positionPoseAux)))
    (Option (ErrMat ℝ (coreDef positionPoseAux)) × Option (ErrMat ℝ (coreDef positionPoseAux)))) (z z' : PoseMeas ℝ) :
    SpikesFit ![1, 2, 3] ([.init 1 s, .imu (101 / 100) ⟨![0, 0, 10], 0⟩, .imu (102 / 100) ⟨![0, 0, 100], 0⟩,
      .meas ⟨101 / 100, 1, .pose ⟨5, 8, 9, 6, 7⟩ 0 true 6 z, true⟩,
      .meas ⟨102 / 100, 1, .pose ⟨5, 8, 9, 6, 7⟩ 0 true 6 z', true⟩] :
        List (Api (V3 ℝ) (V3 ℝ) (Option (Values (coreDef positionPoseAux)))
          (Option (ErrMat ℝ (coreDef positionPoseAux)) × Option (ErrMat ℝ (coreDef positionPoseAux))) RelReading ExtState)) where
  imu_agree t u hu := by
    rcases (by simpa using hu : (t = 101 / 100 ∧ u = ⟨![0, 0, 10], 0⟩) ∨
      (t = 102 / 100 ∧ u = ⟨![0, 0, 100], 0⟩)) with ⟨-, rfl⟩ | ⟨-, rfl⟩ <;> simp [SpikeValue, sqNorm3] <;>
      norm_num
  ext_agree t u e hu := by simp at hu
  imu pre t u post e hu := by
    match pre, e with
    | [], e => simp at e
    | [_], e =>
      simp only [List.cons_append, List.nil_append, List.cons.injEq, Api.imu.injEq] at e
      obtain ⟨-, ⟨-, rfl⟩, -⟩ := e
      simp [SpikeValue, sqNorm3] at hu
      norm_num at hu
    | a :: b :: q, e =>
      simp only [List.cons_append, List.cons.injEq] at e
      obtain ⟨rfl, rfl, -⟩ := e
      exact ⟨[], _, _, _, _, q, rfl, by norm_num, by simp [SpikeValue, sqNorm3]; norm_num⟩
  ext pre t u x post e hu := by
    have : (.ext t u x : Api (V3 ℝ) (V3 ℝ) (Option (Values (coreDef positionPoseAux)))
      (Option (ErrMat ℝ (coreDef positionPoseAux)) × Option (ErrMat ℝ (coreDef positionPoseAux))) RelReading ExtState) ∈ pre ++ .ext t u x :: post := by simp
    rw [← e] at this
    simp at this

end MSF
