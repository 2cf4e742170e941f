import Verif.Lemmas.InputSpikes
import Verif.Props.BiasOffset

/-!
# C128 with spikes

An offset of the IMU is the same as a bias also in runs with spikes, if both runs agree on which readings are
spikes and each spike comes after a good reading that came right after an initialization.
-/

namespace MSF

open Matrix EKFState Core

variable {aux D : List VarDesc} {C : Type}

/-- More than 50 m/s². -/
def SpikeValue (a : V3 ℝ) : Prop := 50 ^ 2 < sqNorm3 a

/-- The offset `c` does not change which readings are spikes.  Before each spike there is an initialization, at a
time other than -1, that is directly followed by a reading that is not a spike. -/
structure SpikesFit {M : Type} (c : V3 ℝ)
    (calls : List (Api (V3 ℝ) (V3 ℝ) (Option (Values D)) C M ExtState)) : Prop where
  imu_agree : ∀ t u, .imu t u ∈ calls → (SpikeValue u.a ↔ SpikeValue (u.a + c))
  ext_agree : ∀ t u e, .ext t u e ∈ calls → (SpikeValue u.a ↔ SpikeValue (u.a + c))
  imu : ∀ pre t u post, calls = pre ++ .imu t u :: post → SpikeValue u.a →
    ∃ p t0 s t1 u1 q, pre = p ++ .init t0 s :: .imu t1 u1 :: q ∧ t0 ≠ -1 ∧ ¬ SpikeValue u1.a
  ext : ∀ pre t u e post, calls = pre ++ .ext t u e :: post → SpikeValue u.a →
    ∃ p t0 s t1 u1 e1 q, pre = p ++ .init t0 s :: .ext t1 u1 e1 :: q ∧ t0 ≠ -1 ∧ ¬ SpikeValue u1.a

theorem spike_value (np : NoiseParams ℝ (coreDef aux)) (uc : UserCalc (coreDef aux)) (a : V3 ℝ) :
    (sensorKernel np uc).spike a = true ↔ SpikeValue a := by
  change decide (50 * 50 < sqNorm3 a) = true ↔ _
  rw [decide_eq_true_iff, SpikeValue]
  norm_num

theorem spike_value_false (np : NoiseParams ℝ (coreDef aux)) (uc : UserCalc (coreDef aux)) (a : V3 ℝ) :
    (sensorKernel np uc).spike a = false ↔ ¬ SpikeValue a := by
  rw [← spike_value np uc, Bool.not_eq_true]

/-- What `SpikesFit` says about the calls of the kernel. -/
theorem tame_of_fit (c d : V3 ℝ) (np : NoiseParams ℝ (coreDef aux)) {uc : UserCalc (coreDef aux)}
    (hq : ∀ s dt i, (np.qAux (movedVars (biasOff _ c d) s) dt i).Q = (np.qAux s dt i).Q)
    (hs : ∀ x y z, uc.sanity (movedVars (biasOff _ c d) x) (movedVars (biasOff _ c d) y) z =
      movedVars (biasOff _ c d) (uc.sanity x y z))
    (calls : List (Api (V3 ℝ) (V3 ℝ) (Option (Values (coreDef aux))) (Option (ErrMat ℝ (coreDef aux)))
      Reading ExtState)) (h : SpikesFit c calls) :
    (biasHom (biasOff_only c d) np hq uc hs).Tame (calls.map ((readingHom np uc).api 0)) where
  agree o ho := by
    obtain ⟨o', ho', rfl⟩ := List.mem_map.1 ho
    have key : ∀ u : Input (V3 ℝ) (V3 ℝ), (SpikeValue u.a ↔ SpikeValue (u.a + c)) →
        (sensorKernel np uc).spike (u.a + c) = (sensorKernel np uc).spike u.a := by
      intro u hu
      rw [Bool.eq_iff_iff, spike_value, spike_value]
      exact hu.symm
    cases o' with
    | init t s => trivial
    | imu t u => exact key u (h.imu_agree t u ho')
    | ext t u e => exact key u (h.ext_agree t u e ho')
    | meas m => trivial
  imu pre t u post e hsp := by
    obtain ⟨pre', post', rfl, rfl, e2⟩ := List.map_eq_append_iff.1 e
    obtain ⟨o, post'', rfl, ho, rfl⟩ := List.map_eq_cons_iff.1 e2
    cases o with
    | imu t' u' =>
      obtain ⟨-, rfl⟩ : t' + 0 = t ∧ u' = u := by simpa [KHom.api] using ho
      obtain ⟨p, t0, s, t1, u1, q, rfl, h0, h1⟩ := h.imu pre' t' u' post'' rfl ((spike_value np uc _).1 hsp)
      exact ⟨p.map _, t0 + 0, _, t1 + 0, u1, q.map _, by rw [List.map_append]; rfl, by
        rw [add_zero]; exact h0, (spike_value_false np uc _).2 h1⟩
    | _ => cases ho
  ext pre t u x post e hsp := by
    obtain ⟨pre', post', rfl, rfl, e2⟩ := List.map_eq_append_iff.1 e
    obtain ⟨o, post'', rfl, ho, rfl⟩ := List.map_eq_cons_iff.1 e2
    cases o with
    | ext t' u' x' =>
      have hu : u' = u := by
        have ho' : Api.ext (t' + 0) u' _ = Api.ext t u x := ho
        injection ho'
      subst hu
      obtain ⟨p, t0, s, t1, u1, e1, q, rfl, h0, h1⟩ := h.ext pre' t' u' x' post'' rfl
        ((spike_value np uc _).1 hsp)
      exact ⟨p.map _, t0 + 0, _, t1 + 0, u1, _, q.map _, by rw [List.map_append]; rfl, by
        rw [add_zero]; exact h0, (spike_value_false np uc _).2 h1⟩
    | _ => cases ho

/-- As `OffsetIsBias`, for runs whose spikes fit. -/
def OffsetIsBiasSpikes (np : NoiseParams ℝ (coreDef aux)) (uc : UserCalc (coreDef aux)) : Prop :=
  ∀ (c d : V3 ℝ) (env : Env) (calls : List (Api (V3 ℝ) (V3 ℝ) (Option (Values (coreDef aux)))
    (Option (ErrMat ℝ (coreDef aux))) Reading ExtState)), (∀ o ∈ calls, o.NoBias) → SpikesFit c calls →
    (Core.apis env (readingKernel np uc) (Core.new (readingKernel np uc))
        (calls.map (Api.addOffset c d))).map Core.out =
      (Core.apis env (readingKernel np uc) (Core.new (readingKernel np uc)) calls).map
        fun k => k.out.map (Event.addBias c d)

/-- **C128 (partial), with spikes.**  Missing: readings that are a spike in one of the runs only
(`C128_spike_violated`) and spikes before the first good reading (`C128_first_spike_violated`). -/
theorem C128_spikes_partial (np : NoiseParams ℝ (coreDef aux))
    (hq : ∀ s s' dt i, (∀ j, (s j).Q = (s' j).Q) → (np.qAux s dt i).Q = (np.qAux s' dt i).Q)
    (uc : UserCalc (coreDef aux))
    (hs : ∀ c d x y z, uc.sanity (movedVars (biasOff _ c d) x) (movedVars (biasOff _ c d) y) z =
      movedVars (biasOff _ c d) (uc.sanity x y z)) : OffsetIsBiasSpikes np uc := by
  intro c d env calls hfit hsp
  have h1 := fun cs => apis_new_map (readingHom np uc) 0 (Shiftable.zero Set.univ) env cs
    (fun _ _ => trivial)
  have hm : moved (biasOff (coreDef aux) c d) = addBias c d := funext fun x => moved_biasOff c d x
  have htame := tame_of_fit (uc := uc) c d np (fun s dt i => hq _ _ _ _ fun _ => rfl) (hs c d) calls hsp
  have a2 := (biasHom (biasOff_only c d) np (fun s dt i => hq _ _ _ _ fun _ => rfl) uc
    (hs c d)).map_out_tame (F := fun a => a + c) (fun _ => rfl) (fun _ _ => rfl) env
    (calls.map ((readingHom np uc).api 0)) htame
  rw [Env.shift_zero] at h1
  have ev1 : (readingHom np uc).event 0 = id := by
    funext e
    cases e <;> simp [KHom.event, readingHom]
  have hc : ∀ o ∈ calls, (readingHom np uc).api 0 (o.addOffset c d) =
      (biasHom (biasOff_only c d) np (fun s dt i => hq _ _ _ _ fun _ => rfl) uc (hs c d)).api 0
        ((readingHom np uc).api 0 o) := by
    intro o ho
    cases o with
    | init t s =>
      simp [KHom.api, IHom.api, readingHom, biasHom, Api.addOffset, KHom.st, IHom.st, hm,
        offInput_biasOff]
    | imu t u => simp [KHom.api, IHom.api, biasHom, Api.addOffset, offInput_biasOff]
    | ext t u e =>
      cases e <;> simp [KHom.api, IHom.api, readingHom, biasHom, Api.addOffset, offInput_biasOff]
    | meas m =>
      have : m.body.NoBias := hfit _ ho
      simp [KHom.api, IHom.api, readingHom, biasHom, Api.addOffset, KHom.meas, IHom.meas,
        Reading.meas_unbiased c d m.body this]
  have a1 := h1 (calls.map (Api.addOffset c d))
  have a3 := h1 calls
  rw [ev1] at a1 a3
  simp only [List.map_id] at a1 a3
  have hl : (calls.map (Api.addOffset c d)).map ((readingHom np uc).api 0) =
      (calls.map ((readingHom np uc).api 0)).map ((biasHom (biasOff_only c d) np
        (fun s dt i => hq _ _ _ _ fun _ => rfl) uc (hs c d)).api 0) := by
    rw [List.map_map, List.map_map]
    exact List.map_congr_left hc
  rw [← a1, hl, a2]
  have ev2 : (biasHom (biasOff_only c d) np (fun s dt i => hq _ _ _ _ fun _ => rfl) uc
      (hs c d)).event 0 = Event.addBias c d := by
    funext e
    cases e <;> simp [IHom.event, biasHom, Event.addBias, hm]
  rw [ev2]
  generalize Core.apis env (readingKernel np uc) (Core.new (readingKernel np uc)) calls = u at a3 ⊢
  generalize Core.apis env (sensorKernel np uc) (Core.new (sensorKernel np uc))
    (calls.map ((readingHom np uc).api 0)) = v at a3 ⊢
  cases u with
  | error e => cases v with
    | error e' => exact a3
    | ok c => cases a3
  | ok c => cases v with
    | error e' => cases a3
    | ok c' =>
      have : c'.out = c.out := by simpa [Except.map] using a3
      simp [Except.map, this]

/-- **C128 (partial), with spikes, for the shipped filters.** -/
theorem C128_spikes_shipped_partial (a b g c : ℝ) (n : AuxNoise ℝ) (fixedBias : Bool) :
    OffsetIsBiasSpikes (noiseOf a b g c (positionQAux n)) (plainCalc fixedBias) ∧
    OffsetIsBiasSpikes (noiseOf a b g c (poseQAux n)) (scaleCalc fixedBias) ∧
    OffsetIsBiasSpikes (noiseOf a b g c (posePressureQAux n)) (scaleCalc fixedBias) ∧
    OffsetIsBiasSpikes (noiseOf a b g c (positionPoseQAux n)) (scaleCalc fixedBias) := by
  refine ⟨C128_spikes_partial _ ?_ _ (fun _ _ _ _ _ => rfl),
    C128_spikes_partial _ ?_ _ (fun c d x _ _ => scaleSanity_biased c d x),
    C128_spikes_partial _ ?_ _ (fun c d x _ _ => scaleSanity_biased c d x),
    C128_spikes_partial _ ?_ _ (fun c d x _ _ => scaleSanity_biased c d x)⟩
  · intro s s' dt i h
    exact setQBlock_Q h _ _ _ _
  all_goals
    intro s s' dt i h
    exact setQBlock_Q (setQBlock_Q (setQBlock_Q (setQBlock_Q (setQBlock_Q h _ _ _) _ _ _) _ _ _)
      _ _ _) _ _ _ _

/-- **C128 is violated by a spike right after the initialization**, although both runs see it: it is replaced by
zero in both runs, and zero is not corrected for the offset. -/
theorem C128_first_spike_violated (np : NoiseParams ℝ (coreDef aux)) (uc : UserCalc (coreDef aux)) (env : Env) :
    ∃ (c d : V3 ℝ) (calls : List (Api (V3 ℝ) (V3 ℝ) (Option (Values (coreDef aux)))
      (Option (ErrMat ℝ (coreDef aux))) Reading ExtState)), (∀ o ∈ calls, o.NoBias) ∧
      (∀ t u, .imu t u ∈ calls → (SpikeValue u.a ↔ SpikeValue (u.a + c))) ∧
      (Core.apis env (readingKernel np uc) (Core.new (readingKernel np uc))
          (calls.map (Api.addOffset c d))).map Core.out ≠
        (Core.apis env (readingKernel np uc) (Core.new (readingKernel np uc)) calls).map
          fun k => k.out.map (Event.addBias c d) := by
  refine ⟨![20, 0, 0], 0,
    [.init 1 ⟨⟨0, 0⟩, some (restValues _), some 1⟩, .imu (101 / 100) ⟨![60, 0, 0], 0⟩],
    by simp [Api.NoBias], ?_, fun h => ?_⟩
  · intro t u hu
    obtain ⟨-, rfl⟩ : t = 101 / 100 ∧ u = ⟨![60, 0, 0], 0⟩ := by simpa using hu
    simp [SpikeValue, sqNorm3]
    norm_num
  have hT : (((1 / 100 : ℚ) : ℝ)) = 1 / 100 := by norm_num
  have hx : b_a (toVars (addBias ![20, 0, 0] 0 (restValues (coreDef aux)))) = ![20, 0, 0] := by
    change (0 : V3 ℝ) + ![20, 0, 0] = _
    rw [zero_add]
  have hw : b_w (toVars (addBias ![20, 0, 0] 0 (restValues (coreDef aux)))) = 0 := by
    change (0 : V3 ℝ) + 0 = _
    rw [zero_add]
  have hq : q (toVars (addBias ![20, 0, 0] 0 (restValues (coreDef aux)))) = Quat.one := rfl
  have hv : EKFState.v (toVars (addBias ![20, 0, 0] 0 (restValues (coreDef aux)))) = 0 := rfl
  obtain ⟨v1, e1, -, hv1, -, -⟩ := filter_prop_still np uc (1 / 100) ⟨0, 0⟩ ⟨0, 0⟩
    (restValues _) Quat.normSq_one rfl rfl
  obtain ⟨v2, e2, -, hv2, -, -⟩ := filter_prop_still np uc (1 / 100) ⟨0 + ![20, 0, 0], 0 + 0⟩
    ⟨0, 0 + 0⟩ (addBias ![20, 0, 0] 0 (restValues _)) (by rw [hq]; exact Quat.normSq_one)
    (by rw [hw, add_zero]) (by rw [hw, add_zero])
  have g1 := init_spike_out (readingKernel np uc) env
    ⟨⟨0, 0⟩, some (restValues _), some 1⟩ ⟨![60, 0, 0], 0⟩
    (by simp [readingKernel, sensorKernel, filterKernel, sqNorm3]; norm_num) (fun _ => rfl)
  have g2 := init_spike_out (readingKernel np uc) env
    ⟨⟨0 + ![20, 0, 0], 0 + 0⟩, some (addBias ![20, 0, 0] 0 (restValues _)), some 1⟩
    ⟨![60, 0, 0] + ![20, 0, 0], 0 + 0⟩
    (by simp [readingKernel, sensorKernel, filterKernel, sqNorm3]; norm_num) (fun _ => rfl)
  have e1' : (readingKernel np uc).prop (1 / 100) ⟨0, 0⟩ (some (restValues _)) ⟨0, 0⟩ =
    some v1 := e1
  have e2' : (readingKernel np uc).prop (1 / 100) ⟨0 + ![20, 0, 0], 0 + 0⟩
    (some (addBias ![20, 0, 0] 0 (restValues _))) ⟨0, 0 + 0⟩ = some v2 := e2
  have h2 := g2.symm.trans h
  generalize Core.apis _ (readingKernel np uc) (Core.new (readingKernel np uc))
    [.init 1 ⟨⟨0, 0⟩, some (restValues _), some 1⟩, .imu (101 / 100) ⟨![60, 0, 0], 0⟩] = o at g1 h2
  cases o with
  | error e => cases g1
  | ok k =>
    have hk : k.out = _ := Except.ok.inj g1
    have h3 := Except.ok.inj h2
    dsimp only at h3
    rw [hk, e1', e2'] at h3
    simp only [List.map_cons, List.map_nil, Event.addBias, Option.map_some, List.cons.injEq,
      Event.afterPropagation.injEq, Option.some.injEq] at h3
    have hvv : EKFState.v (toVars v2) = EKFState.v (toVars v1) := by
      rw [h3.2.1.2.1]; rfl
    rw [hv1, hv2, hx, hq, hv] at hvv
    have := congrFun hvv 0
    rw [hT] at this
    have b0 : b_a (toVars (restValues (coreDef aux))) = 0 := rfl
    have v0 : EKFState.v (toVars (restValues (coreDef aux))) = 0 := rfl
    have q0 : q (toVars (restValues (coreDef aux))) = Quat.one := rfl
    rw [b0, v0, q0, one_toRot] at this
    simp [gravity] at this

/-- Calls with a spike that meet the hypothesis, with an offset: initialization, a good reading, a spike and a
position. -/
example (s : St (V3 ℝ) (V3 ℝ) (Option (Values (coreDef positionAux)))
    (Option (ErrMat ℝ (coreDef positionAux)))) :
    SpikesFit ![1, 2, 3] ([.init 1 s, .imu (101 / 100) ⟨![0, 0, 10], 0⟩, .imu (102 / 100) ⟨![0, 0, 100], 0⟩,
      .meas ⟨102 / 100, 0, .position 5 0 true 6 1 1⟩] :
        List (Api (V3 ℝ) (V3 ℝ) (Option (Values (coreDef positionAux)))
          (Option (ErrMat ℝ (coreDef positionAux))) Reading ExtState)) where
  imu_agree t u hu := by
    rcases (by simpa using hu : (t = 101 / 100 ∧ u = ⟨![0, 0, 10], 0⟩) ∨
      (t = 102 / 100 ∧ u = ⟨![0, 0, 100], 0⟩)) with ⟨-, rfl⟩ | ⟨-, rfl⟩ <;> simp [SpikeValue, sqNorm3] <;>
      norm_num
  ext_agree t u e hu := by simp at hu
  imu pre t u post e hu := by
    match pre, e with
    | [], e => simp at e
    | [_], e =>
      simp only [List.cons_append, List.nil_append, List.cons.injEq, Api.imu.injEq] at e
      obtain ⟨-, ⟨-, rfl⟩, -⟩ := e
      simp [SpikeValue, sqNorm3] at hu
      norm_num at hu
    | a :: b :: q, e =>
      simp only [List.cons_append, List.cons.injEq] at e
      obtain ⟨rfl, rfl, -⟩ := e
      exact ⟨[], _, _, _, _, q, rfl, by norm_num, by simp [SpikeValue, sqNorm3]; norm_num⟩
  ext pre t u x post e hu := by
    have : (.ext t u x : Api (V3 ℝ) (V3 ℝ) (Option (Values (coreDef positionAux)))
      (Option (ErrMat ℝ (coreDef positionAux))) Reading ExtState) ∈ pre ++ .ext t u x :: post := by simp
    rw [← e] at this
    simp at this

end MSF
