import Verif.Lemmas.Yaw2
import Verif.Props.Translation

/-!
# C105: which way the world frame points does not matter

The statement is about two complete runs of a filter.  In the second run the world frame is rotated
about the vertical axis: initial states with their covariances, externally propagated states and
positions are rotated, IMU readings and heights stay.
-/

namespace MSF

open Matrix EKFState Core

variable {aux : List VarDesc}

/-- Initial states and externally propagated states with unit quaternions, symmetric covariances, and
readings of position and pressure sensors. -/
def Api.Upright : Api (V3 ℝ) (V3 ℝ) (Option (Values (coreDef aux))) (Option (ErrMat ℝ (coreDef aux)))
    Reading ExtState → Prop
  | .init _ s => (∀ v, s.x = some v → UnitQuats (toVars v)) ∧ ∀ P, s.P = some P → Pᵀ = P
  | .imu _ _ => True
  | .ext _ _ e => ∀ a, e = some a → a.q.normSq = 1
  | .meas m => m.body.Turns aux

/-- For every rotation about the vertical axis and every sequence of calls, the run in the rotated
frame publishes the rotated states and covariances at the same times; if one run ends in undefined
behaviour, so does the other. -/
def HeadingInvariant (np : NoiseParams ℝ (coreDef aux)) (uc : UserCalc (coreDef aux)) : Prop :=
  ∀ g : Quat ℝ, IsYaw g → ∀ (env : Env) (calls : List (Api (V3 ℝ) (V3 ℝ)
    (Option (Values (coreDef aux))) (Option (ErrMat ℝ (coreDef aux))) Reading ExtState)),
    (∀ o ∈ calls, o.Upright) →
    (Core.apis env (readingKernel np uc) (Core.new (readingKernel np uc))
        (calls.map (Api.turn g))).map Core.out =
      (Core.apis env (readingKernel np uc) (Core.new (readingKernel np uc)) calls).map
        fun c => c.out.map (Event.turn g)

/-- **C105, partial**: the heading of the world frame is arbitrary for every filter with position and
pressure sensors whose process noise comes from the accelerometer, its bias and the auxiliary states.
Missing: gyro noise, distances and angles, where the claim is false (`C105_gyro_noise_violated`,
`C105_distance_violated`, `C105_angle_violated`).  Single pose updates are treated in `C105_pose_partial` and
`C105_pose_violated`. -/
theorem C105_heading_partial (ho : Ordered aux) (hd : NoDrift aux) (hp : PlainQuats (coreDef aux))
    (ha : ∀ d ∈ aux, d.isAux) (np : NoiseParams ℝ (coreDef aux)) (hg : np.gyr = 0 ∧ np.gyrBias = 0)
    (hs : ∀ s dt i, ((coreDef aux).get i).isAux → (np.qAux s dt i).Qᵀ = (np.qAux s dt i).Q)
    (hq : ∀ s s' dt i, (∀ j, (s j).Q = (s' j).Q) → (np.qAux s dt i).Q = (np.qAux s' dt i).Q)
    (fixedBias : Bool) : HeadingInvariant np (plainCalc fixedBias) := by
  intro g hy env calls hc
  have hK := turn_inv ho np fixedBias hp ha hg hs
  obtain ⟨os', rfl⟩ := hK.lift_apis calls (fun o hoo => by
    have := hc o hoo
    cases o with
    | init t s => exact this
    | imu t u => trivial
    | ext t u e => exact this
    | meas m => exact this)
  have h1 := apis_new_map hK.hom 0 (Shiftable.zero Set.univ) env os' (fun _ _ => trivial)
  have h2 := apis_new_map (turnHom ho np fixedBias hd hp ha hg hs hq hy) 0 (Shiftable.zero Set.univ)
    env os' (fun _ _ => trivial)
  rw [Env.shift_zero] at h1 h2
  have hl : (os'.map (hK.hom.api 0)).map (Api.turn g) =
      os'.map ((turnHom ho np fixedBias hd hp ha hg hs hq hy).api 0) := by
    rw [List.map_map]
    refine List.map_congr_left fun o _ => ?_
    cases o with
    | init t s => simp [KHom.api, KernelInv.hom, turnHom, Api.turn, KHom.st]
    | imu t u => simp [KHom.api, Api.turn]
    | ext t u e => cases e <;> simp [KHom.api, KernelInv.hom, turnHom, Api.turn]
    | meas m => simp [KHom.api, KernelInv.hom, turnHom, Api.turn, KHom.meas]
  have hev : ∀ e, Event.turn g (hK.hom.event 0 e) =
      (turnHom ho np fixedBias hd hp ha hg hs hq hy).event 0 e := by
    intro e
    cases e <;> simp [KHom.event, KernelInv.hom, turnHom, Event.turn]
  rw [hl, h2]
  generalize Core.apis env hK.restrict (Core.new hK.restrict) os' = u at h1 ⊢
  generalize Core.apis env (readingKernel np (plainCalc fixedBias))
    (Core.new (readingKernel np (plainCalc fixedBias))) (os'.map (hK.hom.api 0)) = v at h1 ⊢
  cases u with
  | error e => cases v with
    | error e' => exact h1.symm
    | ok c => cases h1
  | ok c => cases v with
    | error e' => cases h1
    | ok c' =>
      have : c'.out = c.out.map (hK.hom.event 0) := by simpa [Except.map] using h1
      simp only [Except.map, this, List.map_map]
      congr 1
      refine List.map_congr_left fun e _ => ?_
      exact (hev e).symm

/-- **C105 for the shipped position filter** without gyro noise: any accelerometer noise, any random
walk of the accelerometer bias and of the offset of the sensor. -/
theorem C105_position_filter_partial (a b : ℝ) (n : AuxNoise ℝ) (fixedBias : Bool) :
    HeadingInvariant (noiseOf a b 0 0 (positionQAux n)) (plainCalc fixedBias) := by
  refine C105_heading_partial positionDef_ok.1 (by unfold NoDrift; decide) positionDef_ok.2.quats
    (by decide) _ ⟨rfl, rfl⟩ (fun s dt i hi => ?_) (fun s s' dt i h => setQBlock_Q h _ _ _ _) fixedBias
  have h5 : i = ⟨5, by decide⟩ := by
    by_contra hne
    have : ∀ i : Fin (coreDef positionAux).length, ((coreDef positionAux).get i).isAux →
        i = ⟨5, by decide⟩ := by decide
    exact hne (this i hi)
  subst h5
  change (setQBlock s ⟨5, by decide⟩ dt n.p_ip ⟨5, by decide⟩).Qᵀ = _
  unfold setQBlock
  rw [Function.update_self]
  exact diagonal_transpose _

/-- A quarter turn and a turn with rational entries. -/
example : IsYaw ⟨3 / 5, 0, 0, 4 / 5⟩ := by
  refine ⟨by norm_num [Quat.normSq], ?_⟩
  funext i
  fin_cases i <;> simp [Quat.toRot, mulVec, dotProduct, Fin.sum_univ_three]

/-- Calls that meet the hypotheses: initialisation with a unit covariance, IMU readings, an external
state and positions with a fixed and a free offset. -/
example (u : Input (V3 ℝ) (V3 ℝ)) (z : V3 ℝ) :
    ∀ o ∈ ([.init 1 ⟨u, some (restValues _), some 1⟩, .imu 2 u, .ext 3 u (some ⟨z, z, Quat.one⟩),
      .meas ⟨3, 0, .position 5 0 false 0 z 1⟩, .meas ⟨3, 1, .position 5 32 true 6 z 1⟩] :
        List (Api (V3 ℝ) (V3 ℝ) (Option (Values (coreDef positionAux)))
        (Option (ErrMat ℝ (coreDef positionAux))) Reading ExtState)), o.Upright := by
  have h5 : (5 : Nat) < (coreDef positionAux).length := by decide
  simp only [List.mem_cons, List.not_mem_nil, or_false]
  rintro o (rfl | rfl | rfl | rfl | rfl)
  · refine ⟨fun v hv => ?_, fun P hP => ?_⟩
    · rw [← Option.some.inj hv]; exact restValues_unit _
    · rw [← Option.some.inj hP]; exact transpose_one
  · trivial
  · intro a ha
    rw [← Option.some.inj ha]; exact Quat.normSq_one
  · exact ⟨le_refl 5, ⟨h5, rfl⟩, transpose_one⟩
  · exact ⟨le_refl 5, ⟨h5, rfl⟩, transpose_one⟩

/-- What is published after initialisation and one IMU reading, any kernel. -/
theorem init_imu_out {A W X C M T E : Type} [AddCommGroup A] [Module ℚ A] [AddCommGroup W] [Module ℚ W]
    (K : Kernel A W X C M T E) (env : Env) (s : St A W X C) (u : Input A W)
    (hs : K.spike u.a = false) (hn : ∀ x, K.numPos x = true) :
    (Core.apis env K (Core.new K) [.init 1 s, .imu (101 / 100) u]).map Core.out =
      .ok [.initial 1 s.x s.P, .afterPropagation (101 / 100) (K.prop (1 / 100) s.u s.x u)
        (K.predP (1 / 100) s.P u (K.prop (1 / 100) s.u s.x u))] := by
  simp [Core.apis, Core.api, Core.init, Core.new, Core.processIMU, Core.imuPropagate,
      Buf.insert, Buf.clear, Buf.find, insertNode, Buf.deref, Node.iter, invalidTime, hs,
      Core.propagatePOneStep, Buf.iterAtValue, Buf.incr, Buf.upperBound, Buf.toIter, Core.predictCov,
      hn, Buf.modify, Buf.size, pure, bind, Except.pure, Except.bind, Except.map]
  norm_num
  rw [if_neg (by rintro ⟨⟩)]
  simp only [List.find?]
  norm_num

/-- The covariance published with the first IMU reading of a filter at rest with gyro noise. -/
theorem hover_cov (uc : UserCalc (coreDef [])) (v0 : Values (coreDef []))
    (hq0 : (q (toVars v0)).normSq = 1) (hw0 : b_w (toVars v0) = 0) (ha0 : b_a (toVars v0) = 0) :
    ∃ Qd : ErrMat ℝ (coreDef []),
      (readingKernel (plainNoise 0 0 (1 / 50) 0) uc).predP (1 / 100) (some 0) ⟨![0, 0, 10], 0⟩
        ((readingKernel (plainNoise 0 0 (1 / 50) 0) uc).prop (1 / 100) ⟨![0, 0, 10], 0⟩ (some v0)
          ⟨![0, 0, 10], 0⟩) = some Qd ∧
      ∀ b b', coreBlock Qd b b' = CalcQ.qBlock (CalcQ.mkIn (1 / 100) (q (toVars v0)) 0
        ![0, 0, 10] (fun _ => 0) (fun _ => 0) (fun _ => 1 / 50) (fun _ => 0)) b b' := by
  have hT : (((1 / 100 : ℚ) : ℝ)) = 1 / 100 := by norm_num
  set np := plainNoise 0 0 (1 / 50) 0 with hnp
  set u : Input (V3 ℝ) (V3 ℝ) := ⟨![0, 0, 10], 0⟩ with hu
  obtain ⟨v1, hv1, hq, -, -, hr⟩ := filter_prop_still np uc (1 / 100) u u v0 hq0 hw0.symm hw0.symm
  have hv1' : (readingKernel np uc).prop (1 / 100) u (some v0) u = some v1 := hv1
  obtain ⟨Qd, e, -⟩ := predict_apply (indexingErrors_eq_zero.2 ordered_core) np
    (mkState (noInit _) ⟨0, 0⟩ 0 0) (mkState (toVars v1) u ((1 / 100 : ℚ) : ℝ) 0) 0
    (by rw [hT]; norm_num [mkState])
  have hb := fun b b' => core_noise ordered_core np _ _ 0 (Live.fresh _ rfl rfl)
    (by change (0 : ℝ) < ((1 / 100 : ℚ) : ℝ); rw [hT]; norm_num) e b b'
  have hbw : b_w (toVars v1) = 0 := (hr ⟨3, by decide⟩ (by decide)).trans hw0
  have hba : b_a (toVars v1) = 0 := (hr ⟨4, by decide⟩ (by decide)).trans ha0
  refine ⟨Qd, ?_, fun b b' => ?_⟩
  · rw [hv1']
    change (predictProcessCovariance np (mkState (noInit _) ⟨0, 0⟩ 0 0)
        (mkState (toVars v1) u (((1 / 100 : ℚ)) : ℝ) 0) 0).bind (fun r => some r.2.1.P) = _
    rw [e]
    simp [mkState]
  · refine (hb b b').trans ?_
    change CalcQ.qBlock (CalcQ.mkIn (((1 / 100 : ℚ) : ℝ) - 0) (q (toVars v1)) (0 - b_w (toVars v1))
      (![0, 0, 10] - b_a (toVars v1)) (fun _ => 0) (fun _ => 0) (fun _ => 1 / 50)
      (fun _ => 0)) b b' = _
    rw [hbw, hba, hq, hT, sub_zero, sub_zero, sub_zero]

/-- **C105 is violated with gyro noise.**  A filter at rest, initialised with a zero covariance: the
covariance that is published with the first IMU reading depends on the heading. -/
theorem C105_gyro_noise_violated (uc : UserCalc (coreDef [])) :
    ¬ HeadingInvariant (plainNoise 0 0 (1 / 50) 0) uc := by
  intro h
  let env : Env := ⟨.gnu fun _ _ => false, .gnu fun _ _ => false⟩
  have hy : IsYaw ⟨3 / 5, 0, 0, 4 / 5⟩ := by
    refine ⟨by norm_num [Quat.normSq], ?_⟩
    funext i
    fin_cases i <;> simp [Quat.toRot, mulVec, dotProduct, Fin.sum_univ_three]
  set g : Quat ℝ := ⟨3 / 5, 0, 0, 4 / 5⟩ with hgdef
  have h := h g hy env [.init 1 ⟨⟨![0, 0, 10], 0⟩, some (restValues _), some 0⟩,
    .imu (101 / 100) ⟨![0, 0, 10], 0⟩] (by
      simp only [List.mem_cons, List.not_mem_nil, or_false]
      rintro o (rfl | rfl)
      · refine ⟨fun v hv => ?_, fun P hP => ?_⟩
        · rw [← Option.some.inj hv]; exact restValues_unit _
        · rw [← Option.some.inj hP]; exact transpose_zero
      · trivial)
  have hsp : (readingKernel (plainNoise 0 0 (1 / 50) 0) uc).spike ![0, 0, 10] = false := by
    simp [readingKernel, sensorKernel, filterKernel, sqNorm3]; norm_num
  have o1 := init_imu_out (readingKernel (plainNoise 0 0 (1 / 50) 0) uc) env
    ⟨⟨![0, 0, 10], 0⟩, some (restValues _), some 0⟩ ⟨![0, 0, 10], 0⟩ hsp (fun _ => rfl)
  have o2 := init_imu_out (readingKernel (plainNoise 0 0 (1 / 50) 0) uc) env
    ⟨⟨![0, 0, 10], 0⟩, some (rotVals g (restValues _)), some 0⟩ ⟨![0, 0, 10], 0⟩ hsp (fun _ => rfl)
  obtain ⟨Q1, e1, b1⟩ := hover_cov uc (restValues _) Quat.normSq_one rfl rfl
  obtain ⟨Q2, e2, b2⟩ := hover_cov uc (rotVals g (restValues _))
    (by rw [toVars_rotVals, q_rotVars, Quat.normSq_mul, hy.unit, one_mul]; exact Quat.normSq_one)
    (by rw [toVars_rotVals, bw_rotVars]; rfl) (by rw [toVars_rotVals, ba_rotVars]; rfl)
  have hm : List.map (Api.turn g) [.init 1 ⟨⟨![0, 0, 10], 0⟩, some (restValues (coreDef [])), some 0⟩,
      .imu (101 / 100) ⟨![0, 0, 10], 0⟩] = [.init 1 ⟨⟨![0, 0, 10], 0⟩, some (rotVals g (restValues _)),
        some 0⟩, .imu (101 / 100) ⟨![0, 0, 10], 0⟩] := by
    simp [Api.turn, rotCov_zero]
  rw [hm, o2] at h
  have hcomp : ∀ w : Except UB (ReadingCore []), w.map (fun c => c.out.map (Event.turn g)) =
      (w.map Core.out).map (List.map (Event.turn g)) := by
    intro w
    cases w <;> rfl
  rw [hcomp, o1, e1, e2] at h
  simp only [Except.map, List.map_cons, List.map_nil, Event.turn, Except.ok.injEq, List.cons.injEq,
    Event.afterPropagation.injEq, Option.map_some, Option.some.injEq, and_true, true_and] at h
  have hQ : Q2 = rotCov g.toRot Q1 := h.2.2
  have hb := rotCov_core g.toRot Q1 0 2
  rw [← hQ, b1, b2, toVars_rotVals, q_rotVars] at hb
  have hq : g.mul (q (toVars (restValues (coreDef [])))) = g := by
    change g.mul Quat.one = g
    simp [Quat.mul, Quat.one]
  rw [hq, CalcQ.qBlock_0_2, CalcQ.qBlock_0_2] at hb
  have h1 : q (toVars (restValues (coreDef []))) = Quat.one := rfl
  rw [h1, if_pos (Or.inr rfl), if_neg (by decide), Matrix.mul_one] at hb
  have := congrFun (congrFun hb 0) 2
  simp only [mul_apply, Fin.sum_univ_three, of_apply, cons_val] at this
  revert this
  unfold_tmp
  simp [Quat.one, hgdef, Quat.toRot]
  try norm_num

end MSF
