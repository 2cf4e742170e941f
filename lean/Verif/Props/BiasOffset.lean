import Verif.Lemmas.BiasShift
import Verif.Props.Translation
import Verif.Props.Heading

/-!
# C128: a constant offset of the IMU is a bias

The statement is about two complete runs of a filter.  In the second run a constant is added to every
acceleration and another one to every angular velocity, and the biases of the initial states are larger by the
same constants.
-/

namespace MSF

open Matrix EKFState Core

section
variable {aux D : List VarDesc} {C : Type}

/-- The state with `c` added to the bias of the accelerometer (variable 4) and `d` to that of the gyroscope
(variable 3). -/
def addBias (c d : V3 ℝ) (x : Values D) : Values D :=
  fun i => if i.val = 3 then shiftVec d _ (x i) else if i.val = 4 then shiftVec c _ (x i) else x i

/-- The reading of an IMU with additional offsets. -/
def addOffset (c d : V3 ℝ) (u : Input (V3 ℝ) (V3 ℝ)) : Input (V3 ℝ) (V3 ℝ) := ⟨u.a + c, u.w + d⟩

/-- The same call with an IMU that has additional offsets. -/
def Api.addOffset (c d : V3 ℝ) :
    Api (V3 ℝ) (V3 ℝ) (Option (Values D)) C Reading ExtState →
      Api (V3 ℝ) (V3 ℝ) (Option (Values D)) C Reading ExtState
  | .init t s => .init t ⟨MSF.addOffset c d s.u, s.x.map (addBias c d), s.P⟩
  | .imu t u => .imu t (MSF.addOffset c d u)
  | .ext t u e => .ext t (MSF.addOffset c d u) e
  | .meas m => .meas m

/-- The same publication with larger biases. -/
def Event.addBias (c d : V3 ℝ) :
    Event (Option (Values D)) C → Event (Option (Values D)) C
  | .initial t x P => .initial t (x.map (MSF.addBias c d)) P
  | .afterPropagation t x P => .afterPropagation t (x.map (MSF.addBias c d)) P
  | .afterUpdate t x P => .afterUpdate t (x.map (MSF.addBias c d)) P

/-- The acceleration is at most 50 m/s², with and without the offset. -/
def Api.Moderate (c : V3 ℝ) :
    Api (V3 ℝ) (V3 ℝ) (Option (Values D)) C Reading ExtState → Prop
  | .imu _ u => sqNorm3 u.a ≤ 50 ^ 2 ∧ sqNorm3 (u.a + c) ≤ 50 ^ 2
  | .ext _ u _ => sqNorm3 u.a ≤ 50 ^ 2 ∧ sqNorm3 (u.a + c) ≤ 50 ^ 2
  | _ => True

/-- The variables of the sensor are not the biases of the IMU. -/
def Reading.NoBias : Reading → Prop
  | .position pip _ _ _ _ _ => pip ≠ 3 ∧ pip ≠ 4
  | .pose ix _ _ _ _ => (ix.L ≠ 3 ∧ ix.L ≠ 4) ∧ (ix.pic ≠ 3 ∧ ix.pic ≠ 4) ∧ ix.pwv ≠ 3 ∧ ix.pwv ≠ 4
  | .pressure bp _ _ _ _ => bp ≠ 3 ∧ bp ≠ 4
  | .angle pip _ _ _ _ _ => pip ≠ 3 ∧ pip ≠ 4
  | .distance pip _ _ _ _ _ => pip ≠ 3 ∧ pip ≠ 4

def Api.NoBias :
    Api (V3 ℝ) (V3 ℝ) (Option (Values D)) C Reading ExtState → Prop
  | .meas m => m.body.NoBias
  | _ => True

/-- For every sequence of calls that all satisfy `H`: the run with offsets publishes the same states with larger
biases, the same covariances and the same times; if one run ends in undefined behaviour, so does the other. -/
def OffsetIsBias (H : V3 ℝ → Api (V3 ℝ) (V3 ℝ) (Option (Values (coreDef aux)))
    (Option (ErrMat ℝ (coreDef aux))) Reading ExtState → Prop)
    (np : NoiseParams ℝ (coreDef aux)) (uc : UserCalc (coreDef aux)) : Prop :=
  ∀ (c d : V3 ℝ) (env : Env) (calls : List (Api (V3 ℝ) (V3 ℝ) (Option (Values (coreDef aux)))
    (Option (ErrMat ℝ (coreDef aux))) Reading ExtState)), (∀ o ∈ calls, o.NoBias ∧ H c o) →
    (Core.apis env (readingKernel np uc) (Core.new (readingKernel np uc))
        (calls.map (Api.addOffset c d))).map Core.out =
      (Core.apis env (readingKernel np uc) (Core.new (readingKernel np uc)) calls).map
        fun k => k.out.map (Event.addBias c d)

end

/-! ### The change as a morphism -/

variable {aux : List VarDesc}

def biasOff (D : List VarDesc) (c d : V3 ℝ) : Values D :=
  fun i => if i.val = 3 then vecOff d _ else if i.val = 4 then vecOff c _ else Val.reset _

theorem moved_biasOff {D : List VarDesc} (c d : V3 ℝ) (x : Values D) :
    moved (biasOff D c d) x = addBias c d x := by
  funext i
  unfold moved biasOff addBias
  by_cases h : i.val = 3
  · simp only [h, if_true, addVal_vecOff]
  · by_cases h' : i.val = 4
    · rw [if_neg h, if_neg h, if_pos h', if_pos h', addVal_vecOff]
    · simp only [h, h', if_false]; exact addVal_reset _ _

theorem biasOff_reset {D : List VarDesc} (c d : V3 ℝ) (i : Fin D.length) (h3 : i.val ≠ 3)
    (h4 : i.val ≠ 4) : biasOff D c d i = Val.reset _ := by
  simp only [biasOff, h3, h4, if_false]

theorem biasOff_core (c d : V3 ℝ) (i : Fin (coreDef aux).length)
    (h : ((coreDef aux).get i).stype = .coreProp ∨ ((coreDef aux).get i).multiplicative = true) :
    biasOff (coreDef aux) c d i = Val.reset _ := by
  refine biasOff_reset c d i (fun h3 => ?_) fun h4 => ?_
  · have : i = ibw := Fin.ext h3
    subst this
    rcases h with h | h
    · cases h
    · exact absurd h (by change ¬ (coreDescs[3].multiplicative = true); decide)
  · have : i = iba := Fin.ext h4
    subst this
    rcases h with h | h
    · cases h
    · exact absurd h (by change ¬ (coreDescs[4].multiplicative = true); decide)

theorem biasOff_only (c d : V3 ℝ) : BiasOnly (biasOff (coreDef aux) c d) where
  pos := rfl
  vel := rfl
  core i h := biasOff_core c d i (.inl h)
  mult i h := biasOff_core c d i (.inr h)

theorem offInput_biasOff (c d : V3 ℝ) : offInput (biasOff (coreDef aux) c d) = addOffset c d := rfl

theorem getVec_unbiased {D : List VarDesc} {c d : V3 ℝ} {i : Nat} (hi : i ≠ 3 ∧ i ≠ 4) (n : Nat)
    (s : Vars ℝ D) : getVec (unmovedVars (biasOff D c d) s) i n = getVec s i n := by
  unfold getVec
  by_cases h : i < D.length
  · rw [dif_pos h, dif_pos h]
    simp only [unmovedVars, biasOff, hi.1, hi.2, if_false]
    exact congrArg (vecOf n _) (subVal_reset _ _)
  · rw [dif_neg h, dif_neg h]

theorem getQuat_unbiased {D : List VarDesc} {b : Values D} (i : Nat) (s : Vars ℝ D) :
    getQuat (unmovedVars b s) i = getQuat s i := by
  unfold getQuat
  by_cases h : i < D.length
  · rw [dif_pos h, dif_pos h]
    exact quatOf_subVal _ _ _
  · rw [dif_neg h, dif_neg h]

theorem p_unbiased (c d : V3 ℝ) (s : Vars ℝ (coreDef aux)) :
    p (unmovedVars (biasOff (coreDef aux) c d) s) = p s := by
  change p s - 0 = _
  exact sub_zero _

theorem q_unbiased (c d : V3 ℝ) (s : Vars ℝ (coreDef aux)) :
    q (unmovedVars (biasOff (coreDef aux) c d) s) = q s := rfl

theorem poseView_unbiased (c d : V3 ℝ) (s : Vars ℝ (coreDef aux)) (ix : PoseIdx)
    (hL : ix.L ≠ 3 ∧ ix.L ≠ 4) (hc : ix.pic ≠ 3 ∧ ix.pic ≠ 4) (hw : ix.pwv ≠ 3 ∧ ix.pwv ≠ 4) :
    poseView ix (unmovedVars (biasOff (coreDef aux) c d) s) = poseView ix s := by
  unfold poseView
  simp only [getVec_unbiased hL, getVec_unbiased hc, getVec_unbiased hw, getQuat_unbiased,
    p_unbiased, q_unbiased]

theorem Reading.meas_unbiased (c d : V3 ℝ) (r : Reading) (hr : r.NoBias) :
    (r.meas : SensorMeas (coreDef aux)).moved (biasOff _ c d) = r.meas := by
  cases r with
  | position pip fixed enable thr z R_ =>
    have hr : pip ≠ 3 ∧ pip ≠ 4 := hr
    simp only [Reading.meas, SensorMeas.moved, AbsMeas.moved, positionH, positionResidual, sensorPos,
      getVec_unbiased hr, q_unbiased, p_unbiased]
    rfl
  | pose ix fixed enable thr z =>
    obtain ⟨hL, hc, hw⟩ := hr
    simp only [Reading.meas, SensorMeas.moved, AbsMeas.moved, poseH, poseView_unbiased c d _ ix hL hc hw]
    rfl
  | pressure bp enable thr z n =>
    have hr : bp ≠ 3 ∧ bp ≠ 4 := hr
    simp only [Reading.meas, SensorMeas.moved, AbsMeas.moved, pressureResidual,
      getVec_unbiased hr, p_unbiased]
    rfl
  | angle pip fixed enable thr z n =>
    have hr : pip ≠ 3 ∧ pip ≠ 4 := hr
    simp only [Reading.meas, SensorMeas.moved, AbsMeas.moved, angleMeas, angleH, angleResidual, sensorPos,
      getVec_unbiased hr, q_unbiased, p_unbiased]
    rfl
  | distance pip fixed enable thr z n =>
    have hr : pip ≠ 3 ∧ pip ≠ 4 := hr
    simp only [Reading.meas, SensorMeas.moved, AbsMeas.moved, distanceMeas, distanceH, distanceResidual,
      sensorPos, getVec_unbiased hr, q_unbiased, p_unbiased]
    rfl

/-- **C128 (partial)** for every filter whose auxiliary process noise does not depend on values and whose
sanity check does not look at the biases, as long as no acceleration counts as a spike in one of the runs.
Missing: spikes, where the claim is false (`C128_spike_violated`). -/
theorem C128_offset_partial (np : NoiseParams ℝ (coreDef aux))
    (hq : ∀ s s' dt i, (∀ j, (s j).Q = (s' j).Q) → (np.qAux s dt i).Q = (np.qAux s' dt i).Q)
    (uc : UserCalc (coreDef aux))
    (hs : ∀ c d x y z, uc.sanity (movedVars (biasOff _ c d) x) (movedVars (biasOff _ c d) y) z =
      movedVars (biasOff _ c d) (uc.sanity x y z)) : OffsetIsBias Api.Moderate np uc := by
  intro c d env calls hfit
  have h1 := fun cs => apis_new_map (readingHom np uc) 0 (Shiftable.zero Set.univ) env cs
    (fun _ _ => trivial)
  have hm : moved (biasOff (coreDef aux) c d) = addBias c d := funext fun x => moved_biasOff c d x
  have hcalm : ∀ o ∈ calls.map ((readingHom np uc).api 0), (biasHom (biasOff_only c d) np
      (fun s dt i => hq _ _ _ _ fun _ => rfl) uc (hs c d)).Calm o := by
    intro o ho
    obtain ⟨o', ho', rfl⟩ := List.mem_map.1 ho
    have hh := (hfit o' ho').2
    have key : ∀ v : V3 ℝ, sqNorm3 v ≤ 50 ^ 2 → (sensorKernel np uc).spike v = false := by
      intro v hv
      change decide (50 * 50 < sqNorm3 v) = false
      rw [decide_eq_false_iff_not]
      linarith
    cases o' with
    | init t s => trivial
    | imu t u => exact ⟨key _ hh.1, key _ hh.2⟩
    | ext t u e => exact ⟨key _ hh.1, key _ hh.2⟩
    | meas m => trivial
  have a2 := (biasHom (biasOff_only c d) np (fun s dt i => hq _ _ _ _ fun _ => rfl) uc
    (hs c d)).map_apis_new env (calls.map ((readingHom np uc).api 0)) hcalm
  rw [Env.shift_zero] at h1
  have ev1 : (readingHom np uc).event 0 = id := by
    funext e
    cases e <;> simp [KHom.event, readingHom]
  have hc : ∀ o ∈ calls, (readingHom np uc).api 0 (o.addOffset c d) =
      (biasHom (biasOff_only c d) np (fun s dt i => hq _ _ _ _ fun _ => rfl) uc (hs c d)).api 0
        ((readingHom np uc).api 0 o) := by
    intro o ho
    cases o with
    | init t s =>
      simp [KHom.api, IHom.api, readingHom, biasHom, Api.addOffset, KHom.st, IHom.st, hm,
        offInput_biasOff]
    | imu t u => simp [KHom.api, IHom.api, biasHom, Api.addOffset, offInput_biasOff]
    | ext t u e =>
      cases e <;> simp [KHom.api, IHom.api, readingHom, biasHom, Api.addOffset, offInput_biasOff]
    | meas m =>
      have : m.body.NoBias := (hfit _ ho).1
      simp [KHom.api, IHom.api, readingHom, biasHom, Api.addOffset, KHom.meas, IHom.meas,
        Reading.meas_unbiased c d m.body this]
  have a1 := h1 (calls.map (Api.addOffset c d))
  have a3 := h1 calls
  rw [ev1] at a1 a3
  simp only [List.map_id] at a1 a3
  have hl : (calls.map (Api.addOffset c d)).map ((readingHom np uc).api 0) =
      (calls.map ((readingHom np uc).api 0)).map ((biasHom (biasOff_only c d) np
        (fun s dt i => hq _ _ _ _ fun _ => rfl) uc (hs c d)).api 0) := by
    rw [List.map_map, List.map_map]
    exact List.map_congr_left hc
  rw [← a1, hl, a2]
  have ev2 : (biasHom (biasOff_only c d) np (fun s dt i => hq _ _ _ _ fun _ => rfl) uc
      (hs c d)).event 0 = Event.addBias c d := by
    funext e
    cases e <;> simp [IHom.event, biasHom, Event.addBias, hm]
  rw [ev2]
  generalize Core.apis env (readingKernel np uc) (Core.new (readingKernel np uc)) calls = u at a3 ⊢
  generalize Core.apis env (sensorKernel np uc) (Core.new (sensorKernel np uc))
    (calls.map ((readingHom np uc).api 0)) = v at a3 ⊢
  cases u with
  | error e => cases v with
    | error e' => exact a3
    | ok c => cases a3
  | ok c => cases v with
    | error e' => cases a3
    | ok c' =>
      have : c'.out = c.out := by simpa [Except.map] using a3
      simp [Except.map, this]

theorem scaleSanity_biased {rest : List VarDesc} (c d : V3 ℝ)
    (x : Vars ℝ (coreDef (⟨.vec 1, 5, .aux, 0⟩ :: rest))) :
    scaleSanity (movedVars (biasOff _ c d) x) = movedVars (biasOff _ c d) (scaleSanity x) := by
  have hi : ∀ s : Vars ℝ (coreDef (⟨.vec 1, 5, .aux, 0⟩ :: rest)),
      movedVars (biasOff _ c d) s ⟨5, by simp [coreDef, coreDescs]⟩ =
      s ⟨5, by simp [coreDef, coreDescs]⟩ := by
    intro s
    have e : biasOff (coreDef (⟨.vec 1, 5, .aux, 0⟩ :: rest)) c d
        ⟨5, by simp [coreDef, coreDescs]⟩ = Val.reset _ := biasOff_reset _ _ _ (by simp) (by simp)
    unfold movedVars
    rw [e]
    exact congrArg (fun v => ({ s ⟨5, by simp [coreDef, coreDescs]⟩ with val := v } :
      StateVar ℝ _)) (addVal_reset _ _)
  unfold scaleSanity
  simp only [hi]
  split
  · funext j
    by_cases hj : j = ⟨5, by simp [coreDef, coreDescs]⟩
    · subst hj
      rw [hi, Function.update_self, Function.update_self]
    · rw [Function.update_of_ne hj]
      simp only [movedVars]
      rw [Function.update_of_ne hj]
  · rfl

/-- **C128 (partial) for the shipped filters**: position, pose, pose with pressure, position with pose, and the
filters with the spherical sensors, which use the position filter's states. -/
theorem C128_shipped_partial (a b g c : ℝ) (n : AuxNoise ℝ) (fixedBias : Bool) :
    OffsetIsBias Api.Moderate (noiseOf a b g c (positionQAux n)) (plainCalc fixedBias) ∧
    OffsetIsBias Api.Moderate (noiseOf a b g c (poseQAux n)) (scaleCalc fixedBias) ∧
    OffsetIsBias Api.Moderate (noiseOf a b g c (posePressureQAux n)) (scaleCalc fixedBias) ∧
    OffsetIsBias Api.Moderate (noiseOf a b g c (positionPoseQAux n)) (scaleCalc fixedBias) := by
  refine ⟨C128_offset_partial _ ?_ _ (fun _ _ _ _ _ => rfl),
    C128_offset_partial _ ?_ _ (fun c d x _ _ => scaleSanity_biased c d x),
    C128_offset_partial _ ?_ _ (fun c d x _ _ => scaleSanity_biased c d x),
    C128_offset_partial _ ?_ _ (fun c d x _ _ => scaleSanity_biased c d x)⟩
  · intro s s' dt i h
    exact setQBlock_Q h _ _ _ _
  all_goals
    intro s s' dt i h
    exact setQBlock_Q (setQBlock_Q (setQBlock_Q (setQBlock_Q (setQBlock_Q h _ _ _) _ _ _) _ _ _)
      _ _ _) _ _ _ _

/-! ### Spikes -/

/-- A spike right after the initialization is replaced by zero: what is published. -/
theorem init_spike_out {A W X C M T E : Type} [AddCommGroup A] [Module ℚ A] [AddCommGroup W] [Module ℚ W]
    (K : Kernel A W X C M T E) (env : Env) (s : St A W X C) (u : Input A W)
    (hs : K.spike u.a = true) (hn : ∀ x, K.numPos x = true) :
    (Core.apis env K (Core.new K) [.init 1 s, .imu (101 / 100) u]).map Core.out =
      .ok [.initial 1 s.x s.P, .afterPropagation (101 / 100) (K.prop (1 / 100) s.u s.x ⟨0, u.w⟩)
        (K.predP (1 / 100) s.P ⟨0, u.w⟩ (K.prop (1 / 100) s.u s.x ⟨0, u.w⟩))] := by
  simp [Core.apis, Core.api, Core.init, Core.new, Core.processIMU, Core.imuPropagate,
      Buf.insert, Buf.clear, Buf.find, insertNode, Buf.deref, Node.iter, invalidTime, hs,
      Core.propagatePOneStep, Buf.iterAtValue, Buf.incr, Buf.upperBound, Buf.toIter, Core.predictCov,
      hn, Buf.modify, Buf.size, pure, bind, Except.pure, Except.bind, Except.map]
  norm_num
  rw [if_neg (by rintro ⟨⟩)]
  simp only [List.find?]
  norm_num

/-- **C128 is violated by spikes.**  A filter at rest gets an acceleration of 40 m/s².  With an offset of 20 m/s²
the reading is 60 m/s², counts as a spike and is replaced, so another velocity is published, in every filter
and on every platform. -/
theorem C128_spike_violated (np : NoiseParams ℝ (coreDef aux)) (uc : UserCalc (coreDef aux)) (env : Env) :
    ∃ (c d : V3 ℝ) (calls : List (Api (V3 ℝ) (V3 ℝ) (Option (Values (coreDef aux)))
      (Option (ErrMat ℝ (coreDef aux))) Reading ExtState)), (∀ o ∈ calls, o.NoBias) ∧
      (Core.apis env (readingKernel np uc) (Core.new (readingKernel np uc))
          (calls.map (Api.addOffset c d))).map Core.out ≠
        (Core.apis env (readingKernel np uc) (Core.new (readingKernel np uc)) calls).map
          fun k => k.out.map (Event.addBias c d) := by
  refine ⟨![20, 0, 0], 0,
    [.init 1 ⟨⟨0, 0⟩, some (restValues _), some 1⟩, .imu (101 / 100) ⟨![40, 0, 0], 0⟩],
    by simp [Api.NoBias], fun h => ?_⟩
  have hT : (((1 / 100 : ℚ) : ℝ)) = 1 / 100 := by norm_num
  have hx : b_a (toVars (addBias ![20, 0, 0] 0 (restValues (coreDef aux)))) = ![20, 0, 0] := by
    change (0 : V3 ℝ) + ![20, 0, 0] = _
    rw [zero_add]
  have hw : b_w (toVars (addBias ![20, 0, 0] 0 (restValues (coreDef aux)))) = 0 := by
    change (0 : V3 ℝ) + 0 = _
    rw [zero_add]
  have hq : q (toVars (addBias ![20, 0, 0] 0 (restValues (coreDef aux)))) = Quat.one := rfl
  have hv : EKFState.v (toVars (addBias ![20, 0, 0] 0 (restValues (coreDef aux)))) = 0 := rfl
  obtain ⟨v1, e1, -, hv1, -, -⟩ := filter_prop_still np uc (1 / 100) ⟨0, 0⟩ ⟨![40, 0, 0], 0⟩
    (restValues _) Quat.normSq_one rfl rfl
  obtain ⟨v2, e2, -, hv2, -, -⟩ := filter_prop_still np uc (1 / 100) ⟨0 + ![20, 0, 0], 0 + 0⟩
    ⟨0, 0 + 0⟩ (addBias ![20, 0, 0] 0 (restValues _)) (by rw [hq]; exact Quat.normSq_one)
    (by rw [hw, add_zero]) (by rw [hw, add_zero])
  have g1 := init_imu_out (readingKernel np uc) env
    ⟨⟨0, 0⟩, some (restValues _), some 1⟩ ⟨![40, 0, 0], 0⟩
    (by simp [readingKernel, sensorKernel, filterKernel, sqNorm3]; norm_num) (fun _ => rfl)
  have g2 := init_spike_out (readingKernel np uc) env
    ⟨⟨0 + ![20, 0, 0], 0 + 0⟩, some (addBias ![20, 0, 0] 0 (restValues _)), some 1⟩
    ⟨![40, 0, 0] + ![20, 0, 0], 0 + 0⟩
    (by simp [readingKernel, sensorKernel, filterKernel, sqNorm3]; norm_num) (fun _ => rfl)
  have e1' : (readingKernel np uc).prop (1 / 100) ⟨0, 0⟩ (some (restValues _)) ⟨![40, 0, 0], 0⟩ =
    some v1 := e1
  have e2' : (readingKernel np uc).prop (1 / 100) ⟨0 + ![20, 0, 0], 0 + 0⟩
    (some (addBias ![20, 0, 0] 0 (restValues _))) ⟨0, 0 + 0⟩ = some v2 := e2
  have h2 := g2.symm.trans h
  generalize Core.apis _ (readingKernel np uc) (Core.new (readingKernel np uc))
    [.init 1 ⟨⟨0, 0⟩, some (restValues _), some 1⟩, .imu (101 / 100) ⟨![40, 0, 0], 0⟩] = o at g1 h2
  cases o with
  | error e => cases g1
  | ok k =>
    have hk : k.out = _ := Except.ok.inj g1
    have h3 := Except.ok.inj h2
    dsimp only at h3
    rw [hk, e1', e2'] at h3
    simp only [List.map_cons, List.map_nil, Event.addBias, Option.map_some, List.cons.injEq,
      Event.afterPropagation.injEq, Option.some.injEq] at h3
    have hvv : EKFState.v (toVars v2) = EKFState.v (toVars v1) := by
      rw [h3.2.1.2.1]; rfl
    rw [hv1, hv2, hx, hq, hv] at hvv
    have := congrFun hvv 0
    rw [hT] at this
    have b0 : b_a (toVars (restValues (coreDef aux))) = 0 := rfl
    have v0 : EKFState.v (toVars (restValues (coreDef aux))) = 0 := rfl
    have q0 : q (toVars (restValues (coreDef aux))) = Quat.one := rfl
    rw [b0, v0, q0, one_toRot] at this
    simp [gravity] at this
    norm_num at this

/-- Calls that meet the hypothesis of `C128_offset_partial` with an offset: initialization, readings and a
position. -/
example (s : St (V3 ℝ) (V3 ℝ) (Option (Values (coreDef positionAux)))
    (Option (ErrMat ℝ (coreDef positionAux)))) :
    ∀ o ∈ ([.init 1 s, .imu (101 / 100) ⟨![0, 0, 10], 0⟩, .imu (102 / 100) ⟨![0, 0, 12], ![1, 0, 0]⟩,
      .meas ⟨102 / 100, 0, .position 5 0 true 6 1 1⟩, .meas ⟨102 / 100, 1, .distance 5 0 false 0 1 1⟩] :
        List (Api (V3 ℝ) (V3 ℝ) (Option (Values (coreDef positionAux)))
          (Option (ErrMat ℝ (coreDef positionAux))) Reading ExtState)),
      o.NoBias ∧ o.Moderate ![1, 2, 3] := by
  simp [Api.NoBias, Reading.NoBias, Api.Moderate, sqNorm3]
  norm_num

end MSF
