import Verif.Lemmas.RelRuns
import Verif.Props.Runs
import Verif.Props.Relative
import Verif.Props.Safe

/-!
# C32, C72, C78 and C83 for runs with relative measurements

As in `Verif.Props.Runs`, but each measurement may be absolute or relative.
-/

namespace MSF

open Matrix EKFState Core

variable {aux : List VarDesc}

/-- Calls of a filter with the shipped measurements, absolute or relative.  A state that is handed to
`Init` carries its covariance and its transition `Fd`. -/
abbrev RelApi (aux : List VarDesc) : Type :=
  Api (V3 ℝ) (V3 ℝ) (Option (Values (coreDef aux)))
    (Option (ErrMat ℝ (coreDef aux)) × Option (ErrMat ℝ (coreDef aux))) RelReading ExtState

/-- The core of such a filter. -/
abbrev RelCore (aux : List VarDesc) : Type :=
  Core (V3 ℝ) (V3 ℝ) (Option (Values (coreDef aux)))
    (Option (ErrMat ℝ (coreDef aux)) × Option (ErrMat ℝ (coreDef aux))) RelReading (Tracker ℝ)

/-- A state in the buffer or published so far. -/
def Core.RelShown (c : RelCore aux) (v : Values (coreDef aux)) : Prop :=
  (∃ n ∈ c.states.nodes, n.val.x = some v) ∨ ∃ e ∈ c.out, e.mean = some v

theorem relShown_of_inv {np : NoiseParams ℝ (coreDef aux)} {uc : UserCalc (coreDef aux)}
    {J : Values (coreDef aux) → Prop} {Jc Jg : ErrMat ℝ (coreDef aux) → Prop} {Im : RelReading → Prop}
    {Ie : ExtState → Prop} (hK : RelInv (relKernel np uc) (Sane J) (Sane Jc) (Sane Jg) Im Ie)
    (env : Env) (os : List (RelApi aux))
    (hi : ∀ t s, Api.init t s ∈ os → (∀ v, s.x = some v → J v) ∧ (∀ P, s.P.1 = some P → Jc P) ∧
      ∀ F, s.P.2 = some F → Jg F)
    (he : ∀ t u e, Api.ext t u (some e) ∈ os → Ie e) (hm : ∀ m, Api.meas m ∈ os → Im m.body)
    (c : RelCore aux) (hc : (relKernel np uc).run env os = .ok c)
    (v : Values (coreDef aux)) (hv : c.RelShown v) : J v := by
  have key := hK.run env os (fun o ho => by
    cases o with
    | init t s => exact hi t s ho
    | imu t u => trivial
    | ext t u e =>
      intro a ha
      subst ha
      exact he t u a ho
    | meas m => exact hm m ho) c hc
  rcases hv with ⟨n, hn, e⟩ | ⟨e, hn, e'⟩
  · exact (key.1 n hn).1 v e
  · exact (key.2 e hn).1 v e'

/-- **C83 with relative measurements.**  If the filter is initialised with unit quaternions and externally
propagated attitudes are unit quaternions, then in every run with absolute and relative measurements every
quaternion of every buffered or published state is a unit quaternion. -/
theorem C83_relative (np : NoiseParams ℝ (coreDef aux)) (uc : UserCalc (coreDef aux))
    (hn : ∀ i (hi : i < (coreDef aux).length), (coreDef aux)[i].name = i)
    (hp : PlainQuats (coreDef aux)) (ha : ∀ d ∈ aux, d.isAux)
    (huc : ∀ a b c, UnitQuats a → UnitQuats (uc.sanity a b c)) (env : Env) (os : List (RelApi aux))
    (hi : ∀ t s, Api.init t s ∈ os → ∀ v, s.x = some v → UnitQuats (toVars v))
    (he : ∀ t u e, Api.ext t u (some e) ∈ os → e.q.normSq = 1) (c : RelCore aux)
    (hc : (relKernel np uc).run env os = .ok c) (v : Values (coreDef aux)) (hv : c.RelShown v) :
    ∀ (i : Fin (coreDef aux).length) (q : Quat ℝ), quatOf _ (v i) = some q → q.normSq = 1 := by
  refine relShown_of_inv (J := fun v => UnitQuats (toVars v)) (Jc := fun _ => True) (Jg := fun _ => True)
    (Im := fun _ => True) (Ie := fun e => e.q.normSq = 1)
    (relKernel_inv np uc _ _ _ _ _ (fun s new s' h e => ?_) (fun x e h1 h2 => ext_unit e h1 h2)
      (fun _ _ _ _ _ _ _ _ => trivial) (fun m tr x P u _ _ h _ e => ⟨?_, trivial⟩) trivial
      (fun _ _ _ _ _ _ => trivial) trivial (fun _ _ _ _ => trivial) (fun _ _ _ _ _ _ _ _ => trivial)
      (fun ix fixed en thr z prev tr xo Po0 Po F x P0 P u _ _ _ _ h _ _ _ e => ⟨?_, trivial⟩))
    env os (fun t s h => ⟨hi t s h, fun _ _ => trivial, fun _ _ => trivial⟩) he (fun _ _ => trivial) c hc v hv
  · exact (propagate_keeps ha h e (le_refl 5)).2
  · obtain ⟨P1, H, r, -, -, -, h1 | ⟨c, P', t', vars, fz, -, hc, rfl⟩⟩ := sensorUpdate_cases e
    · rw [h1.2]; exact h
    · have := applyCorrection_unit hn hp h huc hc
      exact this
  · obtain ⟨Ho, Hn, vo, vn, r, c, P', t', vars, fz, -, -, -, -, -, -, hap, rfl⟩ := relPoseUpdate_cases e
    have := applyCorrection_unit hn hp h huc hap
    exact this

/-- **C32 with relative measurements.**  With the fixed-bias option on, every buffered or published state of
every run has the biases the filter was initialised with. -/
theorem C32_relative (np : NoiseParams ℝ (coreDef aux)) (uc : UserCalc (coreDef aux))
    (hn : ∀ i (hi : i < (coreDef aux).length), (coreDef aux)[i].name = i)
    (hfix : uc.fixedBias = true)
    (hsan : ∀ a b c, EKFState.b_w (uc.sanity a b c) = EKFState.b_w a ∧
      EKFState.b_a (uc.sanity a b c) = EKFState.b_a a) (bw ba : V3 ℝ) (env : Env) (os : List (RelApi aux))
    (hi : ∀ t s, Api.init t s ∈ os → ∀ v, s.x = some v →
      EKFState.b_w (toVars v) = bw ∧ EKFState.b_a (toVars v) = ba) (c : RelCore aux)
    (hc : (relKernel np uc).run env os = .ok c) (v : Values (coreDef aux)) (hv : c.RelShown v) :
    EKFState.b_w (toVars v) = bw ∧ EKFState.b_a (toVars v) = ba := by
  refine relShown_of_inv
    (J := fun v => EKFState.b_w (toVars v) = bw ∧ EKFState.b_a (toVars v) = ba)
    (Jc := fun _ => True) (Jg := fun _ => True) (Im := fun _ => True) (Ie := fun _ => True)
    (relKernel_inv np uc _ _ _ _ _ (fun s new s' h e => ?_) (fun x e _ h => ?_)
      (fun _ _ _ _ _ _ _ _ => trivial) (fun m tr x P u _ _ h _ e => ⟨?_, trivial⟩) trivial
      (fun _ _ _ _ _ _ => trivial) trivial (fun _ _ _ _ => trivial) (fun _ _ _ _ _ _ _ _ => trivial)
      (fun ix fixed en thr z prev tr xo Po0 Po F x P0 P u _ _ _ _ h _ _ _ e => ⟨?_, trivial⟩))
    env os (fun t s h => ⟨hi t s h, fun _ _ => trivial, fun _ _ => trivial⟩) (fun _ _ _ _ => trivial)
    (fun _ _ => trivial) c hc v hv
  · have e3 := C25_nonpropagated_copied _ _ _ e ibw (fun h => by cases h)
    have e4 := C25_nonpropagated_copied _ _ _ e iba (fun h => by cases h)
    exact ⟨(congrArg StateVar.val e3).trans h.1, (congrArg StateVar.val e4).trans h.2⟩
  · have e3 := ext_other x e ibw (by simp [ibw, ip, Fin.ext_iff]) (by simp [ibw, iv, Fin.ext_iff])
      (by simp [ibw, iq, Fin.ext_iff])
    have e4 := ext_other x e iba (by simp [iba, ip, Fin.ext_iff]) (by simp [iba, iv, Fin.ext_iff])
      (by simp [iba, iq, Fin.ext_iff])
    exact ⟨e3.trans h.1, e4.trans h.2⟩
  · obtain ⟨P1, H, r, -, -, -, h1 | ⟨c, P', t', vars, fz, -, hc, rfl⟩⟩ := sensorUpdate_cases e
    · rw [h1.2]; exact h
    · obtain ⟨a1, a2⟩ := C32_biases_fixed uc tr t' _ _ _ _ fz hn hfix hsan hc
      exact ⟨a1.trans h.1, a2.trans h.2⟩
  · obtain ⟨Ho, Hn, vo, vn, r, c, P', t', vars, fz, -, -, -, -, -, -, hap, rfl⟩ := relPoseUpdate_cases e
    obtain ⟨a1, a2⟩ := C32_biases_fixed uc tr t' _ _ _ _ fz hn hfix hsan hap
    exact ⟨a1.trans h.1, a2.trans h.2⟩

/-- **C72 with relative measurements, partial.**  Initialised with a scale that is not negative, no run of a
filter with a visual scale buffers or publishes a negative scale.  Missing: the initialisation with a
negative scale (see `C72_init_violated`). -/
theorem C72_relative_partial {rest : List VarDesc} (fb : Bool)
    (np : NoiseParams ℝ (coreDef (⟨.vec 1, 5, .aux, 0⟩ :: rest))) (env : Env)
    (os : List (RelApi (⟨.vec 1, 5, .aux, 0⟩ :: rest)))
    (hi : ∀ t s, Api.init t s ∈ os → ∀ v, s.x = some v →
      ∃ L, scaleOf (toVars v) = some L ∧ 0 ≤ L) (c : RelCore (⟨.vec 1, 5, .aux, 0⟩ :: rest))
    (hc : (relKernel np (scaleCalc fb)).run env os = .ok c)
    (v : Values (coreDef (⟨.vec 1, 5, .aux, 0⟩ :: rest))) (hv : c.RelShown v) :
    ∃ L, scaleOf (toVars v) = some L ∧ 0 ≤ L := by
  simp only [scaleOf_eq, Option.some.injEq, exists_eq_left'] at hi ⊢
  refine relShown_of_inv
    (J := fun v => 0 ≤ scaleVal (toVars v)) (Jc := fun _ => True) (Jg := fun _ => True)
    (Im := fun _ => True) (Ie := fun _ => True)
    (relKernel_inv np _ _ _ _ _ _ (fun s new s' h e => ?_) (fun x e _ h => ?_)
      (fun _ _ _ _ _ _ _ _ => trivial) (fun m tr x P u _ _ h _ e => ⟨?_, trivial⟩) trivial
      (fun _ _ _ _ _ _ => trivial) trivial (fun _ _ _ _ => trivial) (fun _ _ _ _ _ _ _ _ => trivial)
      (fun ix fixed en thr z prev tr xo Po0 Po F x P0 P u _ _ _ _ h _ _ _ e => ⟨?_, trivial⟩))
    env os (fun t s h => ⟨hi t s h, fun _ _ => trivial, fun _ _ => trivial⟩) (fun _ _ _ _ => trivial)
    (fun _ _ => trivial) c hc v hv
  · have e5 := C25_nonpropagated_copied _ _ _ e ⟨5, by simp [coreDef, coreDescs]⟩ (by
      simp [coreDef, coreDescs])
    have : scaleVal (toVars (values s'.vars)) = scaleVal (toVars (values s.vars)) := by
      exact congrFun (congrArg StateVar.val e5) 0
    rw [this]; exact h
  · rw [scaleVal_of_keeps (ext_keeps e (by norm_num))]; exact h
  · obtain ⟨P1, H, r, -, -, -, h1 | ⟨c, P', t', vars, fz, -, hc, rfl⟩⟩ := sensorUpdate_cases e
    · rw [h1.2]; exact h
    · rcases applyCorrection_scale hc with h0 | h0
      · exact h0
      · change 0 ≤ scaleVal vars
        rw [h0]; exact h
  · obtain ⟨Ho, Hn, vo, vn, r, c, P', t', vars, fz, -, -, -, -, -, -, hap, rfl⟩ := relPoseUpdate_cases e
    rcases applyCorrection_scale hap with h0 | h0
    · exact h0
    · change 0 ≤ scaleVal vars
      rw [h0]; exact h

/-- **C78 with relative measurements, partial: one sensor.**  If every measurement of the run, absolute or
relative, uses calibration state `i` and has it fixed, then `i` has its initial value in every buffered and
published state, for every initial covariance.  `Init` is given a new state object, whose `Fd` is the
identity.  Missing: a negative fixed scale and spherical measurements (see `C78_negative_scale_violated`,
`C78_distance_violated`). -/
theorem C78_relative_pose_partial {rest : List VarDesc} (fb : Bool)
    (np : NoiseParams ℝ (coreDef (⟨.vec 1, 5, .aux, 0⟩ :: rest)))
    (hn : ∀ i (hi : i < (coreDef (⟨.vec 1, 5, .aux, 0⟩ :: rest)).length),
      (coreDef (⟨.vec 1, 5, .aux, 0⟩ :: rest))[i].name = i)
    (hp : PlainVars (coreDef (⟨.vec 1, 5, .aux, 0⟩ :: rest))) (ha : ∀ d ∈ rest, d.isAux)
    (i : Fin (coreDef (⟨.vec 1, 5, .aux, 0⟩ :: rest)).length) (h5 : 5 ≤ i.val)
    (v0 : Values (coreDef (⟨.vec 1, 5, .aux, 0⟩ :: rest)))
    (h0 : i.val = 5 → ∃ L, scaleOf (toVars v0) = some L ∧ 0 ≤ L) (env : Env)
    (os : List (RelApi (⟨.vec 1, 5, .aux, 0⟩ :: rest)))
    (hi : ∀ t s, Api.init t s ∈ os →
      (∀ v, s.x = some v → UnitQuats (toVars v) ∧ v i = v0 i) ∧ s.P.2 = some 1)
    (he : ∀ t u e, Api.ext t u (some e) ∈ os → e.q.normSq = 1)
    (hm : ∀ m, Api.meas m ∈ os → m.body.reading.Fixes i) (c : RelCore (⟨.vec 1, 5, .aux, 0⟩ :: rest))
    (hc : (relKernel np (scaleCalc fb)).run env os = .ok c)
    (v : Values (coreDef (⟨.vec 1, 5, .aux, 0⟩ :: rest))) (hv : c.RelShown v) : v i = v0 i := by
  have ha' : ∀ d ∈ (⟨.vec 1, 5, .aux, 0⟩ :: rest : List VarDesc), d.isAux := by
    intro d hd
    rcases List.mem_cons.1 hd with rfl | hd
    · decide
    · exact ha d hd
  simp only [scaleOf_eq, Option.some.injEq, exists_eq_left'] at h0
  have key := relShown_of_inv (relKeeps_inv np hn hp ha' h5 (scaleCalc_keeping fb i) v0
    (fun s hs e => by
      have e5 := hs
      rw [e] at e5
      rw [scaleVal_of_keeps e5]; exact h0 e) (fun _ => True) (fun m => m.reading.Fixes i)
    (fun m h => h.spares h5)
    (fun m h P P1 _ hl e => clearFixed_uncorrelated hn hl e i (.inr h.cleared))
    (fun _ _ _ _ _ _ => trivial) (fun _ _ => trivial) (fun _ _ _ _ _ _ _ => trivial)) env os
    (fun t s h => ⟨fun v hv => ⟨((hi t s h).1 v hv).1, Keeps.of_eq fun _ => by
      have := ((hi t s h).1 v hv).2
      exact congrArg (fun v => (⟨v, 0, false⟩ : StateVar ℝ _)) this⟩, fun _ _ => trivial, fun F hF => by
      rw [(hi t s h).2] at hF
      cases hF
      exact fun _ _ _ => rfl⟩)
    he hm c hc v hv
  exact key.2.val

/-- **C78 with relative measurements, partial: several sensors.**  If every measurement of the run, absolute
or relative, either does not use calibration state `i` or has it fixed, and the filter starts without cross
covariance between `i` and the other states, then `i` has its initial value in every buffered and published
state.  Missing: see `C78_relative_pose_partial` and `C78_correlated_violated`. -/
theorem C78_relative_fusion_partial {rest : List VarDesc} (fb : Bool)
    (np : NoiseParams ℝ (coreDef (⟨.vec 1, 5, .aux, 0⟩ :: rest)))
    (hn : ∀ i (hi : i < (coreDef (⟨.vec 1, 5, .aux, 0⟩ :: rest)).length),
      (coreDef (⟨.vec 1, 5, .aux, 0⟩ :: rest))[i].name = i)
    (hp : PlainVars (coreDef (⟨.vec 1, 5, .aux, 0⟩ :: rest))) (ha : ∀ d ∈ rest, d.isAux)
    (i : Fin (coreDef (⟨.vec 1, 5, .aux, 0⟩ :: rest)).length) (h5 : 5 ≤ i.val)
    (v0 : Values (coreDef (⟨.vec 1, 5, .aux, 0⟩ :: rest)))
    (h0 : i.val = 5 → ∃ L, scaleOf (toVars v0) = some L ∧ 0 ≤ L) (env : Env)
    (os : List (RelApi (⟨.vec 1, 5, .aux, 0⟩ :: rest)))
    (hi : ∀ t s, Api.init t s ∈ os → (∀ v, s.x = some v → UnitQuats (toVars v) ∧ v i = v0 i) ∧
      (∀ P, s.P.1 = some P → ∀ r c, Owns (coreDef (⟨.vec 1, 5, .aux, 0⟩ :: rest)) i r →
        ¬ Owns (coreDef (⟨.vec 1, 5, .aux, 0⟩ :: rest)) i c → P r c = 0 ∧ P c r = 0) ∧ s.P.2 = some 1)
    (he : ∀ t u e, Api.ext t u (some e) ∈ os → e.q.normSq = 1)
    (hm : ∀ m, Api.meas m ∈ os → m.body.reading.Spares i)
    (c : RelCore (⟨.vec 1, 5, .aux, 0⟩ :: rest)) (hc : (relKernel np (scaleCalc fb)).run env os = .ok c)
    (v : Values (coreDef (⟨.vec 1, 5, .aux, 0⟩ :: rest))) (hv : c.RelShown v) : v i = v0 i := by
  have ha' : ∀ d ∈ (⟨.vec 1, 5, .aux, 0⟩ :: rest : List VarDesc), d.isAux := by
    intro d hd
    rcases List.mem_cons.1 hd with rfl | hd
    · decide
    · exact ha d hd
  simp only [scaleOf_eq, Option.some.injEq, exists_eq_left'] at h0
  have key := relShown_of_inv (relKeeps_inv np hn hp ha' h5 (scaleCalc_keeping fb i) v0
    (fun s hs e => by
      have e5 := hs
      rw [e] at e5
      rw [scaleVal_of_keeps e5]; exact h0 e) (Uncorrelated i) (fun m => m.reading.Spares i)
    (fun m h => h)
    (fun m h P P1 hP hl e => clearFixed_uncorrelated hn hl e i (.inl hP))
    (fun m P P' _ hP e => clearFixed_keeps_uncorrelated hP e)
    (fun _ h => h) (fun _ _ _ _ _ h e => predict_uncorrelated hn np i h5 h e)) env os
    (fun t s h => ⟨fun v hv => ⟨((hi t s h).1 v hv).1, Keeps.of_eq fun _ => by
      have := ((hi t s h).1 v hv).2
      exact congrArg (fun v => (⟨v, 0, false⟩ : StateVar ℝ _)) this⟩, (hi t s h).2.1, fun F hF => by
      rw [(hi t s h).2.2] at hF
      cases hF
      exact fun _ _ _ => rfl⟩)
    he hm c hc v hv
  exact key.2.val

/-! ### The hypotheses can be met -/

/-- Calls of the pose filter with the scale fixed (flag 32): initialisation with scale 2 and a unit covariance,
IMU readings, and two relative pose measurements. -/
noncomputable def relPoseRun (u : Input (V3 ℝ) (V3 ℝ)) (z1 z2 : PoseMeas ℝ) : List (RelApi poseAux) :=
  [.init 1 ⟨u, some (values (scaleState 2)), (some 1, some 1)⟩, .imu (21/20) u, .imu (22/20) u,
    .imu (23/20) u, .imu (24/20) u, .meas ⟨23/20, 0, ⟨.pose ⟨5, 8, 9, 6, 7⟩ 32 true 10 z1, true⟩⟩,
    .imu (25/20) u, .meas ⟨49/40, 0, ⟨.pose ⟨5, 8, 9, 6, 7⟩ 32 true 10 z2, true⟩⟩]

/-- The run succeeds, and its states have unit quaternions, the initial biases and the initial scale. -/
example (np : NoiseParams ℝ (coreDef poseAux)) (s1 s2 : Nat → List ℚ → Bool) (u : Input (V3 ℝ) (V3 ℝ))
    (z1 z2 : PoseMeas ℝ) :
    ∃ c : RelCore poseAux, (relKernel np (scaleCalc true)).run (gnuEnv s1 s2) (relPoseRun u z1 z2) = .ok c ∧
      ∀ v, c.RelShown v → (∀ i q, quatOf _ (v i) = some q → q.normSq = 1) ∧
        (EKFState.b_w (toVars v) = 0 ∧ EKFState.b_a (toVars v) = 0) ∧
        (∃ L, scaleOf (toVars v) = some L ∧ 0 ≤ L) ∧
        v ⟨5, by decide⟩ = values (scaleState 2) ⟨5, by decide⟩ ∧
        v ⟨5, by decide⟩ = values (scaleState 2) ⟨5, by decide⟩ := by
  obtain ⟨c, hc⟩ := C20_stamps_relative_partial (relKernel np (scaleCalc true)) s1 s2 (relPoseRun u z1 z2) (.inl (by
    norm_num [relPoseRun, PromptImu, abs_le]
    exact fun M h => by cases h))
  have hinit : ∀ (t : ℚ) s, Api.init t s ∈ relPoseRun u z1 z2 →
      s = ⟨u, some (values (scaleState 2)), (some 1, some 1)⟩ := by
    intro t s hs
    simp only [relPoseRun, List.mem_cons, List.not_mem_nil, or_false, Api.init.injEq, reduceCtorEq] at hs
    exact hs.2
  have hext : ∀ (t : ℚ) w (e : ExtState), Api.ext t w (some e) ∈ relPoseRun u z1 z2 → e.q.normSq = 1 := by
    intro t w e he
    simp only [relPoseRun, List.mem_cons, List.not_mem_nil, or_false, reduceCtorEq] at he
  have hmeas : ∀ m, Api.meas m ∈ relPoseRun u z1 z2 → m.body.reading.Fixes 5 := by
    intro m hm
    simp only [relPoseRun, List.mem_cons, List.not_mem_nil, or_false, reduceCtorEq, false_or,
      Api.meas.injEq] at hm
    rcases hm with rfl | rfl
    all_goals
      refine ⟨?_, by decide, by decide⟩
      simp [PoseIdx.Distinct]
  refine ⟨c, hc, fun v hv => ⟨?_, ?_, ?_, ?_, ?_⟩⟩
  · exact C83_relative np (scaleCalc true) poseDef_ok.1 poseDef_ok.2 (by decide)
      (scaleCalc_keeping true 5).unit _ _ (fun t s hs w hw => by
        rw [hinit t s hs] at hw
        cases hw
        exact scaleState_unit 2) hext c hc v hv
  · exact C32_relative np (scaleCalc true) poseDef_ok.1 rfl
      (fun a b c => C32_shipped_sanity a) 0 0 _ _ (fun t s hs w hw => by
        rw [hinit t s hs] at hw
        cases hw
        exact ⟨rfl, rfl⟩) c hc v hv
  · exact C72_relative_partial true np _ _ (fun t s hs w hw => by
      rw [hinit t s hs] at hw
      cases hw
      exact ⟨2, rfl, by norm_num⟩) c hc v hv
  · exact C78_relative_pose_partial true np poseDef_ok.1 posePlain (by decide)
      (⟨5, by decide⟩ : Fin (coreDef poseAux).length) (le_refl 5)
      (values (scaleState 2)) (fun _ => ⟨2, rfl, by norm_num⟩) _ _ (fun t s hs => by
        rw [hinit t s hs]
        refine ⟨fun w hw => ?_, rfl⟩
        cases hw; exact ⟨scaleState_unit 2, rfl⟩)
      hext hmeas c hc v hv
  · exact C78_relative_fusion_partial true np poseDef_ok.1 posePlain (by decide)
      (⟨5, by decide⟩ : Fin (coreDef poseAux).length) (le_refl 5)
      (values (scaleState 2)) (fun _ => ⟨2, rfl, by norm_num⟩) _ _ (fun t s hs => by
        rw [hinit t s hs]
        refine ⟨fun w hw => ?_, fun P hP r c hr hcn => ?_, rfl⟩
        · cases hw; exact ⟨scaleState_unit 2, rfl⟩
        · cases hP
          have hne : r ≠ c := by rintro rfl; exact hcn hr
          exact ⟨Matrix.one_apply_ne hne, Matrix.one_apply_ne hne.symm⟩)
      hext (fun m hm => (hmeas m hm).spares (le_refl 5)) c hc v hv

end MSF
