import Verif.Lemmas.Runs
import Verif.Props.Faults

/-!
# C83 and whole-run versions of C32, C72 and C78

A run is any sequence of the public calls of the core (`Init`, `ProcessIMU`,
`ProcessExternallyPropagatedState`, `AddMeasurement`), with late measurements and the repropagation
they cause, spikes of the IMU and fuzzy tracking.  The numerical kernel is the one of a filter with
any of the shipped absolute measurements.  `Shown v` says that `v` is a state the filter has buffered
or published.
-/

namespace MSF

open Matrix EKFState Core

variable {aux : List VarDesc}

/-- Calls of a filter with the shipped absolute measurements. -/
abbrev ReadingApi (aux : List VarDesc) : Type :=
  Api (V3 ℝ) (V3 ℝ) (Option (Values (coreDef aux))) (Option (ErrMat ℝ (coreDef aux))) Reading ExtState

/-- The core of such a filter. -/
abbrev ReadingCore (aux : List VarDesc) : Type :=
  Core (V3 ℝ) (V3 ℝ) (Option (Values (coreDef aux))) (Option (ErrMat ℝ (coreDef aux))) Reading
    (Tracker ℝ)

/-- A state in the buffer or published so far. -/
def Core.Shown (c : ReadingCore aux) (v : Values (coreDef aux)) : Prop :=
  (∃ n ∈ c.states.nodes, n.val.x = some v) ∨ ∃ e ∈ c.out, e.mean = some v

theorem shown_of_inv {np : NoiseParams ℝ (coreDef aux)} {uc : UserCalc (coreDef aux)}
    {J : Values (coreDef aux) → Prop} {Jc : ErrMat ℝ (coreDef aux) → Prop} {Im : Reading → Prop}
    {Ie : ExtState → Prop} (hK : KernelInv (readingKernel np uc) (Sane J) (Sane Jc) Im Ie)
    (env : Env) (os : List (ReadingApi aux))
    (hi : ∀ t s, Api.init t s ∈ os → (∀ v, s.x = some v → J v) ∧ ∀ P, s.P = some P → Jc P)
    (he : ∀ t u e, Api.ext t u (some e) ∈ os → Ie e) (hm : ∀ m, Api.meas m ∈ os → Im m.body)
    (c : ReadingCore aux)
    (hc : Core.apis env (readingKernel np uc) (Core.new (readingKernel np uc)) os = .ok c)
    (v : Values (coreDef aux)) (hv : c.Shown v) : J v := by
  have key := hK.run env os (fun o ho => by
    cases o with
    | init t s => exact hi t s ho
    | imu t u => trivial
    | ext t u e =>
      intro a ha
      subst ha
      exact he t u a ho
    | meas m => exact hm m ho) c hc
  rcases hv with ⟨n, hn, e⟩ | ⟨e, hn, e'⟩
  · exact (key.1 n hn).1 v e
  · exact (key.2 e hn).1 v e'

/-! ### C83: attitudes are unit quaternions -/

/-- **C83.**  If the filter is initialised with unit quaternions and externally propagated attitudes
are unit quaternions, then in every run every quaternion of every buffered or published state (the
attitude and the calibration rotations) is a unit quaternion. -/
theorem C83_unit_quaternions (np : NoiseParams ℝ (coreDef aux)) (uc : UserCalc (coreDef aux))
    (hn : ∀ i (hi : i < (coreDef aux).length), (coreDef aux)[i].name = i)
    (hp : PlainQuats (coreDef aux)) (ha : ∀ d ∈ aux, d.isAux)
    (huc : ∀ a b c, UnitQuats a → UnitQuats (uc.sanity a b c)) (env : Env)
    (os : List (ReadingApi aux))
    (hi : ∀ t s, Api.init t s ∈ os → ∀ v, s.x = some v → UnitQuats (toVars v))
    (he : ∀ t u e, Api.ext t u (some e) ∈ os → e.q.normSq = 1) (c : ReadingCore aux)
    (hc : Core.apis env (readingKernel np uc) (Core.new (readingKernel np uc)) os = .ok c)
    (v : Values (coreDef aux)) (hv : c.Shown v) :
    ∀ (i : Fin (coreDef aux).length) (q : Quat ℝ), quatOf _ (v i) = some q → q.normSq = 1 := by
  refine shown_of_inv (J := fun v => UnitQuats (toVars v)) (Jc := fun _ => True)
    (Im := fun _ => True) (Ie := fun e => e.q.normSq = 1)
    (readingKernel_inv np uc _ _ _ _ (fun s new s' h e => ?_) (fun x e h1 h2 => ext_unit e h1 h2)
      (fun _ _ _ _ _ _ _ _ => trivial) (fun m tr x P u _ h _ e => ⟨?_, trivial⟩) trivial)
    env os (fun t s h => ⟨hi t s h, fun _ _ => trivial⟩) he (fun _ _ => trivial) c hc v hv
  · exact (propagate_keeps ha h e (le_refl 5)).2
  · obtain ⟨P1, H, r, -, -, -, h1 | ⟨c, P', t', vars, fz, -, hc, rfl⟩⟩ := sensorUpdate_cases e
    · rw [h1.2]; exact h
    · have := applyCorrection_unit hn hp h huc hc
      exact this

/-! ### C32: fixed biases -/

/-- **C32 for whole runs.**  With the fixed-bias option on, every buffered or published state has the
biases the filter was initialised with. -/
theorem C32_run (np : NoiseParams ℝ (coreDef aux)) (uc : UserCalc (coreDef aux))
    (hn : ∀ i (hi : i < (coreDef aux).length), (coreDef aux)[i].name = i)
    (hfix : uc.fixedBias = true)
    (hsan : ∀ a b c, EKFState.b_w (uc.sanity a b c) = EKFState.b_w a ∧
      EKFState.b_a (uc.sanity a b c) = EKFState.b_a a) (bw ba : V3 ℝ) (env : Env)
    (os : List (ReadingApi aux))
    (hi : ∀ t s, Api.init t s ∈ os → ∀ v, s.x = some v →
      EKFState.b_w (toVars v) = bw ∧ EKFState.b_a (toVars v) = ba) (c : ReadingCore aux)
    (hc : Core.apis env (readingKernel np uc) (Core.new (readingKernel np uc)) os = .ok c)
    (v : Values (coreDef aux)) (hv : c.Shown v) :
    EKFState.b_w (toVars v) = bw ∧ EKFState.b_a (toVars v) = ba := by
  refine shown_of_inv
    (J := fun v => EKFState.b_w (toVars v) = bw ∧ EKFState.b_a (toVars v) = ba)
    (Jc := fun _ => True) (Im := fun _ => True) (Ie := fun _ => True)
    (readingKernel_inv np uc _ _ _ _ (fun s new s' h e => ?_) (fun x e _ h => ?_)
      (fun _ _ _ _ _ _ _ _ => trivial) (fun m tr x P u _ h _ e => ⟨?_, trivial⟩) trivial)
    env os (fun t s h => ⟨hi t s h, fun _ _ => trivial⟩) (fun _ _ _ _ => trivial)
    (fun _ _ => trivial) c hc v hv
  · have e3 := C25_nonpropagated_copied _ _ _ e ibw (fun h => by cases h)
    have e4 := C25_nonpropagated_copied _ _ _ e iba (fun h => by cases h)
    exact ⟨(congrArg StateVar.val e3).trans h.1, (congrArg StateVar.val e4).trans h.2⟩
  · have e3 := ext_other x e ibw (by simp [ibw, ip, Fin.ext_iff]) (by simp [ibw, iv, Fin.ext_iff])
      (by simp [ibw, iq, Fin.ext_iff])
    have e4 := ext_other x e iba (by simp [iba, ip, Fin.ext_iff]) (by simp [iba, iv, Fin.ext_iff])
      (by simp [iba, iq, Fin.ext_iff])
    exact ⟨e3.trans h.1, e4.trans h.2⟩
  · obtain ⟨P1, H, r, -, -, -, h1 | ⟨c, P', t', vars, fz, -, hc, rfl⟩⟩ := sensorUpdate_cases e
    · rw [h1.2]; exact h
    · obtain ⟨a1, a2⟩ := C32_biases_fixed uc tr t' _ _ _ _ fz hn hfix hsan hc
      exact ⟨a1.trans h.1, a2.trans h.2⟩

/-! ### C72: the visual scale -/

/-- **C72 for whole runs, partial.**  Initialised with a scale that is not negative, no run of a
filter with a visual scale buffers or publishes a negative scale.  Missing: the initialisation with a
negative scale (see `C72_init_violated`).  With relative measurements: `C72_relative_partial`. -/
theorem C72_run_partial {rest : List VarDesc} (fb : Bool)
    (np : NoiseParams ℝ (coreDef (⟨.vec 1, 5, .aux, 0⟩ :: rest))) (env : Env)
    (os : List (ReadingApi (⟨.vec 1, 5, .aux, 0⟩ :: rest)))
    (hi : ∀ t s, Api.init t s ∈ os → ∀ v, s.x = some v →
      ∃ L, scaleOf (toVars v) = some L ∧ 0 ≤ L) (c : ReadingCore (⟨.vec 1, 5, .aux, 0⟩ :: rest))
    (hc : Core.apis env (readingKernel np (scaleCalc fb))
      (Core.new (readingKernel np (scaleCalc fb))) os = .ok c)
    (v : Values (coreDef (⟨.vec 1, 5, .aux, 0⟩ :: rest))) (hv : c.Shown v) :
    ∃ L, scaleOf (toVars v) = some L ∧ 0 ≤ L := by
  simp only [scaleOf_eq, Option.some.injEq, exists_eq_left'] at hi ⊢
  refine shown_of_inv
    (J := fun v => 0 ≤ scaleVal (toVars v)) (Jc := fun _ => True) (Im := fun _ => True)
    (Ie := fun _ => True)
    (readingKernel_inv np _ _ _ _ _ (fun s new s' h e => ?_) (fun x e _ h => ?_)
      (fun _ _ _ _ _ _ _ _ => trivial) (fun m tr x P u _ h _ e => ⟨?_, trivial⟩) trivial)
    env os (fun t s h => ⟨hi t s h, fun _ _ => trivial⟩) (fun _ _ _ _ => trivial)
    (fun _ _ => trivial) c hc v hv
  · have e5 := C25_nonpropagated_copied _ _ _ e ⟨5, by simp [coreDef, coreDescs]⟩ (by
      simp [coreDef, coreDescs])
    have : scaleVal (toVars (values s'.vars)) = scaleVal (toVars (values s.vars)) := by
      exact congrFun (congrArg StateVar.val e5) 0
    rw [this]; exact h
  · rw [scaleVal_of_keeps (ext_keeps e (by norm_num))]; exact h
  · obtain ⟨P1, H, r, -, -, -, h1 | ⟨c, P', t', vars, fz, -, hc, rfl⟩⟩ := sensorUpdate_cases e
    · rw [h1.2]; exact h
    · rcases applyCorrection_scale hc with h0 | h0
      · exact h0
      · change 0 ≤ scaleVal vars
        rw [h0]; exact h

/-! ### C78: fixed calibration states -/

/-- **C78 for whole runs, partial: one sensor.**  If every measurement of the run uses calibration
state `i` and has it fixed, then `i` has its initial value in every buffered and published state,
for every initial covariance.  This is for filters with a visual scale; see
`C78_run_position_partial` for the others.  Missing: a negative fixed scale, spherical measurements
(see `C78_negative_scale_violated`, `C78_distance_violated`).  With relative measurements:
`C78_relative_pose_partial`. -/
theorem C78_run_pose_partial {rest : List VarDesc} (fb : Bool)
    (np : NoiseParams ℝ (coreDef (⟨.vec 1, 5, .aux, 0⟩ :: rest)))
    (hn : ∀ i (hi : i < (coreDef (⟨.vec 1, 5, .aux, 0⟩ :: rest)).length),
      (coreDef (⟨.vec 1, 5, .aux, 0⟩ :: rest))[i].name = i)
    (hp : PlainVars (coreDef (⟨.vec 1, 5, .aux, 0⟩ :: rest))) (ha : ∀ d ∈ rest, d.isAux)
    (i : Fin (coreDef (⟨.vec 1, 5, .aux, 0⟩ :: rest)).length) (h5 : 5 ≤ i.val)
    (v0 : Values (coreDef (⟨.vec 1, 5, .aux, 0⟩ :: rest)))
    (h0 : i.val = 5 → ∃ L, scaleOf (toVars v0) = some L ∧ 0 ≤ L) (env : Env)
    (os : List (ReadingApi (⟨.vec 1, 5, .aux, 0⟩ :: rest)))
    (hi : ∀ t s, Api.init t s ∈ os → ∀ v, s.x = some v → UnitQuats (toVars v) ∧ v i = v0 i)
    (he : ∀ t u e, Api.ext t u (some e) ∈ os → e.q.normSq = 1)
    (hm : ∀ m, Api.meas m ∈ os → m.body.Fixes i) (c : ReadingCore (⟨.vec 1, 5, .aux, 0⟩ :: rest))
    (hc : Core.apis env (readingKernel np (scaleCalc fb))
      (Core.new (readingKernel np (scaleCalc fb))) os = .ok c)
    (v : Values (coreDef (⟨.vec 1, 5, .aux, 0⟩ :: rest))) (hv : c.Shown v) : v i = v0 i := by
  have ha' : ∀ d ∈ (⟨.vec 1, 5, .aux, 0⟩ :: rest : List VarDesc), d.isAux := by
    intro d hd
    rcases List.mem_cons.1 hd with rfl | hd
    · decide
    · exact ha d hd
  simp only [scaleOf_eq, Option.some.injEq, exists_eq_left'] at h0
  have key := shown_of_inv (keeps_inv np hn hp ha' h5 (scaleCalc_keeping fb i) v0
    (fun s hs e => by
      have e5 := hs
      rw [e] at e5
      rw [scaleVal_of_keeps e5]; exact h0 e) (fun _ => True) (fun m => m.Fixes i)
    (fun m h => h.spares h5)
    (fun m h P P1 _ hl e => clearFixed_uncorrelated hn hl e i (.inr h.cleared))
    (fun _ _ => trivial) (fun _ _ _ _ _ _ _ => trivial)) env os
    (fun t s h => ⟨fun v hv => ⟨(hi t s h v hv).1, Keeps.of_eq fun _ => by
      have := (hi t s h v hv).2
      exact congrArg (fun v => (⟨v, 0, false⟩ : StateVar ℝ _)) this⟩, fun _ _ => trivial⟩)
    he hm c hc v hv
  exact key.2.val

/-- **C78 for whole runs, partial: position filters.**  As `C78_run_pose_partial`, for filters
without a visual scale. -/
theorem C78_run_position_partial (fb : Bool) (np : NoiseParams ℝ (coreDef aux))
    (hn : ∀ i (hi : i < (coreDef aux).length), (coreDef aux)[i].name = i)
    (hp : PlainVars (coreDef aux)) (ha : ∀ d ∈ aux, d.isAux)
    (i : Fin (coreDef aux).length) (h5 : 5 ≤ i.val) (v0 : Values (coreDef aux)) (env : Env)
    (os : List (ReadingApi aux))
    (hi : ∀ t s, Api.init t s ∈ os → ∀ v, s.x = some v → UnitQuats (toVars v) ∧ v i = v0 i)
    (he : ∀ t u e, Api.ext t u (some e) ∈ os → e.q.normSq = 1)
    (hm : ∀ m, Api.meas m ∈ os → m.body.Fixes i) (c : ReadingCore aux)
    (hc : Core.apis env (readingKernel np (plainCalc fb))
      (Core.new (readingKernel np (plainCalc fb))) os = .ok c)
    (v : Values (coreDef aux)) (hv : c.Shown v) : v i = v0 i := by
  have key := shown_of_inv (keeps_inv np hn hp ha h5 (plainCalc_keeping fb i) v0
    (fun s hs => trivial) (fun _ => True) (fun m => m.Fixes i)
    (fun m h => h.spares h5)
    (fun m h P P1 _ hl e => clearFixed_uncorrelated hn hl e i (.inr h.cleared))
    (fun _ _ => trivial) (fun _ _ _ _ _ _ _ => trivial)) env os
    (fun t s h => ⟨fun v hv => ⟨(hi t s h v hv).1, Keeps.of_eq fun _ => by
      have := (hi t s h v hv).2
      exact congrArg (fun v => (⟨v, 0, false⟩ : StateVar ℝ _)) this⟩, fun _ _ => trivial⟩)
    he hm c hc v hv
  exact key.2.val

/-- **C78 for whole runs, partial: several sensors.**  If every measurement of the run either does
not use calibration state `i` or has it fixed, and the filter starts without cross covariance between
`i` and the other states, then `i` has its initial value in every buffered and published state.
Missing: see `C78_run_pose_partial`; if `i` starts correlated, another sensor does move it, see
`C78_correlated_violated`. -/
theorem C78_run_fusion_partial {rest : List VarDesc} (fb : Bool)
    (np : NoiseParams ℝ (coreDef (⟨.vec 1, 5, .aux, 0⟩ :: rest)))
    (hn : ∀ i (hi : i < (coreDef (⟨.vec 1, 5, .aux, 0⟩ :: rest)).length),
      (coreDef (⟨.vec 1, 5, .aux, 0⟩ :: rest))[i].name = i)
    (hp : PlainVars (coreDef (⟨.vec 1, 5, .aux, 0⟩ :: rest))) (ha : ∀ d ∈ rest, d.isAux)
    (i : Fin (coreDef (⟨.vec 1, 5, .aux, 0⟩ :: rest)).length) (h5 : 5 ≤ i.val)
    (v0 : Values (coreDef (⟨.vec 1, 5, .aux, 0⟩ :: rest)))
    (h0 : i.val = 5 → ∃ L, scaleOf (toVars v0) = some L ∧ 0 ≤ L) (env : Env)
    (os : List (ReadingApi (⟨.vec 1, 5, .aux, 0⟩ :: rest)))
    (hi : ∀ t s, Api.init t s ∈ os → (∀ v, s.x = some v → UnitQuats (toVars v) ∧ v i = v0 i) ∧
      ∀ P, s.P = some P → ∀ r c, Owns (coreDef (⟨.vec 1, 5, .aux, 0⟩ :: rest)) i r →
        ¬ Owns (coreDef (⟨.vec 1, 5, .aux, 0⟩ :: rest)) i c → P r c = 0 ∧ P c r = 0)
    (he : ∀ t u e, Api.ext t u (some e) ∈ os → e.q.normSq = 1)
    (hm : ∀ m, Api.meas m ∈ os → m.body.Spares i) (c : ReadingCore (⟨.vec 1, 5, .aux, 0⟩ :: rest))
    (hc : Core.apis env (readingKernel np (scaleCalc fb))
      (Core.new (readingKernel np (scaleCalc fb))) os = .ok c)
    (v : Values (coreDef (⟨.vec 1, 5, .aux, 0⟩ :: rest))) (hv : c.Shown v) : v i = v0 i := by
  have ha' : ∀ d ∈ (⟨.vec 1, 5, .aux, 0⟩ :: rest : List VarDesc), d.isAux := by
    intro d hd
    rcases List.mem_cons.1 hd with rfl | hd
    · decide
    · exact ha d hd
  simp only [scaleOf_eq, Option.some.injEq, exists_eq_left'] at h0
  have key := shown_of_inv (keeps_inv np hn hp ha' h5 (scaleCalc_keeping fb i) v0
    (fun s hs e => by
      have e5 := hs
      rw [e] at e5
      rw [scaleVal_of_keeps e5]; exact h0 e) (Uncorrelated i) (fun m => m.Spares i)
    (fun m h => h)
    (fun m h P P1 hP hl e => clearFixed_uncorrelated hn hl e i (.inl hP))
    (fun _ h => h) (fun _ _ _ _ _ h e => predict_uncorrelated hn np i h5 h e)) env os
    (fun t s h => ⟨fun v hv => ⟨((hi t s h).1 v hv).1, Keeps.of_eq fun _ => by
      have := ((hi t s h).1 v hv).2
      exact congrArg (fun v => (⟨v, 0, false⟩ : StateVar ℝ _)) this⟩, (hi t s h).2⟩)
    he hm c hc v hv
  exact key.2.val

/-! ### The starting covariance matters when there are other sensors -/

/-- A state with zero vectors and unit quaternions. -/
noncomputable def restValues (D : List VarDesc) : Values D := fun i =>
  match (D.get i).kind with
  | .vec _ => fun _ => 0
  | .quat => Quat.one

/-- The claim: a pressure measurement does not change the scale, which it does not use. -/
def otherSensorClaim : Prop :=
  ∀ (tr : Tracker ℝ) (rd : Reading) (x : Values (coreDef posePressureAux))
    (P : ErrMat ℝ (coreDef posePressureAux))
    (u : Upd (Values (coreDef posePressureAux)) (ErrMat ℝ (coreDef posePressureAux)) (Tracker ℝ)),
    rd.Spares 5 → UnitQuats (toVars x) → P.PosSemidef →
    sensorUpdate (scaleCalc false) tr rd.meas x P = some u →
    u.x ⟨5, by decide⟩ = x ⟨5, by decide⟩

/-- **A fixed scale is moved by other sensors** if it is correlated with what they measure: the
flag of the pose sensor concerns pose measurements only.  So the covariance cannot be arbitrary in
`C78_run_fusion_partial`. -/
theorem C78_correlated_violated : ¬ otherSensorClaim := by
  intro h
  let x : Values (coreDef posePressureAux) := restValues _
  have hu : UnitQuats (toVars x) := by
    intro i q hq
    have : quatOf ((coreDef posePressureAux).get i).kind (restValues _ i) = some q := hq
    fin_cases i <;> first
      | (have e : (Quat.one : Quat ℝ) = q := Option.some.inj this
         rw [← e]; simp [Quat.normSq, Quat.one])
      | (cases this)
  let k : Fin (total errLen (coreDef posePressureAux)) := ⟨15, by decide⟩
  let k2 : Fin (total errLen (coreDef posePressureAux)) := ⟨2, by decide⟩
  let A : ErrMat ℝ (coreDef posePressureAux) := 1 + Matrix.single k k2 1
  let P : ErrMat ℝ (coreDef posePressureAux) := A * Aᵀ
  have hP : P.PosSemidef := by
    have := Matrix.posSemidef_self_mul_conjTranspose A
    rwa [conjTranspose_eq_transpose_of_trivial] at this
  have hl : getVec (toVars x) 10 1 = some fun _ => 0 := rfl
  have hp0 : EKFState.p (toVars x) = 0 := rfl
  obtain ⟨H, hH, hm⟩ := pressureH_mulVec 10 (toVars x) _ posePressureDef_ok.1 hl
  let R : Matrix (Fin 1) (Fin 1) ℝ := Matrix.diagonal fun _ => 1 * 1
  have hR : R.PosDef := PosDef.diagonal fun _ => by norm_num
  have hS : (innovCov P H R).PosDef := hR.posSemidef_add (psd_congr hP H)
  have hdet : (innovCov P H R).det ≠ 0 :=
    ((Matrix.isUnit_iff_isUnit_det _).1 hS.isUnit).ne_zero
  have hcc : calculateCorrection false 0 P H (fun _ => 1) R =
      some (some (gain P H R *ᵥ (fun _ => 1), josephUpdate P H R (gain P H R))) := by
    simp only [calculateCorrection]
    rw [if_neg hdet, if_neg (by simp)]
  have hr : pressureResidual 10 1 (toVars x) = some fun _ => 1 := by
    simp only [pressureResidual, hl, hp0, Option.bind_eq_bind, Option.bind_some]
    simp
  obtain ⟨s1, hs1, hread, -⟩ := correct_reads (toVars x) (gain P H R *ᵥ (fun _ => 1))
    posePressureDef_ok.1 posePressureDef_ok.2 hu
  have hcol : ∀ j : Fin (total errLen (coreDef posePressureAux)),
      H 0 j = segOf (Pi.single j 1 : Fin (total errLen (coreDef posePressureAux)) → ℝ) 0 3 2 -
        segOf (Pi.single j 1 : Fin (total errLen (coreDef posePressureAux)) → ℝ) 10 1 0 := by
    intro j
    have e := congrFun (hm (Pi.single j 1)) 0
    rw [mulVec_single_one] at e
    exact e
  have hk : H 0 k = 0 := by
    rw [hcol]
    have e1 : segOf (Pi.single k 1 : Fin (total errLen (coreDef posePressureAux)) → ℝ) 0 3 2 = 0 := rfl
    have e2 : segOf (Pi.single k 1 : Fin (total errLen (coreDef posePressureAux)) → ℝ) 10 1 0 = 0 := rfl
    rw [e1, e2, sub_zero]
  have hk2 : H 0 k2 = 1 := by
    rw [hcol]
    have e1 : segOf (Pi.single k2 1 : Fin (total errLen (coreDef posePressureAux)) → ℝ) 0 3 2 = 1 := rfl
    have e2 : segOf (Pi.single k2 1 : Fin (total errLen (coreDef posePressureAux)) → ℝ) 10 1 0 = 0 := rfl
    rw [e1, e2, sub_zero]
  have hAH : Aᵀ * Hᵀ = Hᵀ := by
    ext i j
    have hj : j = 0 := Subsingleton.elim _ _
    subst hj
    rw [← Matrix.transpose_mul]
    simp only [A, Matrix.mul_add, Matrix.mul_one, transpose_apply, Matrix.add_apply]
    by_cases hi : i = k2
    · subst hi
      rw [Matrix.mul_single_apply_same, hk]; simp
    · rw [Matrix.mul_single_apply_of_ne _ _ _ _ _ hi]; simp
  have hPH : (P * Hᵀ) k 0 = 1 := by
    rw [show P * Hᵀ = A * (Aᵀ * Hᵀ) from Matrix.mul_assoc _ _ _, hAH]
    simp only [A, Matrix.add_mul, Matrix.one_mul, Matrix.add_apply, transpose_apply, hk,
      Matrix.single_mul_apply_same, hk2]
    norm_num
  have hg : (gain P H R *ᵥ (fun _ => 1)) k = (innovCov P H R)⁻¹ 0 0 := by
    simp only [gain, mulVec, dotProduct, Finset.univ_unique, Finset.sum_singleton, mul_one,
      Matrix.mul_apply (M := P * Hᵀ), Fin.default_eq_zero]
    rw [hPH, one_mul]
  have hpos : 0 < (innovCov P H R)⁻¹ 0 0 := hS.inv.diag_pos
  have hL1 : scaleVal s1 = (innovCov P H R)⁻¹ 0 0 := by
    have e := hread 5 1 (fun _ => 0) rfl
    rw [Option.some.inj ((scaleOf_eq s1).symm.trans (congrArg (Option.map fun y : Fin 1 → ℝ => y 0) e))]
    have e3 : segOf (gain P H R *ᵥ (fun _ => 1)) 5 1 0 = (gain P H R *ᵥ (fun _ => 1)) k := rfl
    change (0 : ℝ) + segOf (gain P H R *ᵥ (fun _ => 1)) 5 1 0 = _
    rw [e3, hg, zero_add]
  have hsan : scaleSanity s1 = s1 := if_neg (show ¬ scaleVal s1 < 0 by rw [hL1]; exact not_lt.2 hpos.le)
  have hfz : ∃ t', fuzzyCheck' (Tracker.reset : Tracker ℝ) s1 (toVars x) 0.1 = some (t', s1, false) := by
    have hb : bestIndex (coreDef posePressureAux) = some ⟨6, by decide⟩ := by decide +kernel
    have hd : indexOfBestNonTemporalDriftingState (coreDef posePressureAux) ≠ some (-1) := by
      decide +kernel
    have hq : ∃ q, quatOf _ (s1 ⟨6, by decide⟩).val = some q := ⟨_, rfl⟩
    obtain ⟨q, hq⟩ := hq
    unfold fuzzyCheck' fuzzyCheck
    rw [if_neg hd, hb]
    simp only [Option.bind_eq_bind, Option.bind_some, hq]
    rw [if_neg (by decide)]
    exact ⟨_, rfl⟩
  obtain ⟨t', hfz⟩ := hfz
  have ha : applyCorrection (scaleCalc false) Tracker.reset (toVars x)
      (gain P H R *ᵥ (fun _ => 1)) = some (t', s1, false) := by
    change ((correct (toVars x) (gain P H R *ᵥ (fun _ => 1))).bind fun s' =>
      fuzzyCheck' Tracker.reset (scaleSanity s') (toVars x) 0.1) = _
    rw [hs1, Option.bind_some, hsan]
    exact hfz
  have hrun : sensorUpdate (scaleCalc false) Tracker.reset (Reading.pressure 10 false 0 1 1).meas x P =
      some ⟨t', values s1, josephUpdate P H R (gain P H R), true, false⟩ := by
    exact sensorUpdate_applied (m := (Reading.pressure 10 false 0 1 1).meas) rfl hH hr hcc ha
  have key := h _ _ _ _ _ (by simp [Reading.Spares]) hu hP hrun
  have : scaleVal s1 = 0 := congrFun key 0
  rw [hL1] at this
  exact hpos.ne' this

/-! ### The hypotheses can be met -/

/-- A run of the pose filter: initialization with scale 2 and a unit covariance, then IMU readings.
Its states have unit quaternions, the initial biases and the initial scale. -/
example (np : NoiseParams ℝ (coreDef poseAux)) (env : Env) (u : Input (V3 ℝ) (V3 ℝ)) :
    ∃ c : ReadingCore poseAux, Core.apis env (readingKernel np (scaleCalc true))
        (Core.new (readingKernel np (scaleCalc true)))
        [.init 1 ⟨u, some (values (scaleState 2)), some 1⟩, .imu (21/20) u, .imu (22/20) u,
          .imu (23/20) u, .imu (24/20) u] = .ok c ∧
      (∀ v, c.Shown v → (∀ i q, quatOf _ (v i) = some q → q.normSq = 1) ∧
        EKFState.b_w (toVars v) = 0 ∧ EKFState.b_a (toVars v) = 0 ∧
        (∃ L, scaleOf (toVars v) = some L ∧ 0 ≤ L) ∧
        v ⟨5, by decide⟩ = values (scaleState 2) ⟨5, by decide⟩) := by
  obtain ⟨c, hc⟩ := C19_imu_safe_partial env (readingKernel np (scaleCalc true)) 1
    [.init 1 ⟨u, some (values (scaleState 2)), some 1⟩, .imu (21/20) u, .imu (22/20) u,
      .imu (23/20) u, .imu (24/20) u] (by
      intro o ho
      simp only [List.mem_cons, List.not_mem_nil, or_false] at ho
      rcases ho with rfl | rfl | rfl | rfl | rfl
      · exact .inl ⟨_, _, rfl, by norm_num⟩
      all_goals exact .inr ⟨_, _, rfl, by norm_num⟩) (by
      simp only [closeStamps]
      norm_num [abs_le])
  have hinit : ∀ (t : ℚ) s, Api.init t s ∈ ([.init 1 ⟨u, some (values (scaleState 2)), some 1⟩,
      .imu (21/20) u, .imu (22/20) u, .imu (23/20) u, .imu (24/20) u] : List (ReadingApi poseAux)) →
      s = ⟨u, some (values (scaleState 2)), some 1⟩ := by
    intro t s hs
    simp only [List.mem_cons, List.not_mem_nil, or_false, Api.init.injEq, reduceCtorEq] at hs
    exact hs.2
  have hext : ∀ (t : ℚ) w (e : ExtState), Api.ext t w (some e) ∈
      ([.init 1 ⟨u, some (values (scaleState 2)), some 1⟩, .imu (21/20) u, .imu (22/20) u,
        .imu (23/20) u, .imu (24/20) u] : List (ReadingApi poseAux)) → e.q.normSq = 1 := by
    intro t w e he
    simp only [List.mem_cons, List.not_mem_nil, or_false, reduceCtorEq] at he
  have hmeas : ∀ m, Api.meas m ∈
      ([.init 1 ⟨u, some (values (scaleState 2)), some 1⟩, .imu (21/20) u, .imu (22/20) u,
        .imu (23/20) u, .imu (24/20) u] : List (ReadingApi poseAux)) → m.body.Spares 5 := by
    intro m hm
    simp only [List.mem_cons, List.not_mem_nil, or_false, reduceCtorEq] at hm
  refine ⟨c, hc, fun v hv => ?_⟩
  have hq := C83_unit_quaternions np (scaleCalc true) poseDef_ok.1 poseDef_ok.2 (by decide)
    (scaleCalc_keeping true 5).unit env _ (fun t s hs w hw => by
      rw [hinit t s hs] at hw
      cases hw
      exact scaleState_unit 2) hext c hc v hv
  have hb := C32_run np (scaleCalc true) poseDef_ok.1 rfl
    (fun a b c => C32_shipped_sanity a) 0 0 env _ (fun t s hs w hw => by
      rw [hinit t s hs] at hw
      cases hw
      exact ⟨rfl, rfl⟩) c hc v hv
  have hL := C72_run_partial true np env _ (fun t s hs w hw => by
      rw [hinit t s hs] at hw
      cases hw
      exact ⟨2, rfl, by norm_num⟩) c hc v hv
  have h5 := C78_run_fusion_partial true np poseDef_ok.1 posePlain (by decide)
    (⟨5, by decide⟩ : Fin (coreDef poseAux).length) (le_refl 5)
    (values (scaleState 2)) (fun _ => ⟨2, rfl, by norm_num⟩) env _ (fun t s hs => by
      rw [hinit t s hs]
      refine ⟨fun w hw => ?_, fun P hP r c hr hcn => ?_⟩
      · cases hw; exact ⟨scaleState_unit 2, rfl⟩
      · cases hP
        have hne : r ≠ c := by rintro rfl; exact hcn hr
        exact ⟨Matrix.one_apply_ne hne, Matrix.one_apply_ne hne.symm⟩)
    hext hmeas c hc v hv
  exact ⟨hq, hb.1, hb.2, hL, h5⟩

/-- Readings that the theorems on fixed states allow, in the position-pose filter with the scale fixed
by the pose sensor (flag 32): pose readings, and position readings of another sensor. -/
example (e : Bool) (t : ℝ) (z : PoseMeas ℝ) (y : V3 ℝ) (R_ : M33 ℝ) :
    (Reading.pose ⟨5, 8, 9, 6, 7⟩ 32 e t z).Fixes 5 ∧ (Reading.pose ⟨5, 8, 9, 6, 7⟩ 32 e t z).Spares 5 ∧
    (Reading.position 10 0 e t y R_).Spares 5 ∧ (Reading.position 5 32 e t y R_).Fixes 5 := by
  refine ⟨⟨?_, by decide, by decide⟩, ⟨?_, fun _ => by decide⟩, ⟨by decide, fun h => by cases h⟩, rfl,
    by decide⟩
  all_goals simp [PoseIdx.Distinct]

end MSF
