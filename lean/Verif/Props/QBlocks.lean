import Verif.Model.QBlock
import Verif.Props.Demo
import Verif.Props.AuxNoise

/-!
# C129: the process noise of the core states cannot be set through the state

`CalculateQAuxiliaryStates` of a filter gets the state and sets the noise blocks of its auxiliary states.
-/

namespace MSF

open Matrix EKFState Core

section
variable {D : List VarDesc}

/-- A core state: position, velocity, attitude, biases. -/
def VarDesc.IsCore (d : VarDesc) : Prop := d.stype = .coreProp ∨ d.stype = .coreNoProp

/-- An assignment to the noise block of a core state is rejected by the compiler. -/
def CoreBlocksProtected (D : List VarDesc) : Prop :=
  ∀ (s : Vars ℝ D) (i : Fin D.length), (D.get i).IsCore → ∀ B, writeQBlock s i B = none

/-- The noise block of every state can be read. -/
def BlocksReadable (D : List VarDesc) : Prop :=
  ∀ (s : Vars ℝ D) (i : Fin D.length), readQBlock s i = some (s i).Q

end

/-! ### The runs -/

variable {aux : List VarDesc}

theorem copyQBlocks_same {D : List VarDesc} {s s' : Vars ℝ D}
    (h : ∀ i, ¬ (D.get i).IsCore → (s i).Q = (s' i).Q) (Q : ErrMat ℝ D) :
    copyQBlocks s Q = copyQBlocks s' Q := by
  have e : copyQBlock s = copyQBlock s' := by
    funext Q i
    unfold copyQBlock
    cases hs : (D.get i).stype with
    | coreProp => rfl
    | coreNoProp => rfl
    | aux => simp only [h i (by rintro (e | e) <;> rw [hs] at e <;> cases e)]
    | auxNonDrift => simp only [h i (by rintro (e | e) <;> rw [hs] at e <;> cases e)]
  unfold copyQBlocks
  rw [e]

/-- Two managers with the same noise parameters that agree on the noise blocks of the auxiliary states. -/
structure SameNoise (np np' : NoiseParams ℝ (coreDef aux)) : Prop where
  acc : np.acc = np'.acc
  accBias : np.accBias = np'.accBias
  gyr : np.gyr = np'.gyr
  gyrBias : np.gyrBias = np'.gyrBias
  aux : ∀ s dt i, ¬ ((coreDef aux).get i).IsCore → (np.qAux s dt i).Q = (np'.qAux s dt i).Q

theorem SameNoise.predict {np np' : NoiseParams ℝ (coreDef aux)} (h : SameNoise np np')
    (old new : EKFState ℝ (coreDef aux)) (timeP : ℝ) :
    (predictProcessCovariance np old new timeP).map (fun r => (r.1, r.2.1.P, r.2.2)) =
      (predictProcessCovariance np' old new timeP).map fun r => (r.1, r.2.1.P, r.2.2) := by
  unfold predictProcessCovariance
  by_cases hdt : new.time - old.time ≤ 0
  · simp only [hdt, if_true, Option.map_some]
  · simp only [hdt, if_false, h.acc, h.accBias, h.gyr, h.gyrBias]
    cases coreStarts (coreDef aux) with
    | none => rfl
    | some s =>
      simp only [Option.bind_eq_bind, Option.bind_some]
      generalize calcQCore _ old.Qd = o
      cases o with
      | none => rfl
      | some Q =>
        simp only [Option.bind_some]
        rw [copyQBlocks_same (h.aux new.vars (new.time - old.time)) Q]
        cases copyQBlocks (np'.qAux new.vars (new.time - old.time)) Q <;> rfl

theorem SameNoise.predP {np np' : NoiseParams ℝ (coreDef aux)} (h : SameNoise np np')
    (uc : UserCalc (coreDef aux)) : (readingKernel np uc).predP = (readingKernel np' uc).predP := by
  funext dt P u x
  simp only [readingKernel, sensorKernel, filterKernel]
  cases P with
  | none => simp only [Option.bind_eq_bind, Option.bind_none]
  | some P =>
    cases x with
    | none => simp only [Option.bind_eq_bind, Option.bind_some, Option.bind_none]
    | some x =>
      have e := congrArg (Option.map fun r => r.2.1)
        (h.predict (mkState (noInit _) ⟨0, 0⟩ 0 P) (mkState (toVars x) u (dt : ℝ) 0) 0)
      simp only [Option.map_map] at e
      simp only [Option.bind_eq_bind, Option.bind_some]
      revert e
      generalize predictProcessCovariance np (mkState (noInit _) ⟨0, 0⟩ 0 P)
        (mkState (toVars x) u (dt : ℝ) 0) 0 = o
      generalize predictProcessCovariance np' (mkState (noInit _) ⟨0, 0⟩ 0 P)
        (mkState (toVars x) u (dt : ℝ) 0) 0 = o'
      cases o <;> cases o' <;> simp

theorem SameNoise.kernel {np np' : NoiseParams ℝ (coreDef aux)} (h : SameNoise np np')
    (uc : UserCalc (coreDef aux)) : readingKernel np uc = readingKernel np' uc := by
  have e := h.predP uc
  unfold readingKernel at e ⊢
  simp only at e ⊢
  rw [e]
  rfl

theorem SameNoise.fd {np np' : NoiseParams ℝ (coreDef aux)} (h : SameNoise np np')
    (uc : UserCalc (coreDef aux)) : (relKernel np uc).fd = (relKernel np' uc).fd := by
  funext dt u x
  simp only [relKernel]
  cases x with
  | none => simp only [Option.bind_eq_bind, Option.bind_none]
  | some x =>
    have e := congrArg (Option.map fun r => r.1)
      (h.predict (mkState (noInit _) ⟨0, 0⟩ 0 0) (mkState (toVars x) u (dt : ℝ) 0) 0)
    simp only [Option.map_map] at e
    simp only [Option.bind_eq_bind, Option.bind_some]
    revert e
    generalize predictProcessCovariance np (mkState (noInit _) ⟨0, 0⟩ 0 0)
      (mkState (toVars x) u (dt : ℝ) 0) 0 = o
    generalize predictProcessCovariance np' (mkState (noInit _) ⟨0, 0⟩ 0 0)
      (mkState (toVars x) u (dt : ℝ) 0) 0 = o'
    cases o <;> cases o' <;> simp
    intro e
    rw [e]

theorem SameNoise.relKernel {np np' : NoiseParams ℝ (coreDef aux)} (h : SameNoise np np')
    (uc : UserCalc (coreDef aux)) : MSF.relKernel np uc = MSF.relKernel np' uc := by
  have e := h.fd uc
  unfold MSF.relKernel at e ⊢
  simp only at e ⊢
  rw [e, h.kernel uc]

theorem writes_other {D : List VarDesc} (ws : List (QWrite ℝ D)) (s t : Vars ℝ D)
    (h : runQWrites s ws = some t) (i : Fin D.length) (hi : ∀ w ∈ ws, w.i ≠ i) : t i = s i := by
  induction ws generalizing s with
  | nil =>
    simp only [runQWrites, List.foldlM_nil, Option.pure_def, Option.some.injEq] at h
    rw [h]
  | cons w ws ih =>
    simp only [runQWrites, List.foldlM_cons, Option.bind_eq_bind, Option.bind_eq_some_iff] at h
    obtain ⟨s', h1, h2⟩ := h
    rw [ih s' h2 fun w hw => hi w (List.mem_cons_of_mem _ hw)]
    unfold writeQBlock at h1
    split at h1
    · cases h1
      exact Function.update_of_ne (hi w List.mem_cons_self).symm _ _
    · cases h1

/-- **C129, what is written to the noise blocks of core states has no effect.**  Two filters, with any
auxiliary states, whose managers agree on the noise blocks of the auxiliary states and on the four noise
parameters of the IMU: in every environment and for every sequence of calls the two runs are the same, with
everything that is published and with all undefined behaviour. -/
theorem C129_ignored_partial (np np' : NoiseParams ℝ (coreDef aux)) (h : SameNoise np np')
    (uc : UserCalc (coreDef aux)) (env : Env)
    (calls : List (Api (V3 ℝ) (V3 ℝ) (Option (Values (coreDef aux)))
      (Option (ErrMat ℝ (coreDef aux))) Reading ExtState)) :
    Core.apis env (readingKernel np uc) (Core.new (readingKernel np uc)) calls =
      Core.apis env (readingKernel np' uc) (Core.new (readingKernel np' uc)) calls := by
  rw [h.kernel uc]

/-- **C129 with relative measurements.**  The same for filters that also get relative poses. -/
theorem C129_relative_partial (np np' : NoiseParams ℝ (coreDef aux)) (h : SameNoise np np')
    (uc : UserCalc (coreDef aux)) (env : Env)
    (calls : List (Api (V3 ℝ) (V3 ℝ) (Option (Values (coreDef aux)))
      (Option (ErrMat ℝ (coreDef aux)) × Option (ErrMat ℝ (coreDef aux))) RelReading ExtState)) :
    (relKernel np uc).run env calls = (relKernel np' uc).run env calls := by
  rw [h.relKernel uc]

/-- **C129, extra assignments.**  A manager does what `np` does and afterwards makes assignments to noise
blocks of core states, which may depend on the state and the interval: the runs are those without the extra
assignments. -/
theorem C129_writes_partial (np : NoiseParams ℝ (coreDef aux))
    (ws : Vars ℝ (coreDef aux) → ℝ → List (QWrite ℝ (coreDef aux)))
    (hw : ∀ s dt, ∀ w ∈ ws s dt, ((coreDef aux).get w.i).IsCore)
    (qAux : Vars ℝ (coreDef aux) → ℝ → Vars ℝ (coreDef aux))
    (hq : ∀ s dt, runQWrites (np.qAux s dt) (ws s dt) = some (qAux s dt))
    (uc : UserCalc (coreDef aux)) (env : Env)
    (calls : List (Api (V3 ℝ) (V3 ℝ) (Option (Values (coreDef aux)))
      (Option (ErrMat ℝ (coreDef aux))) Reading ExtState)) :
    Core.apis env (readingKernel { np with qAux := qAux } uc)
        (Core.new (readingKernel { np with qAux := qAux } uc)) calls =
      Core.apis env (readingKernel np uc) (Core.new (readingKernel np uc)) calls := by
  have h : SameNoise { np with qAux := qAux } np := by
    refine ⟨rfl, rfl, rfl, rfl, fun s dt i hi => ?_⟩
    have := writes_other _ _ _ (hq s dt) i fun w hm e => hi (e ▸ hw s dt w hm)
    exact congrArg StateVar.Q this
  exact C129_ignored_partial _ np h uc env calls

/-- **C129, the assignments are accepted.**  No filter is protected: in every state definition that has a
core state, the assignment to its noise block compiles, and the block has the value afterwards. -/
theorem C129_accepted_violated (D : List VarDesc) (i : Fin D.length) (h : (D.get i).IsCore) :
    ¬ CoreBlocksProtected D ∧
      ∀ (s : Vars ℝ D) B, ∃ t, writeQBlock s i B = some t ∧ (t i).Q = B ∧ ∀ j ≠ i, t j = s j := by
  have hw : ∀ (s : Vars ℝ D) B, writeQBlock s i B = some (Function.update s i { s i with Q := B }) := by
    intro s B
    unfold writeQBlock
    rw [if_pos]
    rcases h with h | h <;> rw [h] <;> rfl
  refine ⟨fun hp => ?_, fun s B => ⟨_, hw s B, by rw [Function.update_self],
    fun j hj => Function.update_of_ne hj _ _⟩⟩
  have := hp (noInit D) i h 0
  rw [hw] at this
  cases this

/-- **C129, the const version cannot be used.**  Reading a noise block through the const version, which is
what the message of the `static_assert` recommends, does not compile for any state of any filter. -/
theorem C129_read_violated (D : List VarDesc) (s : Vars ℝ D) (i : Fin D.length) :
    readQBlock s i = none ∧ ¬ BlocksReadable D := by
  have h : ∀ (s : Vars ℝ D) (i : Fin D.length), readQBlock s i = none := fun s i => rfl
  refine ⟨h s i, fun hr => ?_⟩
  have := hr s i
  rw [h] at this
  cases this

/-! ### Examples -/

/-- The pose filter with a manager that also sets the noise block of the position. -/
noncomputable example (np : NoiseParams ℝ (coreDef poseAux)) (uc : UserCalc (coreDef poseAux)) (env : Env)
    (calls : List (Api (V3 ℝ) (V3 ℝ) (Option (Values (coreDef poseAux)))
      (Option (ErrMat ℝ (coreDef poseAux))) Reading ExtState)) :
    Core.apis env (readingKernel { np with qAux := fun s dt => setQBlock (np.qAux s dt) ip dt 3 } uc)
        (Core.new (readingKernel { np with qAux := fun s dt => setQBlock (np.qAux s dt) ip dt 3 } uc)) calls =
      Core.apis env (readingKernel np uc) (Core.new (readingKernel np uc)) calls :=
  C129_writes_partial np (fun _ dt => [⟨ip, Matrix.diagonal fun _ => dt * (3 * 3)⟩])
    (fun s dt w hw => by
      rw [List.mem_singleton] at hw
      subst hw
      exact .inl rfl) _ (fun s dt => rfl) uc env calls

/-- The attitude of the pose filter is a core state. -/
example : ¬ CoreBlocksProtected (coreDef poseAux) := (C129_accepted_violated _ iq (.inl rfl)).1

end MSF
