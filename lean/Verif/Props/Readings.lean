import Verif.Props.FilterKernel

/-!
# The kernel fed with sensor readings is the code's `Apply`

`readingKernel` computes from values and covariance alone; here its update is shown to be `Apply` of
the five shipped absolute measurements on arbitrary state objects, with fixed states, outlier gate
and fuzzy-tracking check.
-/

namespace MSF

open Matrix EKFState

variable {aux : List VarDesc}

/-- The hooks look at values only. -/
def UserCalc.ByValue {D : List VarDesc} (uc : UserCalc D) : Prop :=
  ∀ a a' b b' c, values a = values a' → values b = values b' →
    values (uc.sanity a b c) = values (uc.sanity a' b' c)

theorem plainCalc_byValue (fixedBias : Bool) :
    (plainCalc fixedBias : UserCalc (coreDef aux)).ByValue := fun _ _ _ _ _ h _ => h

theorem scaleCalc_byValue {rest : List VarDesc} (fixedBias : Bool) :
    (scaleCalc fixedBias : UserCalc (coreDef (⟨.vec 1, 5, .aux, 0⟩ :: rest))).ByValue := by
  intro a a' b b' c h _
  change values (scaleSanity a) = values (scaleSanity a')
  have hi : ∀ i, (a i).val = (a' i).val := fun i => congrFun h i
  unfold scaleSanity
  simp only
  rw [hi]
  split
  · funext j
    unfold values
    by_cases hj : j = ⟨5, by simp [coreDef, coreDescs]⟩
    · subst hj
      simp only [Function.update_self]
      rfl
    · simp only [Function.update_of_ne hj, hi]
  · exact h

theorem copy_values {D : List VarDesc} {a a' b b' : Vars ℝ D} (ha : values a = values a')
    (hb : values b = values b') :
    values (copyNonPropagationStates a b) = values (copyNonPropagationStates a' b') := by
  funext i
  unfold values copyNonPropagationStates
  split
  · exact congrFun hb i
  · exact congrFun ha i

/-- The fuzzy-tracking check works on values. -/
theorem fuzzyCheck_values {D : List VarDesc} (t : Tracker ℝ) {a a' b b' : Vars ℝ D} (thr : ℝ)
    (ha : values a = values a') (hb : values b = values b') :
    (fuzzyCheck' t a b thr).map (fun r => (r.1, values r.2.1, r.2.2)) =
      (fuzzyCheck' t a' b' thr).map fun r => (r.1, values r.2.1, r.2.2) := by
  unfold fuzzyCheck'
  split
  · simp only [Option.map_some, ha]
  · unfold fuzzyCheck
    simp only [Option.bind_eq_bind]
    cases bestIndex D with
    | none => rfl
    | some i =>
      simp only [Option.bind_some]
      rw [show (a i).val = (a' i).val from congrFun ha i]
      cases quatOf _ (a' i).val with
      | none => rfl
      | some q =>
        simp only [Option.bind_some]
        split
        · split
          · simp only [Option.pure_def, Option.map_some, copy_values hb ha]
          · cases t.writeRow (t.timer - nBuff - 1) q with
            | none => rfl
            | some w => simp only [Option.bind_some, Option.pure_def, Option.map_some, ha]
        · cases t.writeRow (t.timer - 1) q with
          | none => rfl
          | some w => simp only [Option.bind_some, Option.pure_def, Option.map_some, ha]

/-- `ApplyCorrection` works on values. -/
theorem applyCorrection_values {uc : UserCalc (coreDef aux)} (hu : uc.ByValue) (t : Tracker ℝ)
    {s s' : Vars ℝ (coreDef aux)} (h : values s = values s')
    (c : Fin (total errLen (coreDef aux)) → ℝ) :
    (applyCorrection uc t s c).map (fun r => (r.1, values r.2.1, r.2.2)) =
      (applyCorrection uc t s' c).map fun r => (r.1, values r.2.1, r.2.2) := by
  unfold applyCorrection
  simp only [Option.bind_eq_bind]
  have := correct_values s s' h (if uc.fixedBias then zeroBias (uc.augment c) else uc.augment c)
  cases h1 : correct s (if uc.fixedBias then zeroBias (uc.augment c) else uc.augment c) with
  | none =>
    cases h2 : correct s' (if uc.fixedBias then zeroBias (uc.augment c) else uc.augment c) with
    | none => rfl
    | some y => rw [h1, h2] at this; cases this
  | some x =>
    cases h2 : correct s' (if uc.fixedBias then zeroBias (uc.augment c) else uc.augment c) with
    | none => rw [h1, h2] at this; cases this
    | some y =>
      rw [h1, h2, Option.map_some, Option.map_some, Option.some.injEq] at this
      simp only [Option.bind_some]
      exact fuzzyCheck_values _ _ (hu _ _ _ _ _ this h) h

/-- `CalculateAndApplyCorrection` on a state object and the kernel's update agree. -/
theorem measUpdate_refines {uc : UserCalc (coreDef aux)} (hu : uc.ByValue) (tr : Tracker ℝ)
    (m : AbsMeas (coreDef aux)) (s : EKFState ℝ (coreDef aux))
    (hH : m.H (toVars (values s.vars)) = m.H s.vars)
    (hr : m.r (toVars (values s.vars)) = m.r s.vars) :
    (measUpdate uc tr m (values s.vars) s.P).map (fun u => (u.tr, u.x, u.P, u.fuzzy)) =
      ((m.H s.vars).bind fun H => (m.r s.vars).bind fun r =>
        updateState uc tr s m.enable m.thr H r m.R).map
        fun r => (r.1, values r.2.1.vars, r.2.1.P, r.2.2) := by
  unfold measUpdate
  rw [hH, hr]
  simp only [Option.bind_eq_bind]
  cases m.H s.vars with
  | none => rfl
  | some H =>
    cases m.r s.vars with
    | none => rfl
    | some r =>
      simp only [Option.bind_some, updateState, Option.bind_eq_bind]
      cases calculateCorrection m.enable m.thr s.P H r m.R with
      | none => rfl
      | some o =>
        cases o with
        | none => rfl
        | some cP =>
          have := applyCorrection_values hu tr (s := toVars (values s.vars)) (s' := s.vars) rfl cP.1
          simp only [Option.bind_some]
          cases h1 : applyCorrection uc tr (toVars (values s.vars)) cP.1 with
          | none =>
            cases h2 : applyCorrection uc tr s.vars cP.1 with
            | none => rfl
            | some y => rw [h1, h2] at this; cases this
          | some x =>
            cases h2 : applyCorrection uc tr s.vars cP.1 with
            | none => rw [h1, h2] at this; cases this
            | some y =>
              rw [h1, h2, Option.map_some, Option.map_some, Option.some.injEq, Prod.mk.injEq,
                Prod.mk.injEq] at this
              simp only [Option.bind_some, Option.map_some, this]

/-- `Apply` of the shipped absolute measurements on a state object. -/
noncomputable def Reading.apply (uc : UserCalc (coreDef aux)) (tr : Tracker ℝ) (rd : Reading)
    (s : EKFState ℝ (coreDef aux)) : Option (Tracker ℝ × EKFState ℝ (coreDef aux) × Bool) :=
  match rd with
  | .position pip fixed enable thr z R_ => positionApply uc tr pip fixed true enable thr z R_ s
  | .pose ix fixed enable thr z => poseApply uc tr ix fixed enable thr z s
  | .pressure bp enable thr z n => pressureApply uc tr bp enable thr z n s
  | .angle pip fixed enable thr z n => angleApply uc tr pip fixed true enable thr z n s
  | .distance pip fixed enable thr z n => distanceApply uc tr pip fixed true enable thr z n s

/-- **The kernel's update is `Apply`**: for every reading and every state object, tracker, values,
covariance and result of the fuzzy check after `Apply` are those the kernel computes from the values
and the covariance; one fails if and only if the other does. -/
theorem reading_apply_refines {uc : UserCalc (coreDef aux)} (hu : uc.ByValue) (tr : Tracker ℝ)
    (rd : Reading) (s : EKFState ℝ (coreDef aux)) :
    (sensorUpdate uc tr rd.meas (values s.vars) s.P).map (fun u => (u.tr, u.x, u.P, u.fuzzy)) =
      (rd.apply uc tr s).map fun r => (r.1, values r.2.1.vars, r.2.1.P, r.2.2) := by
  have key : ∀ (m : SensorMeas (coreDef aux)) (hH : m.H (toVars (values s.vars)) = m.H s.vars)
      (hr : m.r (toVars (values s.vars)) = m.r s.vars),
      (sensorUpdate uc tr m (values s.vars) s.P).map (fun u => (u.tr, u.x, u.P, u.fuzzy)) =
      ((clearFixed m.fixed m.cleared s.P).bind fun P => (m.H s.vars).bind fun H =>
        (m.r s.vars).bind fun r => updateState uc tr { s with P := P } m.enable m.thr H r m.R).map
        fun r => (r.1, values r.2.1.vars, r.2.1.P, r.2.2) := by
    intro m hH hr
    unfold sensorUpdate
    rw [Option.bind_eq_bind]
    cases clearFixed m.fixed m.cleared s.P with
    | none => rfl
    | some P => exact measUpdate_refines hu tr m.toAbsMeas { s with P := P } hH hr
  cases rd with
  | position pip fixed enable thr z R_ =>
    refine (key _ rfl rfl).trans ?_
    simp only [Reading.apply, positionApply, if_true, Reading.meas]
    rfl
  | pose ix fixed enable thr z =>
    refine (key _ rfl rfl).trans ?_
    simp only [Reading.apply, poseApply, Reading.meas, Option.bind_eq_bind, Option.bind_assoc]
    rfl
  | pressure bp enable thr z n =>
    refine (key _ rfl rfl).trans ?_
    simp only [Reading.apply, pressureApply, Reading.meas, Option.bind_eq_bind, clearFixed,
      List.foldlM_nil, Option.pure_def, Option.bind_some]
    rfl
  | angle pip fixed enable thr z n =>
    refine (key _ rfl rfl).trans ?_
    simp only [Reading.apply, angleApply, if_true, Reading.meas]
    rfl
  | distance pip fixed enable thr z n =>
    refine (key _ rfl rfl).trans ?_
    simp only [Reading.apply, distanceApply, if_true, Reading.meas]
    rfl

end MSF
