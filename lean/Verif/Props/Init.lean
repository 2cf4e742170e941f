import Verif.Props.InitCov

/-!
# C110: initialisation takes over what it is given
-/

namespace MSF

variable {D : List VarDesc}

/-- Calls of `SetStateInitValue<INDEX>` on a new init measurement. -/
def setInits (D : List VarDesc) (sets : List ((i : Fin D.length) × Val ℝ (D.get i).kind)) : Vars ℝ D :=
  sets.foldl (fun s y => setInit s y.1 y.2) (noInit D)

theorem setInits_append (pre post : List ((i : Fin D.length) × Val ℝ (D.get i).kind)) :
    setInits D (pre ++ post) = post.foldl (fun s y => setInit s y.1 y.2) (setInits D pre) :=
  List.foldl_append

theorem setInits_other (i : Fin D.length) (sets : List ((i : Fin D.length) × Val ℝ (D.get i).kind))
    (h : ∀ y ∈ sets, y.1 ≠ i) (s : Vars ℝ D) : (sets.foldl (fun s y => setInit s y.1 y.2) s) i = s i := by
  induction sets generalizing s with
  | nil => rfl
  | cons y ys ih =>
    rw [List.foldl_cons, ih (fun z hz => h z (List.mem_cons_of_mem _ hz))]
    exact Function.update_of_ne (h y List.mem_cons_self).symm _ _

/-- **C110.**  After `Init` with an init measurement on which values were set, in any number and order: every
variable that was set has the value it was given last, every other one is zero or the identity; the time is
that of the measurement; the inputs are those given, or zero if the measurement says that it has none; and a
covariance other than zero is taken over. -/
theorem C110_values (sets : List ((i : Fin D.length) × Val ℝ (D.get i).kind)) (P : ErrMat ℝ D) (a w : V3 ℝ)
    (t : ℝ) (readings : Bool) (s : EKFState ℝ D) (hs : s = coreInit ⟨setInits D sets, P, a, w, t, readings⟩) :
    (∀ pre i x post, sets = pre ++ ⟨i, x⟩ :: post → (∀ y ∈ post, y.1 ≠ i) → (s.vars i).val = x) ∧
    (∀ i, (∀ y ∈ sets, y.1 ≠ i) → (s.vars i).val = match (D.get i).kind with
      | .vec _ => fun _ => 0
      | .quat => ⟨1, 0, 0, 0⟩) ∧
    s.time = t ∧ (readings = true → s.a_m = a ∧ s.w_m = w) ∧
    (readings = false → s.a_m = 0 ∧ s.w_m = 0) ∧ (P ≠ 0 → s.P = P) := by
  subst hs
  refine ⟨?_, ?_, rfl, ?_, ?_, ?_⟩
  · rintro pre i x post rfl h
    have e : setInits D (pre ++ ⟨i, x⟩ :: post) i =
        { setInits D pre i with val := x, hasReset := true } := by
      rw [setInits_append, List.foldl_cons, setInits_other i post h]
      exact Function.update_self ..
    change (copyInitStates (setInits D (pre ++ ⟨i, x⟩ :: post)) (noInit D) i).val = x
    unfold copyInitStates
    rw [if_pos (by rw [e]), e]
  · intro i h
    have e : setInits D sets i = noInit D i := setInits_other i sets h _
    change (copyInitStates (setInits D sets) (noInit D) i).val = _
    unfold copyInitStates
    rw [if_neg (by rw [e]; simp [noInit])]
    change Val.reset _ = _
    cases (D.get i).kind <;> rfl
  · rintro rfl
    exact ⟨rfl, rfl⟩
  · rintro rfl
    exact ⟨rfl, rfl⟩
  · intro h
    exact if_neg h

/-- **C110 is violated for the covariance zero**, that is for a user who knows the state exactly: the default is
used instead, in every filter. -/
theorem C110_zero_violated (aux : List VarDesc) (vars : Vars ℝ (coreDef aux)) (a w : V3 ℝ) (t : ℝ) (readings : Bool) :
    (coreInit ⟨vars, 0, a, w, t, readings⟩).P ≠ 0 := by
  rw [coreInit_P _ rfl]
  intro h
  have ht := total_core aux
  have := congrFun (congrFun h ⟨0, by omega⟩) ⟨0, by omega⟩
  rw [setPCore_core _ _ (by norm_num) (by norm_num), symInPlace_diag, pCoreRaw_apply] at this
  norm_num [tab, pCoreTable] at this

/-- Non-vacuity of `C110_values`: the position is set twice, the rest is not. -/
example : setInits (coreDef []) [⟨⟨0, by decide⟩, (fun _ => 1 : Fin 3 → ℝ)⟩, ⟨⟨0, by decide⟩, (fun _ => 2 : Fin 3 → ℝ)⟩]
    ≠ noInit _ ∧ (1 : ErrMat ℝ (coreDef [])) ≠ 0 := by
  refine ⟨fun h => ?_, fun h => by
    simpa using congrFun (congrFun h ⟨0, by decide⟩) ⟨0, by decide⟩⟩
  have := congrArg StateVar.hasReset (congrFun h ⟨0, by decide⟩)
  cases this

end MSF
