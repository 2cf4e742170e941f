import Verif.Lemmas.Translate
import Verif.Lemmas.InputMap

/-! Adding constants to the biases and to the inputs commutes with the numerics of the filter. -/

namespace MSF

open Matrix EKFState

variable {aux : List VarDesc} {a : Values (coreDef aux)}

/-- Only the biases and auxiliary variables are changed. -/
structure BiasOnly (a : Values (coreDef aux)) : Prop where
  pos : off3 a ip rfl = 0
  vel : off3 a iv rfl = 0
  core : ∀ i, ((coreDef aux).get i).stype = .coreProp → a i = Val.reset _
  mult : ∀ i, ((coreDef aux).get i).multiplicative = true → a i = Val.reset _

/-- The input with the offsets of the biases added. -/
def offInput (a : Values (coreDef aux)) (u : Input (V3 ℝ) (V3 ℝ)) : Input (V3 ℝ) (V3 ℝ) :=
  ⟨u.a + off3 a iba rfl, u.w + off3 a ibw rfl⟩

theorem BiasOnly.p_eq (h : BiasOnly a) (s : Vars ℝ (coreDef aux)) : p (movedVars a s) = p s := by
  change p s + off3 a ip rfl = p s
  rw [h.pos, add_zero]

theorem BiasOnly.v_eq (h : BiasOnly a) (s : Vars ℝ (coreDef aux)) : v (movedVars a s) = v s := by
  change v s + off3 a iv rfl = v s
  rw [h.vel, add_zero]

theorem bw_moved (s : Vars ℝ (coreDef aux)) : b_w (movedVars a s) = b_w s + off3 a ibw rfl := rfl

theorem ba_moved (s : Vars ℝ (coreDef aux)) : b_a (movedVars a s) = b_a s + off3 a iba rfl := rfl

theorem lerp_add (tl tr : ℚ) (x y c : V3 ℝ) (t : ℚ) :
    lerp tl tr x y t + c = lerp tl tr (x + c) (y + c) t := by
  simp only [lerp, add_sub_add_right_eq_sub]
  abel

theorem offInput_lerp (tl tr : ℚ) (ul ur : Input (V3 ℝ) (V3 ℝ)) (t : ℚ) :
    offInput a (lerpInput tl tr ul ur t) = lerpInput tl tr (offInput a ul) (offInput a ur) t := by
  simp only [offInput, lerpInput, lerp_add]

/-- `PropagateState` commutes with the change. -/
theorem propagate_biased (h : BiasOnly a) (old new : EKFState ℝ (coreDef aux)) :
    propagateState { old with vars := movedVars a old.vars, w_m := old.w_m + off3 a ibw rfl,
                              a_m := old.a_m + off3 a iba rfl }
      { new with w_m := new.w_m + off3 a ibw rfl, a_m := new.a_m + off3 a iba rfl } =
      (propagateState old new).map fun s =>
        { s with vars := movedVars a s.vars, w_m := s.w_m + off3 a ibw rfl,
                 a_m := s.a_m + off3 a iba rfl } := by
  unfold propagateState
  simp only [b_w_copy, b_a_copy, bw_moved, ba_moved, Movable.q_eq, add_sub_add_right_eq_sub]
  generalize (Quat.ofCoeffs ((quatInt (new.w_m - b_w old.vars) (old.w_m - b_w old.vars)
    (new.time - old.time)).mulVec (q old.vars).coeffs)).normalize = o
  cases o with
  | none => rfl
  | some qn =>
    simp only [Option.map_some, Option.some.injEq, EKFState.mk.injEq, and_true]
    simp only [q_setQ, v_setV, h.v_eq, h.p_eq]
    funext i
    by_cases hc : ((coreDef aux).get i).stype = .coreProp
    · have hm : ∀ s : Vars ℝ (coreDef aux), movedVars a s i = s i := by
        intro s
        simp only [movedVars, h.core i hc, addVal_reset]
      rw [hm]
      by_cases hip : i = ip
      · subst hip; simp only [setP, Function.update_self]; rfl
      · have e1 : ∀ s (x : V3 ℝ), (setP s x : Vars ℝ (coreDef aux)) i = s i := fun s x =>
          Function.update_of_ne hip _ _
        rw [e1, e1]
        by_cases hiv : i = iv
        · subst hiv; simp only [setV, setQ, Function.update_self]; rfl
        · have e2 : ∀ s (x : V3 ℝ), (setV s x : Vars ℝ (coreDef aux)) i = s i := fun s x =>
            Function.update_of_ne hiv _ _
          rw [e2, e2]
          by_cases hiq : i = iq
          · subst hiq; simp only [setQ, Function.update_self]; rfl
          · have e3 : ∀ s (x : Quat ℝ), (setQ s x : Vars ℝ (coreDef aux)) i = s i := fun s x =>
              Function.update_of_ne hiq _ _
            rw [e3, e3]
            unfold copyNonPropagationStates
            rw [if_pos hc, if_pos hc]
    · rw [other_setP _ _ _ hc, other_setV _ _ _ hc, other_setQ _ _ _ hc]
      unfold movedVars
      rw [other_setP _ _ _ hc, other_setV _ _ _ hc, other_setQ _ _ _ hc]
      unfold copyNonPropagationStates
      rw [if_neg hc, if_neg hc]

/-- `PredictProcessCovariance` does not see the change. -/
theorem predict_biased (np : NoiseParams ℝ (coreDef aux))
    (hq : ∀ s dt i, (np.qAux (movedVars a s) dt i).Q = (np.qAux s dt i).Q)
    (old new : EKFState ℝ (coreDef aux)) (t : ℝ) :
    (predictProcessCovariance np old { new with vars := movedVars a new.vars
                                                w_m := new.w_m + off3 a ibw rfl
                                                a_m := new.a_m + off3 a iba rfl } t).map
        (fun r => r.2.1.P) =
      (predictProcessCovariance np old new t).map (fun r => r.2.1.P) := by
  unfold predictProcessCovariance
  simp only [bw_moved, ba_moved, Movable.q_eq, add_sub_add_right_eq_sub]
  split
  · rfl
  · have hcopy : ∀ Q, copyQBlocks (np.qAux (movedVars a new.vars) (new.time - old.time)) Q =
        copyQBlocks (np.qAux new.vars (new.time - old.time)) Q := by
      intro Q
      unfold copyQBlocks
      congr 1
      funext Q i
      unfold copyQBlock
      rw [hq]
    simp only [hcopy, Option.bind_eq_bind]
    cases coreStarts (coreDef aux) with
    | none => rfl
    | some s =>
      simp only [Option.bind_some]
      cases calcQCore _ old.Qd with
      | none => rfl
      | some Qd =>
        simp only [Option.bind_some]
        cases copyQBlocks _ Qd with
        | none => rfl
        | some Q => rfl

theorem ext_biased (h : BiasOnly a) (x : Values (coreDef aux)) (y z : V3 ℝ) (w : Quat ℝ) :
    values (setQ (setV (setP (toVars (moved a x)) y) z) w) =
      moved a (values (setQ (setV (setP (toVars x) y) z) w)) := by
  funext i
  by_cases hc : ((coreDef aux).get i).stype = .coreProp
  · have hm : ∀ s : Values (coreDef aux), moved a s i = s i := by
      intro s
      simp only [moved, h.core i hc, addVal_reset]
    rw [hm]
    unfold values
    by_cases hiq : i = iq
    · subst hiq; simp only [setQ, Function.update_self]; rfl
    · have e3 : ∀ s (x : Quat ℝ), (setQ s x : Vars ℝ (coreDef aux)) i = s i := fun s x =>
        Function.update_of_ne hiq _ _
      rw [e3, e3]
      by_cases hiv : i = iv
      · subst hiv; simp only [setV, Function.update_self]; rfl
      · have e2 : ∀ s (x : V3 ℝ), (setV s x : Vars ℝ (coreDef aux)) i = s i := fun s x =>
          Function.update_of_ne hiv _ _
        rw [e2, e2]
        by_cases hip : i = ip
        · subst hip; simp only [setP, Function.update_self]; rfl
        · have e1 : ∀ s (x : V3 ℝ), (setP s x : Vars ℝ (coreDef aux)) i = s i := fun s x =>
            Function.update_of_ne hip _ _
          rw [e1, e1]
          exact hm x
  · unfold values moved
    simp only [other_setQ _ _ _ hc, other_setV _ _ _ hc, other_setP _ _ _ hc]
    rfl

/-- The change is a morphism of the kernel of a filter with sensors. -/
noncomputable def biasHom (h : BiasOnly a) (np : NoiseParams ℝ (coreDef aux))
    (hq : ∀ s dt i, (np.qAux (movedVars a s) dt i).Q = (np.qAux s dt i).Q)
    (uc : UserCalc (coreDef aux))
    (hs : ∀ x y c, uc.sanity (movedVars a x) (movedVars a y) c = movedVars a (uc.sanity x y c)) :
    IHom (sensorKernel np uc) (sensorKernel np uc) where
  u := offInput a
  x := Option.map (moved a)
  c := id
  m _ := SensorMeas.moved a
  t := id
  e := id
  lerp := offInput_lerp
  prop dt u x u' := by
    cases x with
    | none => simp only [sensorKernel, filterKernel, Option.map_none, Option.bind_eq_bind, Option.bind_none]
    | some x =>
      have e := propagate_biased h (mkState (toVars x) u 0 0) (mkState (noInit _) u' (dt : ℝ) 0)
      simp only [sensorKernel, filterKernel, Option.map_some, Option.bind_eq_bind, Option.bind_some]
      refine Eq.trans (congrArg (fun o : Option (EKFState ℝ (coreDef aux)) =>
        o.bind fun s => some (values s.vars)) e) ?_
      cases propagateState (mkState (toVars x) u 0 0) (mkState (noInit _) u' (dt : ℝ) 0) <;> rfl
  extProp e x := by
    cases x with
    | none => rfl
    | some x =>
      simp only [sensorKernel, filterKernel, Option.map_some, Option.some.injEq, id]
      exact ext_biased h x e.p e.v e.q
  predP dt P u x := by
    cases P with
    | none => simp only [sensorKernel, filterKernel, id, Option.bind_eq_bind, Option.bind_none]
    | some P =>
      cases x with
      | none =>
        simp only [sensorKernel, filterKernel, id, Option.map_none, Option.bind_eq_bind,
          Option.bind_none, Option.bind_some]
      | some x =>
        have e := predict_biased np hq (mkState (noInit _) ⟨0, 0⟩ 0 P)
          (mkState (toVars x) u (dt : ℝ) 0) 0
        simp only [sensorKernel, filterKernel, Option.map_some, Option.bind_eq_bind, Option.bind_some,
          id]
        have e2 : mkState (toVars (moved a x)) (offInput a u) (dt : ℝ) 0 =
          { mkState (toVars x) u (dt : ℝ) 0 with
            vars := movedVars a (mkState (toVars x) u (dt : ℝ) 0).vars
            w_m := (mkState (toVars x) u (dt : ℝ) 0).w_m + off3 a ibw rfl
            a_m := (mkState (toVars x) u (dt : ℝ) 0).a_m + off3 a iba rfl } := rfl
        rw [e2]
        have e3 : ∀ o : Option (EKFState ℝ (coreDef aux) × EKFState ℝ (coreDef aux) × ℝ),
            (o.bind fun r => some r.2.1.P) = o.map fun r => r.2.1.P := fun o => by cases o <;> rfl
        exact (e3 _).trans (e.trans (e3 _).symm)
  update _ tr m x P := by
    cases x with
    | none => rfl
    | some x =>
      cases P with
      | none => rfl
      | some P =>
        have e : sensorUpdate uc tr (m.moved a) (MSF.moved a x) P =
            (sensorUpdate uc tr m x P).map fun u => ⟨u.tr, MSF.moved a u.x, u.P, u.applied, u.fuzzy⟩ := by
          unfold sensorUpdate
          simp only [Option.bind_eq_bind]
          change (clearFixed m.fixed m.cleared P).bind _ = _
          cases clearFixed m.fixed m.cleared P with
          | none => rfl
          | some P => exact measUpdate_moved h.mult uc hs tr m.toAbsMeas x P
        simp only [sensorKernel, Option.map_some, id, e]
        cases sensorUpdate uc tr m x P <;> rfl
  P0 := rfl
  tr0 := rfl
  numX _ := rfl
  numPos _ := rfl

end MSF
