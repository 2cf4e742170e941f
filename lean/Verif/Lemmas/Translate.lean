import Verif.Props.FilterKernel
import Verif.Lemmas.CoreMap

/-! Adding constants to vector-valued state variables commutes with the numerics of the filter. -/

namespace MSF

open Matrix EKFState

/-- Add to a vector, leave a quaternion. -/
def addVal : (k : Kind) → Val ℝ k → Val ℝ k → Val ℝ k
  | .vec _, a, x => x + a
  | .quat, _, x => x

/-- The opposite of `addVal`. -/
def subVal : (k : Kind) → Val ℝ k → Val ℝ k → Val ℝ k
  | .vec _, a, x => x - a
  | .quat, _, x => x

theorem subVal_addVal : ∀ (k : Kind) (a x : Val ℝ k), subVal k a (addVal k a x) = x
  | .vec _, a, x => add_sub_cancel_right x a
  | .quat, _, _ => rfl

theorem addVal_reset : ∀ (k : Kind) (x : Val ℝ k), addVal k (Val.reset k) x = x
  | .vec _, x => add_zero x
  | .quat, _ => rfl

theorem subVal_reset : ∀ (k : Kind) (x : Val ℝ k), subVal k (Val.reset k) x = x
  | .vec _, x => sub_zero x
  | .quat, _ => rfl

variable {D : List VarDesc}

/-- The values with `a` added. -/
def moved (a x : Values D) : Values D := fun i => addVal _ (a i) (x i)

/-- The same for state objects. -/
def movedVars (a : Values D) (s : Vars ℝ D) : Vars ℝ D :=
  fun i => { s i with val := addVal _ (a i) (s i).val }

def unmovedVars (a : Values D) (s : Vars ℝ D) : Vars ℝ D :=
  fun i => { s i with val := subVal _ (a i) (s i).val }

theorem unmoved_moved (a : Values D) (s : Vars ℝ D) : unmovedVars a (movedVars a s) = s := by
  funext i
  simp only [unmovedVars, movedVars, subVal_addVal]

theorem toVars_moved (a x : Values D) : toVars (moved a x) = movedVars a (toVars x) := rfl

theorem values_movedVars (a : Values D) (s : Vars ℝ D) :
    values (movedVars a s) = moved a (values s) := rfl

theorem moved_update (a x : Values D) (i : Fin D.length) (y : Val ℝ (D.get i).kind) :
    moved a (Function.update x i y) = Function.update (moved a x) i (addVal _ (a i) y) := by
  funext j
  by_cases h : j = i
  · subst h; simp [moved]
  · simp [moved, h]

/-- What is added to a three-dimensional variable. -/
def off3 (a : Values D) (i : Fin D.length) (h : (D.get i).kind = .vec 3) : V3 ℝ :=
  cast (congrArg (Val ℝ) h) (a i)

/-- The variables that may be moved: the position and auxiliary vectors. -/
structure Movable {aux : List VarDesc} (a : Values (coreDef aux)) : Prop where
  vel : off3 a iv rfl = 0
  bw : off3 a ibw rfl = 0
  ba : off3 a iba rfl = 0
  core : ∀ i, i ≠ ip → ((coreDef aux).get i).stype = .coreProp → a i = Val.reset _
  mult : ∀ i, ((coreDef aux).get i).multiplicative = true → a i = Val.reset _

section
variable {aux : List VarDesc} {a : Values (coreDef aux)}

theorem Movable.q_eq (s : Vars ℝ (coreDef aux)) : q (movedVars a s) = q s := rfl

theorem Movable.p_eq (s : Vars ℝ (coreDef aux)) : p (movedVars a s) = p s + off3 a ip rfl := rfl

theorem Movable.v_eq (h : Movable a) (s : Vars ℝ (coreDef aux)) : v (movedVars a s) = v s := by
  change v s + off3 a iv rfl = v s
  rw [h.vel, add_zero]

theorem Movable.bw_eq (h : Movable a) (s : Vars ℝ (coreDef aux)) : b_w (movedVars a s) = b_w s := by
  change b_w s + off3 a ibw rfl = b_w s
  rw [h.bw, add_zero]

theorem Movable.ba_eq (h : Movable a) (s : Vars ℝ (coreDef aux)) : b_a (movedVars a s) = b_a s := by
  change b_a s + off3 a iba rfl = b_a s
  rw [h.ba, add_zero]

/-- `PropagateState` commutes with a translation. -/
theorem propagate_moved (h : Movable a) (old new : EKFState ℝ (coreDef aux)) :
    propagateState { old with vars := movedVars a old.vars } new =
      (propagateState old new).map fun s => { s with vars := movedVars a s.vars } := by
  unfold propagateState
  simp only [b_w_copy, b_a_copy, h.bw_eq, h.ba_eq, Movable.q_eq]
  split
  · rfl
  · rename_i qn _
    simp only [Option.map_some, Option.some.injEq, EKFState.mk.injEq, and_true]
    simp only [q_setQ, v_setV, h.v_eq, Movable.p_eq]
    funext i
    by_cases hip : i = ip
    · subst hip
      simp only [setP, Function.update_self, movedVars]
      refine congrArg₂ (fun x (y : StateVar ℝ (.vec 3)) => { y with val := x }) (?_ : (_ : V3 ℝ) = _) ?_
      · change p old.vars + off3 a ip rfl + _ = (p old.vars + _) + off3 a ip rfl
        abel
      · rfl
    · have e1 : ∀ s (x : V3 ℝ), (setP s x : Vars ℝ (coreDef aux)) i = s i := fun s x =>
        Function.update_of_ne hip _ _
      rw [e1]
      by_cases hc : ((coreDef aux).get i).stype = .coreProp
      · have hz := h.core i hip hc
        have hm : ∀ s : Vars ℝ (coreDef aux), movedVars a s i = s i := by
          intro s
          simp only [movedVars, hz, addVal_reset]
        rw [hm, e1]
        by_cases hiv : i = iv
        · subst hiv; simp only [setV, setQ, Function.update_self]; rfl
        · have e2 : ∀ s (x : V3 ℝ), (setV s x : Vars ℝ (coreDef aux)) i = s i := fun s x =>
            Function.update_of_ne hiv _ _
          rw [e2, e2]
          by_cases hiq : i = iq
          · subst hiq; simp only [setQ, Function.update_self]; rfl
          · have e3 : ∀ s (x : Quat ℝ), (setQ s x : Vars ℝ (coreDef aux)) i = s i := fun s x =>
              Function.update_of_ne hiq _ _
            rw [e3, e3]
            unfold copyNonPropagationStates
            rw [if_pos hc, if_pos hc]
      · rw [other_setV _ _ _ hc, other_setQ _ _ _ hc]
        unfold movedVars
        rw [other_setP _ _ _ hc, other_setV _ _ _ hc, other_setQ _ _ _ hc]
        unfold copyNonPropagationStates
        rw [if_neg hc, if_neg hc]

/-- `PredictProcessCovariance` does not see a translation. -/
theorem predict_moved (h : Movable a) (np : NoiseParams ℝ (coreDef aux))
    (hq : ∀ s dt i, (np.qAux (movedVars a s) dt i).Q = (np.qAux s dt i).Q)
    (old new : EKFState ℝ (coreDef aux)) (t : ℝ) :
    (predictProcessCovariance np old { new with vars := movedVars a new.vars } t).map
        (fun r => r.2.1.P) =
      (predictProcessCovariance np old new t).map (fun r => r.2.1.P) := by
  unfold predictProcessCovariance
  simp only [h.bw_eq, h.ba_eq, Movable.q_eq]
  split
  · rfl
  · have hcopy : ∀ Q, copyQBlocks (np.qAux (movedVars a new.vars) (new.time - old.time)) Q =
        copyQBlocks (np.qAux new.vars (new.time - old.time)) Q := by
      intro Q
      unfold copyQBlocks
      congr 1
      funext Q i
      unfold copyQBlock
      rw [hq]
    simp only [hcopy, Option.bind_eq_bind]
    cases coreStarts (coreDef aux) with
    | none => rfl
    | some s =>
      simp only [Option.bind_some]
      cases calcQCore _ old.Qd with
      | none => rfl
      | some Qd =>
        simp only [Option.bind_some]
        cases copyQBlocks _ Qd with
        | none => rfl
        | some Q => rfl

/-- `Correct` commutes with a translation. -/
theorem correctVal_moved {d : VarDesc} (c : Fin (total errLen D) → ℝ) : ∀ (k : Kind) (a x : Val ℝ k)
    (_ : d.multiplicative = true → a = Val.reset k),
    correctVal c d k (addVal k a x) = (correctVal c d k x).map (addVal k a)
  | .vec n, a, x, h => by
    simp only [correctVal, correctVec, addVal, Option.bind_eq_bind]
    cases startIndex errLen D d with
    | none => rfl
    | some st =>
      simp only [Option.bind_some]
      cases segment c st n with
      | none => rfl
      | some seg =>
        simp only [Option.bind_some]
        by_cases hm : d.multiplicative = true
        · rw [if_pos hm, if_pos hm, h hm]
          simp only [Option.map_some, Option.some.injEq]
          funext j
          change (x j + 0) * seg j = x j * seg j + 0
          ring
        · rw [if_neg hm, if_neg hm]
          simp only [Option.map_some, Option.some.injEq]
          funext j
          change x j + a j + seg j = x j + seg j + a j
          ring
  | .quat, a, x, _ => by
    change correctQuat c d x = (correctQuat c d x).map id
    rw [Option.map_id_fun]
    rfl

theorem correct_moved {b : Values D} (h : ∀ i, (D.get i).multiplicative = true → b i = Val.reset _)
    (s : Vars ℝ D) (c : Fin (total errLen D) → ℝ) :
    correct (movedVars b s) c = (correct s c).map (movedVars b) := by
  have key : ∀ i, ((correctVal c (D.get i) _ (movedVars b s i).val).map
        fun v => ({ movedVars b s i with val := v } : StateVar ℝ (D.get i).kind)) =
      ((correctVal c (D.get i) _ (s i).val).map fun v => { s i with val := v }).map
        fun y => { y with val := addVal _ (b i) y.val } := by
    intro i
    have e := correctVal_moved (d := D.get i) c (D.get i).kind (b i) (s i).val (h i)
    simp only [movedVars]
    rw [e]
    cases correctVal c (D.get i) _ (s i).val <;> rfl
  unfold correct
  simp only [key]
  unfold allSome
  by_cases hs : ∀ i, ((correctVal c (D.get i) _ (s i).val).map
      fun v => ({ s i with val := v } : StateVar ℝ (D.get i).kind)).isSome
  · have hs' : ∀ i, (((correctVal c (D.get i) _ (s i).val).map
      fun v => ({ s i with val := v } : StateVar ℝ (D.get i).kind)).map
        fun y => ({ y with val := addVal _ (b i) y.val } : StateVar ℝ (D.get i).kind)).isSome := by
      intro i
      rw [Option.isSome_map]
      exact hs i
    rw [dif_pos hs, dif_pos hs', Option.map_some]
    congr 1
    funext i
    rw [Option.get_map]
    rfl
  · have hs' : ¬ ∀ i, (((correctVal c (D.get i) _ (s i).val).map
      fun v => ({ s i with val := v } : StateVar ℝ (D.get i).kind)).map
        fun y => ({ y with val := addVal _ (b i) y.val } : StateVar ℝ (D.get i).kind)).isSome := by
      intro hh
      apply hs
      intro i
      have := hh i
      rwa [Option.isSome_map] at this
    rw [dif_neg hs, dif_neg hs']
    rfl

/-- The fuzzy check only looks at quaternions. -/
theorem quatOf_addVal : ∀ (k : Kind) (b x : Val ℝ k), quatOf k (addVal k b x) = quatOf k x
  | .vec _, _, _ => rfl
  | .quat, _, _ => rfl

theorem fuzzyCheck_moved (b : Values D) (t : Tracker ℝ) (x y : Vars ℝ D) (thr : ℝ) :
    fuzzyCheck' t (movedVars b x) (movedVars b y) thr =
      (fuzzyCheck' t x y thr).map fun r => (r.1, movedVars b r.2.1, r.2.2) := by
  have hcopy : copyNonPropagationStates (movedVars b y) (movedVars b x) =
      movedVars b (copyNonPropagationStates y x) := by
    funext i
    unfold copyNonPropagationStates movedVars
    by_cases hi : (D.get i).stype = .coreProp
    · simp only [hi, if_true]
    · simp only [hi, if_false]
  unfold fuzzyCheck'
  split
  · rfl
  · unfold fuzzyCheck
    simp only [Option.bind_eq_bind]
    cases bestIndex D with
    | none => rfl
    | some i =>
      simp only [Option.bind_some]
      have e : quatOf _ (movedVars b x i).val = quatOf _ (x i).val := quatOf_addVal _ _ _
      rw [e]
      cases quatOf _ (x i).val with
      | none => rfl
      | some q =>
        simp only [Option.bind_some]
        split
        · split
          · simp only [hcopy]; rfl
          · cases t.writeRow (t.timer - nBuff - 1) q <;> rfl
        · cases t.writeRow (t.timer - 1) q <;> rfl

/-- `ApplyCorrection` commutes with a translation the manager's check does not see. -/
theorem applyCorrection_moved (hm : ∀ i, ((coreDef aux).get i).multiplicative = true → a i = Val.reset _)
    (uc : UserCalc (coreDef aux))
    (hs : ∀ x y c, uc.sanity (movedVars a x) (movedVars a y) c = movedVars a (uc.sanity x y c))
    (t : Tracker ℝ) (s : Vars ℝ (coreDef aux)) (c : Fin (total errLen (coreDef aux)) → ℝ) :
    applyCorrection uc t (movedVars a s) c =
      (applyCorrection uc t s c).map fun r => (r.1, movedVars a r.2.1, r.2.2) := by
  unfold applyCorrection
  simp only [Option.bind_eq_bind, correct_moved hm]
  cases correct s (if uc.fixedBias = true then zeroBias (uc.augment c) else uc.augment c) with
  | none => rfl
  | some s' =>
    simp only [Option.map_some, Option.bind_some, hs]
    exact fuzzyCheck_moved _ _ _ _ _

/-- The measurement that answers on moved states as the given one on the original states. -/
def AbsMeas.moved {D : List VarDesc} (b : Values D) (m : AbsMeas D) : AbsMeas D :=
  { m with H := fun s => m.H (unmovedVars b s), r := fun s => m.r (unmovedVars b s) }

theorem measUpdate_moved (hm : ∀ i, ((coreDef aux).get i).multiplicative = true → a i = Val.reset _)
    (uc : UserCalc (coreDef aux))
    (hs : ∀ x y c, uc.sanity (movedVars a x) (movedVars a y) c = movedVars a (uc.sanity x y c))
    (t : Tracker ℝ) (m : AbsMeas (coreDef aux)) (x : Values (coreDef aux))
    (P : ErrMat ℝ (coreDef aux)) :
    measUpdate uc t (m.moved a) (moved a x) P =
      (measUpdate uc t m x P).map fun u => ⟨u.tr, moved a u.x, u.P, u.applied, u.fuzzy⟩ := by
  unfold measUpdate AbsMeas.moved
  simp only [toVars_moved, unmoved_moved, Option.bind_eq_bind]
  cases m.H (toVars x) with
  | none => rfl
  | some H =>
    simp only [Option.bind_some]
    cases m.r (toVars x) with
    | none => rfl
    | some r =>
      simp only [Option.bind_some]
      cases calculateCorrection m.enable m.thr P H r m.R with
      | none => rfl
      | some o =>
        simp only [Option.bind_some]
        cases o with
        | none => rfl
        | some cP =>
          simp only [applyCorrection_moved hm uc hs]
          cases applyCorrection uc t (toVars x) cP.1 with
          | none => rfl
          | some r => rfl

/-- Moving an externally propagated state. -/
def ExtState.moved (e : ExtState) (d : V3 ℝ) : ExtState := { e with p := e.p + d }

theorem moved_setP (s : Vars ℝ (coreDef aux)) (y : V3 ℝ) :
    moved a (values (setP s y)) = values (setP (movedVars a s) (y + off3 a ip rfl)) := by
  rw [values_setP]
  exact (moved_update a (values s) ip y).trans
    (values_setP (movedVars a s) (y + off3 a ip rfl)).symm

theorem moved_setV (h : Movable a) (s : Vars ℝ (coreDef aux)) (y : V3 ℝ) :
    moved a (values (setV s y)) = values (setV (movedVars a s) y) := by
  have ev : (addVal (.vec 3) (off3 a iv rfl) y : V3 ℝ) = y := by
    rw [h.vel]; exact add_zero y
  rw [values_setV]
  refine (moved_update a (values s) iv y).trans (Eq.trans ?_ (values_setV (movedVars a s) y).symm)
  exact congrArg (fun z : V3 ℝ => Function.update (moved a (values s)) iv z) ev

theorem moved_setQ (s : Vars ℝ (coreDef aux)) (y : Quat ℝ) :
    moved a (values (setQ s y)) = values (setQ (movedVars a s) y) := by
  rw [values_setQ]
  exact (moved_update a (values s) iq y).trans (values_setQ (movedVars a s) y).symm

theorem ext_moved (h : Movable a) (x : Values (coreDef aux)) (y z : V3 ℝ) (w : Quat ℝ) :
    values (setQ (setV (setP (toVars (moved a x)) (y + off3 a ip rfl)) z) w) =
      moved a (values (setQ (setV (setP (toVars x) y) z) w)) := by
  rw [moved_setQ]
  have e : ∀ s t : Vars ℝ (coreDef aux), values s = values t →
      values (setQ s w) = values (setQ t w) := fun s t e => by
    rw [values_setQ, values_setQ, e]
  refine e _ _ ?_
  have e' : ∀ s t : Vars ℝ (coreDef aux), values s = values t →
      values (setV s z) = values (setV t z) := fun s t e => by
    rw [values_setV, values_setV, e]
  exact (e' _ _ (moved_setP (toVars x) y).symm).trans (moved_setV h _ z).symm

/-- A translation is a morphism of the filter's kernel. -/
noncomputable def movedHom (h : Movable a) (np : NoiseParams ℝ (coreDef aux))
    (hq : ∀ s dt i, (np.qAux (movedVars a s) dt i).Q = (np.qAux s dt i).Q)
    (uc : UserCalc (coreDef aux))
    (hs : ∀ x y c, uc.sanity (movedVars a x) (movedVars a y) c = movedVars a (uc.sanity x y c)) :
    KHom (filterKernel np uc) (filterKernel np uc) where
  x := Option.map (moved a)
  c := id
  m _ := AbsMeas.moved a
  t := id
  e := fun e => e.moved (off3 a ip rfl)
  prop dt u x u' := by
    cases x with
    | none => rfl
    | some x =>
      have e := propagate_moved h (mkState (toVars x) u 0 0) (mkState (noInit _) u' (dt : ℝ) 0)
      simp only [filterKernel, Option.map_some, Option.bind_eq_bind, Option.bind_some]
      have e2 : mkState (toVars (moved a x)) u 0 0 =
        { mkState (toVars x) u 0 0 with vars := movedVars a (mkState (toVars x) u 0 0).vars } := rfl
      rw [e2, e]
      cases propagateState (mkState (toVars x) u 0 0) (mkState (noInit _) u' (dt : ℝ) 0) <;> rfl
  extProp e x := by
    cases x with
    | none => rfl
    | some x =>
      simp only [filterKernel, Option.map_some, Option.some.injEq]
      exact ext_moved h x e.p e.v e.q
  predP dt P u x := by
    cases P with
    | none => rfl
    | some P =>
      cases x with
      | none => rfl
      | some x =>
        have e := predict_moved h np hq (mkState (noInit _) ⟨0, 0⟩ 0 P)
          (mkState (toVars x) u (dt : ℝ) 0) 0
        simp only [filterKernel, Option.map_some, Option.bind_eq_bind, Option.bind_some, id]
        have e2 : mkState (toVars (moved a x)) u (dt : ℝ) 0 =
          { mkState (toVars x) u (dt : ℝ) 0 with
            vars := movedVars a (mkState (toVars x) u (dt : ℝ) 0).vars } := rfl
        rw [e2]
        have e3 : ∀ o : Option (EKFState ℝ (coreDef aux) × EKFState ℝ (coreDef aux) × ℝ),
            (o.bind fun r => some r.2.1.P) = o.map fun r => r.2.1.P := fun o => by cases o <;> rfl
        exact (e3 _).trans (e.trans (e3 _).symm)
  update _ tr m x P := by
    cases x with
    | none => rfl
    | some x =>
      cases P with
      | none => rfl
      | some P =>
        simp only [filterKernel, Option.map_some, id, measUpdate_moved h.mult uc hs]
        cases measUpdate uc tr m x P <;> rfl
  P0 := rfl
  tr0 := rfl
  spike _ := rfl
  numX _ := rfl
  numPos _ := rfl

def SensorMeas.moved {D : List VarDesc} (b : Values D) (m : SensorMeas D) : SensorMeas D :=
  { m with toAbsMeas := m.toAbsMeas.moved b }

/-- The same for sensors with fixed states. -/
noncomputable def sensorHom (h : Movable a) (np : NoiseParams ℝ (coreDef aux))
    (hq : ∀ s dt i, (np.qAux (movedVars a s) dt i).Q = (np.qAux s dt i).Q)
    (uc : UserCalc (coreDef aux))
    (hs : ∀ x y c, uc.sanity (movedVars a x) (movedVars a y) c = movedVars a (uc.sanity x y c)) :
    KHom (sensorKernel np uc) (sensorKernel np uc) where
  x := Option.map (moved a)
  c := id
  m _ := SensorMeas.moved a
  t := id
  e := fun e => e.moved (off3 a ip rfl)
  prop := (movedHom h np hq uc hs).prop
  extProp := (movedHom h np hq uc hs).extProp
  predP := (movedHom h np hq uc hs).predP
  update _ tr m x P := by
    cases x with
    | none => rfl
    | some x =>
      cases P with
      | none => rfl
      | some P =>
        have e : sensorUpdate uc tr (m.moved a) (MSF.moved a x) P =
            (sensorUpdate uc tr m x P).map fun u => ⟨u.tr, MSF.moved a u.x, u.P, u.applied, u.fuzzy⟩ := by
          unfold sensorUpdate
          simp only [Option.bind_eq_bind]
          change (clearFixed m.fixed m.cleared P).bind _ = _
          cases clearFixed m.fixed m.cleared P with
          | none => rfl
          | some P => exact measUpdate_moved h.mult uc hs tr m.toAbsMeas x P
        simp only [sensorKernel, Option.map_some, id, e]
        cases sensorUpdate uc tr m x P <;> rfl
  P0 := rfl
  tr0 := rfl
  spike _ := rfl
  numX _ := rfl
  numPos _ := rfl

end

/-- Readings are measurements. -/
noncomputable def readingHom {aux : List VarDesc} (np : NoiseParams ℝ (coreDef aux))
    (uc : UserCalc (coreDef aux)) : KHom (readingKernel np uc) (sensorKernel np uc) where
  x := id
  c := id
  m _ := Reading.meas
  t := id
  e := id
  prop _ _ _ _ := rfl
  extProp _ _ := rfl
  predP _ _ _ _ := rfl
  update _ _ _ _ _ := rfl
  P0 := rfl
  tr0 := rfl
  spike _ := rfl
  numX _ := rfl
  numPos _ := rfl

end MSF
