import Verif.Model.FilterKernel
import Verif.Lemmas.Sweep
import Verif.Props.AuxNoise
import Verif.Props.Batch

/-!
# The properties of the core hold for the position and spherical filters

The theorems of `Verif.Props.Batch` (C09 to C12, C20) are about every kernel that meets
`Kernel.Regular`.  Here the kernel is the one of the shipped filters without a non-drifting attitude.
First the kernel is shown to compute what the functions on state objects compute.
-/

namespace MSF

open Matrix EKFState

variable {aux : List VarDesc}

theorem values_update {D : List VarDesc} (s : Vars ℝ D) (i : Fin D.length)
    (x : Val ℝ (D.get i).kind) :
    values (Function.update s i { s i with val := x }) = Function.update (values s) i x := by
  funext j
  by_cases h : j = i
  · subst h; simp [values]
  · simp [values, h]

theorem values_setP (s : Vars ℝ (coreDef aux)) (x : V3 ℝ) :
    values (setP s x) = Function.update (values s) ip x := values_update s ip x
theorem values_setV (s : Vars ℝ (coreDef aux)) (x : V3 ℝ) :
    values (setV s x) = Function.update (values s) iv x := values_update s iv x
theorem values_setQ (s : Vars ℝ (coreDef aux)) (x : Quat ℝ) :
    values (setQ s x) = Function.update (values s) iq x := values_update s iq x

theorem v_eq_values {s s' : Vars ℝ (coreDef aux)} (h : values s = values s') : v s = v s' :=
  congrFun h iv
theorem q_eq_values {s s' : Vars ℝ (coreDef aux)} (h : values s = values s') : q s = q s' :=
  congrFun h iq
theorem bw_eq_values {s s' : Vars ℝ (coreDef aux)} (h : values s = values s') : b_w s = b_w s' :=
  congrFun h ibw
theorem ba_eq_values {s s' : Vars ℝ (coreDef aux)} (h : values s = values s') : b_a s = b_a s' :=
  congrFun h iba

theorem p_eq_values {s s' : Vars ℝ (coreDef aux)} (h : values s = values s') : p s = p s' :=
  congrFun h ip

/-- The values after `PropagateState` depend on the values, the inputs and the time step only. -/
theorem propagate_values (old new old2 new2 : EKFState ℝ (coreDef aux))
    (hv : values old.vars = values old2.vars) (hwo : old.w_m = old2.w_m) (hao : old.a_m = old2.a_m)
    (hw : new.w_m = new2.w_m) (ha : new.a_m = new2.a_m)
    (ht : new.time - old.time = new2.time - old2.time) :
    (propagateState old new).map (fun s => values s.vars) =
      (propagateState old2 new2).map fun s => values s.vars := by
  have hc : values (copyNonPropagationStates old.vars (resetState new.vars)) =
      values (copyNonPropagationStates old2.vars (resetState new2.vars)) := by
    funext i
    unfold values copyNonPropagationStates
    split
    · rfl
    · exact congrFun hv i
  unfold propagateState
  simp only
  rw [bw_eq_values hc, ba_eq_values hc, bw_eq_values hv, ba_eq_values hv, q_eq_values hv,
    v_eq_values hv, p_eq_values hv, hwo, hao, hw, ha, ht]
  split
  · rfl
  · rename_i qn hqn
    simp only [Option.map_some]
    congr 1
    have hq : values (setQ (copyNonPropagationStates old.vars (resetState new.vars)) qn) =
        values (setQ (copyNonPropagationStates old2.vars (resetState new2.vars)) qn) := by
      rw [values_setQ, values_setQ, hc]
    rw [q_eq_values hq]
    have hv' : ∀ x, values (setV (setQ (copyNonPropagationStates old.vars (resetState new.vars)) qn) x) =
        values (setV (setQ (copyNonPropagationStates old2.vars (resetState new2.vars)) qn) x) := by
      intro x
      rw [values_setV, values_setV, hq]
    rw [v_eq_values (hv' _), values_setP, values_setP, hv']

/-- **The kernel's propagation is `PropagateState`**: on all state objects, the values after
`PropagateState` are those the kernel computes from the values, the inputs and the time step. -/
theorem filter_prop_refines (np : NoiseParams ℝ (coreDef aux)) (uc : UserCalc (coreDef aux))
    (old new : EKFState ℝ (coreDef aux)) (dt : ℚ) (h : new.time - old.time = dt) :
    (filterKernel np uc).prop dt ⟨old.a_m, old.w_m⟩ (some (values old.vars)) ⟨new.a_m, new.w_m⟩ =
      (propagateState old new).map fun s => values s.vars := by
  have := propagate_values old new (mkState (toVars (values old.vars)) ⟨old.a_m, old.w_m⟩ 0 0)
    (mkState (noInit _) ⟨new.a_m, new.w_m⟩ (dt : ℝ) 0) rfl rfl rfl rfl rfl
    (by rw [h]; simp [mkState])
  rw [this]
  simp only [filterKernel, Option.bind_eq_bind, Option.bind_some]
  cases propagateState (mkState (toVars (values old.vars)) ⟨old.a_m, old.w_m⟩ 0 0)
    (mkState (noInit _) ⟨new.a_m, new.w_m⟩ (dt : ℝ) 0) <;> rfl

/-- **The kernel's prediction is `PredictProcessCovariance`**: for every state object as the filter
keeps them (`Live`), the covariance after the prediction is the one the kernel computes. -/
theorem filter_predP_refines (ho : Ordered aux) (np : NoiseParams ℝ (coreDef aux))
    (hq : ∀ s s' dt i, ((coreDef aux).get i).isAux → (np.qAux s dt i).Q = (np.qAux s' dt i).Q)
    (uc : UserCalc (coreDef aux)) (old new : EKFState ℝ (coreDef aux)) (hl : Live old) (dt : ℚ)
    (h : new.time - old.time = dt) (hdt : 0 < dt) (t : ℝ) :
    (filterKernel np uc).predP dt (some old.P) ⟨new.a_m, new.w_m⟩ (some (values new.vars)) =
      (predictProcessCovariance np old new t).map fun r => r.2.1.P := by
  have hi := indexingErrors_eq_zero.2 ho
  have hdt' : (0 : ℝ) < dt := by exact_mod_cast hdt
  have hl2 : Live (mkState (noInit (coreDef aux)) ⟨0, 0⟩ 0 old.P) := Live.fresh _ rfl rfl
  obtain ⟨Q1, e1, q1⟩ := predict_apply hi np old new t (by rw [h]; exact not_le.2 hdt')
  obtain ⟨Q2, e2, q2⟩ := predict_apply hi np (mkState (noInit (coreDef aux)) ⟨0, 0⟩ 0 old.P)
    (mkState (toVars (values new.vars)) ⟨new.a_m, new.w_m⟩ (dt : ℝ) 0) 0
    (by simpa [mkState] using hdt)
  have ht2 : (mkState (toVars (values new.vars)) ⟨new.a_m, new.w_m⟩ (dt : ℝ) 0).time -
      (mkState (noInit (coreDef aux)) ⟨0, 0⟩ 0 old.P).time = dt := by simp [mkState]
  have hQ : Q1 = Q2 := by
    rw [ht2] at q2
    rw [h] at q1
    ext r c
    by_cases hx : ∃ i, ((coreDef aux).get i).isAux ∧ InVar (coreDef aux) i r ∧
        InVar (coreDef aux) i c
    · obtain ⟨i, ha, hr, hc⟩ := hx
      rw [(q1 r c).1 i ha hr hc, (q2 r c).1 i ha hr hc]
      exact congrFun (congrFun (hq _ _ _ i ha) _) _
    · have hno : ∀ i, ((coreDef aux).get i).isAux →
          ¬ (InVar (coreDef aux) i r ∧ InVar (coreDef aux) i c) :=
        fun i ha hh => hx ⟨i, ha, hh⟩
      rw [(q1 r c).2 hno, (q2 r c).2 hno]
      change (CalcQ.lookup (CalcQ.mkIn (dt : ℝ) (q new.vars) (new.w_m - b_w new.vars)
        (new.a_m - b_a new.vars) (fun _ => np.acc) (fun _ => np.accBias) (fun _ => np.gyr)
        (fun _ => np.gyrBias)) r c).getD _ = (CalcQ.lookup (CalcQ.mkIn (dt : ℝ) (q new.vars)
        (new.w_m - b_w new.vars) (new.a_m - b_a new.vars) (fun _ => np.acc) (fun _ => np.accBias)
        (fun _ => np.gyr) (fun _ => np.gyrBias)) r c).getD _
      cases hlk : CalcQ.lookup (CalcQ.mkIn (dt : ℝ) (q new.vars) (new.w_m - b_w new.vars)
          (new.a_m - b_a new.vars) (fun _ => np.acc) (fun _ => np.accBias) (fun _ => np.gyr)
          (fun _ => np.gyrBias)) r c with
      | some x => rfl
      | none =>
        have hl' := congrArg Option.isSome hlk
        exact ((hl.clean ho).2 r c hno _ hl').trans ((hl2.clean ho).2 r c hno _ hl').symm
  have e2' : (filterKernel np uc).predP dt (some old.P) ⟨new.a_m, new.w_m⟩
      (some (values new.vars)) = (predictProcessCovariance np
        (mkState (noInit (coreDef aux)) ⟨0, 0⟩ 0 old.P)
        (mkState (toVars (values new.vars)) ⟨new.a_m, new.w_m⟩ (dt : ℝ) 0) 0).map
          fun r => r.2.1.P := by
    simp only [filterKernel, Option.bind_eq_bind, Option.bind_some]
    cases predictProcessCovariance np (mkState (noInit (coreDef aux)) ⟨0, 0⟩ 0 old.P)
      (mkState (toVars (values new.vars)) ⟨new.a_m, new.w_m⟩ (dt : ℝ) 0) 0 <;> rfl
  rw [e2', e1, e2, Option.map_some, Option.map_some, ht2, h, (hl.clean ho).1, (hl2.clean ho).1, hQ]
  rfl

/-- `Correct` works on the values. -/
theorem correct_values {D : List VarDesc} (s s' : Vars ℝ D) (hv : values s = values s')
    (c : Fin (total errLen D) → ℝ) :
    (correct s c).map values = (correct s' c).map values := by
  have hval : ∀ i, (s i).val = (s' i).val := fun i => congrFun hv i
  unfold correct allSome
  by_cases h : ∀ i, ((correctVal c (D.get i) _ (s i).val).map fun v => { s i with val := v }).isSome
  · have h' : ∀ i, ((correctVal c (D.get i) _ (s' i).val).map
        fun v => { s' i with val := v }).isSome := by
      intro i
      have := h i
      rw [Option.isSome_map] at this ⊢
      rwa [← hval]
    rw [dif_pos h, dif_pos h', Option.map_some, Option.map_some]
    congr 1
    funext i
    unfold values
    have e : ∀ (a b : StateVar ℝ (D.get i).kind) (hab : a.val = b.val)
        (ha : ((correctVal c (D.get i) _ a.val).map fun v => { a with val := v }).isSome)
        (hb : ((correctVal c (D.get i) _ b.val).map fun v => { b with val := v }).isSome),
        (((correctVal c (D.get i) _ a.val).map fun v => { a with val := v }).get ha).val =
        (((correctVal c (D.get i) _ b.val).map fun v => { b with val := v }).get hb).val := by
      intro a b hab ha hb
      simp only [Option.get_map, hab]
    exact e _ _ (hval i) _ _
  · have h' : ¬ ∀ i, ((correctVal c (D.get i) _ (s' i).val).map
        fun v => { s' i with val := v }).isSome := by
      intro hh
      apply h
      intro i
      have := hh i
      rw [Option.isSome_map] at this ⊢
      rwa [hval]
    rw [dif_neg h, dif_neg h']

/-- Filters without a non-drifting state: fuzzy tracking is off. -/
def NoDrift (aux : List VarDesc) : Prop :=
  indexOfBestNonTemporalDriftingState (coreDef aux) = some (-1)

/-- `ApplyCorrection` in such a filter, for managers whose hooks do nothing. -/
theorem applyCorrection_plain (hd : NoDrift aux) (fixedBias : Bool) (tr : Tracker ℝ)
    (s : Vars ℝ (coreDef aux)) (c : Fin (total errLen (coreDef aux)) → ℝ) :
    applyCorrection (plainCalc fixedBias) tr s c =
      (correct s (if fixedBias then zeroBias c else c)).map fun s' => (tr, s', false) := by
  unfold applyCorrection fuzzyCheck'
  unfold NoDrift at hd
  rw [hd]
  simp only [if_true]
  simp only [plainCalc, Option.bind_eq_bind, id]
  rw [Option.map_eq_bind]
  rfl

/-- What the kernel does with a measurement in such a filter. -/
theorem measUpdate_plain (hd : NoDrift aux) (fixedBias : Bool) (tr : Tracker ℝ)
    (m : AbsMeas (coreDef aux)) (x : Values (coreDef aux)) (P : ErrMat ℝ (coreDef aux)) :
    measUpdate (plainCalc fixedBias) tr m x P =
      (m.H (toVars x)).bind fun H => (m.r (toVars x)).bind fun r =>
        (calculateCorrection m.enable m.thr P H r m.R).bind fun o =>
          match o with
          | none => some ⟨tr, x, P, false, false⟩
          | some (c, P') => (correct (toVars x) (if fixedBias then zeroBias c else c)).map
              fun s' => ⟨tr, values s', P', true, false⟩ := by
  simp only [measUpdate, Option.bind_eq_bind, applyCorrection_plain hd]
  congr 1
  funext H
  congr 1
  funext r
  congr 1
  funext o
  cases o with
  | none => rfl
  | some cP =>
    simp only
    cases correct (toVars x) (if fixedBias = true then zeroBias cP.1 else cP.1) <;> rfl

/-- **The numerics of the position and spherical filters meet `Kernel.Regular`.** -/
theorem filterKernel_regular (hd : NoDrift aux) (np : NoiseParams ℝ (coreDef aux))
    (fixedBias : Bool) : (filterKernel np (plainCalc fixedBias)).Regular where
  reject tr m x P h := by
    cases x with
    | none => simp [filterKernel] at h
    | some x =>
      cases P with
      | none => simp [filterKernel] at h
      | some P =>
        simp only [filterKernel] at h ⊢
        rw [measUpdate_plain hd] at h ⊢
        cases hH : m.H (toVars x) with
        | none => simp [hH] at h
        | some H =>
          cases hr : m.r (toVars x) with
          | none => simp [hH, hr] at h
          | some r =>
            cases hc : calculateCorrection m.enable m.thr P H r m.R with
            | none => simp [hH, hr, hc] at h
            | some o =>
              cases o with
              | none => simp [hc]
              | some cP =>
                exfalso
                simp only [hH, hr, hc, Option.bind_some] at h
                cases hs : correct (toVars x) (if fixedBias = true then zeroBias cP.1 else cP.1)
                  <;> simp [hs] at h
  trackX tr m x P := by
    cases x with
    | none => rfl
    | some x =>
      cases P with
      | none => rfl
      | some P =>
        simp only [filterKernel]
        rw [measUpdate_plain hd, measUpdate_plain hd]
        cases hH : m.H (toVars x) with
        | none => rfl
        | some H =>
          cases hr : m.r (toVars x) with
          | none => rfl
          | some r =>
            cases hc : calculateCorrection m.enable m.thr P H r m.R with
            | none => simp [hc]
            | some o =>
              cases o with
              | none => simp [hc]
              | some cP =>
                simp only [hc, Option.bind_some]
                cases hs : correct (toVars x) (if fixedBias = true then zeroBias cP.1 else cP.1)
                  <;> rfl
  trackP tr m x P := by
    cases x with
    | none => rfl
    | some x =>
      cases P with
      | none => rfl
      | some P =>
        simp only [filterKernel]
        rw [measUpdate_plain hd, measUpdate_plain hd]
        cases hH : m.H (toVars x) with
        | none => rfl
        | some H =>
          cases hr : m.r (toVars x) with
          | none => rfl
          | some r =>
            cases hc : calculateCorrection m.enable m.thr P H r m.R with
            | none => simp [hc]
            | some o =>
              cases o with
              | none => simp [hc]
              | some cP =>
                simp only [hc, Option.bind_some]
                cases hs : correct (toVars x) (if fixedBias = true then zeroBias cP.1 else cP.1)
                  <;> rfl
  numX _ := rfl
  numPos _ := rfl

/-- Measurements of sensors without outlier rejection are never rejected. -/
theorem filterKernel_sure (np : NoiseParams ℝ (coreDef aux)) (uc : UserCalc (coreDef aux)) :
    (filterKernel np uc).Sure fun m => !m.enable := by
  intro m hm tr x P
  have hm : m.enable = false := by simpa using hm
  cases x with
  | none => rfl
  | some x =>
    cases P with
    | none => rfl
    | some P =>
      simp only [filterKernel, measUpdate, Option.bind_eq_bind, hm]
      cases hH : m.H (toVars x) with
      | none => rfl
      | some H =>
        cases hr : m.r (toVars x) with
        | none => rfl
        | some r =>
          simp only [Option.bind_some]
          unfold calculateCorrection
          by_cases hdet : (innovCov P H m.R).det = 0
          · rw [if_pos hdet]
            rfl
          · rw [if_neg hdet, if_neg (by simp)]
            simp only [Option.bind_some]
            cases applyCorrection uc tr (toVars x) (gain P H m.R *ᵥ r) <;> rfl

/-- The kernel's update is `CalculateAndApplyCorrection` on the state object. -/
theorem filter_update_refines (hd : NoDrift aux) (fixedBias : Bool) (tr : Tracker ℝ)
    (m : AbsMeas (coreDef aux)) (s : EKFState ℝ (coreDef aux))
    (hH : m.H (toVars (values s.vars)) = m.H s.vars)
    (hr : m.r (toVars (values s.vars)) = m.r s.vars) :
    (measUpdate (plainCalc fixedBias) tr m (values s.vars) s.P).map
        (fun u => (u.tr, u.x, u.P, u.fuzzy)) =
      ((m.H s.vars).bind fun H => (m.r s.vars).bind fun r =>
        updateState (plainCalc fixedBias) tr s m.enable m.thr H r m.R).map
        fun r => (r.1, values r.2.1.vars, r.2.1.P, r.2.2) := by
  rw [measUpdate_plain hd, hH, hr]
  cases m.H s.vars with
  | none => rfl
  | some H =>
    cases m.r s.vars with
    | none => rfl
    | some r =>
      simp only [Option.bind_some, updateState, Option.bind_eq_bind, applyCorrection_plain hd]
      cases calculateCorrection m.enable m.thr s.P H r m.R with
      | none => rfl
      | some o =>
        cases o with
        | none => rfl
        | some cP =>
          have := correct_values (toVars (values s.vars)) s.vars rfl
            (if fixedBias then zeroBias cP.1 else cP.1)
          simp only [Option.bind_some]
          cases h1 : correct (toVars (values s.vars)) (if fixedBias then zeroBias cP.1 else cP.1) with
          | none =>
            cases h2 : correct s.vars (if fixedBias then zeroBias cP.1 else cP.1) with
            | none => rfl
            | some y => rw [h1, h2] at this; cases this
          | some x =>
            cases h2 : correct s.vars (if fixedBias then zeroBias cP.1 else cP.1) with
            | none => rw [h1, h2] at this; cases this
            | some y =>
              rw [h1, h2, Option.map_some, Option.map_some, Option.some.injEq] at this
              simp [this]

/-- **The kernel's update is `Apply` of the position, angle and distance measurements** (no state
fixed): values, covariance and tracker after `Apply` on any state object are those the kernel
computes. -/
theorem filter_apply_refines (hd : NoDrift aux) (fixedBias : Bool) (tr : Tracker ℝ) (pip : Nat)
    (enable : Bool) (thr : ℝ) (s : EKFState ℝ (coreDef aux)) :
    (∀ (z : V3 ℝ) (R_ : M33 ℝ),
      (measUpdate (plainCalc fixedBias) tr (positionMeas pip enable thr z R_) (values s.vars)
        s.P).map (fun u => (u.tr, u.x, u.P, u.fuzzy)) =
      (positionApply (plainCalc fixedBias) tr pip 0 true enable thr z R_ s).map
        fun r => (r.1, values r.2.1.vars, r.2.1.P, r.2.2)) ∧
    (∀ (z : Fin 2 → ℝ) (n : ℝ),
      (measUpdate (plainCalc fixedBias) tr (angleMeas pip enable thr z n) (values s.vars)
        s.P).map (fun u => (u.tr, u.x, u.P, u.fuzzy)) =
      (angleApply (plainCalc fixedBias) tr pip 0 true enable thr z n s).map
        fun r => (r.1, values r.2.1.vars, r.2.1.P, r.2.2)) ∧
    ∀ z n : ℝ,
      (measUpdate (plainCalc fixedBias) tr (distanceMeas pip enable thr z n) (values s.vars)
        s.P).map (fun u => (u.tr, u.x, u.P, u.fuzzy)) =
      (distanceApply (plainCalc fixedBias) tr pip 0 true enable thr z n s).map
        fun r => (r.1, values r.2.1.vars, r.2.1.P, r.2.2) := by
  have hcl : clearFixed 0 [pip] s.P = some s.P := by simp [clearFixed]
  refine ⟨fun z R_ => ?_, fun z n => ?_, fun z n => ?_⟩
  · rw [filter_update_refines hd _ _ _ _ rfl rfl]
    simp only [positionApply, if_true, hcl, Option.bind_eq_bind, Option.bind_some, positionMeas]
    rfl
  · rw [filter_update_refines hd _ _ _ _ rfl rfl]
    simp only [angleApply, if_true, hcl, Option.bind_eq_bind, Option.bind_some, angleMeas]
    rfl
  · rw [filter_update_refines hd _ _ _ _ rfl rfl]
    simp only [distanceApply, if_true, hcl, Option.bind_eq_bind, Option.bind_some, distanceMeas]
    rfl

theorem noDrift_position : NoDrift positionAux := by
  unfold NoDrift
  decide +kernel

open Spec

/-- The position and spherical filters: the auxiliary state is `p_ip`, the manager's hooks do
nothing besides zeroing the bias correction. -/
noncomputable abbrev positionKernel (np : NoiseParams ℝ (coreDef positionAux)) (fixedBias : Bool) :=
  filterKernel np (plainCalc fixedBias)

/-- A measurement whose outlier test is switched off. -/
def AbsMeas.ungated {D : List VarDesc} (m : AbsMeas D) : Bool := !m.enable

/-- **C09 for the position and spherical filters**, with the modelled numerics in place of the
abstract kernel: the buffered states are the end of what one forward pass computes. -/
theorem C09_position_filter (np : NoiseParams ℝ (coreDef positionAux)) (fixedBias : Bool)
    (s1 s2 : Nat → List ℚ → Bool)
    (c : Core (V3 ℝ) (V3 ℝ) (Option (Values (coreDef positionAux)))
      (Option (ErrMat ℝ (coreDef positionAux))) (AbsMeas (coreDef positionAux)) (Tracker ℝ))
    (t : ℚ) (ht : 0 < t)
    (s : St (V3 ℝ) (V3 ℝ) (Option (Values (coreDef positionAux)))
      (Option (ErrMat ℝ (coreDef positionAux))))
    (ops : List (Op (V3 ℝ) (V3 ℝ) (AbsMeas (coreDef positionAux))))
    (hok : (startLog t s.u c.lastAmImu).okRun (positionKernel np fixedBias).spike AbsMeas.ungated
      ops) :
    ∃ c', Core.calls ⟨.gnu s1, .gnu s2⟩ (positionKernel np fixedBias)
        (c.init (positionKernel np fixedBias) t s) ops = .ok c' ∧
      ∃ old kept, batch (positionKernel np fixedBias) s.x s.P
          ((startLog t s.u c.lastAmImu).run (positionKernel np fixedBias).spike ops) = old ++ kept ∧
        c'.states.nodes.map (fun n => (n.key, n.val)) = kept ∧ kept ≠ [] ∧
        ∀ e ∈ old, e.1 < ((startLog (M := AbsMeas (coreDef positionAux)) t s.u c.lastAmImu).run
          (positionKernel np fixedBias).spike ops).newest - 60 :=
  C09_delayed_equals_batch _ (filterKernel_regular noDrift_position np fixedBias) AbsMeas.ungated
    (filterKernel_sure np (plainCalc fixedBias)) s1 s2 c t ht s ops hok

/-- **C74, partial: in the position and spherical filters the arrival order does not matter.**  The
pose filters have a non-drifting attitude and are not covered; see `C74_arrival_order_violated`. -/
theorem C74_position_filter_partial (np : NoiseParams ℝ (coreDef positionAux)) (fixedBias : Bool)
    (s1 s2 s1' s2' : Nat → List ℚ → Bool)
    (c : Core (V3 ℝ) (V3 ℝ) (Option (Values (coreDef positionAux)))
      (Option (ErrMat ℝ (coreDef positionAux))) (AbsMeas (coreDef positionAux)) (Tracker ℝ))
    (t : ℚ) (ht : 0 < t)
    (s : St (V3 ℝ) (V3 ℝ) (Option (Values (coreDef positionAux)))
      (Option (ErrMat ℝ (coreDef positionAux))))
    (ops ops' : List (Op (V3 ℝ) (V3 ℝ) (AbsMeas (coreDef positionAux))))
    (hok : (startLog t s.u c.lastAmImu).okRun (positionKernel np fixedBias).spike AbsMeas.ungated
      ops)
    (hok' : (startLog t s.u c.lastAmImu).okRun (positionKernel np fixedBias).spike AbsMeas.ungated
      ops')
    (himu : imuOps ops = imuOps ops')
    (hmeas : ((startLog t s.u c.lastAmImu).counted (positionKernel np fixedBias).spike ops).Perm
      ((startLog t s.u c.lastAmImu).counted (positionKernel np fixedBias).spike ops'))
    (hq : ((startLog t s.u c.lastAmImu).run (positionKernel np fixedBias).spike ops).queue = [])
    (hq' : ((startLog t s.u c.lastAmImu).run (positionKernel np fixedBias).spike ops').queue = []) :
    ∃ c1 c2, Core.calls ⟨.gnu s1, .gnu s2⟩ (positionKernel np fixedBias)
        (c.init (positionKernel np fixedBias) t s) ops = .ok c1 ∧
      Core.calls ⟨.gnu s1', .gnu s2'⟩ (positionKernel np fixedBias)
        (c.init (positionKernel np fixedBias) t s) ops' = .ok c2 ∧
      (c1.states.nodes.map (fun n => (n.key, n.val))).getLast? =
        (c2.states.nodes.map (fun n => (n.key, n.val))).getLast? := by
  obtain ⟨c1, c2, h1, h2, h3, _⟩ := C09_arrival_order _
    (filterKernel_regular noDrift_position np fixedBias) AbsMeas.ungated
    (filterKernel_sure np (plainCalc fixedBias)) s1 s2 s1' s2' c t ht s ops ops' hok hok' himu hmeas
    hq hq'
  exact ⟨c1, c2, h1, h2, h3⟩

/-- **C20 for the position and spherical filters**: the core reads no element that does not exist. -/
theorem C20_position_filter_partial (np : NoiseParams ℝ (coreDef positionAux)) (fixedBias : Bool)
    (s1 s2 : Nat → List ℚ → Bool)
    (c : Core (V3 ℝ) (V3 ℝ) (Option (Values (coreDef positionAux)))
      (Option (ErrMat ℝ (coreDef positionAux))) (AbsMeas (coreDef positionAux)) (Tracker ℝ))
    (t : ℚ) (ht : 0 < t)
    (s : St (V3 ℝ) (V3 ℝ) (Option (Values (coreDef positionAux)))
      (Option (ErrMat ℝ (coreDef positionAux))))
    (ops : List (Op (V3 ℝ) (V3 ℝ) (AbsMeas (coreDef positionAux))))
    (hok : (startLog t s.u c.lastAmImu).okRun (positionKernel np fixedBias).spike AbsMeas.ungated
      ops) (e : UB) :
    Core.calls ⟨.gnu s1, .gnu s2⟩ (positionKernel np fixedBias)
      (c.init (positionKernel np fixedBias) t s) ops ≠ .error e :=
  C20_no_undefined_behaviour_partial _ (filterKernel_regular noDrift_position np fixedBias)
    AbsMeas.ungated (filterKernel_sure np (plainCalc fixedBias)) s1 s2 c t ht s ops hok e

/-- A run with three IMU readings and a position measurement between the last two. -/
noncomputable def positionRun : List (Op (V3 ℝ) (V3 ℝ) (AbsMeas (coreDef positionAux))) :=
  [.imu (101/100) ⟨![0, 0, 10], 0⟩, .imu (102/100) ⟨![0, 1, 10], 0⟩,
   .imu (103/100) ⟨![0, 0, 9], ![0, 0, 1]⟩,
   .meas ⟨1025/1000, 0, positionMeas 5 true 100 ![1, 2, 3] 1⟩]

/-- Non-vacuity of C09, C20 and C74 for the position filter: the run is admissible. -/
example (np : NoiseParams ℝ (coreDef positionAux)) :
    (startLog 1 ⟨![0, 0, 10], 0⟩ 0).okRun (positionKernel np false).spike AbsMeas.ungated
      positionRun := by
  have h1 : (positionKernel np false).spike ![0, 0, 10] = false := by
    simp [filterKernel, sqNorm3]; norm_num
  have h2 : (positionKernel np false).spike ![0, 1, 10] = false := by
    simp [filterKernel, sqNorm3]; norm_num
  have h3 : (positionKernel np false).spike ![0, 0, 9] = false := by
    simp [filterKernel, sqNorm3]; norm_num
  simp [positionRun, Log.okRun, Log.ok, startLog, Log.step, Log.addImu, h1, h2, h3, Log.newest,
    Log.stamps, Log.fresh, Log.start, Log.pop]
  norm_num

end MSF
