import Verif.Lemmas.CoreForms
import Verif.Lemmas.CoreMap

/-! What has been published, and the acceleration kept for the next spike, have no influence on how
measurements are processed. -/

namespace MSF.Core
variable {A W X C M T E : Type}

/-- The same filter with more published before and another `last_am`. -/
def put (o : List (Event X C)) (a : A) (c : Core A W X C M T) : Core A W X C M T :=
  { c with out := o ++ c.out, lastAmImu := a }

theorem bind_same {α β β' : Type} {x : Except UB α} {k : α → Except UB β} {k' : α → Except UB β'}
    {F : β → β'} (h : ∀ a, k' a = (k a).map F) : (x >>= k') = (x >>= k).map F := by
  cases x with
  | error e => rfl
  | ok a => exact h a

variable (K : Kernel A W X C M T E) (o : List (Event X C)) (a : A)

theorem put_predictCov (c : Core A W X C M T) (x y : Node (St A W X C)) :
    predictCov K (c.put o a) x y = (predictCov K c x y).put o a := by
  unfold predictCov
  split <;> rfl

theorem put_propagatePOneStep (c : Core A W X C M T) :
    propagatePOneStep K (c.put o a) = (propagatePOneStep K c).map (put o a) := by
  unfold propagatePOneStep
  refine bind_same fun next => ?_
  by_cases hn : next = .fin
  · rw [if_pos hn, if_pos hn]; rfl
  · rw [if_neg hn, if_neg hn]
    refine bind_same fun x => bind_same fun y => ?_
    simp only [put_predictCov]
    split <;> rfl

theorem put_propPLoop (t : ℚ) (fuel : Nat) : ∀ (c : Core A W X C M T) (it itm : Iter),
    propPLoop K t fuel (c.put o a) it itm = (propPLoop K t fuel c it itm).map (put o a) := by
  induction fuel with
  | zero => intro c it itm; rfl
  | succ fuel ih =>
    intro c it itm
    unfold propPLoop
    by_cases hi : it = .fin
    · rw [if_pos hi, if_pos hi]; rfl
    · rw [if_neg hi, if_neg hi]
      refine bind_same fun n => ?_
      by_cases hk : n.key ≤ t
      · rw [if_pos hk, if_pos hk]
        refine bind_same fun m => ?_
        rw [put_predictCov]
        exact bind_same fun i => bind_same fun j => ih _ i j
      · rw [if_neg hk, if_neg hk]; rfl

theorem put_propPToState (c : Core A W X C M T) (t : ℚ) :
    propPToState K (c.put o a) t = (propPToState K c t).map (put o a) := by
  unfold propPToState
  exact bind_same fun it => put_propPLoop K o a t _ c it _

theorem put_cleanUp (env : Env) (c : Core A W X C M T) :
    cleanUp env (c.put o a) = (cleanUp env c).map (put o a) := by
  unfold cleanUp
  exact bind_same fun s => bind_same fun m => rfl

theorem put_propLoop (fuel : Nat) : ∀ (c : Core A W X C M T) (cur next stop : Iter),
    propLoop K fuel (c.put o a) cur next stop =
      (propLoop K fuel c cur next stop).map (fun r => (r.1.put o a, r.2)) := by
  induction fuel with
  | zero => intro c cur next stop; rfl
  | succ fuel ih =>
    intro c cur next stop
    unfold propLoop
    by_cases hc : cur = stop ∨ next = stop
    · rw [if_pos hc, if_pos hc]; rfl
    · rw [if_neg hc, if_neg hc]
      refine bind_same fun x => bind_same fun y => ?_
      by_cases hk : x.key = invalidTime ∨ y.key = invalidTime
      · rw [if_pos hk, if_pos hk]; rfl
      · rw [if_neg hk, if_neg hk]
        by_cases hp : c.inited = false ∨ c.predMade = false
        · rw [if_pos hp, if_pos (show (c.put o a).inited = false ∨ (c.put o a).predMade = false
            from hp)]
          rfl
        · rw [if_neg hp, if_neg (show ¬((c.put o a).inited = false ∨
            (c.put o a).predMade = false) from hp)]
          exact bind_same fun i => bind_same fun j => ih { c with states := _ } i j stop

theorem put_applyMeas (c : Core A W X C M T) (m : Meas M) (s : Node (St A W X C)) :
    applyMeas K (c.put o a) m s = (applyMeas K c m s).put o a := rfl

theorem put_repropagate (c : Core A W X C M T) (k : ℚ) (it : Iter) :
    repropagate K (c.put o a) k it = (repropagate K c k it).map (fun r => (r.1.put o a, r.2)) := by
  rw [repropagate_form, repropagate_form]
  refine bind_same (x := stopAt c it) fun stop => ?_
  exact bind_same (x := c.states.incr (c.states.iterAtValue k)) fun next =>
    put_propLoop K o a _ c _ _ _

theorem put_finishMeas (c : Core A W X C M T) :
    finishMeas K (c.put o a) = (finishMeas K c).map (put o a) := by
  unfold finishMeas
  have e := put_propPToState K o a c (timeOf c.states.last)
  change (propPToState K (c.put o a) (timeOf c.states.last) >>= _) = _
  rw [e]
  refine bind_shift fun c1 _ => ?_
  change (match c1.states.last with | none => _ | some n => _) = _
  cases c1.states.last with
  | none => rfl
  | some n =>
    simp only [put, pure, Except.pure, Except.map, List.append_assoc]

variable [AddCommGroup A] [Module ℚ A] [AddCommGroup W] [Module ℚ W]

theorem put_interpolate (c : Core A W X C M T) (n : Node (St A W X C)) (t : ℚ) :
    interpolate K (c.put o a) n t = ((interpolate K c n t).1.put o a, (interpolate K c n t).2) := by
  unfold interpolate
  change (if _ then match c.states.closestBefore t, c.states.closestAfter t with
    | some l, some r => _ | _, _ => _ else _) = _
  by_cases h : |n.key - t| > 1 / 1000
  · rw [if_pos h, if_pos h]
    cases c.states.closestBefore t with
    | none => rfl
    | some l =>
      cases c.states.closestAfter t with
      | none => rfl
      | some r =>
        dsimp only
        split <;> rfl
  · rw [if_neg h, if_neg h]

theorem put_getClosestState (env : Env) (c : Core A W X C M T) (t : ℚ) :
    getClosestState env K (c.put o a) t =
      (getClosestState env K c t).map (fun r => (r.1.put o a, r.2)) := by
  unfold getClosestState
  refine bind_same fun it => bind_same fun n => ?_
  by_cases hn : n.key = invalidTime ∨ |n.key - t| > 1 / 10
  · rw [if_pos hn, if_pos hn]; rfl
  · rw [if_neg hn, if_neg hn, put_interpolate]
    generalize interpolate K c n t = r
    obtain ⟨c1, i⟩ := r
    dsimp only
    refine bind_same (x := c1.states.deref i) fun n1 => ?_
    rw [put_propPToState]
    refine bind_shift fun c2 _ => ?_
    refine bind_same (x := c2.states.deref i) fun n2 => ?_
    by_cases hx : K.numX n2.val.x = true
    · rw [if_pos hx, if_pos hx]
      by_cases hj : c2.janitor > 100
      · rw [if_pos hj, if_pos (show (c2.put o a).janitor > 100 from hj)]
        have e3 := put_cleanUp o a env { c2 with janitor := 0 }
        change (cleanUp env (put o a { c2 with janitor := 0 }) >>= _) = _
        rw [e3]
        exact bind_shift fun c3 _ => rfl
      · rw [if_neg hj, if_neg (show ¬ (c2.put o a).janitor > 100 from hj)]
        rfl
    · rw [if_neg hx, if_neg hx]
      rfl

theorem put_measLoop (env : Env) (fuel : Nat) :
    ∀ (c : Core A W X C M T) (it : Iter) (ap : Bool),
    measLoop env K fuel (c.put o a) it ap =
      (measLoop env K fuel c it ap).map (fun r => (r.1.put o a, r.2)) := by
  induction fuel with
  | zero => intro c it ap; rfl
  | succ fuel ih =>
    intro c it ap
    have skip : ∀ c1 : Core A W X C M T,
        ((c1.put o a).meas.incr it >>= fun j => measLoop env K fuel (c1.put o a) j ap) =
        (c1.meas.incr it >>= fun j => measLoop env K fuel c1 j ap).map
          (fun r => (r.1.put o a, r.2)) := by
      intro c1
      exact bind_same (x := c1.meas.incr it) fun j => ih c1 j ap
    unfold measLoop
    by_cases hi : it = .fin
    · rw [if_pos hi, if_pos hi]; rfl
    · rw [if_neg hi, if_neg hi]
      refine bind_same (x := c.meas.deref it) fun m => ?_
      by_cases hm : m.key ≤ 0
      · rw [if_pos hm, if_pos hm]
        exact skip c
      · rw [if_neg hm, if_neg hm, put_getClosestState]
        refine bind_shift fun r _ => ?_
        obtain ⟨c1, st⟩ := r
        cases st with
        | none => exact skip c1
        | some s =>
          dsimp only
          by_cases hs : s.key ≤ 0
          · rw [if_pos hs, if_pos hs]
            exact skip c1
          · rw [if_neg hs, if_neg hs]
            refine bind_same (x := c1.meas.deref it) fun m2 => ?_
            rw [put_applyMeas]
            generalize applyMeas K c1 m2.val s = c2
            refine bind_same (x := c2.meas.incr it) fun j => ?_
            rw [put_repropagate]
            refine bind_shift fun r2 _ => ?_
            obtain ⟨c3, ab⟩ := r2
            dsimp only
            cases ab
            · exact ih c3 j true
            · rfl

theorem put_addMeasurement (env : Env) (c : Core A W X C M T) (m : Meas M) :
    addMeasurement env K (c.put o a) m = (addMeasurement env K c m).map (put o a) := by
  unfold addMeasurement
  by_cases hp : c.inited = false ∨ c.predMade = false
  · rw [if_pos hp, if_pos (show (c.put o a).inited = false ∨ (c.put o a).predMade = false from hp)]
    rfl
  · rw [if_neg hp, if_neg (show ¬((c.put o a).inited = false ∨ (c.put o a).predMade = false)
      from hp)]
    by_cases k1 : m.time > timeOf c.states.last
    · rw [if_pos k1, if_pos (show m.time > timeOf (c.put o a).states.last from k1)]
      rfl
    · rw [if_neg k1, if_neg (show ¬ m.time > timeOf (c.put o a).states.last from k1)]
      by_cases k2 : m.time < timeOf c.states.first
      · rw [if_pos k2, if_pos (show m.time < timeOf (c.put o a).states.first from k2)]
        rfl
      · rw [if_neg k2, if_neg (show ¬ m.time < timeOf (c.put o a).states.first from k2)]
        have e := put_measLoop K o a env ((c.meas.insert m.time m).1.size + 1)
          { c with meas := (c.meas.insert m.time m).1, fuzzy := false } (c.meas.insert m.time m).2
          false
        change (measLoop env K ((c.meas.insert m.time m).1.size + 1)
          (put o a { c with meas := (c.meas.insert m.time m).1, fuzzy := false })
          (c.meas.insert m.time m).2 false >>= _) = _
        rw [e]
        refine bind_shift fun r _ => ?_
        obtain ⟨c1, ap, ab⟩ := r
        dsimp only
        split
        · rfl
        · exact put_finishMeas K o a c1

theorem put_handlePending (env : Env) (c : Core A W X C M T) :
    handlePending env K (c.put o a) = (handlePending env K c).map (put o a) := by
  unfold handlePending
  change (match c.queue with | [] => _ | m :: q => _) = _
  cases c.queue with
  | nil => rfl
  | cons m q => exact put_addMeasurement K o a env { c with queue := q } m

theorem put_imuEnd (env : Env) (c : Core A W X C M T) (t : ℚ) (cur : St A W X C) :
    imuEnd env K (c.put o a) t cur = (imuEnd env K c t cur).map (put o a) := by
  unfold imuEnd
  change (if (c.predMade || decide (c.states.size > 3)) = true then _ else _) = _
  by_cases h : (c.predMade || decide (c.states.size > 3)) = true
  · rw [if_pos h, if_pos h]
    rw [← put_handlePending]
    simp only [put, List.append_assoc]
  · rw [if_neg h, if_neg h]
    simp only [put, List.append_assoc, Except.map]

theorem put_imuPropagate (env : Env) (c : Core A W X C M T) (last : Node (St A W X C)) (t : ℚ)
    (u : Input A W) :
    imuPropagate env K (c.put o a) last t u = (imuPropagate env K c last t u).map (put o a) := by
  rw [imuPropagate_form, imuPropagate_form]
  have e := put_propagatePOneStep K o a
    { c with states := (c.states.insert t (imuState K last t u)).1,
             itImu := (c.states.insert t (imuState K last t u)).2 }
  change (propagatePOneStep K (put o a { c with
    states := (c.states.insert t (imuState K last t u)).1,
    itImu := (c.states.insert t (imuState K last t u)).2 }) >>= _) = _
  rw [e]
  refine bind_shift fun c1 _ => ?_
  exact bind_same (x := published c1 (c.states.find t).isSome (imuState K last t u)
    (c.states.insert t (imuState K last t u)).2) fun cur => put_imuEnd K o a env c1 t cur

/-- An IMU reading that is no spike: what was published and `last_am` do not matter. -/
theorem put_processIMU (env : Env) (c : Core A W X C M T) (t : ℚ) {u : Input A W}
    (hu : K.spike u.a = false) :
    ∃ f : Core A W X C M T → A,
      processIMU env K (c.put o a) t u = (processIMU env K c t u).map fun c1 => c1.put o (f c1) := by
  rw [processIMU_form, processIMU_form]
  by_cases hi : c.inited = false
  · rw [if_pos hi, if_pos (show (c.put o a).inited = false from hi)]
    exact ⟨fun _ => a, rfl⟩
  · rw [if_neg hi, if_neg (show ¬ (c.put o a).inited = false from hi)]
    change ∃ f : Core A W X C M T → A, (imuStart env c t >>= _) = _
    rcases imuStart env c t with e | it
    · exact ⟨fun _ => a, rfl⟩
    · change ∃ f : Core A W X C M T → A, (c.states.deref it >>= _) = Except.map _ (c.states.deref it >>= _)
      rcases c.states.deref it with e | last
      · exact ⟨fun _ => a, rfl⟩
      · simp only [bind, Except.bind]
        unfold imuBody
        rw [hu]
        simp only [Bool.false_eq_true, if_false]
        by_cases h1 : last.key = invalidTime
        · rw [if_pos h1, if_pos h1]
          exact ⟨fun _ => a, rfl⟩
        · rw [if_neg h1, if_neg h1]
          by_cases h2 : t - last.key < -(1 / 100) ∧ c.predMade = true
          · rw [if_pos h2, if_pos (show t - last.key < -(1 / 100) ∧ (c.put o a).predMade = true from h2)]
            exact ⟨fun _ => a, rfl⟩
          · rw [if_neg h2, if_neg (show ¬(t - last.key < -(1 / 100) ∧ (c.put o a).predMade = true)
              from h2)]
            by_cases h3 : c.predMade = false ∧ |t - last.key| > 1 / 10
            · rw [if_pos h3, if_pos (show (c.put o a).predMade = false ∧ |t - last.key| > 1 / 10
                from h3)]
              exact ⟨fun _ => last.val.u.a, rfl⟩
            · rw [if_neg h3, if_neg (show ¬((c.put o a).predMade = false ∧ |t - last.key| > 1 / 10)
                from h3)]
              refine ⟨fun _ => last.val.u.a, ?_⟩
              exact put_imuPropagate K o last.val.u.a env
                { c with itImu := it, lastAmImu := last.val.u.a } last t u

end MSF.Core
