import Verif.Lemmas.CoreFlags

/-!
Runs in which no state is found fuzzy.  In such a run the filter behaves like one whose update leaves
out the fuzzy-tracking check.
-/

namespace MSF
variable {A W X C M T E : Type}

/-- The same kernel with another update. -/
def Kernel.withUpdate (K : Kernel A W X C M T E) (u : T → M → X → C → Upd X C T) :
    Kernel A W X C M T E := { K with update := u }

/-- `u` is the update of `K` where that finds the state not fuzzy.  `It` is a property of the trackers
that occur. -/
structure Kernel.Quiet (K : Kernel A W X C M T E) (u : T → M → X → C → Upd X C T) (It : T → Prop) :
    Prop where
  tr0 : It K.tr0
  keep : ∀ tr m x P, It tr → It (K.update tr m x P).tr
  agree : ∀ tr m x P, It tr → (K.update tr m x P).fuzzy = false → u tr m x P = K.update tr m x P

namespace Core

/-- The tracker, the flag `isfuzzyState_` and the queue are those of `c0`, and no measurement has been
added. -/
structure Held (c0 : Core A W X C M T) (c : Core A W X C M T) : Prop where
  tracker : c.tracker = c0.tracker
  fuzzy : c.fuzzy = c0.fuzzy
  queue : c.queue = c0.queue
  meas : c.meas.size ≤ c0.meas.size

section
variable {c0 c : Core A W X C M T} {K : Kernel A W X C M T E}

theorem Held.refl (c : Core A W X C M T) : c.Held c := ⟨rfl, rfl, rfl, le_rfl⟩

theorem clearOlderThan_size {V : Type} (b : Buf V) (p : Plat) (age : ℚ) :
    Post (b.clearOlderThan p age) (fun b' => b'.size ≤ b.size) := by
  unfold Buf.clearOlderThan
  simp only
  split
  · exact Post.ret le_rfl
  · refine Post.bind fun it _ => Post.bind fun n _ => Post.bind fun f _ => ?_
    split
    · exact Post.ret (List.length_filter_le _ _)
    · exact Post.ret le_rfl

theorem Held.predictCov (h : Held c0 c) (o n : Node (St A W X C)) :
    Held c0 (predictCov K c o n) := by
  unfold Core.predictCov
  split
  · exact h
  · exact ⟨h.1, h.2, h.3, h.4⟩

theorem Held.propagatePOneStep (h : Held c0 c) :
    Post (propagatePOneStep K c) (Held c0) := by
  unfold Core.propagatePOneStep
  refine Post.bind fun next _ => ?_
  split
  · exact Post.ret h
  · refine Post.bind fun o _ => Post.bind fun n _ => ?_
    have h' := h.predictCov (K := K) o n
    dsimp only
    split
    · exact Post.ret h'
    · exact Post.ret ⟨h'.1, h'.2, h'.3, h'.4⟩

theorem Held.propPLoop (t : ℚ) (fuel : Nat) : ∀ {c : Core A W X C M T} (_ : Held c0 c)
    (it itm : Iter), Post (propPLoop K t fuel c it itm) (Held c0) := by
  induction fuel with
  | zero => intro c _ it itm; exact Post.err
  | succ fuel ih =>
    intro c h it itm
    unfold Core.propPLoop
    split
    · exact Post.ok h
    · refine Post.bind fun n _ => ?_
      split
      · exact Post.bind fun m _ => Post.bind fun i _ => Post.bind fun j _ =>
          ih (h.predictCov m n) i j
      · exact Post.ret h

theorem Held.propPToState (h : Held c0 c) (t : ℚ) : Post (propPToState K c t) (Held c0) := by
  unfold Core.propPToState
  exact Post.bind fun i _ => Held.propPLoop t _ h _ _

theorem Held.cleanUp (h : Held c0 c) (env : Env) : Post (cleanUp env c) (Held c0) := by
  unfold Core.cleanUp
  exact Post.bind fun s hs => Post.bind fun m hm =>
    Post.ret ⟨h.1, h.2, h.3, (clearOlderThan_size _ _ _ m hm).trans h.4⟩

theorem Held.propLoop (fuel : Nat) : ∀ {c : Core A W X C M T} (_ : Held c0 c)
    (cur next stop : Iter), Post (propLoop K fuel c cur next stop) (fun r => Held c0 r.1) := by
  induction fuel with
  | zero => intro c _ _ _ _; exact Post.err
  | succ fuel ih =>
    intro c h cur next stop
    unfold Core.propLoop
    split
    · exact Post.ok h
    · refine Post.bind fun a _ => Post.bind fun b _ => ?_
      split
      · exact Post.ret h
      · split
        · exact Post.ret h
        · refine Post.bind fun i _ => Post.bind fun j _ => ih ?_ i j stop
          exact ⟨h.1, h.2, h.3, h.4⟩

theorem Held.repropagate (h : Held c0 c) (k : ℚ) (it : Iter) :
    Post (repropagate K c k it) (fun r => Held c0 r.1) := by
  rw [repropagate_form]
  exact Post.bind fun a _ => Post.bind fun b _ => Held.propLoop _ h _ _ _

theorem Held.finishMeas (h : Held c0 c) : Post (finishMeas K c) (Held c0) := by
  unfold Core.finishMeas
  refine Post.bind fun c1 hc1 => ?_
  have h1 := h.propPToState _ c1 hc1
  split
  · exact Post.ret h1
  · exact Post.ret ⟨h1.1, h1.2, h1.3, h1.4⟩

variable [AddCommGroup A] [Module ℚ A] [AddCommGroup W] [Module ℚ W]

theorem Held.interpolate (h : Held c0 c) (n : Node (St A W X C)) (t : ℚ) :
    Held c0 (interpolate K c n t).1 := by
  unfold Core.interpolate
  split
  · split
    · split
      · exact ⟨h.1, h.2, h.3, h.4⟩
      · exact h
    · exact h
  · exact h

theorem Held.getClosestState (h : Held c0 c) (env : Env) (t : ℚ) :
    Post (getClosestState env K c t) (fun r => Held c0 r.1) := by
  unfold Core.getClosestState
  refine Post.bind fun it _ => Post.bind fun n _ => ?_
  split
  · exact Post.ret h
  · have h1 := h.interpolate (K := K) n t
    generalize Core.interpolate K c n t = r at h1 ⊢
    obtain ⟨c1, it⟩ := r
    simp only at h1 ⊢
    refine Post.bind fun n1 _ => Post.bind fun c2 hc2 => Post.bind fun n2 hn2 => ?_
    have h2 := h1.propPToState _ c2 hc2
    split
    · split
      · refine Post.bind fun c3 hc3 => Post.ret ?_
        exact Held.cleanUp (c := { c2 with janitor := 0 }) ⟨h2.1, h2.2, h2.3, h2.4⟩ env c3 hc3
      · exact Post.ret ⟨h2.1, h2.2, h2.3, h2.4⟩
    · exact Post.ret h2

end

/-! Functions that do not call the update. -/

section
variable (K : Kernel A W X C M T E) (u : T → M → X → C → Upd X C T) (c : Core A W X C M T)

theorem propagatePOneStep_withUpdate :
    propagatePOneStep (K.withUpdate u) c = propagatePOneStep K c := rfl

theorem propPLoop_withUpdate (t : ℚ) (fuel : Nat) : ∀ (c : Core A W X C M T) (it itm : Iter),
    propPLoop (K.withUpdate u) t fuel c it itm = propPLoop K t fuel c it itm := by
  induction fuel with
  | zero => intro c it itm; rfl
  | succ fuel ih =>
    intro c it itm
    unfold propPLoop
    simp only [ih]
    rfl

theorem propPToState_withUpdate (t : ℚ) :
    propPToState (K.withUpdate u) c t = propPToState K c t := by
  unfold propPToState
  simp only [propPLoop_withUpdate]

theorem propLoop_withUpdate (fuel : Nat) : ∀ (c : Core A W X C M T) (cur next stop : Iter),
    propLoop (K.withUpdate u) fuel c cur next stop = propLoop K fuel c cur next stop := by
  induction fuel with
  | zero => intro c cur next stop; rfl
  | succ fuel ih =>
    intro c cur next stop
    unfold propLoop
    simp only [ih]
    rfl

theorem repropagate_withUpdate (k : ℚ) (it : Iter) :
    repropagate (K.withUpdate u) c k it = repropagate K c k it := by
  rw [repropagate_form, repropagate_form]
  simp only [propLoop_withUpdate]

theorem finishMeas_withUpdate : finishMeas (K.withUpdate u) c = finishMeas K c := by
  unfold finishMeas
  rw [propPToState_withUpdate]

theorem getClosestState_withUpdate [AddCommGroup A] [Module ℚ A] [AddCommGroup W] [Module ℚ W]
    (env : Env) (t : ℚ) :
    getClosestState env (K.withUpdate u) c t = getClosestState env K c t := by
  unfold getClosestState
  simp only [propPToState_withUpdate]
  rfl

end

/-- If `x` ends well, so does `y`, with the same result, and that meets `S`. -/
def Sim {α : Type} (Q S : α → Prop) (x y : Except UB α) : Prop :=
  ∀ r, x = .ok r → Q r → y = .ok r ∧ S r

theorem Sim.bind {α β : Type} {Q S : β → Prop} {x : Except UB α} {k k' : α → Except UB β}
    (h : ∀ a, x = .ok a → Sim Q S (k a) (k' a)) : Sim Q S (x >>= k) (x >>= k') := by
  cases x with
  | error e => intro r hr; cases hr
  | ok a => exact h a rfl

theorem Sim.ok {α : Type} {Q S : α → Prop} {a : α} (h : Q a → S a) :
    Sim Q S (.ok a) (.ok a) := by
  rintro r hr hq
  cases hr
  exact ⟨rfl, h hq⟩

variable {K : Kernel A W X C M T E} {u : T → M → X → C → Upd X C T} {It : T → Prop}

theorem quiet_applyMeas (hq : K.Quiet u It) {c : Core A W X C M T} (ht : It c.tracker) (m : Meas M)
    (s : Node (St A W X C)) (hf : (applyMeas K c m s).fuzzy = false) :
    applyMeas (K.withUpdate u) c m s = applyMeas K c m s ∧ c.fuzzy = false := by
  have h1 : (c.fuzzy || (K.update c.tracker m.body s.val.x s.val.P).fuzzy) = false := hf
  rw [Bool.or_eq_false_iff] at h1
  refine ⟨?_, h1.1⟩
  have e : (K.withUpdate u).update c.tracker m.body s.val.x s.val.P =
    K.update c.tracker m.body s.val.x s.val.P := hq.agree _ _ _ _ ht h1.2
  unfold applyMeas
  rw [e]

variable [AddCommGroup A] [Module ℚ A] [AddCommGroup W] [Module ℚ W]

theorem quiet_measLoop (hq : K.Quiet u It) (env : Env) (fuel : Nat) :
    ∀ {c : Core A W X C M T} (_ : It c.tracker) (it : Iter) (ap : Bool),
      Sim (fun r => r.1.fuzzy = false) (fun r => It r.1.tracker ∧ c.fuzzy = false)
        (measLoop env K fuel c it ap) (measLoop env (K.withUpdate u) fuel c it ap) := by
  induction fuel with
  | zero => intro c _ it ap r hr; cases hr
  | succ fuel ih =>
    intro c ht it ap
    unfold measLoop
    split
    · exact Sim.ok fun h => ⟨ht, h⟩
    · refine Sim.bind fun m hm => ?_
      split
      · exact Sim.bind fun i _ => ih ht i ap
      · rw [getClosestState_withUpdate]
        refine Sim.bind fun r hr => ?_
        have h1 := Held.getClosestState (c := c) (Held.refl _) env _ r hr
        obtain ⟨c1, st⟩ := r
        simp only at h1 ⊢
        have ht1 : It c1.tracker := by rw [h1.tracker]; exact ht
        have next : ∀ i, Sim (fun r => r.1.fuzzy = false) (fun r => It r.1.tracker ∧ c.fuzzy = false)
            (measLoop env K fuel c1 i ap) (measLoop env (K.withUpdate u) fuel c1 i ap) := by
          intro i r hr hf
          obtain ⟨a, b, d⟩ := ih ht1 i ap r hr hf
          exact ⟨a, b, h1.fuzzy.symm.trans d⟩
        cases st with
        | none => exact Sim.bind fun i _ => next i
        | some s =>
          simp only
          split
          · exact Sim.bind fun i _ => next i
          · refine Sim.bind fun m2 _ => ?_
            intro r hr hf
            have hap : (applyMeas K c1 m2.val s).fuzzy = false := by
              cases hi : (applyMeas K c1 m2.val s).meas.incr it with
              | error e => rw [hi] at hr; cases hr
              | ok i =>
                rw [hi] at hr
                cases hr2 : repropagate K (applyMeas K c1 m2.val s) s.key i with
                | error e => 
                  simp only [bind, Except.bind, hr2] at hr
                  cases hr
                | ok r2 =>
                  have h2 := Held.repropagate (c := applyMeas K c1 m2.val s) (Held.refl _) s.key i r2 hr2
                  have ht2 : It r2.1.tracker := by
                    rw [h2.tracker]; exact hq.keep _ _ _ _ ht1
                  simp only [bind, Except.bind, hr2] at hr
                  split at hr
                  · cases hr
                    exact h2.fuzzy.symm.trans hf
                  · exact h2.fuzzy.symm.trans (ih ht2 i true r hr hf).2.2
            obtain ⟨e, hc1⟩ := quiet_applyMeas hq ht1 m2.val s hap
            rw [e]
            revert r
            refine Sim.bind fun i _ => ?_
            rw [repropagate_withUpdate]
            refine Sim.bind fun r2 hr2 => ?_
            have h2 := Held.repropagate (c := applyMeas K c1 m2.val s) (Held.refl _) s.key i r2 hr2
            have ht2 : It r2.1.tracker := by
              rw [h2.tracker]; exact hq.keep _ _ _ _ ht1
            obtain ⟨c3, ab⟩ := r2
            simp only at h2 ht2 ⊢
            split
            · exact Sim.ok fun _ => ⟨ht2, h1.fuzzy.symm.trans hc1⟩
            · intro r hr hf
              obtain ⟨a, b, d⟩ := ih ht2 i true r hr hf
              exact ⟨a, b, h1.fuzzy.symm.trans hc1⟩

theorem quiet_addMeasurement (hq : K.Quiet u It) {c : Core A W X C M T} (ht : It c.tracker)
    (env : Env) (m : Meas M) :
    Sim (fun r => r.fuzzy = false) (fun r => It r.tracker)
      (addMeasurement env K c m) (addMeasurement env (K.withUpdate u) c m) := by
  unfold addMeasurement
  split
  · exact Sim.ok fun _ => ht
  · split
    · exact Sim.ok fun _ => ht
    · split
      · exact Sim.ok fun _ => ht
      · intro r hr hf
        simp only [bind, Except.bind] at hr ⊢
        cases hm : measLoop env K ((c.meas.insert m.time m).1.size + 1)
            { c with meas := (c.meas.insert m.time m).1, fuzzy := false }
            (c.meas.insert m.time m).2 false with
        | error e => rw [hm] at hr; cases hr
        | ok r1 =>
          obtain ⟨c1, ap, ab⟩ := r1
          rw [hm] at hr
          simp only at hr
          have key : c1.fuzzy = false := by
            split at hr
            · cases hr; exact hf
            · exact (Held.finishMeas (c := c1) (Held.refl _) r hr).fuzzy.symm.trans hf
          obtain ⟨e, h1, -⟩ := quiet_measLoop hq env _ (c := { c with
            meas := (c.meas.insert m.time m).1, fuzzy := false }) ht _ _ _ hm key
          rw [e]
          simp only
          split at hr
          · rename_i h2
            rw [if_pos h2]
            cases hr
            exact ⟨rfl, h1⟩
          · rename_i h2
            rw [if_neg h2, finishMeas_withUpdate]
            refine ⟨hr, ?_⟩
            rw [(Held.finishMeas (c := c1) (Held.refl _) r hr).tracker]
            exact h1

theorem quiet_handlePending (hq : K.Quiet u It) {c : Core A W X C M T} (ht : It c.tracker)
    (env : Env) :
    Sim (fun r => r.fuzzy = false) (fun r => It r.tracker)
      (handlePending env K c) (handlePending env (K.withUpdate u) c) := by
  unfold handlePending
  split
  · exact Sim.ok fun _ => ht
  · rename_i m q _
    exact quiet_addMeasurement hq (c := { c with queue := q }) ht env m

theorem quiet_imuPropagate (hq : K.Quiet u It) {c : Core A W X C M T} (ht : It c.tracker)
    (env : Env) (last : Node (St A W X C)) (t : ℚ) (v : Input A W) :
    Sim (fun r => r.fuzzy = false) (fun r => It r.tracker)
      (imuPropagate env K c last t v) (imuPropagate env (K.withUpdate u) c last t v) := by
  rw [imuPropagate_form, imuPropagate_form]
  change Sim _ _ _ (propagatePOneStep K { c with
      states := (c.states.insert t (imuState K last t v)).1,
      itImu := (c.states.insert t (imuState K last t v)).2 } >>= fun c1 =>
        published c1 (c.states.find t).isSome (imuState K last t v)
          (c.states.insert t (imuState K last t v)).2 >>= fun cur =>
            imuEnd env (K.withUpdate u) c1 t cur)
  refine Sim.bind fun c1 hc1 => Sim.bind fun cur _ => ?_
  have h1 := Held.propagatePOneStep (c := { c with
      states := (c.states.insert t (imuState K last t v)).1,
      itImu := (c.states.insert t (imuState K last t v)).2 }) (Held.refl _) c1 hc1
  have ht1 : It c1.tracker := by rw [h1.tracker]; exact ht
  unfold imuEnd
  split
  · exact quiet_handlePending hq (c := { c1 with
      out := c1.out ++ [.afterPropagation t cur.x cur.P], predMade := true }) ht1 env
  · exact Sim.ok fun _ => ht1

theorem quiet_processIMU (hq : K.Quiet u It) {c : Core A W X C M T} (ht : It c.tracker)
    (env : Env) (t : ℚ) (v : Input A W) :
    Sim (fun r => r.fuzzy = false) (fun r => It r.tracker)
      (processIMU env K c t v) (processIMU env (K.withUpdate u) c t v) := by
  rw [processIMU_form, processIMU_form]
  split
  · exact Sim.ok fun _ => ht
  · refine Sim.bind fun it _ => Sim.bind fun last _ => ?_
    unfold imuBody
    split
    · exact Sim.ok fun _ => ht
    · split
      · exact Sim.ok fun _ => ht
      · split
        · exact Sim.ok fun _ => ht
        · exact quiet_imuPropagate hq (c := { c with
            itImu := it
            lastAmImu := if K.spike v.a = true then c.lastAmImu else last.val.u.a }) ht env last t _

theorem quiet_extEnd (hq : K.Quiet u It) {c : Core A W X C M T} (ht : It c.tracker)
    (env : Env) (t : ℚ) (s : St A W X C) :
    Sim (fun r => r.fuzzy = false) (fun r => It r.tracker)
      (extEnd env K c t s) (extEnd env (K.withUpdate u) c t s) := by
  unfold extEnd
  rw [propagatePOneStep_withUpdate]
  refine Sim.bind fun c1 hc1 => Sim.bind fun cur _ => ?_
  have h1 := Held.propagatePOneStep (c := { c with states := (c.states.insert t s).1 })
    (Held.refl _) c1 hc1
  have ht1 : It c1.tracker := by rw [h1.tracker]; exact ht
  exact quiet_handlePending hq (c := { c1 with
    predMade := true, out := c1.out ++ [.afterPropagation t cur.x cur.P] }) ht1 env

theorem quiet_processExternal (hq : K.Quiet u It) {c : Core A W X C M T} (ht : It c.tracker)
    (env : Env) (t : ℚ) (v : Input A W) (e : Option E) :
    Sim (fun r => r.fuzzy = false) (fun r => It r.tracker)
      (processExternal env K c t v e) (processExternal env (K.withUpdate u) c t v e) := by
  rw [processExternal_form, processExternal_form]
  split
  · exact Sim.ok fun _ => ht
  · split
    · exact Sim.ok fun _ => ht
    · rename_i last _
      split
      · exact Sim.ok fun _ => ht
      · split
        · exact Sim.ok fun _ => ht
        · split
          · exact quiet_extEnd hq (c := { c with
              lastAmExt := (extInput K c v).a, tP := t, states := c.states.clear
              meas := c.meas.clear, queue := [] }) ht env t
              ⟨extInput K c v, extMean K last t (extInput K c v) e, last.val.P⟩
          · exact quiet_extEnd hq (c := { c with lastAmExt := (extInput K c v).a }) ht env t
              ⟨extInput K c v, extMean K last t (extInput K c v) e, K.P0⟩

theorem quiet_call (hq : K.Quiet u It) {c : Core A W X C M T} (ht : It c.tracker)
    (env : Env) (o : Op A W M) :
    Sim (fun r => r.fuzzy = false) (fun r => It r.tracker)
      (call env K c o) (call env (K.withUpdate u) c o) := by
  cases o with
  | imu t v => exact quiet_processIMU hq ht env t v
  | meas m => exact quiet_addMeasurement hq ht env m

theorem quiet_api (hq : K.Quiet u It) {c : Core A W X C M T} (ht : It c.tracker)
    (env : Env) (o : Api A W X C M E) :
    Sim (fun r => r.fuzzy = false) (fun r => It r.tracker)
      (api env K c o) (api env (K.withUpdate u) c o) := by
  cases o with
  | init t s => exact Sim.ok fun _ => hq.tr0
  | imu t v => exact quiet_processIMU hq ht env t v
  | ext t v e => exact quiet_processExternal hq ht env t v e
  | meas m => exact quiet_addMeasurement hq ht env m

/-- After every call of the run, `isfuzzyState_` is false. -/
def QuietRun (env : Env) (K : Kernel A W X C M T E) (c : Core A W X C M T)
    (ops : List (Op A W M)) : Prop :=
  ∀ ops' c', ops' <+: ops → calls env K c ops' = .ok c' → c'.fuzzy = false

/-- A run without fuzzy states is a run of the filter without the fuzzy-tracking check. -/
theorem quiet_calls (hq : K.Quiet u It) (env : Env) (ops : List (Op A W M)) :
    ∀ {c : Core A W X C M T} (_ : It c.tracker) (_ : QuietRun env K c ops),
      Sim (fun _ => True) (fun r => It r.tracker)
        (calls env K c ops) (calls env (K.withUpdate u) c ops) := by
  induction ops with
  | nil => intro c ht _; exact Sim.ok fun _ => ht
  | cons o ops ih =>
    intro c ht hr r h _
    change (call env K c o >>= fun c1 => calls env K c1 ops) = .ok r at h
    change (call env (K.withUpdate u) c o >>= fun c1 => calls env (K.withUpdate u) c1 ops) = .ok r ∧ _
    cases h1 : call env K c o with
    | error e => rw [h1] at h; cases h
    | ok c1 =>
      have f1 : c1.fuzzy = false := hr [o] c1 ⟨ops, rfl⟩ (by
        change (call env K c o >>= fun c1 => calls env K c1 []) = _
        rw [h1]; rfl)
      obtain ⟨e, ht1⟩ := quiet_call hq ht env o c1 h1 f1
      rw [h1] at h
      rw [e]
      refine ih ht1 ?_ r h trivial
      intro ops' c' hp hc
      refine hr (o :: ops') c' (List.cons_prefix_cons.2 ⟨rfl, hp⟩) ?_
      change (call env K c o >>= fun c1 => calls env K c1 ops') = _
      rw [h1]
      exact hc

end Core
end MSF
