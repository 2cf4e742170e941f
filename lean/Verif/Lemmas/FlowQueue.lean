import Verif.Lemmas.FlowEarlyOut
import Verif.Lemmas.FlowNewest

/-! Using a measurement does not depend on what else waits. -/

namespace MSF

theorem bind_same {α β γ : Type} {g : γ → β} (r : Except UB α) {k1 : α → Except UB β} {k2 : α → Except UB γ}
    (h : ∀ a, k1 a = (k2 a).map g) : (r >>= k1) = (r >>= k2).map g := by
  cases r with
  | error e => rfl
  | ok a => exact h a

theorem bind_both {α α' β γ : Type} {f : α' → α} {g : γ → β} {r1 : Except UB α} {r2 : Except UB α'}
    (hr : r1 = r2.map f) {k1 : α → Except UB β} {k2 : α' → Except UB γ}
    (h : ∀ a, k1 (f a) = (k2 a).map g) : (r1 >>= k1) = (r2 >>= k2).map g := by
  subst hr
  cases r2 with
  | error e => rfl
  | ok a => exact h a

theorem ite_both {β γ : Type} {g : γ → β} {p : Prop} [Decidable p] {a1 b1 : Except UB β}
    {a2 b2 : Except UB γ} (ha : a1 = a2.map g) (hb : b1 = b2.map g) :
    (if p then a1 else b1) = (if p then a2 else b2).map g := by
  split <;> assumption

variable {A W X C F M T E : Type}

/-- The core with other waiting measurements. -/
def Core.waiting (q : List (Meas M)) (c : Core A W X C M T) : Core A W X C M T := { c with queue := q }

namespace Core

theorem waiting_cleanUp (env : Env) (c : Core A W X C M T) (q : List (Meas M)) :
    cleanUp env (c.waiting q) = (cleanUp env c).map (waiting q) := by
  unfold cleanUp
  exact bind_same _ fun s => bind_same _ fun m => rfl

theorem waiting_propLoop (K : Kernel A W X C M T E) (q : List (Meas M)) (fuel : Nat) :
    ∀ (c : Core A W X C M T) (cur next stop : Iter),
      propLoop K fuel (c.waiting q) cur next stop =
        (propLoop K fuel c cur next stop).map (Prod.map (waiting q) id) := by
  induction fuel with
  | zero => intros; rfl
  | succ fuel ih =>
    intro c cur next stop
    unfold propLoop
    refine ite_both rfl ?_
    refine bind_same _ fun a => bind_same _ fun b => ?_
    refine ite_both rfl ?_
    refine ite_both rfl ?_
    refine bind_same _ fun i => bind_same _ fun j => ?_
    exact ih { c with states := (c.states.modify b.key
                        fun s => { s with x := K.prop (b.key - a.key) a.val.u a.val.x s.u }) } i j stop

theorem waiting_repropagate (K : Kernel A W X C M T E) (q : List (Meas M)) (c : Core A W X C M T) (k : ℚ)
    (it : Iter) :
    repropagate K (c.waiting q) k it = (repropagate K c k it).map (Prod.map (waiting q) id) := by
  rw [repropagate_form, repropagate_form]
  exact bind_same _ fun a => bind_same _ fun b => waiting_propLoop K q _ c _ _ _

variable [AddCommGroup A] [Module ℚ A] [AddCommGroup W] [Module ℚ W]

theorem waiting_interpolate (K : Kernel A W X C M T E) (q : List (Meas M)) (c : Core A W X C M T)
    (n : Node (St A W X C)) (t : ℚ) :
    interpolate K (c.waiting q) n t = Prod.map (waiting q) id (interpolate K c n t) := by
  unfold interpolate
  change (if _ then (match c.states.closestBefore t, c.states.closestAfter t with
    | some l, some r => _
    | _, _ => _) else _) = _
  split
  · cases c.states.closestBefore t with
    | none => rfl
    | some l =>
      cases c.states.closestAfter t with
      | none => rfl
      | some r =>
        dsimp only
        split <;> rfl
  · rfl

end Core

namespace Flow
open Core
variable {f : Flow A W X C M T E}

/-- Neither `predict` nor `apply` reads or changes the queue. -/
structure Apart (f : Flow A W X C M T E) : Prop where
  predict : ∀ q c o n, f.predict (c.waiting q) o n = (f.predict c o n).waiting q
  apply : ∀ q env c m s, f.apply env (c.waiting q) m s = (f.apply env c m s).map (waiting q)

theorem waiting_propPLoop (hf : ∀ q c o n, f.predict (c.waiting q) o n = (f.predict c o n).waiting q)
    (q : List (Meas M)) (t : ℚ) (fuel : Nat) :
    ∀ (c : Core A W X C M T) (it itm : Iter),
      propPLoop f t fuel (c.waiting q) it itm = (propPLoop f t fuel c it itm).map (waiting q) := by
  induction fuel with
  | zero => intros; rfl
  | succ fuel ih =>
    intro c it itm
    unfold propPLoop
    refine ite_both rfl ?_
    refine bind_same _ fun n => ?_
    refine ite_both ?_ rfl
    refine bind_same _ fun m => ?_
    dsimp only
    rw [hf]
    refine bind_same _ fun i => bind_same _ fun j => ?_
    exact ih _ i j

theorem waiting_propPToState (hf : ∀ q c o n, f.predict (c.waiting q) o n = (f.predict c o n).waiting q)
    (q : List (Meas M)) (c : Core A W X C M T) (t : ℚ) :
    propPToState f (c.waiting q) t = (propPToState f c t).map (waiting q) := by
  unfold propPToState
  exact bind_same _ fun i => waiting_propPLoop hf q t _ c _ _

theorem waiting_finishMeas (hf : f.Apart) (q : List (Meas M)) (c : Core A W X C M T) :
    finishMeas f (c.waiting q) = (finishMeas f c).map (waiting q) := by
  unfold finishMeas
  refine bind_both (waiting_propPToState hf.predict q c _) fun d => ?_
  change (match d.states.last with | none => _ | some n => _) = _
  cases d.states.last <;> rfl

variable [AddCommGroup A] [Module ℚ A] [AddCommGroup W] [Module ℚ W]

theorem waiting_getClosestState (hf : ∀ q c o n, f.predict (c.waiting q) o n = (f.predict c o n).waiting q)
    (q : List (Meas M)) (env : Env) (c : Core A W X C M T) (t : ℚ) :
    getClosestState env f (c.waiting q) t =
      (getClosestState env f c t).map (Prod.map (waiting q) id) := by
  unfold getClosestState
  refine bind_same _ fun it => bind_same _ fun n => ?_
  refine ite_both rfl ?_
  rw [waiting_interpolate]
  generalize Core.interpolate f.toKernel c n t = r
  obtain ⟨c1, it⟩ := r
  dsimp only [Prod.map, id]
  refine bind_same _ fun n1 => ?_
  refine bind_both (waiting_propPToState hf q c1 _) fun c2 => ?_
  refine bind_same _ fun n2 => ?_
  refine ite_both ?_ rfl
  refine ite_both ?_ rfl
  exact bind_both (waiting_cleanUp env { c2 with janitor := 0 } q) fun c3 => rfl

theorem waiting_measLoop (hf : f.Apart) (q : List (Meas M)) (env : Env) (fuel : Nat) :
    ∀ (c : Core A W X C M T) (it : Iter) (ap : Bool),
      measLoop env f fuel (c.waiting q) it ap =
        (measLoop env f fuel c it ap).map (Prod.map (waiting q) id) := by
  induction fuel with
  | zero => intros; rfl
  | succ fuel ih =>
    intro c it ap
    unfold measLoop
    refine ite_both rfl ?_
    refine bind_same _ fun m => ?_
    refine ite_both (bind_same _ fun i => ih c i ap) ?_
    refine bind_both (waiting_getClosestState hf.predict q env c _) fun r => ?_
    obtain ⟨c1, st⟩ := r
    dsimp only [Prod.map, id]
    cases st with
    | none => exact bind_same _ fun i => ih c1 i ap
    | some s =>
      dsimp only
      refine ite_both (bind_same _ fun i => ih c1 i ap) ?_
      refine bind_same _ fun m2 => ?_
      refine bind_both (hf.apply q env c1 m2.val s) fun c2 => ?_
      refine bind_same _ fun i => ?_
      refine bind_both (waiting_repropagate f.toKernel q c2 _ i) fun r2 => ?_
      obtain ⟨c3, ab⟩ := r2
      dsimp only [Prod.map, id]
      exact ite_both rfl (ih c3 i true)

/-- A measurement that need not wait. -/
theorem waiting_addMeasurement (hf : f.Apart) (q : List (Meas M)) (env : Env) (c : Core A W X C M T)
    (m : Meas M) (hm : m.time ≤ timeOf c.states.last) :
    addMeasurement env f (c.waiting q) m = (addMeasurement env f c m).map (waiting q) := by
  unfold addMeasurement
  refine ite_both rfl ?_
  have h1 : ¬ m.time > timeOf c.states.last := not_lt.mpr hm
  rw [if_neg h1, if_neg (show ¬ m.time > timeOf (c.waiting q).states.last from h1)]
  refine ite_both rfl ?_
  refine bind_both (waiting_measLoop hf q env _
    { c with meas := (c.meas.insert m.time m).1, fuzzy := false } _ _) fun r => ?_
  obtain ⟨c1, ap, ab⟩ := r
  dsimp only [Prod.map, id]
  exact ite_both rfl (waiting_finishMeas hf q c1)

theorem front_imuPropagate (env : Env) (hf : f.Still) (c : Core A W X C M T) (hp : c.predMade = true)
    (last : Node (St A W X C)) (t : ℚ) (u : Input A W) (m : Meas M) (q : List (Meas M)) :
    imuPropagate env f (c.waiting (m :: q)) last t u =
      imuPropagate env f (c.waiting []) last t u >>= fun d => addMeasurement env f (d.waiting q) m := by
  rw [imuPropagate_form, imuPropagate_form]
  have e := fun q => still_step hf
    { c with states := (c.states.insert t (Core.imuState f.toKernel last t u)).1,
             itImu := (c.states.insert t (Core.imuState f.toKernel last t u)).2 } q
  have e1 := e (m :: q)
  have e2 := e []
  dsimp only [waiting] at e1 e2 ⊢
  rw [e1, e2]
  generalize h : propagatePOneStep f _ = r
  cases r with
  | error e => rfl
  | ok d =>
    obtain ⟨-, h2, -⟩ := still_step_flags hf h
    have h2' : d.predMade = true := h2.trans hp
    have epub : ∀ q w s it, Core.published { d with queue := q } w s it = Core.published d w s it :=
      fun q w s it => rfl
    simp only [Except.map, bind, Except.bind, epub]
    cases Core.published d (c.states.find t).isSome (Core.imuState f.toKernel last t u)
      (c.states.insert t (Core.imuState f.toKernel last t u)).2 with
    | error e => rfl
    | ok cur =>
      dsimp only
      unfold imuEnd
      simp only [h2', Bool.true_or, if_true]
      rfl

theorem imuBody_run (env : Env) (f : Flow A W X C M T E) {c : Core A W X C M T} (hp : c.predMade = true)
    {last : Node (St A W X C)} {t : ℚ} (hl1 : last.key ≠ invalidTime) (hl2 : last.key ≤ t) (u : Input A W) :
    imuBody env f c last t u =
      imuPropagate env f { c with lastAmImu := if f.spike u.a then c.lastAmImu else last.val.u.a }
        last t (if f.spike u.a then { u with a := c.lastAmImu } else u) := by
  unfold imuBody
  rw [if_neg hl1, if_neg (fun h => by linarith [h.1]), if_neg (by simp [hp])]

/-- A reading with any waiting measurements acts as if only the front arrived, just after the reading. -/
theorem front_imu (env : Env) (hf : f.Still) (ha : f.Apart) (hn : f.KeepsNewest) (c : Core A W X C M T)
    (hi : c.inited = true) (hp : c.predMade = true) (m : Meas M) (q : List (Meas M)) (t : ℚ) (u : Input A W)
    (hs : SortedL c.states.nodes) (hv : ∀ n ∈ c.states.nodes, n.key ≠ invalidTime)
    (hle : ∀ n ∈ c.states.nodes, n.key ≤ t) (hme : ∀ n ∈ c.meas.nodes, n.key ≤ t) (hm : m.time ≤ t) :
    api env f (c.waiting (m :: q)) (.imu t u) =
      (apis env f (c.waiting []) [.imu t u, .meas m]).map (waiting q) := by
  have key : processIMU env f (c.waiting (m :: q)) t u =
      (processIMU env f (c.waiting []) t u >>= fun d => addMeasurement env f d m).map (waiting q) := by
    rw [processIMU_form, processIMU_form]
    rw [if_neg (by simp [waiting, hi]), if_neg (by simp [waiting, hi])]
    change (Core.imuStart env c t >>= fun it => c.states.deref it >>= fun last =>
        imuBody env f ({ c with itImu := it }.waiting (m :: q)) last t u) =
      ((Core.imuStart env c t >>= fun it => c.states.deref it >>= fun last =>
        imuBody env f ({ c with itImu := it }.waiting []) last t u) >>= _).map _
    cases Core.imuStart env c t with
    | error e => rfl
    | ok it =>
      simp only [bind, Except.bind]
      cases hd : c.states.deref it with
      | error e => rfl
      | ok last =>
        have hl := Buf.deref_mem_nodes hd
        have hl1 := hv last hl
        have hl2 := hle last hl
        dsimp only
        rw [imuBody_run env _ (c := waiting (m :: q) { c with itImu := it }) hp hl1 hl2,
          imuBody_run env _ (c := waiting [] { c with itImu := it }) hp hl1 hl2]
        have e := front_imuPropagate env hf
          { c with itImu := it, lastAmImu := if f.spike u.a then c.lastAmImu else last.val.u.a } hp last t
          (if f.spike u.a then { u with a := c.lastAmImu } else u) m q
        refine e.trans ?_
        have hnew := new_imuPropagate hn
          (c := { c with itImu := it, queue := [], lastAmImu := if f.spike u.a then c.lastAmImu else last.val.u.a })
          hs hle hme env last (if f.spike u.a then { u with a := c.lastAmImu } else u)
        dsimp only [waiting]
        revert hnew
        generalize imuPropagate env f _ last t _ = r
        intro hnew
        cases r with
        | error e => rfl
        | ok d =>
          have hd := hnew d rfl
          refine waiting_addMeasurement ha q env d m ?_
          obtain ⟨n, hn1, hn2⟩ := Core.last_of_top hd.sorted hd.top hd.le
          rw [hn1]
          exact hm.trans hn2.ge
  change processIMU env f (c.waiting (m :: q)) t u = _
  rw [key]
  congr 1
  change (processIMU env f (c.waiting []) t u >>= fun d => addMeasurement env f d m) =
    (processIMU env f (c.waiting []) t u >>= fun d => addMeasurement env f d m >>= fun d => .ok d)
  refine bind_congr fun d => ?_
  cases addMeasurement env f d m <;> rfl

omit [AddCommGroup A] [Module ℚ A] [AddCommGroup W] [Module ℚ W] in
theorem apart_abs (K : Kernel A W X C M T E) : K.absFlow.Apart where
  predict q c o n := blind_abs K c o n q
  apply _ _ _ _ _ := rfl

omit [AddCommGroup A] [Module ℚ A] [AddCommGroup W] [Module ℚ W] in
theorem newest_abs (K : Kernel A W X C M T E) : K.absFlow.KeepsNewest where
  predict _ _ _ o n h := h.predictCov o n
  apply _ _ _ _ m s h := Post.ok (h.applyMeas m s)

end Flow

namespace RelKernel
open Core

theorem waiting_prevLoop (env : Env) (q : List (Meas M)) (c : Core A W X C M T) (t : ℚ) (sensor : Int)
    (bb : Iter) (fuel : Nat) : ∀ it, prevLoop env (c.waiting q) t sensor bb fuel it =
      prevLoop env c t sensor bb fuel it := by
  induction fuel with
  | zero => intro it; rfl
  | succ fuel ih =>
    intro it
    unfold prevLoop
    simp only [ih]
    rfl

theorem waiting_previous (env : Env) (q : List (Meas M)) (c : Core A W X C M T) (t : ℚ) (sensor : Int) :
    getPreviousMeasurement env (c.waiting q) t sensor = getPreviousMeasurement env c t sensor := by
  unfold getPreviousMeasurement
  simp only [waiting_prevLoop]
  rfl

theorem waiting_predict (R : RelKernel A W X C F M T E) (q : List (Meas M)) (c : Core A W X (C × F) M T)
    (o n : Node (St A W X (C × F))) : R.predict (c.waiting q) o n = (R.predict c o n).waiting q := by
  unfold predict
  split <;> rfl

theorem waiting_write (q : List (Meas M)) (c : Core A W X C M T) (n : Node (St A W X C))
    (g : St A W X C → St A W X C) : write (c.waiting q) n g = (write c n g).waiting q := by
  unfold write
  change (match c.states.deref n.iter with | .ok _ => _ | .error _ => _) = _
  cases c.states.deref n.iter <;> rfl

theorem waiting_accumulate (R : RelKernel A W X C F M T E) (q : List (Meas M)) (c : Core A W X (C × F) M T)
    (stop : Iter) (fuel : Nat) : ∀ it acc, accumulate R (c.waiting q) stop fuel it acc =
      accumulate R c stop fuel it acc := by
  induction fuel with
  | zero => intros; rfl
  | succ fuel ih =>
    intro it acc
    unfold accumulate
    simp only [ih]
    rfl

theorem waiting_relApply (R : RelKernel A W X C F M T E) (q : List (Meas M)) (c : Core A W X (C × F) M T)
    (prev m : Meas M) (old s : Node (St A W X (C × F))) :
    relApply R (c.waiting q) prev m old s = (relApply R c prev m old s).map (waiting q) := by
  unfold relApply
  simp only [waiting_write, waiting_accumulate]
  exact bind_same _ fun F => rfl

variable [AddCommGroup A] [Module ℚ A] [AddCommGroup W] [Module ℚ W]

theorem waiting_closest (R : RelKernel A W X C F M T E) (q : List (Meas M)) (env : Env)
    (c : Core A W X (C × F) M T) (t : ℚ) :
    R.closest env (c.waiting q) t = (R.closest env c t).map (Prod.map (waiting q) id) := by
  unfold closest
  apply Flow.waiting_getClosestState
  intro q c o n
  exact waiting_predict R q c o n

theorem apart_rel (R : RelKernel A W X C F M T E) : R.flow.Apart where
  predict q c o n := waiting_predict R q c o n
  apply q env c m s := by
    change R.apply env (c.waiting q) m s = (R.apply env c m s).map (waiting q)
    unfold apply
    refine ite_both rfl ?_
    rw [waiting_previous]
    refine bind_same _ fun prev => ?_
    cases prev with
    | none => rfl
    | some prev =>
      dsimp only
      refine ite_both rfl (ite_both rfl ?_)
      refine bind_both (waiting_closest R q env c prev.key) fun r => ?_
      obtain ⟨c1, o⟩ := r
      cases o with
      | none => rfl
      | some old => exact ite_both rfl (waiting_relApply R q c1 prev.val m old s)

end RelKernel
end MSF
