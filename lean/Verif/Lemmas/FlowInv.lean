import Verif.Lemmas.FlowForms
import Verif.Lemmas.CoreTimes
import Verif.Lemmas.SortedContainer

/-! The measurements a core with relative measurements stores are the ones it was given. -/

namespace MSF

/-- The measurement buffer is sorted, its keys are the times of the measurements, and all measurements in
it and in the queue satisfy `Q`. -/
structure Core.MeasOk {A W X C M T : Type} (Q : Meas M → Prop) (c : Core A W X C M T) : Prop where
  sorted : SortedL c.meas.nodes
  keyed : ∀ n ∈ c.meas.nodes, n.val.time = n.key ∧ Q n.val
  queue : ∀ m ∈ c.queue, Q m

namespace Flow
variable {A W X C M T E : Type}

/-- `predict` and `apply` keep `MeasOk`. -/
structure Keeps (Q : Meas M → Prop) (fl : Flow A W X C M T E) : Prop where
  predict : ∀ c o n, c.MeasOk Q → (fl.predict c o n).MeasOk Q
  apply : ∀ env c m s, c.MeasOk Q → Post (fl.apply env c m s) (Core.MeasOk Q)

section
variable {Q : Meas M → Prop} {c : Core A W X C M T} {fl : Flow A W X C M T E} (hk : Keeps Q fl)

include hk in
theorem ok_propagatePOneStep (h : c.MeasOk Q) :
    Post (propagatePOneStep fl c) (Core.MeasOk Q) := by
  unfold Flow.propagatePOneStep
  refine Post.bind fun next _ => ?_
  split
  · exact Post.ret h
  · refine Post.bind fun o _ => Post.bind fun n _ => ?_
    have h' := hk.predict c o n h
    split
    · exact Post.ret h'
    · exact Post.ret ⟨h'.sorted, h'.keyed, h'.queue⟩

include hk in
theorem ok_propPLoop (t : ℚ) (fuel : Nat) : ∀ {c : Core A W X C M T} (_ : c.MeasOk Q)
    (it itm : Iter), Post (propPLoop fl t fuel c it itm) (Core.MeasOk Q) := by
  induction fuel with
  | zero => intro c _ it itm; exact Post.err
  | succ fuel ih =>
    intro c h it itm
    unfold Flow.propPLoop
    split
    · exact Post.ok h
    · refine Post.bind fun n _ => ?_
      split
      · exact Post.bind fun m _ => Post.bind fun i _ => Post.bind fun j _ =>
          ih (hk.predict c m n h) i j
      · exact Post.ret h

include hk in
theorem ok_propPToState (h : c.MeasOk Q) (t : ℚ) : Post (propPToState fl c t) (Core.MeasOk Q) := by
  unfold Flow.propPToState
  exact Post.bind fun i _ => ok_propPLoop hk t _ h _ _

theorem sorted_clearOlderThan {V : Type} {b : Buf V} (h : SortedL b.nodes) (p : Plat) (age : ℚ) :
    Post (b.clearOlderThan p age) (fun b' => SortedL b'.nodes) := by
  unfold Buf.clearOlderThan
  simp only
  split
  · exact Post.ret h
  · refine Post.bind fun it _ => Post.bind fun n _ => Post.bind fun f _ => ?_
    split
    · exact Post.ret (Buf.sorted_filter h _)
    · exact Post.ret h

theorem mem_clearOlderThan {V : Type} {b : Buf V} (p : Plat) (age : ℚ) :
    Post (b.clearOlderThan p age) (fun b' => ∀ n ∈ b'.nodes, n ∈ b.nodes) := by
  unfold Buf.clearOlderThan
  simp only
  split
  · exact Post.ret fun n hn => hn
  · refine Post.bind fun it _ => Post.bind fun n _ => Post.bind fun f _ => ?_
    split
    · exact Post.ret fun n hn => (List.mem_filter.1 hn).1
    · exact Post.ret fun n hn => hn

theorem ok_cleanUp (h : c.MeasOk Q) (env : Env) : Post (Core.cleanUp env c) (Core.MeasOk Q) := by
  unfold Core.cleanUp
  exact Post.bind fun s hs => Post.bind fun m hm =>
    Post.ret ⟨sorted_clearOlderThan h.sorted _ _ m hm,
      fun n hn => h.keyed n (mem_clearOlderThan _ _ m hm n hn), h.queue⟩

theorem ok_clear (h : c.MeasOk Q) {c' : Core A W X C M T} (e : c'.meas = c.meas.clear) (e2 : c'.queue = []) :
    c'.MeasOk Q := by
  refine ⟨?_, ?_, ?_⟩
  · rw [e]; exact List.Pairwise.nil
  · rw [e]; intro n hn; cases hn
  · rw [e2]; intro n hn; cases hn

theorem ok_insert (h : c.MeasOk Q) {m : Meas M} (hm : Q m) {c' : Core A W X C M T}
    (e : c'.meas = (c.meas.insert m.time m).1) (e2 : c'.queue = c.queue) : c'.MeasOk Q := by
  refine ⟨?_, ?_, ?_⟩
  · rw [e]; exact Buf.sorted_insert h.sorted _ _
  · rw [e]
    simp only [Buf.insert]
    split
    · exact h.keyed
    · intro n hn
      rcases Buf.mem_insertNode_of hn with rfl | hn
      · exact ⟨rfl, hm⟩
      · exact h.keyed n hn
  · rw [e2]; exact h.queue

theorem ok_propLoop {K : Kernel A W X C M T E} (fuel : Nat) : ∀ {c : Core A W X C M T} (_ : c.MeasOk Q)
    (cur next stop : Iter), Post (Core.propLoop K fuel c cur next stop) (fun r => r.1.MeasOk Q) := by
  induction fuel with
  | zero => intro c _ _ _ _; exact Post.err
  | succ fuel ih =>
    intro c h cur next stop
    unfold Core.propLoop
    split
    · exact Post.ok h
    · refine Post.bind fun a _ => Post.bind fun b _ => ?_
      split
      · exact Post.ret h
      · split
        · exact Post.ret h
        · refine Post.bind fun i _ => Post.bind fun j _ => ih ?_ i j stop
          exact ⟨h.sorted, h.keyed, h.queue⟩

theorem ok_repropagate {K : Kernel A W X C M T E} (h : c.MeasOk Q) (k : ℚ) (it : Iter) :
    Post (Core.repropagate K c k it) (fun r => r.1.MeasOk Q) := by
  unfold Core.repropagate
  cases it with
  | fin => exact Post.bind fun a _ => Post.bind fun b _ => ok_propLoop _ h _ _ _
  | «at» k i =>
    refine Post.bind fun a _ => ?_
    simp only
    split
    · exact Post.bind fun a _ => Post.bind fun b _ => ok_propLoop _ h _ _ _
    · exact Post.bind fun a _ => Post.bind fun b _ => ok_propLoop _ h _ _ _

include hk in
theorem ok_finishMeas (h : c.MeasOk Q) : Post (finishMeas fl c) (Core.MeasOk Q) := by
  unfold Flow.finishMeas
  refine Post.bind fun c1 hc1 => ?_
  have h1 := ok_propPToState hk h _ c1 hc1
  split
  · exact Post.ret h1
  · exact Post.ret ⟨h1.sorted, h1.keyed, h1.queue⟩

variable [AddCommGroup A] [Module ℚ A] [AddCommGroup W] [Module ℚ W]

theorem ok_interpolate {K : Kernel A W X C M T E}
    (h : c.MeasOk Q) (n : Node (St A W X C)) (t : ℚ) :
    (Core.interpolate K c n t).1.MeasOk Q := by
  unfold Core.interpolate
  split
  · split
    · split
      · exact ⟨h.sorted, h.keyed, h.queue⟩
      · exact h
    · exact h
  · exact h

include hk in
theorem ok_getClosestState
    (h : c.MeasOk Q) (env : Env) (t : ℚ) :
    Post (getClosestState env fl c t) (fun r => r.1.MeasOk Q) := by
  unfold Flow.getClosestState
  refine Post.bind fun it _ => Post.bind fun n _ => ?_
  split
  · exact Post.ret h
  · have h1 := ok_interpolate (K := fl.toKernel) h n t
    generalize Core.interpolate fl.toKernel c n t = r at h1 ⊢
    obtain ⟨c1, i⟩ := r
    simp only at h1 ⊢
    refine Post.bind fun n1 _ => Post.bind fun c2 hc2 => Post.bind fun n2 hn2 => ?_
    have h2 := ok_propPToState hk h1 _ c2 hc2
    split
    · split
      · refine Post.bind fun c3 hc3 => Post.ret ?_
        exact ok_cleanUp (c := { c2 with janitor := 0 }) ⟨h2.sorted, h2.keyed, h2.queue⟩ env c3 hc3
      · exact Post.ret ⟨h2.sorted, h2.keyed, h2.queue⟩
    · exact Post.ret h2

include hk in
theorem ok_measLoop
    (env : Env) (fuel : Nat) : ∀ {c : Core A W X C M T} (_ : c.MeasOk Q)
    (it : Iter) (ap : Bool), Post (measLoop env fl fuel c it ap) (fun r => r.1.MeasOk Q) := by
  induction fuel with
  | zero => intro c _ _ _; exact Post.err
  | succ fuel ih =>
    intro c h it ap
    unfold Flow.measLoop
    split
    · exact Post.ok h
    · refine Post.bind fun m hm => ?_
      split
      · exact Post.bind fun i _ => ih h i ap
      · refine Post.bind fun r hr => ?_
        have h1 := ok_getClosestState hk h env _ r hr
        obtain ⟨c1, st⟩ := r
        simp only at h1 ⊢
        cases st with
        | none => exact Post.bind fun i _ => ih h1 i ap
        | some s =>
          simp only
          split
          · exact Post.bind fun i _ => ih h1 i ap
          · refine Post.bind fun m2 _ => Post.bind fun c2 hc2 => Post.bind fun i _ =>
              Post.bind fun r2 hr2 => ?_
            have h2 := ok_repropagate (hk.apply env c1 m2.val s h1 c2 hc2) s.key i r2 hr2
            split
            · exact Post.ret h2
            · exact ih h2 i true

include hk in
theorem ok_addMeasurement
    (h : c.MeasOk Q) (env : Env) {m : Meas M} (hm : Q m) :
    Post (addMeasurement env fl c m) (Core.MeasOk Q) := by
  unfold Flow.addMeasurement
  split
  · exact Post.ret h
  · split
    · refine Post.ret ⟨h.sorted, h.keyed, ?_⟩
      intro m' hm'
      rcases List.mem_append.1 hm' with hm' | hm'
      · exact h.queue m' hm'
      · rw [List.mem_singleton.1 hm']; exact hm
    · split
      · exact Post.ret h
      · refine Post.bind fun r hr => ?_
        obtain ⟨c1, ap, ab⟩ := r
        have h1 := ok_measLoop hk env _ (c := { c with meas := _, fuzzy := false })
          (ok_insert h hm rfl rfl) _ _ _ hr
        dsimp only at h1 ⊢
        split
        · exact Post.ret h1
        · exact ok_finishMeas hk h1

include hk in
theorem ok_handlePending
    (h : c.MeasOk Q) (env : Env) :
    Post (handlePending env fl c) (Core.MeasOk Q) := by
  unfold Flow.handlePending
  split
  · exact Post.ok h
  · rename_i m q hq
    have hm : Q m := h.queue m (by rw [hq]; exact List.mem_cons_self ..)
    refine ok_addMeasurement hk (c := { c with queue := q }) ?_ env hm
    exact ⟨h.sorted, h.keyed, fun m' hm' => h.queue m' (by rw [hq]; exact List.mem_cons_of_mem _ hm')⟩

include hk in
theorem ok_imuPropagate
    (h : c.MeasOk Q) (env : Env) (last : Node (St A W X C)) (t : ℚ)
    (u : Input A W) : Post (imuPropagate env fl c last t u) (Core.MeasOk Q) := by
  rw [imuPropagate_form]
  refine Post.bind fun c1 hc1 => Post.bind fun cur _ => ?_
  have h1 := ok_propagatePOneStep hk (c := { c with
      states := (c.states.insert t (Core.imuState fl.toKernel last t u)).1
      itImu := (c.states.insert t (Core.imuState fl.toKernel last t u)).2 })
    ⟨h.sorted, h.keyed, h.queue⟩ c1 hc1
  unfold imuEnd
  split
  · refine ok_handlePending hk ?_ env
    exact ⟨h1.sorted, h1.keyed, h1.queue⟩
  · exact Post.ok ⟨h1.sorted, h1.keyed, h1.queue⟩

include hk in
theorem ok_processIMU
    (h : c.MeasOk Q) (env : Env) (t : ℚ) (u : Input A W) :
    Post (processIMU env fl c t u) (Core.MeasOk Q) := by
  rw [processIMU_form]
  split
  · exact Post.ok h
  · refine Post.bind fun it _ => Post.bind fun last _ => ?_
    unfold imuBody
    split
    · exact Post.ok ⟨h.sorted, h.keyed, h.queue⟩
    · split
      · exact Post.ok ⟨h.sorted, h.keyed, h.queue⟩
      · split
        · exact Post.ok ⟨h.sorted, h.keyed, h.queue⟩
        · refine ok_imuPropagate hk ?_ env _ _ _
          exact ⟨h.sorted, h.keyed, h.queue⟩

include hk in
theorem ok_extEnd
    (h : c.MeasOk Q) (env : Env) (t : ℚ) (s : St A W X C) :
    Post (extEnd env fl c t s) (Core.MeasOk Q) := by
  unfold Flow.extEnd
  refine Post.bind fun c1 hc1 => Post.bind fun cur _ => ?_
  have h1 := ok_propagatePOneStep hk (c := { c with states := (c.states.insert t s).1 })
    ⟨h.sorted, h.keyed, h.queue⟩ c1 hc1
  refine ok_handlePending hk ?_ env
  exact ⟨h1.sorted, h1.keyed, h1.queue⟩

include hk in
theorem ok_processExternal
    (h : c.MeasOk Q) (env : Env) (t : ℚ) (u : Input A W)
    (e : Option E) : Post (processExternal env fl c t u e) (Core.MeasOk Q) := by
  rw [processExternal_form]
  split
  · exact Post.ok h
  · split
    · exact Post.ok h
    · split
      · exact Post.ok h
      · split
        · exact Post.ok ⟨h.sorted, h.keyed, h.queue⟩
        · split
          · exact ok_extEnd hk (ok_clear h rfl rfl) env _ _
          · refine ok_extEnd hk ?_ env _ _
            exact ⟨h.sorted, h.keyed, h.queue⟩

/-- The measurement a call carries satisfies `Q`. -/
def measOf (Q : Meas M → Prop) : Api A W X C M E → Prop
  | .meas m => Q m
  | _ => True

include hk in
theorem ok_api {c : Core A W X C M T} (h : c.MeasOk Q) (env : Env) {o : Api A W X C M E}
    (ho : measOf Q o) : Post (api env fl c o) (Core.MeasOk Q) := by
  cases o with
  | init t s => exact Post.ok (ok_clear h rfl rfl)
  | imu t u => exact ok_processIMU hk h env t u
  | ext t u e => exact ok_processExternal hk h env t u e
  | meas m => exact ok_addMeasurement hk h env ho

theorem ok_new (K : Kernel A W X C M T E) : (Core.new K).MeasOk Q :=
  ⟨List.Pairwise.nil, fun n hn => (by cases hn), fun n hn => (by cases hn)⟩

end

end Flow

/-! ### The core with relative measurements -/

namespace RelKernel
variable {A W X C F M T E : Type} {Q : Meas M → Prop} {R : RelKernel A W X C F M T E}

theorem ok_predict {c : Core A W X (C × F) M T} (h : c.MeasOk Q) (o n : Node (St A W X (C × F))) :
    (R.predict c o n).MeasOk Q := by
  unfold predict
  split
  · exact h
  · exact ⟨h.sorted, h.keyed, h.queue⟩

theorem ok_write {c : Core A W X (C × F) M T} (h : c.MeasOk Q) (n : Node (St A W X (C × F)))
    (g : St A W X (C × F) → St A W X (C × F)) : (write c n g).MeasOk Q := by
  unfold write
  split
  · exact ⟨h.sorted, h.keyed, h.queue⟩
  · exact h

theorem ok_relApply {c : Core A W X (C × F) M T} (h : c.MeasOk Q) (prev m : Meas M)
    (old s : Node (St A W X (C × F))) : Post (relApply R c prev m old s) (Core.MeasOk Q) := by
  unfold relApply
  refine Post.bind fun F _ => Post.ret ?_
  have h1 := ok_write (ok_write (ok_write h old fun v => { v with P := (R.clear m.body v.P.1, v.P.2) }) s
    fun v => { v with P := (R.clear m.body v.P.1, v.P.2) })
  exact ⟨(h1 _ _).sorted, (h1 _ _).keyed, (h1 _ _).queue⟩

variable [AddCommGroup A] [Module ℚ A] [AddCommGroup W] [Module ℚ W]

theorem ok_closest {c : Core A W X (C × F) M T} (h : c.MeasOk Q) (env : Env) (t : ℚ) :
    Post (R.closest env c t) (fun r => r.1.MeasOk Q) :=
  Flow.ok_getClosestState ⟨fun _ o n h => ok_predict h o n, fun _ _ _ _ h => Post.ok h⟩ h env t

theorem flow_keeps (R : RelKernel A W X C F M T E) : R.flow.Keeps Q where
  predict _ o n h := ok_predict h o n
  apply env c m s h := by
    change Post (R.apply env c m s) _
    unfold apply
    split
    · exact Post.ok ⟨h.sorted, h.keyed, h.queue⟩
    · refine Post.bind fun prev _ => ?_
      cases prev with
      | none => exact Post.ret h
      | some prev =>
        dsimp only
        split
        · exact Post.ret h
        · split
          · exact Post.ret h
          · refine Post.bind fun r hr => ?_
            have h1 := ok_closest h env _ r hr
            obtain ⟨c1, o⟩ := r
            cases o with
            | none => exact Post.ret h1
            | some old =>
              dsimp only at h1 ⊢
              split
              · exact Post.ret h1
              · exact ok_relApply h1 _ _ _ _

end RelKernel
end MSF
