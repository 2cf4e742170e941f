import Verif.Lemmas.FlowMap

/-! The times a core with relative measurements stores are the ones it was given (compare
`Lemmas/CoreTimes`). -/

namespace MSF
namespace Flow
variable {A W X C M T E : Type}

/-- `predict` and `apply` add no times. -/
structure KeepsTimes (S : Set ℚ) (fl : Flow A W X C M T E) : Prop where
  predict : ∀ c o n, c.TimesIn S → (fl.predict c o n).TimesIn S
  apply : ∀ env c m s, c.TimesIn S → Post (fl.apply env c m s) (Core.TimesIn S)

section
variable {S : Set ℚ} {c : Core A W X C M T} {fl : Flow A W X C M T E} (hk : KeepsTimes S fl)

include hk in
theorem tin_propagatePOneStep (h : c.TimesIn S) :
    Post (propagatePOneStep fl c) (Core.TimesIn S) := by
  unfold Flow.propagatePOneStep
  refine Post.bind fun next _ => ?_
  split
  · exact Post.ret h
  · refine Post.bind fun o _ => Post.bind fun n _ => ?_
    have h' := hk.predict c o n h
    split
    · exact Post.ret h'
    · exact Post.ret ⟨h'.states, h'.meas, h'.queue, h'.out⟩

include hk in
theorem tin_propPLoop (t : ℚ) (fuel : Nat) : ∀ {c : Core A W X C M T} (_ : c.TimesIn S)
    (it itm : Iter), Post (propPLoop fl t fuel c it itm) (Core.TimesIn S) := by
  induction fuel with
  | zero => intro c _ it itm; exact Post.err
  | succ fuel ih =>
    intro c h it itm
    unfold Flow.propPLoop
    split
    · exact Post.ok h
    · refine Post.bind fun n _ => ?_
      split
      · exact Post.bind fun m _ => Post.bind fun i _ => Post.bind fun j _ =>
          ih (hk.predict c m n h) i j
      · exact Post.ret h

include hk in
theorem tin_propPToState (h : c.TimesIn S) (t : ℚ) : Post (propPToState fl c t) (Core.TimesIn S) := by
  unfold Flow.propPToState
  exact Post.bind fun i _ => tin_propPLoop hk t _ h _ _

include hk in
theorem tin_finishMeas (h : c.TimesIn S) : Post (finishMeas fl c) (Core.TimesIn S) := by
  unfold Flow.finishMeas
  refine Post.bind fun c1 hc1 => ?_
  have h1 := tin_propPToState hk h _ c1 hc1
  split
  · exact Post.ret h1
  · rename_i n hn
    exact Post.ret ⟨h1.states, h1.meas, h1.queue,
      Core.TimesIn.out_snoc h1.out (h1.states n (List.mem_of_getLast? hn))⟩

variable [AddCommGroup A] [Module ℚ A] [AddCommGroup W] [Module ℚ W]

include hk in
theorem tin_getClosestState
    (h : c.TimesIn S) (env : Env) {t : ℚ} (ht : t ∈ S) :
    Post (getClosestState env fl c t)
      (fun r => r.1.TimesIn S ∧ ∀ n, r.2 = some n → n.key ∈ S) := by
  unfold Flow.getClosestState
  refine Post.bind fun it _ => Post.bind fun n _ => ?_
  split
  · exact Post.ret ⟨h, by simp⟩
  · have h1 := h.interpolate (K := fl.toKernel) n ht
    generalize Core.interpolate fl.toKernel c n t = r at h1 ⊢
    obtain ⟨c1, i⟩ := r
    simp only at h1 ⊢
    refine Post.bind fun n1 _ => Post.bind fun c2 hc2 => Post.bind fun n2 hn2 => ?_
    have h2 := tin_propPToState hk h1 _ c2 hc2
    have hk := h2.states.deref hn2
    split
    · split
      · refine Post.bind fun c3 hc3 => Post.ret ⟨?_, ?_⟩
        · exact Core.TimesIn.cleanUp (c := { c2 with janitor := 0 }) ⟨h2.states, h2.meas, h2.queue, h2.out⟩
            env c3 hc3
        · intro m hm; cases hm; exact hk
      · refine Post.ret ⟨⟨h2.states, h2.meas, h2.queue, h2.out⟩, ?_⟩
        intro m hm; cases hm; exact hk
    · exact Post.ret ⟨h2, by simp⟩

include hk in
theorem tin_measLoop
    (env : Env) (fuel : Nat) : ∀ {c : Core A W X C M T} (_ : c.TimesIn S)
    (it : Iter) (ap : Bool), Post (measLoop env fl fuel c it ap) (fun r => r.1.TimesIn S) := by
  induction fuel with
  | zero => intro c _ _ _; exact Post.err
  | succ fuel ih =>
    intro c h it ap
    unfold Flow.measLoop
    split
    · exact Post.ok h
    · refine Post.bind fun m hm => ?_
      split
      · exact Post.bind fun i _ => ih h i ap
      · refine Post.bind fun r hr => ?_
        have h1 := tin_getClosestState hk h env (h.meas.deref hm) r hr
        obtain ⟨c1, st⟩ := r
        simp only at h1 ⊢
        cases st with
        | none => exact Post.bind fun i _ => ih h1.1 i ap
        | some s =>
          simp only
          split
          · exact Post.bind fun i _ => ih h1.1 i ap
          · refine Post.bind fun m2 _ => Post.bind fun c2 hc2 => Post.bind fun i _ =>
              Post.bind fun r2 hr2 => ?_
            have h2 := (hk.apply env c1 m2.val s h1.1 c2 hc2).repropagate s.key i r2 hr2
            split
            · exact Post.ret h2
            · exact ih h2 i true

include hk in
theorem tin_addMeasurement
    (h : c.TimesIn S) (env : Env) {m : Meas M} (hm : m.time ∈ S) :
    Post (addMeasurement env fl c m) (Core.TimesIn S) := by
  unfold Flow.addMeasurement
  split
  · exact Post.ret h
  · split
    · refine Post.ret ⟨h.states, h.meas, ?_, h.out⟩
      intro m' hm'
      rcases List.mem_append.1 hm' with hm' | hm'
      · exact h.queue m' hm'
      · rw [List.mem_singleton.1 hm']; exact hm
    · split
      · exact Post.ret h
      · refine Post.bind fun r hr => ?_
        obtain ⟨c1, ap, ab⟩ := r
        have h1 := tin_measLoop hk env _ (c := { c with meas := _, fuzzy := false })
          ⟨h.states, h.meas.insert hm m, h.queue, h.out⟩ _ _ _ hr
        dsimp only at h1 ⊢
        split
        · exact Post.ret h1
        · exact tin_finishMeas hk h1

include hk in
theorem tin_handlePending
    (h : c.TimesIn S) (env : Env) :
    Post (handlePending env fl c) (Core.TimesIn S) := by
  unfold Flow.handlePending
  split
  · exact Post.ok h
  · rename_i m q hq
    have hm : m.time ∈ S := h.queue m (by rw [hq]; exact List.mem_cons_self ..)
    refine tin_addMeasurement hk (c := { c with queue := q }) ?_ env hm
    exact ⟨h.states, h.meas, fun m' hm' => h.queue m' (by rw [hq]; exact List.mem_cons_of_mem _ hm'),
      h.out⟩

include hk in
theorem tin_imuPropagate
    (h : c.TimesIn S) (env : Env) (last : Node (St A W X C)) {t : ℚ}
    (ht : t ∈ S) (u : Input A W) : Post (imuPropagate env fl c last t u) (Core.TimesIn S) := by
  rw [imuPropagate_form]
  refine Post.bind fun c1 hc1 => Post.bind fun cur _ => ?_
  have h1 := tin_propagatePOneStep hk (c := { c with
      states := (c.states.insert t (Core.imuState fl.toKernel last t u)).1
      itImu := (c.states.insert t (Core.imuState fl.toKernel last t u)).2 })
    ⟨h.states.insert ht _, h.meas, h.queue, h.out⟩ c1 hc1
  unfold imuEnd
  split
  · refine tin_handlePending hk ?_ env
    exact ⟨h1.states, h1.meas, h1.queue, Core.TimesIn.out_snoc h1.out ht⟩
  · exact Post.ok ⟨h1.states, h1.meas, h1.queue, Core.TimesIn.out_snoc h1.out ht⟩

include hk in
theorem tin_processIMU
    (h : c.TimesIn S) (env : Env) {t : ℚ} (ht : t ∈ S) (u : Input A W) :
    Post (processIMU env fl c t u) (Core.TimesIn S) := by
  rw [processIMU_form]
  split
  · exact Post.ok h
  · refine Post.bind fun it _ => Post.bind fun last _ => ?_
    unfold imuBody
    split
    · exact Post.ok ⟨h.states, h.meas, h.queue, h.out⟩
    · split
      · exact Post.ok ⟨h.states, h.meas, h.queue, h.out⟩
      · split
        · exact Post.ok ⟨h.states.updateTime _ ht, h.meas, h.queue, h.out⟩
        · refine tin_imuPropagate hk ?_ env _ ht _
          exact ⟨h.states, h.meas, h.queue, h.out⟩

include hk in
theorem tin_extEnd
    (h : c.TimesIn S) (env : Env) {t : ℚ} (ht : t ∈ S) (s : St A W X C) :
    Post (extEnd env fl c t s) (Core.TimesIn S) := by
  unfold Flow.extEnd
  refine Post.bind fun c1 hc1 => Post.bind fun cur _ => ?_
  have h1 := tin_propagatePOneStep hk (c := { c with states := (c.states.insert t s).1 })
    ⟨h.states.insert ht _, h.meas, h.queue, h.out⟩ c1 hc1
  refine tin_handlePending hk ?_ env
  exact ⟨h1.states, h1.meas, h1.queue, Core.TimesIn.out_snoc h1.out ht⟩

include hk in
theorem tin_processExternal
    (h : c.TimesIn S) (env : Env) {t : ℚ} (ht : t ∈ S) (u : Input A W)
    (e : Option E) : Post (processExternal env fl c t u e) (Core.TimesIn S) := by
  rw [processExternal_form]
  split
  · exact Post.ok h
  · split
    · exact Post.ok h
    · split
      · exact Post.ok h
      · split
        · exact Post.ok ⟨h.states.updateTime _ ht, h.meas, h.queue, h.out⟩
        · split
          · refine tin_extEnd hk ?_ env ht _
            exact ⟨Buf.KeysIn.clear c.states, Buf.KeysIn.clear c.meas, by simp, h.out⟩
          · refine tin_extEnd hk ?_ env ht _
            exact ⟨h.states, h.meas, h.queue, h.out⟩

include hk in
theorem tin_api {c : Core A W X C M T} (h : c.TimesIn S) (env : Env) {o : Api A W X C M E}
    (ho : o.time ∈ S) : Post (api env fl c o) (Core.TimesIn S) := by
  cases o with
  | init t s => exact Post.ok (h.init ho s)
  | imu t u => exact tin_processIMU hk h env ho u
  | ext t u e => exact tin_processExternal hk h env ho u e
  | meas m => exact tin_addMeasurement hk h env ho

include hk in
theorem tin_apis (env : Env) (os : List (Api A W X C M E)) : ∀ {c : Core A W X C M T}
    (_ : c.TimesIn S) (_ : ∀ o ∈ os, o.time ∈ S), Post (apis env fl c os) (Core.TimesIn S) := by
  induction os with
  | nil => intro c h _; exact Post.ok h
  | cons o os ih =>
    intro c h ho
    unfold Flow.apis
    exact Post.bind fun c1 hc1 => ih (tin_api hk h env (ho o (List.mem_cons_self ..)) c1 hc1)
      fun o' ho' => ho o' (List.mem_cons_of_mem _ ho')

end
end Flow

namespace RelKernel
variable {A W X C F M T E : Type} {S : Set ℚ} {R : RelKernel A W X C F M T E}

theorem tin_predict {c : Core A W X (C × F) M T} (h : c.TimesIn S) (o n : Node (St A W X (C × F))) :
    (R.predict c o n).TimesIn S := by
  unfold predict
  split
  · exact h
  · exact ⟨(h.states.modify _ _).modify _ _, h.meas, h.queue, h.out⟩

theorem tin_write {c : Core A W X (C × F) M T} (h : c.TimesIn S) (n : Node (St A W X (C × F)))
    (g : St A W X (C × F) → St A W X (C × F)) : (write c n g).TimesIn S := by
  unfold write
  split
  · exact ⟨h.states.modify _ _, h.meas, h.queue, h.out⟩
  · exact h

theorem tin_relApply {c : Core A W X (C × F) M T} (h : c.TimesIn S) (prev m : Meas M)
    (old s : Node (St A W X (C × F))) : Post (relApply R c prev m old s) (Core.TimesIn S) := by
  unfold relApply
  refine Post.bind fun F _ => Post.ret ?_
  have h1 := tin_write (tin_write (tin_write h old fun v => { v with P := (R.clear m.body v.P.1, v.P.2) }) s
    fun v => { v with P := (R.clear m.body v.P.1, v.P.2) })
  exact ⟨(h1 _ _).states, (h1 _ _).meas, (h1 _ _).queue, (h1 _ _).out⟩

theorem tin_previous {c : Core A W X C M T} (h : c.TimesIn S) (env : Env) (t : ℚ) (i : Int) :
    Post (Core.getPreviousMeasurement env c t i) (fun r => ∀ n, r = some n → n.key ∈ S) := by
  unfold Core.getPreviousMeasurement
  refine Post.bind fun n _ => ?_
  split
  · exact Post.ret (by simp)
  · refine Post.bind fun it _ => Post.bind fun bb _ => Post.bind fun j _ => ?_
    split
    · exact Post.ret (by simp)
    · refine Post.bind fun m hm => Post.ret ?_
      intro n hn
      cases hn
      exact h.meas.deref hm

variable [AddCommGroup A] [Module ℚ A] [AddCommGroup W] [Module ℚ W]

theorem tin_closest {c : Core A W X (C × F) M T} (h : c.TimesIn S) (env : Env) {t : ℚ} (ht : t ∈ S) :
    Post (R.closest env c t) (fun r => r.1.TimesIn S ∧ ∀ n, r.2 = some n → n.key ∈ S) :=
  Flow.tin_getClosestState ⟨fun _ o n h => tin_predict h o n, fun _ _ _ _ h => Post.ok h⟩ h env ht

theorem flow_keepsTimes (R : RelKernel A W X C F M T E) : R.flow.KeepsTimes S where
  predict _ o n h := tin_predict h o n
  apply env c m s h := by
    change Post (R.apply env c m s) _
    unfold apply
    split
    · exact Post.ok (h.applyMeas m s)
    · refine Post.bind fun prev hp => ?_
      have hps := tin_previous h env _ _ prev hp
      cases prev with
      | none => exact Post.ret h
      | some prev =>
        dsimp only
        split
        · exact Post.ret h
        · split
          · exact Post.ret h
          · refine Post.bind fun r hr => ?_
            have h1 := tin_closest h env (hps prev rfl) r hr
            obtain ⟨c1, o⟩ := r
            cases o with
            | none => exact Post.ret h1.1
            | some old =>
              dsimp only at h1 ⊢
              split
              · exact Post.ret h1.1
              · exact tin_relApply h1.1 _ _ _ _

end RelKernel
end MSF
