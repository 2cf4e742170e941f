import Verif.Lemmas.CoreFlags
import Verif.Lemmas.FlowForms

/-! How `initialized_` and `predictionMade_` change in runs with relative measurements (compare
`Lemmas/CoreFlags`). -/

namespace MSF
namespace Flow
variable {A W X C M T E : Type}

/-- `predict` and `apply` leave the flags alone. -/
structure KeepsFlags (fl : Flow A W X C M T E) : Prop where
  predict : ∀ i p c o n, c.Flags i p → (fl.predict c o n).Flags i p
  apply : ∀ i p env c m s, c.Flags i p → Post (fl.apply env c m s) (Core.Flags i p)

section
variable {i p : Bool} {c : Core A W X C M T} {fl : Flow A W X C M T E} (hk : KeepsFlags fl)

include hk in
theorem flags_propagatePOneStep (hK : ∀ x, fl.numPos x = true) (h : c.Flags i p) :
    Post (propagatePOneStep fl c) (Core.Flags i p) := by
  unfold Flow.propagatePOneStep
  refine Post.bind fun next _ => ?_
  split
  · exact Post.ret h
  · refine Post.bind fun o _ => Post.bind fun n _ => ?_
    have h' := hk.predict _ _ _ o n h
    simp only [hK, if_true]
    exact Post.ret h'

include hk in
theorem flags_propPLoop (t : ℚ) (fuel : Nat) : ∀ {c : Core A W X C M T} (_ : c.Flags i p)
    (it itm : Iter), Post (propPLoop fl t fuel c it itm) (Core.Flags i p) := by
  induction fuel with
  | zero => intro c _ it itm; exact Post.err
  | succ fuel ih =>
    intro c h it itm
    unfold Flow.propPLoop
    split
    · exact Post.ok h
    · refine Post.bind fun n _ => ?_
      split
      · exact Post.bind fun m _ => Post.bind fun i _ => Post.bind fun j _ =>
          ih (hk.predict _ _ _ m n h) i j
      · exact Post.ret h

include hk in
theorem flags_propPToState (h : c.Flags i p) (t : ℚ) : Post (propPToState fl c t) (Core.Flags i p) := by
  unfold Flow.propPToState
  exact Post.bind fun i _ => flags_propPLoop hk t _ h _ _

include hk in
theorem flags_finishMeas (h : c.Flags i p) : Post (finishMeas fl c) (Core.Flags i p) := by
  unfold Flow.finishMeas
  refine Post.bind fun c1 hc1 => ?_
  have h1 := flags_propPToState hk h _ c1 hc1
  split
  · exact Post.ret h1
  · exact Post.ret ⟨h1.1, h1.2⟩

variable [AddCommGroup A] [Module ℚ A] [AddCommGroup W] [Module ℚ W]

include hk in
theorem flags_getClosestState (h : c.Flags i p) (env : Env) (t : ℚ) :
    Post (getClosestState env fl c t) (fun r => r.1.Flags i p) := by
  unfold Flow.getClosestState
  refine Post.bind fun it _ => Post.bind fun n _ => ?_
  split
  · exact Post.ret h
  · have h1 := h.interpolate (K := fl.toKernel) n t
    generalize Core.interpolate fl.toKernel c n t = r at h1 ⊢
    obtain ⟨c1, it⟩ := r
    simp only at h1 ⊢
    refine Post.bind fun n1 _ => Post.bind fun c2 hc2 => Post.bind fun n2 hn2 => ?_
    have h2 := flags_propPToState hk h1 _ c2 hc2
    split
    · split
      · refine Post.bind fun c3 hc3 => Post.ret ?_
        exact Core.Flags.cleanUp (c := { c2 with janitor := 0 }) ⟨h2.1, h2.2⟩ env c3 hc3
      · exact Post.ret ⟨h2.1, h2.2⟩
    · exact Post.ret h2

include hk in
theorem flags_measLoop (env : Env) (fuel : Nat) : ∀ {c : Core A W X C M T} (_ : c.Flags i p)
    (it : Iter) (ap : Bool), Post (measLoop env fl fuel c it ap) (fun r => r.1.Flags i p) := by
  induction fuel with
  | zero => intro c _ _ _; exact Post.err
  | succ fuel ih =>
    intro c h it ap
    unfold Flow.measLoop
    split
    · exact Post.ok h
    · refine Post.bind fun m hm => ?_
      split
      · exact Post.bind fun i _ => ih h i ap
      · refine Post.bind fun r hr => ?_
        have h1 := flags_getClosestState hk h env _ r hr
        obtain ⟨c1, st⟩ := r
        simp only at h1 ⊢
        cases st with
        | none => exact Post.bind fun i _ => ih h1 i ap
        | some s =>
          simp only
          split
          · exact Post.bind fun i _ => ih h1 i ap
          · refine Post.bind fun m2 _ => Post.bind fun c2 hc2 => Post.bind fun i _ =>
              Post.bind fun r2 hr2 => ?_
            have h2 := (hk.apply _ _ env c1 m2.val s h1 c2 hc2).repropagate s.key i r2 hr2
            split
            · exact Post.ret h2
            · exact ih h2 i true

include hk in
theorem flags_addMeasurement (h : c.Flags i p) (env : Env) (m : Meas M) :
    Post (addMeasurement env fl c m) (Core.Flags i p) := by
  unfold Flow.addMeasurement
  split
  · exact Post.ret h
  · split
    · exact Post.ret ⟨h.1, h.2⟩
    · split
      · exact Post.ret h
      · refine Post.bind fun r hr => ?_
        obtain ⟨c1, ap, ab⟩ := r
        have h1 : c1.Flags i p := by
          refine flags_measLoop hk env _ ?_ _ _ _ hr
          exact ⟨h.1, h.2⟩
        dsimp only at h1 ⊢
        split
        · exact Post.ret h1
        · exact flags_finishMeas hk h1

include hk in
theorem flags_handlePending (h : c.Flags i p) (env : Env) :
    Post (handlePending env fl c) (Core.Flags i p) := by
  unfold Flow.handlePending
  split
  · exact Post.ok h
  · refine flags_addMeasurement hk ?_ env _
    exact ⟨h.1, h.2⟩

include hk in
theorem flags_imuPropagate (hK : ∀ x, fl.numPos x = true) (h : c.Flags i p) (env : Env)
    (last : Node (St A W X C)) (t : ℚ) (u : Input A W) :
    Post (imuPropagate env fl c last t u) (fun c' => c'.inited = i ∧ (p = true → c'.predMade = true)) := by
  rw [imuPropagate_form]
  refine Post.bind fun c1 hc1 => Post.bind fun cur _ => ?_
  have h1 : c1.Flags i p := by
    refine flags_propagatePOneStep hk hK ?_ c1 hc1
    exact ⟨h.1, h.2⟩
  unfold imuEnd
  split
  · intro c' hc'
    have : c'.Flags i true := by
      refine flags_handlePending hk ?_ env c' hc'
      exact ⟨h1.1, rfl⟩
    exact ⟨this.1, fun _ => this.2⟩
  · exact Post.ok ⟨h1.1, fun hp => h1.2.trans hp⟩

end
end Flow

namespace RelKernel
variable {A W X C F M T E : Type} {i p : Bool} {R : RelKernel A W X C F M T E}

theorem flags_predict {c : Core A W X (C × F) M T} (h : c.Flags i p) (o n : Node (St A W X (C × F))) :
    (R.predict c o n).Flags i p := by
  unfold predict
  split
  · exact h
  · exact ⟨h.1, h.2⟩

theorem flags_write {c : Core A W X (C × F) M T} (h : c.Flags i p) (n : Node (St A W X (C × F)))
    (g : St A W X (C × F) → St A W X (C × F)) : (write c n g).Flags i p := by
  unfold write
  split
  · exact ⟨h.1, h.2⟩
  · exact h

theorem flags_relApply {c : Core A W X (C × F) M T} (h : c.Flags i p) (prev m : Meas M)
    (old s : Node (St A W X (C × F))) : Post (relApply R c prev m old s) (Core.Flags i p) := by
  unfold relApply
  refine Post.bind fun F _ => Post.ret ?_
  have h1 := flags_write (flags_write (flags_write h old
    fun v => { v with P := (R.clear m.body v.P.1, v.P.2) }) s
    fun v => { v with P := (R.clear m.body v.P.1, v.P.2) })
  exact ⟨(h1 _ _).1, (h1 _ _).2⟩

variable [AddCommGroup A] [Module ℚ A] [AddCommGroup W] [Module ℚ W]

theorem flags_closest {c : Core A W X (C × F) M T} (h : c.Flags i p) (env : Env) (s : ℚ) :
    Post (R.closest env c s) (fun r => r.1.Flags i p) :=
  Flow.flags_getClosestState ⟨fun _ _ _ o n h => flags_predict h o n, fun _ _ _ _ _ _ h => Post.ok h⟩
    h env s

theorem flow_keepsFlags (R : RelKernel A W X C F M T E) : R.flow.KeepsFlags where
  predict _ _ _ o n h := flags_predict h o n
  apply i p env c m s h := by
    change Post (R.apply env c m s) _
    unfold apply
    split
    · exact Post.ok ⟨h.1, h.2⟩
    · refine Post.bind fun prev _ => ?_
      cases prev with
      | none => exact Post.ret h
      | some prev =>
        dsimp only
        split
        · exact Post.ret h
        · split
          · exact Post.ret h
          · refine Post.bind fun r hr => ?_
            have h1 := flags_closest h env _ r hr
            obtain ⟨c1, o⟩ := r
            cases o with
            | none => exact Post.ret h1
            | some old =>
              dsimp only at h1 ⊢
              split
              · exact Post.ret h1
              · exact flags_relApply h1 _ _ _ _

end RelKernel
end MSF
