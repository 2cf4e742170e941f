import Verif.Lemmas.FlowFlags
import Verif.Lemmas.FlowAbs

/-! The queue of the waiting measurements loses at most its front with every prediction. -/

namespace MSF

/-- A call that is no measurement. -/
def Api.predicts {A W X C M E : Type} : Api A W X C M E → Bool
  | .meas _ => false
  | _ => true

namespace Core
variable {A W X C M T E : Type}

/-- The queue, and that a started filter has made predictions. -/
structure Waits (q : List (Meas M)) (c : Core A W X C M T) : Prop where
  queue : c.queue = q
  run : c.inited = true → c.predMade = true

section
variable {q : List (Meas M)} {c : Core A W X C M T} {K : Kernel A W X C M T E}

theorem Waits.predictCov (h : c.Waits q) (o n : Node (St A W X C)) :
    (predictCov K c o n).Waits q := by
  unfold Core.predictCov
  split
  · exact h
  · exact ⟨h.1, h.2⟩

theorem Waits.cleanUp (h : c.Waits q) (env : Env) : Post (cleanUp env c) (Waits q) := by
  unfold Core.cleanUp
  exact Post.bind fun s hs => Post.bind fun m hm => Post.ret ⟨h.1, h.2⟩

theorem Waits.propLoop (fuel : Nat) : ∀ {c : Core A W X C M T} (_ : c.Waits q)
    (cur next stop : Iter), Post (propLoop K fuel c cur next stop) (fun r => r.1.Waits q) := by
  induction fuel with
  | zero => intro c _ _ _ _; exact Post.err
  | succ fuel ih =>
    intro c h cur next stop
    unfold Core.propLoop
    split
    · exact Post.ok h
    · refine Post.bind fun a _ => Post.bind fun b _ => ?_
      split
      · exact Post.ret h
      · split
        · exact Post.ret h
        · refine Post.bind fun i _ => Post.bind fun j _ => ih ?_ i j stop
          exact ⟨h.1, h.2⟩

theorem Waits.repropagate (h : c.Waits q) (k : ℚ) (it : Iter) :
    Post (repropagate K c k it) (fun r => r.1.Waits q) := by
  rw [repropagate_form]
  exact Post.bind fun a _ => Post.bind fun b _ => Waits.propLoop _ h _ _ _

variable [AddCommGroup A] [Module ℚ A] [AddCommGroup W] [Module ℚ W]

theorem Waits.interpolate (h : c.Waits q) (n : Node (St A W X C)) (t : ℚ) :
    (interpolate K c n t).1.Waits q := by
  unfold Core.interpolate
  split
  · split
    · split
      · exact ⟨h.1, h.2⟩
      · exact h
    · exact h
  · exact h

end
end Core

namespace Flow
variable {A W X C M T E : Type}

/-- `predict` and `apply` leave the queue and the flags alone. -/
structure KeepsWaits (fl : Flow A W X C M T E) : Prop where
  predict : ∀ q c o n, c.Waits q → (fl.predict c o n).Waits q
  apply : ∀ q env c m s, c.Waits q → Post (fl.apply env c m s) (Core.Waits q)

section
variable {q : List (Meas M)} {c : Core A W X C M T} {fl : Flow A W X C M T E} (hk : KeepsWaits fl)

include hk in
theorem waits_propagatePOneStep (h : c.Waits q) :
    Post (propagatePOneStep fl c) (Core.Waits q) := by
  unfold Flow.propagatePOneStep
  refine Post.bind fun next _ => ?_
  split
  · exact Post.ret h
  · refine Post.bind fun o _ => Post.bind fun n _ => ?_
    have h' := hk.predict _ _ o n h
    dsimp only
    split
    · exact Post.ret h'
    · exact Post.ret ⟨h'.1, fun hi => by cases hi⟩

include hk in
theorem waits_propPLoop (t : ℚ) (fuel : Nat) : ∀ {c : Core A W X C M T} (_ : c.Waits q)
    (it itm : Iter), Post (propPLoop fl t fuel c it itm) (Core.Waits q) := by
  induction fuel with
  | zero => intro c _ it itm; exact Post.err
  | succ fuel ih =>
    intro c h it itm
    unfold Flow.propPLoop
    split
    · exact Post.ok h
    · refine Post.bind fun n _ => ?_
      split
      · exact Post.bind fun m _ => Post.bind fun i _ => Post.bind fun j _ =>
          ih (hk.predict _ _ m n h) i j
      · exact Post.ret h

include hk in
theorem waits_propPToState (h : c.Waits q) (t : ℚ) : Post (propPToState fl c t) (Core.Waits q) := by
  unfold Flow.propPToState
  exact Post.bind fun i _ => waits_propPLoop hk t _ h _ _

include hk in
theorem waits_finishMeas (h : c.Waits q) : Post (finishMeas fl c) (Core.Waits q) := by
  unfold Flow.finishMeas
  refine Post.bind fun c1 hc1 => ?_
  have h1 := waits_propPToState hk h _ c1 hc1
  split
  · exact Post.ret h1
  · exact Post.ret ⟨h1.1, h1.2⟩

variable [AddCommGroup A] [Module ℚ A] [AddCommGroup W] [Module ℚ W]

include hk in
theorem waits_getClosestState (h : c.Waits q) (env : Env) (t : ℚ) :
    Post (getClosestState env fl c t) (fun r => r.1.Waits q) := by
  unfold Flow.getClosestState
  refine Post.bind fun it _ => Post.bind fun n _ => ?_
  split
  · exact Post.ret h
  · have h1 := h.interpolate (K := fl.toKernel) n t
    generalize Core.interpolate fl.toKernel c n t = r at h1 ⊢
    obtain ⟨c1, it⟩ := r
    simp only at h1 ⊢
    refine Post.bind fun n1 _ => Post.bind fun c2 hc2 => Post.bind fun n2 hn2 => ?_
    have h2 := waits_propPToState hk h1 _ c2 hc2
    split
    · split
      · refine Post.bind fun c3 hc3 => Post.ret ?_
        exact Core.Waits.cleanUp (c := { c2 with janitor := 0 }) ⟨h2.1, h2.2⟩ env c3 hc3
      · exact Post.ret ⟨h2.1, h2.2⟩
    · exact Post.ret h2

include hk in
theorem waits_measLoop (env : Env) (fuel : Nat) : ∀ {c : Core A W X C M T} (_ : c.Waits q)
    (it : Iter) (ap : Bool), Post (measLoop env fl fuel c it ap) (fun r => r.1.Waits q) := by
  induction fuel with
  | zero => intro c _ _ _; exact Post.err
  | succ fuel ih =>
    intro c h it ap
    unfold Flow.measLoop
    split
    · exact Post.ok h
    · refine Post.bind fun m hm => ?_
      split
      · exact Post.bind fun i _ => ih h i ap
      · refine Post.bind fun r hr => ?_
        have h1 := waits_getClosestState hk h env _ r hr
        obtain ⟨c1, st⟩ := r
        simp only at h1 ⊢
        cases st with
        | none => exact Post.bind fun i _ => ih h1 i ap
        | some s =>
          simp only
          split
          · exact Post.bind fun i _ => ih h1 i ap
          · refine Post.bind fun m2 _ => Post.bind fun c2 hc2 => Post.bind fun i _ =>
              Post.bind fun r2 hr2 => ?_
            have h2 := (hk.apply _ env c1 m2.val s h1 c2 hc2).repropagate s.key i r2 hr2
            split
            · exact Post.ret h2
            · exact ih h2 i true

include hk in
/-- A measurement joins the end of the queue or leaves the queue alone. -/
theorem waits_addMeasurement (h : c.Waits q) (env : Env) (m : Meas M) :
    Post (addMeasurement env fl c m) (fun d => d.Waits q ∨ d.Waits (q ++ [m])) := by
  unfold Flow.addMeasurement
  split
  · exact Post.ret (.inl h)
  · split
    · exact Post.ret (.inr ⟨by simp [h.1], h.2⟩)
    · split
      · exact Post.ret (.inl h)
      · refine Post.bind fun r hr => ?_
        obtain ⟨c1, ap, ab⟩ := r
        have h1 : c1.Waits q := by
          refine waits_measLoop hk env _ ?_ _ _ _ hr
          exact ⟨h.1, h.2⟩
        dsimp only at h1 ⊢
        split
        · exact Post.ret (.inl h1)
        · exact fun d hd => .inl (waits_finishMeas hk h1 d hd)

/-- A waiting measurement with at least `n` others before it. -/
def Behind (m : Meas M) (n : Nat) (c : Core A W X C M T) : Prop :=
  ∃ q1 q2, c.Waits (q1 ++ m :: q2) ∧ n ≤ q1.length

omit [AddCommGroup A] [Module ℚ A] [AddCommGroup W] [Module ℚ W] in
theorem Behind.le {m : Meas M} {n k : Nat} (h : Behind m n c) (hk : k ≤ n) : Behind m k c := by
  obtain ⟨q1, q2, h1, h2⟩ := h
  exact ⟨q1, q2, h1, hk.trans h2⟩

include hk in
theorem behind_addMeasurement {m : Meas M} {n : Nat} (h : Behind m n c) (env : Env) (m' : Meas M) :
    Post (addMeasurement env fl c m') (Behind m n) := by
  obtain ⟨q1, q2, h1, h2⟩ := h
  intro d hd
  rcases waits_addMeasurement hk h1 env m' d hd with h3 | h3
  · exact ⟨q1, q2, h3, h2⟩
  · exact ⟨q1, q2 ++ [m'], by simpa using h3, h2⟩

include hk in
theorem behind_handlePending {m : Meas M} {n : Nat} (h : Behind m (n + 1) c) (env : Env) :
    Post (handlePending env fl c) (Behind m n) := by
  obtain ⟨q1, q2, h1, h2⟩ := h
  cases q1 with
  | nil => simp at h2
  | cons m' q1 =>
    unfold Flow.handlePending
    rw [h1.1]
    refine behind_addMeasurement hk ?_ env m'
    exact ⟨q1, q2, ⟨rfl, h1.2⟩, by simpa using h2⟩

omit [AddCommGroup A] [Module ℚ A] [AddCommGroup W] [Module ℚ W] in
include hk in
theorem behind_propagate {m : Meas M} {n : Nat} (h : Behind m n c) :
    Post (propagatePOneStep fl c) (Behind m n) := by
  obtain ⟨q1, q2, h1, h2⟩ := h
  exact fun d hd => ⟨q1, q2, waits_propagatePOneStep hk h1 d hd, h2⟩

include hk in
theorem behind_imuPropagate {m : Meas M} {n : Nat} (h : Behind m (n + 1) c) (env : Env)
    (last : Node (St A W X C)) (t : ℚ) (u : Input A W) :
    Post (imuPropagate env fl c last t u) (Behind m n) := by
  rw [imuPropagate_form]
  refine Post.bind fun c1 hc1 => Post.bind fun cur _ => ?_
  have h1 : Behind m (n + 1) c1 := by
    refine behind_propagate hk ?_ c1 hc1
    obtain ⟨q1, q2, h1, h2⟩ := h
    exact ⟨q1, q2, ⟨h1.1, h1.2⟩, h2⟩
  obtain ⟨q1, q2, h1, h2⟩ := h1
  unfold imuEnd
  split
  · refine behind_handlePending hk ?_ env
    exact ⟨q1, q2, ⟨h1.1, fun _ => rfl⟩, h2⟩
  · exact Post.ok ⟨q1, q2, ⟨h1.1, h1.2⟩, by omega⟩

include hk in
theorem behind_extEnd {m : Meas M} {n : Nat} (h : Behind m (n + 1) c) (env : Env) (t : ℚ)
    (s : St A W X C) : Post (extEnd env fl c t s) (Behind m n) := by
  unfold extEnd
  refine Post.bind fun c1 hc1 => Post.bind fun cur _ => ?_
  have h1 : Behind m (n + 1) c1 := by
    refine behind_propagate hk ?_ c1 hc1
    obtain ⟨q1, q2, h1, h2⟩ := h
    exact ⟨q1, q2, ⟨h1.1, h1.2⟩, h2⟩
  obtain ⟨q1, q2, h1, h2⟩ := h1
  refine behind_handlePending hk ?_ env
  exact ⟨q1, q2, ⟨h1.1, fun _ => rfl⟩, h2⟩

include hk in
theorem behind_imu {m : Meas M} {n : Nat} (h : Behind m (n + 1) c) (env : Env) (t : ℚ) (u : Input A W) :
    Post (processIMU env fl c t u) (Behind m n) := by
  rw [processIMU_form]
  split
  · exact Post.ok (h.le (Nat.le_succ n))
  · refine Post.bind fun it _ => Post.bind fun last _ => ?_
    obtain ⟨q1, q2, h1, h2⟩ := h
    unfold imuBody
    split
    · exact Post.ok ⟨q1, q2, ⟨h1.1, h1.2⟩, by omega⟩
    · split
      · exact Post.ok ⟨q1, q2, ⟨h1.1, fun hi => by cases hi⟩, by omega⟩
      · split
        · exact Post.ok ⟨q1, q2, ⟨h1.1, h1.2⟩, by omega⟩
        · refine behind_imuPropagate hk ?_ env last t _
          exact ⟨q1, q2, ⟨h1.1, h1.2⟩, h2⟩

include hk in
theorem behind_ext {m : Meas M} {n : Nat} (h : Behind m (n + 1) c) (env : Env) (t : ℚ) (u : Input A W)
    (e : Option E) : Post (processExternal env fl c t u e) (Behind m n) := by
  rw [processExternal_form]
  split
  · exact Post.ok (h.le (Nat.le_succ n))
  · rename_i hi
    have hp : c.predMade = true := by
      obtain ⟨q1, q2, h1, h2⟩ := h
      exact h1.2 (by simpa using hi)
    cases c.states.last with
    | none => exact Post.ok (h.le (Nat.le_succ n))
    | some last =>
      dsimp only
      split
      · exact Post.ok (h.le (Nat.le_succ n))
      · rw [if_neg (by simp [hp]), if_neg (by simp [hp])]
        obtain ⟨q1, q2, h1, h2⟩ := h
        refine behind_extEnd hk ?_ env t _
        exact ⟨q1, q2, ⟨h1.1, h1.2⟩, h2⟩

include hk in
theorem behind_apis {m : Meas M} (env : Env) (os : List (Api A W X C M E)) :
    ∀ {n : Nat} {c : Core A W X C M T}, Behind m n c → (∀ o ∈ os, ∀ t s, o ≠ .init t s) →
      os.countP Api.predicts ≤ n →
      Post (apis env fl c os) (Behind m 0) := by
  induction os with
  | nil => intro n c h _ _; exact Post.ok (h.le (Nat.zero_le n))
  | cons o os ih =>
    intro n c h ho hn
    have ho' : ∀ o ∈ os, ∀ t s, o ≠ .init t s := fun o' h' => ho o' (by simp [h'])
    unfold apis
    refine Post.bind fun d hd => ?_
    cases o with
    | init t s => exact absurd rfl (ho _ (by simp) t s)
    | meas m' => exact ih (behind_addMeasurement hk h env m' d hd) ho' (by simpa [Api.predicts] using hn)
    | imu t u =>
      simp only [List.countP_cons, Api.predicts, if_true] at hn
      obtain ⟨k, rfl⟩ : ∃ k, n = k + 1 := ⟨n - 1, by omega⟩
      exact ih (behind_imu hk h env t u d hd) ho' (by omega)
    | ext t u e =>
      simp only [List.countP_cons, Api.predicts, if_true] at hn
      obtain ⟨k, rfl⟩ : ∃ k, n = k + 1 := ⟨n - 1, by omega⟩
      exact ih (behind_ext hk h env t u e d hd) ho' (by omega)

end

theorem abs_keepsWaits (K : Kernel A W X C M T E) : K.absFlow.KeepsWaits where
  predict _ _ o n h := h.predictCov o n
  apply _ _ _ _ _ h := Post.ok ⟨h.1, h.2⟩

end Flow

namespace RelKernel
variable {A W X C F M T E : Type} {q : List (Meas M)} {R : RelKernel A W X C F M T E}

theorem waits_predict {c : Core A W X (C × F) M T} (h : c.Waits q) (o n : Node (St A W X (C × F))) :
    (R.predict c o n).Waits q := by
  unfold predict
  split
  · exact h
  · exact ⟨h.1, h.2⟩

theorem waits_write {c : Core A W X (C × F) M T} (h : c.Waits q) (n : Node (St A W X (C × F)))
    (g : St A W X (C × F) → St A W X (C × F)) : (write c n g).Waits q := by
  unfold write
  split
  · exact ⟨h.1, h.2⟩
  · exact h

theorem waits_relApply {c : Core A W X (C × F) M T} (h : c.Waits q) (prev m : Meas M)
    (old s : Node (St A W X (C × F))) : Post (relApply R c prev m old s) (Core.Waits q) := by
  unfold relApply
  refine Post.bind fun F _ => Post.ret ?_
  have h1 := waits_write (waits_write (waits_write h old
    fun v => { v with P := (R.clear m.body v.P.1, v.P.2) }) s
    fun v => { v with P := (R.clear m.body v.P.1, v.P.2) })
  exact ⟨(h1 _ _).1, (h1 _ _).2⟩

variable [AddCommGroup A] [Module ℚ A] [AddCommGroup W] [Module ℚ W]

theorem waits_closest {c : Core A W X (C × F) M T} (h : c.Waits q) (env : Env) (s : ℚ) :
    Post (R.closest env c s) (fun r => r.1.Waits q) :=
  Flow.waits_getClosestState ⟨fun _ _ o n h => waits_predict h o n, fun _ _ _ _ _ h => Post.ok h⟩
    h env s

theorem flow_keepsWaits (R : RelKernel A W X C F M T E) : R.flow.KeepsWaits where
  predict _ _ o n h := waits_predict h o n
  apply q env c m s h := by
    change Post (R.apply env c m s) _
    unfold apply
    split
    · exact Post.ok ⟨h.1, h.2⟩
    · refine Post.bind fun prev _ => ?_
      cases prev with
      | none => exact Post.ret h
      | some prev =>
        dsimp only
        split
        · exact Post.ret h
        · split
          · exact Post.ret h
          · refine Post.bind fun r hr => ?_
            have h1 := waits_closest h env _ r hr
            obtain ⟨c1, o⟩ := r
            cases o with
            | none => exact Post.ret h1
            | some old =>
              dsimp only at h1 ⊢
              split
              · exact Post.ret h1
              · exact waits_relApply h1 _ _ _ _

end RelKernel
end MSF
