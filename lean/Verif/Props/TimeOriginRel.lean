import Verif.Lemmas.RelShift
import Verif.Props.Relative

/-!
# C80 and C81 with relative measurements

The counterpart of `Props/TimeOrigin.lean` for runs with absolute and relative measurements.
-/

namespace MSF

open Core

variable {A W X C F M T E : Type}

/-- Nothing but the times is changed. -/
def RHom.same (R : RelKernel A W X C F M T E) : RHom (fun _ => True) R R where
  toKHom := KHom.refl R.toKernel
  g := id
  fd _ _ _ := rfl
  fd0 := rfl
  mulF _ _ := rfl
  isRel _ _ := rfl
  cast _ _ := rfl
  clear _ _ _ _ := rfl
  relUpdate _ _ _ _ _ _ _ _ _ _ _ _ _ := rfl

theorem RHom.same_api (R : RelKernel A W X C F M T E) (d : ℚ) :
    ((RHom.same R).pair.api d : Api A W X (C × F) M E → _) = Api.delay d := by
  funext o
  cases o with
  | ext t u e => cases e <;> rfl
  | _ => rfl

theorem RHom.same_event (R : RelKernel A W X C F M T E) (d : ℚ) :
    (RHom.same R).pair.event d = Event.delay d := by
  funext e
  cases e <;> rfl

variable [AddCommGroup A] [Module ℚ A] [AddCommGroup W] [Module ℚ W]

/-- Before `Init` every other call is ignored. -/
theorem flow_api_uninit (env : Env) (fl : Flow A W X C M T E) {c : Core A W X C M T}
    (h : c.inited = false) (o : Api A W X C M E) (ho : ∀ t s, o ≠ .init t s) :
    fl.api env c o = .ok c := by
  cases o with
  | init t s => exact absurd rfl (ho t s)
  | imu t u => simp [Flow.api, Flow.processIMU, h]; rfl
  | ext t u e => simp [Flow.api, Flow.processExternal, h]; rfl
  | meas m => simp [Flow.api, Flow.addMeasurement, h]; rfl

theorem flow_new_map {X' C' M' T' E' : Type} {fl : Flow A W X C M T E} {fl' : Flow A W X' C' M' T' E'}
    {d : ℚ} {S : Set ℚ} (h : FSHom S d fl fl') (hS : Shiftable d S)
    (env : Env) (os : List (Api A W X C M E)) (hos : ∀ o ∈ os, o.time ∈ S) :
    (fl'.apis (env.shift d) (Core.new fl'.toKernel) (os.map (h.api d))).map Core.out =
      (fl.apis env (Core.new fl.toKernel) os).map (fun c => c.out.map (h.event d)) := by
  induction os with
  | nil => rfl
  | cons o os ih =>
    have ih := ih fun o' ho' => hos o' (List.mem_cons_of_mem _ ho')
    by_cases ho : ∃ t s, o = .init t s
    · obtain ⟨t, s, rfl⟩ := ho
      have e : Core.init fl'.toKernel (Core.new fl'.toKernel) (t + d) (h.st s) =
          h.core d (Core.init fl.toKernel (Core.new fl.toKernel) t s) := by
        rw [← map_init h.toKHom d]
        simp only [Core.init, Core.new, KHom.core, h.tr0, h.f_false, List.map_nil]
        rfl
      have ht : t ∈ S := hos (.init t s) (List.mem_cons_self ..)
      have hc := (TimesIn.new S fl.toKernel).init (K := fl.toKernel) ht s
      have hm := FSHom.map_apis h env hS os _ hc fun o' ho' => hos o' (List.mem_cons_of_mem _ ho')
      change (fl'.apis (env.shift d) (Core.init fl'.toKernel (Core.new fl'.toKernel) (t + d) (h.st s))
        (os.map (h.api d))).map Core.out =
        (fl.apis env (Core.init fl.toKernel (Core.new fl.toKernel) t s) os).map _
      rw [e, hm]
      cases fl.apis env (Core.init fl.toKernel (Core.new fl.toKernel) t s) os <;> rfl
    · have h1 : fl.api env (Core.new fl.toKernel) o = .ok (Core.new fl.toKernel) :=
        flow_api_uninit env fl rfl o fun t s e => ho ⟨t, s, e⟩
      have h2 : fl'.api (env.shift d) (Core.new fl'.toKernel) (h.api d o) =
          .ok (Core.new fl'.toKernel) := by
        refine flow_api_uninit _ fl' rfl _ fun t s e => ?_
        cases o with
        | init t s => exact ho ⟨t, s, rfl⟩
        | imu t u => cases e
        | ext t u e' => cases e
        | meas m => cases e
      change (fl'.api (env.shift d) (Core.new fl'.toKernel) (h.api d o) >>= fun c1 =>
          fl'.apis (env.shift d) c1 (os.map (h.api d))).map Core.out =
        (fl.api env (Core.new fl.toKernel) o >>= fun c1 => fl.apis env c1 os).map _
      rw [h1, h2]
      exact ih

/-- **C80 with relative measurements**: let all times of a sequence of calls on a new filter be positive, and
stay positive when `d` is added.  Then the filter publishes for the delayed calls what it publishes for the
original ones, `d` later and otherwise identical; if one run ends in undefined behaviour, so does the other. -/
theorem C80_relative_partial (env : Env) (hs : env.ps.OrderOnly) (hm : env.pm.OrderOnly)
    (R : RelKernel A W X C F M T E) (d : ℚ) (calls : List (Api A W X (C × F) M E))
    (hpos : ∀ o ∈ calls, 0 < o.time ∧ 0 < o.time + d) :
    (R.run env (calls.map (Api.delay d))).map Core.out =
      (R.run env calls).map (fun c => c.out.map (Event.delay d)) := by
  have e : env.shift d = env := by
    unfold Env.shift
    rw [hs.shift, hm.shift]
  have h := flow_new_map ((RHom.same R).shiftFlow d (Shiftable.pos d) fun _ _ _ _ _ _ _ _ => rfl)
    (Shiftable.pos d) env calls hpos
  have e1 : ((RHom.same R).shiftFlow d (Shiftable.pos d) fun _ _ _ _ _ _ _ _ => rfl).event d = Event.delay d :=
    RHom.same_event R d
  have e2 : ((RHom.same R).shiftFlow d (Shiftable.pos d) fun _ _ _ _ _ _ _ _ => rfl).api d = Api.delay d :=
    RHom.same_api R d
  rw [e, e1, e2] at h
  exact h

/-- **C81 with relative measurements**: in every run of a new filter, each buffered state, each stored or queued
measurement and each published state carries a time that one of the calls brought in. -/
theorem C81_relative (env : Env) (R : RelKernel A W X C F M T E)
    (calls : List (Api A W X (C × F) M E)) (c : Core A W X (C × F) M T) (h : R.run env calls = .ok c) :
    (∀ n ∈ c.states.nodes, ∃ o ∈ calls, o.time = n.key) ∧
    (∀ n ∈ c.meas.nodes, ∃ o ∈ calls, o.time = n.key) ∧
    (∀ m ∈ c.queue, ∃ o ∈ calls, o.time = m.time) ∧
    ∀ e ∈ c.out, ∃ o ∈ calls, o.time = e.time := by
  have ht := Flow.tin_apis (R.flow_keepsTimes (S := {t | ∃ o ∈ calls, o.time = t})) env calls
    (TimesIn.new {t | ∃ o ∈ calls, o.time = t} R.pair) (fun o ho => ⟨o, ho, rfl⟩) c h
  exact ⟨ht.states, ht.meas, ht.queue, ht.out⟩

namespace Demo

/-- The hypotheses of both can be met, by a run that applies a relative measurement. -/
example : (∀ o ∈ relRun 1, 0 < o.time ∧ 0 < o.time + 1000) ∧
    (⟨.gnu fun _ _ => false, .gnu fun _ _ => false⟩ : Env).ps.OrderOnly ∧
    (relK.run ⟨.gnu fun _ _ => false, .gnu fun _ _ => false⟩ (relRun 1)).toOption.map
      (fun c => (c.states.nodes.length, c.meas.nodes.length)) = some (7, 2) := by
  refine ⟨?_, fun _ _ _ => rfl, by decide +kernel⟩
  decide +kernel

end Demo
end MSF
