import Verif.Lemmas.FlowMemory
import Verif.Props.Stamps
import Verif.Props.Relative

/-!
# C96 with relative measurements
-/

namespace MSF

variable {A W X C F M T E : Type}
variable [AddCommGroup A] [Module ℚ A] [AddCommGroup W] [Module ℚ W]

/-- **C96 with relative measurements (partial).** Consider the filter at some moment of any run, and let
`U` be the time of its newest state and `S` that of its newest measurement (or any earlier times).  As soon
as 102 more updates have been published, at most one state older than `U - 60` and at most one measurement
older than `S - 60` is buffered, provided that from then on nothing is stamped before `U`, no measurement
(waiting or arriving) is older than `U - 60` or `S - 60`, and no buffered measurement is older than `U - 60`:
a relative measurement looks for the state of the measurement before it, and the interpolation may put one
there.  Full claim: the buffers hold about the last minute in every run; false by `C96_imu_violated` and
`C96_queue_violated`, whose runs need no relative measurements.  Whether the condition on buffered
measurements is necessary is open. -/
theorem C96_relative_partial (env : Env) (R : RelKernel A W X C F M T E)
    (calls calls' : List (Api A W X (C × F) M E)) (c c' : Core A W X (C × F) M T)
    (hc : R.run env calls = .ok c) (hc' : R.run env (calls ++ calls') = .ok c')
    (U S : ℚ) (hU : ∃ n ∈ c.states.nodes, U ≤ n.key)
    (hS : c.meas.nodes = [] ∨ ∃ n ∈ c.meas.nodes, S ≤ n.key)
    (hclock : ∀ o ∈ calls', ∀ t, o.clock = some t → U ≤ t)
    (hmeas : ∀ m, (m ∈ c.queue ∨ .meas m ∈ calls') → U - 60 ≤ m.time ∧ S - 60 ≤ m.time)
    (hbuf : ∀ n ∈ c.meas.nodes, U - 60 ≤ n.key)
    (hup : (c.out.filter Event.isUpdate).length + 102 ≤ (c'.out.filter Event.isUpdate).length) :
    (c'.states.nodes.filter (fun n => n.key < U - 60)).length ≤ 1 ∧
    (c'.meas.nodes.filter (fun n => n.key < S - 60)).length ≤ 1 := by
  have h0 : (Core.new R.pair : Core A W X (C × F) M T).Tidy False True 0 0 0 :=
    ⟨List.Pairwise.nil, List.Pairwise.nil, Nat.zero_le _, fun h => h.elim, fun h => h.elim,
      fun h => h.elim, fun _ h => h.elim, rfl⟩
  have h1 := Flow.kept_apis R.flow_keepsKept env calls h0 (fun h => h.elim) (fun h => h.elim) c hc
  have h2 : c.Tidy True True U S (Core.updatesOut c.out) := by
    refine ⟨h1.ss, h1.sm, h1.jan, fun _ m hm => hmeas m (.inl hm), fun _ => .inr ⟨hU, by simp⟩,
      fun _ => ?_, fun _ _ => hbuf, rfl⟩
    rcases hS with hS | hS
    · exact .inl (by simp [Buf.old, hS])
    · exact .inr ⟨hS, by simp⟩
  have e : R.flow.apis env c calls' = .ok c' := by
    have happ : ∀ (l l' : List (Api A W X (C × F) M E)) (c0 : Core A W X (C × F) M T),
        R.flow.apis env c0 (l ++ l') = R.flow.apis env c0 l >>= fun c1 => R.flow.apis env c1 l' := by
      intro l
      induction l with
      | nil => intro l' c0; rfl
      | cons o l ih =>
        intro l' c0
        change (R.flow.api env c0 o >>= fun c1 => R.flow.apis env c1 (l ++ l')) =
          (R.flow.api env c0 o >>= fun c1 => R.flow.apis env c1 l) >>= _
        cases R.flow.api env c0 o with
        | error e => rfl
        | ok c1 => exact ih l' c1
    unfold RelKernel.run at hc hc'
    rw [happ, hc] at hc'
    exact hc'
  have h3 := Flow.kept_apis R.flow_keepsKept env calls' h2 (fun _ => hclock)
    (fun _ o ho m e => hmeas m (.inr (e ▸ ho))) c' e
  have hj : ¬ (Core.updatesOut c'.out - Core.updatesOut c.out ≤ c'.janitor) := by
    have := h3.jan
    change Core.updatesOut c.out + 102 ≤ Core.updatesOut c'.out at hup
    omega
  exact ⟨(h3.st trivial).resolve_right fun h => hj h.2, (h3.me trivial).resolve_right fun h => hj h.2⟩

namespace Demo

def relEnv : Env := ⟨.gnu fun _ _ => false, .gnu fun _ _ => false⟩

/-- Three IMU readings, three 100 s later and a relative measurement. -/
def relBefore : List (Api ℚ ℚ ℚ (ℚ × ℚ) (ℚ × Bool) Unit) :=
  [.init 1 ⟨⟨0, 0⟩, 0, (1, 1)⟩, relImu (101 / 100), relImu (102 / 100), relImu (103 / 100), relImu 101,
    relImu (10101 / 100), relImu (10102 / 100), relMeas 101 1]

/-- 102 relative measurements. -/
def relAfter : List (Api ℚ ℚ ℚ (ℚ × ℚ) (ℚ × Bool) Unit) :=
  List.replicate 102 (relMeas (10101 / 100) 2)

/-- Keys of states and measurements, number of waiting measurements, published updates. -/
def relSizes (os : List (Api ℚ ℚ ℚ (ℚ × ℚ) (ℚ × Bool) Unit)) : Option (List ℚ × List ℚ × Nat × Nat) :=
  (relK.run relEnv os).toOption.map (fun c =>
    (c.states.nodes.map Node.key, c.meas.nodes.map Node.key, c.queue.length,
      (c.out.filter Event.isUpdate).length))

/-- The hypotheses can be met: four old states before, one after 102 more updates. -/
example : relSizes relBefore = some ([1, 101/100, 102/100, 103/100, 101, 10101/100, 10102/100], [101], 0, 1) ∧
    relSizes (relBefore ++ relAfter) =
      some ([103/100, 101, 10101/100, 10102/100], [101, 10101/100], 0, 103) ∧
    (∀ o ∈ relAfter, ∀ m, o = .meas m → 10102 / 100 - 60 ≤ m.time) ∧ relAfter.filterMap Api.clock = [] := by
  refine ⟨by decide +kernel, by decide +kernel, ?_, by decide +kernel⟩
  intro o ho m e
  rw [List.eq_of_mem_replicate ho] at e
  cases e
  norm_num

end Demo
end MSF
