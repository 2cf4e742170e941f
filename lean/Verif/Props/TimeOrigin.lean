import Verif.Lemmas.CoreMap
import Verif.Props.Demo

/-!
# C80, C81: the times of a run

C80: where the time axis starts does not matter, as long as all times are positive.
C81: the filter invents no times.

Both are about every kernel, so about every filter built from the core.
-/

namespace MSF

open Core

variable {A W X C M T E : Type} [AddCommGroup A] [Module ℚ A] [AddCommGroup W] [Module ℚ W]

/-- The same call, `d` later. -/
def Api.delay (d : ℚ) : Api A W X C M E → Api A W X C M E
  | .init t s => .init (t + d) s
  | .imu t u => .imu (t + d) u
  | .ext t u e => .ext (t + d) u e
  | .meas m => .meas { m with time := m.time + d }

/-- The same publication, `d` later. -/
def Event.delay (d : ℚ) : Event X C → Event X C
  | .initial t x P => .initial (t + d) x P
  | .afterPropagation t x P => .afterPropagation (t + d) x P
  | .afterUpdate t x P => .afterUpdate (t + d) x P

/-- A `std::map` implementation whose tree does not depend on where the time axis starts.  This holds
for every search tree, which sees the keys through comparisons only. -/
def Plat.OrderOnly : Plat → Prop
  | .std => True
  | .gnu shape => ∀ (d : ℚ) (n : Nat) (ks : List ℚ), shape n (ks.map (· - d)) = shape n ks

theorem Plat.OrderOnly.shift {p : Plat} (h : p.OrderOnly) (d : ℚ) : p.shift d = p := by
  cases p with
  | std => rfl
  | gnu shape =>
    simp only [Plat.shift, Plat.gnu.injEq]
    funext n ks
    exact h d n ks

/-- Nothing but the times is changed. -/
def KHom.refl (K : Kernel A W X C M T E) : KHom K K where
  x := id
  c := id
  m _ := id
  t := id
  e := id
  prop _ _ _ _ := rfl
  extProp _ _ := rfl
  predP _ _ _ _ := rfl
  update _ _ _ _ _ := rfl
  P0 := rfl
  tr0 := rfl
  spike _ := rfl
  numX _ := rfl
  numPos _ := rfl

omit [AddCommGroup A] [Module ℚ A] [AddCommGroup W] [Module ℚ W] in
theorem KHom.refl_api (K : Kernel A W X C M T E) (d : ℚ) (o : Api A W X C M E) :
    (KHom.refl K).api d o = o.delay d := by
  cases o with
  | ext t u e => cases e <;> rfl
  | _ => rfl

omit [AddCommGroup A] [Module ℚ A] [AddCommGroup W] [Module ℚ W] in
theorem KHom.refl_event (K : Kernel A W X C M T E) (d : ℚ) :
    (KHom.refl K).event d = Event.delay d := by
  funext e
  cases e <;> rfl

omit [Module ℚ A] [AddCommGroup W] [Module ℚ W] in
theorem TimesIn.new (S : Set ℚ) (K : Kernel A W X C M T E) : (Core.new K).TimesIn S :=
  ⟨fun _ h => (by cases h), fun _ h => (by cases h), by simp [Core.new], by simp [Core.new]⟩

/-- Before `Init` every other call is ignored. -/
theorem api_uninit (env : Env) (K : Kernel A W X C M T E) {c : Core A W X C M T}
    (h : c.inited = false) (o : Api A W X C M E) (ho : ∀ t s, o ≠ .init t s) :
    Core.api env K c o = .ok c := by
  cases o with
  | init t s => exact absurd rfl (ho t s)
  | imu t u => simp [Core.api, processIMU, h]; rfl
  | ext t u e => simp [Core.api, processExternal, h]; rfl
  | meas m => simp [Core.api, addMeasurement, h]; rfl

theorem apis_new_map {K : Kernel A W X C M T E} {X' C' M' T' E' : Type}
    {K' : Kernel A W X' C' M' T' E'} (h : KHom K K') (d : ℚ) {S : Set ℚ} (hS : Shiftable d S)
    (env : Env) (os : List (Api A W X C M E)) (hos : ∀ o ∈ os, o.time ∈ S) :
    (Core.apis (env.shift d) K' (Core.new K') (os.map (h.api d))).map Core.out =
      (Core.apis env K (Core.new K) os).map (fun c => c.out.map (h.event d)) := by
  induction os with
  | nil => rfl
  | cons o os ih =>
    have ih := ih fun o' ho' => hos o' (List.mem_cons_of_mem _ ho')
    by_cases ho : ∃ t s, o = .init t s
    · obtain ⟨t, s, rfl⟩ := ho
      have e : Core.init K' (Core.new K') (t + d) (h.st s) =
          h.core d (Core.init K (Core.new K) t s) := by
        rw [← map_init h d]
        simp only [Core.init, Core.new, KHom.core, h.tr0, h.f_false, List.map_nil]
        rfl
      have ht : t ∈ S := hos (.init t s) (List.mem_cons_self ..)
      have hc := (TimesIn.new S K).init (K := K) ht s
      have hm := map_apis h d env hS os _ hc fun o' ho' => hos o' (List.mem_cons_of_mem _ ho')
      change (Core.apis (env.shift d) K' (Core.init K' (Core.new K') (t + d) (h.st s))
        (os.map (h.api d))).map Core.out =
        (Core.apis env K (Core.init K (Core.new K) t s) os).map _
      rw [e, hm]
      cases Core.apis env K (Core.init K (Core.new K) t s) os <;> rfl
    · have h1 : Core.api env K (Core.new K) o = .ok (Core.new K) :=
        api_uninit env K rfl o fun t s e => ho ⟨t, s, e⟩
      have h2 : Core.api (env.shift d) K' (Core.new K') (h.api d o) = .ok (Core.new K') := by
        refine api_uninit _ K' rfl _ fun t s e => ?_
        cases o with
        | init t s => exact ho ⟨t, s, rfl⟩
        | imu t u => cases e
        | ext t u e' => cases e
        | meas m => cases e
      change (Core.api (env.shift d) K' (Core.new K') (h.api d o) >>= fun c1 =>
          Core.apis (env.shift d) K' c1 (os.map (h.api d))).map Core.out =
        (Core.api env K (Core.new K) o >>= fun c1 => Core.apis env K c1 os).map _
      rw [h1, h2]
      exact ih

/-- **C80**: let all times of a sequence of calls on a new filter be positive, and stay positive when
`d` is added.  Then the filter publishes for the delayed calls what it publishes for the original ones,
`d` later and otherwise identical; if one run ends in undefined behaviour, so does the other. -/
theorem C80_time_origin_partial (env : Env) (hs : env.ps.OrderOnly) (hm : env.pm.OrderOnly)
    (K : Kernel A W X C M T E) (d : ℚ) (calls : List (Api A W X C M E))
    (hpos : ∀ o ∈ calls, 0 < o.time ∧ 0 < o.time + d) :
    (Core.apis env K (Core.new K) (calls.map (Api.delay d))).map Core.out =
      (Core.apis env K (Core.new K) calls).map (fun c => c.out.map (Event.delay d)) := by
  have e : env.shift d = env := by
    unfold Env.shift
    rw [hs.shift, hm.shift]
  have h := apis_new_map (KHom.refl K) d (Shiftable.pos d) env calls hpos
  rw [e, KHom.refl_event] at h
  rw [← h]
  congr 2
  exact List.map_congr_left fun o _ => (KHom.refl_api K d o).symm

section Witness

open Demo

/-- Four IMU readings and a measurement. -/
def originCalls : List (Api ℚ ℚ ℚ ℚ ℚ Unit) :=
  [.init 1 s0, .imu (101 / 100) ⟨1, 0⟩, .imu (102 / 100) ⟨1, 0⟩, .imu (103 / 100) ⟨1, 0⟩,
   .imu (104 / 100) ⟨1, 0⟩, .meas ⟨102 / 100, 0, 5⟩]

/-- The hypotheses of C80 can be met, and then something is published. -/
example : env.ps.OrderOnly ∧ env.pm.OrderOnly ∧
    (∀ o ∈ originCalls, 0 < o.time ∧ 0 < o.time + 1000) ∧
    (Core.apis env Demo.K (Core.new Demo.K) originCalls).toOption.map (fun c => c.out.length) =
      some 6 := by
  refine ⟨fun _ _ _ => rfl, fun _ _ _ => rfl, ?_, by decide +kernel⟩
  decide +kernel

/-- **C80 without positive times is violated**: moved to times before zero, the same calls lose the
measurement update.  `AddMeasurement` skips measurements whose time is not positive. -/
theorem C80_nonpositive_violated :
    ∃ (K : Kernel ℚ ℚ ℚ ℚ ℚ Unit Unit) (env : Env) (d : ℚ) (calls : List (Api ℚ ℚ ℚ ℚ ℚ Unit)),
      env.ps.OrderOnly ∧ env.pm.OrderOnly ∧
      (Core.apis env K (Core.new K) (calls.map (Api.delay d))).toOption.map Core.out ≠
        (Core.apis env K (Core.new K) calls).toOption.map
          (fun c => c.out.map (Event.delay d)) := by
  refine ⟨Demo.K, env, -10, originCalls, fun _ _ _ => rfl, fun _ _ _ => rfl, ?_⟩
  decide +kernel

end Witness

/-- **C81**: in every run of a new filter, each buffered state, each stored or queued measurement and
each published state carries a time that one of the calls brought in. -/
theorem C81_no_invented_times (env : Env) (K : Kernel A W X C M T E)
    (calls : List (Api A W X C M E)) (c : Core A W X C M T)
    (h : Core.apis env K (Core.new K) calls = .ok c) :
    (∀ n ∈ c.states.nodes, ∃ o ∈ calls, o.time = n.key) ∧
    (∀ n ∈ c.meas.nodes, ∃ o ∈ calls, o.time = n.key) ∧
    (∀ m ∈ c.queue, ∃ o ∈ calls, o.time = m.time) ∧
    ∀ e ∈ c.out, ∃ o ∈ calls, o.time = e.time := by
  have ht := TimesIn.apis env calls (TimesIn.new {t | ∃ o ∈ calls, o.time = t} K)
    (fun o ho => ⟨o, ho, rfl⟩) c h
  exact ⟨ht.states, ht.meas, ht.queue, ht.out⟩

/-- The hypothesis of C81 is met by a run with five states, a measurement and six publications. -/
example : (Core.apis Demo.env Demo.K (Core.new Demo.K) originCalls).toOption.map
    (fun c => (c.states.nodes.length, c.meas.nodes.length, c.out.length)) = some (5, 1, 6) := by
  decide +kernel

end MSF
