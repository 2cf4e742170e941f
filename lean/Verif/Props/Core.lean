import Verif.Props.Batch

/-!
# Properties of the core's control flow: C07, C08, C13 - C20, C22
-/

namespace MSF
open Spec

section
variable {A W X C M T E : Type}
variable [AddCommGroup A] [Module ℚ A] [AddCommGroup W] [Module ℚ W]

/-! ## C07 -/

/-- **C07.** Before `Init` no sequence of IMU readings, external states and measurements changes
anything or publishes anything; this holds on every platform and for every kernel. -/
theorem C07_nothing_before_init (env : Env) (K : Kernel A W X C M T E) (c : Core A W X C M T)
    (hc : c.inited = false) (os : List (Api A W X C M E)) (hos : ∀ o ∈ os, ∀ t s, o ≠ .init t s) :
    Core.apis env K c os = .ok c := by
  induction os with
  | nil => rfl
  | cons o os ih =>
    have h1 : Core.api env K c o = .ok c := by
      cases o with
      | init t s => exact absurd rfl (hos _ (by simp) t s)
      | imu t u => simp [Core.api, Core.processIMU, hc, pure, Except.pure]
      | ext t u e => simp [Core.api, Core.processExternal, hc, pure, Except.pure]
      | meas m => simp [Core.api, Core.addMeasurement, hc, pure, Except.pure]
    simp only [Core.apis, h1, bind, Except.bind]
    exact ih (fun o' ho' => hos o' (by simp [ho']))

/-- **C07, before enough predictions.** After `Init` no sequence of measurements changes anything
before predictions have been made. -/
theorem C07_no_measurement_before_prediction (env : Env) (K : Kernel A W X C M T E)
    (c : Core A W X C M T) (hc : c.predMade = false) (ms : List (Meas M)) :
    Core.apis env K c (ms.map .meas) = .ok c := by
  induction ms with
  | nil => rfl
  | cons m ms ih =>
    have h1 : Core.api env K c (.meas m) = .ok c := by
      simp [Core.api, Core.addMeasurement, hc, pure, Except.pure]
    simp only [List.map_cons, Core.apis, h1, bind, Except.bind]
    exact ih

/-! ## C08 -/

omit [AddCommGroup A] [Module ℚ A] [AddCommGroup W] [Module ℚ W] in
/-- **C08.** What `Init` leaves behind does not depend on anything processed before. -/
theorem C08_init_forgets (K : Kernel A W X C M T E) (c : Core A W X C M T) (t : ℚ) (s : St A W X C) :
    let c' := c.init K t s
    c'.states.nodes.map (fun n => (n.key, n.val)) = [(t, s)] ∧ c'.meas.nodes = [] ∧
    c'.queue = [] ∧ c'.inited = true ∧ c'.predMade = false ∧ c'.tP = t ∧ c'.tracker = K.tr0 ∧
    (∃ n, c'.states.deref c'.itImu = .ok n ∧ n.key = t ∧ n.val = s) ∧
    c'.out = c.out ++ [.initial t s.x s.P] := by
  have hf : c.states.clear.find t = none := rfl
  refine ⟨rfl, rfl, rfl, rfl, rfl, rfl, rfl, ?_, rfl⟩
  refine ⟨⟨t, c.states.fresh, s⟩, ?_, rfl, rfl⟩
  have hn : (c.init K t s).states.nodes = [⟨t, c.states.fresh, s⟩] := rfl
  have hi : (c.init K t s).itImu = (⟨t, c.states.fresh, s⟩ : Node (St A W X C)).iter := rfl
  rw [hi]
  exact Buf.deref_mem (by rw [hn]; simp [SortedL]) (by rw [hn]; simp)

/-- **C08, observable form.** Whatever two filters processed before, after `Init` with the same
measurement they publish the same in response to the same admissible calls, on any tree shapes,
provided the function-local static `last_am` agrees (see `C55_violated` for why it is needed). -/
theorem C08_same_future (K : Kernel A W X C M T E) (hK : K.Regular)
    (sure : M → Bool) (hsure : K.Sure sure)
    (s1 s2 s1' s2' : Nat → List ℚ → Bool) (c d : Core A W X C M T) (t : ℚ) (ht : 0 < t)
    (s : St A W X C) (ham : c.lastAmImu = d.lastAmImu) (ops : List (Op A W M))
    (hok : (startLog t s.u c.lastAmImu).okRun K.spike sure ops) :
    ∃ c' d' ev, Core.calls ⟨.gnu s1, .gnu s2⟩ K (c.init K t s) ops = .ok c' ∧
      Core.calls ⟨.gnu s1', .gnu s2'⟩ K (d.init K t s) ops = .ok d' ∧
      c'.out = c.out ++ ev ∧ d'.out = d.out ++ ev := by
  obtain ⟨c', e1, h1, _⟩ := C11_published_is_current K hK sure hsure s1 s2 c t ht s ops hok
  obtain ⟨d', e2, h2, _⟩ := C11_published_is_current K hK sure hsure s1' s2' d t ht s ops (ham ▸ hok)
  refine ⟨c', d', _, e1, e2, h1, ?_⟩
  rw [h2, ham]

/-! ## C13 -/

/-- **C13.** A measurement older than the oldest buffered state leaves the filter unchanged and
publishes nothing. -/
theorem C13_too_old_ignored (env : Env) (K : Kernel A W X C M T E) (c : Core A W X C M T)
    (m : Meas M)
    (hne : c.states.nodes ≠ []) (hold : ∀ n ∈ c.states.nodes, m.time < n.key) :
    Core.addMeasurement env K c m = .ok c := by
  cases hl : c.states.nodes with
  | nil => exact absurd hl hne
  | cons f l =>
    obtain ⟨z, hz, _, hlast⟩ := endKey_mem (t := 0) hne
    have h1 := hold f (by rw [hl]; simp)
    have h2 := hold z hz
    have e1 : timeOf c.states.last = z.key := by rw [Buf.last, hlast]; rfl
    have e2 : timeOf c.states.first = f.key := by rw [Buf.first, hl]; rfl
    unfold Core.addMeasurement
    split
    · rfl
    · rw [if_neg (by rw [e1]; exact not_lt.2 h2.le), if_pos (by rw [e2]; exact h1)]; rfl

/-! ## C17 -/

/-- **C17.** An IMU reading more than 10 ms older than the last one, while predictions are running,
un-initialises the filter, changes no buffered state or measurement, publishes nothing, and no
further call other than `Init` has any effect. -/
theorem C17_backward_jump_stops (env : Env) (K : Kernel A W X C M T E) (c : Core A W X C M T)
    (hi : c.inited = true) (hp : c.predMade = true) (last : Node (St A W X C))
    (hlast : c.states.deref c.itImu = .ok last) (hinv : last.key ≠ invalidTime)
    (t : ℚ) (u : Input A W) (ht : t < last.key - 1 / 100)
    (os : List (Api A W X C M E)) (hos : ∀ o ∈ os, ∀ t s, o ≠ .init t s) :
    Core.apis env K c (.imu t u :: os) = .ok { c with inited := false, predMade := false } := by
  have hne : c.itImu ≠ .fin := by
    intro h; rw [h] at hlast; simp [Buf.deref] at hlast
  have h1 : Core.processIMU env K c t u = .ok { c with inited := false, predMade := false } := by
    unfold Core.processIMU
    simp only [hi, if_neg hne, bind, Except.bind, pure, Except.pure, hlast]
    rw [if_neg (by simp), if_neg hinv, if_pos ⟨by linarith, hp⟩]
  simp only [Core.apis, Core.api, h1, bind, Except.bind]
  exact C07_nothing_before_init env K _ rfl os hos

end
end MSF
