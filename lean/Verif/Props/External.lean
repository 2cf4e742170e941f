import Verif.Lemmas.External
import Verif.Props.Handlers
import Verif.Props.Runs
import Verif.Props.Demo

/-!
# C90 to C94: external state propagation

A flight controller propagates position, velocity and attitude and sends them to the filter, which
sends corrections back.
-/

namespace MSF

variable {A W X C M T E R : Type}

/-! ### C90: which external states are used -/

section
variable [Field R] [LinearOrder R]
  [AddCommGroup A] [Module ℚ A] [AddCommGroup W] [Module ℚ W]

/-- Two sequences of callbacks that differ only in external states the filter must not use. -/
inductive SameButUnusable (playback : Bool) : RosCall A W X C M R → RosCall A W X C M R → Prop
  | same (o) : SameButUnusable playback o o
  | state (m m') : m.stamp = m'.stamp → m.u = m'.u → m.Unusable playback → m'.Unusable playback →
      10 ≤ m.state.length → 10 ≤ m'.state.length →
      SameButUnusable playback (.state m) (.state m')

omit [Field R] [LinearOrder R] [AddCommGroup A] [Module ℚ A] [AddCommGroup W] [Module ℚ W] in
theorem unusable_toApi {playback : Bool} (view : RosView R X E) {m : ExtMsg A W R}
    (h : m.Unusable playback) (hlen : 10 ≤ m.state.length) :
    (RosCall.state m : RosCall A W X C M R).toApi playback view = some (.ext m.stamp m.u none) := by
  simp only [RosCall.toApi, stateCallback, if_neg (not_lt.2 hlen)]
  congr 2
  by_cases hf : (if playback = true then ignoreState else m.flag) = currentState
  · rw [if_pos hf]
    rcases h with h | h | ⟨i, hi, h⟩
    · rw [if_pos h] at hf; exact absurd hf (by decide)
    · split at hf
      · exact absurd hf (by decide)
      · exact absurd hf h
    · simp only [num3, num4, Option.bind_eq_bind]
      have hc : i = 0 ∨ i = 1 ∨ i = 2 ∨ i = 3 ∨ i = 4 ∨ i = 5 ∨ i = 6 ∨ i = 7 ∨ i = 8 ∨ i = 9 := by
        omega
      generalize msgEntry m.state = f at h
      rcases hc with rfl | rfl | rfl | rfl | rfl | rfl | rfl | rfl | rfl | rfl <;>
      · simp only [Nat.zero_add, Nat.reduceAdd, h, Option.bind_none, Option.bind_fun_none]
  · rw [if_neg hf]

omit [Field R] [LinearOrder R] [AddCommGroup A] [Module ℚ A] [AddCommGroup W] [Module ℚ W] in
theorem SameButUnusable.toApi {playback : Bool} {view : RosView R X E} {o o' : RosCall A W X C M R}
    (h : SameButUnusable playback o o') : o.toApi playback view = o'.toApi playback view := by
  cases h with
  | same => rfl
  | state m m' h1 h2 h3 h4 h5 h6 =>
    rw [unusable_toApi view h3 h5, unusable_toApi view h4 h6, h1, h2]

/-- **C90, partial.**  The contents of external states that are not marked as current, that contain a
number that is not finite in their first ten entries, or that arrive during data playback have no
effect on the filter: changing them changes no state of the filter and nothing it publishes.  The
messages must have at least ten entries. -/
theorem C90_unusable_partial (env : Env) (K : Kernel A W X C M T E) (view : RosView R X E)
    (cfg : RosConf) (m0 : Ros A W X C M T R) (os os' : List (RosCall A W X C M R))
    (h : List.Forall₂ (SameButUnusable cfg.playback) os os') (m m' : Ros A W X C M T R)
    (hm : m0.calls env K view cfg os = some m) (hm' : m0.calls env K view cfg os' = some m') :
    m.core = m'.core := by
  obtain ⟨as, h1, h2⟩ := Ros.calls_apis hm
  obtain ⟨as', h1', h2'⟩ := Ros.calls_apis hm'
  have : as = as' := by
    clear hm hm' h2 h2'
    induction h generalizing as as' with
    | nil => cases h1; cases h1'; rfl
    | cons ho _ ih =>
      obtain ⟨a, as, ha, hb, rfl⟩ := List.forall₂_cons_left_iff.1 h1
      obtain ⟨a', as', ha', hb', rfl⟩ := List.forall₂_cons_left_iff.1 h1'
      rw [ho.toApi, ha'] at ha
      cases ha
      rw [ih as hb as' hb']
  rw [this, h2'] at h2
  exact (Except.ok.inj h2).symm

/-- **C90 (data playback), partial.**  During data playback the external states have no effect at all,
neither on the filter nor on the messages it sends (again for messages with at least ten entries). -/
theorem C90_playback_partial (env : Env) (K : Kernel A W X C M T E) (view : RosView R X E)
    (cfg : RosConf) (hpl : cfg.playback = true) (m0 m0' : Ros A W X C M T R)
    (h0 : m0.core = m0'.core ∧ m0.sent = m0'.sent) (os os' : List (RosCall A W X C M R))
    (h : List.Forall₂ (SameButUnusable true) os os') (m : Ros A W X C M T R)
    (hm : m0.calls env K view cfg os = some m) :
    ∃ m', m0'.calls env K view cfg os' = some m' ∧ m'.core = m.core ∧ m'.sent = m.sent := by
  obtain ⟨pl, b⟩ := cfg
  cases hpl
  induction h generalizing m0 m0' with
  | nil => cases hm; exact ⟨m0', rfl, h0.1.symm, h0.2.symm⟩
  | @cons o o' os os' ho hos ih =>
    obtain ⟨m1, h1, h2⟩ := Option.bind_eq_some_iff.1 hm
    obtain ⟨a, c, ms, ha, hc, hp, rfl⟩ := Ros.call_some h1
    have hc' : m0'.call env K view ⟨true, b⟩ o' = some ⟨c, o'.buffer m0'.hl, m0'.sent ++ ms⟩ := by
      refine Ros.call_of (ho.toApi.symm.trans ha) (by rw [← h0.1]; exact hc) ?_
      rw [← h0.1, publish_playback (o'.buffer m0'.hl) (o.buffer m0.hl)]
      exact hp
    obtain ⟨m', e1, e2⟩ := ih ⟨c, o.buffer m0.hl, m0.sent ++ ms⟩ ⟨c, o'.buffer m0'.hl, m0'.sent ++ ms⟩
      ⟨rfl, by rw [h0.2]⟩ h2
    exact ⟨m', by simp only [Ros.calls, hc', Option.bind_some, e1], e2⟩

/-- **C90 is violated: short messages.**  A message with fewer than ten entries is undefined behaviour
(reads behind the end of a vector), also when it is to be ignored or during data playback. -/
theorem C90_short_violated (env : Env) (K : Kernel A W X C M T E) (view : RosView R X E)
    (cfg : RosConf) (m : Ros A W X C M T R) (msg : ExtMsg A W R) (h : msg.state.length < 10) :
    m.call env K view cfg (.state msg) = none := by
  simp only [Ros.call, RosCall.toApi, stateCallback, if_pos h, Option.bind_none]

omit [Field R] [LinearOrder R] [AddCommGroup A] [Module ℚ A] [AddCommGroup W] [Module ℚ W] in
theorem usable_toApi (view : RosView R X E) {m : ExtMsg A W R} (hf : m.flag = currentState)
    (n : Nat → R) (hn : ∀ i < 10, m.state[i]? = some (some (n i))) :
    (RosCall.state m : RosCall A W X C M R).toApi false view =
      some (.ext m.stamp m.u (some (view.ext ![n 0, n 1, n 2] ![n 3, n 4, n 5]
        ⟨n 6, n 7, n 8, n 9⟩))) := by
  have hlen : ¬ m.state.length < 10 := by
    intro h
    have := hn 9 (by norm_num)
    rw [List.getElem?_eq_none (by omega)] at this
    cases this
  have he : ∀ i < 10, msgEntry m.state i = some (n i) := fun i hi => by
    rw [msgEntry, hn i hi]; rfl
  simp [RosCall.toApi, stateCallback, hlen, hf, num3, num4, he]

/-- In a running filter a usable external state replaces the propagation: it is what the filter
publishes for its time. -/
theorem used_event (env : Env) (K : Kernel A W X C M T E) (view : RosView R X E)
    (b : Bool) (m m' : Ros A W X C M T R) (msg : ExtMsg A W R) (hf : msg.flag = currentState)
    (n : Nat → R) (hn : ∀ i < 10, msg.state[i]? = some (some (n i)))
    (hi : m.core.inited = true) (hp : m.core.predMade = true) (last : Node (St A W X C))
    (hl : m.core.states.last = some last) (hl0 : 0 < last.key)
    (h : m.call env K view ⟨false, b⟩ (.state msg) = some m') :
    ∃ P l, m'.core.out = m.core.out ++ .afterPropagation msg.stamp
      (K.extProp (view.ext ![n 0, n 1, n 2] ![n 3, n 4, n 5] ⟨n 6, n 7, n 8, n 9⟩) last.val.x) P ::
        l := by
  obtain ⟨a, c, ms, ha, hc, -, rfl⟩ := Ros.call_some h
  rw [usable_toApi view hf n hn] at ha
  obtain rfl := (Option.some.inj ha).symm
  rw [Core.api] at hc
  rw [Core.processExternal_form, if_neg (by simp [hi]), hl] at hc
  dsimp only at hc
  rw [if_neg (by intro h; rw [h] at hl0; norm_num [invalidTime] at hl0), if_neg (by simp [hp]),
    if_neg (by simp [hp])] at hc
  exact Core.extEnd_event env _ _ c hc

/-! ### C91: the external estimator agrees with the filter after a correction -/

section
variable [IsStrictOrderedRing R]

omit [IsStrictOrderedRing R] in
/-- External state and measurements until the next external state: what the external estimator gets
out of the corrections. -/
theorem stretch_corrections (env : Env) (K : Kernel A W X C M T E) (view : RosView R X E)
    (m0 m : Ros A W X C M T R) (y : CoreState R) (t : ℚ) (u : Input A W) (flag : Int)
    (ms : List (Meas M))
    (h : m0.calls env K view ⟨false, true⟩ (.state ⟨t, u, y.message, flag⟩ :: ms.map .meas) = some m) :
    y.receiveAll (m.sent.drop m0.sent.length) =
      some ((updates view (m.core.out.drop m0.core.out.length)).foldl (shiftBy y) y) := by
  obtain ⟨m1, h1, h2⟩ := Option.bind_eq_some_iff.1 h
  obtain ⟨hb, l1, c1, e1, e2, e3⟩ := Ros.call_corrections (o := .state ⟨t, u, y.message, flag⟩) y trivial rfl h1
  obtain ⟨l2, c2, f1, f2, f3⟩ := Ros.calls_corrections y ms hb h2
  rw [f1, e1, f2, e2, List.append_assoc, List.append_assoc, List.drop_left, List.drop_left]
  refine receiveAll_corrections y _ _ ?_ y
  rw [List.map_append, e3, f3, updates_append, List.map_append]

/-- **C91, partial.**  Suppose the external estimator sends its state `y` and applies the corrections it
gets before it sends the next one.  If the filter publishes exactly one update in between, the external
estimator then has exactly the state the filter has published.  Nothing is assumed about the filter,
the measurements or the past. -/
theorem C91_one_update_partial (env : Env) (K : Kernel A W X C M T E) (view : RosView R X E)
    (m0 m : Ros A W X C M T R) (y : CoreState R) (hq : y.q ≠ ⟨0, 0, 0, 0⟩) (t : ℚ) (u : Input A W)
    (flag : Int) (ms : List (Meas M))
    (h : m0.calls env K view ⟨false, true⟩ (.state ⟨t, u, y.message, flag⟩ :: ms.map .meas) = some m)
    (x : CoreState R) (hx : updates view (m.core.out.drop m0.core.out.length) = [x]) :
    y.receiveAll (m.sent.drop m0.sent.length) = some x := by
  rw [stretch_corrections env K view m0 m y t u flag ms h, hx]
  simp only [List.foldl_cons, List.foldl_nil, shiftBy, quat_inverse_cancel y.q x.q hq,
    add_sub_cancel]

omit [IsStrictOrderedRing R] in
/-- **C91 (any number of updates).**  In general the position, velocity and biases of the external
estimator afterwards are its own plus, for every published update, the difference between the
published and the sent state: all updates are counted from the sent state on. -/
theorem C91_all_updates (env : Env) (K : Kernel A W X C M T E) (view : RosView R X E)
    (m0 m : Ros A W X C M T R) (y : CoreState R) (t : ℚ) (u : Input A W) (flag : Int)
    (ms : List (Meas M))
    (h : m0.calls env K view ⟨false, true⟩ (.state ⟨t, u, y.message, flag⟩ :: ms.map .meas) = some m) :
    ∃ z, y.receiveAll (m.sent.drop m0.sent.length) = some z ∧
      let xs := updates view (m.core.out.drop m0.core.out.length)
      z.p = y.p + (xs.map fun x => x.p - y.p).sum ∧ z.v = y.v + (xs.map fun x => x.v - y.v).sum ∧
      z.b_w = y.b_w + (xs.map fun x => x.b_w - y.b_w).sum ∧
      z.b_a = y.b_a + (xs.map fun x => x.b_a - y.b_a).sum :=
  ⟨_, stretch_corrections env K view m0 m y t u flag ms h, foldl_shiftBy y _ y⟩

omit [IsStrictOrderedRing R] in
/-- **C91 is violated: two updates.**  If two updates are published between two external states, the
first correction is contained in the second one, so that it is applied twice: the position of the
external estimator is wrong by the first correction. -/
theorem C91_two_updates_violated (env : Env) (K : Kernel A W X C M T E) (view : RosView R X E)
    (m0 m : Ros A W X C M T R) (y : CoreState R) (t : ℚ) (u : Input A W) (flag : Int)
    (ms : List (Meas M))
    (h : m0.calls env K view ⟨false, true⟩ (.state ⟨t, u, y.message, flag⟩ :: ms.map .meas) = some m)
    (x₁ x₂ : CoreState R) (hx : updates view (m.core.out.drop m0.core.out.length) = [x₁, x₂])
    (hne : x₁.p ≠ y.p) :
    ∃ z, y.receiveAll (m.sent.drop m0.sent.length) = some z ∧ z.p - x₂.p = x₁.p - y.p ∧ z ≠ x₂ := by
  obtain ⟨z, h1, h2, -⟩ := C91_all_updates env K view m0 m y t u flag ms h
  rw [hx] at h2
  simp only [List.map_cons, List.map_nil, List.sum_cons, List.sum_nil, add_zero] at h2
  have h3 : z.p - x₂.p = x₁.p - y.p := by rw [h2]; abel
  refine ⟨z, h1, h3, ?_⟩
  rintro rfl
  rw [sub_self] at h3
  exact hne (sub_eq_zero.1 h3.symm)

end

/-! ### C92: corrections compare states of the same time -/

omit [Field R] [LinearOrder R] [AddCommGroup A] [Module ℚ A] [AddCommGroup W] [Module ℚ W] in
theorem Core.Newest.rebase {t : ℚ} {l0 : List (Event X C)} {c : Core A W X C M T}
    (h : c.Newest t l0) : c.Newest t c.out := ⟨h.sorted, h.top, h.le, h.meas, [], by simp, by simp⟩

omit [Field R] [LinearOrder R] [AddCommGroup A] [Module ℚ A] [AddCommGroup W] [Module ℚ W] in
theorem externalStates_append (os os' : List (RosCall A W X C M R)) :
    externalStates (os ++ os') = externalStates os ++ externalStates os' := by
  induction os with
  | nil => rfl
  | cons o os ih => cases o <;> simp [externalStates, ih]

/-- The buffer holds the external state of the time of the newest state. -/
def Ros.InStep (m : Ros A W X C M T R) (os : List (RosCall A W X C M R)) : Prop :=
  m.core.inited = true → m.core.predMade = true → ∃ msg, (externalStates os).getLast? = some msg ∧
    m.hl = msg.state ∧ m.core.Newest msg.stamp m.core.out

/-- One callback keeps step, and the updates it publishes have the time of the last external state. -/
theorem Ros.InStep.call {env : Env} {K : Kernel A W X C M T E} {view : RosView R X E} {cfg : RosConf}
    {m m' : Ros A W X C M T R} {os : List (RosCall A W X C M R)} {o : RosCall A W X C M R}
    (h : m.InStep os) (ho : o.isExternal)
    (hinc : ((externalStates (os ++ [o])).map (·.stamp)).Pairwise (· < ·))
    (hpos : ∀ msg ∈ externalStates (os ++ [o]), 0 < msg.stamp)
    (hc : m.call env K view cfg o = some m') :
    m'.InStep (os ++ [o]) ∧ ∃ l, m'.core.out = m.core.out ++ l ∧ ∀ e ∈ l, e.isUpdate = true →
      ∃ msg, (externalStates (os ++ [o])).getLast? = some msg ∧ m'.hl = msg.state ∧
        e.time = msg.stamp := by
  obtain ⟨a, c, ms, ha, hc, -, rfl⟩ := Ros.call_some hc
  -- what remains once the newest state is known
  have fin : ∀ msg, (externalStates (os ++ [o])).getLast? = some msg →
      o.buffer m.hl = msg.state → c.Newest msg.stamp m.core.out →
      Ros.InStep (⟨c, o.buffer m.hl, m.sent ++ ms⟩ : Ros A W X C M T R) (os ++ [o]) ∧
      ∃ l, c.out = m.core.out ++ l ∧ ∀ e ∈ l, e.isUpdate = true →
      ∃ msg, (externalStates (os ++ [o])).getLast? = some msg ∧ o.buffer m.hl = msg.state ∧
        e.time = msg.stamp := by
    intro msg h1 h2 h3
    obtain ⟨l, hl1, hl2⟩ := h3.out
    exact ⟨fun _ _ => ⟨msg, h1, h2, h3.rebase⟩, l, hl1, fun e he _ => ⟨msg, h1, h2, hl2 e he⟩⟩
  -- nothing happens
  have same : c = m.core → ¬ (m.core.inited = true ∧ m.core.predMade = true) →
      Ros.InStep (⟨c, o.buffer m.hl, m.sent ++ ms⟩ : Ros A W X C M T R) (os ++ [o]) ∧
      ∃ l, c.out = m.core.out ++ l ∧ ∀ e ∈ l, e.isUpdate = true →
      ∃ msg, (externalStates (os ++ [o])).getLast? = some msg ∧ o.buffer m.hl = msg.state ∧
        e.time = msg.stamp := by
    rintro rfl hn
    exact ⟨fun hi hp => absurd ⟨hi, hp⟩ hn, [], by simp, by simp⟩
  cases o with
  | init t s => exact ho.elim
  | imu t u => exact ho.elim
  | meas x =>
    cases ha
    have hE : externalStates (os ++ [RosCall.meas x]) = externalStates os := by
      rw [externalStates_append]; simp [externalStates]
    by_cases hr : m.core.inited = true ∧ m.core.predMade = true
    · obtain ⟨msg, h1, h2, h3⟩ := h hr.1 hr.2
      exact fin msg (by rw [hE]; exact h1) h2 (h3.addMeasurement env x c hc)
    · refine same ?_ hr
      change Core.addMeasurement env K m.core x = _ at hc
      unfold Core.addMeasurement at hc
      rw [if_pos (by
        by_contra hcon
        push Not at hcon
        exact hr ⟨by simpa using hcon.1, by simpa using hcon.2⟩)] at hc
      cases hc; rfl
  | state msg =>
    have hE : externalStates (os ++ [RosCall.state msg]) = externalStates os ++ [msg] := by
      rw [externalStates_append]; rfl
    have hlast : (externalStates (os ++ [RosCall.state msg])).getLast? = some msg := by
      rw [hE]; simp
    simp only [RosCall.toApi, stateCallback] at ha
    split at ha
    · cases ha
    cases ha
    change Core.processExternal env K m.core msg.stamp msg.u _ = _ at hc
    rw [Core.processExternal_form] at hc
    by_cases hi : m.core.inited = false
    · rw [if_pos hi] at hc
      cases hc
      exact same rfl (by simp [hi])
    rw [if_neg hi] at hc
    have hi' : m.core.inited = true := by simpa using hi
    cases hl : m.core.states.last with
    | none =>
      rw [hl] at hc
      cases hc
      refine same rfl fun hr => ?_
      obtain ⟨msg', -, -, h3⟩ := h hr.1 hr.2
      obtain ⟨n, e, -⟩ := Core.last_of_top h3.sorted h3.top h3.le
      rw [hl] at e; cases e
    | some last =>
      rw [hl] at hc
      dsimp only at hc
      by_cases hv : last.key = invalidTime
      · rw [if_pos hv] at hc
        cases hc
        refine same rfl fun hr => ?_
        obtain ⟨msg', h1, -, h3⟩ := h hr.1 hr.2
        obtain ⟨n, e, e'⟩ := Core.last_of_top h3.sorted h3.top h3.le
        rw [hl] at e; cases e
        have := hpos msg' (by rw [hE]; exact List.mem_append_left _ (List.mem_of_getLast? h1))
        rw [← e', hv] at this
        norm_num [invalidTime] at this
      · rw [if_neg hv] at hc
        by_cases hp : m.core.predMade = false
        · by_cases hg : |msg.stamp - last.key| > 5
          · rw [if_pos ⟨hp, hg⟩] at hc
            cases hc
            exact ⟨fun _ hp' => by simp [hp] at hp', [], by simp, by simp⟩
          · rw [if_neg (fun h => hg h.2), if_pos hp] at hc
            refine fin msg hlast rfl ?_
            refine Core.Newest.extEnd (c := { m.core with
                lastAmExt := (Core.extInput K m.core msg.u).a, tP := msg.stamp, states := m.core.states.clear,
                meas := m.core.meas.clear, queue := [] }) ?_ ?_ ?_ env _ c hc
            · exact List.Pairwise.nil
            · intro n hn; cases hn
            · intro n hn; cases hn
        · rw [if_neg (fun h => hp h.1), if_neg hp] at hc
          obtain ⟨msg', h1, -, h3⟩ := h hi' (by simpa using hp)
          have hlt : msg'.stamp < msg.stamp := by
            rw [hE, List.map_append, List.pairwise_append] at hinc
            exact hinc.2.2 _ (List.mem_map.2 ⟨msg', List.mem_of_getLast? h1, rfl⟩) _ (by simp)
          refine fin msg hlast rfl ?_
          refine Core.Newest.extEnd (c := { m.core with lastAmExt := (Core.extInput K m.core msg.u).a }) h3.sorted ?_ ?_ env _ c hc
          · exact fun n hn => (h3.le n hn).trans hlt.le
          · exact fun n hn => (h3.meas n hn).trans hlt.le

/-- **C92, partial.**  Let the filter be initialized and then be fed with external states, with strictly
increasing positive stamps, and with measurements, in any order, late or early.  Then every message
sent on `correction` has the stamp of the last external state received, and the correction was computed
from that external state: the two states that are compared belong to the same time. -/
theorem C92_same_time_partial (env : Env) (K : Kernel A W X C M T E) (view : RosView R X E)
    (cfg : RosConf) (m0 : Ros A W X C M T R) (t0 : ℚ) (s0 : St A W X C)
    (os : List (RosCall A W X C M R)) (o : RosCall A W X C M R)
    (hext : ∀ o' ∈ os ++ [o], o'.isExternal)
    (hinc : ((externalStates (os ++ [o])).map (·.stamp)).Pairwise (· < ·))
    (hpos : ∀ msg ∈ externalStates (os ++ [o]), 0 < msg.stamp) (m1 m2 : Ros A W X C M T R)
    (h1 : m0.calls env K view cfg (.init t0 s0 :: os) = some m1)
    (h2 : m1.call env K view cfg o = some m2) :
    ∃ ms, m2.sent = m1.sent ++ ms ∧ ∀ c ∈ ms, ∃ msg, (externalStates (os ++ [o])).getLast? = some msg ∧
      m2.hl = msg.state ∧ c.stamp = msg.stamp := by
  obtain ⟨m, hm, h1⟩ := Option.bind_eq_some_iff.1 h1
  have hstep : ∀ (os' : List (RosCall A W X C M R)), (∃ os'', os' ++ os'' = os) →
      ∀ m', m.calls env K view cfg os' = some m' → m'.InStep os' := by
    intro os'
    induction os' using List.reverseRecOn with
    | nil =>
      intro _ m' hm'
      cases hm'
      obtain ⟨a, c, ms, ha, hc, -, rfl⟩ := Ros.call_some hm
      cases ha
      cases hc
      intro _ hp
      cases hp
    | append_singleton os' o' ih =>
      rintro ⟨os'', rfl⟩ m' hm'
      obtain ⟨m3, h3, h4⟩ := Ros.calls_append hm'
      have h4 : m3.call env K view cfg o' = some m' := by
        simpa [Ros.calls, Option.bind_some] using h4
      have hst := ih ⟨o' :: os'', by simp⟩ m3 h3
      have hE : externalStates (os' ++ [o'] ++ os'' ++ [o]) =
          externalStates (os' ++ [o']) ++ externalStates (os'' ++ [o]) := by
        rw [List.append_assoc, externalStates_append]
      refine (hst.call (hext o' (by simp)) ?_ ?_ h4).1
      · rw [hE, List.map_append, List.pairwise_append] at hinc
        exact hinc.1
      · intro msg hmsg
        exact hpos msg (by rw [hE]; exact List.mem_append_left _ hmsg)
  have hst := hstep os ⟨[], by simp⟩ m1 h1
  obtain ⟨-, l, hl1, hl2⟩ := hst.call (hext o (by simp)) hinc hpos h2
  have hg := Ros.call_grows h2 (hext o (by simp))
  obtain ⟨a, c, ms, ha, hc, hp, rfl⟩ := Ros.call_some h2
  refine ⟨ms, rfl, ?_⟩
  intro cm hcm
  obtain ⟨e, he, hu, hs⟩ := publish_stamp _ hp cm hcm
  have hni := hg.drop e he
  rw [hl1, List.drop_left] at he
  have hu : e.isUpdate = true := hu.resolve_right (by simp [hni])
  obtain ⟨msg, e1, e2, e3⟩ := hl2 e he hu
  exact ⟨msg, e1, e2, hs.trans e3⟩

/-! ### C93: corrections are numbers -/

/-- **C93, partial.**  If every external state received has at least 16 entries, all of them numbers,
then so are all entries of every correction that is sent, in every run. -/
theorem C93_numbers_partial (env : Env) (K : Kernel A W X C M T E) (view : RosView R X E)
    (cfg : RosConf) (os : List (RosCall A W X C M R))
    (hos : ∀ msg, RosCall.state msg ∈ os → ∀ i < 16, ∃ r, msg.state[i]? = some (some r))
    (m0 m : Ros A W X C M T R) (h0 : ∀ i < 16, ∃ r, m0.hl[i]? = some (some r)) (hs : m0.sent = [])
    (hm : m0.calls env K view cfg os = some m) :
    ∀ c ∈ m.sent, c.flag = .stateCorrection → ∀ i, (c.state i).isSome = true := by
  suffices ∀ c ∈ m.sent.drop m0.sent.length, c.flag = .stateCorrection →
      ∀ i, (c.state i).isSome = true by
    rw [hs] at this
    exact this
  clear hs
  suffices ∃ l, m.sent = m0.sent ++ l ∧ ∀ c ∈ l, c.flag = .stateCorrection →
      ∀ i, (c.state i).isSome = true by
    obtain ⟨l, h1, h2⟩ := this
    rw [h1, List.drop_left]
    exact h2
  induction os generalizing m0 with
  | nil => cases hm; exact ⟨[], by simp, by simp⟩
  | cons o os ih =>
    obtain ⟨m1, h1, h2⟩ := Option.bind_eq_some_iff.1 hm
    obtain ⟨a, c, ms, ha, hc, hp, rfl⟩ := Ros.call_some h1
    have hb : ∀ i < 16, ∃ r, (o.buffer m0.hl)[i]? = some (some r) := by
      cases o with
      | state msg => exact hos msg (List.mem_cons_self ..)
      | init => exact h0
      | imu => exact h0
      | meas => exact h0
    obtain ⟨l, e1, e2⟩ := ih (fun msg hmsg => hos msg (List.mem_cons_of_mem _ hmsg)) _ hb h2
    refine ⟨ms ++ l, by rw [e1, List.append_assoc], ?_⟩
    intro cm hcm hf
    rcases List.mem_append.1 hcm with hcm | hcm
    · obtain ⟨-, s, hst⟩ := publish_correction _ hp cm hcm hf
      have hb' : ∀ i < 16, ∃ r, msgEntry (o.buffer m0.hl) i = some r := by
        intro i hi
        obtain ⟨r, hr⟩ := hb i hi
        exact ⟨r, by rw [msgEntry, hr]; rfl⟩
      intro i
      rw [hst]
      have hq : (corrQuat (msgEntry (o.buffer m0.hl)) s).isSome = true := by
        obtain ⟨a, ha⟩ := hb' 6 (by norm_num)
        obtain ⟨b, hb⟩ := hb' 7 (by norm_num)
        obtain ⟨c, hc⟩ := hb' 8 (by norm_num)
        obtain ⟨d, hd⟩ := hb' 9 (by norm_num)
        simp [corrQuat, num4, ha, hb, hc, hd]
      obtain ⟨r, hr⟩ := hb' i i.2
      unfold corrEntries
      split
      · rw [Option.isSome_map]; exact hq
      · split
        · rw [Option.isSome_map]; exact hq
        · split
          · rw [Option.isSome_map]; exact hq
          · split
            · rw [Option.isSome_map]; exact hq
            · rw [hr]; rfl
    · exact e2 cm hcm hf

end

/-! ### The shipped filters: C90 and C94 -/

section
open EKFState
variable {aux : List VarDesc}

/-- Callbacks of a shipped filter. -/
abbrev FilterCall (aux : List VarDesc) : Type :=
  RosCall (V3 ℝ) (V3 ℝ) (Option (Values (coreDef aux))) (Option (ErrMat ℝ (coreDef aux))) Reading ℝ

/-- The manager of a shipped filter. -/
abbrev FilterRos (aux : List VarDesc) : Type :=
  Ros (V3 ℝ) (V3 ℝ) (Option (Values (coreDef aux))) (Option (ErrMat ℝ (coreDef aux))) Reading
    (Tracker ℝ) ℝ

/-- **C90 (usable external states).**  In a running filter an external state that is flagged as current
and whose first ten entries are numbers (the attitude not zero) is what the filter publishes for its
time: its position and velocity, its attitude normalized, and everything else as in the last state. -/
theorem C90_used (np : NoiseParams ℝ (coreDef aux)) (uc : UserCalc (coreDef aux)) (env : Env)
    (b : Bool) (m m' : FilterRos aux) (msg : ExtMsg (V3 ℝ) (V3 ℝ) ℝ) (hf : msg.flag = currentState)
    (n : Nat → ℝ) (hn : ∀ i < 10, msg.state[i]? = some (some (n i)))
    (q : Quat ℝ) (hq : (⟨n 6, n 7, n 8, n 9⟩ : Quat ℝ).normalize = some q)
    (hi : m.core.inited = true) (hp : m.core.predMade = true)
    (last : Node (St (V3 ℝ) (V3 ℝ) (Option (Values (coreDef aux))) (Option (ErrMat ℝ (coreDef aux)))))
    (hl : m.core.states.last = some last) (hl0 : 0 < last.key) (v : Values (coreDef aux))
    (hv : last.val.x = some v)
    (h : m.call env (rosKernel np uc) filterView ⟨false, b⟩ (.state msg) = some m') :
    ∃ w P l, m'.core.out = m.core.out ++ .afterPropagation msg.stamp (some w) P :: l ∧
      coreStateOf (toVars w) = ⟨![n 0, n 1, n 2], ![n 3, n 4, n 5], q, EKFState.b_w (toVars v),
        EKFState.b_a (toVars v)⟩ ∧ q.normSq = 1 ∧
      ∀ i : Fin (coreDef aux).length, 3 ≤ i.val → w i = v i := by
  obtain ⟨P, l, e⟩ := used_event env (rosKernel np uc) filterView b m m' msg hf n hn hi hp last hl hl0 h
  refine ⟨values (setQ (setV (setP (toVars v) ![n 0, n 1, n 2]) ![n 3, n 4, n 5]) q), P, l, ?_, ?_,
    (normalize_scale hq).1, ?_⟩
  · rw [e]
    simp only [rosKernel, filterView, hq, hv, Option.map_some, Option.bind_some]
    rfl
  · have e1 : EKFState.b_w (toVars (values (setQ (setV (setP (toVars v) ![n 0, n 1, n 2])
        ![n 3, n 4, n 5]) q))) = EKFState.b_w (toVars v) :=
      ext_other v ⟨![n 0, n 1, n 2], ![n 3, n 4, n 5], q⟩ ibw (by simp [ibw, ip, Fin.ext_iff])
        (by simp [ibw, iv, Fin.ext_iff]) (by simp [ibw, iq, Fin.ext_iff])
    have e2 : EKFState.b_a (toVars (values (setQ (setV (setP (toVars v) ![n 0, n 1, n 2])
        ![n 3, n 4, n 5]) q))) = EKFState.b_a (toVars v) :=
      ext_other v ⟨![n 0, n 1, n 2], ![n 3, n 4, n 5], q⟩ iba (by simp [iba, ip, Fin.ext_iff])
        (by simp [iba, iv, Fin.ext_iff]) (by simp [iba, iq, Fin.ext_iff])
    unfold coreStateOf
    rw [e1, e2]
    have f : ∀ s : Vars ℝ (coreDef aux), EKFState.p (toVars (values s)) = EKFState.p s ∧
      EKFState.v (toVars (values s)) = EKFState.v s ∧ EKFState.q (toVars (values s)) = EKFState.q s :=
      fun s => ⟨rfl, rfl, rfl⟩
    rw [(f _).1, (f _).2.1, (f _).2.2, q_setQ, v_setQ, v_setV, p_setQ, p_setV, p_setP]
  · intro i hi
    refine ext_other v ⟨![n 0, n 1, n 2], ![n 3, n 4, n 5], q⟩ i ?_ ?_ ?_
    · rintro rfl; exact absurd hi (by simp)
    · rintro rfl; exact absurd hi (by simp)
    · rintro rfl; exact absurd hi (by simp)

/-- **C94.**  Whatever attitudes the external estimator sends, in every run every quaternion of every
buffered or published state is a unit quaternion (given a start with unit quaternions). -/
theorem C94_unit_quaternions (np : NoiseParams ℝ (coreDef aux)) (uc : UserCalc (coreDef aux))
    (hn : ∀ i (hi : i < (coreDef aux).length), (coreDef aux)[i].name = i)
    (hp : PlainQuats (coreDef aux)) (ha : ∀ d ∈ aux, d.isAux)
    (huc : ∀ a b c, UnitQuats a → UnitQuats (uc.sanity a b c)) (env : Env) (cfg : RosConf)
    (os : List (FilterCall aux))
    (hi : ∀ t s, RosCall.init t s ∈ os → ∀ v, s.x = some v → UnitQuats (toVars v))
    (m : FilterRos aux)
    (hm : (Ros.new (rosKernel np uc)).calls env (rosKernel np uc) filterView cfg os = some m)
    (v : Values (coreDef aux)) (hv : m.core.Shown v) :
    ∀ (i : Fin (coreDef aux).length) (q : Quat ℝ), quatOf _ (v i) = some q → q.normSq = 1 := by
  have hK := readingKernel_inv np uc (fun v => UnitQuats (toVars v)) (fun _ => True) (fun _ => True)
    (fun e => e.q.normSq = 1) (fun s new s' h e => (propagate_keeps ha h e (le_refl 5)).2)
    (fun x e h1 h2 => ext_unit e h1 h2) (fun _ _ _ _ _ _ _ _ => trivial)
    (fun m tr x P u _ h _ e => ⟨by
      obtain ⟨P1, H, r, -, -, -, h1 | ⟨c, P', t', vars, fz, -, hc, rfl⟩⟩ := sensorUpdate_cases e
      · rw [h1.2]; exact h
      · have := applyCorrection_unit hn hp h huc hc
        exact this, trivial⟩) trivial
  have hK' : KernelInv (rosKernel np uc) (Sane fun v => UnitQuats (toVars v)) (Sane fun _ => True)
      (fun _ => True) (fun e => ∀ e', e = some e' → e'.q.normSq = 1) :=
    ⟨hK.prop, fun e x h1 h2 w hw => by
        obtain ⟨e', rfl, hw⟩ := Option.bind_eq_some_iff.1 hw
        exact hK.extProp e' x (h1 e' rfl) h2 w hw, hK.predP, hK.update, hK.P0⟩
  obtain ⟨as, has, hc⟩ := Ros.calls_apis hm
  have hmeets : ∀ a ∈ as, a.Meets (Sane fun v => UnitQuats (toVars v)) (Sane fun _ => True)
      (fun _ => True) (fun e => ∀ e', e = some e' → e'.q.normSq = 1) := by
    clear hm hc hv
    induction has with
    | nil => intro a h; cases h
    | @cons o a os as hoa _ ih =>
      intro a' ha'
      rcases List.mem_cons.1 ha' with rfl | ha'
      · cases o with
        | init t s =>
          cases hoa
          exact ⟨fun v hv => hi t s (List.mem_cons_self ..) v hv, fun _ _ => trivial⟩
        | imu t u => cases hoa; trivial
        | meas x => cases hoa; trivial
        | state msg =>
          simp only [RosCall.toApi, stateCallback] at hoa
          split at hoa
          · cases hoa
          cases hoa
          intro e he e' hee
          by_cases hfl : (if cfg.playback = true then ignoreState else msg.flag) = currentState
          · rw [if_pos hfl] at he
            simp only [Option.bind_eq_bind] at he
            obtain ⟨p, -, he⟩ := Option.bind_eq_some_iff.1 he
            obtain ⟨w, -, he⟩ := Option.bind_eq_some_iff.1 he
            obtain ⟨q, -, he⟩ := Option.bind_eq_some_iff.1 he
            cases he
            obtain ⟨q', hq', rfl⟩ := Option.map_eq_some_iff.1 hee
            exact (normalize_scale hq').1
          · rw [if_neg hfl] at he
            cases he
      · exact ih (fun t s h => hi t s (List.mem_cons_of_mem _ h)) a' ha'
  have key := hK'.run env as hmeets m.core hc
  rcases hv with ⟨n, hn, e⟩ | ⟨e, hn, e'⟩
  · exact (key.1 n hn).1 v e
  · exact (key.2 e hn).1 v e'

/-- The same callback up to the length of the attitude. -/
inductive SameAttitude : FilterCall aux → FilterCall aux → Prop
  | same (o) : SameAttitude o o
  | state (m m') (k : ℝ) : 0 < k → m.stamp = m'.stamp → m.u = m'.u → m.flag = m'.flag →
      m.state.length = m'.state.length →
      (∀ i < 6, msgEntry m'.state i = msgEntry m.state i) →
      (∀ i, 6 ≤ i → i < 10 → msgEntry m'.state i = (msgEntry m.state i).map (k * ·)) →
      SameAttitude (.state m) (.state m')

theorem normalize_mul (k : ℝ) (hk : 0 < k) (q : Quat ℝ) :
    (⟨k * q.w, k * q.x, k * q.y, k * q.z⟩ : Quat ℝ).normalize = q.normalize := by
  have h : (⟨k * q.w, k * q.x, k * q.y, k * q.z⟩ : Quat ℝ).normSq = k ^ 2 * q.normSq := by
    simp only [Quat.normSq]; ring
  have h2 : Real.sqrt (k ^ 2 * q.normSq) = k * Real.sqrt q.normSq := by
    rw [Real.sqrt_mul (sq_nonneg k), Real.sqrt_sq hk.le]
  unfold Quat.normalize
  rw [h, h2]
  by_cases hz : Real.sqrt q.normSq = 0
  · simp [hz]
  · have : k * Real.sqrt q.normSq ≠ 0 := mul_ne_zero hk.ne' hz
    simp only [if_neg this, if_neg hz, mul_div_mul_left _ _ hk.ne']

theorem SameAttitude.toApi {o o' : FilterCall aux} (h : SameAttitude o o') (pl : Bool) :
    o.toApi pl filterView = o'.toApi pl filterView := by
  cases h with
  | same => rfl
  | state m m' k hk h1 h2 h3 h4 h5 h6 =>
    have e3 : ∀ i, i + 2 < 6 → num3 (msgEntry m'.state) i = num3 (msgEntry m.state) i := by
      intro i hi
      simp only [num3, h5 i (by omega), h5 (i + 1) (by omega), h5 (i + 2) (by omega)]
    have e4 : num4 (msgEntry m'.state) 6 = (num4 (msgEntry m.state) 6).map
        fun q => ⟨k * q.w, k * q.x, k * q.y, k * q.z⟩ := by
      simp only [num4, h6 6 (by norm_num) (by norm_num), h6 (6 + 1) (by norm_num) (by norm_num),
        h6 (6 + 2) (by norm_num) (by norm_num), h6 (6 + 3) (by norm_num) (by norm_num)]
      cases msgEntry m.state 6 <;> [rfl; skip]
      cases msgEntry m.state (6 + 1) <;> [rfl; skip]
      cases msgEntry m.state (6 + 2) <;> [rfl; skip]
      cases msgEntry m.state (6 + 3) <;> rfl
    simp only [RosCall.toApi, stateCallback, h1, h2, h3, h4, e3 0 (by norm_num), e3 3 (by norm_num), e4]
    cases num4 (msgEntry m.state) 6 with
    | none => rfl
    | some q =>
      simp only [Option.map_some, Option.bind_eq_bind, Option.bind_some, filterView, normalize_mul k hk q]

/-- **C94 (the length of the attitude).**  Multiplying the attitudes the external estimator sends with
positive factors changes no state of the filter in any run. -/
theorem C94_length (np : NoiseParams ℝ (coreDef aux)) (uc : UserCalc (coreDef aux)) (env : Env)
    (cfg : RosConf) (os os' : List (FilterCall aux)) (h : List.Forall₂ SameAttitude os os')
    (m0 m0' m m' : FilterRos aux) (h0 : m0.core = m0'.core)
    (hm : m0.calls env (rosKernel np uc) filterView cfg os = some m)
    (hm' : m0'.calls env (rosKernel np uc) filterView cfg os' = some m') : m.core = m'.core := by
  obtain ⟨as, has, hc⟩ := Ros.calls_apis hm
  obtain ⟨as', has', hc'⟩ := Ros.calls_apis hm'
  have : as = as' := by
    clear hm hm' hc hc'
    induction h generalizing as as' with
    | nil => cases has; cases has'; rfl
    | cons ho _ ih =>
      cases has with
      | cons ha hr =>
        cases has' with
        | cons ha' hr' =>
          rw [ho.toApi, ha'] at ha
          rw [Option.some.inj ha, ih _ hr _ hr']
  rw [this, h0, hc'] at hc
  exact (Except.ok.inj hc).symm

/-- **C94 is violated: zero.**  An external state with attitude zero, which is a number, is used all the
same; it cannot be normalized, and the filter publishes a state that is not a number. -/
theorem C94_zero_violated (np : NoiseParams ℝ (coreDef aux)) (uc : UserCalc (coreDef aux)) (env : Env)
    (b : Bool) (m m' : FilterRos aux) (msg : ExtMsg (V3 ℝ) (V3 ℝ) ℝ) (hf : msg.flag = currentState)
    (n : Nat → ℝ) (hn : ∀ i < 10, msg.state[i]? = some (some (n i)))
    (hz : n 6 = 0 ∧ n 7 = 0 ∧ n 8 = 0 ∧ n 9 = 0)
    (hi : m.core.inited = true) (hp : m.core.predMade = true)
    (last : Node (St (V3 ℝ) (V3 ℝ) (Option (Values (coreDef aux))) (Option (ErrMat ℝ (coreDef aux)))))
    (hl : m.core.states.last = some last) (hl0 : 0 < last.key)
    (h : m.call env (rosKernel np uc) filterView ⟨false, b⟩ (.state msg) = some m') :
    ∃ P l, m'.core.out = m.core.out ++ .afterPropagation msg.stamp none P :: l := by
  obtain ⟨P, l, e⟩ := used_event env (rosKernel np uc) filterView b m m' msg hf n hn hi hp last hl hl0 h
  refine ⟨P, l, ?_⟩
  rw [e]
  simp only [rosKernel, filterView, hz.1, hz.2.1, hz.2.2.1, hz.2.2.2, Quat.normalize, Quat.normSq,
    mul_zero, add_zero, Real.sqrt_zero, if_true, Option.map_none, Option.bind_none]

end

/-! ### Runs of a small filter -/

namespace ExtDemo

/-- The scalar filter of `Demo`, with external states. -/
def K : Kernel ℚ ℚ ℚ ℚ ℚ Unit ℚ where
  prop := Demo.K.prop
  extProp e _ := e
  predP := Demo.K.predP
  update := Demo.K.update
  P0 := 0
  tr0 := ()
  spike := Demo.K.spike
  numX _ := true
  numPos _ := true

/-- A state with position `x` along the first axis. -/
def at_ (x : ℚ) : CoreState ℚ := ⟨![x, 0, 0], 0, Quat.one, 0, 0⟩

instance : DecidableEq (CoreState ℚ) := fun a b =>
  decidable_of_iff (a.p = b.p ∧ a.v = b.v ∧ a.q = b.q ∧ a.b_w = b.b_w ∧ a.b_a = b.b_a) (by
    cases a; cases b; simp)

def view : RosView ℚ ℚ ℚ := ⟨fun x => some (at_ x), fun p _ _ => p 0⟩

abbrev Call : Type := RosCall ℚ ℚ ℚ ℚ ℚ ℚ

def ext (t x : ℚ) : Call := .state ⟨t, ⟨0, 0⟩, (at_ x).message, currentState⟩
def meas (t z : ℚ) : Call := .meas ⟨t, 0, z⟩
def imu (t a : ℚ) : Call := .imu t ⟨a, 0⟩

def run (os : List Call) : Option (Ros ℚ ℚ ℚ ℚ ℚ Unit ℚ) :=
  (Ros.new K).calls Demo.env K view ⟨false, true⟩ os

/-- The filter running on external states. -/
def started : List Call := [.init 1 Demo.s0, ext (21/20) 1]

/-- Numbers of a run: buffered times and means; stamp and first entry of what was sent. -/
def shown (r : Option (Ros ℚ ℚ ℚ ℚ ℚ Unit ℚ)) :
    Option (List (ℚ × ℚ) × List (ℚ × Option ℚ)) :=
  r.map fun m => (m.core.states.nodes.map fun n => (n.key, n.val.x),
    m.sent.map fun c => (c.stamp, c.state 0))

end ExtDemo

open ExtDemo in
/-- The hypotheses of C90 (unusable) are met: two sequences that differ in the contents of a message
that says `ignore_state`. -/
example : ∃ m, run (started ++ [.state ⟨11/10, ⟨0, 0⟩, (at_ 2).message, ignoreState⟩]) = some m ∧
    List.Forall₂ (SameButUnusable false)
      (started ++ [.state ⟨11/10, ⟨0, 0⟩, (at_ 2).message, ignoreState⟩])
      (started ++ [.state ⟨11/10, ⟨0, 0⟩, List.replicate 16 none, ignoreState⟩]) := by
  refine ⟨_, (Option.eq_some_of_isSome (by decide +kernel)), ?_⟩
  refine .cons (.same _) (.cons (.same _) (.cons (.state _ _ rfl rfl (.inr (.inl ?_))
    (.inr (.inl ?_)) ?_ ?_) .nil))
  all_goals decide

open ExtDemo in
/-- **C90 is violated: late measurements.**  An external state that was used, and published, is lost
when a measurement older than it arrives: the states from the measurement on are propagated again,
with the IMU readings only.  The external positions 2 and 100 give the same states. -/
theorem C90_late_violated :
    (shown (run (started ++ [ext (11/10) 2]))).map (·.1) = some [(21/20, 1), (11/10, 2)] ∧
    (shown (run (started ++ [ext (11/10) 100]))).map (·.1) = some [(21/20, 1), (11/10, 100)] ∧
    (shown (run (started ++ [ext (11/10) 2, meas (21/20) 2]))).map (·.1) =
      some [(21/20, 3/2), (11/10, 3/2)] ∧
    (shown (run (started ++ [ext (11/10) 100, meas (21/20) 2]))).map (·.1) =
      some [(21/20, 3/2), (11/10, 3/2)] := by
  decide +kernel

open ExtDemo in
/-- C91 with one update: the external estimator at 2 gets the correction and is at 103/41, as the
filter. -/
example : ∃ m0 m, run started = some m0 ∧
    m0.calls Demo.env K view ⟨false, true⟩
      (.state ⟨11/10, ⟨0, 0⟩, (at_ 2).message, currentState⟩ :: [⟨11/10, 0, 3⟩].map .meas) = some m ∧
    (at_ 2).receiveAll (m.sent.drop m0.sent.length) = some (at_ (103/41)) := by
  refine ⟨_, _, Option.eq_some_of_isSome (by decide +kernel),
    Option.eq_some_of_isSome (by decide +kernel), ?_⟩
  refine C91_one_update_partial Demo.env K view _ _ (at_ 2) (by intro h; cases h) (11/10) ⟨0, 0⟩
    currentState [⟨11/10, 0, 3⟩] (Option.eq_some_of_isSome (by decide +kernel)) _ ?_
  decide +kernel

open ExtDemo in
/-- Two updates: the filter is at 83/31, the external estimator at 4069/1271. -/
example : ∃ m0 m x₁ x₂, run started = some m0 ∧
    m0.calls Demo.env K view ⟨false, true⟩
      (.state ⟨11/10, ⟨0, 0⟩, (at_ 2).message, currentState⟩ ::
        [⟨11/10, 0, 3⟩, ⟨11/10, 0, 4⟩].map .meas) = some m ∧
    updates view (m.core.out.drop m0.core.out.length) = [x₁, x₂] ∧ x₁.p ≠ (at_ 2).p ∧
    (at_ 2).receiveAll (m.sent.drop m0.sent.length) = some (at_ (2 + (103/41 - 2) + (83/31 - 2))) := by
  refine ⟨_, _, at_ (103/41), at_ (83/31), Option.eq_some_of_isSome (by decide +kernel),
    Option.eq_some_of_isSome (by decide +kernel), ?_⟩
  decide +kernel

open ExtDemo in
/-- C92: external states and measurements, one of them late. -/
example : ∃ m1 m2, (Ros.new K).calls Demo.env K view ⟨false, true⟩
      (.init 1 Demo.s0 :: [ext (21/20) 1, ext (22/20) 2, meas (22/20) 3]) = some m1 ∧
    m1.call Demo.env K view ⟨false, true⟩ (meas (21/20) 2) = some m2 ∧
    (m2.sent.drop m1.sent.length).map (·.stamp) = [22/20] ∧
    (∀ o' ∈ ([ext (21/20) 1, ext (22/20) 2, meas (22/20) 3] ++ [meas (21/20) 2] : List Call),
      o'.isExternal) ∧
    ((externalStates ([ext (21/20) 1, ext (22/20) 2, meas (22/20) 3] ++ [meas (21/20) 2])).map
      (·.stamp)).Pairwise (· < ·) ∧
    ∀ msg ∈ externalStates ([ext (21/20) 1, ext (22/20) 2, meas (22/20) 3] ++ [meas (21/20) 2]),
      0 < msg.stamp := by
  refine ⟨_, _, Option.eq_some_of_isSome (by decide +kernel),
    Option.eq_some_of_isSome (by decide +kernel), by decide +kernel, ?_, by decide +kernel,
    by decide +kernel⟩
  intro o' ho
  simp only [List.cons_append, List.nil_append, List.mem_cons, List.not_mem_nil, or_false] at ho
  rcases ho with rfl | rfl | rfl | rfl <;> trivial

open ExtDemo in
/-- C93: a run in which a correction is sent, and the external states are numbers. -/
example : ∃ m, run (started ++ [ext (11/10) 2, meas (11/10) 3]) = some m ∧
    m.sent.map (·.flag) = [.initialization, .stateCorrection] ∧
    ∀ msg, RosCall.state msg ∈ started ++ [ext (11/10) 2, meas (11/10) 3] →
      ∀ i < 16, ∃ r, msg.state[i]? = some (some r) := by
  refine ⟨_, Option.eq_some_of_isSome (by decide +kernel), by decide +kernel, ?_⟩
  intro msg hm
  simp only [started, ext, meas, List.cons_append, List.nil_append, List.mem_cons, List.not_mem_nil,
    or_false, reduceCtorEq, RosCall.state.injEq, false_or] at hm
  rcases hm with rfl | rfl <;>
  · intro i hi
    exact ⟨_, by simp only [CoreState.message, List.getElem?_ofFn, dif_pos hi]; rfl⟩

open ExtDemo in
/-- **C92 is violated: IMU messages and external states.**  If IMU messages arrive as well, a
correction may compare the state of the filter with an external state of an earlier time. -/
theorem C92_imu_violated :
    (shown (run [.init 1 Demo.s0, imu (21/20) 0, imu (22/20) 0, imu (23/20) 0, imu (24/20) 0,
      ext (25/20) 2, imu (26/20) 0, meas (26/20) 3])).map (·.2) =
      some [(1, some 0), (26/20, some (39/23 - 2))] := by
  decide +kernel

open ExtDemo in
/-- **C93 is violated: ignored messages.**  A message that says `ignore_state` and contains NaN is not
used by the filter, but the next correction is computed from it and is NaN. -/
theorem C93_nan_violated :
    ∃ m c, run (started ++ [.state ⟨11/10, ⟨0, 0⟩, List.replicate 16 none, ignoreState⟩,
      meas (11/10) 3]) = some m ∧ m.sent.getLast? = some c ∧ c.flag = .stateCorrection ∧
      ∀ i, c.state i = none := by
  refine ⟨_, _, Option.eq_some_of_isSome (by decide +kernel),
    Option.eq_some_of_isSome (by decide +kernel), ?_⟩
  decide +kernel

/-! ### A run of a shipped filter on external states -/

section
variable [AddCommGroup A] [Module ℚ A] [AddCommGroup W] [Module ℚ W]

/-- Flags, times and means after calls. -/
def obs (r : Except UB (Core A W X C M T)) : Option (Bool × Bool × List (ℚ × X)) :=
  match r with
  | .ok c => some (c.inited, c.predMade, c.states.nodes.map fun n => (n.key, n.val.x))
  | .error _ => none

theorem ext_run (env : Env) (K : Kernel A W X C M T E) (s : St A W X C) (u : Input A W) (e : E) :
    obs (Core.apis env K (Core.new K) [.init 1 s, .ext (21/20) u (some e)]) =
      some (true, true, [(21/20, K.extProp e s.x)]) := by
  norm_num [obs, Core.apis, Core.api, Core.init, Core.new, Core.processExternal_form, Core.extEnd,
    Core.propagatePOneStep, Core.published, Core.handlePending, Buf.insert, Buf.clear, Buf.last,
    Buf.iterAtValue, Buf.incr, Buf.deref, Buf.find, invalidTime, Core.extMean, insertNode, Node.iter,
    Buf.toIter, Buf.upperBound, Buf.lowerBound, Core.predictCov, Buf.modify, bind, Except.bind, pure,
    Except.pure, Functor.map, Except.map, lt_abs]

theorem ext_run2 (env : Env) (K : Kernel A W X C M T E) (hK : ∀ x, K.numPos x = true)
    (s : St A W X C) (u v : Input A W) (e e' : E) :
    obs (Core.apis env K (Core.new K) [.init 1 s, .ext (21/20) u (some e),
      .ext (22/20) v (some e')]) =
      some (true, true, [(21/20, K.extProp e s.x), (22/20, K.extProp e' (K.extProp e s.x))]) := by
  cases K
  simp only at hK
  obtain rfl := funext hK
  norm_num [obs, Core.apis, Core.api, Core.init, Core.new, Core.processExternal_form, Core.extEnd,
    Core.propagatePOneStep, Core.published, Core.handlePending, Buf.insert, Buf.clear, Buf.last,
    Buf.iterAtValue, Buf.incr, Buf.deref, Buf.find, invalidTime, Core.extMean, insertNode, Node.iter,
    Buf.toIter, Buf.upperBound, Buf.lowerBound, Core.predictCov, Buf.modify, bind, Except.bind, pure,
    Except.pure, Functor.map, Except.map, lt_abs]
  rw [if_neg (by intro h; cases h)]
  norm_num [obs, Core.apis, Core.api, Core.init, Core.new, Core.processExternal_form, Core.extEnd,
    Core.propagatePOneStep, Core.published, Core.handlePending, Buf.insert, Buf.clear, Buf.last,
    Buf.iterAtValue, Buf.incr, Buf.deref, Buf.find, invalidTime, Core.extMean, insertNode, Node.iter,
    Buf.toIter, Buf.upperBound, Buf.lowerBound, Core.predictCov, Buf.modify, bind, Except.bind, pure,
    Except.pure, Functor.map, Except.map, lt_abs]

theorem apis_three (env : Env) (K : Kernel A W X C M T E) (c : Core A W X C M T)
    (a₁ a₂ a₃ : Api A W X C M E) : Core.apis env K c [a₁, a₂, a₃] =
      Core.apis env K c [a₁, a₂] >>= fun c => Core.api env K c a₃ := by
  simp only [Core.apis, bind, Except.bind]
  cases Core.api env K c a₁ with
  | error e => rfl
  | ok c1 =>
    dsimp only
    cases Core.api env K c1 a₂ with
    | error e => rfl
    | ok c2 =>
      dsimp only
      cases Core.api env K c2 a₃ <;> rfl

variable [Field R] [LinearOrder R]

omit [AddCommGroup A] [Module ℚ A] [AddCommGroup W] [Module ℚ W] in
theorem publish_disconnected (pl : Bool) (view : RosView R X E) (hl : List (Option R))
    (es : List (Event X C)) : ∃ ms, publish ⟨pl, false⟩ view hl es = some ms := by
  induction es with
  | nil => exact ⟨[], rfl⟩
  | cons e es ih =>
    obtain ⟨ms, h⟩ := ih
    cases e with
    | initial t x P => exact ⟨_, by rw [publish, h]; rfl⟩
    | afterPropagation t x P => exact ⟨ms, h⟩
    | afterUpdate t x P =>
      refine ⟨_, by
        rw [publish, h]
        simp only [updateMsg, if_true, Option.bind_some]
        rfl⟩

theorem Ros.calls_of_apis {env : Env} {K : Kernel A W X C M T E} {view : RosView R X E} {pl : Bool}
    {os : List (RosCall A W X C M R)} {as : List (Api A W X C M E)}
    (h : List.Forall₂ (fun o a => o.toApi pl view = some a) os as) (m : Ros A W X C M T R)
    {c : Core A W X C M T} (hc : Core.apis env K m.core as = .ok c) :
    ∃ m', m.calls env K view ⟨pl, false⟩ os = some m' ∧ m'.core = c := by
  induction h generalizing m with
  | nil => cases hc; exact ⟨m, rfl, rfl⟩
  | @cons o a os as ho _ ih =>
    rw [Core.apis] at hc
    cases h1 : Core.api env K m.core a with
    | error e => rw [h1] at hc; cases hc
    | ok c1 =>
      rw [h1] at hc
      obtain ⟨ms, hp⟩ := publish_disconnected pl view (o.buffer m.hl) (c1.out.drop m.core.out.length)
      have hcall := Ros.call_of (m := m) (cfg := ⟨pl, false⟩) ho h1 hp
      obtain ⟨m', e1, e2⟩ := ih ⟨c1, o.buffer m.hl, m.sent ++ ms⟩ hc
      exact ⟨m', by simp only [Ros.calls, hcall, Option.bind_some, e1], e2⟩

end

/-- A message of an external estimator at `p` with attitude `(a, 0, 0, 0)`. -/
def extAt (t : ℚ) (u : Input (V3 ℝ) (V3 ℝ)) (p a : ℝ) : ExtMsg (V3 ℝ) (V3 ℝ) ℝ :=
  ⟨t, u, (⟨![p, 0, 0], 0, ⟨a, 0, 0, 0⟩, 0, 0⟩ : CoreState ℝ).message, currentState⟩

/-- The numbers of `extAt`. -/
def extNum (p a : ℝ) (i : Nat) : ℝ := if i = 0 then p else if i = 6 then a else 0

theorem extAt_num (t : ℚ) (u : Input (V3 ℝ) (V3 ℝ)) (p a : ℝ) :
    ∀ i < 10, (extAt t u p a).state[i]? = some (some (extNum p a i)) := by
  intro i hi
  have : i = 0 ∨ i = 1 ∨ i = 2 ∨ i = 3 ∨ i = 4 ∨ i = 5 ∨ i = 6 ∨ i = 7 ∨ i = 8 ∨ i = 9 := by omega
  rcases this with rfl | rfl | rfl | rfl | rfl | rfl | rfl | rfl | rfl | rfl <;>
  · simp only [extAt, CoreState.message, List.getElem?_ofFn]
    rfl

/-- The pose filter runs on external states. -/
theorem filter_started (np : NoiseParams ℝ (coreDef poseAux)) (env : Env)
    (u : Input (V3 ℝ) (V3 ℝ)) (p a p' a' : ℝ) :
    ∃ m m' : FilterRos poseAux,
      (Ros.new (rosKernel np (scaleCalc true))).calls env (rosKernel np (scaleCalc true)) filterView
        ⟨false, false⟩ [.init 1 ⟨u, some (values (scaleState 2)), some 1⟩,
          .state (extAt (21/20) u p a)] = some m ∧
      m.call env (rosKernel np (scaleCalc true)) filterView ⟨false, false⟩
        (.state (extAt (22/20) u p' a')) = some m' ∧
      m.core.inited = true ∧ m.core.predMade = true ∧
      ∃ last, m.core.states.last = some last ∧ last.key = 21/20 ∧
        last.val.x = (rosKernel np (scaleCalc true)).extProp
          ((filterView (aux := poseAux)).ext ![p, 0, 0] 0 ⟨a, 0, 0, 0⟩)
          (some (values (scaleState 2))) := by
  have key := ext_run env (rosKernel np (scaleCalc true)) ⟨u, some (values (scaleState 2)), some 1⟩ u
    ((filterView (aux := poseAux)).ext ![p, 0, 0] ![0, 0, 0] ⟨a, 0, 0, 0⟩)
  have key2 := ext_run2 env (rosKernel np (scaleCalc true)) (fun _ => rfl)
    ⟨u, some (values (scaleState 2)), some 1⟩ u u
    ((filterView (aux := poseAux)).ext ![p, 0, 0] ![0, 0, 0] ⟨a, 0, 0, 0⟩)
    ((filterView (aux := poseAux)).ext ![p', 0, 0] ![0, 0, 0] ⟨a', 0, 0, 0⟩)
  have h0 : (![0, 0, 0] : V3 ℝ) = 0 := by
    funext i; fin_cases i <;> rfl
  cases h1 : Core.apis env (rosKernel np (scaleCalc true)) (Core.new (rosKernel np (scaleCalc true)))
      [.init 1 ⟨u, some (values (scaleState 2)), some 1⟩, .ext (21/20) u
        (some ((filterView (aux := poseAux)).ext ![p, 0, 0] ![0, 0, 0] ⟨a, 0, 0, 0⟩))] with
  | error e => rw [h1] at key; cases key
  | ok c =>
    rw [h1] at key
    have h2 : ∃ c', Core.api env (rosKernel np (scaleCalc true)) c (.ext (22/20) u
        (some ((filterView (aux := poseAux)).ext ![p', 0, 0] ![0, 0, 0] ⟨a', 0, 0, 0⟩))) = .ok c' := by
      cases h3 : Core.api env (rosKernel np (scaleCalc true)) c (.ext (22/20) u
        (some ((filterView (aux := poseAux)).ext ![p', 0, 0] ![0, 0, 0] ⟨a', 0, 0, 0⟩))) with
      | ok c' => exact ⟨c', rfl⟩
      | error e =>
        exfalso
        rw [apis_three, h1] at key2
        simp only [bind, Except.bind, h3] at key2
        cases key2
    obtain ⟨c', h2⟩ := h2
    have ht : ∀ t p a, (RosCall.state (extAt t u p a) : FilterCall poseAux).toApi false filterView =
        some (.ext t u (some ((filterView (aux := poseAux)).ext ![p, 0, 0] ![0, 0, 0] ⟨a, 0, 0, 0⟩))) :=
      fun t p a => usable_toApi filterView rfl (extNum p a) (extAt_num t u p a)
    obtain ⟨m, e1, rfl⟩ := Ros.calls_of_apis (pl := false) (view := filterView)
      (os := [.init 1 ⟨u, some (values (scaleState 2)), some 1⟩, .state (extAt (21/20) u p a)])
      (.cons rfl (.cons (ht _ _ _) .nil))
      (Ros.new (rosKernel np (scaleCalc true)) : FilterRos poseAux) h1
    obtain ⟨ms, hp⟩ := publish_disconnected false (filterView (aux := poseAux))
      (extAt (22/20) u p' a').state (c'.out.drop m.core.out.length)
    refine ⟨m, _, e1, Ros.call_of (o := .state (extAt (22/20) u p' a')) (ht _ _ _) h2 hp, ?_⟩
    simp only [obs, Option.some.injEq, Prod.mk.injEq] at key
    obtain ⟨k1, k2, k3⟩ := key
    obtain ⟨n, hn, hn'⟩ := List.map_eq_singleton_iff.1 k3
    refine ⟨k1, k2, n, by rw [Buf.last, hn]; rfl, ?_⟩
    simp only [Prod.mk.injEq] at hn'
    exact ⟨hn'.1, by rw [← h0]; exact hn'.2⟩

theorem normalize_axis (a : ℝ) (ha : 0 < a) :
    (⟨a, 0, 0, 0⟩ : Quat ℝ).normalize = some ⟨1, 0, 0, 0⟩ := by
  have h := normalize_mul a ha ⟨1, 0, 0, 0⟩
  simp only [mul_one, mul_zero] at h
  rw [h]
  exact Quat.normalize_unit (by simp [Quat.normSq])

/-- C90 and C94: an external state with an attitude of length 2 is used by the running filter; the
published attitude has length 1, as all attitudes of the run, and the biases are the ones before. -/
example (np : NoiseParams ℝ (coreDef poseAux)) (env : Env) (u : Input (V3 ℝ) (V3 ℝ)) :
    ∃ (m m' : FilterRos poseAux) (w : Values (coreDef poseAux)) (P : _) (l : _),
      (Ros.new (rosKernel np (scaleCalc true))).calls env (rosKernel np (scaleCalc true)) filterView
        ⟨false, false⟩ [.init 1 ⟨u, some (values (scaleState 2)), some 1⟩,
          .state (extAt (21/20) u 3 1)] = some m ∧
      m.call env (rosKernel np (scaleCalc true)) filterView ⟨false, false⟩
        (.state (extAt (22/20) u 5 2)) = some m' ∧
      m'.core.out = m.core.out ++ .afterPropagation (22/20) (some w) P :: l ∧
      coreStateOf (toVars w) = ⟨![5, 0, 0], ![0, 0, 0], Quat.one, 0, 0⟩ ∧
      ∀ v, m.core.Shown v → ∀ i q, quatOf _ (v i) = some q → q.normSq = 1 := by
  obtain ⟨m, m', h1, h2, hi, hp, last, hl, hk, hx⟩ := filter_started np env u 3 1 5 2
  have hx' : last.val.x = some (values (EKFState.setQ (EKFState.setV (EKFState.setP
      (toVars (values (scaleState 2))) ![3, 0, 0]) 0) ⟨1, 0, 0, 0⟩)) := by
    rw [hx]
    simp only [rosKernel, filterView, normalize_axis 1 one_pos, Option.map_some, Option.bind_some]
    rfl
  obtain ⟨w, P, l, e1, e2, -, -⟩ := C90_used np (scaleCalc true) env false m m' (extAt (22/20) u 5 2)
    rfl (extNum 5 2) (extAt_num _ _ _ _) ⟨1, 0, 0, 0⟩ (normalize_axis 2 two_pos) hi hp last hl
    (by rw [hk]; norm_num) _ hx' h2
  refine ⟨m, m', w, P, l, h1, h2, e1, e2.trans rfl, fun v hv => ?_⟩
  refine C94_unit_quaternions np (scaleCalc true) poseDef_ok.1 poseDef_ok.2 (by decide)
    (scaleCalc_keeping true 5).unit env _ _ (fun t s hs v hv => ?_) m h1 v hv
  simp only [List.mem_cons, List.not_mem_nil, or_false, RosCall.init.injEq, reduceCtorEq] at hs
  rw [hs.2] at hv
  cases hv
  exact scaleState_unit 2

/-- C94 (zero): the filter is started, and the next external state has attitude zero. -/
example (np : NoiseParams ℝ (coreDef poseAux)) (env : Env) (u : Input (V3 ℝ) (V3 ℝ)) :
    ∃ (m m' : FilterRos poseAux) (P : _) (l : _),
      (Ros.new (rosKernel np (scaleCalc true))).calls env (rosKernel np (scaleCalc true)) filterView
        ⟨false, false⟩ [.init 1 ⟨u, some (values (scaleState 2)), some 1⟩,
          .state (extAt (21/20) u 3 1)] = some m ∧
      m.call env (rosKernel np (scaleCalc true)) filterView ⟨false, false⟩
        (.state (extAt (22/20) u 5 0)) = some m' ∧
      m'.core.out = m.core.out ++ .afterPropagation (22/20) none P :: l := by
  obtain ⟨m, m', h1, h2, hi, hp, last, hl, hk, hx⟩ := filter_started np env u 3 1 5 0
  obtain ⟨P, l, e⟩ := C94_zero_violated np (scaleCalc true) env false m m' (extAt (22/20) u 5 0)
    rfl (extNum 5 0) (extAt_num _ _ _ _) ⟨rfl, rfl, rfl, rfl⟩ hi hp last hl (by rw [hk]; norm_num) h2
  exact ⟨m, m', P, l, h1, h2, e⟩

/-- C94 (length): two messages that differ in the length of the attitude. -/
example (u : Input (V3 ℝ) (V3 ℝ)) :
    SameAttitude (aux := poseAux) (.state (extAt 1 u 5 2)) (.state (extAt 1 u 5 6)) := by
  have e : ∀ p a, ∀ i < 10, msgEntry (extAt 1 u p a).state i = some (extNum p a i) := by
    intro p a i hi
    rw [msgEntry, extAt_num 1 u p a i hi]; rfl
  refine .state _ _ 3 (by norm_num) rfl rfl rfl (by simp [extAt, CoreState.message]) ?_ ?_
  · intro i hi
    rw [e _ _ i (by omega), e _ _ i (by omega)]
    simp only [extNum]
    rw [if_neg (by omega : ¬ i = 6)]
    simp only [if_neg (by omega : ¬ i = 6)]
  · intro i h6 hi
    rw [e _ _ i (by omega), e _ _ i (by omega)]
    simp only [extNum, Option.map_some, Option.some.injEq]
    rw [if_neg (by omega : ¬ i = 0), if_neg (by omega : ¬ i = 0)]
    split <;> norm_num

/-- C90 (playback): the hypotheses hold for messages with whatever contents. -/
example : List.Forall₂ (SameButUnusable true) (ExtDemo.started ++ [ExtDemo.ext (11/10) 2])
    (ExtDemo.started ++ [ExtDemo.ext (11/10) 100]) :=
  .cons (.same _) (.cons (.same _) (.cons (.state _ _ rfl rfl (.inl rfl) (.inl rfl)
    (by decide) (by decide)) .nil))

end MSF
