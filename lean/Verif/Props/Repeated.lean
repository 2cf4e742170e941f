import Verif.Lemmas.Frame
import Verif.Props.PoseFilters
import Verif.Props.Faults

/-!
# C120 Repeated IMU messages have no effect

A driver or a bag file may deliver an IMU message twice.  The second delivery cannot be inserted into
the state buffer, so that nothing the filter goes on with changes; but it is published, with the
covariance zero of a fresh state object, and a repetition of an older message makes the next reading
start from the older state.
-/

namespace MSF
open Spec

section
variable {A W X C M T E : Type}

/-- `ops'` is `ops` with further IMU messages, each stamped with the time of the newest reading so far
(`t` at the start).  Nothing is said about their contents. -/
inductive Repeats : ℚ → List (Op A W M) → List (Op A W M) → Prop
  | nil (t) : Repeats t [] []
  | imu (t t' u) {os os'} : Repeats t' os os' → Repeats t (.imu t' u :: os) (.imu t' u :: os')
  | meas (t m) {os os'} : Repeats t os os' → Repeats t (.meas m :: os) (.meas m :: os')
  | again (t u) {os os'} : Repeats t os os' → Repeats t os (.imu t u :: os')

/-- No measurement is newer than the newest IMU reading at its arrival. -/
def NotAhead : ℚ → List (Op A W M) → Prop
  | _, [] => True
  | _, .imu t' _ :: os => NotAhead t' os
  | t, .meas m :: os => m.time ≤ t ∧ NotAhead t os

/-- The states published after updates. -/
def updatesOf (es : List (Event X C)) : List (Event X C) :=
  es.filter fun e => match e with
    | .afterUpdate _ _ _ => true
    | _ => false

/-- What of the filter matters for a repeated message: it holds the newest reading of the log as its
newest state, the covariance is propagated to it, and the waiting measurements are those of the log. -/
structure Core.Follows (c : Core A W X C M T) (L : Log A W M) : Prop where
  inited : c.inited = true
  made : c.predMade = false → c.states.size ≤ 3
  queue : c.queue = L.queue
  sorted : SortedL c.states.nodes
  last : ∃ n, c.states.nodes.getLast? = some n ∧ n.key = L.newest ∧ c.itImu = n.iter
  tP : c.tP = L.newest
  valid : L.newest ≠ invalidTime

theorem Log.newest_step_imu [Zero A] (spike : A → Bool) (L : Log A W M) (t : ℚ) (u : Input A W)
    (hq : L.queue = []) : (L.step spike (.imu t u)).newest = t ∧ (L.step spike (.imu t u)).queue = [] := by
  have h : (L.addImu spike t u).newest = t ∧ (L.addImu spike t u).queue = [] := by
    unfold Log.addImu
    split <;> exact ⟨by simp [Log.newest, Log.stamps], hq⟩
  have hp : (L.addImu spike t u).pop = L.addImu spike t u := by
    unfold Log.pop
    rw [h.2]
  unfold Log.step
  simp only [hp, ite_self]
  exact h

theorem Log.newest_step_meas [Zero A] (spike : A → Bool) (L : Log A W M) (m : Meas M)
    (hq : L.queue = []) (hm : m.time ≤ L.newest) :
    (L.step spike (.meas m)).newest = L.newest ∧ (L.step spike (.meas m)).queue = [] := by
  unfold Log.step Log.deliver
  simp only
  split
  · rw [if_neg (not_lt.2 hm)]
    split <;> exact ⟨rfl, hq⟩
  · exact ⟨rfl, hq⟩

variable [AddCommGroup A] [Module ℚ A] [AddCommGroup W] [Module ℚ W]

/-- A message stamped with the time of the newest reading is published and changes nothing else but
`last_am`. -/
theorem Core.Follows.again {c : Core A W X C M T} {L : Log A W M} (h : c.Follows L)
    (hq : L.queue = []) (env : Env) (K : Kernel A W X C M T E) (u : Input A W) :
    ∃ n a u', c.states.nodes.getLast? = some n ∧
      Core.processIMU env K c L.newest u = .ok { c with
        lastAmImu := a
        out := c.out ++ [.afterPropagation L.newest (K.prop 0 n.val.u n.val.x u') K.P0] } ∧
      (K.spike u.a = false → u' = u) := by
  obtain ⟨n, hn, hk, hi⟩ := h.last
  have hmem : n ∈ c.states.nodes := List.mem_of_getLast? hn
  have hd : c.states.deref c.itImu = .ok n := by
    rw [hi]; exact Buf.deref_mem h.sorted hmem
  have hfind : c.states.find L.newest = some n := by
    rw [← hk]; exact Buf.find_eq_some h.sorted hmem
  refine ⟨n, if K.spike u.a then c.lastAmImu else n.val.u.a,
    if K.spike u.a then { u with a := c.lastAmImu } else u, hn, ?_, fun hs => by simp [hs]⟩
  rw [Core.processIMU_form, if_neg (by rw [h.inited]; simp)]
  have hst : Core.imuStart env c L.newest = .ok c.itImu := by
    unfold Core.imuStart
    rw [if_neg (by rw [hi]; simp [Node.iter])]
  rw [hst]
  simp only [bind, Except.bind, hd]
  unfold Core.imuBody
  rw [hk, if_neg h.valid, if_neg (by simp), if_neg (by simp), Core.imuPropagate_form]
  have hins : ∀ v, c.states.insert L.newest v = (c.states, n.iter) := Buf.insert_of_find hfind
  simp only [hins]
  have hone : ∀ am : A, Core.propagatePOneStep K
      { c with lastAmImu := am, itImu := n.iter } =
      .ok { c with lastAmImu := am, itImu := n.iter } := by
    intro am
    unfold Core.propagatePOneStep
    have e1 : c.states.iterAtValue c.tP = n.iter := by
      rw [h.tP]
      unfold Buf.iterAtValue
      rw [hfind]
    obtain ⟨Al, hAl⟩ : ∃ Al, c.states.nodes = Al ++ [n] := List.getLast?_eq_some_iff.1 hn
    have e2 : c.states.incr n.iter = .ok .fin := by
      have := Buf.incr_at (A := Al) (n := n) (B := []) (by simpa using hAl) h.sorted
      rw [this]; rfl
    simp only [e1, e2, bind, Except.bind]
    rfl
  rw [hone]
  simp only [bind, Except.bind, Core.published, hfind, Option.isSome_some, if_true]
  unfold Core.imuEnd Core.imuState
  have hcur : ({ c with
      lastAmImu := if K.spike u.a then c.lastAmImu else n.val.u.a, itImu := n.iter } :
      Core A W X C M T) =
      { c with lastAmImu := if K.spike u.a then c.lastAmImu else n.val.u.a } := by rw [← hi]
  simp only [hk, sub_self]
  by_cases hm : c.predMade = true
  · rw [if_pos (by simp [hm])]
    unfold Core.handlePending
    simp only [h.queue, hq]
    rw [hi]
    congr 1
    simp [hm]
  · have hm' : c.predMade = false := by simpa using hm
    have hsz := h.made hm'
    rw [if_neg (by simp only [hm', Bool.false_or, decide_eq_true_eq, not_lt]; exact hsz)]
    rw [hi]

/-- The published updates and the order of what is published. -/
theorem updatesOf_append (a b : List (Event X C)) : updatesOf (a ++ b) = updatesOf a ++ updatesOf b :=
  List.filter_append ..

/-- A call on two filters that differ in what they have published and in `last_am`. -/
theorem Core.call_frame (env : Env) (K : Kernel A W X C M T E) (c : Core A W X C M T)
    (out : List (Event X C)) (am : A) (o : Op A W M)
    (ho : ∀ t u, o = .imu t u → K.spike u.a = false) {c1 : Core A W X C M T}
    (h1 : Core.call env K c o = .ok c1) :
    ∃ ev am', c1.out = c.out ++ ev ∧
      Core.call env K { c with out := out, lastAmImu := am } o =
        .ok { c1 with out := out ++ ev, lastAmImu := am' } := by
  have key : ∀ (p : List (Event X C)) (a : A), ∃ f : Core A W X C M T → A,
      Core.call env K (Core.put p a { c with out := [] }) o =
        (Core.call env K { c with out := [] } o).map fun r => r.put p (f r) := by
    intro p a
    cases o with
    | imu t u => exact Core.put_processIMU K p a env _ t (ho t u rfl)
    | meas m => exact ⟨fun _ => a, Core.put_addMeasurement K p a env _ m⟩
  obtain ⟨f, hf⟩ := key c.out c.lastAmImu
  obtain ⟨g, hg⟩ := key out am
  have e1 : Core.put c.out c.lastAmImu { c with out := [] } = c := by simp [Core.put]
  have e2 : Core.put out am { c with out := [] } = { c with out := out, lastAmImu := am } := by
    simp [Core.put]
  rw [e1, h1] at hf
  rw [e2] at hg
  cases hr : Core.call env K { c with out := [] } o with
  | error e => rw [hr] at hf; cases hf
  | ok r =>
    rw [hr] at hf hg
    have h1' : c1 = r.put c.out (f r) := Except.ok.inj hf
    refine ⟨r.out, g r, by rw [h1']; rfl, ?_⟩
    rw [hg, h1']
    rfl

/-- Induction behind C120: `I` is what is known about filter and log along admissible runs. -/
theorem repeats_run (K : Kernel A W X C M T E) (sure : M → Bool) (env : Env)
    (I : Core A W X C M T → Log A W M → Prop) (hI : ∀ c L, I c L → c.Follows L)
    (hstep : ∀ c L o, I c L → L.ok K.spike sure o →
      ∃ c', Core.call env K c o = .ok c' ∧ I c' (L.step K.spike o)) :
    ∀ {t : ℚ} {ops ops' : List (Op A W M)}, Repeats t ops ops' → ∀ (c : Core A W X C M T)
      (L : Log A W M) (out : List (Event X C)) (am : A), I c L → L.newest = t → L.queue = [] →
      NotAhead t ops → (∀ r ∈ imuOps ops, K.spike r.2.a = false) → L.okRun K.spike sure ops →
      c.out.Sublist out → updatesOf out = updatesOf c.out →
      ∃ c1 out' am', Core.calls env K c ops = .ok c1 ∧
        Core.calls env K { c with out := out, lastAmImu := am } ops' =
          .ok { c1 with out := out', lastAmImu := am' } ∧
        c1.out.Sublist out' ∧ updatesOf out' = updatesOf c1.out ∧
        out'.length + (c.out.length + ops.length) = out.length + (c1.out.length + ops'.length) := by
  intro t ops ops' hr
  induction hr with
  | nil t =>
    intro c L out am hc _ _ _ _ _ hs hu
    exact ⟨c, out, am, rfl, rfl, hs, hu, by simp⟩
  | imu t t' u hr ih =>
    intro c L out am hc hn hq ha hsp hok hs hu
    obtain ⟨c1, e1, hc1⟩ := hstep c L _ hc hok.1
    obtain ⟨ev, am', o1, e1'⟩ := Core.call_frame env K c out am _
      (fun t2 u2 h => by cases h; exact hsp (t', u) (by simp [imuOps])) e1
    obtain ⟨hn', hq'⟩ := Log.newest_step_imu K.spike L t' u hq
    obtain ⟨c2, out', am2, f1, f2, f3, f4, f5⟩ := ih c1 _ (out ++ ev) am' hc1 hn' hq' ha
      (fun r h => hsp r (by simp [imuOps, h])) hok.2 (by rw [o1]; exact hs.append_right ev)
      (by rw [o1, updatesOf_append, updatesOf_append, hu])
    refine ⟨c2, out', am2, ?_, ?_, f3, f4, ?_⟩
    · simp only [Core.calls, e1, bind, Except.bind, f1]
    · simp only [Core.calls, e1', bind, Except.bind, f2]
    · rw [o1] at f5
      simp only [List.length_append, List.length_cons] at f5 ⊢
      omega
  | meas t m hr ih =>
    intro c L out am hc hn hq ha hsp hok hs hu
    obtain ⟨c1, e1, hc1⟩ := hstep c L _ hc hok.1
    obtain ⟨ev, am', o1, e1'⟩ := Core.call_frame env K c out am _
      (fun t2 u2 h => by cases h) e1
    obtain ⟨hn', hq'⟩ := Log.newest_step_meas K.spike L m hq (by rw [hn]; exact ha.1)
    obtain ⟨c2, out', am2, f1, f2, f3, f4, f5⟩ := ih c1 _ (out ++ ev) am' hc1 (hn'.trans hn) hq' ha.2
      hsp hok.2 (by rw [o1]; exact hs.append_right ev)
      (by rw [o1, updatesOf_append, updatesOf_append, hu])
    refine ⟨c2, out', am2, ?_, ?_, f3, f4, ?_⟩
    · simp only [Core.calls, e1, bind, Except.bind, f1]
    · simp only [Core.calls, e1', bind, Except.bind, f2]
    · rw [o1] at f5
      simp only [List.length_append, List.length_cons] at f5 ⊢
      omega
  | again t u hr ih =>
    intro c L out am hc hn hq ha hsp hok hs hu
    have hF := hI c L hc
    have hF' : Core.Follows { c with out := out, lastAmImu := am } L :=
      ⟨hF.inited, hF.made, hF.queue, hF.sorted, hF.last, hF.tP, hF.valid⟩
    obtain ⟨n, a', u', _, e, _⟩ := hF'.again hq env K u
    rw [hn] at e
    obtain ⟨c2, out', am2, f1, f2, f3, f4, f5⟩ := ih c L
      (out ++ [.afterPropagation t (K.prop 0 n.val.u n.val.x u') K.P0]) a' hc hn hq ha hsp hok
      (hs.trans (List.sublist_append_left ..))
      (by rw [updatesOf_append, hu]; simp [updatesOf])
    refine ⟨c2, out', am2, f1, ?_, f3, f4, ?_⟩
    · have e' : Core.call env K { c with out := out, lastAmImu := am } (.imu t u) = .ok _ := e
      simp only [Core.calls, e', bind, Except.bind]
      exact f2
    · simp only [List.length_append, List.length_cons, List.length_nil] at f5 ⊢
      omega

/-- Along admissible runs the filter follows its log: kernels that meet `Kernel.Regular`. -/
theorem Inv.follows {K : Kernel A W X C M T E} {s0 : X × C} {c : Core A W X C M T} {L : Log A W M}
    {D : List (SN A W X C)} (h : Inv K s0 c L D) : c.Follows L where
  inited := h.inited
  made hm := by
    have h3 : L.imu.length ≤ 3 := by
      have := h.predMade
      rw [hm] at this
      simpa using this
    have := h.size_early h3
    unfold Buf.size
    omega
  queue := h.queue
  sorted := (SortedL.append_iff.1 h.sorted).2.1
  last := h.last
  tP := h.tP
  valid hv := by
    have := Log.start_le h.stamps _ (Log.newest_mem h.ne)
    have := h.pos
    rw [hv] at *
    unfold invalidTime at *
    linarith

/-- The same for kernels that reject nothing, whatever else they compute. -/
theorem skeleton_follows {K : Kernel A W X C M T E} (hK : K.AllApplied) {c : Core A W X C M T}
    {L : Log A W M} (h : ((skeletonHom hK).core 0 c).Follows L) : c.Follows L where
  inited := h.inited
  made hm := by
    have := h.made hm
    simpa [KHom.core, Buf.size, Buf.shift] using this
  queue := by
    rw [← h.queue]
    have e : ∀ m : Meas M, (skeletonHom hK).meas 0 m = m := by
      intro m
      simp [KHom.meas, skeletonHom]
    change c.queue = c.queue.map ((skeletonHom hK).meas 0)
    rw [List.map_congr_left (fun m _ => e m), List.map_id']
  sorted := by
    have := h.sorted
    rw [Buf.sorted_iff_keys] at this ⊢
    simpa [KHom.core, Buf.shift, Node.shift, List.map_map, Function.comp_def] using this
  last := by
    obtain ⟨n, h1, h2, h3⟩ := h.last
    have h1' : (c.states.nodes.map (Node.shift (skeletonHom hK).st 0)).getLast? = some n := h1
    rw [List.getLast?_map] at h1'
    obtain ⟨n', h4, h5⟩ := Option.map_eq_some_iff.1 h1'
    subst h5
    refine ⟨n', h4, by simpa [Node.shift] using h2, ?_⟩
    have h3' : c.itImu.shift 0 = (n'.shift (skeletonHom hK).st 0).iter := h3
    rw [Node.shift_iter] at h3'
    exact (Iter.shift_inj 0 _ _).1 h3'
  tP := by
    have : c.tP + 0 = _ := h.tP
    simpa using this
  valid := h.valid

/-- **C120 (partial), sensors with outlier tests.** Missing: messages other than those with the newest
stamp, measurements that wait for IMU data, spikes, and the messages published (see below). -/
theorem C120_repeated_partial (K : Kernel A W X C M T E) (hK : K.Regular) (sure : M → Bool)
    (hsure : K.Sure sure) (s1 s2 : Nat → List ℚ → Bool) (c : Core A W X C M T) (t : ℚ) (ht : 0 < t)
    (s : St A W X C) (ops ops' : List (Op A W M)) (hrep : Repeats t ops ops')
    (hahead : NotAhead t ops) (hspike : ∀ r ∈ imuOps ops, K.spike r.2.a = false)
    (hok : (startLog t s.u c.lastAmImu).okRun K.spike sure ops) :
    ∃ c1 c2, Core.calls ⟨.gnu s1, .gnu s2⟩ K (c.init K t s) ops = .ok c1 ∧
      Core.calls ⟨.gnu s1, .gnu s2⟩ K (c.init K t s) ops' = .ok c2 ∧
      c2 = { c1 with out := c2.out, lastAmImu := c2.lastAmImu } ∧
      c1.out.Sublist c2.out ∧ updatesOf c2.out = updatesOf c1.out ∧
      c2.out.length + ops.length = c1.out.length + ops'.length := by
  obtain ⟨c1, out', am', h1, h2, h3, h4, h5⟩ := repeats_run K sure ⟨.gnu s1, .gnu s2⟩
    (fun c L => ∃ D, Inv K (s.x, s.P) c L D) (fun c L ⟨D, h⟩ => h.follows)
    (fun c L o ⟨D, h⟩ ho => by
      obtain ⟨c', D', e, h', _⟩ := h.call hK s1 s2 o hsure ho
      exact ⟨c', e, D', h'⟩)
    hrep (c.init K t s) (startLog t s.u c.lastAmImu) (c.init K t s).out (c.init K t s).lastAmImu
    ⟨_, inv_init K c ht s⟩ (by simp [startLog, Log.newest, Log.stamps]) rfl hahead hspike hok
    (List.Sublist.refl _) rfl
  exact ⟨c1, _, h1, h2, rfl, h3, h4, by simp only; omega⟩

/-- **C120 (partial), all other filters**: the same for filters that reject no measurement, the fuzzy
tracking check of the pose filters included. -/
theorem C120_any_numerics_partial (K : Kernel A W X C M T E) (hK : K.AllApplied) (sure : M → Bool)
    (s1 s2 : Nat → List ℚ → Bool) (c : Core A W X C M T) (t : ℚ) (ht : 0 < t)
    (s : St A W X C) (ops ops' : List (Op A W M)) (hrep : Repeats t ops ops')
    (hahead : NotAhead t ops) (hspike : ∀ r ∈ imuOps ops, K.spike r.2.a = false)
    (hok : (startLog t s.u c.lastAmImu).okRun K.spike sure ops) :
    ∃ c1 c2, Core.calls ⟨.gnu s1, .gnu s2⟩ K (c.init K t s) ops = .ok c1 ∧
      Core.calls ⟨.gnu s1, .gnu s2⟩ K (c.init K t s) ops' = .ok c2 ∧
      c2 = { c1 with out := c2.out, lastAmImu := c2.lastAmImu } ∧
      c1.out.Sublist c2.out ∧ updatesOf c2.out = updatesOf c1.out ∧
      c2.out.length + ops.length = c1.out.length + ops'.length := by
  obtain ⟨c1, out', am', h1, h2, h3, h4, h5⟩ := repeats_run K sure ⟨.gnu s1, .gnu s2⟩
    (fun c L => ∃ D, Inv K.skeleton ((), ()) ((skeletonHom hK).core 0 c) L D)
    (fun c L ⟨D, h⟩ => skeleton_follows hK h.follows)
    (fun c L o ⟨D, h⟩ ho => by
      obtain ⟨c', D', e, h', _⟩ := h.call K.skeleton_regular s1 s2 o (K.skeleton_sure sure) ho
      have g := Core.skeleton_calls hK ⟨.gnu s1, .gnu s2⟩ c [o]
      have e' : Core.calls ⟨.gnu s1, .gnu s2⟩ K.skeleton ((skeletonHom hK).core 0 c) [o] = .ok c' := by
        have e2 : Core.call ⟨.gnu s1, .gnu s2⟩ K.skeleton ((skeletonHom hK).core 0 c) o = .ok c' := e
        simp only [Core.calls, bind, Except.bind, e2]
      rw [e'] at g
      simp only [Core.calls] at g
      cases hc : Core.call ⟨.gnu s1, .gnu s2⟩ K c o with
      | error x => rw [hc] at g; cases g
      | ok d =>
        rw [hc] at g
        have : c' = (skeletonHom hK).core 0 d := Except.ok.inj g
        subst this
        exact ⟨d, rfl, D', h'⟩)
    hrep (c.init K t s) (startLog t s.u c.lastAmImu) (c.init K t s).out (c.init K t s).lastAmImu
    ⟨_, by rw [Core.skeleton_init]; exact inv_init K.skeleton _ ht _⟩
    (by simp [startLog, Log.newest, Log.stamps]) rfl hahead hspike hok
    (List.Sublist.refl _) rfl
  exact ⟨c1, _, h1, h2, rfl, h3, h4, by simp only; omega⟩

/-- **C120 is violated by what is published**: in every admissible run of every filter that rejects
nothing, whenever no measurement waits, a further message with the newest stamp makes the filter publish
the newest state with the covariance of a fresh state object, which is zero (`P.setZero()`), and changes
no buffered state. -/
theorem C120_covariance_violated (K : Kernel A W X C M T E) (hK : K.AllApplied) (sure : M → Bool)
    (s1 s2 : Nat → List ℚ → Bool) (c : Core A W X C M T) (t : ℚ) (ht : 0 < t)
    (s : St A W X C) (ops : List (Op A W M))
    (hok : (startLog t s.u c.lastAmImu).okRun K.spike sure ops) (c1 : Core A W X C M T)
    (h1 : Core.calls ⟨.gnu s1, .gnu s2⟩ K (c.init K t s) ops = .ok c1) (hq : c1.queue = [])
    (u : Input A W) (hu : K.spike u.a = false) :
    ∃ n c2, c1.states.nodes.getLast? = some n ∧
      Core.processIMU ⟨.gnu s1, .gnu s2⟩ K c1 n.key u = .ok c2 ∧ c2.states = c1.states ∧
      c2.out = c1.out ++ [.afterPropagation n.key (K.prop 0 n.val.u n.val.x u) K.P0] := by
  have g := Core.skeleton_calls hK ⟨.gnu s1, .gnu s2⟩ (c.init K t s) ops
  obtain ⟨d, D, e, h, _⟩ := Inv.run K.skeleton_regular (K.skeleton_sure sure) s1 s2 ops
    (inv_init K.skeleton ((skeletonHom hK).core 0 c) ht ⟨s.u, (), ()⟩) hok
  rw [Core.skeleton_init, h1] at g
  have hd : d = (skeletonHom hK).core 0 c1 := Except.ok.inj (e.symm.trans g)
  subst hd
  have hF := skeleton_follows hK h.follows
  obtain ⟨n, hn, hk, _⟩ := hF.last
  obtain ⟨n', a, u', hn', e', hu'⟩ := hF.again (by rw [← hF.queue, hq]) ⟨.gnu s1, .gnu s2⟩ K u
  have : n' = n := Option.some.inj (hn'.symm.trans hn)
  subst this
  rw [hu' hu] at e'
  rw [← hk] at e'
  exact ⟨n', _, hn, e', rfl, rfl⟩

end

/-- **C120 is violated by what is published, in the shipped filters**: the covariance is zero. -/
theorem C120_shipped_violated {aux : List VarDesc} {M : Type} (np : NoiseParams ℝ (coreDef aux))
    (uc : UserCalc (coreDef aux)) (f : M → SensorMeas (coreDef aux)) (hf : ∀ m, (f m).enable = false)
    (sure : M → Bool) (s1 s2 : Nat → List ℚ → Bool)
    (c : Core (V3 ℝ) (V3 ℝ) (Option (Values (coreDef aux))) (Option (ErrMat ℝ (coreDef aux))) M
      (Tracker ℝ)) (t : ℚ) (ht : 0 < t)
    (s : St (V3 ℝ) (V3 ℝ) (Option (Values (coreDef aux))) (Option (ErrMat ℝ (coreDef aux))))
    (ops : List (Op (V3 ℝ) (V3 ℝ) M))
    (hok : (startLog t s.u c.lastAmImu).okRun (fedKernel np uc f).spike sure ops)
    (c1 : Core (V3 ℝ) (V3 ℝ) (Option (Values (coreDef aux))) (Option (ErrMat ℝ (coreDef aux))) M
      (Tracker ℝ))
    (h1 : Core.calls ⟨.gnu s1, .gnu s2⟩ (fedKernel np uc f) (c.init (fedKernel np uc f) t s) ops =
      .ok c1) (hq : c1.queue = []) (u : Input (V3 ℝ) (V3 ℝ))
    (hu : (fedKernel np uc f).spike u.a = false) :
    ∃ n c2 x, c1.states.nodes.getLast? = some n ∧
      Core.processIMU ⟨.gnu s1, .gnu s2⟩ (fedKernel np uc f) c1 n.key u = .ok c2 ∧
      c2.out = c1.out ++ [.afterPropagation n.key x (some 0)] := by
  obtain ⟨n, c2, h2, h3, _, h4⟩ := C120_covariance_violated (fedKernel np uc f)
    (fedKernel_allApplied np uc hf) sure s1 s2 c t ht s ops hok c1 h1 hq u hu
  exact ⟨n, c2, _, h2, h3, h4⟩

open Demo

/-- **C120 is violated by repetitions of older messages.** The reading before the newest one comes again:
the next reading is propagated from the state of that time, the newest reading before it is not used
for the mean (2 at 1.04 s would give another position than 1 at 1.04 s), but its state stays in the
buffer. -/
theorem C120_stale_violated :
    view (runOf K (four ++ [imu (103/100) 3, imu (105/100) 1])) ≠
      view (runOf K (four ++ [imu (105/100) 1])) ∧
    view (runOf K (four ++ [imu (103/100) 3, imu (105/100) 1])) ≠ none ∧
    (∀ z z' : ℚ, z ∈ [1, 7] → z' ∈ [1, 7] →
      ((runOf K (four.dropLast ++ [imu (104/100) z, imu (103/100) 3, imu (105/100) 1])).toOption.bind
        (·.states.nodes.getLast?)).map (fun n => (n.key, n.val.x)) =
      ((runOf K (four.dropLast ++ [imu (104/100) z', imu (103/100) 3, imu (105/100) 1])).toOption.bind
        (·.states.nodes.getLast?)).map (fun n => (n.key, n.val.x))) := by
  refine ⟨by decide +kernel, by decide +kernel, ?_⟩
  intro z z' hz hz'
  simp only [List.mem_cons, List.not_mem_nil, or_false] at hz hz'
  rcases hz with rfl | rfl <;> rcases hz' with rfl | rfl <;> decide +kernel

/-- The hypotheses of `C120_covariance_violated` are met, in a run with measurements. -/
example : ∃ n c1 c2, Core.calls Demo.env K (c0.init K 1 s0) (four ++ [meas (1035/1000) 5]) = .ok c1 ∧
    c1.states.nodes.getLast? = some n ∧ 0 < n.val.P ∧
    Core.processIMU Demo.env K c1 n.key ⟨1, 0⟩ = .ok c2 ∧
    c2.out.getLast? = some (.afterPropagation n.key (K.prop 0 n.val.u n.val.x ⟨1, 0⟩) 0) := by
  have hd : ((Core.calls Demo.env K (c0.init K 1 s0) (four ++ [meas (1035/1000) 5])).toOption.map
      fun c1 => (c1.queue.isEmpty, decide (0 < ((c1.states.nodes.getLast?).map (·.val.P)).getD 1))) =
      some (true, true) := by decide +kernel
  cases h1 : Core.calls Demo.env K (c0.init K 1 s0) (four ++ [meas (1035/1000) 5]) with
  | error e => rw [h1] at hd; cases hd
  | ok c1 =>
  rw [h1] at hd
  have hd' := Option.some.inj hd
  simp only [Prod.mk.injEq, List.isEmpty_iff, decide_eq_true_eq] at hd'
  have hP : (∀ n, c1.states.nodes.getLast? = some n → 0 < n.val.P) ∧ c1.queue = [] := by
    refine ⟨fun n hn => ?_, hd'.1⟩
    have := hd'.2
    rw [hn] at this
    exact this
  obtain ⟨n, c2, h2, h3, _, h4⟩ := C120_covariance_violated K ⟨fun _ _ _ _ => rfl, fun _ => rfl,
    fun _ => rfl⟩ (fun _ => true) (fun _ _ => false) (fun _ _ => false) c0 1 (by norm_num) s0 _
    (by decide +kernel) c1 h1 hP.2 ⟨1, 0⟩ (by decide +kernel)
  exact ⟨n, c1, c2, rfl, h2, hP.1 n h2, h3, by rw [h4]; simp; rfl⟩

/-- The hypotheses of `C120_repeated_partial` are met: measurements, repeated readings with the same and
with other contents. -/
example : ∃ c1 c2,
    Core.calls Demo.env K (c0.init K 1 s0) (four ++ [meas (1035/1000) 5, imu (105/100) 2]) = .ok c1 ∧
    Core.calls Demo.env K (c0.init K 1 s0) ([imu 1 4, imu (101/100) 1, imu (102/100) 2, imu (102/100) 2,
      imu (103/100) 3, imu (104/100) 1, meas (1035/1000) 5, imu (104/100) 8, imu (105/100) 2]) =
      .ok c2 ∧ c2.states = c1.states := by
  obtain ⟨c1, c2, h1, h2, h3, _⟩ := C120_repeated_partial K
    ⟨nofun, fun _ _ _ _ => rfl, fun _ _ _ _ => rfl, fun _ => rfl,
      fun _ => rfl⟩ (fun _ => true) (fun _ _ _ _ _ => rfl) (fun _ _ => false) (fun _ _ => false) c0 1
    (by norm_num) s0 (four ++ [meas (1035/1000) 5, imu (105/100) 2])
    [imu 1 4, imu (101/100) 1, imu (102/100) 2, imu (102/100) 2,
      imu (103/100) 3, imu (104/100) 1, meas (1035/1000) 5, imu (104/100) 8, imu (105/100) 2]
    (.again _ _ (.imu _ _ _ (.imu _ _ _ (.again _ _ (.imu _ _ _ (.imu _ _ _ (.meas _ _
      (.again _ _ (.imu _ _ _ (.nil _))))))))))
    (by simp only [four, List.cons_append, List.nil_append, NotAhead, imu, meas]; norm_num)
    (by decide +kernel) (by decide +kernel)
  exact ⟨c1, c2, h1, h2, by rw [h3]⟩

end MSF
