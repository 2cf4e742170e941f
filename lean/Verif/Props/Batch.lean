import Verif.Lemmas.Order
import Verif.Lemmas.Interp
import Verif.Props.Demo

/-!
# Properties of the delayed-measurement filter: C09, C10, C11, C12, C20, C21, C23

All statements quantify over every kernel (propagation, covariance prediction and update function)
whose update leaves the state alone when it rejects a measurement and does not depend on the fuzzy
tracker (`Kernel.Regular`), every tree shape of the two `std::map`s of libstdc++, every state of the
filter before `Init`, every initial state and every admissible sequence of calls (`Log.okRun`: IMU
stamps increase by at most 0.1 s; measurements that count are at most 59 s late and 2 ms apart from
each other; a measurement that could be rejected, that is, one outside the set `sure`, arrives after
the earlier ones in time or has no IMU stamp within 1 ms).  Without the last condition the claim is
false, see `C15_violated`.
-/

namespace MSF
open Spec

section
variable {A W X C M T E : Type}
variable [AddCommGroup A] [Module ℚ A] [AddCommGroup W] [Module ℚ W]

/-- The log right after `Init` at time `t` with inputs `u`; `am` is the function-local static
`last_am`, which survives `Init`. -/
def startLog (t : ℚ) (u : Input A W) (am : A) : Log A W M := ⟨[(t, u)], [], [], am⟩

/-- **C09.** After `Init` and any admissible calls in any order, the filter holds exactly the states
of the batch filter that are kept (only states older than 60 s are missing), for mean, covariance
and inputs. -/
theorem C09_delayed_equals_batch (K : Kernel A W X C M T E) (hK : K.Regular)
    (sure : M → Bool) (hsure : K.Sure sure)
    (s1 s2 : Nat → List ℚ → Bool) (c : Core A W X C M T) (t : ℚ) (ht : 0 < t) (s : St A W X C)
    (ops : List (Op A W M)) (hok : (startLog t s.u c.lastAmImu).okRun K.spike sure ops) :
    ∃ c', Core.calls ⟨.gnu s1, .gnu s2⟩ K (c.init K t s) ops = .ok c' ∧
      ∃ old kept, batch K s.x s.P ((startLog t s.u c.lastAmImu).run K.spike ops) = old ++ kept ∧
        c'.states.nodes.map (fun n => (n.key, n.val)) = kept ∧ kept ≠ [] ∧
        ∀ e ∈ old, e.1 < ((startLog (M := M) t s.u c.lastAmImu).run K.spike ops).newest - 60 := by
  obtain ⟨c', D, e1, h, _⟩ := Inv.run hK hsure s1 s2 ops (inv_init K c ht s) hok
  refine ⟨c', e1, D.map entry, c'.states.nodes.map entry, ?_, rfl, ?_, ?_⟩
  · rw [← List.map_append]; exact h.batch.symm
  · obtain ⟨n, hn, _⟩ := h.last
    intro hh
    rw [List.map_eq_nil_iff] at hh
    rw [hh] at hn; simp at hn
  · intro e he
    obtain ⟨d, hd, rfl⟩ := List.mem_map.1 he
    exact h.old d hd

/-- **C09, arrival order.** Two runs with the same IMU calls, whose measurements are the same up to
order and have all been taken up, end with the same newest state, and with the same states in the
last 60 s. -/
theorem C09_arrival_order (K : Kernel A W X C M T E) (hK : K.Regular)
    (sure : M → Bool) (hsure : K.Sure sure)
    (s1 s2 s1' s2' : Nat → List ℚ → Bool) (c : Core A W X C M T) (t : ℚ) (ht : 0 < t)
    (s : St A W X C) (ops ops' : List (Op A W M))
    (hok : (startLog t s.u c.lastAmImu).okRun K.spike sure ops)
    (hok' : (startLog t s.u c.lastAmImu).okRun K.spike sure ops')
    (himu : imuOps ops = imuOps ops')
    (hmeas : ((startLog t s.u c.lastAmImu).counted K.spike ops).Perm
      ((startLog t s.u c.lastAmImu).counted K.spike ops'))
    (hq : ((startLog t s.u c.lastAmImu).run K.spike ops).queue = [])
    (hq' : ((startLog t s.u c.lastAmImu).run K.spike ops').queue = []) :
    ∃ c1 c2, Core.calls ⟨.gnu s1, .gnu s2⟩ K (c.init K t s) ops = .ok c1 ∧
      Core.calls ⟨.gnu s1', .gnu s2'⟩ K (c.init K t s) ops' = .ok c2 ∧
      (c1.states.nodes.map (fun n => (n.key, n.val))).getLast? =
        (c2.states.nodes.map (fun n => (n.key, n.val))).getLast? ∧
      ∃ N, (∀ l, (c1.states.nodes.map (fun n => (n.key, n.val))).getLast? = some l → l.1 = N) ∧
        (c1.states.nodes.map (fun n => (n.key, n.val))).filter (fun e => N - 60 ≤ e.1) =
        (c2.states.nodes.map (fun n => (n.key, n.val))).filter (fun e => N - 60 ≤ e.1) := by
  obtain ⟨c1, D1, e1, h1, _⟩ := Inv.run hK hsure s1 s2 ops (inv_init K c ht s) hok
  obtain ⟨c2, D2, e2, h2, _⟩ := Inv.run hK hsure s1' s2' ops' (inv_init K c ht s) hok'
  have hi : (Log.run K.spike (startLog t s.u c.lastAmImu) ops).imu =
      (Log.run K.spike (startLog t s.u c.lastAmImu) ops').imu := Log.run_imu_congr himu
  have hp : (Log.run K.spike (startLog t s.u c.lastAmImu) ops).hist.Perm
      (Log.run K.spike (startLog t s.u c.lastAmImu) ops').hist := by
    have p1 := Log.run_perm (sp := K.spike) ops (startLog t s.u c.lastAmImu) (by simp [startLog])
      (by simp [startLog]) (by simp [startLog, Log.start, Log.newest, Log.stamps]) hok
    have p2 := Log.run_perm (sp := K.spike) ops' (startLog t s.u c.lastAmImu) (by simp [startLog])
      (by simp [startLog]) (by simp [startLog, Log.start, Log.newest, Log.stamps]) hok'
    rw [hq, List.append_nil] at p1
    rw [hq', List.append_nil] at p2
    exact p1.trans ((hmeas.append_left _).trans p2.symm)
  have hb := batch_perm K s.x s.P hi hp h1.targets_ne
  have b1 := h1.batch
  have b2 := h2.batch
  have l1 := h1.batch_last
  have l2 := h2.batch_last
  simp only [startLog] at hb
  rw [← hb] at b2 l2
  refine ⟨c1, c2, e1, e2, ?_, (Log.run K.spike (startLog (M := M) t s.u c.lastAmImu) ops).newest, ?_, ?_⟩
  · rw [List.getLast?_map, List.getLast?_map]
    exact l1.symm.trans l2
  · intro l hl
    obtain ⟨n, hn, hk, _⟩ := h1.last
    rw [List.getLast?_map, hn] at hl
    simp only [Option.map_some, Option.some.injEq] at hl
    rw [← hl]; exact hk
  · have hnew : (Log.run K.spike (startLog (M := M) t s.u c.lastAmImu) ops').newest =
        (Log.run K.spike (startLog (M := M) t s.u c.lastAmImu) ops).newest := by
      unfold Log.newest Log.stamps; rw [hi]
    have key : ∀ {c3 : Core A W X C M T} {D3 : List (SN A W X C)},
        (∀ d ∈ D3, d.key < (Log.run K.spike (startLog (M := M) t s.u c.lastAmImu) ops).newest - 60) →
        ((D3 ++ c3.states.nodes).map entry).filter (fun e =>
          (Log.run K.spike (startLog (M := M) t s.u c.lastAmImu) ops).newest - 60 ≤ e.1) =
        (c3.states.nodes.map entry).filter (fun e =>
          (Log.run K.spike (startLog (M := M) t s.u c.lastAmImu) ops).newest - 60 ≤ e.1) := by
      intro c3 D3 hold
      rw [List.map_append, List.filter_append]
      have : (D3.map entry).filter (fun e =>
          (Log.run K.spike (startLog (M := M) t s.u c.lastAmImu) ops).newest - 60 ≤ e.1) = [] := by
        rw [List.filter_eq_nil_iff]
        intro e he
        obtain ⟨d, hd, rfl⟩ := List.mem_map.1 he
        have := hold d hd
        intro hle
        have hle := of_decide_eq_true hle
        exact absurd hle (not_le.2 this)
      rw [this, List.nil_append]
    have k1 := key (c3 := c1) h1.old
    have k2 := key (c3 := c2) (D3 := D2) (by
      intro d hd; have := h2.old d hd
      have hnew' := hnew
      simp only [startLog] at hnew' ⊢
      rw [hnew'] at this; exact this)
    change (c1.states.nodes.map entry).filter _ = (c2.states.nodes.map entry).filter _
    rw [← k1, ← k2, b1, b2]

/-- **C10.** Neighbouring buffered states: each is the propagation of its predecessor, corrected by
the measurement assigned to its time, if any, and nothing else. -/
theorem C10_consistent_trajectory (K : Kernel A W X C M T E) (hK : K.Regular)
    (sure : M → Bool) (hsure : K.Sure sure)
    (s1 s2 : Nat → List ℚ → Bool) (c : Core A W X C M T) (t : ℚ) (ht : 0 < t) (s : St A W X C)
    (ops : List (Op A W M)) (hok : (startLog t s.u c.lastAmImu).okRun K.spike sure ops)
    (c' : Core A W X C M T)
    (hrun : Core.calls ⟨.gnu s1, .gnu s2⟩ K (c.init K t s) ops = .ok c')
    (pre post : List (Node (St A W X C))) (a b : Node (St A W X C))
    (hab : c'.states.nodes = pre ++ a :: b :: post) :
    let L := (startLog (M := M) t s.u c.lastAmImu).run K.spike ops
    let x := K.prop (b.key - a.key) a.val.u a.val.x b.val.u
    let P := K.predP (b.key - a.key) a.val.P b.val.u x
    (b.val.x, b.val.P) =
      match L.hist.find? (fun m => target L.stamps m.time = b.key) with
      | none => (x, P)
      | some m => ((K.update K.tr0 m.body x P).x, (K.update K.tr0 m.body x P).P) := by
  obtain ⟨c1, D, e1, h, _⟩ := Inv.run hK hsure s1 s2 ops (inv_init K c ht s) hok
  have : c1 = c' := by
    have := e1.symm.trans hrun
    exact Except.ok.inj this
  subst this
  have hc := h.cons.chain
  rw [hab, ← List.append_assoc] at hc
  have hr := List.isChain_append.1 hc
  have hr2 := (List.isChain_cons_cons.1 hr.2.1).1
  unfold Rel priorOf at hr2
  intro L x P
  rw [hr2]
  unfold measAt
  change updXP K (Option.map Meas.body (L.hist.find? (fun m => target L.stamps m.time = b.key))) (x, P) = _
  cases L.hist.find? (fun m => target L.stamps m.time = b.key) <;> rfl

/-- **C11.** Everything published: after `Init` the initial state, after every IMU reading the newest
state, after every measurement that counts the newest state, in each case with mean and covariance of
the batch filter on what was received up to then; between calls the covariance is valid for the
newest state. -/
theorem C11_published_is_current (K : Kernel A W X C M T E) (hK : K.Regular)
    (sure : M → Bool) (hsure : K.Sure sure)
    (s1 s2 : Nat → List ℚ → Bool) (c : Core A W X C M T) (t : ℚ) (ht : 0 < t) (s : St A W X C)
    (ops : List (Op A W M)) (hok : (startLog t s.u c.lastAmImu).okRun K.spike sure ops) :
    ∃ c', Core.calls ⟨.gnu s1, .gnu s2⟩ K (c.init K t s) ops = .ok c' ∧
      c'.out = c.out ++ .initial t s.x s.P ::
        eventsRun K s.x s.P (startLog t s.u c.lastAmImu) ops ∧
      ∃ n, c'.states.nodes.getLast? = some n ∧ c'.tP = n.key := by
  obtain ⟨c', D, e1, h, ho⟩ := Inv.run hK hsure s1 s2 ops (inv_init K c ht s) hok
  refine ⟨c', e1, ?_, ?_⟩
  · rw [ho]
    change c.out ++ [Event.initial t s.x s.P] ++ _ = _
    rw [List.append_assoc]; rfl
  · obtain ⟨n, hn, hk, _⟩ := h.last
    exact ⟨n, hn, h.tP.trans hk.symm⟩

/-- **C12.** No measurement is lost: those that arrived once the filter was running and are not older
than the initial state are, as a multiset, the applied ones and the waiting ones; a waiting
measurement at position `q1.length` of the queue has been applied after that many plus one further
IMU readings at or after its time. -/
theorem C12_future_measurements_wait (K : Kernel A W X C M T E) (hK : K.Regular)
    (sure : M → Bool) (hsure : K.Sure sure)
    (s1 s2 : Nat → List ℚ → Bool) (c : Core A W X C M T) (t : ℚ) (ht : 0 < t) (s : St A W X C)
    (ops ops2 : List (Op A W M))
    (hok : (startLog t s.u c.lastAmImu).okRun K.spike sure (ops ++ ops2)) :
    ∃ c1 c2, Core.calls ⟨.gnu s1, .gnu s2⟩ K (c.init K t s) ops = .ok c1 ∧
      Core.calls ⟨.gnu s1, .gnu s2⟩ K (c.init K t s) (ops ++ ops2) = .ok c2 ∧
      (((startLog t s.u c.lastAmImu).run K.spike ops).hist ++ c1.queue).Perm
        ((startLog t s.u c.lastAmImu).counted K.spike ops) ∧
      ∀ q1 m q2, c1.queue = q1 ++ m :: q2 → (∀ r ∈ imuOps ops2, m.time ≤ r.1) →
        q1.length < (imuOps ops2).length →
        m ∈ ((startLog t s.u c.lastAmImu).run K.spike (ops ++ ops2)).hist := by
  have hsplit : ∀ (o1 : List (Op A W M)) (L : Log A W M), L.okRun K.spike sure (o1 ++ ops2) →
      L.okRun K.spike sure o1 := by
    intro o1
    induction o1 with
    | nil => intro L _; trivial
    | cons o o1 ih => intro L h; exact ⟨h.1, ih _ h.2⟩
  have hok1 := hsplit ops _ hok
  obtain ⟨c1, D1, e1, h1, _⟩ := Inv.run hK hsure s1 s2 ops (inv_init K c ht s) hok1
  obtain ⟨c2, D2, e2, h2, _⟩ := Inv.run hK hsure s1 s2 (ops ++ ops2) (inv_init K c ht s) hok
  refine ⟨c1, c2, e1, e2, ?_, ?_⟩
  · rw [h1.queue]
    have p1 := Log.run_perm (sp := K.spike) ops (startLog t s.u c.lastAmImu) (by simp [startLog])
      (by simp [startLog]) (by simp [startLog, Log.start, Log.newest, Log.stamps]) hok1
    simpa [startLog] using p1
  · intro q1 m q2 hq hr hl
    rw [h1.queue] at hq
    have hrun : Log.run K.spike (startLog t s.u c.lastAmImu) (ops ++ ops2) =
        (Log.run K.spike (startLog t s.u c.lastAmImu) ops).run K.spike ops2 := by
      simp [Log.run, List.foldl_append]
    rw [hrun]
    refine Log.served ops2 _ q1 q2 m hq ?_ ?_ hr hl
    · by_contra h3
      have := (h1.early (not_lt.1 h3)).2.1
      rw [hq] at this; simp at this
    · exact Log.queue_start ops _ (by simp [startLog]) (by simp [startLog])
        (by simp [startLog, Log.start, Log.newest, Log.stamps]) hok1 m (by unfold startLog; rw [hq]; simp)

/-- **C20 (partial).** On every tree shape of libstdc++ and every admissible call sequence no call
reaches undefined behaviour (the result is never `.error`, which also covers the bounds of the
modelled loops, that is, termination).  Full claim: every accepted measurement and every kernel;
false by `C20_violated`. -/
theorem C20_no_undefined_behaviour_partial (K : Kernel A W X C M T E) (hK : K.Regular)
    (sure : M → Bool) (hsure : K.Sure sure)
    (s1 s2 : Nat → List ℚ → Bool) (c : Core A W X C M T) (t : ℚ) (ht : 0 < t) (s : St A W X C)
    (ops : List (Op A W M)) (hok : (startLog t s.u c.lastAmImu).okRun K.spike sure ops) (e : UB) :
    Core.calls ⟨.gnu s1, .gnu s2⟩ K (c.init K t s) ops ≠ .error e := by
  obtain ⟨c', D, e1, _, _⟩ := Inv.run hK hsure s1 s2 ops (inv_init K c ht s) hok
  change Core.calls ⟨.gnu s1, .gnu s2⟩ K (c.init K t s) ops = .ok c' at e1
  rw [e1]
  simp

/-- **C21.** Let `l` and `r` be neighbouring buffered states.  Whatever interpolated states are
requested between them, in whatever order, every state buffered between them has inputs on the
straight line from those of `l` to those of `r` (a function of its time alone), nothing is lost, and
new states exist only at requested times. -/
theorem C21_interpolation_order_independent (K : Kernel A W X C M T E) (c : Core A W X C M T)
    (hs : c.states.nodes.Pairwise (fun a b => a.key < b.key))
    (pre post : List (Node (St A W X C))) (l r : Node (St A W X C))
    (hlr : c.states.nodes = pre ++ l :: r :: post)
    (qs : List (Node (St A W X C) × ℚ)) (hq : ∀ q ∈ qs, l.key < q.2 ∧ q.2 < r.key) :
    (∀ k ∈ c.states.nodes, k ∈ (interpolateAll K c qs).states.nodes) ∧
    (∀ k ∈ (interpolateAll K c qs).states.nodes, k ∈ c.states.nodes ∨ ∃ q ∈ qs, k.key = q.2) ∧
    ∀ k ∈ (interpolateAll K c qs).states.nodes, l.key ≤ k.key → k.key ≤ r.key →
      k.val.u.a = ((r.key - k.key) / (r.key - l.key)) • l.val.u.a +
        ((k.key - l.key) / (r.key - l.key)) • r.val.u.a ∧
      k.val.u.w = ((r.key - k.key) / (r.key - l.key)) • l.val.u.w +
        ((k.key - l.key) / (r.key - l.key)) • r.val.u.w := by
  change SortedL c.states.nodes at hs
  have hs' := hs
  rw [hlr, SortedL.append_iff, SortedL.cons_iff, SortedL.cons_iff] at hs'
  have hkey : l.key < r.key := hs'.2.1.1 r (by simp)
  have hline : OnLine l.key r.key l.val.u r.val.u c.states.nodes := by
    intro k hk h1 h2
    rw [hlr] at hk
    rcases List.mem_append.1 hk with hk | hk
    · have := hs'.2.2 k hk l (by simp); linarith
    · rcases List.mem_cons.1 hk with rfl | hk
      · exact (between_left (r := (k.key, k.val.u)) (r' := (r.key, r.val.u)) hkey).symm
      · rcases List.mem_cons.1 hk with rfl | hk
        · exact (between_right (r := (l.key, l.val.u)) (r' := (k.key, k.val.u)) hkey).symm
        · have := hs'.2.1.2.1 k hk; linarith
  obtain ⟨h1, h2, h3⟩ := interpolateAll_line K l r l.val.u r.val.u qs c hs (by rw [hlr]; simp)
    (by rw [hlr]; simp) hq hline
  refine ⟨h1, h2, ?_⟩
  intro k hk ha hb
  rw [h3 k hk ha hb]
  exact ⟨rfl, rfl⟩

omit [AddCommGroup A] [Module ℚ A] [AddCommGroup W] [Module ℚ W] in
/-- **C23.** The periodic clean-up succeeds, changes nothing but the two buffers, drops only states
more than 60 s older than the newest one, keeps every remaining state as it is and keeps any relation
between neighbours (in particular that of C10). -/
theorem C23_cleanup_keeps_trajectory (s1 s2 : Nat → List ℚ → Bool) (c : Core A W X C M T)
    (hs : c.states.nodes.Pairwise (fun a b => a.key < b.key))
    (hm : c.meas.nodes.Pairwise (fun a b => a.key < b.key))
    (newest : Node (St A W X C)) (hn : c.states.nodes.getLast? = some newest) :
    ∃ c', Core.cleanUp ⟨.gnu s1, .gnu s2⟩ c = .ok c' ∧
      c' = { c with states := c'.states, meas := c'.meas } ∧
      (∃ gone, c.states.nodes = gone ++ c'.states.nodes ∧ ∀ n ∈ gone, n.key < newest.key - 60) ∧
      c'.states.nodes.getLast? = some newest ∧
      ∀ R : Node (St A W X C) → Node (St A W X C) → Prop,
        c.states.nodes.IsChain R → c'.states.nodes.IsChain R := by
  obtain ⟨c', Ds, Dm, e, hE⟩ := Core.cleanUp_evict s1 s2 c hs hm
  have e2 : ∃ c2, Core.cleanUp ⟨.gnu s1, .gnu s2⟩ c = .ok c2 ∧ c2 = { c with states := c'.states, meas := c'.meas } := by
    simp only [Core.cleanUp, gnuEnv, bind, Except.bind, pure, Except.pure] at e ⊢
    cases h1 : Buf.clearOlderThan (.gnu s1) c.states 60 with
    | error x => simp [h1] at e
    | ok b1 =>
      cases h2 : Buf.clearOlderThan (.gnu s2) c.meas 60 with
      | error x => simp [h1, h2] at e
      | ok b2 =>
        simp only [h1, h2, Except.ok.injEq] at e
        refine ⟨_, rfl, ?_⟩
        rw [← e]
  obtain ⟨c2, e3, e4⟩ := e2
  have hst : c2.states = c'.states := by rw [e4]
  have hsplit : c.states.nodes = Ds ++ c'.states.nodes := hE.1
  have hend : endKey 0 c.states.nodes = newest.key := by unfold endKey; rw [hn]
  obtain ⟨b, D, hb, h1, h2, h3⟩ := clear_endKey (shape := s1) hs
  have hbc : b = c2.states := by
    simp only [Core.cleanUp, bind, Except.bind, pure, Except.pure, hb] at e3
    cases h2 : Buf.clearOlderThan (.gnu s2) c.meas 60 with
    | error x => simp [h2] at e3
    | ok b2 =>
      simp only [h2, Except.ok.injEq] at e3
      rw [← e3]
  subst hbc
  refine ⟨c2, e3, by rw [e4], ⟨D, h1, by rw [← hend]; exact h3⟩, ?_, ?_⟩
  · have hne : c2.states.nodes ≠ [] := by
      intro h0
      rw [h0, List.append_nil] at h1
      have hmem := List.mem_of_getLast? hn
      rw [h1] at hmem
      have := h3 newest hmem
      rw [hend] at this; linarith
    obtain ⟨z, hz⟩ : ∃ z, c2.states.nodes.getLast? = some z := by
      cases hz : c2.states.nodes.getLast? with
      | none => simp at hz; exact absurd hz hne
      | some z => exact ⟨z, rfl⟩
    rw [h1, getLast?_append_of_some hz] at hn
    rw [hz, hn]
  · intro R hR
    rw [h1] at hR
    exact (List.isChain_append.1 hR).2.1

end

/-! ## Examples: the hypotheses are met by a run with delayed, out-of-order and future measurements -/

namespace Demo
open Spec

/-- IMU readings at 10 ms, two measurements out of order, one on an IMU stamp, one in between, one
ahead of the IMU, one outlier-free spike reading. -/
def ops : List (Op ℚ ℚ ℚ) :=
  [imu (101/100) 1, imu (102/100) 2, imu (103/100) 3, imu (104/100) 1, meas (1035/1000) 5,
   imu (105/100) 99, meas (102/100) 4, meas (1061/1000) 7, imu (106/100) 2, imu (107/100) 1,
   meas (1015/1000) 3]

/-- The same calls with the measurements in another order. -/
def ops' : List (Op ℚ ℚ ℚ) :=
  [imu (101/100) 1, imu (102/100) 2, imu (103/100) 3, imu (104/100) 1, meas (1015/1000) 3,
   imu (105/100) 99, imu (106/100) 2, imu (107/100) 1, meas (1061/1000) 7,
   meas (1035/1000) 5, meas (102/100) 4]

theorem K_regular : K.Regular := ⟨fun _ _ _ _ h => (by cases h), fun _ _ _ _ => rfl,
  fun _ _ _ _ => rfl, fun _ => rfl, fun _ => rfl⟩

theorem K_sure : K.Sure (fun _ => true) := fun _ _ _ _ _ => rfl

/-- The filter with outlier rejection meets the kernel hypotheses, with no measurement sure. -/
theorem Kout_regular : Kout.Regular := by
  refine ⟨?_, fun _ _ _ _ => rfl, fun _ _ _ _ => rfl, fun _ => rfl, fun _ => rfl⟩
  intro tr m x P h
  simp only [Kout] at h ⊢
  split_ifs at h ⊢
  simp_all

theorem Kout_sure : Kout.Sure (fun _ => false) := fun _ h => by cases h

/-- A run with rejected measurements: one late at an IMU stamp but after all others, one late between
two IMU stamps and before others. -/
def opsR : List (Op ℚ ℚ ℚ) :=
  [imu (101/100) 1, imu (102/100) 2, imu (103/100) 3, imu (104/100) 1, meas (1015/1000) 3,
   meas (103/100) 100, meas (1035/1000) 5, imu (105/100) 2, meas (1025/1000) (-70), meas (105/100) 6]

/-- Non-vacuity of C09 with outlier rejection: the run is admissible, two of its measurements are
rejected, and the result is that of the batch filter. -/
example : (startLog 1 s0.u c0.lastAmImu).okRun Kout.spike (fun _ => false) opsR ∧
    (Core.calls env Kout (c0.init Kout 1 s0) opsR).toOption.map
      (fun c => c.states.nodes.map (fun n => (n.key, n.val))) =
    some (batch Kout s0.x s0.P ((startLog 1 s0.u c0.lastAmImu).run Kout.spike opsR)) := by
  decide +kernel

/-- Non-vacuity of C09, C10, C11, C12, C20: the run is admissible. -/
example : (startLog 1 s0.u c0.lastAmImu).okRun K.spike (fun _ => true) ops := by decide +kernel

/-- Non-vacuity of C09 (arrival order): both runs are admissible, have the same readings, the same
measurements up to order, and empty queues at the end. -/
example : (startLog 1 s0.u c0.lastAmImu).okRun K.spike (fun _ => true) ops' ∧
    imuOps ops = imuOps ops' ∧
    ((startLog 1 s0.u c0.lastAmImu).counted K.spike ops).Perm
      ((startLog 1 s0.u c0.lastAmImu).counted K.spike ops') ∧
    ((startLog 1 s0.u c0.lastAmImu).run K.spike ops).queue = [] ∧
    ((startLog 1 s0.u c0.lastAmImu).run K.spike ops').queue = [] := by
  decide +kernel

/-- The filter and the batch filter, both evaluated on this run. -/
example : (Core.calls env K (c0.init K 1 s0) ops).toOption.map
      (fun c => c.states.nodes.map (fun n => (n.key, n.val))) =
    some (batch K s0.x s0.P ((startLog 1 s0.u c0.lastAmImu).run K.spike ops)) := by
  decide +kernel

/-- Non-vacuity of C12: a measurement is waiting after the first eight calls. -/
example : ((startLog 1 s0.u c0.lastAmImu).run K.spike (ops.take 8)).queue = [⟨1061/1000, 0, 7⟩] := by
  decide +kernel

/-- Non-vacuity of C21: three requests between two neighbouring states, in two orders. -/
example : let c : Core ℚ ℚ ℚ ℚ ℚ Unit :=
      { c0 with states := ⟨[⟨1, 0, ⟨⟨0, 0⟩, 0, 1⟩⟩, ⟨2, 1, ⟨⟨4, 8⟩, 0, 1⟩⟩], 2⟩ }
    let n : Node (St ℚ ℚ ℚ ℚ) := ⟨1, 0, ⟨⟨0, 0⟩, 0, 1⟩⟩
    (interpolateAll K c [(n, 5/4), (n, 7/4), (n, 3/2)]).states.nodes.map
      (fun n => (n.key, n.val.u.a, n.val.u.w)) =
      [(1, 0, 0), (5/4, 1, 2), (3/2, 2, 4), (7/4, 3, 6), (2, 4, 8)] ∧
    (interpolateAll K c [(n, 3/2), (n, 7/4), (n, 5/4)]).states.nodes.map
      (fun n => (n.key, n.val.u.a, n.val.u.w)) =
      [(1, 0, 0), (5/4, 1, 2), (3/2, 2, 4), (7/4, 3, 6), (2, 4, 8)] := by
  decide +kernel

/-- Non-vacuity of C23: a clean-up that drops a state. -/
example : let c : Core ℚ ℚ ℚ ℚ ℚ Unit :=
      { c0 with states := ⟨[⟨1, 0, s0⟩, ⟨9, 1, s0⟩, ⟨20, 2, s0⟩, ⟨70, 3, s0⟩], 4⟩ }
    (Core.cleanUp env c).toOption.map (fun c => c.states.keys) = some [9, 20, 70] := by
  decide +kernel

end Demo
end MSF
