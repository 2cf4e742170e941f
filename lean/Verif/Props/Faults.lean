import Verif.Props.Core
import Verif.Lemmas.Reject

/-!
# Properties of the core that fail, and what remains of them: C14 - C16, C18 - C20, C22, C55

For each property that the code violates there is a theorem `.._violated` with a concrete run, and one
with suffix `_partial` that holds in general under the stated condition.
-/

namespace MSF
open Spec

section
variable {A W X C M T E : Type}
variable [AddCommGroup A] [Module ℚ A] [AddCommGroup W] [Module ℚ W]

/-! ## C14 -/

/-- **C14, what goes wrong.** If a measurement with the same stamp is buffered already (of whatever
sensor), the contents of the new one are irrelevant: the buffered one is applied again. -/
theorem C14_same_stamp_ignores_contents (env : Env) (K : Kernel A W X C M T E)
    (c : Core A W X C M T) (m m' : Meas M) (ht : m'.time = m.time)
    (hle : ∃ n, c.states.nodes.getLast? = some n ∧ m.time ≤ n.key)
    (hin : ∃ n ∈ c.meas.nodes, n.key = m.time) :
    Core.addMeasurement env K c m = Core.addMeasurement env K c m' := by
  obtain ⟨n, hn, hk⟩ := hle
  obtain ⟨z, hz, hzk⟩ := hin
  have e1 : timeOf c.states.last = n.key := by rw [Buf.last, hn]; rfl
  have hf : ∃ y, c.meas.find m.time = some y := by
    cases hf : c.meas.find m.time with
    | some y => exact ⟨y, rfl⟩
    | none => exact absurd hzk (Buf.find_none_iff.1 hf z hz)
  obtain ⟨y, hy⟩ := hf
  have hy' : c.meas.find m'.time = some y := by rw [ht]; exact hy
  unfold Core.addMeasurement
  rw [Buf.insert_of_find hy, Buf.insert_of_find hy', e1]
  simp only [gt_iff_lt, if_neg (not_lt.2 hk), ht]

/-- **C14 (partial).** In an admissible run (measurements more than 2 ms apart, see `Log.okRun`),
every measurement that counted and whose state is still kept has been applied to exactly one buffered
state, and to that state no other measurement has been applied: the state is the prediction from its
predecessor corrected by this measurement alone.  Missing: measurements closer than 2 ms, for which
`C14_violated` and `C14_close_violated` show that the claim is false. -/
theorem C14_counted_once_partial (K : Kernel A W X C M T E) (hK : K.Regular)
    (sure : M → Bool) (hsure : K.Sure sure)
    (s1 s2 : Nat → List ℚ → Bool) (c : Core A W X C M T) (t : ℚ) (ht : 0 < t) (s : St A W X C)
    (ops : List (Op A W M)) (hok : (startLog t s.u c.lastAmImu).okRun K.spike sure ops)
    (m : Meas M) (hm : m ∈ ((startLog t s.u c.lastAmImu).run K.spike ops).hist)
    (hkept : ((startLog (M := M) t s.u c.lastAmImu).run K.spike ops).newest - 60 ≤
      target ((startLog (M := M) t s.u c.lastAmImu).run K.spike ops).stamps m.time) :
    ∃ c', Core.calls ⟨.gnu s1, .gnu s2⟩ K (c.init K t s) ops = .ok c' ∧
      let L := (startLog (M := M) t s.u c.lastAmImu).run K.spike ops
      (∃ pre b post, c'.states.nodes = pre ++ b :: post ∧ b.key = target L.stamps m.time ∧
        (∀ z ∈ pre ++ post, z.key ≠ target L.stamps m.time) ∧
        ∀ a, pre.getLast? = some a →
          let x := K.prop (b.key - a.key) a.val.u a.val.x b.val.u
          let P := K.predP (b.key - a.key) a.val.P b.val.u x
          b.val.x = (K.update K.tr0 m.body x P).x ∧ b.val.P = (K.update K.tr0 m.body x P).P) ∧
      ∃ h1 h2, L.hist = h1 ++ m :: h2 ∧
        ∀ m' ∈ h1 ++ h2, target L.stamps m'.time ≠ target L.stamps m.time := by
  obtain ⟨c', D, e1, h, _⟩ := Inv.run hK hsure s1 s2 ops (inv_init K c ht s) hok
  refine ⟨c', e1, ?_, ?_⟩
  · obtain ⟨b, hb, hbk⟩ := h.mem_nodes (Or.inr ⟨m, hm, rfl⟩) hkept
    obtain ⟨pre, post, hAB⟩ := List.append_of_mem hb
    refine ⟨pre, b, post, hAB, hbk, ?_, ?_⟩
    · have hs := h.sorted
      rw [hAB, SortedL.append_iff] at hs
      have hs := hs.2.1
      rw [SortedL.append_iff, SortedL.cons_iff] at hs
      intro z hz
      have hbk' : b.key = target (Log.run K.spike (startLog (M := M) t s.u c.lastAmImu) ops).stamps m.time := hbk
      rw [← hbk']
      rcases List.mem_append.1 hz with hz | hz
      · exact (hs.2.2 z hz b (by simp)).ne
      · exact (hs.2.1.1 z hz).ne'
    · intro a ha
      obtain ⟨pre', rfl⟩ : ∃ pre', pre = pre' ++ [a] := by
        rcases List.eq_nil_or_concat pre with rfl | ⟨p, y, rfl⟩
        · simp at ha
        · rw [List.concat_eq_append] at ha ⊢
          rw [List.getLast?_concat] at ha
          exact ⟨p, by rw [Option.some.inj ha]⟩
      have h10 := C10_consistent_trajectory K hK sure hsure s1 s2 c t ht s ops hok c' e1 pre' post a b
        (by rw [hAB]; simp)
      have hfind : (Log.run K.spike (startLog t s.u c.lastAmImu) ops).hist.find?
          (fun m' => target (Log.run K.spike (startLog t s.u c.lastAmImu) ops).stamps m'.time = b.key) =
          some m := by
        rw [List.find?_eq_some_iff_append]
        refine ⟨decide_eq_true hbk.symm, ?_⟩
        obtain ⟨h1, h2, hh⟩ := List.append_of_mem hm
        refine ⟨h1, h2, hh, ?_⟩
        intro m' hm'
        have hp := h.targets_ne
        have hh' : (Log.run K.spike (startLog t s.u c.lastAmImu) ops).hist = h1 ++ m :: h2 := hh
        simp only [startLog] at hp hh' ⊢
        rw [hh', List.pairwise_append] at hp
        have h12 := hp.2.2 m' hm' m (by simp)
        rw [hbk]
        simp [h12]
      simp only at h10
      rw [hfind] at h10
      exact ⟨congrArg Prod.fst h10, congrArg Prod.snd h10⟩
  · obtain ⟨h1, h2, hh⟩ := List.append_of_mem hm
    refine ⟨h1, h2, hh, ?_⟩
    have hp := h.targets_ne
    have hh' : (Log.run K.spike (startLog t s.u c.lastAmImu) ops).hist = h1 ++ m :: h2 := hh
    simp only [startLog] at hp hh' ⊢
    rw [hh', List.pairwise_append, List.pairwise_cons] at hp
    intro m' hm'
    rcases List.mem_append.1 hm' with hm' | hm'
    · exact hp.2.2 m' hm' m (by simp)
    · exact (hp.2.1.1 m' hm').symm

/-! ## C15 -/

/-- **C15 (partial).** Extend an admissible run by a measurement which the state at its time rejects,
where that state is at an IMU stamp (so no state has to be interpolated): all states of the last
60 s, means and covariances, are the same as without the call.  Missing: a rejected measurement
that is older than one that was applied before (`C15_violated`), or between IMU stamps, where the
interpolated state stays in the buffer (`C15_between_violated`). -/
theorem C15_rejected_no_effect_partial (K : Kernel A W X C M T E) (hK : K.Regular)
    (sure : M → Bool) (hsure : K.Sure sure)
    (s1 s2 : Nat → List ℚ → Bool) (c : Core A W X C M T) (t : ℚ) (ht : 0 < t) (s : St A W X C)
    (ops : List (Op A W M)) (m : Meas M)
    (hok : (startLog t s.u c.lastAmImu).okRun K.spike sure (ops ++ [.meas m]))
    (c1 : Core A W X C M T)
    (hrun : Core.calls ⟨.gnu s1, .gnu s2⟩ K (c.init K t s) ops = .ok c1)
    (N : ℚ) (hN : N = ((startLog (M := M) t s.u c.lastAmImu).run K.spike ops).newest)
    (hnow : m.time ≤ N) (n : Node (St A W X C)) (hn : n ∈ c1.states.nodes)
    (hnt : n.key = target ((startLog (M := M) t s.u c.lastAmImu).run K.spike ops).stamps m.time)
    (hrej : ∃ tr, (K.update tr m.body n.val.x n.val.P).applied = false) :
    ∃ c2, Core.calls ⟨.gnu s1, .gnu s2⟩ K (c.init K t s) (ops ++ [.meas m]) = .ok c2 ∧
      (c2.states.nodes.map (fun n => (n.key, n.val))).filter (fun e => N - 60 ≤ e.1) =
      (c1.states.nodes.map (fun n => (n.key, n.val))).filter (fun e => N - 60 ≤ e.1) := by
  have hsplit : ∀ (o1 : List (Op A W M)) (L : Log A W M), L.okRun K.spike sure (o1 ++ [.meas m]) →
      L.okRun K.spike sure o1 := by
    intro o1
    induction o1 with
    | nil => intro L _; trivial
    | cons o os ih => intro L hL; exact ⟨hL.1, ih _ hL.2⟩
  have hok' := hok
  simp only [startLog] at hok'
  obtain ⟨c1', D1, e1, h1, _⟩ := Inv.run hK hsure s1 s2 ops (inv_init K c ht s) (hsplit _ _ hok)
  obtain rfl : c1' = c1 := Except.ok.inj (e1.symm.trans hrun)
  obtain ⟨c2, D2, e2, h2, _⟩ := Inv.run hK hsure s1 s2 (ops ++ [.meas m]) (inv_init K c ht s) hok'
  refine ⟨c2, e2, ?_⟩
  generalize hL : (startLog (M := M) t s.u c.lastAmImu).run K.spike ops = L at *
  have hL' : (startLog (M := M) t s.u c.lastAmImu).run K.spike (ops ++ [.meas m]) =
      L.step K.spike (.meas m) := by
    rw [← hL]; simp [Log.run, List.foldl_append]
  simp only [startLog] at hL hL' h1 h2
  rw [hL] at h1
  rw [hL'] at h2
  subst hN
  by_cases h3 : 3 < L.imu.length
  swap
  · -- nothing happens yet
    have : L.step K.spike (.meas m) = L := by simp [Log.step, h3]
    rw [this] at h2
    have b1 := h1.batch
    have b2 := h2.batch
    have f1 := filter_recent (l := c1'.states.nodes) h1.old
    have f2 := filter_recent (l := c2.states.nodes) h2.old
    rw [b1] at f1; rw [b2] at f2
    exact f2.symm.trans f1
  by_cases hlow : m.time < L.start
  · have : L.step K.spike (.meas m) = L := by
      simp [Log.step, h3, Log.deliver, not_lt.2 hnow, hlow]
    rw [this] at h2
    have f1 := filter_recent (l := c1'.states.nodes) h1.old
    have f2 := filter_recent (l := c2.states.nodes) h2.old
    rw [h1.batch] at f1; rw [h2.batch] at f2
    exact f2.symm.trans f1
  have hstep : L.step K.spike (.meas m) = { L with hist := L.hist ++ [m] } := by
    simp [Log.step, h3, Log.deliver, not_lt.2 hnow, hlow]
  rw [hstep] at h2
  have hdist : ∀ m' ∈ L.hist, target L.stamps m'.time ≠ target L.stamps m.time := by
    have := h2.targets_ne
    simp only [List.pairwise_append] at this
    intro m' hm'
    exact this.2.2 m' hm' m (by simp)
  obtain ⟨tr, hrej⟩ := hrej
  have hcons := h1.cons_reject hK hdist hn hnt hrej
  have b1 : (D1 ++ c1'.states.nodes).map entry =
      Spec.batch K s.x s.P { L with hist := L.hist ++ [m] } := by
    refine batch_of (s0 := (s.x, s.P)) (L := { L with hist := L.hist ++ [m] }) h1.sorted ?_
      h1.inputs hcons
    intro k
    rw [h1.keys k]
    change _ ↔ k ∈ L.stamps ∨ ∃ m' ∈ L.hist ++ [m], target L.stamps m'.time = k
    constructor
    · rintro (h | ⟨m', hm', e⟩)
      · exact Or.inl h
      · exact Or.inr ⟨m', by simp [hm'], e⟩
    · rintro (h | ⟨m', hm', e⟩)
      · exact Or.inl h
      · rcases List.mem_append.1 hm' with hm' | hm'
        · exact Or.inr ⟨m', hm', e⟩
        · simp only [List.mem_singleton] at hm'
          subst hm'
          rw [← h1.keys k, ← e, ← hnt]
          exact List.mem_map_of_mem (by simp [hn])
  have f1 := filter_recent (l := c1'.states.nodes) h1.old
  have f2 := filter_recent (l := c2.states.nodes) h2.old
  rw [b1] at f1; rw [h2.batch] at f2
  exact f2.symm.trans f1

/-! ## C16 -/

/-- **C16 (partial).** If every buffered state is more than 0.1 s away from the stamp and no newer
measurement is buffered, `AddMeasurement` only stores the measurement: states, covariance
validity, queue and published messages are as before.  Missing: with newer measurements in the buffer
these are applied a second time (`C16_violated`). -/
theorem C16_no_nearby_state_partial (K : Kernel A W X C M T E) (c : Core A W X C M T)
    (s1 : Nat → List ℚ → Bool) (pm : Plat) (m : Meas M)
    (hs : c.states.nodes.Pairwise (fun a b => a.key < b.key))
    (hms : c.meas.nodes.Pairwise (fun a b => a.key < b.key))
    (hne : c.states.nodes ≠ []) (hfar : ∀ n ∈ c.states.nodes, 1 / 10 < |n.key - m.time|)
    (hlate : ∀ n ∈ c.meas.nodes, n.key < m.time) :
    ∃ c', Core.addMeasurement ⟨.gnu s1, pm⟩ K c m = .ok c' ∧ c'.states = c.states ∧ c'.tP = c.tP ∧
      c'.out = c.out ∧ c'.tracker = c.tracker ∧ c'.itImu = c.itImu ∧
      c'.inited = c.inited ∧ c'.predMade = c.predMade ∧ (c'.queue = c.queue ∨ c'.queue = c.queue ++ [m]) := by
  unfold Core.addMeasurement
  split
  · exact ⟨c, rfl, rfl, rfl, rfl, rfl, rfl, rfl, rfl, Or.inl rfl⟩
  split
  · exact ⟨_, rfl, rfl, rfl, rfl, rfl, rfl, rfl, rfl, Or.inr rfl⟩
  split
  · exact ⟨c, rfl, rfl, rfl, rfl, rfl, rfl, rfl, rfl, Or.inl rfl⟩
  rename_i hlt hge
  have hf : c.meas.find m.time = none := Buf.find_none_iff.2 (fun n hn => (hlate n hn).ne)
  rw [Buf.insert_of_none hf]
  have hnodes : insertNode ⟨m.time, c.meas.fresh, m⟩ c.meas.nodes =
      c.meas.nodes ++ [⟨m.time, c.meas.fresh, m⟩] := by
    have := insertNode_append (n := ⟨m.time, c.meas.fresh, m⟩) (A := c.meas.nodes) (B := []) hlate (by simp)
    simpa using this
  simp only [hnodes]
  generalize hc1 : ({ c with meas := ⟨c.meas.nodes ++ [⟨m.time, c.meas.fresh, m⟩], c.meas.fresh + 1⟩, fuzzy := false } : Core A W X C M T) = c1
  have hc1s : c1.states = c.states := by rw [← hc1]
  obtain ⟨z, hz, hzi⟩ := Buf.iterClosest_gnu_ok (b := c.states) s1 hs hne m.time
  have hmn : (⟨m.time, c.meas.fresh, m⟩ : Node (Meas M)) ∈ c1.meas.nodes := by rw [← hc1]; simp
  have hms1 : SortedL c1.meas.nodes := by
    rw [← hc1]
    change SortedL (c.meas.nodes ++ [_])
    rw [SortedL.append_iff]
    refine ⟨hms, by simp [SortedL], ?_⟩
    intro a ha b hb
    simp only [List.mem_singleton] at hb
    subst hb
    exact hlate a ha
  have hloop : Core.measLoop ⟨.gnu s1, pm⟩ K
      ((⟨c.meas.nodes ++ [⟨m.time, c.meas.fresh, m⟩], c.meas.fresh + 1⟩ : Buf (Meas M)).size + 1)
      c1 (.at m.time c.meas.fresh) false = .ok (c1, false, false) := by
    have hsz : ∃ k, (⟨c.meas.nodes ++ [⟨m.time, c.meas.fresh, m⟩], c.meas.fresh + 1⟩ :
        Buf (Meas M)).size = k + 1 := ⟨c.meas.nodes.length, by simp [Buf.size]⟩
    obtain ⟨k, hk⟩ := hsz
    rw [hk]
    have hd : c1.meas.deref (.at m.time c.meas.fresh) = .ok ⟨m.time, c.meas.fresh, m⟩ :=
      Buf.deref_mem hms1 hmn
    have hi : c1.meas.incr (.at m.time c.meas.fresh) = .ok .fin := by
      have := Buf.incr_at (b := c1.meas) (A := c.meas.nodes) (n := ⟨m.time, c.meas.fresh, m⟩) (B := [])
        (by rw [← hc1]) hms1
      simpa [Buf.toIter, Node.iter] using this
    have hend : Core.measLoop ⟨.gnu s1, pm⟩ K (k + 1) c1 .fin false = .ok (c1, false, false) := by
      simp [Core.measLoop]
    have hg : Core.getClosestState ⟨.gnu s1, pm⟩ K c1 m.time = .ok (c1, none) := by
      unfold Core.getClosestState
      rw [hc1s]
      simp only [hzi, bind, Except.bind, Buf.deref_mem hs hz]
      rw [if_pos (Or.inr (hfar z hz))]
      rfl
    rw [Core.measLoop]
    rw [if_neg (by simp)]
    simp only [hd, bind, Except.bind, hi, hend, hg]
    split <;> rfl
  rw [hloop]
  simp only [bind, Except.bind, pure, Except.pure]
  rw [if_pos (Or.inr trivial)]
  subst hc1
  exact ⟨_, rfl, rfl, rfl, rfl, rfl, rfl, rfl, rfl, Or.inl rfl⟩

/-! ## C18 -/

/-- **C18 (partial).** An IMU reading newer than the newest state, when the covariance is valid up to
that state: the new state is appended, with the covariance predicted from its predecessor, and this
is what is published.  Missing: readings older than the newest state, whose covariance stays zero
(`C18_violated`). -/
theorem C18_new_state_covariance_partial (env : Env) (K : Kernel A W X C M T E)
    (c : Core A W X C M T) (hi : c.inited = true)
    (hs : c.states.nodes.Pairwise (fun a b => a.key < b.key))
    (last : Node (St A W X C)) (hlast : c.states.nodes.getLast? = some last)
    (hit : c.itImu = .at last.key last.id) (htP : c.tP = last.key) (hq : c.queue = [])
    (t : ℚ) (u : Input A W) (hinv : last.key ≠ invalidTime) (ht : last.key < t)
    (hgap : c.predMade = true ∨ t - last.key ≤ 1 / 10) (hsp : K.spike u.a = false) :
    ∃ c' n, Core.processIMU env K c t u = .ok c' ∧ c'.states.nodes = c.states.nodes ++ [n] ∧
      n.key = t ∧ n.val.u = u ∧
      n.val.x = K.prop (t - last.key) last.val.u last.val.x u ∧
      n.val.P = K.predP (t - last.key) last.val.P u n.val.x ∧
      c'.tP = t ∧ c'.itImu = .at n.key n.id ∧ c'.queue = [] ∧
      c'.out = c.out ++ [.afterPropagation t n.val.x n.val.P] := by
  obtain ⟨Al, hAl⟩ : ∃ Al, c.states.nodes = Al ++ [last] := by
    rcases List.eq_nil_or_concat c.states.nodes with h0 | ⟨Al, a', h0⟩
    · rw [h0] at hlast; simp at hlast
    · rw [List.concat_eq_append] at h0
      rw [h0] at hlast
      simp at hlast
      subst hlast
      exact ⟨Al, h0⟩
  have hs' : SortedL c.states.nodes := hs
  have hlm : last ∈ c.states.nodes := by rw [hAl]; simp
  have hlt : ∀ z ∈ c.states.nodes, z.key < t := by
    intro z hz
    rw [hAl] at hz
    have hs2 := hs'
    rw [hAl, SortedL.append_iff] at hs2
    rcases List.mem_append.1 hz with hz | hz
    · exact (hs2.2.2 z hz last (by simp)).trans ht
    · rw [List.mem_singleton.1 hz]; exact ht
  have hfind : c.states.find t = none := by
    rw [Buf.find_none_iff]; intro z hz; exact (hlt z hz).ne
  set s : St A W X C := ⟨u, K.prop (t - last.key) last.val.u last.val.x u, K.P0⟩ with hsdef
  set n0 : SN A W X C := ⟨t, c.states.fresh, s⟩ with hn0
  have hins : insertNode n0 c.states.nodes = c.states.nodes ++ [n0] := by
    have := insertNode_append (n := n0) (A := c.states.nodes) (B := []) hlt (by simp)
    simpa using this
  have hs1 : SortedL (c.states.nodes ++ [n0]) := by
    rw [← hins]; exact sorted_insertNode hs' (fun z hz => (hlt z hz).ne)
  set cur : SN A W X C := pStep K last n0 with hcur
  have hstep : ∀ c1 : Core A W X C M T, c1.states = ⟨c.states.nodes ++ [n0], c.states.fresh + 1⟩ →
      c1.tP = last.key → ∃ c2, Core.propagatePOneStep K c1 = .ok c2 ∧
        c2.states = ⟨c.states.nodes ++ [cur], c.states.fresh + 1⟩ ∧ c2.tP = t ∧
        c2.itImu = c1.itImu ∧ c2.queue = c1.queue ∧ c2.out = c1.out := by
    intro c1 hc1 htp
    have hn1 : c1.states.nodes = Al ++ last :: n0 :: [] := by rw [hc1, hAl]; simp
    have hsn : SortedL c1.states.nodes := by rw [hc1]; exact hs1
    unfold Core.propagatePOneStep
    rw [htp, Core.iterAtValue_mem hsn (n := last) (by rw [hn1]; simp)]
    have hi : c1.states.incr last.iter = .ok n0.iter := Buf.incr_at hn1 hsn
    simp only [bind, Except.bind, pure, Except.pure, hi]
    rw [if_neg (by simp [Node.iter]), Buf.deref_mem hsn (n := last) (by rw [hn1]; simp),
      Buf.deref_mem hsn (n := n0) (by rw [hn1]; simp)]
    simp only
    rw [Core.predictCov_eq K c1 hn1 hsn, hc1]
    split
    · exact ⟨_, rfl, by simp [hAl, hcur], rfl, rfl, rfl, rfl⟩
    · exact ⟨_, rfl, by simp [hAl, hcur], rfl, rfl, rfl, rfl⟩
  have hciter : cur.iter = .at t c.states.fresh := by rw [hcur]; rfl
  have hpend : ∀ c2 : Core A W X C M T, c2.queue = [] → Core.handlePending env K c2 = .ok c2 := by
    intro c2 h2
    unfold Core.handlePending
    simp only [h2]
  have key : ∀ c1 : Core A W X C M T, c1.states = c.states → c1.tP = c.tP → c1.queue = c.queue →
      c1.out = c.out → ∃ c' : Core A W X C M T, Core.imuPropagate env K c1 last t u = .ok c' ∧
        c'.states = ⟨c.states.nodes ++ [cur], c.states.fresh + 1⟩ ∧ c'.tP = t ∧ c'.itImu = cur.iter ∧
        c'.queue = [] ∧ c'.out = c.out ++ [.afterPropagation t cur.val.x cur.val.P] := by
    intro c1 e1 e2 e3 e4
    unfold Core.imuPropagate
    have hf1 : c1.states.find t = none := by rw [e1]; exact hfind
    have hnd : (⟨insertNode ⟨t, c1.states.fresh, ⟨u, K.prop (t - last.key) last.val.u last.val.x u,
        K.P0⟩⟩ c1.states.nodes, c1.states.fresh + 1⟩ : Buf (St A W X C))
        = ⟨c.states.nodes ++ [n0], c.states.fresh + 1⟩ := by rw [e1, ← hins]
    simp only [Buf.insert_of_none hf1, hnd]
    obtain ⟨c2, g1, g2, g3, g4, g5, g6⟩ := hstep
      { c1 with states := ⟨c.states.nodes ++ [n0], c.states.fresh + 1⟩, itImu := .at t c1.states.fresh }
      rfl (e2.trans htP)
    rw [g1]
    simp only [bind, Except.bind, pure, Except.pure, hf1, Option.isSome_none, Bool.false_eq_true,
      if_false]
    have hd : c2.states.deref (.at t c1.states.fresh) = .ok cur := by
      have hfr : (c.states.nodes ++ [cur]).map frame = (c.states.nodes ++ [n0]).map frame := by
        simp [hcur, frame, pStep]
      have := Buf.deref_mem (b := ⟨c.states.nodes ++ [cur], c.states.fresh + 1⟩)
        ((sorted_of_frame hfr).2 hs1) (n := cur) (by simp)
      rw [g2, e1, ← hciter]
      exact this
    rw [hd]
    simp only [Except.map]
    have hq2 : c2.queue = [] := g5.trans (e3.trans hq)
    have hitc : c2.itImu = cur.iter := by rw [g4, e1, hciter]
    have ho : c2.out = c.out := g6.trans e4
    split
    · split
      · exact ⟨_, hpend _ hq2, g2, g3, hitc, hq2, by rw [← ho]⟩
      · exact ⟨_, rfl, g2, g3, hitc, hq2, by rw [← ho]⟩
    · split
      · exact ⟨_, hpend _ hq2, g2, g3, hitc, hq2, by rw [← ho]⟩
      · exact ⟨_, rfl, g2, g3, hitc, hq2, by rw [← ho]⟩
  have hne : c.itImu ≠ .fin := by rw [hit]; simp
  have hd : c.states.deref c.itImu = .ok last := by
    rw [hit]; exact Buf.deref_mem hs' hlm
  obtain ⟨c', g1, g2, g3, g4, g5, g6⟩ := key { c with lastAmImu := last.val.u.a } rfl rfl rfl rfl
  refine ⟨c', cur, ?_, by rw [g2], rfl, rfl, rfl, rfl, g3, g4, g5, g6⟩
  unfold Core.processIMU
  rw [if_neg (by simp [hi])]
  simp only [if_neg hne, bind, Except.bind, pure, Except.pure, hd]
  rw [if_neg hinv, if_neg (by rintro ⟨hx, _⟩; linarith)]
  simp only [hsp, Bool.false_eq_true, if_false]
  rw [if_neg (by
    rintro ⟨h1, h2⟩
    rcases hgap with hg | hg
    · rw [hg] at h1; cases h1
    · rw [abs_of_pos (by linarith)] at h2; linarith)]
  exact g1

/-! ## C19 -/

/-- The stamps of a call sequence are close: every IMU reading is within 0.1 s of the previous reading
or `Init`. -/
def closeStamps : ℚ → List (Api A W X C M E) → Prop
  | _, [] => True
  | _, .init t _ :: os => closeStamps t os
  | p, .imu t _ :: os => |t - p| ≤ 1 / 10 ∧ closeStamps t os
  | p, _ :: os => closeStamps p os

/-- **C19 (partial).** Sequences of `Init` and IMU calls whose stamps are within 0.1 s of each other
never use a dangling `it_last_IMU_` nor reach any other undefined behaviour, for every kernel
(including one that un-initialises the filter), on every platform, from the newly constructed filter.
Missing: gaps of more than 0.1 s before predictions are running, see `C19_violated`; measurements
are covered by `C20_no_undefined_behaviour_partial`. -/
theorem C19_imu_safe_partial (env : Env) (K : Kernel A W X C M T E) (p : ℚ)
    (os : List (Api A W X C M E))
    (hos : ∀ o ∈ os, (∃ t s, o = .init t s ∧ 0 < t) ∨ ∃ t u, o = .imu t u ∧ 0 < t)
    (hclose : closeStamps p os) :
    ∃ c', Core.apis env K (Core.new K) os = .ok c' := by
  suffices h : ∀ (os : List (Api A W X C M E)) (c : Core A W X C M T) (p : ℚ),
      (∀ o ∈ os, (∃ t s, o = .init t s ∧ 0 < t) ∨ ∃ t u, o = .imu t u ∧ 0 < t) →
      closeStamps p os → (c.inited = true → ImuSafe c p ∧ p ≠ invalidTime) →
      ∃ c', Core.apis env K c os = .ok c' by
    exact h os _ p hos hclose (fun h => by cases h)
  intro os
  induction os with
  | nil => intro c p _ _ _; exact ⟨c, rfl⟩
  | cons o os ih =>
    intro c p hos hclose hc
    have hos' : ∀ o ∈ os, (∃ t s, o = .init t s ∧ 0 < t) ∨ ∃ t u, o = .imu t u ∧ 0 < t :=
      fun o' ho' => hos o' (by simp [ho'])
    have hpos : ∀ t : ℚ, 0 < t → t ≠ invalidTime := by
      intro t ht h
      rw [h] at ht
      exact absurd ht (by decide +kernel)
    rcases hos o (by simp) with ⟨t, s, rfl, ht⟩ | ⟨t, u, rfl, ht⟩
    · simp only [Core.apis, Core.api, bind, Except.bind]
      exact ih _ t hos' hclose (fun _ => ⟨ImuSafe.init K c t s, hpos t ht⟩)
    · obtain ⟨c', e, h'⟩ := ImuSafe.imu (K := K) env (fun h => (hc h).1) t u hclose.1
      simp only [Core.apis, Core.api, bind, Except.bind, e]
      refine ih c' t hos' hclose.2 (fun hin => ?_)
      rcases h' hin with h1 | ⟨h1, h2⟩
      · exact ⟨h1, hpos t ht⟩
      · subst h1
        exact absurd h2 (hc hin).2

end

/-! ## C22 -/

section
variable {A W X C M T : Type}

/-- **C22 (partial).** On libstdc++, unless the buffer holds exactly two measurements in a tree whose
root is the newer one (`C22_violated`): `GetPreviousMeasurement` returns the latest buffered
measurement of the given sensor before `t`, and the invalid object if there is none; it reads nothing
outside the buffer. -/
theorem C22_previous_measurement_partial (ps : Plat) (shape : Nat → List ℚ → Bool)
    (c : Core A W X C M T) (hs : c.meas.nodes.Pairwise (fun a b => a.key < b.key))
    (pre post : List (Node (Meas M))) (n : Node (Meas M)) (hsplit : c.meas.nodes = pre ++ n :: post)
    (h2 : c.meas.nodes.length = 2 → shape c.meas.fresh c.meas.keys = false) (sensor : Int) :
    Core.getPreviousMeasurement ⟨ps, .gnu shape⟩ c n.key sensor =
      .ok ((pre.filter (fun z => z.val.sensor = sensor)).getLast?) := by
  have hs' : SortedL c.meas.nodes := hs
  have hn : n ∈ c.meas.nodes := by rw [hsplit]; simp
  have hne : c.meas.nodes ≠ [] := by rw [hsplit]; simp
  obtain ⟨bb, hbb, hcase⟩ := Buf.decBegin_gnu (shape := shape) hne
  have hsp := hs'
  rw [hsplit, SortedL.append_iff] at hsp
  have hprek : ∀ z ∈ pre, z.key ≠ n.key := fun z hz => (hsp.2.2 z hz n (by simp)).ne
  have hpreb : ∀ z ∈ pre, z.iter ≠ bb := by
    intro z hz
    rcases hcase with rfl | ⟨rfl, hlen | ⟨hlen, hsh⟩⟩
    · simp [Node.iter]
    · rw [hsplit] at hlen
      simp only [List.length_append, List.length_cons] at hlen
      have : 0 < pre.length := List.length_pos_of_mem hz
      omega
    · rw [h2 hlen] at hsh; cases hsh
  unfold Core.getPreviousMeasurement
  have hit : c.meas.iterAtValue n.key = n.iter := Core.iterAtValue_mem hs' hn
  have hdec : c.meas.decr (.gnu shape) n.iter = .ok (lastOr bb pre) := by
    rcases List.eq_nil_or_concat pre with rfl | ⟨P', y, rfl⟩
    · rw [Buf.decr_first (B := post) (by simpa using hsplit) hs', hbb]; simp [lastOr]
    · rw [List.concat_eq_append] at hsplit ⊢
      rw [Buf.decr_at (A := P') (m := y) (n := n) (B := post) (by simpa using hsplit) hs']
      simp [lastOr]
  have hbef : c.meas.iterBeforeBegin (.gnu shape) = .ok bb := by
    unfold Buf.iterBeforeBegin; exact hbb
  have hloop := prevLoop_eq ⟨ps, .gnu shape⟩ c n.key sensor bb hbb hs' pre (c.meas.size + 1)
    (by rw [Buf.size, hsplit]; simp; omega) (n :: post) hsplit hprek hpreb
  simp only [hit, Buf.deref_mem hs' hn, bind, Except.bind, pure, Except.pure, hdec, hbef, hloop]
  rw [if_neg (by simp)]
  cases hl : (pre.filter (fun z => z.val.sensor = sensor)).getLast? with
  | none => simp [lastOr, hl]
  | some z =>
    have hz : z ∈ pre := (List.mem_filter.1 (List.mem_of_getLast? hl)).1
    have e : lastOr bb (pre.filter (fun z => z.val.sensor = sensor)) = z.iter := by
      simp [lastOr, hl]
    rw [e, if_neg (hpreb z hz), Buf.deref_mem hs' (by rw [hsplit]; simp [hz])]

end

/-! ## Witnesses -/

namespace Demo

/-- Four IMU readings after `Init` at time 1. -/
def four : List (Op ℚ ℚ ℚ) :=
  [imu (101/100) 1, imu (102/100) 2, imu (103/100) 3, imu (104/100) 1]

/-- Run of a kernel from `Init` at time 1. -/
def runOf (K : Kernel ℚ ℚ ℚ ℚ ℚ Unit Unit) (ops : List (Op ℚ ℚ ℚ)) :
    Except UB (Core ℚ ℚ ℚ ℚ ℚ Unit) := Core.calls env K (c0.init K 1 s0) ops

end Demo
open Demo

/-- **C14 is violated.** A second measurement with the stamp of a buffered one: its value is lost
(the result does not depend on it), and the first one is applied a second time (the result differs
from the one without the second call), changing the covariance as if it carried information. -/
theorem C14_violated :
    view (runOf K (four ++ [meas (104/100) 5, meas (104/100) 9])) =
      view (runOf K (four ++ [meas (104/100) 5, meas (104/100) (-9)])) ∧
    view (runOf K (four ++ [meas (104/100) 5, meas (104/100) 9])) ≠
      view (runOf K (four ++ [meas (104/100) 5])) ∧
    view (runOf K (four ++ [meas (104/100) 5, meas (104/100) 9])) ≠ none := by
  decide +kernel

/-- **C14 is violated for measurements less than 2 ms apart that arrive in the wrong order.**  Both belong
to the state at 1.03; the second one of the arrivals is applied on top of the first one, and then the first
one is applied again: the variance is the one of three measurements, where the other order gives the
variance of two. -/
theorem C14_close_violated :
    let V := fun ops => (view (runOf K ops)).bind fun l =>
      (l.find? fun e => e.1 = 103/100).map fun e => e.2.2
    V four = some (103/100) ∧
    V (four ++ [meas (103/100) 9, meas (1031/1000) 5]) = some (1 / (1 / (103/100) + 2)) ∧
    V (four ++ [meas (1031/1000) 5, meas (103/100) 9]) = some (1 / (1 / (103/100) + 3)) := by
  decide +kernel

/-- **C14 is violated for different sensors, too**: the measurement of sensor 1 with the stamp of a
measurement of sensor 0 is lost. -/
theorem C14_violated_two_sensors :
    view (runOf K (four ++ [.meas ⟨104/100, 0, 5⟩, .meas ⟨104/100, 1, 9⟩])) =
      view (runOf K (four ++ [.meas ⟨104/100, 0, 5⟩, .meas ⟨104/100, 1, -9⟩])) ∧
    view (runOf K (four ++ [.meas ⟨104/100, 0, 5⟩, .meas ⟨104/100, 1, 9⟩])) ≠ none := by
  decide +kernel

/-- **C15 is violated.** A rejected measurement that is older than an applied one: the applied one is
used a second time without re-propagating the covariance in between, so mean or covariance change. -/
theorem C15_violated :
    (∀ n ∈ (((runOf Kout (four ++ [meas (103/100) 5])).toOption.map (·.states.nodes)).getD []),
      n.key = 101/100 → (Kout.update () 100 n.val.x n.val.P).applied = false) ∧
    view (runOf Kout (four ++ [meas (103/100) 5])) ≠ none ∧
    view (runOf Kout (four ++ [meas (103/100) 5, meas (101/100) 100])) ≠ none ∧
    view (runOf Kout (four ++ [meas (103/100) 5, meas (101/100) 100])) ≠
      view (runOf Kout (four ++ [meas (103/100) 5])) := by
  decide +kernel

/-- **C15 depends on the arrival order.** The same two measurements in the other order. -/
theorem C15_violated_order :
    view (runOf Kout (four ++ [meas (103/100) 5, meas (101/100) 100])) ≠
      view (runOf Kout (four ++ [meas (101/100) 100, meas (103/100) 5])) := by
  decide +kernel

/-- **C16 is violated.** With a gap in the IMU data, a measurement inside the gap has no state within
0.1 s and cannot be used; nevertheless a newer buffered measurement is applied a second time. -/
theorem C16_violated :
    view (runOf K (four ++ [imu (3/2) 1, meas (3/2) 5, meas (5/4) 7])) ≠
      view (runOf K (four ++ [imu (3/2) 1, meas (3/2) 5])) ∧
    view (runOf K (four ++ [imu (3/2) 1, meas (3/2) 5, meas (5/4) 7])) =
      view (runOf K (four ++ [imu (3/2) 1, meas (3/2) 5, meas (5/4) (-7)])) ∧
    view (runOf K (four ++ [imu (3/2) 1, meas (3/2) 5, meas (5/4) 7])) ≠ none := by
  decide +kernel

/-- **C18 is violated.** An IMU reading 5 ms older than the newest one is inserted with the covariance
zero of a new state object, and this is published. -/
theorem C18_violated :
    (∃ n ∈ (((runOf K (four ++ [imu (1035/1000) 1])).toOption.map (·.states.nodes)).getD []),
      n.key = 1035/1000 ∧ n.val.P = 0) ∧
    (((runOf K (four ++ [imu (1035/1000) 1])).toOption.map (·.out.getLast?)).getD none).isSome = true ∧
    ∀ n ∈ (((runOf K four).toOption.map (·.states.nodes)).getD []), 1 ≤ n.val.P := by
  decide +kernel

/-- **C19 is violated.** `Init`, then an IMU reading more than 0.1 s later, then another reading: the
second one dereferences an iterator to an erased node. -/
theorem C19_violated :
    ub (runOf K [imu 2 1]) = none ∧ ub (runOf K [imu 2 1, imu (201/100) 1]) = some .dangling := by
  decide +kernel

/-- **C20 is violated.** A measurement more than 60 s late: the clean-up inside `GetClosestState`
erases the node at which the measurement loop stands. -/
theorem C20_violated :
    ub (runOf K (four ++ List.replicate 100 (meas (104/100) 5) ++ [imu 100 1, meas 100 1])) = none ∧
    ub (runOf K (four ++ List.replicate 100 (meas (104/100) 5) ++
      [imu 100 1, meas 100 1, meas (103/100) 1])) = some .dangling := by
  decide +kernel

/-- **C20 is violated on a strict platform.** The standard does not define `--begin()`, which is
executed whenever a measurement is not exactly at the time of a state. -/
theorem C20_violated_std :
    ub (Core.calls ⟨.std, .std⟩ K (c0.init K 1 s0) (four ++ [meas (1035/1000) 5])) =
      some .decBegin := by
  decide +kernel

/-- **C22 is violated.** Two measurements of the same sensor in a tree whose root is the newer one:
the older one is not found as the predecessor of the newer one. -/
theorem C22_violated :
    let c : Core ℚ ℚ ℚ ℚ ℚ Unit := { c0 with meas := ⟨[⟨1, 0, ⟨1, 0, 5⟩⟩, ⟨2, 1, ⟨2, 0, 6⟩⟩], 2⟩ }
    (Core.getPreviousMeasurement ⟨.gnu fun _ _ => true, .gnu fun _ _ => true⟩ c 2 0).toOption =
        some none ∧
    (Core.getPreviousMeasurement ⟨.gnu fun _ _ => false, .gnu fun _ _ => false⟩ c 2 0).toOption =
        some (some ⟨1, 0, ⟨1, 0, 5⟩⟩) := by
  decide +kernel

/-- **C55 is violated.** Two filters with different past are initialised with the same measurement and
get the same single reading: they answer differently, since the static variable `last_am` survives
`Init`. -/
theorem C55_violated :
    let past (a : ℚ) : List (Api ℚ ℚ ℚ ℚ ℚ Unit) :=
      [.init 1 s0, .imu (101/100) ⟨a, 0⟩, .imu (102/100) ⟨a, 0⟩]
    let now : List (Api ℚ ℚ ℚ ℚ ℚ Unit) := [.init 5 s0, .imu (501/100) ⟨99, 0⟩]
    view (Core.apis env K c0 (past 1 ++ now)) ≠ view (Core.apis env K c0 (past 2 ++ now)) ∧
    view (Core.apis env K c0 (past 1 ++ now)) ≠ none ∧
    view (Core.apis env K c0 (past 2 ++ now)) ≠ none := by
  decide +kernel

/-! ## Examples: the hypotheses of the theorems of this file and of `Props/Core.lean` are met -/

namespace Demo

/-- Evaluate a decidable statement about the result of a run. -/
theorem reach (r : Except UB (Core ℚ ℚ ℚ ℚ ℚ Unit)) (p : Core ℚ ℚ ℚ ℚ ℚ Unit → Prop)
    [DecidablePred p] (h : (r.toOption.any (fun c => decide (p c))) = true) : ∃ c, r = .ok c ∧ p c := by
  cases r with
  | error e => cases h
  | ok c => exact ⟨c, rfl, of_decide_eq_true h⟩

/-- C07. -/
example : c0.inited = false ∧ (c0.init K 1 s0).predMade = false := by decide +kernel

/-- C08: an admissible run after a re-initialisation with a non-trivial past. -/
example : ∃ c, runOf K (four ++ [meas (104/100) 5]) = .ok c ∧
    (startLog 5 s0.u c.lastAmImu).okRun K.spike (fun _ => true)
      [imu (501/100) 1, imu (502/100) 99] :=
  reach _ _ (by decide +kernel)

/-- C13: a measurement older than all states, in a running filter. -/
example : ∃ c, runOf K four = .ok c ∧ (c.predMade = true ∧ c.states.nodes ≠ [] ∧
    ∀ n ∈ c.states.nodes, (1/2 : ℚ) < n.key) :=
  reach _ _ (by decide +kernel)

/-- C17: the clock jumps back by one second. -/
example : ∃ c, runOf K four = .ok c ∧ (c.inited = true ∧ c.predMade = true ∧
    ∃ last ∈ c.states.nodes, (c.states.deref c.itImu).toOption = some last ∧
      last.key ≠ invalidTime ∧ (4/100 : ℚ) < last.key - 1/100) :=
  reach _ _ (by decide +kernel)

/-- C14: a running filter with a buffered measurement at the stamp of the new one. -/
example : ∃ c, runOf K (four ++ [meas (104/100) 5]) = .ok c ∧
    ((∃ n ∈ c.states.nodes, c.states.nodes.getLast? = some n ∧ (104/100 : ℚ) ≤ n.key) ∧
      ∃ z ∈ c.meas.nodes, z.key = 104/100) :=
  reach _ _ (by decide +kernel)

/-- C14, partial form: four measurements of the run count, and the states of all are kept. -/
example : let L := (startLog 1 s0.u c0.lastAmImu).run K.spike ops
    L.hist.length = 4 ∧ ∀ m ∈ L.hist, L.newest - 60 ≤ target L.stamps m.time := by decide +kernel

/-- C15: a run that ends with a measurement rejected by the state at 1.04. -/
example : (startLog 1 s0.u c0.lastAmImu).okRun Kout.spike (fun _ => false)
    (four ++ [meas (103/100) 5] ++ [meas (104/100) 100]) := by decide +kernel

example : ∃ c, runOf Kout (four ++ [meas (103/100) 5]) = .ok c ∧
    (∃ n ∈ c.states.nodes,
      n.key = target ((startLog 1 s0.u c0.lastAmImu).run Kout.spike
        (four ++ [meas (103/100) 5])).stamps (104/100) ∧
      (Kout.update () 100 n.val.x n.val.P).applied = false) :=
  reach _ _ (by decide +kernel)

/-- C16: a gap in the IMU data and a measurement inside it. -/
example : ∃ c, runOf K (four ++ [imu (3/2) 1]) = .ok c ∧ (c.predMade = true ∧
    c.states.nodes.Pairwise (fun a b => a.key < b.key) ∧ c.states.nodes ≠ [] ∧
    (∀ n ∈ c.states.nodes, 1 / 10 < |n.key - 5/4|) ∧ ∀ n ∈ c.meas.nodes, n.key < (5/4 : ℚ)) :=
  reach _ _ (by decide +kernel)

/-- C18: the filter after four readings gets a fifth one. -/
example : ∃ c, runOf K four = .ok c ∧ (c.inited = true ∧ c.queue = [] ∧
    ∃ last ∈ c.states.nodes, c.states.nodes.getLast? = some last ∧
      c.itImu = .at last.key last.id ∧ c.tP = last.key ∧ last.key < 105/100) :=
  reach _ _ (by decide +kernel)

/-- C19: readings, a new `Init`, and a reading slightly out of order. -/
example : closeStamps 0 ([.init 1 s0, .imu (101/100) ⟨1, 0⟩, .imu (1005/1000) ⟨1, 0⟩, .init 5 s0,
    .imu (505/100) ⟨1, 0⟩] : List (Api ℚ ℚ ℚ ℚ ℚ Unit)) := by
  refine ⟨?_, ?_, ?_, trivial⟩ <;> norm_num

/-- C22: three measurements of two sensors. -/
example : let c : Core ℚ ℚ ℚ ℚ ℚ Unit :=
      { c0 with meas := ⟨[⟨1, 0, ⟨1, 0, 5⟩⟩, ⟨2, 1, ⟨2, 1, 6⟩⟩, ⟨3, 2, ⟨3, 0, 7⟩⟩], 3⟩ }
    (Core.getPreviousMeasurement env c 3 0).toOption = some (some ⟨1, 0, ⟨1, 0, 5⟩⟩) := by
  decide +kernel

end Demo
end MSF
