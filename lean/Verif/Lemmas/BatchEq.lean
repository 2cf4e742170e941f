import Verif.Lemmas.Inv2

/-!
# The invariant implies equality with the batch filter; runs of calls
-/

namespace MSF
open Spec
variable {A W X C M T E : Type}
variable [AddCommGroup A] [Module ℚ A] [AddCommGroup W] [Module ℚ W]

/-- Key and contents of a buffered state. -/
def entry (n : SN A W X C) : ℚ × St A W X C := (n.key, n.val)

omit [AddCommGroup A] [Module ℚ A] [AddCommGroup W] [Module ℚ W] in
theorem correct_eq_updXP (K : Kernel A W X C M T E) (o : Option M) (s : X × C) :
    correct K o s = updXP K o s := by
  cases o <;> rfl

omit [AddCommGroup A] [Module ℚ A] [AddCommGroup W] [Module ℚ W] in
theorem forward_of_chain (K : Kernel A W X C M T E) (inp : ℚ → Input A W) (ms : ℚ → Option M) :
    ∀ (l : List (SN A W X C)) (a : SN A W X C), (a :: l).IsChain (Rel K ms) →
      (∀ n ∈ l, n.val.u = inp n.key) →
      l.map entry = forward K inp ms (entry a) (l.map Node.key)
  | [], _, _, _ => rfl
  | b :: l, a, hc, hu => by
    rw [List.isChain_cons_cons] at hc
    have hb := hu b (by simp)
    have hr := hc.1
    unfold Rel priorOf at hr
    rw [← correct_eq_updXP, hb] at hr
    simp only [List.map_cons, forward, entry]
    have e : b.val = ⟨inp b.key,
        (correct K (ms b.key) (K.prop (b.key - a.key) a.val.u a.val.x (inp b.key),
          K.predP (b.key - a.key) a.val.P (inp b.key)
            (K.prop (b.key - a.key) a.val.u a.val.x (inp b.key)))).1,
        (correct K (ms b.key) (K.prop (b.key - a.key) a.val.u a.val.x (inp b.key),
          K.predP (b.key - a.key) a.val.P (inp b.key)
            (K.prop (b.key - a.key) a.val.u a.val.x (inp b.key)))).2⟩ := by
      rw [← hr]
      obtain ⟨k, i, v⟩ := b
      simp only at hb ⊢
      rw [← hb]
    rw [← e]
    congr 1
    exact forward_of_chain K inp ms l b hc.2 (fun n hn => hu n (by simp [hn]))

omit [AddCommGroup A] [Module ℚ A] [AddCommGroup W] [Module ℚ W] in
theorem mem_times {L : Log A W M} {k : ℚ} :
    k ∈ times L ↔ k ∈ L.stamps ∨ ∃ m ∈ L.hist, target L.stamps m.time = k := by
  simp [times]

omit [AddCommGroup A] [Module ℚ A] [AddCommGroup W] [Module ℚ W] in
theorem times_sortedLT (L : Log A W M) : (times L).SortedLT := by
  have h1 : (times L).Pairwise (· ≤ ·) := List.pairwise_insertionSort _ _
  have h2 : (times L).Nodup := (List.perm_insertionSort _ _).nodup_iff.2 (List.nodup_dedup _)
  have h3 : (times L).Pairwise (· < ·) := by
    have := List.pairwise_and_iff.2 ⟨h1, h2⟩
    exact this.imp (fun h => lt_of_le_of_ne h.1 h.2)
  exact h3.sortedLT

/-- Discarded and kept states together are the batch filter on the log. -/
theorem Inv.batch {K : Kernel A W X C M T E} {s0 : X × C} {c : Core A W X C M T} {L : Log A W M}
    {D : List (SN A W X C)} (h : Inv K s0 c L D) :
    (D ++ c.states.nodes).map entry = Spec.batch K s0.1 s0.2 L := by
  have hk : (D ++ c.states.nodes).map Node.key = times L := by
    have hs := h.sorted
    rw [Buf.sorted_iff_keys] at hs
    refine List.SortedLT.eq_of_mem_iff hs.sortedLT (times_sortedLT L) ?_
    intro k
    rw [h.keys k, mem_times]
  unfold Spec.batch
  rw [← hk]
  have hc := h.cons
  have hi := h.inputs
  cases e : D ++ c.states.nodes with
  | nil => rfl
  | cons a l =>
    rw [e] at hc hi
    have h1 := hc.head a rfl
    have h2 := hi a (by simp)
    simp only [List.map_cons]
    rw [correct_eq_updXP, ← h1, ← h2]
    have := forward_of_chain K (inputAt L.imu) (measAt L.stamps L.hist) l a hc.chain
      (fun n hn => hi n (by simp [hn]))
    rw [this]
    rfl

omit [AddCommGroup A] [Module ℚ A] [AddCommGroup W] [Module ℚ W] in
theorem getLast?_append_of_some {α : Type} {l l' : List α} {x : α} (h : l'.getLast? = some x) :
    (l ++ l').getLast? = some x := by
  simp [List.getLast?_append, h]

theorem Inv.batch_last {K : Kernel A W X C M T E} {s0 : X × C} {c : Core A W X C M T}
    {L : Log A W M} {D : List (SN A W X C)} (h : Inv K s0 c L D) :
    (Spec.batch K s0.1 s0.2 L).getLast? = c.states.nodes.getLast?.map entry := by
  obtain ⟨n, hn, _⟩ := h.last
  rw [← h.batch, List.getLast?_map, getLast?_append_of_some hn, hn]

theorem Inv.newestEvent_upd {K : Kernel A W X C M T E} {s0 : X × C} {c : Core A W X C M T}
    {L : Log A W M} {D : List (SN A W X C)} (h : Inv K s0 c L D) :
    newestEvent .afterUpdate (Spec.batch K s0.1 s0.2 L) = lastUpd c := by
  unfold newestEvent lastUpd
  rw [h.batch_last]
  cases c.states.nodes.getLast? <;> rfl

theorem Inv.measEvents {K : Kernel A W X C M T E} {s0 : X × C} {c : Core A W X C M T}
    {L : Log A W M} {D : List (SN A W X C)} {m : Meas M} (h : Inv K s0 c (L.deliver m) D) :
    Spec.measEvents K s0.1 s0.2 L m = updOut L m c := by
  unfold Spec.measEvents updOut
  rw [h.newestEvent_upd]

/-- One admissible call: it succeeds, keeps the invariant and publishes what it should. -/
theorem Inv.call {K : Kernel A W X C M T E} {s0 : X × C} (hK : K.Regular) (s1 s2)
    {c : Core A W X C M T} {L : Log A W M} {D : List (SN A W X C)} (h : Inv K s0 c L D)
    (o : Op A W M) {sure : M → Bool} (hsure : K.Sure sure) (hok : L.ok K.spike sure o) :
    ∃ c' D', Core.call (gnuEnv s1 s2) K c o = .ok c' ∧ Inv K s0 c' (L.step K.spike o) D' ∧
      c'.out = c.out ++ events K s0.1 s0.2 L o := by
  cases o with
  | imu t u =>
    obtain ⟨c1, D1, cur, e1, h1, hk, ⟨D2, h2⟩, ho⟩ := h.imu hK s1 s2 hsure hok
    refine ⟨c1, D1, e1, h1, ?_⟩
    rw [ho, List.append_assoc]
    congr 1
    unfold events
    simp only
    congr 1
    · unfold newestEvent
      rw [h2.batch_last]
      simp [entry, hk]
    · unfold imuOut
      by_cases h3 : 3 < (L.addImu K.spike t u).imu.length
      · simp only [if_pos h3]
        simp only [Log.step, if_pos h3, Log.pop] at h1
        cases hq : (L.addImu K.spike t u).queue with
        | nil => rfl
        | cons m q =>
          rw [hq] at h1
          simp only
          rw [h1.measEvents]
      · simp only [if_neg h3]
  | meas m =>
    obtain ⟨c1, D1, e1, h1, ho⟩ := h.meas hK s1 s2 hsure hok
    refine ⟨c1, D1, e1, h1, ?_⟩
    rw [ho]
    congr 1
    unfold events
    by_cases h3 : 3 < L.imu.length
    · simp only [if_pos h3]
      simp only [Log.step, if_pos h3] at h1
      rw [h1.measEvents]
    · simp only [if_neg h3]

/-- Any sequence of admissible calls. -/
theorem Inv.run {K : Kernel A W X C M T E} {s0 : X × C} (hK : K.Regular) {sure : M → Bool}
    (hsure : K.Sure sure) (s1 s2) :
    ∀ (ops : List (Op A W M)) {c : Core A W X C M T} {L : Log A W M} {D : List (SN A W X C)},
      Inv K s0 c L D → L.okRun K.spike sure ops →
      ∃ c' D', Core.calls (gnuEnv s1 s2) K c ops = .ok c' ∧
        Inv K s0 c' (L.run K.spike ops) D' ∧
        c'.out = c.out ++ eventsRun K s0.1 s0.2 L ops
  | [], c, L, D, h, _ => ⟨c, D, rfl, h, by simp [eventsRun]⟩
  | o :: ops, c, L, D, h, hok => by
    obtain ⟨c1, D1, e1, h1, o1⟩ := h.call hK s1 s2 o hsure hok.1
    obtain ⟨c2, D2, e2, h2, o2⟩ := Inv.run hK hsure s1 s2 ops h1 hok.2
    refine ⟨c2, D2, ?_, h2, ?_⟩
    · simp only [Core.calls, bind, Except.bind, e1]
      exact e2
    · rw [o2, o1, List.append_assoc]; rfl

end MSF
