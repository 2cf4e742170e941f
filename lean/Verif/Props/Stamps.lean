import Verif.Lemmas.Memory
import Verif.Props.Faults

/-!
# Times of what is published, and memory: C95, C96

`Api.clock` is the stamp of a call that initialises or propagates (`Init`, `ProcessIMU`,
`ProcessExternallyPropagatedState`); measurements may carry any stamp.
-/

namespace MSF

section
variable {A W X C M T E : Type}
variable [AddCommGroup A] [Module ℚ A] [AddCommGroup W] [Module ℚ W]

/-! ## C95 -/

/-- **C95 (partial).** If the stamps of initialisations, IMU readings and external states do not go
back, then nothing that is published goes back in time, whatever the measurements (late, ahead of the
IMU, rejected), for every kernel and platform.  Full claim: without `hclock`, since IMU readings up to
10 ms older than the last are accepted; false by `C95_imu_violated` and `C95_init_violated`. -/
theorem C95_published_in_order_partial (env : Env) (K : Kernel A W X C M T E)
    (os : List (Api A W X C M E)) (hclock : (os.filterMap Api.clock).Pairwise (· ≤ ·))
    (c : Core A W X C M T) (hc : Core.apis env K (Core.new K) os = .ok c) :
    (c.out.map Event.time).Pairwise (· ≤ ·) := by
  have h0 : ∀ b, (Core.new K : Core A W X C M T).Ordered b := fun b =>
    ⟨List.Pairwise.nil, by simp [Core.new], fun h => by cases h⟩
  cases hl : os.filterMap Api.clock with
  | nil => exact Core.Ordered.apis env os (h0 0) (by simp [hl]) hclock c hc
  | cons b l =>
    refine Core.Ordered.apis env os (h0 b) ?_ hclock c hc
    rw [hl] at hclock ⊢
    intro t ht
    rcases List.mem_cons.1 ht with rfl | ht
    · exact le_rfl
    · exact (List.pairwise_cons.1 hclock).1 t ht

/-! ## C96 -/

/-- **C96 (partial).** Consider the filter at some moment of any run, and let `T` be the time of its
newest state and `S` that of its newest measurement (or any earlier times).  As soon as 102 more updates
have been published, at most one state older than `T - 60` and at most one measurement older than
`S - 60` is buffered, provided that from then on nothing is stamped before `T` and no measurement
(waiting or arriving) is older than `T - 60` or `S - 60`.  So while updates are published, the buffers
hold about the last minute.  Full claim: the buffers hold about the last minute in every run; false by
`C96_imu_violated` and `C96_queue_violated`. -/
theorem C96_old_objects_go_partial (env : Env) (K : Kernel A W X C M T E)
    (os os' : List (Api A W X C M E)) (c c' : Core A W X C M T)
    (hc : Core.apis env K (Core.new K) os = .ok c) (hc' : Core.apis env K c os' = .ok c')
    (U S : ℚ) (hU : ∃ n ∈ c.states.nodes, U ≤ n.key)
    (hS : c.meas.nodes = [] ∨ ∃ n ∈ c.meas.nodes, S ≤ n.key)
    (hclock : ∀ o ∈ os', ∀ t, o.clock = some t → U ≤ t)
    (hmeas : ∀ m, (m ∈ c.queue ∨ .meas m ∈ os') → U - 60 ≤ m.time ∧ S - 60 ≤ m.time)
    (hup : (c.out.filter Event.isUpdate).length + 102 ≤ (c'.out.filter Event.isUpdate).length) :
    (c'.states.nodes.filter (fun n => n.key < U - 60)).length ≤ 1 ∧
    (c'.meas.nodes.filter (fun n => n.key < S - 60)).length ≤ 1 := by
  have h0 : (Core.new K : Core A W X C M T).Tidy False False 0 0 0 :=
    ⟨List.Pairwise.nil, List.Pairwise.nil, Nat.zero_le _, fun h => h.elim, fun h => h.elim,
      fun h => h.elim, fun h => h.elim, rfl⟩
  have h1 := Core.Tidy.apis env os h0 (fun h => h.elim) (fun h => h.elim) c hc
  have h2 : c.Tidy True False U S (Core.updatesOut c.out) := by
    refine ⟨h1.ss, h1.sm, h1.jan, fun _ m hm => hmeas m (.inl hm), fun _ => .inr ⟨hU, by simp⟩,
      fun _ => ?_, fun h => h.elim, rfl⟩
    rcases hS with hS | hS
    · exact .inl (by simp [Buf.old, hS])
    · exact .inr ⟨hS, by simp⟩
  have h3 := Core.Tidy.apis env os' h2 (fun _ => hclock)
    (fun _ o ho m e => hmeas m (.inr (e ▸ ho))) c' hc'
  have hj : ¬ (Core.updatesOut c'.out - Core.updatesOut c.out ≤ c'.janitor) := by
    have := h3.jan
    change Core.updatesOut c.out + 102 ≤ Core.updatesOut c'.out at hup
    omega
  exact ⟨(h3.st trivial).resolve_right fun h => hj h.2, (h3.me trivial).resolve_right fun h => hj h.2⟩

/-- **C96 is violated.** Without measurements every IMU reading stays in memory: for any number of
readings with increasing stamps, each within 0.1 s of the previous one and none a spike, the buffer
holds the initial state and one state for every one of them, the oldest being as old as the run. -/
theorem C96_imu_violated (env : Env) (K : Kernel A W X C M T E) (hnum : ∀ x, K.numPos x = true)
    (c : Core A W X C M T) (t : ℚ) (ht : 0 < t) (s : St A W X C) (rs : List (ℚ × Input A W))
    (hinc : List.IsChain (fun a b => a < b ∧ b - a ≤ 1 / 10) (t :: rs.map Prod.fst))
    (hsp : ∀ r ∈ rs, K.spike r.2.a = false) :
    ∃ c', Core.apis env K c (.init t s :: rs.map (fun r => .imu r.1 r.2)) = .ok c' ∧
      c'.states.nodes.map Node.key = t :: rs.map Prod.fst := by
  suffices h : ∀ (rs : List (ℚ × Input A W)) (c : Core A W X C M T) (last : Node (St A W X C)),
      c.inited = true → SortedL c.states.nodes → c.states.nodes.getLast? = some last →
      c.itImu = .at last.key last.id → c.tP = last.key → c.queue = [] → 0 < last.key →
      List.IsChain (fun a b => a < b ∧ b - a ≤ 1 / 10) (last.key :: rs.map Prod.fst) →
      (∀ r ∈ rs, K.spike r.2.a = false) →
      ∃ c', Core.apis env K c (rs.map (fun r => (.imu r.1 r.2 : Api A W X C M E))) = .ok c' ∧
        c'.states.nodes.map Node.key = c.states.nodes.map Node.key ++ rs.map Prod.fst by
    obtain ⟨c', e1, e2⟩ := h rs (c.init K t s) ⟨t, c.states.fresh, s⟩ rfl
      (Buf.sorted_insert (b := c.states.clear) List.Pairwise.nil _ _) rfl rfl rfl rfl ht hinc hsp
    exact ⟨c', e1, e2⟩
  intro rs
  induction rs with
  | nil => intro c last _ _ _ _ _ _ _ _ _; exact ⟨c, rfl, by simp⟩
  | cons r rs ih =>
    intro c last hi hs hlast hit htP hq hpos hch hsp
    obtain ⟨t', u⟩ := r
    rw [List.map_cons, List.isChain_cons_cons] at hch
    obtain ⟨⟨hlt, hgap⟩, hch⟩ := hch
    have hinv : last.key ≠ invalidTime := by
      intro h; rw [h] at hpos; exact absurd hpos (by decide +kernel)
    obtain ⟨c1, n, e1, e2, e3, -, -, -, e4, e5, e6, -⟩ := C18_new_state_covariance_partial env K c hi hs
      last hlast hit htP hq t' u hinv hlt (.inr hgap) (hsp _ (List.mem_cons_self ..))
    have hlm : last ∈ c.states.nodes := List.mem_of_getLast? hlast
    have hi1 : c1.inited = true := by
      have e1' := e1
      rw [Core.processIMU_form, if_neg (by simp [hi])] at e1'
      unfold Core.imuStart at e1'
      rw [if_neg (by rw [hit]; simp)] at e1'
      change (c.states.deref c.itImu >>= _) = _ at e1'
      rw [hit, show Iter.at last.key last.id = last.iter from rfl, Buf.deref_mem hs hlm] at e1'
      change Core.imuBody env K _ last t' u = _ at e1'
      unfold Core.imuBody at e1'
      rw [if_neg hinv, if_neg (by rintro ⟨h, -⟩; linarith), if_neg (by
        rintro ⟨-, h⟩
        rw [abs_of_pos (by linarith)] at h
        linarith)] at e1'
      refine Eq.trans (Core.imu_keeps_inited env K hnum _ ?_ t' _ last c1 e1') hi
      exact hq
    have hs1 : SortedL c1.states.nodes := by
      rw [e2, SortedL.append_iff]
      refine ⟨hs, by simp [SortedL], fun a ha b hb => ?_⟩
      rw [List.mem_singleton.1 hb, e3]
      refine lt_of_le_of_lt ?_ hlt
      obtain ⟨l, e⟩ := List.getLast?_eq_some_iff.1 hlast
      rw [e] at ha hs
      rcases List.mem_append.1 ha with ha | ha
      · exact ((List.pairwise_append.1 hs).2.2 a ha last (by simp)).le
      · rw [List.mem_singleton.1 ha]
    obtain ⟨c', g1, g2⟩ := ih c1 n hi1 hs1 (by rw [e2]; simp) e5 (by rw [e4, e3]) e6
      (by rw [e3]; linarith) (by rw [e3]; exact hch) (fun r hr => hsp r (List.mem_cons_of_mem _ hr))
    refine ⟨c', ?_, ?_⟩
    · simp only [List.map_cons, Core.apis, Core.api, bind, Except.bind, e1]
      exact g1
    · rw [g2, e2]
      simp [e3]

/-- **C96 is violated for waiting measurements.** Measurements stamped ahead of the newest state all
wait, however many there are. -/
theorem C96_queue_violated (env : Env) (K : Kernel A W X C M T E) (c : Core A W X C M T)
    (hi : c.inited = true) (hp : c.predMade = true) (last : Node (St A W X C))
    (hl : c.states.last = some last) (ms : List (Meas M)) (hm : ∀ m ∈ ms, last.key < m.time) :
    ∃ c', Core.apis env K c (ms.map .meas) = .ok c' ∧ c'.queue = c.queue ++ ms := by
  induction ms generalizing c with
  | nil => exact ⟨c, rfl, by simp⟩
  | cons m ms ih =>
    have e : Core.addMeasurement env K c m = .ok { c with queue := c.queue ++ [m] } := by
      unfold Core.addMeasurement
      rw [if_neg (by simp [hi, hp]), if_pos (by
        rw [hl]; exact hm m (List.mem_cons_self ..))]
      rfl
    obtain ⟨c', g1, g2⟩ := ih { c with queue := c.queue ++ [m] } hi hp hl
      (fun m' hm' => hm m' (List.mem_cons_of_mem _ hm'))
    refine ⟨c', ?_, by rw [g2]; simp⟩
    simp only [List.map_cons, Core.apis, Core.api, bind, Except.bind, e]
    exact g1

end

namespace StampDemo
open Demo

def imu (t a : ℚ) : Api ℚ ℚ ℚ ℚ ℚ Unit := .imu t ⟨a, 0⟩
def meas (t z : ℚ) : Api ℚ ℚ ℚ ℚ ℚ Unit := .meas ⟨t, 0, z⟩

/-- Times of what a run publishes. -/
def times (os : List (Api ℚ ℚ ℚ ℚ ℚ Unit)) : Option (List ℚ) :=
  (Core.apis env K (Core.new K) os).toOption.map (fun c => c.out.map Event.time)

end StampDemo
open StampDemo Demo in
/-- **C95 is violated** by an IMU reading 5 ms older than the last one. -/
theorem C95_imu_violated :
    times [.init 1 s0, imu (101/100) 1, imu (102/100) 1, imu (103/100) 1, imu (1025/1000) 1] =
      some [1, 101/100, 102/100, 103/100, 1025/1000] := by
  decide +kernel

open StampDemo Demo in
/-- **C95 is violated** although the IMU stamps increase, if the filter is initialised at a time ahead
of them: an update is published for the initial state, and propagation goes on before it. -/
theorem C95_init_violated :
    times [.init (105/100) s0, imu (101/100) 1, imu (102/100) 1, imu (103/100) 1, meas (102/100) 1,
      imu (104/100) 1] = some [105/100, 101/100, 102/100, 103/100, 105/100, 104/100] := by
  decide +kernel

namespace StampDemo
open Demo

/-- Measurements late, ahead of the IMU and in between; an external state; a second initialisation. -/
def run : List (Api ℚ ℚ ℚ ℚ ℚ Unit) :=
  [.init 1 s0, imu (101/100) 1, imu (102/100) 2, imu (103/100) 3, imu (104/100) 1, meas (1015/1000) 3,
    meas (1055/1000) 7, imu (105/100) 99, imu (106/100) 2, meas (103/100) 4, .ext (107/100) ⟨1, 0⟩ none,
    .init (11/10) s0, imu (111/100) 1]

/-- Non-vacuity of C95: the stamps of the calls do not go back; three updates are published. -/
example : (run.filterMap Api.clock).Pairwise (· ≤ ·) ∧
    times run = some [1, 101/100, 102/100, 103/100, 104/100, 104/100, 105/100, 106/100, 106/100,
      106/100, 107/100, 11/10, 111/100] := by
  decide +kernel

/-- Three IMU readings, one 100 s later and a measurement. -/
def before : List (Api ℚ ℚ ℚ ℚ ℚ Unit) :=
  [.init 1 s0, imu (101/100) 1, imu (102/100) 2, imu (103/100) 3, imu 101 1, meas 101 1]

/-- 102 measurements. -/
def after : List (Api ℚ ℚ ℚ ℚ ℚ Unit) := List.replicate 102 (meas 101 1)

/-- Keys of states and measurements, number of waiting measurements, published updates. -/
def sizes (os : List (Api ℚ ℚ ℚ ℚ ℚ Unit)) : Option (List ℚ × List ℚ × Nat × Nat) :=
  (Core.apis env K (Core.new K) os).toOption.map (fun c =>
    (c.states.nodes.map Node.key, c.meas.nodes.map Node.key, c.queue.length,
      (c.out.filter Event.isUpdate).length))

/-- Non-vacuity of C96 (partial): four old states before, one after 102 more updates. -/
example : sizes before = some ([1, 101/100, 102/100, 103/100, 101], [101], 0, 1) ∧
    sizes (before ++ after) = some ([103/100, 101], [101], 0, 103) ∧
    (∀ o ∈ after, ∀ m, o = .meas m → 101 - 60 ≤ m.time) ∧ after.filterMap Api.clock = [] := by
  refine ⟨by decide +kernel, by decide +kernel, ?_, by decide +kernel⟩
  intro o ho m e
  rw [List.eq_of_mem_replicate ho] at e
  cases e
  norm_num

/-- Non-vacuity of C96 (violation): stamps as in `hinc`, in any number. -/
example (n : Nat) : List.IsChain (fun a b : ℚ => a < b ∧ b - a ≤ 1 / 10)
    (1 :: (List.range n).map (fun k : ℕ => 1 + ((k : ℚ) + 1) / 100)) := by
  have h : (1 :: (List.range n).map (fun k : ℕ => 1 + ((k : ℚ) + 1) / 100)) =
      (List.range (n + 1)).map (fun k : ℕ => 1 + (k : ℚ) / 100) := by
    rw [List.range_succ_eq_map]
    simp
  rw [h, List.isChain_map, List.isChain_iff_getElem]
  intro i hi
  simp only [List.getElem_range]
  push_cast
  constructor <;> linarith

/-- Non-vacuity of C96 (violation by waiting measurements): the filter is running, and 200 measurements
ahead of it wait. -/
example : (Core.apis env K (Core.new K) (before ++ List.replicate 200 (meas 500 1))).toOption.map
    (fun c => (c.inited, c.predMade, c.queue.length)) = some (true, true, 200) := by
  decide +kernel

end StampDemo
end MSF
