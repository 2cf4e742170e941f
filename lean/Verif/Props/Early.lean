import Verif.Lemmas.FlowEarly
import Verif.Lemmas.FlowSeveral
import Verif.Props.Relative

/-!
# C132: early arrival of a measurement

A measurement that is ahead of the newest state is put aside and tried again after the next prediction
(msf_core_inl.h:610-616, 312-319).  A user expects that it does not matter whether it arrives just before
or just after the IMU reading.
-/

namespace MSF
open Core

variable {A W X C F M T E : Type}

theorem Flow.apis_after [AddCommGroup A] [Module ℚ A] [AddCommGroup W] [Module ℚ W] (env : Env)
    (f : Flow A W X C M T E) (os os' : List (Api A W X C M E)) (c d : Core A W X C M T)
    (h : Flow.apis env f c os = .ok d) : Flow.apis env f c (os ++ os') = Flow.apis env f d os' := by
  induction os generalizing c with
  | nil => cases h; rfl
  | cons o os ih =>
    simp only [List.cons_append, Flow.apis] at h ⊢
    cases h1 : Flow.api env f c o with
    | error e => rw [h1] at h; cases h
    | ok c1 =>
      rw [h1] at h
      exact ih c1 h

variable [AddCommGroup A] [Module ℚ A] [AddCommGroup W] [Module ℚ W]

/-- **C132.** In a run of a started filter in which nothing else waits, a measurement ahead of the newest
state can be exchanged with the IMU reading or external state that follows it: the results are equal,
errors included, whatever is called before and afterwards.  The reading must not be a jump backwards by
more than 10 ms, which stops the filter (C17), and no state may be NaN.  Missing: several measurements
waiting at once, for which the claim is false (`C132_two_violated`). -/
theorem C132_alone_partial (env : Env) (K : Kernel A W X C M T E) (hK : ∀ x, K.numPos x = true)
    (c0 c : Core A W X C M T) (pre post : List (Api A W X C M E))
    (hpre : Core.apis env K c0 pre = .ok c) (hi : c.inited = true) (hp : c.predMade = true)
    (hq : c.queue = []) (m : Meas M) (hm : m.time > timeOf c.states.last) (o : Api A W X C M E)
    (ho : (∃ t u, o = .imu t u ∧ ∀ n ∈ c.states.nodes, n.key - 1 / 100 ≤ t) ∨ ∃ t u e, o = .ext t u e) :
    Core.apis env K c0 (pre ++ .meas m :: o :: post) = Core.apis env K c0 (pre ++ o :: .meas m :: post) := by
  rw [← Flow.abs_apis] at hpre
  rw [← Flow.abs_apis, ← Flow.abs_apis, Flow.apis_after env _ _ _ _ _ hpre,
    Flow.apis_after env _ _ _ _ _ hpre]
  exact Flow.early_swap env (Flow.still_abs K hK) c hi hp hq m hm o ho post

/-- **C132 with relative measurements.** The same for runs with absolute and relative measurements. -/
theorem C132_relative_partial (env : Env) (R : RelKernel A W X C F M T E) (hK : ∀ x, R.numPos x = true)
    (c : Core A W X (C × F) M T) (pre post : List (Api A W X (C × F) M E))
    (hpre : R.run env pre = .ok c) (hi : c.inited = true) (hp : c.predMade = true)
    (hq : c.queue = []) (m : Meas M) (hm : m.time > timeOf c.states.last) (o : Api A W X (C × F) M E)
    (ho : (∃ t u, o = .imu t u ∧ ∀ n ∈ c.states.nodes, n.key - 1 / 100 ≤ t) ∨ ∃ t u e, o = .ext t u e) :
    R.run env (pre ++ .meas m :: o :: post) = R.run env (pre ++ o :: .meas m :: post) := by
  unfold RelKernel.run at hpre ⊢
  rw [Flow.apis_after env _ _ _ _ _ hpre, Flow.apis_after env _ _ _ _ _ hpre]
  exact Flow.early_swap env (Flow.still_rel R hK) c hi hp hq m hm o ho post

/-- **C132, what is published.** The same for any reading, also one that stops the filter, and with states
that are NaN: everything published from then on is equal, errors included.  Missing: several measurements
waiting at once. -/
theorem C132_published_partial (env : Env) (K : Kernel A W X C M T E) (c0 c : Core A W X C M T)
    (pre post : List (Api A W X C M E)) (hpre : Core.apis env K c0 pre = .ok c) (hi : c.inited = true)
    (hp : c.predMade = true) (hq : c.queue = []) (m : Meas M) (hm : m.time > timeOf c.states.last)
    (o : Api A W X C M E) (ho : (∃ t u, o = .imu t u) ∨ ∃ t u e, o = .ext t u e) :
    (Core.apis env K c0 (pre ++ .meas m :: o :: post)).map (fun c => c.out) =
      (Core.apis env K c0 (pre ++ o :: .meas m :: post)).map (fun c => c.out) := by
  rw [← Flow.abs_apis] at hpre
  rw [← Flow.abs_apis, ← Flow.abs_apis, Flow.apis_after env _ _ _ _ _ hpre,
    Flow.apis_after env _ _ _ _ _ hpre]
  exact Flow.alike_swap env (Flow.blind_abs K) (Flow.abs_keepsWaits K) c hi hp hq m hm o ho post

/-- **C132, what is published, with relative measurements.** -/
theorem C132_relative_published_partial (env : Env) (R : RelKernel A W X C F M T E)
    (c : Core A W X (C × F) M T) (pre post : List (Api A W X (C × F) M E))
    (hpre : R.run env pre = .ok c) (hi : c.inited = true) (hp : c.predMade = true)
    (hq : c.queue = []) (m : Meas M) (hm : m.time > timeOf c.states.last) (o : Api A W X (C × F) M E)
    (ho : (∃ t u, o = .imu t u) ∨ ∃ t u e, o = .ext t u e) :
    (R.run env (pre ++ .meas m :: o :: post)).map (fun c => c.out) =
      (R.run env (pre ++ o :: .meas m :: post)).map (fun c => c.out) := by
  unfold RelKernel.run at hpre ⊢
  rw [Flow.apis_after env _ _ _ _ _ hpre, Flow.apis_after env _ _ _ _ _ hpre]
  exact Flow.alike_swap env (Flow.blind_rel R) R.flow_keepsWaits c hi hp hq m hm o ho post

/-- **C132 fails behind other waiting measurements, for every filter.** A measurement that waits behind
others still waits after as many IMU readings and external states as there are others, whatever their times
and whatever measurements arrive in between: calls with times at or after the measurement do not help. -/
theorem C132_behind_others_violated (env : Env) (K : Kernel A W X C M T E) (c d : Core A W X C M T)
    (hp : c.predMade = true) (q1 q2 : List (Meas M)) (m : Meas M)
    (hq : c.queue = q1 ++ m :: q2) (os : List (Api A W X C M E)) (hos : ∀ o ∈ os, ∀ t s, o ≠ .init t s)
    (hn : os.countP Api.predicts ≤ q1.length)
    (h : Core.apis env K c os = .ok d) : m ∈ d.queue := by
  rw [← Flow.abs_apis] at h
  obtain ⟨r1, r2, hr, -⟩ := Flow.behind_apis (Flow.abs_keepsWaits K) env os
    ⟨q1, q2, ⟨hq, fun _ => hp⟩, hn⟩ hos le_rfl d h
  rw [hr.1]
  simp

/-- **C132 fails behind other waiting measurements, with relative measurements.** -/
theorem C132_relative_behind_others_violated (env : Env) (R : RelKernel A W X C F M T E)
    (c d : Core A W X (C × F) M T) (hp : c.predMade = true)
    (q1 q2 : List (Meas M)) (m : Meas M) (hq : c.queue = q1 ++ m :: q2)
    (os : List (Api A W X (C × F) M E)) (hos : ∀ o ∈ os, ∀ t s, o ≠ .init t s)
    (hn : os.countP Api.predicts ≤ q1.length)
    (h : Flow.apis env R.flow c os = .ok d) : m ∈ d.queue := by
  obtain ⟨r1, r2, hr, -⟩ := Flow.behind_apis R.flow_keepsWaits env os
    ⟨q1, q2, ⟨hq, fun _ => hp⟩, hn⟩ hos le_rfl d h
  rw [hr.1]
  simp

omit [AddCommGroup A] [Module ℚ A] [AddCommGroup W] [Module ℚ W] in
theorem Flow.fine_abs (K : Kernel A W X C M T E) (hK : ∀ x, K.numPos x = true) : K.absFlow.Fine where
  still := Flow.still_abs K hK
  apart := Flow.apart_abs K
  newest := Flow.newest_abs K
  flags := ⟨fun _ _ _ o n h => h.predictCov o n, fun _ _ _ _ _ _ h => Post.ok ⟨h.1, h.2⟩⟩
  waits := Flow.abs_keepsWaits K
  times := ⟨fun _ o n h => h.predictCov o n, fun _ _ m s h => Post.ok (h.applyMeas m s)⟩

theorem Flow.fine_rel (R : RelKernel A W X C F M T E) (hK : ∀ x, R.numPos x = true) : R.flow.Fine where
  still := Flow.still_rel R hK
  apart := R.apart_rel
  newest := R.flow_keepsNewest
  flags := R.flow_keepsFlags
  waits := R.flow_keepsWaits
  times := R.flow_keepsTimes

/-- **C132 with several early measurements.** Measurements that arrive before the readings that follow have
the same effect as if the first arrived just after the first reading, the second just after the second, and
so on, whatever is called before and afterwards.  All times so far lie at or before the readings, the
readings are in order, each measurement lies at or before its reading, and no state may be NaN.  Missing:
that all of them act with the first reading that reaches them, which is false
(`C132_behind_others_violated`). -/
theorem C132_several_partial (env : Env) (K : Kernel A W X C M T E) (hK : ∀ x, K.numPos x = true)
    (c : Core A W X C M T) (pre post : List (Api A W X C M E))
    (hpre : Core.apis env K (Core.new K) pre = .ok c) (hi : c.inited = true) (hp : c.predMade = true)
    (hq : c.queue = []) (hs : SortedL c.states.nodes) (b : ℚ)
    (hb : ∀ o ∈ pre, o.time ≤ b ∧ o.time ≠ invalidTime) (rs : List ((ℚ × Input A W) × Meas M))
    (hr : ∀ r ∈ rs, b ≤ r.1.1 ∧ r.1.1 ≠ invalidTime ∧ r.2.time ≤ r.1.1 ∧ r.2.time ≠ invalidTime)
    (hm : ∀ r ∈ rs, r.2.time > timeOf c.states.last) (ho : (rs.map fun r => r.1.1).Pairwise (· ≤ ·)) :
    Core.apis env K (Core.new K)
        (pre ++ ((rs.map fun r => .meas r.2) ++ ((rs.map fun r => .imu r.1.1 r.1.2) ++ post))) =
      Core.apis env K (Core.new K)
        (pre ++ ((rs.flatMap fun r => [.imu r.1.1 r.1.2, .meas r.2]) ++ post)) := by
  rw [← Flow.abs_apis] at hpre
  rw [← Flow.abs_apis, ← Flow.abs_apis, Flow.apis_after env _ _ _ _ _ hpre,
    Flow.apis_after env _ _ _ _ _ hpre]
  have h1 := Flow.tin_apis (fl := K.absFlow) (S := Set.Iic b)
    ⟨fun _ o n h => h.predictCov o n, fun _ _ m s h => Post.ok (h.applyMeas m s)⟩ env pre
    (TimesIn.new _ K) (fun o ho => (hb o ho).1) c hpre
  have h2 := Flow.tin_apis (Flow.fine_abs K hK).times env pre (TimesIn.new _ K)
    (fun o ho => (hb o ho).2) c hpre
  have e := Flow.queue_up (f := K.absFlow) env (rs.map Prod.snd)
    ((rs.map fun r => .imu r.1.1 r.1.2) ++ post) hi hp
    (fun m h => by obtain ⟨r, hr', rfl⟩ := List.mem_map.mp h; exact hm r hr')
  rw [List.map_map, hq, List.nil_append] at e
  refine e.trans ?_
  exact Flow.several (Flow.fine_abs K hK) env post rs ⟨hi, hp, hs, h1.states, h1.meas, h2⟩ hq hr ho

/-- **C132 with several early measurements, absolute and relative.** -/
theorem C132_relative_several_partial (env : Env) (R : RelKernel A W X C F M T E)
    (hK : ∀ x, R.numPos x = true) (c : Core A W X (C × F) M T) (pre post : List (Api A W X (C × F) M E))
    (hpre : R.run env pre = .ok c) (hi : c.inited = true) (hp : c.predMade = true)
    (hq : c.queue = []) (hs : SortedL c.states.nodes) (b : ℚ)
    (hb : ∀ o ∈ pre, o.time ≤ b ∧ o.time ≠ invalidTime) (rs : List ((ℚ × Input A W) × Meas M))
    (hr : ∀ r ∈ rs, b ≤ r.1.1 ∧ r.1.1 ≠ invalidTime ∧ r.2.time ≤ r.1.1 ∧ r.2.time ≠ invalidTime)
    (hm : ∀ r ∈ rs, r.2.time > timeOf c.states.last) (ho : (rs.map fun r => r.1.1).Pairwise (· ≤ ·)) :
    R.run env (pre ++ ((rs.map fun r => .meas r.2) ++ ((rs.map fun r => .imu r.1.1 r.1.2) ++ post))) =
      R.run env (pre ++ ((rs.flatMap fun r => [.imu r.1.1 r.1.2, .meas r.2]) ++ post)) := by
  unfold RelKernel.run at hpre ⊢
  rw [Flow.apis_after env _ _ _ _ _ hpre, Flow.apis_after env _ _ _ _ _ hpre]
  have h1 := Flow.tin_apis (R.flow_keepsTimes (S := Set.Iic b)) env pre (TimesIn.new _ R.pair)
    (fun o ho => (hb o ho).1) c hpre
  have h2 := Flow.tin_apis (Flow.fine_rel R hK).times env pre (TimesIn.new _ R.pair)
    (fun o ho => (hb o ho).2) c hpre
  have e := Flow.queue_up (f := R.flow) env (rs.map Prod.snd)
    ((rs.map fun r => .imu r.1.1 r.1.2) ++ post) hi hp
    (fun m h => by obtain ⟨r, hr', rfl⟩ := List.mem_map.mp h; exact hm r hr')
  rw [List.map_map, hq, List.nil_append] at e
  refine e.trans ?_
  exact Flow.several (Flow.fine_rel R hK) env post rs ⟨hi, hp, hs, h1.states, h1.meas, h2⟩ hq hr ho

namespace Demo

def earlyImu (t : ℚ) : Api ℚ ℚ ℚ ℚ ℚ Unit := .imu t ⟨1, 0⟩

def earlyPre : List (Api ℚ ℚ ℚ ℚ ℚ Unit) :=
  [.init 1 s0, earlyImu (101 / 100), earlyImu (102 / 100), earlyImu (103 / 100), earlyImu (104 / 100)]

def earlyM1 : Meas ℚ := ⟨1045 / 1000, 0, 1⟩
def earlyM2 : Meas ℚ := ⟨1048 / 1000, 0, 2⟩

def earlyView (os : List (Api ℚ ℚ ℚ ℚ ℚ Unit)) : Option (Nat × List (ℚ × ℚ × ℚ)) :=
  match Core.apis env K c0 os with
  | .ok c => some (c.queue.length, c.states.nodes.map fun n => (n.key, n.val.x, n.val.P))
  | .error _ => none

/-- The hypotheses of `C132_alone_partial` hold, and the measurement is used in either order. -/
example : (∃ c, Core.apis env K c0 earlyPre = .ok c ∧ c.inited = true ∧ c.predMade = true ∧ c.queue = [] ∧
      earlyM1.time > timeOf c.states.last ∧ ∀ n ∈ c.states.nodes, n.key - 1 / 100 ≤ 105 / 100) ∧
    earlyView (earlyPre ++ [.meas earlyM1, earlyImu (105 / 100)]) =
      earlyView (earlyPre ++ [earlyImu (105 / 100), .meas earlyM1]) ∧
    earlyView (earlyPre ++ [.meas earlyM1, earlyImu (105 / 100)]) ≠
      earlyView (earlyPre ++ [earlyImu (105 / 100)]) := by
  refine ⟨?_, by decide +kernel, by decide +kernel⟩
  have h : (match Core.apis env K c0 earlyPre with
    | .ok c => c.inited && c.predMade && c.queue.isEmpty && decide (earlyM1.time > timeOf c.states.last) &&
        c.states.nodes.all fun n => decide (n.key - 1 / 100 ≤ 105 / 100)
    | .error _ => false) = true := by decide +kernel
  cases hc : Core.apis env K c0 earlyPre with
  | error e => rw [hc] at h; cases h
  | ok c =>
    rw [hc] at h
    simp only [Bool.and_eq_true, decide_eq_true_eq, List.isEmpty_iff, List.all_eq_true] at h
    exact ⟨c, rfl, h.1.1.1.1, h.1.1.1.2, h.1.1.2, h.1.2, h.2⟩

/-- The hypotheses of `C132_relative_partial` hold for a second relative measurement that arrives early. -/
example : ∃ c, relK.run env ((relRun 1).take 8) = .ok c ∧ c.inited = true ∧ c.predMade = true ∧ c.queue = [] ∧
      (1065 / 1000 : ℚ) > timeOf c.states.last ∧ ∀ n ∈ c.states.nodes, n.key - 1 / 100 ≤ 107 / 100 := by
  have h : (match relK.run env ((relRun 1).take 8) with
    | .ok c => c.inited && c.predMade && c.queue.isEmpty && decide ((1065 / 1000 : ℚ) > timeOf c.states.last) &&
        c.states.nodes.all fun n => decide (n.key - 1 / 100 ≤ 107 / 100)
    | .error _ => false) = true := by decide +kernel
  cases hc : relK.run env ((relRun 1).take 8) with
  | error e => rw [hc] at h; cases h
  | ok c =>
    rw [hc] at h
    simp only [Bool.and_eq_true, decide_eq_true_eq, List.isEmpty_iff, List.all_eq_true] at h
    exact ⟨c, rfl, h.1.1.1.1, h.1.1.1.2, h.1.1.2, h.1.2, h.2⟩

/-- There the early measurement is used, and moves the published state. -/
example : (relK.run env ((relRun 1).take 8 ++ [relMeas (1065 / 1000) 2, relImu (107 / 100)])).toOption.map
      (fun c => c.out) ≠
    (relK.run env ((relRun 1).take 8 ++ [relMeas (1065 / 1000) 3, relImu (107 / 100)])).toOption.map
      (fun c => c.out) := by decide +kernel

/-- Of three measurements that arrive early, the third is used by the third reading and not before, though
the first reading reaches all of them. -/
example : let pre := earlyPre ++ [.meas earlyM1, .meas earlyM1, .meas earlyM2]
    (earlyView pre).map Prod.fst = some 3 ∧
    (earlyView (pre ++ [earlyImu (105 / 100)])).map Prod.fst = some 2 ∧
    (earlyView (pre ++ [earlyImu (105 / 100), earlyImu (106 / 100)])).map Prod.fst = some 1 ∧
    (earlyView (pre ++ [earlyImu (105 / 100), earlyImu (106 / 100), earlyImu (107 / 100)])).map Prod.fst =
      some 0 := by decide +kernel

/-- The same with relative measurements. -/
example : let pre := (relRun 1).take 7 ++ [relMeas (1065 / 1000) 1, relMeas (1066 / 1000) 2]
    (relK.run env pre).toOption.map (fun c => (c.predMade, c.queue.length)) = some (true, 2) ∧
    (relK.run env (pre ++ [relImu (107 / 100)])).toOption.map (fun c => c.queue.length) = some 1 ∧
    (relK.run env (pre ++ [relImu (107 / 100), relImu (108 / 100)])).toOption.map (fun c => c.queue.length) =
      some 0 := by decide +kernel

/-- A jump backwards after an early measurement: the queue of the stopped filter differs, what is published
does not, not even after the next `Init`. -/
example : let post := [.init 3 s0, earlyImu (301 / 100), earlyImu (302 / 100), earlyImu (303 / 100), .meas ⟨302 / 100, 0, 5⟩]
    (earlyView (earlyPre ++ [.meas earlyM1, earlyImu 1])).map Prod.fst = some 1 ∧
    (earlyView (earlyPre ++ [earlyImu 1, .meas earlyM1])).map Prod.fst = some 0 ∧
    (Core.apis env K c0 (earlyPre ++ .meas earlyM1 :: earlyImu 1 :: post)).toOption.map (fun c => c.out) =
      (Core.apis env K c0 (earlyPre ++ earlyImu 1 :: .meas earlyM1 :: post)).toOption.map (fun c => c.out) ∧
    (Core.apis env K c0 (earlyPre ++ .meas earlyM1 :: earlyImu 1 :: post)).toOption.map (fun c => c.out.length) =
      some 10 := by decide +kernel

/-- The hypotheses of `C132_several_partial` hold, and its two runs are equal and use both measurements. -/
example : (∀ o ∈ earlyPre, o.time ≤ 104 / 100 ∧ o.time ≠ invalidTime) ∧
    (∃ c, Core.apis env K (Core.new K) earlyPre = .ok c ∧ SortedL c.states.nodes) ∧
    earlyView (earlyPre ++ [.meas earlyM1, .meas earlyM2, earlyImu (105 / 100), earlyImu (106 / 100)]) =
      earlyView (earlyPre ++ [earlyImu (105 / 100), .meas earlyM1, earlyImu (106 / 100), .meas earlyM2]) ∧
    (earlyView (earlyPre ++ [.meas earlyM1, .meas earlyM2, earlyImu (105 / 100), earlyImu (106 / 100)])).map
      Prod.fst = some 0 := by
  refine ⟨?_, ?_, by decide +kernel, by decide +kernel⟩
  · intro o ho
    simp only [earlyPre, earlyImu, List.mem_cons, List.not_mem_nil, or_false] at ho
    rcases ho with rfl | rfl | rfl | rfl | rfl <;> norm_num [Api.time, invalidTime]
  · have h : (match Core.apis env K (Core.new K) earlyPre with
      | .ok c => decide (c.states.nodes.map Node.key = [1, 101 / 100, 102 / 100, 103 / 100, 104 / 100])
      | .error _ => false) = true := by decide +kernel
    cases hc : Core.apis env K (Core.new K) earlyPre with
    | error e => rw [hc] at h; cases h
    | ok c =>
      rw [hc] at h
      refine ⟨c, rfl, ?_⟩
      have h' := of_decide_eq_true h
      have hp : (c.states.nodes.map Node.key).Pairwise (· < ·) := by rw [h']; norm_num
      exact List.pairwise_map.mp hp

end Demo

open Demo in
/-- **C132 is false with two waiting measurements.** Two measurements that arrive just before the IMU
reading that reaches both: one of them still waits after the reading, and the published state differs from
the one obtained when both arrive just after the reading. -/
theorem C132_two_violated :
    ∃ (K : Kernel ℚ ℚ ℚ ℚ ℚ Unit Unit) (pre : List (Api ℚ ℚ ℚ ℚ ℚ Unit)) (m1 m2 : Meas ℚ) (t : ℚ)
      (u : Input ℚ ℚ) (c d : Core ℚ ℚ ℚ ℚ ℚ Unit),
      m1.time ≤ t ∧ m2.time ≤ t ∧ (∀ x, K.numPos x = true) ∧
      Core.apis env K (Core.new K) (pre ++ [.meas m1, .meas m2, .imu t u]) = .ok c ∧
      Core.apis env K (Core.new K) (pre ++ [.imu t u, .meas m1, .meas m2]) = .ok d ∧
      c.queue.length = 1 ∧ d.queue = [] ∧
      (c.out.getLast?.map fun e => (Event.time e, e)) ≠ (d.out.getLast?.map fun e => (Event.time e, e)) := by
  have h : (match Core.apis env Demo.K (Core.new Demo.K) (earlyPre ++ [.meas earlyM1, .meas earlyM2, earlyImu (105 / 100)]),
      Core.apis env Demo.K (Core.new Demo.K) (earlyPre ++ [earlyImu (105 / 100), .meas earlyM1, .meas earlyM2]) with
    | .ok c, .ok d => decide (c.queue.length = 1) && d.queue.isEmpty &&
        decide ((c.out.getLast?.map fun e => (Event.time e, e)) ≠ (d.out.getLast?.map fun e => (Event.time e, e)))
    | _, _ => false) = true := by decide +kernel
  refine ⟨Demo.K, earlyPre, earlyM1, earlyM2, 105 / 100, ⟨1, 0⟩, ?_⟩
  change ∃ c d, _ ∧ _ ∧ _ ∧
    Core.apis env Demo.K (Core.new Demo.K) (earlyPre ++ [.meas earlyM1, .meas earlyM2, earlyImu (105 / 100)]) = .ok c ∧
    Core.apis env Demo.K (Core.new Demo.K) (earlyPre ++ [earlyImu (105 / 100), .meas earlyM1, .meas earlyM2]) = .ok d ∧ _
  cases hc : Core.apis env Demo.K (Core.new Demo.K)
      (earlyPre ++ [.meas earlyM1, .meas earlyM2, earlyImu (105 / 100)]) with
  | error e => rw [hc] at h; cases h
  | ok c =>
    cases hd : Core.apis env Demo.K (Core.new Demo.K)
        (earlyPre ++ [earlyImu (105 / 100), .meas earlyM1, .meas earlyM2]) with
    | error e => rw [hc, hd] at h; cases h
    | ok d =>
      rw [hc, hd] at h
      simp only [Bool.and_eq_true, decide_eq_true_eq, List.isEmpty_iff] at h
      exact ⟨c, d, by norm_num [earlyM1], by norm_num [earlyM2], fun _ => rfl, rfl, rfl, h.1.1, h.1.2, h.2⟩

end MSF
