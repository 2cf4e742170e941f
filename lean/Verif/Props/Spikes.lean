import Verif.Props.Safe
import Verif.Props.Faults
import Verif.Model.Relative

/-!
# C109: spikes of the accelerometer
-/

namespace MSF

variable {A W X C F M T E : Type} [AddCommGroup A] [Module ℚ A] [AddCommGroup W] [Module ℚ W]

/-- Calls that differ at most in the value of an acceleration that is a spike in both. -/
def Api.SameButSpikes (spike : A → Bool) : Api A W X C M E → Api A W X C M E → Prop
  | .imu t u, .imu t' u' => t = t' ∧ u.w = u'.w ∧ (u.a = u'.a ∨ spike u.a = true ∧ spike u'.a = true)
  | .ext t u e, .ext t' u' e' =>
    t = t' ∧ e = e' ∧ u.w = u'.w ∧ (u.a = u'.a ∨ spike u.a = true ∧ spike u'.a = true)
  | o, o' => o = o'

theorem Flow.api_spikes (env : Env) (f : Flow A W X C M T E) (c : Core A W X C M T) (o o' : Api A W X C M E)
    (h : o.SameButSpikes f.spike o') : f.api env c o = f.api env c o' := by
  cases o with
  | init t s => cases o' <;> simp only [Api.SameButSpikes, reduceCtorEq] at h; rw [h]
  | meas m => cases o' <;> simp only [Api.SameButSpikes, reduceCtorEq] at h; rw [h]
  | imu t u =>
    cases o' with
    | imu t' u' =>
      obtain ⟨rfl, hw, ha⟩ := h
      obtain ⟨a, w⟩ := u
      obtain ⟨a', w'⟩ := u'
      obtain rfl : w = w' := hw
      change processIMU _ _ _ _ _ = processIMU _ _ _ _ _
      rcases ha with ha | ⟨h1, h2⟩
      · obtain rfl : a = a' := ha
        rfl
      · change f.spike a = true at h1
        change f.spike a' = true at h2
        rw [processIMU_form, processIMU_form]
        unfold imuBody
        simp only [h1, h2, if_true]
    | _ => exact absurd h (by simp [Api.SameButSpikes])
  | ext t u e =>
    cases o' with
    | ext t' u' e' =>
      obtain ⟨rfl, rfl, hw, ha⟩ := h
      obtain ⟨a, w⟩ := u
      obtain ⟨a', w'⟩ := u'
      obtain rfl : w = w' := hw
      change processExternal _ _ _ _ _ _ = processExternal _ _ _ _ _ _
      rcases ha with ha | ⟨h1, h2⟩
      · obtain rfl : a = a' := ha
        rfl
      · change f.spike a = true at h1
        change f.spike a' = true at h2
        have e : Core.extInput f.toKernel c ⟨a, w⟩ = Core.extInput f.toKernel c ⟨a', w⟩ := by
          unfold Core.extInput
          simp only [h1, h2, if_true]
        rw [processExternal_form, processExternal_form, e]
    | _ => exact absurd h (by simp [Api.SameButSpikes])

theorem Flow.apis_spikes (env : Env) (f : Flow A W X C M T E) {os os' : List (Api A W X C M E)}
    (h : List.Forall₂ (Api.SameButSpikes f.spike) os os') (c : Core A W X C M T) :
    f.apis env c os = f.apis env c os' := by
  induction h generalizing c with
  | nil => rfl
  | @cons o o' os os' ho _ ih =>
    change (f.api env c o >>= fun c => f.apis env c os) = (f.api env c o' >>= fun c => f.apis env c os')
    rw [f.api_spikes env c o o' ho]
    exact congrArg _ (funext ih)

/-- **C109, the value of a spike does not matter.**  Two runs, of any filter with absolute measurements and on
any platform, that differ only in the values of accelerations that count as spikes end in the same state. -/
theorem C109_value_ignored (K : Kernel A W X C M T E) (env : Env) (os os' : List (Api A W X C M E))
    (h : List.Forall₂ (Api.SameButSpikes K.spike) os os') :
    Core.apis env K (Core.new K) os = Core.apis env K (Core.new K) os' := by
  have := K.absFlow.apis_spikes env h (Core.new K)
  rwa [Flow.abs_apis, Flow.abs_apis] at this

/-- The same with relative measurements. -/
theorem C109_value_ignored_relative (R : RelKernel A W X C F M T E) (env : Env)
    (os os' : List (Api A W X (C × F) M E)) (h : List.Forall₂ (Api.SameButSpikes R.spike) os os') :
    R.run env os = R.run env os' :=
  R.flow.apis_spikes env h _

/-- **C109, what a spike is**: in every shipped filter, an acceleration of more than 50 m/s². -/
theorem C109_fifty {aux : List VarDesc} (np : NoiseParams ℝ (coreDef aux)) (uc : UserCalc (coreDef aux))
    (a : V3 ℝ) : ((filterKernel np uc).spike a = true ↔ 50 < Real.sqrt (a 0 ^ 2 + a 1 ^ 2 + a 2 ^ 2)) ∧
    ((readingKernel np uc).spike a = true ↔ 50 < Real.sqrt (a 0 ^ 2 + a 1 ^ 2 + a 2 ^ 2)) ∧
    ((relKernel np uc).spike a = true ↔ 50 < Real.sqrt (a 0 ^ 2 + a 1 ^ 2 + a 2 ^ 2)) := by
  have key : (filterKernel np uc).spike a = true ↔ 50 < Real.sqrt (a 0 ^ 2 + a 1 ^ 2 + a 2 ^ 2) := by
    change decide (50 * 50 < sqNorm3 a) = true ↔ _
    rw [decide_eq_true_iff, Real.lt_sqrt (by norm_num), sqNorm3]
    constructor <;> intro h <;> nlinarith
  exact ⟨key, key, key⟩

/-- What the first reading after a good one would be replaced by: after a run of prompt calls let `last` be the
state of the newest reading.  If the next reading is good and the one after it is a spike, the spike is
processed with the acceleration of `last`. -/
theorem Flow.spike_stale {f : Flow A W X C M T E} (hf : f.Tame) (s1 s2) (ha : Applies s1 s2 f)
    (os : List (Api A W X C M E)) (t1 t2 : ℚ) (u1 u2 : Input A W)
    (hp : PromptImu none (os ++ [.imu t1 u1, .imu t2 u2])) (h1 : f.spike u1.a = false)
    (h2 : f.spike u2.a = true) (c : Core A W X C M T)
    (hc : f.apis (gnuEnv s1 s2) (Core.new f.toKernel) os = .ok c) (hi : c.inited = true)
    (last : Node (St A W X C)) (hl : c.states.deref c.itImu = .ok last)
    (hnew : ∀ n ∈ c.states.nodes, n.key < t2) (h12 : t1 < t2) :
    ∃ c2, f.apis (gnuEnv s1 s2) (Core.new f.toKernel) (os ++ [.imu t1 u1, .imu t2 u2]) = .ok c2 ∧
      (c2.inited = true → ∃ n ∈ c2.states.nodes, n.key = t2 ∧ n.val.u = ⟨last.val.u.a, u2.w⟩) := by
  obtain ⟨c', k, e, hs, htr, hp', hsplit⟩ := promptImu_split hf s1 s2 ha os _ (Core.new f.toKernel) none
    (Core.Sound.new true f.toKernel) rfl hp
  rw [hc] at e
  cases e
  cases k with
  | none => rw [show c.inited = false from htr] at hi; cases hi
  | some k =>
    obtain ⟨p0, p1, p2, q0, q1, q2, -⟩ := hp'
    obtain ⟨a1, a2, a3, a4⟩ := htr.2 hi
    have hne : ∀ {c : Core A W X C M T} {x : ℚ}, c.imuTime = x → 0 < x → c.imuTime ≠ invalidTime := by
      intro c x h hx h'
      rw [h] at h'
      rw [h'] at hx
      norm_num [invalidTime] at hx
    have hend : ∀ {c : Core A W X C M T} {x : ℚ}, c.Sound true → endKey 0 c.states.nodes = x → ∀ n ∈ c.states.nodes,
        n.key ≤ x := by
      intro c x hc h n hn
      rw [← h]
      exact endKey_ge hc.sorted n hn
    obtain ⟨n0, hn0, hni0, -⟩ := hs.imu hi rfl
    have hln : last = n0 := by
      rw [← hni0, Buf.deref_mem hs.sorted hn0] at hl
      exact (Except.ok.inj hl).symm
    subst hln
    obtain ⟨c1, e1, hs1, hp1⟩ := processIMU_tot hf s1 s2 ha c hs t1 u1 fun _ =>
      ⟨fun n hn => (hend hs a2 n hn).trans p2, fun _ => by rw [a1]; exact p1,
        fun m hm => by rw [a3] at hm; cases hm⟩
    by_cases hi1 : c1.inited = true
    · obtain ⟨-, h⟩ := hp1 hi1
      obtain ⟨b1, b2, b3⟩ := h (hne a1 htr.1)
      obtain ⟨b3, b4, b5⟩ := b3 a3
      obtain ⟨b5, -⟩ := b5 last hn0 hni0
      rw [if_neg (by rw [h1]; simp)] at b5
      rw [a2] at b2
      obtain ⟨c2, e2, hs2, hp2⟩ := processIMU_tot hf s1 s2 ha c1 hs1 t2 u2 fun _ =>
        ⟨fun n hn => (hend hs1 b2 n hn).trans q2, fun _ => by rw [b1]; exact q1,
          fun m hm => by rw [b4] at hm; cases hm⟩
      refine ⟨c2, ?_, fun hi2 => ?_⟩
      · rw [hsplit]
        change (processIMU _ _ _ _ _ >>= fun c => processIMU _ _ c _ _ >>= fun c => Except.ok c) = _
        rw [e1]
        change (processIMU _ _ c1 _ _ >>= fun c => Except.ok c) = _
        rw [e2]
        rfl
      · obtain ⟨-, h⟩ := hp2 hi2
        obtain ⟨d1, d2, d3⟩ := h (hne b1 p0)
        obtain ⟨-, -, d5⟩ := d3 b4
        obtain ⟨n1, hn1, hni1, -⟩ := hs1.imu hi1 rfl
        obtain ⟨-, d6⟩ := d5 n1 hn1 hni1
        obtain ⟨n2, hn2, hni2, -⟩ := hs2.imu hi2 rfl
        have hk2 : n2.key = t2 := by
          unfold Core.imuTime at d1
          rw [← hni2] at d1
          exact d1
        refine ⟨n2, hn2, hk2, ?_⟩
        rw [d6 (fun n hn => ?_) n2 hn2 hk2, if_pos h2, b5]
        have := hend hs1 b2 n hn
        intro hnt
        rw [hnt] at this
        have hNt : k.newest < t2 := by
          obtain ⟨y, hy, ey, -⟩ := endKey_mem (t := 0) (hs.ne hi)
          rw [← a2, ← ey]
          exact hnew y hy
        exact absurd this (not_le.2 (max_lt hNt h12))
    · rw [Bool.not_eq_true] at hi1
      refine ⟨c1, ?_, fun h => by rw [hi1] at h; cases h⟩
      rw [hsplit]
      change (processIMU _ _ _ _ _ >>= fun c => processIMU _ _ c _ _ >>= fun c => Except.ok c) = _
      rw [e1]
      change (processIMU _ _ c1 _ _ >>= fun c => Except.ok c) = _
      rw [processIMU_form, if_pos hi1]
      rfl

/-- **C109, what replaces a spike (partial).**  After a run of prompt calls let `last` be the state of the newest
IMU reading.  If the next reading is good and the one after it is a spike, the spike is processed with the
acceleration of `last`: not the one of the last good reading but the one before.  This holds for every kernel
and every tree shape. -/
theorem C109_replaced_partial (K : Kernel A W X C M T E) (s1 s2 : Nat → List ℚ → Bool)
    (os : List (Api A W X C M E)) (t1 t2 : ℚ) (u1 u2 : Input A W)
    (hp : PromptImu none (os ++ [.imu t1 u1, .imu t2 u2])) (h1 : K.spike u1.a = false)
    (h2 : K.spike u2.a = true) (c : Core A W X C M T)
    (hc : Core.apis (gnuEnv s1 s2) K (Core.new K) os = .ok c) (hi : c.inited = true)
    (last : Node (St A W X C)) (hl : c.states.deref c.itImu = .ok last)
    (hnew : ∀ n ∈ c.states.nodes, n.key < t2) (h12 : t1 < t2) :
    ∃ c2, Core.apis (gnuEnv s1 s2) K (Core.new K) (os ++ [.imu t1 u1, .imu t2 u2]) = .ok c2 ∧
      (c2.inited = true → ∃ n ∈ c2.states.nodes, n.key = t2 ∧ n.val.u = ⟨last.val.u.a, u2.w⟩) := by
  rw [← Flow.abs_apis] at hc ⊢
  exact Flow.spike_stale K.absFlow_tame s1 s2 (Flow.absFlow_applies s1 s2 K) os t1 t2 u1 u2 hp h1 h2 c hc hi
    last hl hnew h12

namespace Demo

/-- `Init`, readings with accelerations 1, 2 and 3, and one with the acceleration `a`. -/
def spikeRun (a : ℚ) : List (Api ℚ ℚ ℚ ℚ ℚ Unit) :=
  [.init 1 s0, .imu (101/100) ⟨1, 0⟩, .imu (102/100) ⟨2, 0⟩, .imu (103/100) ⟨3, 0⟩, .imu (104/100) ⟨a, 0⟩]

/-- Times, accelerations and means of the buffered states. -/
def spikeView (a : ℚ) : Option (List (ℚ × ℚ × ℚ)) :=
  (Core.apis env K (Core.new K) (spikeRun a)).toOption.map fun c =>
    c.states.nodes.map fun n => (n.key, n.val.u.a, n.val.x)

end Demo
open Demo

/-- **C109 is violated.** After readings 1, 2 and 3 a spike is processed as if the reading were 2, and not as if
the last good reading, 3, had been repeated. -/
theorem C109_violated : K.spike 99 = true ∧ spikeView 99 = spikeView 2 ∧ spikeView 99 ≠ spikeView 3 ∧
    (spikeView 99).isSome = true := by
  decide +kernel

/-- Non-vacuity of `C109_value_ignored`: two runs with different spikes. -/
example : List.Forall₂ (Api.SameButSpikes K.spike) (spikeRun 99) (spikeRun 77) := by
  have h : K.spike 99 = true ∧ K.spike 77 = true := by decide +kernel
  unfold spikeRun
  refine .cons rfl (.cons ⟨rfl, rfl, .inl rfl⟩ (.cons ⟨rfl, rfl, .inl rfl⟩ (.cons ⟨rfl, rfl, .inl rfl⟩
    (.cons ⟨rfl, rfl, .inr h⟩ .nil))))

/-- Non-vacuity of `C109_replaced_partial`. -/
example : PromptImu none (spikeRun 99) ∧ K.spike 3 = false ∧ K.spike 99 = true ∧
    ∃ c, Core.apis env K (Core.new K) ((spikeRun 99).take 3) = .ok c ∧ (c.inited = true ∧
      ((c.states.deref c.itImu).toOption.map fun n => n.val.u.a) = some 2 ∧
      ∀ n ∈ c.states.nodes, n.key < 104/100) := by
  refine ⟨by norm_num [spikeRun, PromptImu, abs_le], by decide +kernel, by decide +kernel, ?_⟩
  exact Demo.reach _ _ (by decide +kernel)

end MSF
