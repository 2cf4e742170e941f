import Verif.Lemmas.SafePrompt

/-!
# C19 and C20 for every kernel and for relative measurements

`C20_no_undefined_behaviour_partial` is about histories in which the readings arrive in order and about kernels
whose measurements are never rejected.  Here nothing is assumed about the numerics: propagation, correction,
outlier test and the check for drifting states may return anything, and the covariance and the state may be
undefined.  Only the time stamps matter.
-/

namespace MSF

variable {A W X C F M T E : Type} [AddCommGroup A] [Module ℚ A] [AddCommGroup W] [Module ℚ W]

/-- **C20, every kernel (partial).**  A filter that is driven by IMU readings, or by externally propagated
states, with absolute measurements of any kind: if the calls are timely then none of them reaches undefined
behaviour and all of them return, on every tree shape of libstdc++.  Nothing is assumed about the numerics.
Missing: calls that are not timely (see `C19_violated`, `C20_violated`), and runs that mix IMU readings and
external states (see `C20_mixed_violated`). -/
theorem C20_every_kernel_partial (K : Kernel A W X C M T E) (s1 s2 : Nat → List ℚ → Bool) (driven : Bool)
    (os : List (Api A W X C M E)) (hd : ∀ o ∈ os, o.drives driven)
    (ht : K.absFlow.Timely (gnuEnv s1 s2) (Core.new K) os) :
    ∃ c, Core.apis (gnuEnv s1 s2) K (Core.new K) os = .ok c := by
  obtain ⟨c, e, -⟩ := Flow.apis_tot K.absFlow_tame s1 s2 (Flow.absFlow_applies s1 s2 K) os (Core.new K)
    (Core.Sound.new driven K) hd ht
  rw [Flow.abs_apis] at e
  exact ⟨c, e⟩

/-- **C20, relative measurements (partial).**  The same for filters with absolute and relative measurements,
whatever the kernel computes: the search for the previous measurement of the sensor, the states of both
measurements and the accumulated transition between them never leave the buffers. -/
theorem C20_relative_partial (R : RelKernel A W X C F M T E) (s1 s2 : Nat → List ℚ → Bool) (driven : Bool)
    (os : List (Api A W X (C × F) M E)) (hd : ∀ o ∈ os, o.drives driven)
    (ht : R.flow.Timely (gnuEnv s1 s2) (Core.new R.pair) os) :
    ∃ c, R.run (gnuEnv s1 s2) os = .ok c := by
  obtain ⟨c, e, -⟩ := Flow.apis_tot R.flow_tame s1 s2 (R.flow_applies s1 s2) os (Core.new R.pair)
    (Core.Sound.new driven R.pair) hd ht
  exact ⟨c, e⟩

/-- **Prompt calls are timely**, so that the hypothesis of the two theorems above can be checked on the time
stamps alone. -/
theorem C20_prompt_is_timely {f : Flow A W X C M T E} (hf : f.Tame) (s1 s2 : Nat → List ℚ → Bool)
    (ha : Flow.Applies s1 s2 f) (os : List (Api A W X C M E)) (h : PromptImu none os ∨ PromptExt none os) :
    ∃ driven, (∀ o ∈ os, o.drives driven) ∧ f.Timely (gnuEnv s1 s2) (Core.new f.toKernel) os := by
  rcases h with h | h
  · exact ⟨true, h.drives, Flow.promptImu_timely hf s1 s2 ha os _ none (Core.Sound.new true f.toKernel) rfl h⟩
  · exact ⟨false, h.drives, Flow.promptExt_timely hf s1 s2 ha os _ none (Core.Sound.new false f.toKernel) rfl h⟩

/-- **C20 by time stamps (partial).**  Calls whose stamps are prompt (`PromptImu`, `PromptExt`) succeed, for
every kernel and every tree shape. -/
theorem C20_stamps_partial (K : Kernel A W X C M T E) (s1 s2 : Nat → List ℚ → Bool)
    (os : List (Api A W X C M E)) (h : PromptImu none os ∨ PromptExt none os) :
    ∃ c, Core.apis (gnuEnv s1 s2) K (Core.new K) os = .ok c := by
  obtain ⟨b, h1, h2⟩ := C20_prompt_is_timely K.absFlow_tame s1 s2 (Flow.absFlow_applies s1 s2 K) os h
  exact C20_every_kernel_partial K s1 s2 b os h1 h2

/-- **C20 by time stamps, relative measurements (partial).** -/
theorem C20_stamps_relative_partial (R : RelKernel A W X C F M T E) (s1 s2 : Nat → List ℚ → Bool)
    (os : List (Api A W X (C × F) M E)) (h : PromptImu none os ∨ PromptExt none os) :
    ∃ c, R.run (gnuEnv s1 s2) os = .ok c := by
  obtain ⟨b, h1, h2⟩ := C20_prompt_is_timely R.flow_tame s1 s2 (R.flow_applies s1 s2) os h
  exact C20_relative_partial R s1 s2 b os h1 h2

/-- **C19 (partial).**  Initialisations and IMU readings in any order, with measurements in between, never use an erased node if the stamps are
positive, neighbouring readings are at most 0.1 s apart and none is more than a minute older than the newest:
readings may arrive out of order.  Nothing is assumed about the numerics.  Missing: larger steps, see
`C19_violated`. -/
theorem C19_every_kernel_partial (K : Kernel A W X C M T E) (s1 s2 : Nat → List ℚ → Bool)
    (os : List (Api A W X C M E)) (h : PromptImu none os) (e : UB) : Core.apis (gnuEnv s1 s2) K (Core.new K) os ≠ .error e := by
  obtain ⟨c, hc⟩ := C20_stamps_partial K s1 s2 os (.inl h)
  rw [hc]
  simp

/-- **C19 is violated by every gap after `Init`.**  If the first IMU reading is more than 0.1 s away from the time of the
initialisation, the next one dereferences an iterator to an erased node, for every kernel, every platform and all
stamps and readings. -/
theorem C19_gap_violated (env : Env) (K : Kernel A W X C M T E) (t t1 t2 : ℚ) (s : St A W X C)
    (u u' : Input A W) (ht : 0 < t) (h1 : 1 / 10 < |t1 - t|) :
    (∃ c, Core.apis env K (Core.new K) [.init t s, .imu t1 u] = .ok c) ∧
    Core.apis env K (Core.new K) [.init t s, .imu t1 u, .imu t2 u'] = .error .dangling := by
  have h0 : t ≠ invalidTime := by simp [invalidTime]; linarith
  have hne : t1 ≠ t := by rintro rfl; norm_num at h1
  have h1' : (10 : ℚ)⁻¹ < |t1 - t| := by simpa using h1
  constructor <;> cases hs : K.spike u.a
  all_goals
    simp [Core.apis, Core.api, Core.init, Core.new, Core.processIMU, Buf.clear,
      Buf.insert, h0, h1', Buf.find, Buf.updateTime,
      Buf.deref, bind, Except.bind, pure, Except.pure, insertNode, Node.iter, hne, hs]

/-- Stamps as in the theorem: `Init` at 1 s and a reading at 1.2 s. -/
example : (0 : ℚ) < 1 ∧ (1 : ℚ) / 10 < |12 / 10 - 1| := by norm_num [abs_of_pos]

/-- **C20 is violated by mixing.**  The first externally propagated state after `Init` empties the buffer but leaves
`it_last_IMU` at the erased node; the first IMU reading that follows dereferences it.  This happens for every kernel,
every platform and all stamps and readings. -/
theorem C20_mixed_violated (env : Env) (K : Kernel A W X C M T E) (t t1 t2 : ℚ) (s : St A W X C)
    (u u' : Input A W) (e : Option E) (ht : 0 < t) (h1 : |t1 - t| ≤ 5) :
    Core.apis env K (Core.new K) [.init t s, .ext t1 u e, .imu t2 u'] = .error .dangling := by
  have h0 : t ≠ invalidTime := by simp [invalidTime]; linarith
  have h5 : ¬ 5 < |t1 - t| := not_lt.2 h1
  simp [Core.apis, Core.api, Core.init, Core.new, Core.processExternal, Core.processIMU, Buf.clear,
    Buf.insert, Buf.last, h0, h5, Buf.find, Core.propagatePOneStep,
    Buf.deref, Core.handlePending, bind, Except.bind, pure, Except.pure, insertNode, Buf.iterAtValue, Buf.incr,
    Buf.upperBound, Buf.toIter, Node.iter, Except.map]
  by_cases h : t1 = t <;> simp [h]

/-- Non-vacuity of C20: a run with readings out of order, a measurement that is late, one at a time without a
state and one that comes before the filter is ready. -/
example (s : St A W X C) (u : Input A W) (m1 m2 m3 m4 : M) : PromptImu none
    ([.meas ⟨3, 0, m1⟩, .imu 5 u, .init 1 s, .meas ⟨1, 0, m1⟩, .imu (101/100) u, .imu (102/100) u,
      .imu (103/100) u, .imu (104/100) u, .meas ⟨1035/1000, 0, m2⟩, .imu (1038/1000) u, .imu (105/100) u,
      .meas ⟨102/100, 1, m3⟩, .meas ⟨105/100, 0, m4⟩, .meas ⟨-4, 0, m4⟩] : List (Api A W X C M E)) := by
  norm_num [PromptImu, abs_le]
  exact fun M h => by cases h

example (s : St A W X C) (u : Input A W) (e : Option E) (m1 m2 m3 : M) : PromptExt none
    ([.meas ⟨3, 0, m1⟩, .init 1 s, .ext 20 u e, .ext (201/10) u none, .ext (202/10) u none,
      .meas ⟨2015/100, 0, m2⟩, .ext (203/10) u e, .meas ⟨2015/100, 1, m3⟩] : List (Api A W X C M E)) := by
  norm_num [PromptExt]
  exact fun M h => by cases h

end MSF
