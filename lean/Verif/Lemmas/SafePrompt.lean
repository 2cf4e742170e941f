import Verif.Lemmas.SafeRun

/-! Timely and prompt sequences of calls, and that they succeed. -/

namespace MSF

variable {A W X C F M T E : Type} [AddCommGroup A] [Module ℚ A] [AddCommGroup W] [Module ℚ W]

/-- The calls `os`, made one after another from the core `c`, are timely: each is `Due` in the state that it
meets. -/
def Flow.Timely (env : Env) (f : Flow A W X C M T E) : Core A W X C M T → List (Api A W X C M E) → Prop
  | _, [] => True
  | c, o :: os => c.Due o ∧ ∀ c', f.api env c o = .ok c' → Flow.Timely env f c' os

theorem Flow.Timely.cons {env : Env} {f : Flow A W X C M T E} {c c1 : Core A W X C M T} {o : Api A W X C M E}
    {os : List (Api A W X C M E)} (hd : c.Due o) (e : f.api env c o = .ok c1) (h : f.Timely env c1 os) :
    f.Timely env c (o :: os) :=
  ⟨hd, fun c' e' => by
    rw [e] at e'
    cases e'
    exact h⟩

theorem Flow.apis_tot {f : Flow A W X C M T E} (hf : f.Tame) (s1 s2) (ha : Applies s1 s2 f) {b : Bool}
    (os : List (Api A W X C M E)) : ∀ c : Core A W X C M T, c.Sound b → (∀ o ∈ os, o.drives b) →
    f.Timely (gnuEnv s1 s2) c os → Tot (apis (gnuEnv s1 s2) f c os) fun c' => c'.Sound b := by
  induction os with
  | nil => exact fun c hc _ _ => Tot.ok hc
  | cons o os ih =>
    intro c hc hb ht
    obtain ⟨c1, e1, h1⟩ := api_tot hf s1 s2 ha c hc o (hb o (List.mem_cons_self ..)) ht.1
    exact Tot.bind_eq e1 (ih c1 h1 (fun o ho => hb o (List.mem_cons_of_mem _ ho)) (ht.2 c1 e1))

/-- What the caller knows about the time stamps of its calls since `Init`: the newest IMU stamp, the last one,
and the newest stamp of a measurement. -/
structure Clock where
  newest : ℚ
  imu : ℚ
  meas : Option ℚ

/-- Calls of a filter driven by IMU readings whose stamps meet:
* stamps of `Init` and of IMU readings are positive;
* each IMU reading is within 0.1 s of the one before, and at most a minute older than the newest;
* no measurement is newer than the newest IMU reading, or more than a minute older than the newest measurement.
Before `Init` any IMU readings and measurements are allowed. -/
def PromptImu : Option Clock → List (Api A W X C M E) → Prop
  | _, [] => True
  | _, .ext _ _ _ :: _ => False
  | _, .init t _ :: os => 0 < t ∧ PromptImu (some ⟨t, t, none⟩) os
  | none, _ :: os => PromptImu none os
  | some k, .imu t _ :: os => 0 < t ∧ |t - k.imu| ≤ 1 / 10 ∧ k.newest ≤ t + 60 ∧
      PromptImu (some ⟨max k.newest t, t, k.meas⟩) os
  | some k, .meas m :: os => m.time ≤ k.newest ∧ (∀ M ∈ k.meas, M ≤ m.time + 60) ∧
      PromptImu (some ⟨k.newest, k.imu, some (max (k.meas.getD m.time) m.time)⟩) os

/-- Calls of a filter driven by externally propagated states whose stamps meet:
* the stamp of `Init` is positive and external states arrive in order;
* no measurement is newer than the newest external state, or more than a minute older than the newest
  measurement. -/
def PromptExt : Option Clock → List (Api A W X C M E) → Prop
  | _, [] => True
  | _, .imu _ _ :: _ => False
  | _, .init t _ :: os => 0 < t ∧ PromptExt (some ⟨t, t, none⟩) os
  | none, _ :: os => PromptExt none os
  | some k, .ext t _ _ :: os => k.newest < t ∧ PromptExt (some ⟨t, k.imu, k.meas⟩) os
  | some k, .meas m :: os => m.time ≤ k.newest ∧ (∀ M ∈ k.meas, M ≤ m.time + 60) ∧
      PromptExt (some ⟨k.newest, k.imu, some (max (k.meas.getD m.time) m.time)⟩) os

/-- The core agrees with the caller's clock. -/
def Core.Tracks (c : Core A W X C M T) : Option Clock → Prop
  | none => c.inited = false
  | some k => 0 < k.imu ∧ (c.inited = true → c.imuTime = k.imu ∧ endKey 0 c.states.nodes = k.newest ∧
      c.queue = [] ∧ ∀ x ∈ c.meas.nodes, ∃ M ∈ k.meas, x.key ≤ M)

/-- The same when external states drive the filter. -/
def Core.TracksExt (c : Core A W X C M T) : Option Clock → Prop
  | none => c.inited = false
  | some k => 0 < k.newest ∧ (c.inited = true → c.predMade = true → endKey 0 c.states.nodes = k.newest ∧
      c.queue = [] ∧ ∀ x ∈ c.meas.nodes, ∃ M ∈ k.meas, x.key ≤ M)

theorem le_clock_meas {k : Option ℚ} {t x : ℚ} {M : ℚ} (hM : M ∈ k) (h : x ≤ M) :
    ∃ M' ∈ (some (max (k.getD t) t)), x ≤ M' := by
  obtain rfl : k = some M := hM
  exact ⟨_, rfl, le_max_of_le_left h⟩

/-- One prompt call. -/
theorem Flow.promptImu_step {f : Flow A W X C M T E} (hf : f.Tame) (s1 s2) (ha : Applies s1 s2 f)
    (c : Core A W X C M T) (k : Option Clock) (o : Api A W X C M E) (os : List (Api A W X C M E))
    (hc : c.Sound true) (hk : c.Tracks k) (ho : PromptImu k (o :: os)) :
    ∃ c1 k1, c.Due o ∧ f.api (gnuEnv s1 s2) c o = .ok c1 ∧ c1.Sound true ∧ c1.Tracks k1 ∧ PromptImu k1 os := by
  cases o with
  | ext t u e => cases k <;> exact ho.elim
  | init t s =>
    have ho' : 0 < t ∧ PromptImu (some ⟨t, t, none⟩) os := by cases k <;> exact ho
    exact ⟨Core.init f.toKernel c t s, some _, trivial, rfl, Core.Sound.init true f.toKernel c t s,
      ⟨ho'.1, fun _ => ⟨rfl, rfl, rfl, fun x hx => by cases hx⟩⟩, ho'.2⟩
  | imu t u =>
    cases k with
    | none =>
      have hi : c.inited = false := hk
      have : f.api (gnuEnv s1 s2) c (.imu t u) = .ok c := by
        change processIMU _ _ _ _ _ = _
        rw [processIMU_form, if_pos hi]
      exact ⟨c, none, fun h => (by rw [hi] at h; cases h), this, hc, hk, ho⟩
    | some k =>
      obtain ⟨h0, h1, h2, ho⟩ := ho
      have hd : c.Due (.imu t u : Api A W X C M E) := fun hi => by
        obtain ⟨a1, a2, a3, a4⟩ := hk.2 hi
        refine ⟨fun n hn => ?_, fun _ => by rw [a1]; exact h1, fun m hm => by rw [a3] at hm; cases hm⟩
        have := endKey_ge (t := 0) hc.sorted n hn
        rw [a2] at this
        exact this.trans h2
      obtain ⟨c1, e1, hs1, hp⟩ := processIMU_tot hf s1 s2 ha c hc t u hd
      refine ⟨c1, some _, hd, e1, hs1, ⟨h0, fun hi => ?_⟩, ho⟩
      obtain ⟨hi0, h⟩ := hp hi
      obtain ⟨a1, a2, a3, a4⟩ := hk.2 hi0
      obtain ⟨b1, b2, b3⟩ := h (by
        rw [a1]
        intro h
        have := hk.1
        rw [h] at this
        norm_num [invalidTime] at this)
      obtain ⟨b3, b4, -⟩ := b3 a3
      exact ⟨b1, by rw [b2, a2], b4, by rw [b3]; exact a4⟩
  | meas m =>
    cases k with
    | none =>
      have hi : c.inited = false := hk
      have : f.api (gnuEnv s1 s2) c (.meas m) = .ok c := by
        change addMeasurement _ _ _ _ = _
        unfold addMeasurement
        rw [if_pos (.inl hi)]
        rfl
      exact ⟨c, none, fun h => (by rw [hi] at h; cases h), this, hc, hk, ho⟩
    | some k =>
      obtain ⟨h1, h2, ho⟩ := ho
      by_cases hi : c.inited = true
      · obtain ⟨a1, a2, a3, a4⟩ := hk.2 hi
        have hd : c.Due (.meas m : Api A W X C M E) := fun _ _ x hx => by
          obtain ⟨M, hM, hle⟩ := a4 x hx
          exact hle.trans (h2 M hM)
        obtain ⟨c1, e1, hs1, hi1, -, hp⟩ := addMeasurement_sound hf s1 s2 ha c hc m hd
        obtain ⟨b1, b2, b3, b4⟩ := hp hi
        refine ⟨c1, some ⟨k.newest, k.imu, some (max (k.meas.getD m.time) m.time)⟩, hd, e1, hs1,
          ⟨hk.1, fun _ => ⟨b1.trans a1, b2.trans a2, (b4 (by rw [a2]; exact h1)).trans a3, fun x hx => ?_⟩⟩, ho⟩
        rcases b3 x hx with h | h
        · obtain ⟨M, hM, hle⟩ := a4 x h
          exact le_clock_meas hM hle
        · exact ⟨_, rfl, h.le.trans (le_max_right _ _)⟩
      · rw [Bool.not_eq_true] at hi
        have : f.api (gnuEnv s1 s2) c (.meas m) = .ok c := by
          change addMeasurement _ _ _ _ = _
          unfold addMeasurement
          rw [if_pos (.inl hi)]
          rfl
        refine ⟨c, some ⟨k.newest, k.imu, some (max (k.meas.getD m.time) m.time)⟩,
          fun h => (by rw [hi] at h; cases h), this, hc, ⟨hk.1, fun h => ?_⟩, ho⟩
        rw [hi] at h
        cases h

theorem Flow.promptImu_timely {f : Flow A W X C M T E} (hf : f.Tame) (s1 s2) (ha : Applies s1 s2 f)
    (os : List (Api A W X C M E)) : ∀ (c : Core A W X C M T) (k : Option Clock), c.Sound true → c.Tracks k →
    PromptImu k os → f.Timely (gnuEnv s1 s2) c os := by
  induction os with
  | nil => exact fun c k _ _ _ => trivial
  | cons o os ih =>
    intro c k hc hk ho
    obtain ⟨c1, k1, hd, e1, hc1, hk1, ho1⟩ := promptImu_step hf s1 s2 ha c k o os hc hk ho
    exact Timely.cons hd e1 (ih c1 k1 hc1 hk1 ho1)

/-- After a part of the calls. -/
theorem Flow.promptImu_split {f : Flow A W X C M T E} (hf : f.Tame) (s1 s2) (ha : Applies s1 s2 f)
    (os os' : List (Api A W X C M E)) : ∀ (c : Core A W X C M T) (k : Option Clock), c.Sound true → c.Tracks k →
    PromptImu k (os ++ os') → ∃ c1 k1, f.apis (gnuEnv s1 s2) c os = .ok c1 ∧ c1.Sound true ∧ c1.Tracks k1 ∧
      PromptImu k1 os' ∧ f.apis (gnuEnv s1 s2) c (os ++ os') = f.apis (gnuEnv s1 s2) c1 os' := by
  induction os with
  | nil => exact fun c k hc hk ho => ⟨c, k, rfl, hc, hk, ho, rfl⟩
  | cons o os ih =>
    intro c k hc hk ho
    obtain ⟨c1, k1, -, e1, hc1, hk1, ho1⟩ := promptImu_step hf s1 s2 ha c k o _ hc hk ho
    obtain ⟨c2, k2, e2, h2⟩ := ih c1 k1 hc1 hk1 ho1
    refine ⟨c2, k2, ?_, h2.1, h2.2.1, h2.2.2.1, ?_⟩
    · change (f.api (gnuEnv s1 s2) c o >>= fun c => f.apis (gnuEnv s1 s2) c os) = _
      rw [e1]
      exact e2
    · change (f.api (gnuEnv s1 s2) c o >>= fun c => f.apis (gnuEnv s1 s2) c (os ++ os')) = _
      rw [e1]
      exact h2.2.2.2

theorem Flow.promptExt_timely {f : Flow A W X C M T E} (hf : f.Tame) (s1 s2) (ha : Applies s1 s2 f)
    (os : List (Api A W X C M E)) : ∀ (c : Core A W X C M T) (k : Option Clock), c.Sound false → c.TracksExt k →
    PromptExt k os → f.Timely (gnuEnv s1 s2) c os := by
  induction os with
  | nil => exact fun c k _ _ _ => trivial
  | cons o os ih =>
    intro c k hc hk ho
    cases o with
    | imu t u => cases k <;> exact ho.elim
    | init t s =>
      have ho' : 0 < t ∧ PromptExt (some ⟨t, t, none⟩) os := by cases k <;> exact ho
      refine Timely.cons trivial rfl (ih (Core.init f.toKernel c t s) (some _) (Core.Sound.init false f.toKernel c t s) ⟨ho'.1, fun _ h => ?_⟩ ho'.2)
      cases h
    | ext t u e =>
      cases k with
      | none =>
        have hi : c.inited = false := hk
        have : f.api (gnuEnv s1 s2) c (.ext t u e) = .ok c := by
          change processExternal _ _ _ _ _ _ = _
          rw [processExternal_form, if_pos hi]
        exact Timely.cons (fun h => by rw [hi] at h; cases h) this (ih c none hc hk ho)
      | some k =>
        obtain ⟨h0, ho⟩ := ho
        have ht : 0 < t := hk.1.trans h0
        have hd : c.Due (.ext t u e) := fun hi hpm m hm => by
          rw [(hk.2 hi hpm).2.1] at hm; cases hm
        obtain ⟨c1, e1, hs1, hp⟩ := processExternal_tot hf s1 s2 ha c hc t u e hd
        refine Timely.cons hd e1 (ih c1 (some _) hs1 ⟨ht, fun hi hpm => ?_⟩ ho)
        obtain ⟨hi0, h⟩ := hp ht hi hpm
        cases hpm0 : c.predMade with
        | false =>
          obtain ⟨b1, -, b3⟩ := h (.inl hpm0)
          obtain ⟨b3, b4⟩ := b3 hpm0
          exact ⟨by rw [b1, hpm0]; rfl, b4, fun x hx => by rw [b3] at hx; cases hx⟩
        | true =>
          obtain ⟨a2, a3, a4⟩ := hk.2 hi0 hpm0
          obtain ⟨b1, b2, -⟩ := h (.inr (by
            rw [a2]
            intro h
            have := hk.1
            rw [h] at this
            norm_num [invalidTime] at this))
          obtain ⟨b3, b4⟩ := b2 hpm0 a3
          refine ⟨?_, b4, by rw [b3]; exact a4⟩
          rw [b1, if_pos hpm0, a2]
          exact max_eq_right h0.le
    | meas m =>
      cases k with
      | none =>
        have hi : c.inited = false := hk
        have : f.api (gnuEnv s1 s2) c (.meas m) = .ok c := by
          change addMeasurement _ _ _ _ = _
          unfold addMeasurement
          rw [if_pos (.inl hi)]
          rfl
        exact Timely.cons (fun h => by rw [hi] at h; cases h) this (ih c none hc hk ho)
      | some k =>
        obtain ⟨h1, h2, ho⟩ := ho
        by_cases hi : c.inited = true ∧ c.predMade = true
        · obtain ⟨a2, a3, a4⟩ := hk.2 hi.1 hi.2
          have hd : c.Due (.meas m : Api A W X C M E) := fun _ _ x hx => by
            obtain ⟨M, hM, hle⟩ := a4 x hx
            exact hle.trans (h2 M hM)
          obtain ⟨c1, e1, hs1, hi1, hpm1, hp⟩ := addMeasurement_sound hf s1 s2 ha c hc m hd
          obtain ⟨-, b2, b3, b4⟩ := hp hi.1
          refine Timely.cons hd e1 (ih c1 (some ⟨k.newest, k.imu, some (max (k.meas.getD m.time) m.time)⟩) hs1 ⟨hk.1, fun _ _ => ⟨b2.trans a2,
            (b4 (by rw [a2]; exact h1)).trans a3, fun x hx => ?_⟩⟩ ho)
          rcases b3 x hx with h | h
          · obtain ⟨M, hM, hle⟩ := a4 x h
            exact le_clock_meas hM hle
          · exact ⟨_, rfl, h.le.trans (le_max_right _ _)⟩
        · have hi' : c.inited = false ∨ c.predMade = false := by
            rw [not_and_or, Bool.not_eq_true, Bool.not_eq_true] at hi
            exact hi
          have : f.api (gnuEnv s1 s2) c (.meas m) = .ok c := by
            change addMeasurement _ _ _ _ = _
            unfold addMeasurement
            rw [if_pos hi']
            rfl
          exact Timely.cons (fun h h' => absurd ⟨h, h'⟩ hi) this (ih c (some ⟨k.newest, k.imu, some (max (k.meas.getD m.time) m.time)⟩) hc ⟨hk.1, fun h h' => absurd ⟨h, h'⟩ hi⟩ ho)

theorem PromptImu.drives {os : List (Api A W X C M E)} : ∀ {k : Option Clock}, PromptImu k os →
    ∀ o ∈ os, o.drives true := by
  induction os with
  | nil => exact fun _ o ho => by cases ho
  | cons o os ih =>
    intro k h o' ho'
    rcases List.mem_cons.1 ho' with rfl | hm
    · cases o' <;> first | trivial | rfl | (cases k <;> exact h.elim)
    · cases o with
      | ext t u e => cases k <;> exact h.elim
      | init t s => cases k <;> exact ih h.2 o' hm
      | imu t u =>
        cases k with
        | none => exact ih h o' hm
        | some k => exact ih h.2.2.2 o' hm
      | meas m =>
        cases k with
        | none => exact ih h o' hm
        | some k => exact ih h.2.2 o' hm

theorem PromptExt.drives {os : List (Api A W X C M E)} : ∀ {k : Option Clock}, PromptExt k os →
    ∀ o ∈ os, o.drives false := by
  induction os with
  | nil => exact fun _ o ho => by cases ho
  | cons o os ih =>
    intro k h o' ho'
    rcases List.mem_cons.1 ho' with rfl | hm
    · cases o' <;> first | trivial | rfl | (cases k <;> exact h.elim)
    · cases o with
      | imu t u => cases k <;> exact h.elim
      | init t s => cases k <;> exact ih h.2 o' hm
      | ext t u e =>
        cases k with
        | none => exact ih h o' hm
        | some k => exact ih h.2 o' hm
      | meas m =>
        cases k with
        | none => exact ih h o' hm
        | some k => exact ih h.2.2 o' hm

end MSF
