import Verif.Lemmas.Quiet
import Verif.Spec.Batch

/-! The first updates of a filter never find the state fuzzy. -/

namespace MSF
open Spec
variable {A W X C M T E : Type}

/-- `τ` counts the updates, and the state is not found fuzzy up to a count of `B`. -/
structure Kernel.Warm (K : Kernel A W X C M T E) (τ : T → Nat) (B : Nat) : Prop where
  tr0 : τ K.tr0 ≤ 1
  step : ∀ tr m x P, τ tr ≤ B → τ (K.update tr m x P).tr ≤ τ tr + 1
  fuzzy : ∀ tr m x P, τ tr ≤ B → (K.update tr m x P).fuzzy = false

namespace Core
variable {K : Kernel A W X C M T E} {τ : T → Nat} {B : Nat}

/-- Not fuzzy, with at most `i` updates. -/
structure Upto (τ : T → Nat) (c0 : Core A W X C M T) (n : Nat) (c : Core A W X C M T) : Prop where
  tracker : τ c.tracker ≤ τ c0.tracker + n
  fuzzy : c.fuzzy = false
  queue : c.queue = c0.queue
  meas : c.meas.size ≤ c0.meas.size

theorem insertNode_length {V : Type} (n : Node V) (l : List (Node V)) :
    (insertNode n l).length = l.length + 1 := by
  induction l with
  | nil => rfl
  | cons m l ih =>
    unfold insertNode
    split
    · rfl
    · simp [ih]

theorem insert_size {V : Type} (b : Buf V) (t : ℚ) (v : V) : (b.insert t v).1.size ≤ b.size + 1 := by
  unfold Buf.insert
  split
  · exact Nat.le_succ _
  · simp [Buf.size, insertNode_length]

variable [AddCommGroup A] [Module ℚ A] [AddCommGroup W] [Module ℚ W]

theorem upto_measLoop (hK : K.Warm τ B) (env : Env) (fuel : Nat) :
    ∀ {c : Core A W X C M T} (_ : c.fuzzy = false) (_ : τ c.tracker + fuel ≤ B + 1) (it : Iter)
      (ap : Bool), Post (measLoop env K fuel c it ap) (fun r => Upto τ c fuel r.1) := by
  induction fuel with
  | zero => intro c _ _ it ap; exact Post.err
  | succ fuel ih =>
    intro c hf ht it ap
    have weak : ∀ {c1 c2 : Core A W X C M T}, Held c c1 → Upto τ c1 fuel c2 →
        Upto τ c (fuel + 1) c2 := fun h1 h2 =>
      ⟨by have := h2.tracker; rw [h1.tracker] at this; omega, h2.fuzzy, h2.queue.trans h1.queue,
        h2.meas.trans h1.meas⟩
    unfold measLoop
    split
    · exact Post.ok ⟨Nat.le_add_right _ _, hf, rfl, le_rfl⟩
    · refine Post.bind fun m hm => ?_
      split
      · refine Post.bind fun i _ r hr => weak (Held.refl c) (ih hf (by omega) i ap r hr)
      · refine Post.bind fun r hr => ?_
        have h1 := Held.getClosestState (c := c) (Held.refl _) env _ r hr
        obtain ⟨c1, st⟩ := r
        simp only at h1 ⊢
        have hf1 : c1.fuzzy = false := h1.fuzzy.trans hf
        have ht1 : τ c1.tracker + (fuel + 1) ≤ B + 1 := by rw [h1.tracker]; exact ht
        cases st with
        | none => exact Post.bind fun i _ r hr => weak h1 (ih hf1 (by omega) i ap r hr)
        | some s =>
          simp only
          split
          · exact Post.bind fun i _ r hr => weak h1 (ih hf1 (by omega) i ap r hr)
          · refine Post.bind fun m2 _ => Post.bind fun i _ => Post.bind fun r2 hr2 => ?_
            have h2 := Held.repropagate (c := applyMeas K c1 m2.val s) (Held.refl _) s.key i r2 hr2
            obtain ⟨c3, ab⟩ := r2
            simp only at h2 ⊢
            have k1 : τ c3.tracker ≤ τ c1.tracker + 1 := by
              rw [h2.tracker]
              exact hK.step _ _ _ _ (by omega)
            have k2 : c3.fuzzy = false := by
              rw [h2.fuzzy]
              change (c1.fuzzy || (K.update c1.tracker m2.val.body s.val.x s.val.P).fuzzy) = false
              rw [hf1, hK.fuzzy _ _ _ _ (by omega)]
              rfl
            have k3 : c3.queue = c.queue := h2.queue.trans h1.queue
            have k4 : c3.meas.size ≤ c.meas.size := h2.meas.trans h1.meas
            rw [h1.tracker] at k1
            split
            · exact Post.ret ⟨by simp only; omega, k2, k3, k4⟩
            · intro r hr
              have h3 := ih k2 (by omega) i true r hr
              exact ⟨by have := h3.tracker; omega, h3.fuzzy, h3.queue.trans k3, h3.meas.trans k4⟩

/-- At most `n` measurements have been received, no state was found fuzzy. -/
def Few (τ : T → Nat) (n : Nat) (c : Core A W X C M T) : Prop :=
  ∃ i, c.meas.size ≤ i ∧ i + c.queue.length ≤ n ∧ 2 * τ c.tracker ≤ 2 + i * (i + 3) ∧
    c.fuzzy = false

omit [AddCommGroup A] [Module ℚ A] [AddCommGroup W] [Module ℚ W] in
theorem Few.mono {n n' : Nat} {c : Core A W X C M T} (h : Few τ n c) (hn : n ≤ n') : Few τ n' c := by
  obtain ⟨i, h1, h2, h3, h4⟩ := h
  exact ⟨i, h1, h2.trans hn, h3, h4⟩

omit [AddCommGroup A] [Module ℚ A] [AddCommGroup W] [Module ℚ W] in
theorem Few.held {n : Nat} {c c1 : Core A W X C M T} (h : Few τ n c) (h1 : Held c c1) :
    Few τ n c1 := by
  obtain ⟨i, a, b, d, e⟩ := h
  exact ⟨i, h1.meas.trans a, by rw [h1.queue]; exact b, by rw [h1.tracker]; exact d,
    h1.fuzzy.trans e⟩

theorem few_addMeasurement (hK : K.Warm τ B) {n : Nat} (hn : (n + 1) * (n + 4) ≤ 2 * B)
    {c : Core A W X C M T} (h : Few τ n c) (env : Env) (m : Meas M) :
    Post (addMeasurement env K c m) (Few τ (n + 1)) := by
  unfold addMeasurement
  split
  · exact Post.ret (h.mono (Nat.le_succ n))
  · split
    · obtain ⟨i, h1, h2, h3, h4⟩ := h
      exact Post.ret ⟨i, h1, by simp only [List.length_append, List.length_singleton]; omega, h3, h4⟩
    · split
      · exact Post.ret (h.mono (Nat.le_succ n))
      · obtain ⟨i, h1, h2, h3, h4⟩ := h
        have hs := insert_size c.meas m.time m
        have hin : i ≤ n := by omega
        have hb : (i + 1) * (i + 4) ≤ 2 * B :=
          (Nat.mul_le_mul (by omega) (by omega)).trans hn
        have hexp : i * (i + 3) + 2 * i + 4 = (i + 1) * (i + 4) := by ring
        refine Post.bind fun r hr => ?_
        have hu := upto_measLoop hK env ((c.meas.insert m.time m).1.size + 1) (c := { c with
          meas := (c.meas.insert m.time m).1, fuzzy := false }) rfl
          (by simp only; omega) (c.meas.insert m.time m).2 false r hr
        obtain ⟨c1, ap, ab⟩ := r
        simp only at hu ⊢
        have hres : Few τ (n + 1) c1 := by
          refine ⟨i + 1, ?_, ?_, ?_, hu.fuzzy⟩
          · have := hu.meas; simp only at this; omega
          · rw [hu.queue]; simp only; omega
          · have := hu.tracker; simp only at this
            have e2 : (i + 1) * (i + 1 + 3) = (i + 1) * (i + 4) := by ring
            omega
        split
        · exact Post.ret hres
        · intro r hr
          exact hres.held (Held.finishMeas (Held.refl c1) r hr)

theorem few_handlePending (hK : K.Warm τ B) {n : Nat} (hn : n * (n + 3) ≤ 2 * B)
    {c : Core A W X C M T} (h : Few τ n c) (env : Env) :
    Post (handlePending env K c) (Few τ n) := by
  unfold handlePending
  split
  · exact Post.ok h
  · rename_i m q hq
    obtain ⟨i, h1, h2, h3, h4⟩ := h
    rw [hq] at h2
    simp only [List.length_cons] at h2
    obtain ⟨n, rfl⟩ : ∃ k, n = k + 1 := ⟨n - 1, by omega⟩
    exact few_addMeasurement hK hn (c := { c with queue := q })
      ⟨i, h1, by simp only; omega, h3, h4⟩ env m

theorem few_imuPropagate (hK : K.Warm τ B) {n : Nat} (hn : n * (n + 3) ≤ 2 * B)
    {c : Core A W X C M T} (h : Few τ n c) (env : Env) (last : Node (St A W X C)) (t : ℚ)
    (v : Input A W) : Post (imuPropagate env K c last t v) (Few τ n) := by
  rw [imuPropagate_form]
  refine Post.bind fun c1 hc1 => Post.bind fun cur _ => ?_
  have hh := Held.propagatePOneStep (c0 := c) (c := { c with
      states := (c.states.insert t (imuState K last t v)).1,
      itImu := (c.states.insert t (imuState K last t v)).2 }) ⟨rfl, rfl, rfl, le_rfl⟩ c1 hc1
  have h1 : Few τ n c1 := h.held hh
  unfold imuEnd
  split
  · exact few_handlePending hK hn (c := { c1 with
      out := c1.out ++ [.afterPropagation t cur.x cur.P], predMade := true }) h1 env
  · exact Post.ok h1

theorem few_processIMU (hK : K.Warm τ B) {n : Nat} (hn : n * (n + 3) ≤ 2 * B)
    {c : Core A W X C M T} (h : Few τ n c) (env : Env) (t : ℚ) (v : Input A W) :
    Post (processIMU env K c t v) (Few τ n) := by
  rw [processIMU_form]
  split
  · exact Post.ret h
  · refine Post.bind fun it _ => Post.bind fun last _ => ?_
    unfold imuBody
    split
    · exact Post.ok h
    · split
      · exact Post.ok h
      · split
        · exact Post.ok h
        · exact few_imuPropagate hK hn (c := { c with
            itImu := it
            lastAmImu := if K.spike v.a = true then c.lastAmImu else last.val.u.a }) h env last t _

theorem few_calls (hK : K.Warm τ B) (env : Env) (ops : List (Op A W M)) :
    ∀ {n : Nat} {c : Core A W X C M T} (_ : Few τ n c)
      (_ : (n + (measOps ops).length) * (n + (measOps ops).length + 3) ≤ 2 * B),
      Post (calls env K c ops) (Few τ (n + (measOps ops).length)) := by
  induction ops with
  | nil => intro n c h _; exact Post.ok h
  | cons o ops ih =>
    intro n c h hn
    refine Post.bind fun c1 hc1 => ?_
    have hle : ∀ k, k ≤ n + (measOps (o :: ops)).length → k * (k + 3) ≤ 2 * B := fun k hk =>
      (Nat.mul_le_mul hk (by omega)).trans hn
    cases o with
    | imu t v => exact ih (few_processIMU hK (hle n (by omega)) h env t v c1 hc1) hn
    | meas m =>
      have hl : (measOps (Op.meas m :: ops)).length = (measOps ops).length + 1 := rfl
      have h1 := few_addMeasurement hK (hle (n + 1) (by omega)) h env m c1 hc1
      rw [hl] at hn ⊢
      have e : n + ((measOps ops).length + 1) = n + 1 + (measOps ops).length := by omega
      rw [e] at hn ⊢
      exact ih h1 hn

/-- A run with few measurements finds no state fuzzy. -/
theorem quietRun_of_few (hK : K.Warm τ B) (env : Env) (c : Core A W X C M T) (t : ℚ)
    (s : St A W X C) (hc : c.fuzzy = false) (ops : List (Op A W M))
    (hn : (measOps ops).length * ((measOps ops).length + 3) ≤ 2 * B) :
    QuietRun env K (c.init K t s) ops := by
  rintro ops' c' ⟨rest, rfl⟩ hc'
  have hle : (measOps ops').length ≤ (measOps (ops' ++ rest)).length := by
    clear hn hc'
    induction ops' with
    | nil => exact Nat.zero_le _
    | cons o ops' ih => cases o <;> simp [measOps] <;> exact ih
  have h0 : Few τ 0 (c.init K t s) := by
    refine ⟨0, le_rfl, le_rfl, ?_, hc⟩
    have := hK.tr0
    change 2 * τ K.tr0 ≤ _
    omega
  obtain ⟨-, -, -, -, h⟩ := few_calls hK env ops' h0
    (by rw [Nat.zero_add]; exact (Nat.mul_le_mul hle (by omega)).trans hn) c' hc'
  exact h

end Core
end MSF
