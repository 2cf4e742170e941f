import Verif.Lemmas.Propagate
import Verif.Model.StateDefs

/-!
# Properties of state propagation (C24 – C27)
-/

namespace MSF

open EKFState

/-- A state object with all variables reset, at the given time and with the given inputs. -/
noncomputable def blankState (aux : List VarDesc) (t : ℝ) (a w : V3 ℝ) :
    EKFState ℝ (coreDef aux) :=
  { vars := fun _ => ⟨Val.reset _, 0, false⟩, w_m := w, a_m := a, time := t, P := 0, Fd := 1,
    Qd := 0 }

/-- A state of the pose filter with non-trivial position, velocity and attitude. -/
noncomputable def demoState (t : ℝ) (a w : V3 ℝ) : EKFState ℝ (coreDef poseAux) :=
  { blankState poseAux t a w with
    vars := setQ (setV (setP (blankState poseAux t a w).vars ![1, 2, 3]) ![4, 5, 6])
      ⟨3 / 5, 0, 4 / 5, 0⟩ }

theorem demoState_unit (t : ℝ) (a w : V3 ℝ) : (q (demoState t a w).vars).normSq = 1 := by
  simp only [demoState, q_setQ, Quat.normSq]
  norm_num

/-- **C24.**  For every state definition, all measured rates and accelerations, biases and time
steps, propagation of a state with a unit attitude quaternion succeeds (the normalization does not
divide by zero) and yields a unit attitude quaternion. -/
theorem C24_attitude_stays_unit {aux : List VarDesc} (old new : EKFState ℝ (coreDef aux))
    (hq : (q old.vars).normSq = 1) :
    ∃ s, propagateState old new = some s ∧ (q s.vars).normSq = 1 := by
  obtain ⟨s, qn, hs, -, hn, e, -⟩ := propagateState_spec old new hq
  exact ⟨s, hs, by rw [e, hn]⟩

/-- The hypothesis of C24 on a pose filter state; large rates and a large time step. -/
example : ∃ s, propagateState (demoState 0 ![1, 2, 3] ![100, -200, 300])
    (demoState 10 ![7, 8, 9] ![1, 1, 1]) = some s ∧ (q s.vars).normSq = 1 :=
  C24_attitude_stays_unit _ _ (demoState_unit _ _ _)

/-- Without the hypothesis the claim is false: a zero quaternion cannot be normalized. -/
example : propagateState
    { blankState [] 0 0 0 with vars := setQ (blankState [] 0 0 0).vars ⟨0, 0, 0, 0⟩ }
    (blankState [] 1 0 0) = none := by
  have h : ∀ M : M44 ℝ, (Quat.ofCoeffs (M.mulVec (⟨0, 0, 0, 0⟩ : Quat ℝ).coeffs)).normalize
      = none := by
    intro M
    have e : (⟨0, 0, 0, 0⟩ : Quat ℝ).coeffs = 0 := by
      funext i; fin_cases i <;> rfl
    rw [e, Matrix.mulVec_zero]
    simp [Quat.ofCoeffs, Quat.normalize, Quat.normSq]
  simp only [propagateState, q_setQ, h]

/-- **C24, all executions.**  Any chain of propagation steps from a unit attitude succeeds and ends
with a unit attitude. -/
theorem C24_chain {aux : List VarDesc} (news : List (EKFState ℝ (coreDef aux))) :
    ∀ old : EKFState ℝ (coreDef aux), (q old.vars).normSq = 1 →
      ∃ s, news.foldlM propagateState old = some s ∧ (q s.vars).normSq = 1 := by
  induction news with
  | nil => intro old h; exact ⟨old, rfl, h⟩
  | cons n l ih =>
    intro old h
    obtain ⟨s, hs, h'⟩ := C24_attitude_stays_unit old n h
    obtain ⟨s', hs', h''⟩ := ih s h'
    exact ⟨s', by simpa [List.foldlM, hs] using hs', h''⟩

/-- **C25.**  For every state definition: whatever the inputs, every state variable without
propagation (biases and all auxiliary states) is taken over unchanged, value, noise block and
reset flag. -/
theorem C25_nonpropagated_copied {aux : List VarDesc} (old new s : EKFState ℝ (coreDef aux))
    (h : propagateState old new = some s) (i : Fin (coreDef aux).length)
    (hi : ((coreDef aux).get i).stype ≠ .coreProp) : s.vars i = old.vars i := by
  simp only [propagateState] at h
  split at h
  · cases h
  · rw [← Option.some.inj h]
    show setP _ _ i = _
    rw [other_setP _ _ _ hi, other_setV _ _ _ hi, other_setQ _ _ _ hi]
    simp only [copyNonPropagationStates, if_neg hi]

/-- **C25, inputs.**  Propagation does not touch the time, the inputs and the covariance of the new
state. -/
theorem C25_inputs_kept {aux : List VarDesc} (old new s : EKFState ℝ (coreDef aux))
    (h : propagateState old new = some s) :
    s.time = new.time ∧ s.w_m = new.w_m ∧ s.a_m = new.a_m ∧ s.P = new.P ∧ s.Fd = new.Fd ∧
      s.Qd = new.Qd := by
  simp only [propagateState] at h
  split at h
  · cases h
  · rw [← Option.some.inj h]
    exact ⟨rfl, rfl, rfl, rfl, rfl, rfl⟩

/-- C25 on the pose filter: the scale (variable 5) survives a propagation with rotation. -/
example : ∃ s, propagateState (demoState 0 ![1, 2, 3] ![1, -2, 3]) (demoState 1 ![7, 8, 9] ![1, 1, 1])
    = some s ∧ s.vars ⟨5, by decide⟩ = (demoState 0 ![1, 2, 3] ![1, -2, 3]).vars ⟨5, by decide⟩ := by
  obtain ⟨s, hs, -⟩ := C24_attitude_stays_unit (demoState 0 ![1, 2, 3] ![1, -2, 3])
    (demoState 1 ![7, 8, 9] ![1, 1, 1]) (demoState_unit _ _ _)
  exact ⟨s, hs, C25_nonpropagated_copied _ _ _ hs _ (by decide)⟩

/-- The constant-acceleration law over an interval `dt` with specific force `f` in the world
frame. -/
noncomputable def ballisticV (v f : V3 ℝ) (dt : ℝ) : V3 ℝ := fun i => v i + dt * (f i - gravity i)
noncomputable def ballisticP (p v f : V3 ℝ) (dt : ℝ) : V3 ℝ :=
  fun i => p i + dt * v i + dt ^ 2 / 2 * (f i - gravity i)

/-- **C26, one step.**  With zero bias-corrected rate and constant measured acceleration the
attitude is unchanged and position and velocity follow the constant-acceleration law. -/
theorem C26_constant_acceleration {aux : List VarDesc} (old new : EKFState ℝ (coreDef aux))
    (hq : (q old.vars).normSq = 1)
    (h1 : new.w_m = b_w old.vars) (h2 : old.w_m = b_w old.vars) (h3 : new.a_m = old.a_m) :
    ∃ s, propagateState old new = some s ∧ q s.vars = q old.vars ∧
      v s.vars = ballisticV (v old.vars)
        ((q old.vars).toRot.mulVec (old.a_m - b_a old.vars)) (new.time - old.time) ∧
      p s.vars = ballisticP (p old.vars) (v old.vars)
        ((q old.vars).toRot.mulVec (old.a_m - b_a old.vars)) (new.time - old.time) := by
  obtain ⟨s, hs, e1, e2, e3, -⟩ := propagate_zero_rate old new hq h1 h2 h3
  refine ⟨s, hs, e1, ?_, ?_⟩
  · rw [e2]; funext i
    simp only [ballisticV, Pi.add_apply, Pi.smul_apply, Pi.sub_apply, smul_eq_mul]
  · rw [e3]; funext i
    simp only [ballisticP, Pi.add_apply, Pi.smul_apply, Pi.sub_apply, smul_eq_mul]

/-- **C26, any subdivision.**  Propagating through any number of intermediate states, at whatever
times, reaches the same position, velocity, attitude and non-propagated states as one step to the
last time. -/
theorem C26_subdivision {aux : List VarDesc} (mids : List (EKFState ℝ (coreDef aux))) :
    ∀ (old last : EKFState ℝ (coreDef aux)), (q old.vars).normSq = 1 →
      old.w_m = b_w old.vars →
      (∀ n ∈ mids ++ [last], n.w_m = b_w old.vars ∧ n.a_m = old.a_m) →
      ∃ s s', (mids ++ [last]).foldlM propagateState old = some s ∧
        propagateState old last = some s' ∧
        p s.vars = p s'.vars ∧ v s.vars = v s'.vars ∧ q s.vars = q s'.vars ∧
        s.time = s'.time ∧
        ∀ i, ((coreDef aux).get i).stype ≠ .coreProp → s.vars i = s'.vars i := by
  induction mids with
  | nil =>
    intro old last hq h2 hn
    obtain ⟨h1, h3⟩ := hn last (by simp)
    obtain ⟨s, hs, -⟩ := propagate_zero_rate old last hq h1 h2 h3
    exact ⟨s, s, by simp [List.foldlM, hs], hs, rfl, rfl, rfl, rfl, fun _ _ => rfl⟩
  | cons n l ih =>
    intro old last hq h2 hn
    obtain ⟨h1, h3⟩ := hn n (by simp)
    obtain ⟨hl1, hl3⟩ := hn last (by simp)
    obtain ⟨m, hm, m1, m2, m3, m4, m5, m6, m7⟩ := propagate_zero_rate old n hq h1 h2 h3
    have hbw : b_w m.vars = b_w old.vars := congrArg StateVar.val (m4 ibw (by
      show SType.coreNoProp ≠ SType.coreProp; decide))
    have hba : b_a m.vars = b_a old.vars := congrArg StateVar.val (m4 iba (by
      show SType.coreNoProp ≠ SType.coreProp; decide))
    have ha : m.a_m = old.a_m := by rw [m7, h3]
    obtain ⟨s, t, hs, ht, e1, e2, e3, e4, e5⟩ := ih m last (by rw [m1, hq])
      (by rw [m6, hbw, h1]) (fun x hx => by
        rw [hbw, ha]
        exact hn x (by
          rw [List.cons_append]
          exact List.mem_cons_of_mem _ hx))
    obtain ⟨t', ht', u1, u2, u3, u4, u5, u6, u7⟩ := propagate_zero_rate m last (by rw [m1, hq])
      (by rw [hbw, hl1]) (by rw [m6, hbw, h1]) (by rw [ha, hl3])
    obtain rfl : t = t' := Option.some.inj (ht.symm.trans ht')
    obtain ⟨s', hs', w1, w2, w3, w4, w5, w6, w7⟩ := propagate_zero_rate old last hq hl1 h2 hl3
    refine ⟨s, s', ?_, hs', ?_, ?_, ?_, ?_, ?_⟩
    · simp only [List.cons_append, List.foldlM, hm]
      exact hs
    · rw [e1, u3, w3, m1, m2, m3, m5, ha, hba]
      funext i
      simp only [Pi.add_apply, Pi.smul_apply, Pi.sub_apply, smul_eq_mul]
      ring
    · rw [e2, u2, w2, m1, m2, m5, ha, hba]
      funext i
      simp only [Pi.add_apply, Pi.smul_apply, Pi.sub_apply, smul_eq_mul]
      ring
    · rw [e3, u1, w1, m1]
    · rw [e4, u5, w5]
    · intro i hi
      rw [e5 i hi, u4 i hi, w4 i hi, m4 i hi]

/-- C26 on the pose filter: two half steps. -/
example : ∃ s s', ([demoState 1 ![1, 2, 3] 0] ++ [demoState 2 ![1, 2, 3] 0]).foldlM propagateState
      (demoState 0 ![1, 2, 3] 0) = some s ∧
    propagateState (demoState 0 ![1, 2, 3] 0) (demoState 2 ![1, 2, 3] 0) = some s' ∧
    p s.vars = p s'.vars := by
  have hb : b_w (demoState 0 ![1, 2, 3] 0).vars = 0 := rfl
  obtain ⟨s, s', h, h', e, -⟩ := C26_subdivision [demoState 1 ![1, 2, 3] 0]
    (demoState 0 ![1, 2, 3] 0) (demoState 2 ![1, 2, 3] 0) (demoState_unit _ _ _) (by rw [hb]; rfl)
    (by
      intro n hn
      simp only [List.cons_append, List.nil_append, List.mem_cons, List.not_mem_nil,
        or_false] at hn
      rcases hn with rfl | rfl <;> exact ⟨by rw [hb]; rfl, rfl⟩)
  exact ⟨s, s', h, h', e⟩

/-- The fourth-order Taylor polynomial of the matrix exponential. -/
def taylor4 {R : Type} [Field R] (A : M44 R) : M44 R :=
  1 + A + (2 : R)⁻¹ • A ^ 2 + (6 : R)⁻¹ • A ^ 3 + (24 : R)⁻¹ • A ^ 4

/-- The claimed attitude increment: fourth-order series of the mean rate plus the first-order
correction term. -/
def claimedQuatInt {R : Type} [Field R] (ew ewold : V3 R) (dt : R) : M44 R :=
  taylor4 ((dt / 4) • omegaJPL (ew + ewold)) +
    (dt ^ 2 / 48) • (omegaJPL ew * omegaJPL ewold - omegaJPL ewold * omegaJPL ew)

/-- **C27 is violated.**  The loop squares `OmegaMean` in every pass instead of multiplying by the
rate matrix once more, so the third term is `A⁴/6` and the fourth `A⁸/24`.  Rate 2 rad/s about z
for one second. -/
theorem C27_violated :
    ¬ ∀ (ew ewold : V3 ℚ) (dt : ℚ), quatInt ew ewold dt = claimedQuatInt ew ewold dt := by
  intro h
  have h1 := congrFun (congrFun (h ![0, 0, 2] ![0, 0, 2] 1) 0) 0
  revert h1
  decide +kernel

theorem taylor4_omega {R : Type} [Field R] (u : V3 R) :
    taylor4 (omegaJPL u) = comb (1 - sqNorm3 u / 2 + sqNorm3 u ^ 2 / 24)
      ((1 - sqNorm3 u / 6) • u) := by
  have h2 : omegaJPL u ^ 2 = (-sqNorm3 u) • (1 : M44 R) := by rw [sq, omega_sq]
  have h3 : omegaJPL u ^ 3 = (-sqNorm3 u) • omegaJPL u := by
    have := pow_succ (omegaJPL u) 2
    rw [h2, Matrix.smul_mul, one_mul] at this
    exact this
  have h4 : omegaJPL u ^ 4 = (sqNorm3 u ^ 2) • (1 : M44 R) := by
    have := pow_mul (omegaJPL u) 2 2
    rw [h2, smul_pow, one_pow, neg_sq] at this
    exact this
  rw [taylor4, h2, h3, h4, comb_eq, ← omega_smul]
  ext i j
  simp only [Matrix.add_apply, Matrix.smul_apply, smul_eq_mul]
  ring

/-- **C27, what holds.**  The computed increment is `I + A + A²/2 + A⁴/6 + A⁸/24` plus the
first-order correction term, for every field of characteristic zero.
Missing for the full claim: the cubic term, and the right quartic one. -/
theorem C27_series_partial {R : Type} [Field R] [CharZero R] (ew ewold : V3 R) (dt : R) :
    quatInt ew ewold dt =
      1 + (dt / 4) • omegaJPL (ew + ewold) + (2 : R)⁻¹ • ((dt / 4) • omegaJPL (ew + ewold)) ^ 2
        + (6 : R)⁻¹ • ((dt / 4) • omegaJPL (ew + ewold)) ^ 4
        + (24 : R)⁻¹ • ((dt / 4) • omegaJPL (ew + ewold)) ^ 8
        + (dt ^ 2 / 48) • (omegaJPL ew * omegaJPL ewold - omegaJPL ewold * omegaJPL ew) := by
  have e1 : (0.5 * dt) • omegaJPL ((2 : R)⁻¹ • (ew + ewold)) =
      (dt / 4) • omegaJPL (ew + ewold) := by
    rw [omega_smul, omega_smul, smul_smul]
    congr 2
    have : (0.5 : R) = 1 / 2 := by norm_num
    rw [this]; field_simp; ring
  simp only [quatInt]
  rw [e1, matExpLoop_eq]
  congr 2
  ring

/-- **C27, error bound.**  For a rotation of at most two radians in the step (`|u| ≤ 1` with
`u = dt (ew + ewold) / 4`) every entry of the computed increment differs from the claimed one by at
most `|u|³ / 6`.  Missing for the full claim: equality. -/
theorem C27_error_partial (ew ewold : V3 ℝ) (dt : ℝ)
    (hu : sqNorm3 ((dt / 4) • (ew + ewold)) ≤ 1) (i j : Fin 4) :
    |quatInt ew ewold dt i j - claimedQuatInt ew ewold dt i j| ≤
      Real.sqrt (sqNorm3 ((dt / 4) • (ew + ewold))) ^ 3 / 6 := by
  rw [C27_series_partial, ← matExpLoop_eq, claimedQuatInt, Matrix.add_apply, Matrix.add_apply,
    add_sub_add_right_eq_sub, omega_smul, matExp_omega, taylor4_omega, ← Matrix.sub_apply, comb_sub]
  set u := (dt / 4) • (ew + ewold) with hdef
  have hn0 := sqNorm3_nonneg u
  set n := sqNorm3 u with hn
  set r := Real.sqrt n with hr
  have hr0 : 0 ≤ r := Real.sqrt_nonneg n
  have hrr : r * r = n := Real.mul_self_sqrt hn0
  have hr1 : r ≤ 1 := by nlinarith
  have hsum : n = u 0 * u 0 + u 1 * u 1 + u 2 * u 2 := rfl
  have hcomp : ∀ k : Fin 3, |u k| ≤ r := by
    have a0 := mul_self_nonneg (u 0)
    have a1 := mul_self_nonneg (u 1)
    have a2 := mul_self_nonneg (u 2)
    have b0 : |u 0| ≤ r := abs_le_of_sq_le_sq (by simp only [sq]; linarith) hr0
    have b1 : |u 1| ≤ r := abs_le_of_sq_le_sq (by simp only [sq]; linarith) hr0
    have b2 : |u 2| ≤ r := abs_le_of_sq_le_sq (by simp only [sq]; linarith) hr0
    intro k
    fin_cases k
    · exact b0
    · exact b1
    · exact b2
  have hvec : ∀ k : Fin 3, |(u - (1 - n / 6) • u) k| ≤ r ^ 3 / 6 := by
    intro k
    have : (u - (1 - n / 6) • u) k = n / 6 * u k := by
      simp only [Pi.sub_apply, Pi.smul_apply, smul_eq_mul]; ring
    rw [this, abs_mul, abs_of_nonneg (by positivity)]
    calc n / 6 * |u k| ≤ n / 6 * r := by
          exact mul_le_mul_of_nonneg_left (hcomp k) (by positivity)
      _ = r ^ 3 / 6 := by rw [← hrr]; ring
  have hsc : |1 - n / 2 + n ^ 2 / 6 + n ^ 4 / 24 - (1 - n / 2 + n ^ 2 / 24)| ≤ r ^ 3 / 6 := by
    have e : 1 - n / 2 + n ^ 2 / 6 + n ^ 4 / 24 - (1 - n / 2 + n ^ 2 / 24)
        = n ^ 2 / 8 + n ^ 4 / 24 := by ring
    rw [e, abs_of_nonneg (by positivity)]
    have h4 : n ^ 4 ≤ n ^ 2 := pow_le_pow_of_le_one hn0 hu (by norm_num)
    have h3 : n ^ 2 ≤ r ^ 3 := by
      rw [← hrr]
      calc (r * r) ^ 2 = r ^ 4 := by ring
        _ ≤ r ^ 3 := pow_le_pow_of_le_one hr0 hr1 (by norm_num)
    linarith
  have hneg : ∀ k : Fin 3, |-(u - (1 - n / 6) • u) k| ≤ r ^ 3 / 6 := fun k => by
    rw [abs_neg]; exact hvec k
  fin_cases i <;> fin_cases j
  all_goals first
    | exact hsc
    | exact hvec 0
    | exact hvec 1
    | exact hvec 2
    | exact hneg 0
    | exact hneg 1
    | exact hneg 2

/-- A rate of 2 rad/s about the x axis over one second meets the hypothesis of C27. -/
example : sqNorm3 (((1 : ℝ) / 4) • (![2, 0, 0] + ![2, 0, 0] : V3 ℝ)) ≤ 1 := by
  simp [sqNorm3]; norm_num

/-- **C27, axis.**  With a constant rate the increment rotates exactly about the rate axis: it is
`a·1 + Ω(dt ω / 2)` with `a > 0`.  Missing for the full claim: the angle. -/
theorem C27_axis_partial (w : V3 ℝ) (dt : ℝ) :
    ∃ a : ℝ, 0 < a ∧ quatInt w w dt = a • (1 : M44 ℝ) + omegaJPL ((dt / 2) • w) := by
  obtain ⟨n, hn, h⟩ := quatInt_comb w w dt
  refine ⟨_, scalarPart_pos n (by rw [hn]; exact sqNorm3_nonneg _), ?_⟩
  rw [h, comb_eq]
  congr 2
  funext i
  simp only [Pi.add_apply, Pi.smul_apply, smul_eq_mul, sub_self, Pi.zero_apply]
  norm_num
  ring

end MSF
