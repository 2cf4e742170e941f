import Verif.Lemmas.Accuracy
import Verif.Props.Propagation
import Mathlib.Analysis.SpecialFunctions.Trigonometric.Deriv

/-! C79: the state prediction follows the motion of the body. -/

namespace MSF

open Asymptotics Filter Topology Quaternion EKFState

variable {aux : List VarDesc}

/-- The IMU readings of a state are rate and specific force of the motion at the time of the state,
plus the given biases. -/
def ReadsMotion (w f : ℝ → Fin 3 → ℝ) (bw ba : V3 ℝ) (s : EKFState ℝ (coreDef aux)) : Prop :=
  s.w_m = w s.time + bw ∧ s.a_m = f s.time + ba

/-- Attitude, velocity and position of the state differ from those of the motion at the time of the
state by at most `e`. -/
def NearMotion (q : ℝ → ℍ[ℝ]) (v p : ℝ → Fin 3 → ℝ) (e : ℝ) (s : EKFState ℝ (coreDef aux)) : Prop :=
  ‖toH (EKFState.q s.vars) - q s.time‖ ≤ e ∧ (∀ i, |EKFState.v s.vars i - v s.time i| ≤ e) ∧
    ∀ i, |EKFState.p s.vars i - p s.time i| ≤ e

theorem exists_qn (w : ℝ → V3 ℝ) {q : ℝ → ℍ[ℝ]} (hu : ∀ t, normSq (q t) = 1) :
    ∃ qn : ℝ → ℝ → Quat ℝ, ∀ t h, (Quat.ofCoeffs ((quatInt (w (t + h)) (w t) h).mulVec
      (ofH (q t)).coeffs)).normalize = some (qn t h) := by
  have h1 : ∀ t h, ∃ u, (Quat.ofCoeffs ((quatInt (w (t + h)) (w t) h).mulVec
      (ofH (q t)).coeffs)).normalize = some u := fun t h => by
    obtain ⟨u, hu, -⟩ := Quat.normalize_pos
      (quatInt_pos (w (t + h)) (w t) h (ofH (q t)) (ofH_unit (hu t)))
    exact ⟨u, hu⟩
  choose qn hqn using h1
  exact ⟨qn, hqn⟩

/-- One step of the propagation in terms of `stepV` and `stepP`. -/
theorem propagate_step {w f : ℝ → Fin 3 → ℝ} (old new : EKFState ℝ (coreDef aux))
    (hu : (EKFState.q old.vars).normSq = 1)
    (ho : ReadsMotion w f (b_w old.vars) (b_a old.vars) old)
    (hn : ReadsMotion w f (b_w old.vars) (b_a old.vars) new) :
    ∃ s, propagateState old new = some s ∧ s.time = new.time ∧ s.w_m = new.w_m ∧ s.a_m = new.a_m ∧
      b_w s.vars = b_w old.vars ∧ b_a s.vars = b_a old.vars ∧ (EKFState.q s.vars).normSq = 1 ∧
      (Quat.ofCoeffs ((quatInt (w new.time) (w old.time)
        (new.time - old.time)).mulVec (EKFState.q old.vars).coeffs)).normalize =
        some (EKFState.q s.vars) ∧
      EKFState.v s.vars = stepV (EKFState.q old.vars) (EKFState.q s.vars) (f old.time) (f new.time)
        (EKFState.v old.vars) (new.time - old.time) ∧
      EKFState.p s.vars = stepP (EKFState.v old.vars) (EKFState.v s.vars) (EKFState.p old.vars)
        (new.time - old.time) := by
  obtain ⟨s, qn, hs, hqn, hqu, hsq, hsv, hsp, hrest, ht, hw, ha, -⟩ := propagateState_spec old new hu
  have e1 : new.w_m - b_w old.vars = w new.time := by rw [hn.1]; simp
  have e2 : old.w_m - b_w old.vars = w old.time := by rw [ho.1]; simp
  have e3 : new.a_m - b_a old.vars = f new.time := by rw [hn.2]; simp
  have e4 : old.a_m - b_a old.vars = f old.time := by rw [ho.2]; simp
  rw [e1, e2] at hqn
  rw [e3, e4] at hsv
  subst hsq
  refine ⟨s, hs, ht, hw, ha, ?_, ?_, hqu, hqn, hsv, hsp⟩
  · exact congrArg StateVar.val (hrest ibw (by change coreDescs[3].stype ≠ _; decide))
  · exact congrArg StateVar.val (hrest iba (by change coreDescs[4].stype ≠ _; decide))

/-- **C79, one step.**  If a state holds the attitude, velocity and position of the motion at time `t`
and the IMU readings of `t` and `t + h` are the rate and specific force of the motion plus the biases,
the predicted state at `t + h` has the attitude, velocity and position of the motion up to an error
of third order in `h`. -/
theorem C79_local_error {w f : ℝ → Fin 3 → ℝ} {q : ℝ → ℍ[ℝ]} {v p : ℝ → Fin 3 → ℝ}
    (hm : RigidMotion w f ![0, 0, 9.80834] q v p)
    (hw : ∀ i, ContDiff ℝ 2 fun t => w t i) (hf : ∀ i, ContDiff ℝ 2 fun t => f t i)
    (old : EKFState ℝ (coreDef aux)) (hold : NearMotion q v p 0 old)
    (hr : ReadsMotion w f (b_w old.vars) (b_a old.vars) old) :
    ∃ C δ, 0 < δ ∧ ∀ new : EKFState ℝ (coreDef aux),
      ReadsMotion w f (b_w old.vars) (b_a old.vars) new → |new.time - old.time| < δ →
      ∃ s, propagateState old new = some s ∧ s.time = new.time ∧
        NearMotion q v p (C * |new.time - old.time| ^ 3) s := by
  obtain ⟨qn, hqn⟩ := exists_qn w hm.unit
  obtain ⟨e1, e2, e3⟩ := local_error hm hw hf old.time old.time hqn
  have hq0 : toH (EKFState.q old.vars) = q old.time := by
    have := hold.1
    rwa [norm_le_zero_iff, sub_eq_zero] at this
  have hq1 : EKFState.q old.vars = ofH (q old.time) := by rw [← hq0]; rfl
  have hv0 : EKFState.v old.vars = v old.time := funext fun i => by
    simpa [sub_eq_zero] using hold.2.1 i
  have hp0 : EKFState.p old.vars = p old.time := funext fun i => by
    simpa [sub_eq_zero] using hold.2.2 i
  have hu : (EKFState.q old.vars).normSq = 1 := by rw [hq1]; exact ofH_unit (hm.unit _)
  choose C1 hC1 using fun i => (e1 i).bound
  choose C2 hC2 using fun i => (e2 i).bound
  choose C3 hC3 using fun i => (e3 i).bound
  obtain ⟨δ, hδ, hb⟩ := eventually_steps.1 ((eventually_all.2 hC1).and
    ((eventually_all.2 hC2).and (eventually_all.2 hC3)))
  let C := 4 * ∑ i, |C1 i| + ∑ i, |C2 i| + ∑ i, |C3 i|
  have l1 : ∀ i, C1 i ≤ ∑ i, |C1 i| := fun i => (le_abs_self _).trans
    (Finset.single_le_sum (f := fun i => |C1 i|) (fun i _ => abs_nonneg _) (Finset.mem_univ i))
  have l2 : ∀ i, C2 i ≤ ∑ i, |C2 i| := fun i => (le_abs_self _).trans
    (Finset.single_le_sum (f := fun i => |C2 i|) (fun i _ => abs_nonneg _) (Finset.mem_univ i))
  have l3 : ∀ i, C3 i ≤ ∑ i, |C3 i| := fun i => (le_abs_self _).trans
    (Finset.single_le_sum (f := fun i => |C3 i|) (fun i _ => abs_nonneg _) (Finset.mem_univ i))
  have n1 : 0 ≤ ∑ i, |C1 i| := Finset.sum_nonneg fun i _ => abs_nonneg _
  have n2 : 0 ≤ ∑ i, |C2 i| := Finset.sum_nonneg fun i _ => abs_nonneg _
  have n3 : 0 ≤ ∑ i, |C3 i| := Finset.sum_nonneg fun i _ => abs_nonneg _
  refine ⟨C, δ, hδ, fun new hnew hlt => ?_⟩
  obtain ⟨s, hs, ht, -, -, -, -, -, hsq, hsv, hsp⟩ := propagate_step old new hu hr hnew
  obtain ⟨b1, b2, b3⟩ := hb old.time ⟨le_rfl, le_rfl⟩ _ hlt
  have ht' : old.time + (new.time - old.time) = new.time := by ring
  have hqs : qn old.time (new.time - old.time) = EKFState.q s.vars := by
    have := hqn old.time (new.time - old.time)
    rw [ht', ← hq1, hsq] at this
    exact (Option.some.inj this).symm
  simp only [ht', hqs, ← hq1, ← hv0, ← hsv, ← hp0, ← hsp, Real.norm_eq_abs, abs_pow] at b1 b2 b3
  set H := |new.time - old.time| ^ 3
  have hH : 0 ≤ H := by positivity
  refine ⟨s, hs, ht, ?_, ?_, ?_⟩
  · have : ‖toH (EKFState.q s.vars) - q s.time‖ ≤ 4 * ((∑ i, |C1 i|) * H) := by
      refine norm_le_coord fun i => ?_
      have e : coordQ (toH (EKFState.q s.vars) - q s.time) i =
          coordM (EKFState.q s.vars) i - coordQ (q new.time) i := by
        rw [ht]
        fin_cases i <;> simp [coordQ, coordM]
      rw [e]
      exact (b1 i).trans (mul_le_mul_of_nonneg_right (l1 i) hH)
    refine this.trans ?_
    simp only [C]
    nlinarith
  · intro i
    rw [ht]
    refine (b2 i).trans (mul_le_mul_of_nonneg_right ?_ hH)
    simp only [C]
    linarith [l2 i]
  · intro i
    rw [ht]
    refine (b3 i).trans (mul_le_mul_of_nonneg_right ?_ hH)
    simp only [C]
    linarith [l3 i]

/-- The vector part of a step error. -/
theorem stepV_diff {q q' r r' : Quat ℝ} (hq : q.normSq = 1) (hq' : q'.normSq = 1)
    (hr : r.normSq = 1) (hr' : r'.normSq = 1) (f f' v u : V3 ℝ) {h F e d : ℝ} (hh : 0 ≤ h)
    (hF : ‖pureQ f‖ ≤ F) (hF' : ‖pureQ f'‖ ≤ F) (he : ‖toH q - toH r‖ ≤ e)
    (he' : ‖toH q' - toH r'‖ ≤ e) (i : Fin 3) (hd : |v i - u i| ≤ d) :
    |stepV q q' f f' v h i - stepV r r' f f' u h i| ≤ d + h * (2 * F * e) := by
  have h1 := (rot_lipschitz q r hq hr f i).trans (mul_le_mul
    (mul_le_mul_of_nonneg_left he zero_le_two) hF (norm_nonneg _)
    (mul_nonneg zero_le_two ((norm_nonneg _).trans he)))
  have h2 := (rot_lipschitz q' r' hq' hr' f' i).trans (mul_le_mul
    (mul_le_mul_of_nonneg_left he' zero_le_two) hF' (norm_nonneg _)
    (mul_nonneg zero_le_two ((norm_nonneg _).trans he')))
  have e : stepV q q' f f' v h i - stepV r r' f f' u h i = (v i - u i) + h / 2 *
      ((q'.toRot.mulVec f' i - r'.toRot.mulVec f' i) +
        (q.toRot.mulVec f i - r.toRot.mulVec f i)) := by
    simp only [stepV, Pi.add_apply, Pi.smul_apply, Pi.sub_apply, smul_eq_mul]
    ring
  rw [e]
  refine (abs_add_le _ _).trans (add_le_add hd ?_)
  rw [abs_mul, abs_of_nonneg (by positivity : 0 ≤ h / 2)]
  have h3 := (abs_add_le (q'.toRot.mulVec f' i - r'.toRot.mulVec f' i)
    (q.toRot.mulVec f i - r.toRot.mulVec f i)).trans (add_le_add h2 h1)
  refine (mul_le_mul_of_nonneg_left h3 (by positivity)).trans (le_of_eq ?_)
  ring

/-- **C79, convergence.**  On every time interval there is a constant `C` such that a run of
predictions whose IMU samples are at most `η` apart, at whatever times, never fails and stays within
`C (e + η²)` of the motion, where `e` is the error of the first state. -/
theorem C79_convergence {w f : ℝ → Fin 3 → ℝ} {q : ℝ → ℍ[ℝ]} {v p : ℝ → Fin 3 → ℝ}
    (hm : RigidMotion w f ![0, 0, 9.80834] q v p)
    (hw : ∀ i, ContDiff ℝ 2 fun t => w t i) (hf : ∀ i, ContDiff ℝ 2 fun t => f t i) (A B : ℝ) :
    ∃ C δ, 0 < δ ∧ ∀ (e η : ℝ), η < δ → ∀ (first : EKFState ℝ (coreDef aux))
      (samples : List (EKFState ℝ (coreDef aux))),
      A ≤ first.time → (EKFState.q first.vars).normSq = 1 → NearMotion q v p e first →
      (∀ s ∈ first :: samples, ReadsMotion w f (b_w first.vars) (b_a first.vars) s ∧ s.time ≤ B) →
      (first :: samples).IsChain (fun s s' => s.time < s'.time ∧ s'.time ≤ s.time + η) →
      ∃ last, samples.foldlM propagateState first = some last ∧
        last.time = ((first :: samples).getLast (by simp)).time ∧
        NearMotion q v p (C * (e + η ^ 2)) last := by
  obtain ⟨qn, hqn⟩ := exists_qn w hm.unit
  obtain ⟨e1, e2, e3⟩ := local_error hm hw hf A B hqn
  choose C1 hC1 using fun i => (e1 i).bound
  choose C2 hC2 using fun i => (e2 i).bound
  choose C3 hC3 using fun i => (e3 i).bound
  obtain ⟨δ, hδ, hb⟩ := eventually_steps.1 ((eventually_all.2 hC1).and
    ((eventually_all.2 hC2).and (eventually_all.2 hC3)))
  let D := 4 * ∑ i, |C1 i| + ∑ i, |C2 i| + ∑ i, |C3 i|
  have l1 : ∀ i, C1 i ≤ ∑ i, |C1 i| := fun i => (le_abs_self _).trans
    (Finset.single_le_sum (f := fun i => |C1 i|) (fun i _ => abs_nonneg _) (Finset.mem_univ i))
  have l2 : ∀ i, C2 i ≤ ∑ i, |C2 i| := fun i => (le_abs_self _).trans
    (Finset.single_le_sum (f := fun i => |C2 i|) (fun i _ => abs_nonneg _) (Finset.mem_univ i))
  have l3 : ∀ i, C3 i ≤ ∑ i, |C3 i| := fun i => (le_abs_self _).trans
    (Finset.single_le_sum (f := fun i => |C3 i|) (fun i _ => abs_nonneg _) (Finset.mem_univ i))
  have n1 : 0 ≤ ∑ i, |C1 i| := Finset.sum_nonneg fun i _ => abs_nonneg _
  have n2 : 0 ≤ ∑ i, |C2 i| := Finset.sum_nonneg fun i _ => abs_nonneg _
  have n3 : 0 ≤ ∑ i, |C3 i| := Finset.sum_nonneg fun i _ => abs_nonneg _
  have hD : 0 ≤ D := by simp only [D]; linarith
  -- the specific force is bounded
  obtain ⟨F, hF0, hF⟩ : ∃ F, 0 ≤ F ∧ ∀ t ∈ Set.Icc A B, ‖pureQ (f t)‖ ≤ F := by
    have : ∀ i, ∃ G, ∀ t ∈ Set.Icc A B, |f t i| ≤ G := fun i => by
      obtain ⟨G, hG⟩ := isCompact_Icc.exists_bound_of_continuousOn
        ((hf i).continuous.continuousOn (s := Set.Icc A B))
      exact ⟨G, fun t ht => hG t ht⟩
    choose G hG using this
    refine ⟨4 * ∑ i, |G i|, by positivity, fun t ht => norm_le_coord fun i => ?_⟩
    have hg : ∀ j, |f t j| ≤ ∑ i, |G i| := fun j => (hG j t ht).trans ((le_abs_self _).trans
      (Finset.single_le_sum (f := fun i => |G i|) (fun i _ => abs_nonneg _) (Finset.mem_univ j)))
    have hg0 : (0 : ℝ) ≤ ∑ i, |G i| := Finset.sum_nonneg fun i _ => abs_nonneg _
    fin_cases i
    · simpa [coordQ, pureQ] using hg0
    · exact hg 0
    · exact hg 1
    · exact hg 2
  -- growth of the three errors
  set L := max (B - A) 0
  have hL : 0 ≤ L := le_max_right _ _
  let Cq := 1 + D * L
  let kv := 2 * F * Cq + D
  let Cv := 1 + kv * L
  let kp := Cv + D
  let Cp := 1 + kp * L
  have hCq : 1 ≤ Cq := by simp only [Cq]; nlinarith [mul_nonneg hD hL]
  have hkv : 0 ≤ kv := by simp only [kv]; nlinarith [mul_nonneg hF0 (zero_le_one.trans hCq)]
  have hCv : 1 ≤ Cv := by simp only [Cv]; nlinarith [mul_nonneg hkv hL]
  have hkp : 0 ≤ kp := by simp only [kp]; linarith
  have hCp : 1 ≤ Cp := by simp only [Cp]; nlinarith [mul_nonneg hkp hL]
  refine ⟨Cq + Cv + Cp, δ, hδ, fun e η hη first samples hA hu hn hr hch => ?_⟩
  have he : 0 ≤ e := (norm_nonneg _).trans hn.1
  set ε := e + η ^ 2
  have hε : 0 ≤ ε := by positivity
  -- the invariant
  have key : ∀ (samples : List (EKFState ℝ (coreDef aux))) (s0 : EKFState ℝ (coreDef aux)),
      A ≤ s0.time → s0.time ≤ B → (EKFState.q s0.vars).normSq = 1 →
      ‖toH (EKFState.q s0.vars) - q s0.time‖ ≤ ε * (1 + D * (s0.time - A)) →
      (∀ i, |EKFState.v s0.vars i - v s0.time i| ≤ ε * (1 + kv * (s0.time - A))) →
      (∀ i, |EKFState.p s0.vars i - p s0.time i| ≤ ε * (1 + kp * (s0.time - A))) →
      (∀ s ∈ s0 :: samples, ReadsMotion w f (b_w s0.vars) (b_a s0.vars) s ∧ s.time ≤ B) →
      (s0 :: samples).IsChain (fun s s' => s.time < s'.time ∧ s'.time ≤ s.time + η) →
      ∃ last, samples.foldlM propagateState s0 = some last ∧
        last.time = ((s0 :: samples).getLast (by simp)).time ∧
        NearMotion q v p ((Cq + Cv + Cp) * ε) last := by
    intro samples
    induction samples with
    | nil =>
      intro s0 hA hB hu h1 h2 h3 hr hch
      have hl : s0.time - A ≤ L := (sub_le_sub_right hB A).trans (le_max_left _ _)
      have m1 : 1 + D * (s0.time - A) ≤ Cq := by
        simp only [Cq]; linarith [mul_le_mul_of_nonneg_left hl hD]
      have m2 : 1 + kv * (s0.time - A) ≤ Cv := by
        simp only [Cv]; linarith [mul_le_mul_of_nonneg_left hl hkv]
      have m3 : 1 + kp * (s0.time - A) ≤ Cp := by
        simp only [Cp]; linarith [mul_le_mul_of_nonneg_left hl hkp]
      refine ⟨s0, rfl, rfl, h1.trans ?_, fun i => (h2 i).trans ?_, fun i => (h3 i).trans ?_⟩
      · rw [mul_comm]; exact mul_le_mul_of_nonneg_right (by linarith) hε
      · rw [mul_comm]; exact mul_le_mul_of_nonneg_right (by linarith) hε
      · rw [mul_comm]; exact mul_le_mul_of_nonneg_right (by linarith) hε
    | cons new rest ih =>
      intro s0 hA hB hu h1 h2 h3 hr hch
      obtain ⟨hr0, -⟩ := hr s0 (by simp)
      obtain ⟨hr1, hB1⟩ := hr new (by simp)
      rw [List.isChain_cons_cons] at hch
      obtain ⟨⟨hlt, hle⟩, hch'⟩ := hch
      obtain ⟨s, hs, ht, hsw, hsa, hbw, hba, hsu, hsq, hsv, hsp⟩ := propagate_step s0 new hu hr0 hr1
      set h := new.time - s0.time with hh
      have hpos : 0 < h := by linarith
      have hhη : h ≤ η := by linarith
      have hη0 : 0 ≤ η := hpos.le.trans hhη
      obtain ⟨b1, b2, b3⟩ := hb s0.time ⟨hA, hB⟩ h (by rw [abs_of_pos hpos]; linarith)
      have ht' : s0.time + h = new.time := by rw [hh]; ring
      simp only [ht', Real.norm_eq_abs, abs_pow, abs_of_pos hpos] at b1 b2 b3
      have hH : h ^ 3 ≤ h * ε := by
        have : h ^ 2 ≤ η ^ 2 := pow_le_pow_left₀ hpos.le hhη 2
        have : h ^ 2 ≤ ε := this.trans (by simp only [ε]; linarith)
        calc h ^ 3 = h * h ^ 2 := by ring
          _ ≤ h * ε := mul_le_mul_of_nonneg_left this hpos.le
      have hhε : 0 ≤ h * ε := mul_nonneg hpos.le hε
      have hH0 : 0 ≤ h ^ 3 := by positivity
      -- the step from the exact motion
      set r := ofH (q s0.time)
      set r' := qn s0.time h
      have hqr : (Quat.ofCoeffs ((quatInt (w new.time) (w s0.time) h).mulVec r.coeffs)).normalize =
          some r' := by
        have := hqn s0.time h
        rwa [ht'] at this
      have hru : r.normSq = 1 := ofH_unit (hm.unit _)
      have hru' : r'.normSq = 1 := by
        obtain ⟨u, hu1, hu2, -⟩ := Quat.normalize_pos (quatInt_pos (w new.time) (w s0.time) h r hru)
        rw [hqr] at hu1
        rw [Option.some.inj hu1]; exact hu2
      have hiso := step_isometry _ _ _ _ _ _ _ hu hru hsq hqr
      have hqe : ‖toH (EKFState.q s0.vars) - toH r‖ ≤ ε * (1 + D * (s0.time - A)) := h1
      have hl : new.time - A ≤ L := (sub_le_sub_right hB1 A).trans (le_max_left _ _)
      have hl0 : s0.time - A ≤ L := by linarith
      have m1 : ε * (1 + D * (s0.time - A)) ≤ Cq * ε := by
        rw [mul_comm]
        refine mul_le_mul_of_nonneg_right ?_ hε
        simp only [Cq]; linarith [mul_le_mul_of_nonneg_left hl0 hD]
      -- attitude
      have q1 : ‖toH (EKFState.q s.vars) - q new.time‖ ≤ ε * (1 + D * (new.time - A)) := by
        have hloc : ‖toH r' - q new.time‖ ≤ 4 * ((∑ i, |C1 i|) * h ^ 3) := by
          refine norm_le_coord fun i => ?_
          have e : coordQ (toH r' - q new.time) i = coordM r' i - coordQ (q new.time) i := by
            fin_cases i <;> simp [coordQ, coordM]
          rw [e]
          exact (b1 i).trans (mul_le_mul_of_nonneg_right (l1 i) hH0)
        have hsum : ‖toH (EKFState.q s.vars) - q new.time‖ ≤
            ‖toH (EKFState.q s.vars) - toH r'‖ + ‖toH r' - q new.time‖ := norm_sub_le_norm_sub_add_norm_sub _ _ _
        rw [hiso] at hsum
        have hd : 4 * ((∑ i, |C1 i|) * h ^ 3) ≤ D * (h * ε) := by
          have a1 : (∑ i, |C1 i|) * h ^ 3 ≤ (∑ i, |C1 i|) * (h * ε) :=
            mul_le_mul_of_nonneg_left hH n1
          have a2 := mul_nonneg n2 hhε
          have a3 := mul_nonneg n3 hhε
          simp only [D]
          linarith [add_mul (4 * ∑ i, |C1 i| + ∑ i, |C2 i|) (∑ i, |C3 i|) (h * ε),
            add_mul (4 * ∑ i, |C1 i|) (∑ i, |C2 i|) (h * ε)]
        have e : ε * (1 + D * (new.time - A)) = ε * (1 + D * (s0.time - A)) + D * (h * ε) := by
          rw [hh]; ring
        linarith
      -- velocity
      have hf0 := hF s0.time ⟨hA, hB⟩
      have hf1 := hF new.time ⟨by linarith, hB1⟩
      have hvd : ∀ i, |EKFState.v s.vars i - stepV r r' (f s0.time) (f new.time) (v s0.time) h i| ≤
          ε * (1 + kv * (s0.time - A)) + h * (2 * F * (Cq * ε)) := by
        intro i
        rw [hsv]
        exact stepV_diff hu hsu hru hru' _ _ _ _ hpos.le hf0 hf1 (hqe.trans m1)
          (hiso.le.trans (hqe.trans m1)) i (h2 i)
      have v1 : ∀ i, |EKFState.v s.vars i - v new.time i| ≤ ε * (1 + kv * (new.time - A)) := by
        intro i
        have hsum := abs_sub_le (EKFState.v s.vars i)
          (stepV r r' (f s0.time) (f new.time) (v s0.time) h i) (v new.time i)
        have hloc : C2 i * h ^ 3 ≤ D * (h * ε) := by
          have a1 : C2 i * h ^ 3 ≤ (∑ i, |C2 i|) * h ^ 3 := mul_le_mul_of_nonneg_right (l2 i) hH0
          have a2 : (∑ i, |C2 i|) * h ^ 3 ≤ (∑ i, |C2 i|) * (h * ε) := mul_le_mul_of_nonneg_left hH n2
          have a3 : (∑ i, |C2 i|) * (h * ε) ≤ D * (h * ε) :=
            mul_le_mul_of_nonneg_right (by simp only [D]; linarith) hhε
          linarith
        have e : ε * (1 + kv * (new.time - A)) = ε * (1 + kv * (s0.time - A)) +
            h * (2 * F * (Cq * ε)) + D * (h * ε) := by
          simp only [kv]; rw [hh]; ring
        linarith [b2 i, hvd i]
      -- position
      have p1 : ∀ i, |EKFState.p s.vars i - p new.time i| ≤ ε * (1 + kp * (new.time - A)) := by
        intro i
        set sv := stepV r r' (f s0.time) (f new.time) (v s0.time) h
        have hsum := abs_sub_le (EKFState.p s.vars i) (stepP (v s0.time) sv (p s0.time) h i)
          (p new.time i)
        have hloc : C3 i * h ^ 3 ≤ D * (h * ε) := by
          have a1 : C3 i * h ^ 3 ≤ (∑ i, |C3 i|) * h ^ 3 := mul_le_mul_of_nonneg_right (l3 i) hH0
          have a2 : (∑ i, |C3 i|) * h ^ 3 ≤ (∑ i, |C3 i|) * (h * ε) := mul_le_mul_of_nonneg_left hH n3
          have a3 : (∑ i, |C3 i|) * (h * ε) ≤ D * (h * ε) :=
            mul_le_mul_of_nonneg_right (by simp only [D]; linarith) hhε
          linarith
        have e : EKFState.p s.vars i - stepP (v s0.time) sv (p s0.time) h i =
            (EKFState.p s0.vars i - p s0.time i) + h / 2 * ((EKFState.v s.vars i - sv i) +
              (EKFState.v s0.vars i - v s0.time i)) := by
          rw [hsp]
          simp only [stepP, Pi.add_apply, Pi.smul_apply, smul_eq_mul]
          ring
        have hvm : ε * (1 + kv * (s0.time - A)) + h * (2 * F * (Cq * ε)) ≤ Cv * ε := by
          have a1 : kv * (new.time - A) ≤ kv * L := mul_le_mul_of_nonneg_left hl hkv
          have a2 : ε * (1 + kv * (new.time - A)) ≤ ε * Cv :=
            mul_le_mul_of_nonneg_left (by simp only [Cv]; linarith) hε
          have a3 : ε * (1 + kv * (new.time - A)) = ε * (1 + kv * (s0.time - A)) +
              h * (2 * F * (Cq * ε)) + D * (h * ε) := by
            simp only [kv]; rw [hh]; ring
          have a4 := mul_nonneg hD hhε
          linarith
        have hvm0 : ε * (1 + kv * (s0.time - A)) ≤ Cv * ε := by
          rw [mul_comm]
          refine mul_le_mul_of_nonneg_right ?_ hε
          simp only [Cv]; linarith [mul_le_mul_of_nonneg_left hl0 hkv]
        have hstep : |EKFState.p s.vars i - stepP (v s0.time) sv (p s0.time) h i| ≤
            ε * (1 + kp * (s0.time - A)) + h * (Cv * ε) := by
          rw [e]
          refine (abs_add_le _ _).trans (add_le_add (h3 i) ?_)
          rw [abs_mul, abs_of_nonneg (by positivity : 0 ≤ h / 2)]
          have a1 := (abs_add_le (EKFState.v s.vars i - sv i)
            (EKFState.v s0.vars i - v s0.time i)).trans
            (add_le_add ((hvd i).trans hvm) ((h2 i).trans hvm0))
          refine (mul_le_mul_of_nonneg_left a1 (by positivity)).trans (le_of_eq ?_)
          ring
        have e' : ε * (1 + kp * (new.time - A)) = ε * (1 + kp * (s0.time - A)) + h * (Cv * ε) +
            D * (h * ε) := by
          simp only [kp]; rw [hh]; ring
        have b3' := b3 i
        rw [e']
        linarith
      have hch2 : (s :: rest).IsChain (fun s s' => s.time < s'.time ∧ s'.time ≤ s.time + η) := by
        cases rest with
        | nil => simp
        | cons x xs =>
          rw [List.isChain_cons_cons] at hch' ⊢
          rw [ht]
          exact hch'
      obtain ⟨last, hlast, htime, hnear⟩ := ih s (by rw [ht]; linarith) (by rw [ht]; exact hB1) hsu
        (by rw [ht]; exact q1) (by rw [ht]; exact v1) (by rw [ht]; exact p1) (by
          intro x hx
          rw [hbw, hba]
          rcases List.mem_cons.1 hx with rfl | hx
          · refine ⟨⟨?_, ?_⟩, by rw [ht]; exact hB1⟩
            · rw [hsw, ht]; exact hr1.1
            · rw [hsa, ht]; exact hr1.2
          · exact hr x (by simp [hx])) hch2
      refine ⟨last, ?_, ?_, hnear⟩
      · rw [List.foldlM_cons, hs]; exact hlast
      · rw [htime]
        cases rest with
        | nil => simpa using ht
        | cons x xs => simp
  have hB := (hr first (by simp)).2
  have hee : e ≤ ε := by simp only [ε]; nlinarith [sq_nonneg η]
  have grow : ∀ k : ℝ, 0 ≤ k → e ≤ ε * (1 + k * (first.time - A)) := fun k hk => by
    have := mul_nonneg hε (mul_nonneg hk (sub_nonneg.2 hA))
    linarith
  exact key samples first hA hB hu (hn.1.trans (grow D hD)) (fun i => (hn.2.1 i).trans (grow kv hkv))
    (fun i => (hn.2.2 i).trans (grow kp hkp)) hr hch

/-- The attitude of a body turning about the vertical. -/
noncomputable def turnQ (t : ℝ) : ℍ[ℝ] := toH ⟨Real.cos (t / 2), 0, 0, Real.sin (t / 2)⟩

/-- A body turning about the vertical with constant rate while pushed along its own x axis. -/
theorem turning_motion : RigidMotion (fun _ => ![0, 0, 1]) (fun _ => ![1, 0, 9.80834])
    ![0, 0, 9.80834] turnQ
    (fun t => ![Real.sin t, 1 - Real.cos t, 0]) (fun t => ![1 - Real.cos t, t - Real.sin t, 0]) := by
  have hs : ∀ t, HasDerivAt (fun s : ℝ => Real.sin (s / 2)) (Real.cos (t / 2) / 2) t := fun t => by
    have := (Real.hasDerivAt_sin (t / 2)).comp t ((hasDerivAt_id t).div_const 2)
    exact this.congr_deriv (by ring)
  have hc : ∀ t, HasDerivAt (fun s : ℝ => Real.cos (s / 2)) (-Real.sin (t / 2) / 2) t := fun t => by
    have := (Real.hasDerivAt_cos (t / 2)).comp t ((hasDerivAt_id t).div_const 2)
    exact this.congr_deriv (by ring)
  have hunit : ∀ t : ℝ, normSq (turnQ t) = 1 := fun t => by
    rw [turnQ, normSq_toH]
    simp only [Quat.normSq]
    nlinarith [Real.sin_sq_add_cos_sq (t / 2)]
  refine ⟨hunit, ?_, ?_, ?_⟩
  · intro t i
    rw [attRate_eq]
    fin_cases i
    · exact (hc t).congr_deriv (by simp [attRate, coordQ, turnQ]; ring)
    · exact (hasDerivAt_const t (0 : ℝ)).congr_deriv (by simp [attRate, coordQ, turnQ])
    · exact (hasDerivAt_const t (0 : ℝ)).congr_deriv (by simp [attRate, coordQ, turnQ])
    · exact (hs t).congr_deriv (by simp [attRate, coordQ, turnQ]; ring)
  · intro t i
    rw [conj_rotC _ (hunit t)]
    have e1 : Real.cos t = 1 - 2 * (Real.sin (t / 2) * Real.sin (t / 2)) := by
      have := Real.cos_two_mul (t / 2)
      rw [show 2 * (t / 2) = t by ring] at this
      nlinarith [Real.sin_sq_add_cos_sq (t / 2)]
    have e2 : Real.sin t = 2 * Real.sin (t / 2) * Real.cos (t / 2) := by
      have := Real.sin_two_mul (t / 2)
      rwa [show 2 * (t / 2) = t by ring] at this
    fin_cases i
    · refine (Real.hasDerivAt_sin t).congr_deriv ?_
      simp [rotC, coordQ, turnQ, e1]
    · refine ((Real.hasDerivAt_cos t).const_sub 1).congr_deriv ?_
      simp [rotC, coordQ, turnQ, e2]; ring
    · refine (hasDerivAt_const t (0 : ℝ)).congr_deriv ?_
      simp [rotC, coordQ, turnQ]
  · intro t i
    fin_cases i
    · exact ((Real.hasDerivAt_cos t).const_sub 1).congr_deriv (by simp)
    · exact ((hasDerivAt_id t).sub (Real.hasDerivAt_sin t)).congr_deriv (by simp)
    · exact (hasDerivAt_const t (0 : ℝ)).congr_deriv (by simp)

/-- The pose filter at rest at the origin with the IMU readings of the turning body. -/
noncomputable def turnState (t : ℝ) : EKFState ℝ (coreDef poseAux) :=
  { blankState poseAux t ![1, 0, 9.80834] ![0, 0, 1] with
    vars := setQ (setV (setP (blankState poseAux t 0 0).vars 0) 0) Quat.one }

theorem turnState_reads : b_w (turnState 0).vars = 0 ∧ b_a (turnState 0).vars = 0 := ⟨rfl, rfl⟩

theorem turnState_near : NearMotion turnQ
    (fun t => ![Real.sin t, 1 - Real.cos t, 0]) (fun t => ![1 - Real.cos t, t - Real.sin t, 0]) 0
    (turnState 0) := by
  refine ⟨?_, ?_, ?_⟩
  · rw [norm_le_zero_iff, sub_eq_zero]
    change toH Quat.one = turnQ 0
    simp [turnQ, Quat.one]
  · intro i
    change |(0 : V3 ℝ) i - ![Real.sin 0, 1 - Real.cos 0, 0] i| ≤ 0
    fin_cases i <;> simp
  · intro i
    change |(0 : V3 ℝ) i - ![1 - Real.cos 0, 0 - Real.sin 0, 0] i| ≤ 0
    fin_cases i <;> simp

/-- The hypotheses of both theorems are met by the turning body: every sample close enough to the
first is predicted with an error of third order, and two samples are predicted with an error of
second order in their distance. -/
example : (∃ C δ, 0 < δ ∧ ∀ h, |h| < δ → ∃ s, propagateState (turnState 0) (turnState h) = some s ∧
      ∀ i, |EKFState.p s.vars i - ![1 - Real.cos h, h - Real.sin h, 0] i| ≤ C * |h| ^ 3) ∧
    ∃ C δ, 0 < δ ∧ ∀ h, 0 < h → h < δ → h < 1 → ∃ s,
      [turnState h, turnState (2 * h)].foldlM propagateState (turnState 0) = some s ∧
      ∀ i, |EKFState.v s.vars i - ![Real.sin (2 * h), 1 - Real.cos (2 * h), 0] i| ≤ C * h ^ 2 := by
  have hr : ∀ t, ReadsMotion (fun _ => ![0, 0, 1]) (fun _ => ![1, 0, 9.80834])
      (b_w (turnState 0).vars) (b_a (turnState 0).vars) (turnState t) := fun t =>
    ⟨(add_zero _).symm, (add_zero _).symm⟩
  constructor
  · obtain ⟨C, δ, hδ, h⟩ := C79_local_error turning_motion (fun i => contDiff_const)
      (fun i => contDiff_const) (turnState 0) turnState_near (hr 0)
    refine ⟨C, δ, hδ, fun x hx => ?_⟩
    have hx' : (turnState x).time - (turnState 0).time = x := sub_zero x
    obtain ⟨s, hs, ht, -, -, hp⟩ := h (turnState x) (hr x) (by rw [hx']; exact hx)
    rw [hx', ht] at hp
    exact ⟨s, hs, hp⟩
  · obtain ⟨C, δ, hδ, h⟩ := C79_convergence (aux := poseAux) turning_motion (fun i => contDiff_const)
      (fun i => contDiff_const) 0 2
    refine ⟨C, δ, hδ, fun x hx hxd hx1 => ?_⟩
    obtain ⟨s, hs, ht, -, hv, -⟩ := h 0 x hxd (turnState 0) [turnState x, turnState (2 * x)]
      (le_refl (0 : ℝ)) (by
        rw [show EKFState.q (turnState 0).vars = Quat.one from q_setQ _ _]
        simp [Quat.one, Quat.normSq]) turnState_near (by
        intro s hs
        simp only [List.mem_cons, List.not_mem_nil, or_false] at hs
        rcases hs with rfl | rfl | rfl
        · exact ⟨hr _, zero_le_two⟩
        · exact ⟨hr _, show x ≤ 2 by linarith⟩
        · exact ⟨hr _, show 2 * x ≤ 2 by linarith⟩) (by
        simp only [List.isChain_cons_cons, List.isChain_singleton, and_true]
        exact ⟨⟨hx, show x ≤ 0 + x by linarith⟩, show x < 2 * x by linarith,
          show 2 * x ≤ x + x by linarith⟩)
    refine ⟨s, hs, fun i => ?_⟩
    have ht' : s.time = 2 * x := ht
    have := hv i
    rw [ht'] at this
    simpa using this

end MSF
