import Verif.Lemmas.PoseSource

/-!
# C123: poses are weighted with the covariance they come with
-/

namespace MSF

open Matrix

/-! ### What the messages say -/

/-- The covariance a message comes with.  Two of the four types have none; zero stands for unknown. -/
noncomputable def PoseInput.statedCov (m : PoseInput ℝ) : Option (Matrix (Fin 6) (Fin 6) ℝ) :=
  open Classical in
  if (m.kind = .poseWithCovariance ∨ m.kind = .odometry) ∧ rowMajor6 m.cov ≠ 0 then some (rowMajor6 m.cov) else none

/-- The noises of position and attitude configured last. -/
noncomputable def poseNoisesAfter (es : List (PoseEvent ℝ)) : ℝ × ℝ :=
  ((es.filterMap fun | .setNoises p q => some (p, q) | _ => none).getLast?).getD (1 / 1000000, 1 / 1000000)

/-- The delay configured last. -/
def poseDelayAfter (es : List (PoseEvent ℝ)) : ℝ :=
  ((es.filterMap fun | .setDelay d => some d | _ => none).getLast?).getD 0

/-- A message of stamp `t` comes too soon after a used one of stamp `a`. -/
def TooSoon (minDt a t : ℝ) : Prop := t - a ≤ minDt - 1 / 1000

open Classical in
/-- The stamp of the last message that was used, zero before the first. -/
noncomputable def lastUsed (fixed : Bool) (minDt : ℝ) (es : List (PoseEvent ℝ)) : ℝ :=
  es.foldl (fun a e => match e with
    | .msg m => if Usable fixed m.kind ∧ ¬ TooSoon minDt a m.stamp then m.stamp else a
    | _ => a) 0

/-- What a measurement made from a message has to be: its pose or, if the sensor reports the world, the inverse; at
its stamp less the delay; with a noise matrix in which nothing is exact, the configured or the stated one if the
pose is not inverted. -/
def FaithfulPose (fixed world : Bool) (es : List (PoseEvent ℝ)) (m : PoseInput ℝ) (x : MadePose ℝ) : Prop :=
  x.time = m.stamp - poseDelayAfter es ∧ x.meas.R_.PosDef ∧
  (world = true → x.meas.z_p = m.pos ∧ x.meas.z_q = m.att) ∧
  (world = false → InversePose m.pos m.att x.meas) ∧
  (fixed = true → x.meas.R_ = diag7 (diagonal fun _ => (poseNoisesAfter es).1 ^ 2)
    (diagonal fun _ => (poseNoisesAfter es).2 ^ 2) (1 / 1000000)) ∧
  (fixed = false → world = true → ∃ C, m.statedCov = some C ∧
    x.meas.R_ = diag7 (C.submatrix lo3 lo3) (C.submatrix hi3 hi3) (1 / 1000000))

/-- The full claim: after any history, a message becomes exactly one measurement if it does not come too soon and a
fixed covariance is configured or it comes with one, and none otherwise. -/
def poseSourceClaim : Prop :=
  ∀ (fixed world : Bool) (minDt : ℝ) (es : List (PoseEvent ℝ)) (m : PoseInput ℝ), m.att.normSq = 1 →
    ((poseNoisesAfter es).1 ≠ 0 ∧ (poseNoisesAfter es).2 ≠ 0) → (∀ C, m.statedCov = some C → C.PosDef) →
    (¬ TooSoon minDt (lastUsed fixed minDt es) m.stamp ∧ (fixed = true ∨ m.statedCov ≠ none) →
      ∃ x, ((PoseSource.init fixed world minDt).run (es ++ [.msg m])).2 =
        ((PoseSource.init fixed world minDt).run es).2 ++ [x] ∧ FaithfulPose fixed world es m x) ∧
    (TooSoon minDt (lastUsed fixed minDt es) m.stamp ∨ (fixed = false ∧ m.statedCov = none) →
      ((PoseSource.init fixed world minDt).run (es ++ [.msg m])).2 = ((PoseSource.init fixed world minDt).run es).2)

/-! ### The handler after any history -/

theorem PoseSource.callback_params (h : PoseSource ℝ) (m : PoseInput ℝ) :
    (h.callback m).1.worldSensor = h.worldSensor ∧ (h.callback m).1.n_zp = h.n_zp ∧
    (h.callback m).1.n_zq = h.n_zq ∧ (h.callback m).1.delay = h.delay ∧
    (h.callback m).1.throttle = (h.throttle.callback m.kind m.stamp).1 ∧
    (h.callback m).1.z_p = ((h.callback m).2.map (·.meas.z_p)).getD h.z_p ∧
    (h.callback m).1.z_q = ((h.callback m).2.map (·.meas.z_q)).getD h.z_q := by
  unfold PoseSource.callback
  dsimp only
  split <;> simp

theorem PoseSource.run_params (fixed world : Bool) (minDt : ℝ) (es : List (PoseEvent ℝ)) :
    ((PoseSource.init fixed world minDt).run es).1.worldSensor = world ∧
    ((PoseSource.init fixed world minDt).run es).1.n_zp = (poseNoisesAfter es).1 ∧
    ((PoseSource.init fixed world minDt).run es).1.n_zq = (poseNoisesAfter es).2 ∧
    ((PoseSource.init fixed world minDt).run es).1.delay = poseDelayAfter es ∧
    ((PoseSource.init fixed world minDt).run es).1.throttle.useFixedCovariance = fixed ∧
    ((PoseSource.init fixed world minDt).run es).1.throttle.minimumDt = minDt ∧
    ((PoseSource.init fixed world minDt).run es).1.throttle.previous = lastUsed fixed minDt es ∧
    ((PoseSource.init fixed world minDt).run es).1.z_p =
      ((((PoseSource.init fixed world minDt).run es).2.getLast?).map (·.meas.z_p)).getD 0 ∧
    ((PoseSource.init fixed world minDt).run es).1.z_q =
      ((((PoseSource.init fixed world minDt).run es).2.getLast?).map (·.meas.z_q)).getD Quat.one := by
  induction es using List.reverseRecOn with
  | nil => simp [PoseSource.run, PoseSource.init, PoseHandler.init, poseNoisesAfter, poseDelayAfter, lastUsed]
  | append_singleton es e ih =>
    obtain ⟨i1, i2, i3, i4, i5, i6, i7, i8, i9⟩ := ih
    rw [PoseSource.run_append]
    generalize (PoseSource.init fixed world minDt).run es = r at i1 i2 i3 i4 i5 i6 i7 i8 i9 ⊢
    obtain ⟨h, ms⟩ := r
    dsimp only at i1 i2 i3 i4 i5 i6 i7 i8 i9
    cases e with
    | msg m =>
      obtain ⟨c1, c2, c3, c4, c5, c6, c7⟩ := h.callback_params m
      simp only [PoseSource.run, PoseSource.step, c1, c2, c3, c4, c5, c6, c7, i1, i2, i3, i4]
      refine ⟨trivial, by simp [poseNoisesAfter], by simp [poseNoisesAfter], by simp [poseDelayAfter], ?_, ?_, ?_, ?_,
        ?_⟩
      · rcases callback_cases h.throttle m.kind m.stamp with ⟨-, -, -, e⟩ | ⟨-, -, -, -, e⟩
        · rw [e]; exact i5
        · rw [e]; exact i5
      · rcases callback_cases h.throttle m.kind m.stamp with ⟨-, -, -, e⟩ | ⟨-, -, -, e, -⟩
        · rw [e]; exact i6
        · rw [e]; exact i6
      · classical
        have hl : lastUsed fixed minDt (es ++ [.msg m]) =
            if Usable fixed m.kind ∧ ¬ TooSoon minDt (lastUsed fixed minDt es) m.stamp then m.stamp
            else lastUsed fixed minDt es := by
          simp only [lastUsed, List.foldl_append, List.foldl_cons, List.foldl_nil]
          congr 1
        rw [hl]
        rcases callback_cases h.throttle m.kind m.stamp with ⟨a, b, -, e⟩ | ⟨a, -, e, -⟩
        · rw [e, if_pos ⟨i5 ▸ a, fun hh => not_le.2 b (by rw [i6, i7]; exact hh)⟩]
        · rw [e, if_neg, i7]
          rintro ⟨b1, b2⟩
          exact a ⟨i5.symm ▸ b1, not_le.1 fun hh => b2 (by rw [i6, i7] at hh; exact hh)⟩
      · cases hc : (h.callback m).2 with
        | none => simp [i8]
        | some x => simp
      · cases hc : (h.callback m).2 with
        | none => simp [i9]
        | some x => simp
    | setNoises p q =>
      simp only [PoseSource.run, PoseSource.step, i1, i4, i5, i6, i7, i8, i9]
      refine ⟨trivial, by simp [poseNoisesAfter], by simp [poseNoisesAfter], by simp [poseDelayAfter], trivial, trivial,
        ?_, by simp, by simp⟩
      simp [lastUsed]
    | setDelay d =>
      simp only [PoseSource.run, PoseSource.step, i1, i2, i3, i5, i6, i7, i8, i9]
      refine ⟨trivial, by simp [poseNoisesAfter], by simp [poseNoisesAfter], by simp [poseDelayAfter], trivial, trivial,
        ?_, by simp, by simp⟩
      simp [lastUsed]

/-- One more message, after any history. -/
theorem PoseSource.run_msg (fixed world : Bool) (minDt : ℝ) (es : List (PoseEvent ℝ)) (m : PoseInput ℝ) :
    (Usable fixed m.kind ∧ ¬ TooSoon minDt (lastUsed fixed minDt es) m.stamp →
      ((PoseSource.init fixed world minDt).run (es ++ [.msg m])).2 =
        ((PoseSource.init fixed world minDt).run es).2 ++ [⟨m.stamp - poseDelayAfter es,
          makePose ⟨(poseNoisesAfter es).1, (poseNoisesAfter es).2, world, fixed⟩ m.pos m.att m.readCov⟩]) ∧
    (¬ (Usable fixed m.kind ∧ ¬ TooSoon minDt (lastUsed fixed minDt es) m.stamp) →
      ((PoseSource.init fixed world minDt).run (es ++ [.msg m])).2 =
        ((PoseSource.init fixed world minDt).run es).2) := by
  obtain ⟨i1, i2, i3, i4, i5, i6, i7, -, -⟩ := PoseSource.run_params fixed world minDt es
  rw [PoseSource.run_append]
  generalize (PoseSource.init fixed world minDt).run es = r at i1 i2 i3 i4 i5 i6 i7 ⊢
  obtain ⟨h, ms⟩ := r
  dsimp only at i1 i2 i3 i4 i5 i6 i7
  simp only [PoseSource.run, PoseSource.step, List.append_nil]
  rcases callback_cases h.throttle m.kind m.stamp with ⟨a, b, e, -⟩ | ⟨a, e, -⟩
  · have hu : Usable fixed m.kind ∧ ¬ TooSoon minDt (lastUsed fixed minDt es) m.stamp :=
      ⟨i5 ▸ a, fun hh => not_le.2 b (by rw [i6, i7]; exact hh)⟩
    refine ⟨fun _ => ?_, fun hn => absurd hu hn⟩
    unfold PoseSource.callback
    simp only [e, if_true, Option.toList_some, i1, i2, i3, i4, i5]
  · refine ⟨?_, fun _ => ?_⟩
    · rintro ⟨b1, b2⟩
      exact absurd ⟨i5.symm ▸ b1, not_le.1 fun hh => b2 (by rw [i6, i7] at hh; exact hh)⟩ a
    · unfold PoseSource.callback
      simp [e]

/-! ### C123 -/

/-- **C123, partial.**  Whatever has happened to the handler before: a pose message becomes exactly one measurement
if it does not come too soon after the last one used and a fixed covariance is configured or the message comes with
one, and none otherwise.  The measurement has the pose of the message or its inverse, the stamp less the delay set
last, and the configured or the stated noise, without an exact direction.
Missing: messages of a type with covariance whose covariance is not filled in (`C123_unknown_violated`), and poses to
be inverted under a fixed covariance (`C46_fixed_violated`). -/
theorem C123_measurements_partial (fixed world : Bool) (minDt : ℝ) (es : List (PoseEvent ℝ)) (m : PoseInput ℝ)
    (hq : m.att.normSq = 1) (hn : (poseNoisesAfter es).1 ≠ 0 ∧ (poseNoisesAfter es).2 ≠ 0)
    (hC : ∀ C, m.statedCov = some C → C.PosDef) (hw : world = true ∨ fixed = false)
    (h0 : Usable false m.kind → fixed = true ∨ rowMajor6 m.cov ≠ 0) :
    (¬ TooSoon minDt (lastUsed fixed minDt es) m.stamp ∧ (fixed = true ∨ m.statedCov ≠ none) →
      ∃ x, ((PoseSource.init fixed world minDt).run (es ++ [.msg m])).2 =
        ((PoseSource.init fixed world minDt).run es).2 ++ [x] ∧ FaithfulPose fixed world es m x) ∧
    (TooSoon minDt (lastUsed fixed minDt es) m.stamp ∨ (fixed = false ∧ m.statedCov = none) →
      ((PoseSource.init fixed world minDt).run (es ++ [.msg m])).2 =
        ((PoseSource.init fixed world minDt).run es).2) := by
  obtain ⟨hyes, hno⟩ := PoseSource.run_msg fixed world minDt es m
  have hstated : fixed = false → Usable fixed m.kind → m.statedCov = some (rowMajor6 m.cov) ∧ m.readCov = m.cov := by
    intro hf hu
    have hk : m.kind = .poseWithCovariance ∨ m.kind = .odometry := by
      rcases hu with h | h | h
      · exact .inl h
      · exact .inr h
      · rw [hf] at h; cases h
    have hc : rowMajor6 m.cov ≠ 0 := by
      rcases h0 (hf ▸ hu) with h | h
      · rw [hf] at h; cases h
      · exact h
    refine ⟨if_pos ⟨hk, hc⟩, ?_⟩
    unfold PoseInput.readCov
    rcases hk with h | h <;> rw [h]
  constructor
  · rintro ⟨h1, h2⟩
    have hu : Usable fixed m.kind := by
      rcases h2 with h | h
      · exact .inr (.inr h)
      · by_contra hu
        apply h
        unfold PoseInput.statedCov
        rw [if_neg]
        rintro ⟨h | h, -⟩
        · exact hu (.inl h)
        · exact hu (.inr (.inl h))
    refine ⟨_, hyes ⟨hu, h1⟩, rfl, ?_⟩
    cases hf : fixed with
    | true =>
      have hw' : world = true := by
        rcases hw with h | h
        · exact h
        · rw [hf] at h; cases h
      subst hw'
      rw [makePose_noise_fixed _ _ _ _ rfl]
      refine ⟨diag7_posDef (PosDef.diagonal fun _ => mul_self_pos.2 hn.1)
        (PosDef.diagonal fun _ => mul_self_pos.2 hn.2) (by norm_num), fun _ => ⟨rfl, rfl⟩, nofun, fun _ => ?_, nofun⟩
      simp only [pow_two]
    | false =>
      obtain ⟨e1, e2⟩ := hstated hf hu
      have hpd := hC _ e1
      rw [e2]
      refine ⟨(C46_noise _ _ _ _ hq hpd.posSemidef).2 hpd, fun hw' => ?_, fun hw' => ?_, nofun, fun _ hw' => ?_⟩
      · exact C46_world _ _ _ _ hw'
      · exact C46_inverse_partial _ _ _ _ hq rfl hw'
      · refine ⟨_, e1, ?_⟩
        rw [makePose_noise_world _ _ _ _ rfl hw']
        have hs : (rowMajor6 m.cov)ᵀ = rowMajor6 m.cov := by simpa using hpd.isHermitian.eq
        simp only [covPos, covAtt, transpose_submatrix, hs]
  · intro h
    refine hno ?_
    rintro ⟨hu, h1⟩
    rcases h with h | ⟨hf, h⟩
    · exact h1 h
    · rw [(hstated hf hu).1] at h
      cases h

/-- Nothing else makes a measurement. -/
theorem C123_settings (fixed world : Bool) (minDt : ℝ) (es : List (PoseEvent ℝ)) (x y : ℝ) :
    ((PoseSource.init fixed world minDt).run (es ++ [.setNoises x y])).2 =
      ((PoseSource.init fixed world minDt).run es).2 ∧
    ((PoseSource.init fixed world minDt).run (es ++ [.setDelay x])).2 =
      ((PoseSource.init fixed world minDt).run es).2 := by
  constructor <;> (rw [PoseSource.run_append]; simp [PoseSource.run, PoseSource.step])

/-- **C123, initial pose.**  The pose `Init` starts from is that of the last measurement; without any it is the
identity. -/
theorem C123_initial_pose (fixed world : Bool) (minDt : ℝ) (es : List (PoseEvent ℝ)) :
    ((PoseSource.init fixed world minDt).run es).1.z_p =
      ((((PoseSource.init fixed world minDt).run es).2.getLast?).map (·.meas.z_p)).getD 0 ∧
    ((PoseSource.init fixed world minDt).run es).1.z_q =
      ((((PoseSource.init fixed world minDt).run es).2.getLast?).map (·.meas.z_q)).getD Quat.one :=
  (PoseSource.run_params fixed world minDt es).2.2.2.2.2.2.2

/-- The noise of a pose that is known exactly, but for the yaw row. -/
noncomputable def exactNoise : Matrix (Fin 7) (Fin 7) ℝ := diag7 0 0 (1 / 1000000)

/-- **C123 is violated by covariances that are not filled in.**  After any history: a pose or odometry message with
zero covariance, in ROS: unknown, that does not come too soon is used, and as if its pose were known exactly. -/
theorem C123_unknown_violated (world : Bool) (minDt : ℝ) (es : List (PoseEvent ℝ)) (m : PoseInput ℝ)
    (hk : m.kind = .poseWithCovariance ∨ m.kind = .odometry) (hc : m.cov = 0)
    (ht : ¬ TooSoon minDt (lastUsed false minDt es) m.stamp) :
    m.statedCov = none ∧ ∃ x, ((PoseSource.init false world minDt).run (es ++ [.msg m])).2 =
      ((PoseSource.init false world minDt).run es).2 ++ [x] ∧ x.meas.R_ = exactNoise := by
  have h0 : rowMajor6 m.cov = 0 := by rw [hc]; rfl
  refine ⟨if_neg fun h => h.2 h0, _, (PoseSource.run_msg false world minDt es m).1 ⟨?_, ht⟩, ?_⟩
  · rcases hk with h | h
    · exact .inl h
    · exact .inr (.inl h)
  · have hr : m.readCov = 0 := by
      unfold PoseInput.readCov
      rcases hk with h | h <;> rw [h] <;> exact hc
    have z1 : covPos (0 : Fin 36 → ℝ) = 0 := rfl
    have z2 : covAtt (0 : Fin 36 → ℝ) = 0 := rfl
    rw [hr]
    cases world with
    | true =>
      rw [makePose_noise_world _ _ _ _ rfl rfl]
      simp only [z1, z2, transpose_zero, exactNoise]
    | false =>
      rw [makePose_noise_sensor _ _ _ _ rfl rfl]
      simp only [z1, z2, transpose_zero, Matrix.mul_zero, Matrix.zero_mul, exactNoise]

/-- **C123 is violated.** -/
theorem C123_violated : ¬ poseSourceClaim := by
  intro h
  obtain ⟨h0, x, hx, -⟩ := C123_unknown_violated true 0 [] ⟨.odometry, 1, 0, Quat.one, 0⟩ (.inr rfl) rfl
    (by simp only [lastUsed, List.foldl_nil]; unfold TooSoon; norm_num)
  have := (h false true 0 [] ⟨.odometry, 1, 0, Quat.one, 0⟩ (by simp [Quat.normSq, Quat.one])
    (by simp [poseNoisesAfter]) (fun C hC => by rw [h0] at hC; cases hC)).2 (.inr ⟨rfl, h0⟩)
  rw [hx] at this
  simpa using congrArg List.length this

theorem exactNoise_symm : exactNoiseᵀ = exactNoise := by
  ext i j
  fin_cases i <;> fin_cases j <;> rfl

theorem exactNoise_psd : exactNoise.PosSemidef := diag7_psd PosSemidef.zero PosSemidef.zero (by norm_num)

theorem exactNoise_row (x : Fin 7 → ℝ) : exactNoise *ᵥ x = Pi.single 6 (1 / 1000000 * x 6) := by
  funext i
  fin_cases i <;> simp [exactNoise, diag7, mulVec, dotProduct, Fin.sum_univ_succ]

/-- **C123, what an unknown covariance does.**  After an update with such a pose, from any symmetric covariance for
which it is defined, the filter is certain of the predicted pose: its covariance is zero in all six components. -/
theorem C123_certain_violated {k : Nat} (P : Matrix (Fin k) (Fin k) ℝ) (hP : Pᵀ = P) (H : Matrix (Fin 7) (Fin k) ℝ)
    (enable : Bool) (thr : ℝ) (r : Fin 7 → ℝ) (c : Fin k → ℝ) (P' : Matrix (Fin k) (Fin k) ℝ)
    (h : calculateCorrection enable thr P H r exactNoise = some (some (c, P'))) (i : Fin 7) (hi : i ≠ 6) :
    ∀ j, (H * P' * Hᵀ) j i = 0 := by
  unfold calculateCorrection at h
  split at h
  · cases h
  · rename_i hdet
    split at h
    · cases h
    · simp only [Option.some.injEq, Prod.mk.injEq] at h
      rw [← h.2]
      have := joseph_exact hP H exactNoise_symm (isUnit_iff_ne_zero.2 hdet) (v := Pi.single i 1)
        (by rw [exactNoise_row, Pi.single_eq_of_ne (Ne.symm hi), mul_zero, Pi.single_zero])
      intro j
      have := congrFun this j
      rwa [mulVec_single_one] at this

/-- **C123, the second pose.**  Any pose filter in any state in which nothing is known exactly and the scale is not
zero gets a pose whose covariance is unknown and that agrees with the prediction.  It is used and leaves the state as
it is.  Any further pose with unknown covariance before the next prediction makes the state NaN: the matrix to invert
is singular. -/
theorem C123_repeated_violated {aux : List VarDesc} (uc : UserCalc (coreDef aux)) (t : Tracker ℝ) (ix : PoseIdx)
    (thr : ℝ) (hn : ∀ i (hi : i < (coreDef aux).length), (coreDef aux)[i].name = i) (hp : PlainVars (coreDef aux))
    (hd : ix.Distinct) (s : EKFState ℝ (coreDef aux)) (hu : UnitQuats s.vars) (hP : s.P.PosDef) (v : PoseView ℝ)
    (hv : poseView ix s.vars = some v) (hL : v.L ≠ 0) (y : ℝ) (hy : yawResidual v.qwv = some y)
    (ha : uc.augment 0 = 0) (hs : uc.sanity s.vars s.vars 0 = s.vars)
    (hf : (fuzzyCheck' t s.vars s.vars 0.1).isSome)
    (z : PoseMeas ℝ) (hR : z.R_ = exactNoise) (hzp : z.z_p = v.predPos) (hzq : z.z_q = v.predAtt) :
    ∃ t' P' fz, poseApply uc t ix 0 false thr z s = some (t', { s with P := P' }, fz) ∧
      ∀ (uc' : UserCalc (coreDef aux)) (t'' : Tracker ℝ) (en : Bool) (thr' : ℝ) (z' : PoseMeas ℝ), z'.R_ = exactNoise →
        poseApply uc' t'' ix 0 en thr' z' { s with P := P' } = none := by
  obtain ⟨H, hH, -⟩ := poseH_mulVec ix 0 s.vars v hn hv hd
  obtain ⟨r1, r2, rL, rqic, rpic, rqwv, rpwv⟩ := poseView_reads hv
  have hq : v.predAtt.normSq = 1 := by
    rw [PoseView.predAtt, Quat.normSq_mul, Quat.normSq_mul, r2, getQuat_unit hu (getQuat_q s.vars),
      getQuat_unit hu rqic, getQuat_unit hu rqwv]
    norm_num
  have hdet := exact_innov (R := exactNoise) (fixed := 0) hn hv hd hL (getQuat_unit hu rqwv) (getQuat_unit hu rqic) hP
    exactNoise_psd (fun x hx => by
      rw [exactNoise_row, dotProduct_single] at hx
      have h0 : x 6 * x 6 = 0 := by linarith
      exact mul_self_eq_zero.1 h0) hH
  have hPs : s.Pᵀ = s.P := by simpa using hP.isHermitian.eq
  have hcl : ∀ P : ErrMat ℝ (coreDef aux), clearFixed 0 ix.clearOrder P = some P := fun P => by
    simp [clearFixed, PoseIdx.clearOrder]
  have hres : v.residual v.predPos v.predAtt = some (Pi.single 6 y) := by
    rw [PoseView.residual, attResidual_exact hq, hy, ← rows7_yaw, sub_self]
    rfl
  have h6 := poseH_row6 hH
  have hx : (H * s.P * Hᵀ + exactNoise) *ᵥ Pi.single 6 (1000000 * y) = Pi.single 6 y := by
    have hrow : H *ᵥ (s.P *ᵥ (Hᵀ *ᵥ Pi.single 6 (1000000 * y))) = 0 := by
      have : Hᵀ *ᵥ Pi.single 6 (1000000 * y) = 0 := by
        rw [mulVec_single]
        funext j
        have := congrFun h6 j
        simp [this]
      rw [this, mulVec_zero, mulVec_zero]
    rw [add_mulVec, ← mulVec_mulVec, ← mulVec_mulVec, hrow, zero_add, exactNoise_row]
    congr 1
    simp
  have hcorr : (s.P * Hᵀ) *ᵥ Pi.single 6 (1000000 * y) = 0 := by
    have : Hᵀ *ᵥ Pi.single 6 (1000000 * y) = 0 := by
      rw [mulVec_single]
      funext j
      have := congrFun h6 j
      simp [this]
    rw [← mulVec_mulVec, this, mulVec_zero]
  have hthr : poseApply uc t ix 0 false thr z s = poseApply uc t ix 0 false 0 z s := by
    simp [poseApply, updateState, calculateCorrection]
  have hap : poseApply uc t ix 0 false 0 z s = updateState uc t s false 0 H (Pi.single 6 y) exactNoise := by
    simp only [poseApply, hcl, Option.bind_eq_bind, Option.bind_some, hH, hv, hzp, hzq, hres, hR]
  obtain ⟨⟨t', s', fz⟩, hfz⟩ := Option.isSome_iff_exists.1 hf
  have hs' := fuzzyCheck'_same hfz
  have hac : applyCorrection uc t s.vars 0 = some (t', s.vars, fz) := by
    unfold applyCorrection
    have hz : (if uc.fixedBias = true then zeroBias (0 : Fin (total errLen (coreDef aux)) → ℝ) else 0) = 0 := by
      split
      · exact zeroBias_zero
      · rfl
    simp only [ha, hz, correct_by_zero s.vars hn hp hu, Option.bind_eq_bind, Option.bind_some, hs, hfz, hs']
  refine ⟨t', josephUpdate s.P H exactNoise (gain s.P H exactNoise), fz, ?_, ?_⟩
  · rw [hthr, hap, C31_inlier_applied uc t s false 0 le_rfl H _ _ _ hdet hx (Or.inl rfl), hcorr, hac]
    rfl
  · intro uc' t'' en thr' z' hR'
    have hsing : (innovCov (josephUpdate s.P H exactNoise (gain s.P H exactNoise)) H exactNoise).det = 0 := by
      refine Matrix.exists_mulVec_eq_zero_iff.1 ⟨Pi.single 0 1, by simp, ?_⟩
      have hv0 : exactNoise *ᵥ Pi.single 0 1 = 0 := by
        rw [exactNoise_row, Pi.single_eq_of_ne (by decide), mul_zero, Pi.single_zero]
      change (H * _ * Hᵀ + exactNoise) *ᵥ _ = 0
      rw [add_mulVec, joseph_exact hPs H exactNoise_symm hdet hv0, hv0, add_zero]
    simp only [poseApply, hcl, Option.bind_eq_bind, Option.bind_some, hH, hv, hR']
    cases v.residual z'.z_p z'.z_q with
    | none => rfl
    | some r =>
      simp only [Option.bind_some, updateState, calculateCorrection]
      rw [if_pos hsing]
      rfl

/-! ### Non-vacuity -/

/-- An odometry message with unit covariance, a delay of a tenth of a second set after it. -/
noncomputable def exampleHistory : List (PoseEvent ℝ) :=
  [.msg ⟨.odometry, 1, ![1, 2, 3], Quat.one, fun i => if i.val % 7 = 0 then 1 else 0⟩, .setDelay (1 / 10)]

/-- Two odometry messages half a second apart: both are used. -/
example : ∃ x, ((PoseSource.init false true (1 / 10)).run (exampleHistory ++
        [.msg ⟨.odometry, 3 / 2, ![1, 2, 4], Quat.one, fun i => if i.val % 7 = 0 then 1 else 0⟩])).2 =
      ((PoseSource.init false true (1 / 10)).run exampleHistory).2 ++
        [x] ∧ x.time = 7 / 5 ∧ x.meas.z_p = ![1, 2, 4] ∧ x.meas.R_ = diag7 1 1 (1 / 1000000) := by
  set es := exampleHistory with hes
  unfold exampleHistory at hes
  set m : PoseInput ℝ := ⟨.odometry, 3 / 2, ![1, 2, 4], Quat.one, fun i => if i.val % 7 = 0 then 1 else 0⟩ with hm
  have h1 : rowMajor6 m.cov = 1 := by
    ext i j
    fin_cases i <;> fin_cases j <;> simp [rowMajor6, hm]
  have hst : m.statedCov = some 1 := by
    unfold PoseInput.statedCov
    rw [h1, if_pos ⟨.inr rfl, one_ne_zero⟩]
  have hu : Usable false .odometry := .inr (.inl rfl)
  have hl : lastUsed false (1 / 10) es = 1 := by
    simp only [hes, lastUsed, List.foldl_cons, List.foldl_nil]
    rw [if_pos ⟨hu, by unfold TooSoon; norm_num⟩]
  have hd : poseDelayAfter es = 1 / 10 := by simp [hes, poseDelayAfter]
  have hn : poseNoisesAfter es = (1 / 1000000, 1 / 1000000) := by simp [hes, poseNoisesAfter]
  obtain ⟨x, hx, ht, -, hw, -, -, hc⟩ := (C123_measurements_partial false true (1 / 10) es m
    (by simp [hm, Quat.normSq, Quat.one]) (by rw [hn]; norm_num)
    (fun C hC => by rw [hst] at hC; rw [← Option.some.inj hC]; exact PosDef.one) (.inl rfl)
    (fun _ => .inr (by rw [h1]; exact one_ne_zero))).1
    ⟨by rw [hl]; unfold TooSoon; norm_num [hm], .inr (by rw [hst]; simp)⟩
  refine ⟨x, hx, by rw [ht, hd]; norm_num [hm], (hw rfl).1, ?_⟩
  obtain ⟨C, hC, hR⟩ := hc rfl rfl
  rw [hst] at hC
  rw [hR, ← Option.some.inj hC]
  congr 1 <;> (ext i j; fin_cases i <;> fin_cases j <;> simp [lo3, hi3, Matrix.one_apply])

/-- The first odometry message of a driver that leaves the covariance empty. -/
example : ∃ x, ((PoseSource.init false true (1 / 10)).run
      ([] ++ [.msg ⟨.odometry, 1, ![1, 2, 3], Quat.one, 0⟩])).2 =
      ((PoseSource.init false true (1 / 10)).run ([] : List (PoseEvent ℝ))).2 ++ [x] ∧ x.meas.R_ = exactNoise :=
  (C123_unknown_violated true (1 / 10) [] ⟨.odometry, 1, ![1, 2, 3], Quat.one, 0⟩ (.inr rfl) rfl
    (by simp only [lastUsed, List.foldl_nil]; unfold TooSoon; norm_num)).2

/-- The pose filter at rest in the origin, with unit covariance. -/
example : ∃ t' P' fz, poseApply poseCalc Tracker.reset poseIx 0 false 100 ⟨0, Quat.one, exactNoise⟩
      (yawState Quat.one) = some (t', { yawState Quat.one with P := P' }, fz) ∧
    poseApply poseCalc t' poseIx 0 false 100 ⟨0, Quat.one, exactNoise⟩ { yawState Quat.one with P := P' } = none := by
  have hu : (Quat.one : Quat ℝ).normSq = 1 := by simp [Quat.normSq, Quat.one]
  have hb : bestIndex (coreDef poseAux) = some ⟨6, by decide⟩ := by decide +kernel
  have hd : indexOfBestNonTemporalDriftingState (coreDef poseAux) ≠ some (-1) := by decide +kernel
  have h6 : getQuat (yawState Quat.one).vars 6 = some (Quat.one : Quat ℝ) := rfl
  have hq6 : quatOf _ ((yawState Quat.one).vars ⟨6, by decide⟩).val = some (Quat.one : Quat ℝ) := h6
  have hf : (fuzzyCheck' (Tracker.reset : Tracker ℝ) (yawState Quat.one).vars (yawState Quat.one).vars 0.1).isSome := by
    unfold fuzzyCheck' fuzzyCheck
    rw [if_neg hd, hb]
    simp only [Option.bind_eq_bind, Option.bind_some, hq6]
    rw [if_neg (by decide)]
    rfl
  have hs : poseCalc.sanity (yawState Quat.one).vars (yawState Quat.one).vars 0 = (yawState Quat.one).vars := by
    change scaleSanity (yawState Quat.one).vars = _
    refine if_neg ?_
    change ¬ (1 : ℝ) < 0
    norm_num
  obtain ⟨t', P', fz, h1, h2⟩ := C123_repeated_violated poseCalc Tracker.reset poseIx 100 poseDef_ok.1 posePlain
    poseIx_distinct (yawState Quat.one) (yawState_unit _ hu) PosDef.one _ (yawState_view _) one_ne_zero 0
    (by rw [yawResidual, if_neg (by simp [Quat.one])]; simp [Quat.one]) rfl hs hf ⟨0, Quat.one, exactNoise⟩ rfl
    (by simp [PoseView.predPos]) (by simp [PoseView.predAtt, Quat.mul_one'])
  exact ⟨t', P', fz, h1, h2 _ _ _ _ _ rfl⟩

end MSF
