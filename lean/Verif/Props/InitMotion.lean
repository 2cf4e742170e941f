import Verif.Props.Managers
import Verif.Props.Layout

/-!
# Properties of the initialized state and of the scale (C70 – C72)
-/

namespace MSF

open Matrix EKFState

/-! ### Hovering start -/

/-- The init measurements that the shipped managers produce. -/
inductive ShippedInit : {aux : List VarDesc} → InitMeas ℝ (coreDef aux) → Prop
  | pose {scale rec p_vc q_cv p_ic q_ic time m} :
      poseInit scale rec p_vc q_cv p_ic q_ic time = some m → ShippedInit m
  | position {yaw p_vc p_ip time m} : positionInit yaw p_vc p_ip time = some m → ShippedInit m
  | spherical {yaw angles d p_ip time m} :
      sphericalInit yaw angles d p_ip time = some m → ShippedInit m
  | positionPose {scale yaw p_pos p_vc q_vc p_ic q_ic p_ip time m} :
      positionPoseInit scale yaw p_pos p_vc q_vc p_ic q_ic p_ip time = some m → ShippedInit m
  | posePressure {scale rec p_vc q_vc z p_ic q_ic time m} :
      posePressureInit scale rec p_vc q_vc z p_ic q_ic time = some m → ShippedInit m

theorem ShippedInit.core {aux : List VarDesc} {m : InitMeas ℝ (coreDef aux)} (h : ShippedInit m) :
    (q (coreInit m).vars).normSq = 1 ∧ v (coreInit m).vars = 0 ∧ b_w (coreInit m).vars = 0 ∧
      b_a (coreInit m).vars = 0 ∧ (coreInit m).w_m = 0 ∧ m.w_m = 0 ∧ (coreInit m).a_m = m.a_m ∧
      m.a_m = (q (coreInit m).vars).inverse.rotate managerGravity ∧ m.P = 0 := by
  cases h with
  | pose h =>
    unfold poseInit at h
    simp only [Option.bind_eq_bind] at h
    obtain ⟨u, hu, h⟩ := Option.bind_eq_some_iff.1 h
    obtain ⟨q, hq, h⟩ := Option.bind_eq_some_iff.1 h
    split at h
    · cases h
    · cases h
      exact ⟨(normalize_scale hq).1, rfl, rfl, rfl, rfl, rfl, rfl, rfl, rfl⟩
  | position h =>
    unfold positionInit at h
    simp only [Option.bind_eq_bind] at h
    obtain ⟨q, hq, h⟩ := Option.bind_eq_some_iff.1 h
    cases h
    exact ⟨yawQuat_unit hq, rfl, rfl, rfl, rfl, rfl, rfl, rfl, rfl⟩
  | spherical h =>
    unfold sphericalInit at h
    simp only [Option.bind_eq_bind] at h
    obtain ⟨q, hq, h⟩ := Option.bind_eq_some_iff.1 h
    cases h
    exact ⟨yawQuat_unit hq, rfl, rfl, rfl, rfl, rfl, rfl, rfl, rfl⟩
  | positionPose h =>
    unfold positionPoseInit at h
    simp only [Option.bind_eq_bind] at h
    obtain ⟨u, hu, h⟩ := Option.bind_eq_some_iff.1 h
    obtain ⟨q, hq, h⟩ := Option.bind_eq_some_iff.1 h
    split at h
    · cases h
    · cases h
      exact ⟨yawQuat_unit hq, rfl, rfl, rfl, rfl, rfl, rfl, rfl, rfl⟩
  | posePressure h =>
    unfold posePressureInit at h
    simp only [Option.bind_eq_bind] at h
    split at h
    · cases h
    · obtain ⟨u, hu, h⟩ := Option.bind_eq_some_iff.1 h
      obtain ⟨q, hq, h⟩ := Option.bind_eq_some_iff.1 h
      cases h
      exact ⟨(normalize_scale hq).1, rfl, rfl, rfl, rfl, rfl, rfl, rfl, rfl⟩

/-- The claim: the filter starts at rest, i.e. as long as the IMU keeps reporting the values of the
init measurement, the estimated position and velocity do not change. -/
def hoverClaim : Prop :=
  ∀ {aux : List VarDesc} (m : InitMeas ℝ (coreDef aux)), ShippedInit m →
    ∀ new : EKFState ℝ (coreDef aux), new.a_m = m.a_m → new.w_m = m.w_m →
      ∃ s, propagateState (coreInit m) new = some s ∧ v s.vars = v (coreInit m).vars ∧
        p s.vars = p (coreInit m).vars

/-- **C70, what holds**: for every shipped manager, all its inputs and every time step the attitude
stays, and the vehicle accelerates straight up with the difference 0.00166 of the two constants for
gravity. -/
theorem C70_drift_partial {aux : List VarDesc} (m : InitMeas ℝ (coreDef aux)) (h : ShippedInit m)
    (new : EKFState ℝ (coreDef aux)) (ha : new.a_m = m.a_m) (hw : new.w_m = m.w_m) :
    ∃ s, propagateState (coreInit m) new = some s ∧ q s.vars = q (coreInit m).vars ∧
      v s.vars = ![0, 0, 0.00166 * (new.time - m.time)] ∧
      p s.vars = p (coreInit m).vars + ![0, 0, 0.00083 * (new.time - m.time) ^ 2] := by
  obtain ⟨hq, hv, hbw, hba, hw0, hmw, ham, hg, -⟩ := h.core
  obtain ⟨s, hs, e1, e2, e3⟩ := C26_constant_acceleration (coreInit m) new hq
    (by rw [hw, hmw, hbw]) (by rw [hw0, hbw]) (by rw [ha, ham])
  have hf : (q (coreInit m).vars).toRot *ᵥ ((coreInit m).a_m - b_a (coreInit m).vars) =
      managerGravity := by
    rw [hba, ham, hg, sub_zero, inverse_unit hq, rotate_eq, toRot_conj, mulVec_mulVec,
      toRot_orthogonal _ hq, one_mulVec]
  rw [hf] at e2 e3
  refine ⟨s, hs, e1, ?_, ?_⟩
  · rw [e2, hv]
    funext i
    fin_cases i <;> simp [ballisticV, managerGravity, gravity, coreInit_time]
    norm_num
    ring
  · rw [e3, hv]
    funext i
    fin_cases i <;> simp [ballisticP, managerGravity, gravity, coreInit_time]
    norm_num
    ring

/-- The hypotheses of C70 are met by the position manager, two seconds after initialization. -/
example (yaw t : ℝ) (p_vc p_ip : V3 ℝ) : ∃ m, positionInit yaw p_vc p_ip t = some m ∧
    ∃ s, propagateState (coreInit m)
      { coreInit m with time := m.time + 2, a_m := m.a_m, w_m := m.w_m } = some s ∧
      v s.vars = ![0, 0, 0.00332] := by
  obtain ⟨m, hm, -⟩ := C43_position yaw t p_vc p_ip
  obtain ⟨s, hs, -, hv, -⟩ := C70_drift_partial m (.position hm)
    { coreInit m with time := m.time + 2, a_m := m.a_m, w_m := m.w_m } rfl rfl
  refine ⟨m, hm, s, hs, ?_⟩
  rw [hv]
  simp
  norm_num

/-- **C70 is violated**: one second after initialization with constant readings the position filter
is already moving. -/
theorem C70_violated : ¬ hoverClaim := by
  intro h
  obtain ⟨m, hm, -⟩ := C43_position 0 0 0 0
  have hsi := ShippedInit.position hm
  obtain ⟨s, hs, hv, -⟩ := h m hsi { coreInit m with time := m.time + 1, a_m := m.a_m, w_m := m.w_m }
    rfl rfl
  obtain ⟨s', hs', -, hv', -⟩ := C70_drift_partial m hsi
    { coreInit m with time := m.time + 1, a_m := m.a_m, w_m := m.w_m } rfl rfl
  rw [hs, Option.some.injEq] at hs'
  subst hs'
  rw [hv, hsi.core.2.1] at hv'
  have := congrFun hv' 2
  simp at this
  norm_num at this

/-! ### Height initialization -/

/-- Height of the camera in the initialized state: `p_z` plus the rotated lever arm. -/
noncomputable def cameraHeight (w : PoseView ℝ) : ℝ := (w.p + w.q.toRot *ᵥ w.pic) 2

/-- The claim: a height request is refused or leads to a state with the camera at that height. -/
def heightClaim (request : V3 ℝ → ℝ → HeightRequest ℝ) : Prop :=
  ∀ (p_vc p_ic : V3 ℝ) (q_cv q_ic : Quat ℝ) (height time : ℝ), q_cv.normSq = 1 → q_ic.normSq = 1 →
    request p_vc height = .refused ∨
    ∃ scale m w, request p_vc height = .init scale ∧
      poseInit scale true p_vc q_cv p_ic q_ic time = some m ∧
      poseView poseIx (coreInit m).vars = some w ∧ cameraHeight w = height

/-- Initialization with the scale of a height request. -/
theorem height_reached (p_vc p_ic : V3 ℝ) (q_cv q_ic : Quat ℝ) (height time : ℝ)
    (hz : q_cv.normSq = 1) (hic : q_ic.normSq = 1) (h2 : p_vc 2 ≠ 0) (hh : height ≠ 0) :
    ∃ m w, poseInit (p_vc 2 / height) true p_vc q_cv p_ic q_ic time = some m ∧
      poseView poseIx (coreInit m).vars = some w ∧ cameraHeight w = height := by
  obtain ⟨m, w, hm, hw, -⟩ := C43_pose (p_vc 2 / height) time p_vc p_ic q_cv q_ic
    (div_ne_zero h2 hh) (by rw [hz]; exact one_ne_zero) (by rw [hic]; exact one_ne_zero)
  refine ⟨m, w, hm, hw, ?_⟩
  obtain ⟨u, q, -, -, -, -, -, -, -, -, hv, -⟩ := poseInit_view hm
  rw [hw, Option.some.injEq] at hv
  rw [cameraHeight, hv]
  simp only [sub_add_cancel, zero_add, one_conj, one_rot, one_mulVec, Pi.smul_apply, smul_eq_mul]
  field_simp

/-- **C71, partial.**  For a measurement with a non-zero z coordinate the service refuses exactly
the heights up to one centimetre and otherwise puts the camera at the requested height; a
measurement at the origin (also the value before the first measurement) is always refused. -/
theorem C71_service_partial (p_vc p_ic : V3 ℝ) (q_cv q_ic : Quat ℝ) (height time : ℝ)
    (hz : q_cv.normSq = 1) (hic : q_ic.normSq = 1) :
    (initHeight p_vc height = .refused ↔ p_vc = 0 ∨ |height| ≤ 0.01) ∧
    (p_vc 2 ≠ 0 → 0.01 < |height| →
      ∃ scale m w, initHeight p_vc height = .init scale ∧
        poseInit scale true p_vc q_cv p_ic q_ic time = some m ∧
        poseView poseIx (coreInit m).vars = some w ∧ cameraHeight w = height) := by
  constructor
  · unfold initHeight
    by_cases h0 : p_vc = 0
    · simp [h0]
    · by_cases h1 : 0.01 < |height|
      · rw [if_neg h0, if_pos h1]
        constructor
        · intro h; cases h
        · rintro (h | h)
          · exact absurd h h0
          · exact absurd h1 (not_lt.2 h)
      · rw [if_neg h0, if_neg h1]
        exact ⟨fun _ => Or.inr (not_lt.1 h1), fun _ => rfl⟩
  · intro h2 hh
    have h0 : p_vc ≠ 0 := fun h => h2 (by rw [h]; rfl)
    obtain ⟨m, w, hm, hw, e⟩ := height_reached p_vc p_ic q_cv q_ic height time hz hic h2 (by
      intro h; rw [h, abs_zero] at hh; norm_num at hh)
    exact ⟨_, m, w, by rw [initHeight, if_neg h0, if_pos hh], hm, hw, e⟩

/-- **C71 is violated by the service**: a sensor at height zero but not at the origin leads to
scale 0 and a division by it. -/
theorem C71_service_violated : ¬ heightClaim initHeight := by
  intro h
  have hne : (![1, 0, 0] : V3 ℝ) ≠ 0 := fun h => by simpa using congrFun h 0
  rcases h ![1, 0, 0] 0 Quat.one Quat.one 1 0 (by simp [Quat.normSq, Quat.one])
    (by simp [Quat.normSq, Quat.one]) with h | ⟨s, m, w, hr, hm, -⟩
  · rw [initHeight, if_neg hne, if_pos (by norm_num)] at h
    cases h
  · rw [initHeight, if_neg hne, if_pos (by norm_num), HeightRequest.init.injEq] at hr
    obtain ⟨u, q, -, -, hs, -⟩ := poseInit_view hm
    apply hs
    rw [← hr]
    simp

/-- **C71 is violated by the checkbox**: height zero is not refused and divides by zero. -/
theorem C71_config_violated : ¬ heightClaim configHeight := by
  intro h
  have hne : (![0, 0, 1] : V3 ℝ) ≠ 0 := fun h => by simpa using congrFun h 2
  rcases h ![0, 0, 1] 0 Quat.one Quat.one 0 0 (by simp [Quat.normSq, Quat.one])
    (by simp [Quat.normSq, Quat.one]) with h | ⟨s, m, w, hr, hm, -⟩
  · rw [configHeight, if_neg hne, if_pos rfl] at h
    cases h
  · rw [configHeight, if_neg hne, if_pos rfl] at hr
    cases hr

/-- The hypotheses of C71 are met by a non-trivial request. -/
example : ∃ scale m w, initHeight ![1, 2, 3] 2 = .init scale ∧
    poseInit scale true ![1, 2, 3] ⟨3 / 5, 4 / 5, 0, 0⟩ ![4, 5, 6] ⟨0, 3 / 5, 4 / 5, 0⟩ 7 = some m ∧
    poseView poseIx (coreInit m).vars = some w ∧ cameraHeight w = 2 :=
  (C71_service_partial ![1, 2, 3] ![4, 5, 6] ⟨3 / 5, 4 / 5, 0, 0⟩ ⟨0, 3 / 5, 4 / 5, 0⟩ 2 7
    (by norm_num [Quat.normSq]) (by norm_num [Quat.normSq])).2 (by simp)
    (by norm_num)

/-! ### The scale -/

section
variable {rest : List VarDesc}

/-- One step of a filter with scale: prediction, absolute or relative update with any matrices, or a
change of the covariance alone. -/
inductive ScaleStep (fixedBias : Bool) :
    Tracker ℝ × EKFState ℝ (coreDef (⟨.vec 1, 5, .aux, 0⟩ :: rest)) →
    Tracker ℝ × EKFState ℝ (coreDef (⟨.vec 1, 5, .aux, 0⟩ :: rest)) → Prop
  | predict {t s new s'} : propagateState s new = some s' → ScaleStep fixedBias (t, s) (t, s')
  | update {t s t' s' fz enable thr} {l : Nat} {H : Matrix (Fin l) _ ℝ} {r R} :
      updateState (scaleCalc fixedBias) t s enable thr H r R = some (t', s', fz) →
      ScaleStep fixedBias (t, s) (t', s')
  | relative {t old s between t' s' fz} {l : Nat} {Hold Hnew : Matrix (Fin l) _ ℝ} {r R} :
      updateStateRelative (scaleCalc fixedBias) t old s between Hold Hnew r R = some (t', s', fz) →
      ScaleStep fixedBias (t, s) (t', s')
  | covariance {t s P} : ScaleStep fixedBias (t, s) (t, { s with P := P })

/-- The scale held by a state. -/
def scaleOf (s : Vars ℝ (coreDef (⟨.vec 1, 5, .aux, 0⟩ :: rest))) : Option ℝ :=
  (getVec s 5 1).map (· 0)

/-- The scale as the entry of variable 5. -/
def scaleVal (s : Vars ℝ (coreDef (⟨.vec 1, 5, .aux, 0⟩ :: rest))) : ℝ :=
  ((s ⟨5, by simp [coreDef, coreDescs]⟩).val : Fin 1 → ℝ) 0

theorem scaleOf_eq (s : Vars ℝ (coreDef (⟨.vec 1, 5, .aux, 0⟩ :: rest))) :
    scaleOf s = some (scaleVal s) := by
  have h : 5 < (coreDef (⟨.vec 1, 5, .aux, 0⟩ :: rest)).length := by simp [coreDef, coreDescs]
  rw [scaleOf, getVec, dif_pos h]
  rfl

theorem scaleSanity_nonneg (s : Vars ℝ (coreDef (⟨.vec 1, 5, .aux, 0⟩ :: rest))) :
    0 ≤ scaleVal (scaleSanity s) := by
  have h : scaleVal (scaleSanity s) = if scaleVal s < 0 then 0.1 else scaleVal s := by
    unfold scaleSanity
    simp only
    by_cases hc : scaleVal s < 0
    · rw [if_pos hc]
      refine (congrArg scaleVal (if_pos hc)).trans ?_
      simp [scaleVal]
    · rw [if_neg hc]
      exact congrArg scaleVal (if_neg hc)
  rw [h]
  split
  · norm_num
  · linarith

theorem applyCorrection_scale {fb : Bool} {t t' : Tracker ℝ} {fz : Bool} {thres : ℝ}
    {s s' : Vars ℝ (coreDef (⟨.vec 1, 5, .aux, 0⟩ :: rest))} {c}
    (h : applyCorrection (scaleCalc fb) t s c thres = some (t', s', fz)) :
    0 ≤ scaleVal s' ∨ scaleVal s' = scaleVal s := by
  simp only [applyCorrection, Option.bind_eq_bind] at h
  obtain ⟨s1, hs1, h⟩ := Option.bind_eq_some_iff.1 h
  rcases fuzzyCheck'_vars _ _ _ _ _ _ _ h with rfl | rfl
  · exact Or.inl (scaleSanity_nonneg _)
  · right
    have : copyNonPropagationStates s (scaleSanity s1) ⟨5, by simp [coreDef, coreDescs]⟩ =
      s ⟨5, by simp [coreDef, coreDescs]⟩ := by
      rw [copyNonPropagationStates, if_neg]
      show ¬ VarDesc.stype ⟨.vec 1, 5, .aux, 0⟩ = .coreProp
      decide
    exact congrArg (fun x : StateVar ℝ (.vec 1) => x.val 0) this

/-- **C72, partial.**  Once the scale is not negative, it stays so through every sequence of
predictions, absolute and relative updates with any matrices and residuals, in every filter whose
first auxiliary state is the scale. -/
theorem C72_scale_partial (fixedBias : Bool)
    {x y : Tracker ℝ × EKFState ℝ (coreDef (⟨.vec 1, 5, .aux, 0⟩ :: rest))}
    (h : Relation.ReflTransGen (ScaleStep fixedBias) x y)
    (h0 : ∃ L, scaleOf x.2.vars = some L ∧ 0 ≤ L) : ∃ L, scaleOf y.2.vars = some L ∧ 0 ≤ L := by
  simp only [scaleOf_eq, Option.some.injEq, exists_eq_left'] at h0 ⊢
  induction h with
  | refl => exact h0
  | tail _ hs ih =>
    cases hs with
    | predict h =>
      have := C25_nonpropagated_copied _ _ _ h ⟨5, by simp [coreDef, coreDescs]⟩ (by
        show ¬ VarDesc.stype ⟨.vec 1, 5, .aux, 0⟩ = .coreProp
        decide)
      have e : scaleVal _ = scaleVal _ := congrArg (fun x : StateVar ℝ (.vec 1) => x.val 0) this
      rw [e]; exact ih
    | update h =>
      unfold updateState at h
      simp only [Option.bind_eq_bind] at h
      obtain ⟨o, -, h⟩ := Option.bind_eq_some_iff.1 h
      cases o with
      | none => cases h; exact ih
      | some cp =>
        obtain ⟨⟨t1, v1, f1⟩, hc, h⟩ := Option.bind_eq_some_iff.1 h
        cases h
        rcases applyCorrection_scale hc with h' | h'
        · exact h'
        · exact h'.symm ▸ ih
    | relative h =>
      unfold updateStateRelative at h
      simp only [Option.bind_eq_bind] at h
      obtain ⟨o, -, h⟩ := Option.bind_eq_some_iff.1 h
      obtain ⟨⟨t1, v1, f1⟩, hc, h⟩ := Option.bind_eq_some_iff.1 h
      cases h
      rcases applyCorrection_scale hc with h' | h'
      · exact h'
      · exact h'.symm ▸ ih
    | covariance => exact ih

end

/-- The claim: the scale is not negative after initialization either. -/
def scaleInitClaim : Prop :=
  ∀ scale p_vc q_cv p_ic q_ic time m, poseInit scale true p_vc q_cv p_ic q_ic time = some m →
    ∃ L, scaleOf (coreInit m).vars = some L ∧ 0 ≤ L

/-- **C72 is violated at initialization**: a height request of -1 for a sensor at height 1 is
accepted and gives the scale -1. -/
theorem C72_init_violated : initHeight ![0, 0, 1] (-1) = .init (-1) ∧ ¬ scaleInitClaim := by
  constructor
  · rw [initHeight, if_neg (fun h => by simpa using congrFun h 2), if_pos (by norm_num)]
    simp
  · intro h
    obtain ⟨m, w, hm, hw, -⟩ := C43_pose (-1) 0 0 0 Quat.one Quat.one (by norm_num)
      (by simp [Quat.normSq, Quat.one]) (by simp [Quat.normSq, Quat.one])
    obtain ⟨L, hL, h0⟩ := h _ _ _ _ _ _ _ hm
    obtain ⟨u, q, -, -, -, -, -, -, -, -, hv, -⟩ := poseInit_view hm
    have : w.L = L := by
      unfold poseView at hw
      simp only [Option.bind_eq_bind] at hw
      obtain ⟨l, hl, hw⟩ := Option.bind_eq_some_iff.1 hw
      obtain ⟨_, -, hw⟩ := Option.bind_eq_some_iff.1 hw
      obtain ⟨_, -, hw⟩ := Option.bind_eq_some_iff.1 hw
      obtain ⟨_, -, hw⟩ := Option.bind_eq_some_iff.1 hw
      obtain ⟨_, -, hw⟩ := Option.bind_eq_some_iff.1 hw
      cases hw
      have e : (getVec (coreInit m).vars 5 1).map (· 0) = some L := hL
      rw [show getVec (coreInit m).vars 5 1 = some l from hl] at e
      exact Option.some.inj e
    rw [hw, Option.some.injEq] at hv
    rw [hv] at this
    simp only at this
    linarith

end MSF
