import Verif.Lemmas.Managers
import Verif.Props.Jacobian
import Verif.Props.Spherical

/-!
# Properties of initialization (C43)
-/

namespace MSF

open Matrix

/-! ### Initialization explains the initializing measurement -/

/-- What the pose sensor sees right after the initialization of a pose filter. -/
theorem poseInit_view {scale time : ℝ} {rec : Bool} {p_vc p_ic : V3 ℝ} {q_cv q_ic : Quat ℝ}
    {m : InitMeas ℝ (coreDef poseAux)} (h : poseInit scale rec p_vc q_cv p_ic q_ic time = some m) :
    ∃ u q, q_ic.normalize = some u ∧
      (if rec then ((u.mul q_cv.conj).mul Quat.one).conj else Quat.one).normalize = some q ∧
      scale ≠ 0 ∧ m.time = time ∧ m.a_m = q.inverse.rotate managerGravity ∧ m.w_m = 0 ∧
      m.P = 0 ∧ m.containsReadings = true ∧
      poseView poseIx (coreInit m).vars = some ⟨0 + scale⁻¹ • (Quat.one.conj.toRot *ᵥ p_vc) -
        q.toRot *ᵥ p_ic, q, scale, u, p_ic, Quat.one, 0⟩ ∧
      EKFState.v (coreInit m).vars = 0 ∧ EKFState.b_w (coreInit m).vars = 0 ∧
      EKFState.b_a (coreInit m).vars = 0 := by
  unfold poseInit at h
  simp only [Option.bind_eq_bind] at h
  obtain ⟨u, hu, h⟩ := Option.bind_eq_some_iff.1 h
  obtain ⟨q, hq, h⟩ := Option.bind_eq_some_iff.1 h
  split at h
  · cases h
  · rename_i hs
    rw [Option.some.injEq] at h
    subst h
    exact ⟨u, q, hu, hq, hs, rfl, rfl, rfl, rfl, rfl, rfl, rfl, rfl, rfl⟩

/-- Position prediction of a freshly initialized pose. -/
theorem init_predPos {L : ℝ} (hL : L ≠ 0) (q u : Quat ℝ) (p_ic p_vc : V3 ℝ) :
    (⟨0 + L⁻¹ • (Quat.one.conj.toRot *ᵥ p_vc) - q.toRot *ᵥ p_ic, q, L, u, p_ic, Quat.one, 0⟩ :
      PoseView ℝ).predPos = p_vc := by
  simp only [PoseView.predPos, conj_toRot_transpose, one_conj, one_rot, transpose_one, one_mulVec]
  rw [show (-0 + (0 + L⁻¹ • p_vc - q.toRot *ᵥ p_ic) + q.toRot *ᵥ p_ic : V3 ℝ) = L⁻¹ • p_vc by
    abel, smul_smul, mul_inv_cancel₀ hL, one_smul]

/-- Attitude prediction of a freshly initialized pose. -/
theorem init_predAtt {q_cv u q : Quat ℝ} (hu : u.normSq = 1) (hz : q_cv.normSq ≠ 0)
    (hq : ((u.mul q_cv.conj).mul Quat.one).conj.normalize = some q) :
    attResidual (((Quat.one.mul q).mul u).conj.mul q_cv) = some 0 := by
  obtain ⟨-, c, hc, rfl⟩ := normalize_scale hq
  have e : ((Quat.one.mul ⟨c * ((u.mul q_cv.conj).mul Quat.one).conj.w,
      c * ((u.mul q_cv.conj).mul Quat.one).conj.x, c * ((u.mul q_cv.conj).mul Quat.one).conj.y,
      c * ((u.mul q_cv.conj).mul Quat.one).conj.z⟩).mul u).conj.mul q_cv
      = (⟨c * (u.normSq * q_cv.normSq), 0, 0, 0⟩ : Quat ℝ) := by
    simp only [Quat.mul, Quat.conj, Quat.one, Quat.normSq, Quat.mk.injEq]
    refine ⟨?_, ?_, ?_, ?_⟩ <;> ring
  rw [e]
  refine attResidual_real ?_
  rw [hu, one_mul]
  exact mul_ne_zero hc.ne' hz

/-- The hypothesis on the attitude of `poseInit_view` can be met. -/
theorem init_attitude_exists {u z : Quat ℝ} (hu : u.normSq = 1) (hz : z.normSq ≠ 0) :
    ∃ q, ((u.mul z.conj).mul Quat.one).conj.normalize = some q := by
  have : ((u.mul z.conj).mul Quat.one).conj.normSq = z.normSq := by
    rw [Quat.normSq_conj, Quat.mul_one', Quat.normSq_mul, Quat.normSq_conj, hu, one_mul]
  obtain ⟨q, h, -⟩ := Quat.normalize_pos (q := ((u.mul z.conj).mul Quat.one).conj)
    (by rw [this]; exact normSq_pos_of_ne hz)
  exact ⟨q, h⟩

/-- **C43, pose filter.**  For every received measurement with a non-zero attitude quaternion,
every non-zero scale and every calibration, initialization succeeds and all seven residuals of the
same measurement are zero in the initialized state. -/
theorem C43_pose (scale time : ℝ) (p_vc p_ic : V3 ℝ) (q_cv q_ic : Quat ℝ) (hs : scale ≠ 0)
    (hz : q_cv.normSq ≠ 0) (hic : q_ic.normSq ≠ 0) :
    ∃ m v, poseInit scale true p_vc q_cv p_ic q_ic time = some m ∧
      poseView poseIx (coreInit m).vars = some v ∧ v.residual p_vc q_cv = some 0 := by
  obtain ⟨u, hu, hu1, -⟩ := Quat.normalize_pos (normSq_pos_of_ne hic)
  obtain ⟨q, hq⟩ := init_attitude_exists hu1 hz
  have hm : ∃ m, poseInit scale true p_vc q_cv p_ic q_ic time = some m := by
    unfold poseInit
    simp only [hu, Option.bind_eq_bind, Option.bind_some, if_true, hq, if_neg hs]
    exact ⟨_, rfl⟩
  obtain ⟨m, hm⟩ := hm
  obtain ⟨u', q', hu', hq', -, -, -, -, -, -, hv, -⟩ := poseInit_view hm
  rw [hu, Option.some.injEq] at hu'
  subst hu'
  rw [if_pos rfl, hq, Option.some.injEq] at hq'
  subst hq'
  refine ⟨m, _, hm, hv, ?_⟩
  have ha := init_predAtt hu1 hz hq
  simp only [PoseView.residual, init_predPos hs, PoseView.predAtt, ha, yawResidual_one,
    Option.bind_eq_bind, Option.bind_some, sub_self, rows7_zero]

/-- Non-trivial inputs that meet the hypotheses of C43. -/
example : ∃ m v, poseInit 2 true ![1, 2, 3] ⟨3 / 5, 4 / 5, 0, 0⟩ ![4, 5, 6] ⟨1, 1, 1, 1⟩ 7 = some m ∧
    poseView poseIx (coreInit m).vars = some v ∧
    v.residual ![1, 2, 3] ⟨3 / 5, 4 / 5, 0, 0⟩ = some 0 :=
  C43_pose _ _ _ _ _ _ (by norm_num) (by norm_num [Quat.normSq]) (by norm_num [Quat.normSq])

/-- The sensor position in a state initialized by the position or the spherical manager. -/
theorem offsetInit_sensor (p_vc p_ip : V3 ℝ) (q : Quat ℝ) (time : ℝ) :
    sensorPos 5 (coreInit (initMeas (setInit (initCore (aux := positionAux)
      (p_vc - q.toRot *ᵥ p_ip) q) ⟨5, by decide⟩ p_ip) q time)).vars = some p_vc := by
  have : sensorPos 5 (coreInit (initMeas (setInit (initCore (aux := positionAux)
      (p_vc - q.toRot *ᵥ p_ip) q) ⟨5, by decide⟩ p_ip) q time)).vars =
      some ((p_vc - q.toRot *ᵥ p_ip) + q.conj.toRotᵀ *ᵥ p_ip) := rfl
  rw [this, conj_toRot_transpose, sub_add_cancel]

/-- **C43, position filter.**  Every measurement, initial yaw and sensor offset. -/
theorem C43_position (yaw time : ℝ) (p_vc p_ip : V3 ℝ) :
    ∃ m, positionInit yaw p_vc p_ip time = some m ∧
      positionResidual 5 p_vc (coreInit m).vars = some 0 := by
  obtain ⟨q, hq⟩ : ∃ q, yawQuat yaw = some q := ⟨_, yawQuat_eq yaw⟩
  refine ⟨_, by rw [positionInit, hq]; rfl, ?_⟩
  rw [positionResidual, offsetInit_sensor]
  simp

/-- **C43, spherical filter, distance.**  Every measured direction and non-negative distance. -/
theorem C43_distance (yaw time d : ℝ) (z : Fin 2 → ℝ) (p_ip : V3 ℝ) (hd : 0 ≤ d) :
    ∃ m, sphericalInit yaw z d p_ip time = some m ∧
      distanceResidual 5 d (coreInit m).vars = some 0 := by
  obtain ⟨q, hq⟩ : ∃ q, yawQuat yaw = some q := ⟨_, yawQuat_eq yaw⟩
  refine ⟨_, by rw [sphericalInit, hq]; rfl, ?_⟩
  rw [distanceResidual, offsetInit_sensor]
  have h1 := Real.sin_sq_add_cos_sq (z 0)
  have h2 := Real.sin_sq_add_cos_sq (z 1)
  have : radius ![d * Real.sin (z 0) * Real.cos (z 1), d * Real.sin (z 0) * Real.sin (z 1),
      d * Real.cos (z 0)] = d := by
    simp only [radius, cons_val_zero, cons_val_one, cons_val_two, head_cons, tail_cons]
    rw [show d * Real.sin (z 0) * Real.cos (z 1) * (d * Real.sin (z 0) * Real.cos (z 1)) +
      d * Real.sin (z 0) * Real.sin (z 1) * (d * Real.sin (z 0) * Real.sin (z 1)) +
      d * Real.cos (z 0) * (d * Real.cos (z 0)) = d ^ 2 * (Real.sin (z 0) ^ 2 *
        (Real.sin (z 1) ^ 2 + Real.cos (z 1) ^ 2) + Real.cos (z 0) ^ 2) by ring, h2, mul_one, h1,
      mul_one, Real.sqrt_sq hd]
  simp [this]
  rfl

/-- **C43, spherical filter, angles, partial.**  Positive distance, inclination strictly between 0
and π and azimuth strictly between -π and π.  Straight up or down and exactly behind the residual
is undefined or wrong (C48). -/
theorem C43_angle_partial (yaw time d : ℝ) (z : Fin 2 → ℝ) (p_ip : V3 ℝ) (hd : 0 < d)
    (h0 : 0 < z 0) (h0' : z 0 < Real.pi) (h1 : -Real.pi < z 1) (h1' : z 1 < Real.pi) :
    ∃ m, sphericalInit yaw z d p_ip time = some m ∧
      angleResidual 5 z (coreInit m).vars = some 0 := by
  obtain ⟨q, hq⟩ : ∃ q, yawQuat yaw = some q := ⟨_, yawQuat_eq yaw⟩
  refine ⟨_, by rw [sphericalInit, hq]; rfl, ?_⟩
  rw [angleResidual, offsetInit_sensor]
  have hsin : 0 < Real.sin (z 0) := Real.sin_pos_of_pos_of_lt_pi h0 h0'
  have hr : 0 < d * Real.sin (z 0) := mul_pos hd hsin
  set c : V3 ℝ := ![d * Real.sin (z 0) * Real.cos (z 1), d * Real.sin (z 0) * Real.sin (z 1),
    d * Real.cos (z 0)] with hc
  have hrad : radius c = d := radius_eq_of_spherical (θ := z 0) (φ := z 1)
    ⟨rfl, rfl, rfl, hd.le, ⟨h0.le, h0'.le⟩, ⟨h1, h1'.le⟩⟩
  have hinc : inclination c = some (z 0) := by
    rw [inclination, hrad, if_neg hd.ne']
    rw [show c 2 = d * Real.cos (z 0) from rfl, mul_div_cancel_left₀ _ hd.ne',
      Real.arccos_cos h0.le h0'.le]
  have hc0 : c 0 = d * Real.sin (z 0) * Real.cos (z 1) := rfl
  have hc1 : c 1 = d * Real.sin (z 0) * Real.sin (z 1) := rfl
  have hz1 : c 1 = 0 → c 0 = d * Real.sin (z 0) := by
    intro h
    rw [hc1, mul_eq_zero, or_iff_right hr.ne', Real.sin_eq_zero_iff_of_lt_of_lt h1 h1'] at h
    rw [hc0, h, Real.cos_zero, mul_one]
  have haz : azimuth (c 0) (c 1) = some (z 1) := by
    rw [azimuth_eq_arg]
    · congr 1
      have := Complex.arg_mul_cos_add_sin_mul_I hr (θ := z 1) ⟨h1, h1'.le⟩
      rw [← this]
      congr 1
      generalize d * Real.sin (z 0) = r at hc0 hc1
      rw [hc0, hc1]
      apply Complex.ext
      · simp [Complex.cos_ofReal_re]
      · simp [Complex.sin_ofReal_re]
    · rintro ⟨a, b⟩; rw [hz1 b] at a; exact hr.ne' a
    · rintro ⟨a, b⟩; rw [hz1 b] at a; linarith
  have hw : wrapOnce 0 = 0 := by
    have := Real.pi_pos
    rw [wrapOnce]
    split_ifs <;> linarith
  simp only [Option.bind_eq_bind, Option.bind_some, hinc, haz, sub_self, hw]
  congr 1
  funext i
  fin_cases i <;> rfl

/-- The claim of C43 for the angles of the spherical filter. -/
def angleInitClaim : Prop :=
  ∀ (yaw time d : ℝ) (z : Fin 2 → ℝ) (p_ip : V3 ℝ), 0 < d → 0 < z 0 → z 0 < Real.pi →
    -Real.pi < z 1 → z 1 ≤ Real.pi → ∃ m, sphericalInit yaw z d p_ip time = some m ∧
      angleResidual 5 z (coreInit m).vars = some 0

/-- **C43 is violated by the spherical filter** for a target seen exactly in the direction of the
negative x axis: azimuth π, predicted azimuth 0. -/
theorem C43_angle_violated : ¬ angleInitClaim := by
  intro h
  have hp := Real.pi_pos
  obtain ⟨m, hm, hr⟩ := h 0 0 1 ![Real.pi / 2, Real.pi] 0 one_pos (by simp [hp])
    (by simp; linarith) (by simp; linarith) (by simp)
  obtain ⟨q, hq⟩ : ∃ q, yawQuat 0 = some q := ⟨_, yawQuat_eq 0⟩
  rw [sphericalInit, hq] at hm
  cases hm
  rw [angleResidual, offsetInit_sensor] at hr
  simp only [Option.bind_eq_bind, Option.bind_some, cons_val_zero, cons_val_one, Real.sin_pi_div_two,
    Real.cos_pi, Real.sin_pi, azimuth, atanQuot] at hr
  norm_num at hr
  obtain ⟨a, -, b⟩ := Option.bind_eq_some_iff.1 hr
  have := congrFun (Option.some.inj b) 1
  simp only [cons_val_one, Pi.zero_apply, wrapOnce] at this
  split_ifs at this <;> simp at this <;> linarith

/-- What the sensors see right after the initialization of a pose-pressure filter. -/
theorem posePressureInit_view {scale time z_pr : ℝ} {rec : Bool} {p_vc p_ic : V3 ℝ}
    {q_vc q_ic : Quat ℝ} {m : InitMeas ℝ (coreDef posePressureAux)}
    (h : posePressureInit scale rec p_vc q_vc z_pr p_ic q_ic time = some m) :
    ∃ u q, q_ic.normalize = some u ∧
      (if rec then ((u.mul q_vc.conj).mul Quat.one).conj else Quat.one).normalize = some q ∧
      scale ≠ 0 ∧ m.a_m = q.inverse.rotate managerGravity ∧ m.w_m = 0 ∧
      poseView poseIx (coreInit m).vars = some ⟨scale⁻¹ • (Quat.one.conj.toRot *ᵥ p_vc) -
        q.toRot *ᵥ p_ic, q, scale, u, p_ic, Quat.one, 0⟩ ∧
      getVec (coreInit m).vars 10 1 = some (fun _ => p_vc 2 / scale - z_pr) ∧
      EKFState.p (coreInit m).vars = scale⁻¹ • (Quat.one.conj.toRot *ᵥ p_vc) - q.toRot *ᵥ p_ic ∧
      EKFState.v (coreInit m).vars = 0 ∧ EKFState.b_w (coreInit m).vars = 0 ∧
      EKFState.b_a (coreInit m).vars = 0 := by
  unfold posePressureInit at h
  simp only [Option.bind_eq_bind] at h
  split at h
  · cases h
  · rename_i hs
    obtain ⟨u, hu, h⟩ := Option.bind_eq_some_iff.1 h
    obtain ⟨q, hq, h⟩ := Option.bind_eq_some_iff.1 h
    rw [Option.some.injEq] at h
    subst h
    exact ⟨u, q, hu, hq, hs, rfl, rfl, rfl, rfl, rfl, rfl, rfl, rfl⟩

/-- **C43, pose-pressure filter, partial.**  Initialization succeeds, the pose residual is zero and
the pressure residual is the height of the camera over the IMU, not zero. -/
theorem C43_pose_pressure_partial (scale time z_pr : ℝ) (p_vc p_ic : V3 ℝ) (q_vc q_ic : Quat ℝ)
    (hs : scale ≠ 0) (hz : q_vc.normSq ≠ 0) (hic : q_ic.normSq ≠ 0) :
    ∃ m v, posePressureInit scale true p_vc q_vc z_pr p_ic q_ic time = some m ∧
      poseView poseIx (coreInit m).vars = some v ∧ v.residual p_vc q_vc = some 0 ∧
      pressureResidual 10 z_pr (coreInit m).vars = some (fun _ => (v.q.toRot *ᵥ p_ic) 2) := by
  obtain ⟨u, hu, hu1, -⟩ := Quat.normalize_pos (normSq_pos_of_ne hic)
  obtain ⟨q, hq⟩ := init_attitude_exists hu1 hz
  have hm : ∃ m, posePressureInit scale true p_vc q_vc z_pr p_ic q_ic time = some m := by
    unfold posePressureInit
    simp only [hu, Option.bind_eq_bind, Option.bind_some, if_true, hq, if_neg hs]
    exact ⟨_, rfl⟩
  obtain ⟨m, hm⟩ := hm
  obtain ⟨u', q', hu', hq', -, -, -, hv, hb, hp, -⟩ := posePressureInit_view hm
  rw [hu, Option.some.injEq] at hu'
  subst hu'
  rw [if_pos rfl, hq, Option.some.injEq] at hq'
  subst hq'
  refine ⟨m, _, hm, hv, ?_, ?_⟩
  · have ha := init_predAtt hu1 hz hq
    have hp' := init_predPos hs q u p_ic p_vc
    rw [zero_add] at hp'
    simp only [PoseView.residual, hp', PoseView.predAtt, ha, yawResidual_one,
      Option.bind_eq_bind, Option.bind_some, sub_self, rows7_zero]
  · rw [pressureResidual, hb, hp]
    simp only [Option.bind_eq_bind, Option.bind_some, one_conj, one_rot, one_mulVec]
    congr 1
    funext _
    simp only [Pi.sub_apply, Pi.smul_apply, smul_eq_mul]
    field_simp
    ring

/-- The claim of C43 for the pressure sensor of the pose-pressure filter. -/
def pressureInitClaim : Prop :=
  ∀ (scale time z_pr : ℝ) (p_vc p_ic : V3 ℝ) (q_vc q_ic : Quat ℝ), scale ≠ 0 →
    q_vc.normSq = 1 → q_ic.normSq = 1 →
    ∃ m, posePressureInit scale true p_vc q_vc z_pr p_ic q_ic time = some m ∧
      pressureResidual 10 z_pr (coreInit m).vars = some 0

/-- **C43 is violated by the pose-pressure filter**: camera one metre above the IMU. -/
theorem C43_pressure_violated : ¬ pressureInitClaim := by
  intro h
  obtain ⟨m, hm, hr⟩ := h 1 0 0 0 ![0, 0, 1] Quat.one Quat.one one_ne_zero
    (by simp [Quat.normSq, Quat.one]) (by simp [Quat.normSq, Quat.one])
  obtain ⟨u, q, hu, hq, -, -, -, -, hb, hp, -⟩ := posePressureInit_view hm
  have hone : (Quat.one : Quat ℝ).normSq = 1 := by simp [Quat.normSq, Quat.one]
  rw [Quat.normalize_unit hone, Option.some.injEq] at hu
  subst hu
  have e : ((Quat.one.mul Quat.one.conj).mul Quat.one).conj = (Quat.one : Quat ℝ) := by
    simp [Quat.mul, Quat.conj, Quat.one]
  rw [if_pos rfl, e, Quat.normalize_unit hone, Option.some.injEq] at hq
  subst hq
  rw [pressureResidual, hb, hp] at hr
  simp only [Option.bind_eq_bind, Option.bind_some, Option.some.injEq, one_rot, one_mulVec] at hr
  have := congrFun hr 0
  simp at this

/-- What the sensors see right after the initialization of a position-pose filter. -/
theorem positionPoseInit_view {scale time yaw : ℝ} {p_pos p_vc p_ic p_ip : V3 ℝ}
    {q_vc q_ic : Quat ℝ} {m : InitMeas ℝ (coreDef positionPoseAux)}
    (h : positionPoseInit scale yaw p_pos p_vc q_vc p_ic q_ic p_ip time = some m) :
    ∃ u q, q_ic.normalize = some u ∧ yawQuat yaw = some q ∧
      scale ≠ 0 ∧ m.a_m = q.inverse.rotate managerGravity ∧ m.w_m = 0 ∧
      poseView poseIx (coreInit m).vars = some ⟨p_pos - q.toRot *ᵥ p_ip, q, scale, u, p_ic,
        ((q.mul u).mul q_vc.conj).conj, p_pos - q.toRot *ᵥ p_ip -
          (scale⁻¹ • (((q.mul u).mul q_vc.conj).conj.conj.toRot *ᵥ p_vc) - q.toRot *ᵥ p_ic)⟩ ∧
      sensorPos 10 (coreInit m).vars =
        some ((p_pos - q.toRot *ᵥ p_ip) + q.conj.toRotᵀ *ᵥ p_ip) ∧
      EKFState.v (coreInit m).vars = 0 ∧ EKFState.b_w (coreInit m).vars = 0 ∧
      EKFState.b_a (coreInit m).vars = 0 := by
  unfold positionPoseInit at h
  simp only [Option.bind_eq_bind] at h
  obtain ⟨u, hu, h⟩ := Option.bind_eq_some_iff.1 h
  obtain ⟨q, hq, h⟩ := Option.bind_eq_some_iff.1 h
  split at h
  · cases h
  · rename_i hs
    rw [Option.some.injEq] at h
    subst h
    exact ⟨u, q, hu, hq, hs, rfl, rfl, rfl, rfl, rfl, rfl, rfl⟩

/-- **C43, position-pose filter, partial.**  The position residual and the position and attitude
rows of the pose residual are zero; the seventh row of the pose residual is the yaw of the vision
frame, whatever it is. -/
theorem C43_position_pose_partial (scale time yaw : ℝ) (p_pos p_vc p_ic p_ip : V3 ℝ)
    (q_vc q_ic : Quat ℝ) (hs : scale ≠ 0) (hz : q_vc.normSq = 1) (hic : q_ic.normSq ≠ 0) :
    ∃ m v, positionPoseInit scale yaw p_pos p_vc q_vc p_ic q_ic p_ip time = some m ∧
      positionResidual 10 p_pos (coreInit m).vars = some 0 ∧
      poseView poseIx (coreInit m).vars = some v ∧
      v.residual p_vc q_vc = (yawResidual v.qwv).map (rows7 0 0) := by
  obtain ⟨u, hu, hu1, -⟩ := Quat.normalize_pos (normSq_pos_of_ne hic)
  obtain ⟨q, hq⟩ : ∃ q, yawQuat yaw = some q := ⟨_, yawQuat_eq yaw⟩
  have hm : ∃ m, positionPoseInit scale yaw p_pos p_vc q_vc p_ic q_ic p_ip time = some m := by
    unfold positionPoseInit
    simp only [hu, Option.bind_eq_bind, Option.bind_some, hq, if_neg hs]
    exact ⟨_, rfl⟩
  obtain ⟨m, hm⟩ := hm
  obtain ⟨u', q', hu', hq', -, -, -, hv, hsp, -⟩ := positionPoseInit_view hm
  rw [hu, Option.some.injEq] at hu'
  subst hu'
  rw [hq, Option.some.injEq] at hq'
  subst hq'
  have hq1 := yawQuat_unit hq
  refine ⟨m, _, hm, ?_, hv, ?_⟩
  · rw [positionResidual, hsp, conj_toRot_transpose, sub_add_cancel]
    simp
  · have hw1 : ((q.mul u).mul q_vc.conj).conj.normSq = 1 := by
      rw [Quat.normSq_conj, Quat.normSq_mul, Quat.normSq_mul, Quat.normSq_conj, hq1, hu1, hz]
      ring
    have hpos : (⟨p_pos - q.toRot *ᵥ p_ip, q, scale, u, p_ic,
        ((q.mul u).mul q_vc.conj).conj, p_pos - q.toRot *ᵥ p_ip -
          (scale⁻¹ • (((q.mul u).mul q_vc.conj).conj.conj.toRot *ᵥ p_vc) - q.toRot *ᵥ p_ic)⟩ :
          PoseView ℝ).predPos = p_vc := by
      simp only [PoseView.predPos, conj_toRot_transpose]
      generalize ((q.mul u).mul q_vc.conj).conj = w at hw1
      generalize p_pos - q.toRot *ᵥ p_ip = a
      rw [show (-(a - (scale⁻¹ • (w.conj.toRot *ᵥ p_vc) - q.toRot *ᵥ p_ic)) + a + q.toRot *ᵥ p_ic :
        V3 ℝ) = scale⁻¹ • (w.conj.toRot *ᵥ p_vc) by abel, toRot_conj, mulVec_smul, mulVec_mulVec,
        toRot_orthogonal w hw1, one_mulVec, smul_smul, mul_inv_cancel₀ hs, one_smul]
    have hatt : (((((q.mul u).mul q_vc.conj).conj.mul q).mul u).conj.mul q_vc)
        = (⟨1, 0, 0, 0⟩ : Quat ℝ) := by
      have : ((((q.mul u).mul q_vc.conj).conj.mul q).mul u).conj.mul q_vc
        = (⟨q.normSq * u.normSq * q_vc.normSq, 0, 0, 0⟩ : Quat ℝ) := by
        simp only [Quat.mul, Quat.conj, Quat.normSq, Quat.mk.injEq]
        refine ⟨?_, ?_, ?_, ?_⟩ <;> ring
      rw [this, hq1, hu1, hz]; simp
    rw [PoseView.residual, hpos, PoseView.predAtt, hatt, attResidual_real one_ne_zero, sub_self]
    simp only [Option.bind_eq_bind, Option.bind_some]
    cases yawResidual ((q.mul u).mul q_vc.conj).conj <;> rfl

/-- The claim of C43 for the pose sensor of the position-pose filter. -/
def positionPoseInitClaim : Prop :=
  ∀ (scale time yaw : ℝ) (p_pos p_vc p_ic p_ip : V3 ℝ) (q_vc q_ic : Quat ℝ), scale ≠ 0 →
    q_vc.normSq = 1 → q_ic.normSq = 1 →
    ∃ m v, positionPoseInit scale yaw p_pos p_vc q_vc p_ic q_ic p_ip time = some m ∧
      poseView poseIx (coreInit m).vars = some v ∧ v.residual p_vc q_vc = some 0

/-- **C43 is violated by the position-pose filter**: a vision frame turned by about 106 degrees
about the vertical. -/
theorem C43_position_pose_violated : ¬ positionPoseInitClaim := by
  intro h
  obtain ⟨m, v, hm, hv, hr⟩ := h 1 0 0 0 0 0 0 ⟨3 / 5, 0, 0, 4 / 5⟩ Quat.one one_ne_zero
    (by norm_num [Quat.normSq]) (by simp [Quat.normSq, Quat.one])
  obtain ⟨m', v', hm', -, hv', hr'⟩ := C43_position_pose_partial 1 0 0 0 0 0 0
    ⟨3 / 5, 0, 0, 4 / 5⟩ Quat.one one_ne_zero (by norm_num [Quat.normSq])
    (by simp [Quat.normSq, Quat.one])
  rw [hm, Option.some.injEq] at hm'
  subst hm'
  rw [hv, Option.some.injEq] at hv'
  subst hv'
  obtain ⟨u, q, hu, hq, -, -, -, hview, -⟩ := positionPoseInit_view hm
  rw [hv, Option.some.injEq] at hview
  rw [Quat.normalize_unit (by simp [Quat.normSq, Quat.one]), Option.some.injEq] at hu
  rw [yawQuat_eq, Option.some.injEq] at hq
  have hw : v.qwv = ⟨3 / 5, 0, 0, 4 / 5⟩ := by
    rw [hview, ← hu, ← hq]
    simp [Quat.mul, Quat.conj, Quat.one]
  rw [hr, hw, yawResidual, if_neg (by norm_num)] at hr'
  have := congrFun (Option.some.inj hr') 6
  simp [rows7] at this
  norm_num at this

end MSF
