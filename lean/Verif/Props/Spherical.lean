import Verif.Lemmas.Spherical
import Verif.Props.Jacobian

/-!
# C44 and C48 for the spherical position sensor
-/

namespace MSF

open Matrix

section
variable {aux : List VarDesc}

/-! ### C48: the predicted angles -/

/-- `(r, θ, φ)` are spherical coordinates of the point `c`: radius, inclination from the z axis and
azimuth. -/
def IsSpherical (c : V3 ℝ) (r θ φ : ℝ) : Prop :=
  c 0 = r * Real.sin θ * Real.cos φ ∧ c 1 = r * Real.sin θ * Real.sin φ ∧ c 2 = r * Real.cos θ ∧
    0 ≤ r ∧ θ ∈ Set.Icc 0 Real.pi ∧ φ ∈ Set.Ioc (-Real.pi) Real.pi

theorem radius_eq_of_spherical {c : V3 ℝ} {r θ φ : ℝ} (h : IsSpherical c r θ φ) : radius c = r := by
  obtain ⟨h0, h1, h2, hr, -, -⟩ := h
  rw [radius, h0, h1, h2]
  have : r * Real.sin θ * Real.cos φ * (r * Real.sin θ * Real.cos φ) +
      r * Real.sin θ * Real.sin φ * (r * Real.sin θ * Real.sin φ) +
      r * Real.cos θ * (r * Real.cos θ) = r ^ 2 := by
    have a := Real.sin_sq_add_cos_sq φ
    have b := Real.sin_sq_add_cos_sq θ
    have e : r * Real.sin θ * Real.cos φ * (r * Real.sin θ * Real.cos φ) +
      r * Real.sin θ * Real.sin φ * (r * Real.sin θ * Real.sin φ) +
      r * Real.cos θ * (r * Real.cos θ) =
      r ^ 2 * (Real.sin θ ^ 2 * (Real.sin φ ^ 2 + Real.cos φ ^ 2) + Real.cos θ ^ 2) := by ring
    rw [e, a, mul_one, b, mul_one]
  rw [this, Real.sqrt_sq hr]

theorem isSpherical_arg {c : V3 ℝ} (h : c 0 * c 0 + c 1 * c 1 ≠ 0) :
    IsSpherical c (radius c) (Real.arccos (c 2 / radius c)) (Complex.arg ⟨c 0, c 1⟩) := by
  have hr := radius_pos (ne_zero_of_rho h)
  have hb := cosine_bounds h
  have hs : radius c * Real.sin (Real.arccos (c 2 / radius c)) =
      Real.sqrt (c 0 * c 0 + c 1 * c 1) := by
    rw [Real.sin_arccos, sine_eq h, mul_div_cancel₀ _ hr.ne']
  have hn : ‖(⟨c 0, c 1⟩ : ℂ)‖ = Real.sqrt (c 0 * c 0 + c 1 * c 1) := by
    rw [Complex.norm_def, Complex.normSq_mk]
  refine ⟨?_, ?_, ?_, hr.le, ⟨Real.arccos_nonneg _, Real.arccos_le_pi _⟩,
    ⟨Complex.neg_pi_lt_arg _, Complex.arg_le_pi _⟩⟩
  · rw [hs, ← hn, Complex.norm_mul_cos_arg]
  · rw [hs, ← hn, Complex.norm_mul_sin_arg]
  · rw [Real.cos_arccos hb.1.le hb.2.le, mul_div_cancel₀ _ hr.ne']

/-- The full claim: whenever the predicted sensor position is not straight above or below, the
residual is the measured minus the true inclination and azimuth, the latter wrapped to `[-π, π]`. -/
def bearingClaim : Prop :=
  ∀ (aux : List VarDesc) (pip : Nat) (s : Vars ℝ (coreDef aux)) (c : V3 ℝ) (z : Fin 2 → ℝ),
    sensorPos pip s = some c → c 0 * c 0 + c 1 * c 1 ≠ 0 →
    ∃ R θ φ r, IsSpherical c R θ φ ∧ angleResidual pip z s = some r ∧ r 0 = z 0 - θ ∧
      |r 1| ≤ Real.pi ∧ ∃ k : ℤ, r 1 = z 1 - φ + k * (2 * Real.pi)

/-- **C48, partial.**  Every predicted position off the z axis and off the negative x axis, every
measured azimuth of absolute value at most 2π. -/
theorem C48_bearing_partial (pip : Nat) (s : Vars ℝ (coreDef aux)) (c : V3 ℝ) (z : Fin 2 → ℝ)
    (hc : sensorPos pip s = some c) (h : c 0 * c 0 + c 1 * c 1 ≠ 0)
    (hneg : ¬ (c 0 < 0 ∧ c 1 = 0)) (hz : |z 1| ≤ 2 * Real.pi) :
    ∃ R θ φ r, IsSpherical c R θ φ ∧ angleResidual pip z s = some r ∧ r 0 = z 0 - θ ∧
      |r 1| ≤ Real.pi ∧ ∃ k : ℤ, r 1 = z 1 - φ + k * (2 * Real.pi) := by
  have hr := radius_pos (ne_zero_of_rho h)
  have hp := Real.pi_pos
  have l1 := Complex.neg_pi_lt_arg ⟨c 0, c 1⟩
  have l2 := Complex.arg_le_pi ⟨c 0, c 1⟩
  rw [abs_le] at hz
  refine ⟨_, _, _, ![_, wrapOnce (z 1 - Complex.arg ⟨c 0, c 1⟩)], isSpherical_arg h, ?_, rfl, ?_⟩
  · have ha := azimuth_eq_arg (x := c 0) (y := c 1)
      (by rintro ⟨a, b⟩; apply h; rw [a, b]; ring) hneg
    have hi : inclination c = some (Real.arccos (c 2 / radius c)) := if_neg hr.ne'
    rw [angleResidual, hc, Option.bind_eq_bind, Option.bind_some, hi, ha]
    rfl
  · generalize Complex.arg ⟨c 0, c 1⟩ = φ at *
    have e : (![z 0 - Real.arccos (c 2 / radius c), wrapOnce (z 1 - φ)] : Fin 2 → ℝ) 1 =
      wrapOnce (z 1 - φ) := rfl
    rw [e]
    simp only [wrapOnce]
    constructor
    · rw [abs_le]
      split_ifs <;> constructor <;> linarith
    · split_ifs
      · linarith
      · exact ⟨1, by push_cast; ring⟩
      · exact ⟨-1, by push_cast; ring⟩
      · exact ⟨0, by push_cast; ring⟩

theorem posState_sensor (x : V3 ℝ) (a : Quat ℝ) (l : V3 ℝ) :
    sensorPos 5 (posState x a l) = some (x + a.toRot *ᵥ l) := by
  obtain ⟨h1, h2, h3⟩ := posState_reads x a l
  rw [sensorPos, h1, h2, h3, toRot_conj, Matrix.transpose_transpose]
  rfl

/-- The hypotheses hold for a target behind and to the left. -/
example : ∃ R θ φ r, IsSpherical ![-1, 1, 0] R θ φ ∧
    angleResidual 5 ![1, -2] (posState ![-1, 1, 0] Quat.one 0) = some r ∧ r 0 = 1 - θ ∧
    |r 1| ≤ Real.pi ∧ ∃ k : ℤ, r 1 = -2 - φ + k * (2 * Real.pi) := by
  have hc : sensorPos 5 (posState ![-1, 1, 0] Quat.one 0) = some ![-1, 1, 0] := by
    rw [posState_sensor, Matrix.mulVec_zero, add_zero]
  refine C48_bearing_partial 5 (posState ![-1, 1, 0] Quat.one 0) ![-1, 1, 0] ![1, -2] hc (by simp) (by simp) ?_
  have := Real.two_le_pi
  simp only [Matrix.cons_val_one, Matrix.cons_val_fin_one, abs_neg]
  rw [abs_of_pos] <;> linarith

/-- **C48 is violated behind the origin.**  A target exactly on the negative x axis has azimuth π,
but the prediction is 0: measuring the true angles gives the residual π instead of 0. -/
theorem C48_behind_violated :
    (∀ R θ φ, IsSpherical ![-1, 0, 0] R θ φ → φ = Real.pi) ∧
    ∃ r, angleResidual 5 ![Real.pi / 2, Real.pi] (posState ![-1, 0, 0] Quat.one 0) = some r ∧
      r 1 = Real.pi := by
  have hp := Real.pi_pos
  constructor
  · rintro R θ φ h
    have hR := radius_eq_of_spherical h
    obtain ⟨h0, h1, h2, hr, hθ, hφ⟩ := h
    simp only [Matrix.cons_val_zero, Matrix.cons_val_one] at h0 h1
    have hs : R * Real.sin θ ≠ 0 := by
      intro hz
      rw [hz, zero_mul] at h0
      linarith
    have hsφ : Real.sin φ = 0 := by
      rcases mul_eq_zero.1 h1.symm with h | h
      · exact absurd h hs
      · exact h
    have hsθ := Real.sin_nonneg_of_nonneg_of_le_pi hθ.1 hθ.2
    rcases lt_trichotomy φ 0 with h | h | h
    · have := Real.sin_neg_of_neg_of_neg_pi_lt h hφ.1
      linarith
    · subst h
      rw [Real.cos_zero, mul_one] at h0
      have : 0 ≤ R * Real.sin θ := mul_nonneg hr hsθ
      linarith
    · by_contra hne
      have := Real.sin_pos_of_pos_of_lt_pi h (lt_of_le_of_ne hφ.2 hne)
      linarith
  · refine ⟨![Real.pi / 2 - Real.arccos (0 / radius ![-1, 0, 0]), wrapOnce (Real.pi - 0)], ?_, ?_⟩
    · rw [angleResidual, posState_sensor, Matrix.mulVec_zero, add_zero]
      have hr : radius ![-1, 0, 0] ≠ 0 := (radius_pos (by
        intro h
        have := congrFun h 0
        simp at this)).ne'
      have hi : inclination ![-1, 0, 0] = some (Real.arccos (0 / radius ![-1, 0, 0])) := by
        rw [inclination, if_neg hr]
        rfl
      have ha : azimuth (-1) 0 = some 0 := by
        rw [azimuth, atanQuot, if_neg (by norm_num), zero_div, Real.arctan_zero]
        simp
      rw [Option.bind_eq_bind, Option.bind_some, hi]
      have : azimuth ((![-1, 0, 0] : V3 ℝ) 0) ((![-1, 0, 0] : V3 ℝ) 1) = some 0 := ha
      rw [this]
      rfl
    · change wrapOnce (Real.pi - 0) = Real.pi
      rw [sub_zero]
      simp only [wrapOnce]
      split_ifs <;> linarith

/-- **C48: the residual is wrapped once only.**  A measured azimuth of 5π in front of the sensor
leaves a residual of 3π. -/
theorem C48_wrap_violated :
    ∃ r, angleResidual 5 ![Real.pi / 2, 5 * Real.pi] (posState ![1, 0, 0] Quat.one 0) = some r ∧
      r 1 = 3 * Real.pi := by
  have hp := Real.pi_pos
  have hr : radius ![1, 0, 0] ≠ 0 := (radius_pos (by
    intro h
    have := congrFun h 0
    simp at this)).ne'
  have hi : inclination ![1, 0, 0] = some (Real.arccos (0 / radius ![1, 0, 0])) := by
    rw [inclination, if_neg hr]
    rfl
  have ha : azimuth ((![1, 0, 0] : V3 ℝ) 0) ((![1, 0, 0] : V3 ℝ) 1) = some 0 := by
    change azimuth 1 0 = some 0
    rw [azimuth, atanQuot, if_neg (by norm_num), zero_div, Real.arctan_zero]
    simp
  refine ⟨![Real.pi / 2 - Real.arccos (0 / radius ![1, 0, 0]), wrapOnce (5 * Real.pi - 0)], ?_, ?_⟩
  · rw [angleResidual, posState_sensor, Matrix.mulVec_zero, add_zero, Option.bind_eq_bind,
      Option.bind_some, hi, ha]
    rfl
  · change wrapOnce (5 * Real.pi - 0) = 3 * Real.pi
    rw [sub_zero]
    simp only [wrapOnce]
    split_ifs <;> linarith

/-- **C48 as stated is violated.** -/
theorem C48_violated : ¬ bearingClaim := by
  intro h
  obtain ⟨r, hr, h1⟩ := C48_wrap_violated
  obtain ⟨R, θ, φ, r', -, hr', -, hle, -⟩ := h positionAux 5 (posState ![1, 0, 0] Quat.one 0)
    ![1, 0, 0] ![Real.pi / 2, 5 * Real.pi]
    (by rw [posState_sensor, Matrix.mulVec_zero, add_zero]) (by simp)
  rw [hr, Option.some.injEq] at hr'
  subst hr'
  have hp := Real.pi_pos
  rw [h1, abs_of_pos (by linarith)] at hle
  linarith

/-- Straight above the sensor the azimuth is `0 / 0`. -/
theorem C48_zenith_undefined (z : Fin 2 → ℝ) :
    angleResidual 5 z (posState ![0, 0, 1] Quat.one 0) = none := by
  have ha : azimuth ((![0, 0, 1] : V3 ℝ) 0) ((![0, 0, 1] : V3 ℝ) 1) = none := by
    change azimuth 0 0 = none
    rw [azimuth, atanQuot, if_pos rfl, if_pos rfl]
    rfl
  rw [angleResidual, posState_sensor, Matrix.mulVec_zero, add_zero, Option.bind_eq_bind,
    Option.bind_some, ha]
  cases inclination ![0, 0, 1] <;> rfl

/-! ### C44: distance -/

/-- The full claim for distance measurements. -/
def distanceJacobian : Prop :=
  ∀ (aux : List VarDesc) (pip : Nat) (s : Vars ℝ (coreDef aux)) (l c : V3 ℝ) (z : ℝ),
    (∀ i (hi : i < (coreDef aux).length), (coreDef aux)[i].name = i) → PlainVars (coreDef aux) →
    UnitQuats s → getVec s pip 3 = some l → pip ≠ 0 → EKFState.p s ≠ 0 →
    sensorPos pip s = some c → c ≠ 0 →
    ∃ H, distanceH pip s = some H ∧ ∀ δ, DerivAlong (distanceResidual pip z) s δ (-(H *ᵥ δ))

theorem skew_zero' : skew (0 : V3 ℝ) = 0 := by
  ext i j
  fin_cases i <;> fin_cases j <;> simp [skew]

theorem rot_symm_seg {pip : Nat} {s : Vars ℝ (coreDef aux)} {l : V3 ℝ}
    {δ : Fin (total errLen (coreDef aux)) → ℝ}
    (hn : ∀ i (hi : i < (coreDef aux).length), (coreDef aux)[i].name = i)
    (hl : getVec s pip 3 = some l)
    (hδ : ZeroAt δ pip ∨ (EKFState.q s).toRotᵀ = (EKFState.q s).toRot) :
    (EKFState.q s).toRotᵀ *ᵥ segOf δ pip 3 = (EKFState.q s).toRot *ᵥ segOf δ pip 3 := by
  rcases hδ with hδ | hδ
  · obtain ⟨hi, -⟩ := getVec_kind s hl
    rw [hδ.segOf (indexingErrors_eq_zero.2 hn) hi 3 (errLen_vec hl hi), Matrix.mulVec_zero,
      Matrix.mulVec_zero]
  · rw [hδ]

theorem distance_deriv (pip : Nat) (s : Vars ℝ (coreDef aux)) (l c : V3 ℝ) (z : ℝ)
    (hn : ∀ i (hi : i < (coreDef aux).length), (coreDef aux)[i].name = i)
    (hp : PlainVars (coreDef aux)) (hu : UnitQuats s) (hl : getVec s pip 3 = some l)
    (hc : sensorPos pip s = some c) (h : c ≠ 0) (δ : Fin (total errLen (coreDef aux)) → ℝ) :
    DerivAlong (distanceResidual pip z) s δ fun _ => -((c ⬝ᵥ (segOf δ 0 3 +
      ((EKFState.q s).toRot * skew (segOf δ 2 3)) *ᵥ l +
      (EKFState.q s).toRot *ᵥ segOf δ pip 3)) / radius c) := by
  obtain ⟨s0, e0, hv, hq⟩ := correct_zero s hn hp hu
  refine (sensorPos_deriv pip s l hn hp hu hl δ).map (x0 := c)
    ⟨s0, e0, by rw [sensorPos_reads hl hv hq, hc]⟩ (fun c => some fun _ => z - radius c)
    (fun c _ => z - radius c) (Filter.Eventually.of_forall fun _ => rfl) fun f hf0 hd => ?_
  rw [hasDerivAt_pi]
  intro _
  have := (radius_deriv hd (by rw [hf0]; exact h)).const_sub z
  rw [hf0] at this
  refine this.congr_deriv ?_
  simp only [dotProduct, Fin.sum_univ_three]

/-- **C44, distance, partial.**  For a sensor at the IMU (`p_ip = 0`) the matrix is the derivative
along every direction, provided `p_ip` is not varied or the rotation matrix is symmetric.  Missing:
every other offset; the code takes the position of the IMU for that of the sensor and the transposed
rotation for the block of `p_ip`. -/
theorem C44_distance_partial (pip : Nat) (s : Vars ℝ (coreDef aux)) (z : ℝ)
    (hn : ∀ i (hi : i < (coreDef aux).length), (coreDef aux)[i].name = i)
    (hp : PlainVars (coreDef aux)) (hu : UnitQuats s) (hl : getVec s pip 3 = some 0)
    (h0 : pip ≠ 0) (h : EKFState.p s ≠ 0) :
    ∃ H, distanceH pip s = some H ∧
      ∀ δ, ZeroAt δ pip ∨ (EKFState.q s).toRotᵀ = (EKFState.q s).toRot →
        DerivAlong (distanceResidual pip z) s δ (-(H *ᵥ δ)) := by
  obtain ⟨H, e, hm⟩ := distanceH_mulVec pip s 0 hn hl h0 h
  refine ⟨H, e, fun δ hδ => ?_⟩
  have hc : sensorPos pip s = some (EKFState.p s) := by
    rw [sensorPos, hl, Option.bind_eq_bind, Option.bind_some, Matrix.mulVec_zero, add_zero]
  have := distance_deriv pip s 0 (EKFState.p s) z hn hp hu hl hc h δ
  convert this using 1
  funext i
  have ek : (EKFState.q s).toRotᵀ *ᵥ segOf δ pip 3 = (EKFState.q s).toRot *ᵥ segOf δ pip 3 :=
    rot_symm_seg hn hl hδ
  rw [Pi.neg_apply, hm, distanceHq_zero, distanceHpip_eq, ← Matrix.mulVec_mulVec, ek,
    Matrix.zero_mulVec, add_zero, ← Matrix.mulVec_add, Matrix.mulVec_zero, add_zero]
  simp only [distanceHp, Matrix.mulVec, dotProduct, Fin.sum_univ_three, Matrix.of_apply, radius]
  ring

/-- The hypotheses hold for a sensor at the IMU, and for the identity attitude every direction is
covered. -/
example : ∃ H, distanceH 5 (posState ![1, 2, 2] Quat.one 0) = some H ∧
    DerivAlong (distanceResidual 5 4) (posState ![1, 2, 2] Quat.one 0) (fun _ => 1)
      (-(H *ᵥ fun _ => 1)) := by
  obtain ⟨H, e, h⟩ := C44_distance_partial 5 (posState ![1, 2, 2] Quat.one 0) 4 positionDef_ok.1
    positionDef_ok.2 (posState_unit _ _ _ (by simp [Quat.one, Quat.normSq])) rfl (by decide)
    (by rw [(posState_reads _ _ _).2.1]; intro h; simpa using congrFun h 0)
  refine ⟨H, e, h _ (Or.inr ?_)⟩
  rw [(posState_reads _ _ _).2.2, one_toRot, Matrix.transpose_one]

/-- A unit error at one entry of a variable of the position filter. -/
theorem seg_unit_pos (i k : Nat) (hk : offset errLen (coreDef positionAux) i = k) (j : Fin 3)
    (hj : k + j < total errLen (coreDef positionAux)) :
    segOf (D := coreDef positionAux) (unitErr (k + j)) i 3 = Pi.single j 1 := by
  funext i'
  have hj' := j.2
  have hi' := i'.2
  simp only [segOf, segD, hk]
  by_cases hlt : k + i'.val < total errLen (coreDef positionAux)
  · rw [dif_pos hlt]
    by_cases he : i' = j
    · subst he; simp [unitErr]
    · rw [Pi.single_eq_of_ne he]
      have : i'.val ≠ j.val := fun h => he (Fin.ext h)
      simp only [unitErr]
      rw [if_neg (by omega)]
  · rw [dif_neg hlt]
    have he : i' ≠ j := by rintro rfl; exact hlt hj
    rw [Pi.single_eq_of_ne he]

/-- The entries of the error state away from the variable are zero. -/
theorem seg_unit_pos_ne (i k n : Nat) (hk : offset errLen (coreDef positionAux) i = k)
    (hn : n < k ∨ k + 3 ≤ n) : segOf (D := coreDef positionAux) (unitErr n) i 3 = 0 := by
  funext i'
  have hi' := i'.2
  simp only [segOf, segD, hk]
  split
  · simp only [unitErr]
    rw [if_neg (by omega)]; rfl
  · rfl

/-- **C44 is violated for distances with an offset.**  IMU at (1,0,0), sensor at (1,1,0): moving
along y changes the distance, but the entry of `H` is zero. -/
theorem C44_distance_offset_violated :
    ∃ H, distanceH 5 (posState ![1, 0, 0] Quat.one ![0, 1, 0]) = some H ∧ ∃ d,
      DerivAlong (distanceResidual 5 0) (posState ![1, 0, 0] Quat.one ![0, 1, 0]) (unitErr 1) d ∧
      d ≠ -(H *ᵥ unitErr 1) := by
  set s := posState ![1, 0, 0] Quat.one ![0, 1, 0] with hs
  obtain ⟨hl, hp, hq⟩ := posState_reads ![1, 0, 0] Quat.one ![0, 1, 0]
  rw [← hs] at hl hp hq
  have hc : sensorPos 5 s = some ![1, 1, 0] := by
    rw [hs, posState_sensor, one_toRot, Matrix.one_mulVec]
    congr 1; funext i; fin_cases i <;> simp
  have hne : (![1, 1, 0] : V3 ℝ) ≠ 0 := by intro h; simpa using congrFun h 0
  have e0 : segOf (D := coreDef positionAux) (unitErr 1) 0 3 = Pi.single 1 1 :=
    seg_unit_pos 0 0 (by decide) 1 (by decide)
  have e2 : segOf (D := coreDef positionAux) (unitErr 1) 2 3 = 0 :=
    seg_unit_pos_ne 2 6 1 (by decide) (by omega)
  have e5 : segOf (D := coreDef positionAux) (unitErr 1) 5 3 = 0 :=
    seg_unit_pos_ne 5 15 1 (by decide) (by omega)
  have hd := distance_deriv 5 s ![0, 1, 0] ![1, 1, 0] 0 positionDef_ok.1 positionDef_ok.2
    (posState_unit _ _ _ (by simp [Quat.one, Quat.normSq])) hl hc hne (unitErr 1)
  obtain ⟨H, e, hm⟩ := distanceH_mulVec 5 s _ positionDef_ok.1 hl (by decide)
    (by rw [hp]; intro h; simpa using congrFun h 0)
  refine ⟨H, e, _, hd, fun h => ?_⟩
  rw [hm, e0, e2, e5, hp] at h
  have := congrFun h 0
  simp [distanceHp, skew_zero'] at this
  exact (radius_pos hne).ne' this

/-- **C44 for distances is violated.** -/
theorem C44_distance_violated : ¬ distanceJacobian := by
  intro hcl
  obtain ⟨H', e', d, hd, hne⟩ := C44_distance_offset_violated
  obtain ⟨H, e, h⟩ := hcl positionAux 5 (posState ![1, 0, 0] Quat.one ![0, 1, 0]) ![0, 1, 0]
    ![1, 1, 0] 0 positionDef_ok.1 positionDef_ok.2
    (posState_unit _ _ _ (by simp [Quat.one, Quat.normSq])) rfl (by decide)
    (by rw [(posState_reads _ _ _).2.1]; intro h; simpa using congrFun h 0)
    (by
      rw [posState_sensor, one_toRot, Matrix.one_mulVec]
      congr 1; funext i; fin_cases i <;> simp)
    (by intro h; simpa using congrFun h 0)
  rw [e, Option.some.injEq] at e'
  subst e'
  exact hne (hd.unique (h (unitErr 1)))

/-- The block of `p_ip` uses the transposed rotation: at (1,0,0) with attitude turned about z,
moving the sensor along the body's y axis changes the distance by -24/25, but `H` says 24/25. -/
theorem C44_distance_rotation_violated :
    ∃ H, distanceH 5 (posState ![1, 0, 0] ⟨3 / 5, 0, 0, 4 / 5⟩ 0) = some H ∧ ∃ d,
      DerivAlong (distanceResidual 5 0) (posState ![1, 0, 0] ⟨3 / 5, 0, 0, 4 / 5⟩ 0) (unitErr 16) d ∧
      -d 0 = -24 / 25 ∧ (H *ᵥ unitErr 16) 0 = 24 / 25 := by
  set s := posState ![1, 0, 0] ⟨3 / 5, 0, 0, 4 / 5⟩ 0 with hs
  obtain ⟨hl, hp, hq⟩ := posState_reads ![1, 0, 0] ⟨3 / 5, 0, 0, 4 / 5⟩ 0
  rw [← hs] at hl hp hq
  have hc : sensorPos 5 s = some ![1, 0, 0] := by
    rw [hs, posState_sensor, Matrix.mulVec_zero, add_zero]
  have hne : (![1, 0, 0] : V3 ℝ) ≠ 0 := by intro h; simpa using congrFun h 0
  have hr : radius ![1, 0, 0] = 1 := by simp [radius]
  have e0 : segOf (D := coreDef positionAux) (unitErr 16) 0 3 = 0 :=
    seg_unit_pos_ne 0 0 16 (by decide) (by omega)
  have e2 : segOf (D := coreDef positionAux) (unitErr 16) 2 3 = 0 :=
    seg_unit_pos_ne 2 6 16 (by decide) (by omega)
  have e5 : segOf (D := coreDef positionAux) (unitErr 16) 5 3 = Pi.single 1 1 :=
    seg_unit_pos 5 15 (by decide) 1 (by decide)
  have hd := distance_deriv 5 s 0 ![1, 0, 0] 0 positionDef_ok.1 positionDef_ok.2
    (posState_unit _ _ _ (by norm_num [Quat.normSq])) hl hc hne (unitErr 16)
  obtain ⟨H, e, hm⟩ := distanceH_mulVec 5 s _ positionDef_ok.1 hl (by decide)
    (by rw [hp]; exact hne)
  refine ⟨H, e, _, hd, ?_, ?_⟩
  · rw [e0, e2, e5, hr, hq]
    simp only [Matrix.mulVec_zero, zero_add, dotProduct, Fin.sum_univ_three, Matrix.mulVec_single_one,
      Matrix.col_apply, Quat.toRot]
    simp
    norm_num
  · rw [hm, e0, e2, e5, hp, hq]
    simp [distanceHpip, Quat.toRot]
    norm_num

/-! ### C44: angles -/

theorem angle_deriv (pip : Nat) (s : Vars ℝ (coreDef aux)) (l c : V3 ℝ) (z : Fin 2 → ℝ)
    (hn : ∀ i (hi : i < (coreDef aux).length), (coreDef aux)[i].name = i)
    (hp : PlainVars (coreDef aux)) (hu : UnitQuats s) (hl : getVec s pip 3 = some l)
    (hc : sensorPos pip s = some c) (h : c 0 * c 0 + c 1 * c 1 ≠ 0)
    (hneg : ¬ (c 0 < 0 ∧ c 1 = 0))
    (hz1 : z 1 - Complex.arg ⟨c 0, c 1⟩ ≠ Real.pi) (hz2 : z 1 - Complex.arg ⟨c 0, c 1⟩ ≠ -Real.pi)
    (δ : Fin (total errLen (coreDef aux)) → ℝ) :
    DerivAlong (angleResidual pip z) s δ (-(angleHp c *ᵥ (segOf δ 0 3 +
      ((EKFState.q s).toRot * skew (segOf δ 2 3)) *ᵥ l +
      (EKFState.q s).toRot *ᵥ segOf δ pip 3))) := by
  obtain ⟨s0, e0, hv, hq⟩ := correct_zero s hn hp hu
  obtain ⟨k, hk⟩ := wrapOnce_local hz1 hz2
  have h00 : ¬ (c 0 = 0 ∧ c 1 = 0) := by rintro ⟨a, b⟩; apply h; rw [a, b]; ring
  have hslit : (⟨c 0, c 1⟩ : ℂ) ∈ Complex.slitPlane := slit_iff.2 ⟨h00, hneg⟩
  have hcont : Continuous fun x : V3 ℝ => (⟨x 0, x 1⟩ : ℂ) := by
    have e : (fun x : V3 ℝ => (⟨x 0, x 1⟩ : ℂ)) = fun x : V3 ℝ => (x 0 : ℂ) + x 1 * Complex.I := by
      funext x; apply Complex.ext <;> simp
    rw [e]
    fun_prop
  have hs : ∀ᶠ x : V3 ℝ in nhds c, (⟨x 0, x 1⟩ : ℂ) ∈ Complex.slitPlane :=
    hcont.continuousAt.eventually_mem (Complex.isOpen_slitPlane.mem_nhds hslit)
  have ha : ContinuousAt (fun x : V3 ℝ => z 1 - Complex.arg ⟨x 0, x 1⟩) c :=
    continuousAt_const.sub (ContinuousAt.comp (g := Complex.arg) (Complex.continuousAt_arg hslit)
      hcont.continuousAt)
  refine (sensorPos_deriv pip s l hn hp hu hl δ).map (x0 := c)
    ⟨s0, e0, by rw [sensorPos_reads hl hv hq, hc]⟩
    (fun c => do
      let θ ← inclination c
      let φ ← azimuth (c 0) (c 1)
      some ![z 0 - θ, wrapOnce (z 1 - φ)])
    (fun c => ![z 0 - Real.arccos (c 2 / radius c), z 1 - Complex.arg ⟨c 0, c 1⟩ + k])
    ?_ fun f hf0 hd => ?_
  · filter_upwards [hs, ha.eventually hk] with x hx hw
    have hx' := slit_iff.1 hx
    have hxne : x ≠ 0 := by rintro rfl; exact hx'.1 ⟨rfl, rfl⟩
    have hi : inclination x = some (Real.arccos (x 2 / radius x)) := if_neg (radius_pos hxne).ne'
    rw [hi, azimuth_eq_arg hx'.1 hx'.2, Option.bind_eq_bind, Option.bind_some, Option.bind_some, hw]
  · rw [hasDerivAt_pi]
    have hdc := hasDerivAt_pi.1 hd
    rw [angleHp_mulVec _ _ h]
    intro i
    fin_cases i
    · have := (inclination_deriv hd (by rw [hf0]; exact h)).const_sub (z 0)
      rw [hf0] at this
      exact this
    · have := ((arg_deriv (hdc 0) (hdc 1) (by rw [hf0]; exact hslit)).const_sub (z 1)).add_const k
      rw [hf0] at this
      exact this

/-- The full claim for angle measurements, at positions where the residual is smooth. -/
def angleJacobian : Prop :=
  ∀ (aux : List VarDesc) (pip : Nat) (s : Vars ℝ (coreDef aux)) (l c : V3 ℝ) (z : Fin 2 → ℝ),
    (∀ i (hi : i < (coreDef aux).length), (coreDef aux)[i].name = i) → PlainVars (coreDef aux) →
    UnitQuats s → getVec s pip 3 = some l → pip ≠ 0 →
    EKFState.p s 0 * EKFState.p s 0 + EKFState.p s 1 * EKFState.p s 1 ≠ 0 →
    sensorPos pip s = some c → c 0 * c 0 + c 1 * c 1 ≠ 0 → ¬ (c 0 < 0 ∧ c 1 = 0) →
    |z 1 - Complex.arg ⟨c 0, c 1⟩| < Real.pi →
    ∃ H, angleH pip s = some H ∧ ∀ δ, DerivAlong (angleResidual pip z) s δ (-(H *ᵥ δ))

/-- **C44, angles, partial.**  For a sensor at the IMU (`p_ip = 0`) off the z axis and the negative
x axis, the matrix is the derivative along every direction, provided `p_ip` is not varied or the
rotation matrix is symmetric.  Missing: as for distances, every other offset. -/
theorem C44_angle_partial (pip : Nat) (s : Vars ℝ (coreDef aux)) (z : Fin 2 → ℝ)
    (hn : ∀ i (hi : i < (coreDef aux).length), (coreDef aux)[i].name = i)
    (hp : PlainVars (coreDef aux)) (hu : UnitQuats s) (hl : getVec s pip 3 = some 0)
    (h0 : pip ≠ 0) (h : EKFState.p s 0 * EKFState.p s 0 + EKFState.p s 1 * EKFState.p s 1 ≠ 0)
    (hneg : ¬ (EKFState.p s 0 < 0 ∧ EKFState.p s 1 = 0))
    (hz1 : z 1 - Complex.arg ⟨EKFState.p s 0, EKFState.p s 1⟩ ≠ Real.pi)
    (hz2 : z 1 - Complex.arg ⟨EKFState.p s 0, EKFState.p s 1⟩ ≠ -Real.pi) :
    ∃ H, angleH pip s = some H ∧
      ∀ δ, ZeroAt δ pip ∨ (EKFState.q s).toRotᵀ = (EKFState.q s).toRot →
        DerivAlong (angleResidual pip z) s δ (-(H *ᵥ δ)) := by
  obtain ⟨H, e, hm⟩ := angleH_mulVec pip s 0 hn hl h0 h
  refine ⟨H, e, fun δ hδ => ?_⟩
  have hc : sensorPos pip s = some (EKFState.p s) := by
    rw [sensorPos, hl, Option.bind_eq_bind, Option.bind_some, Matrix.mulVec_zero, add_zero]
  have := angle_deriv pip s 0 (EKFState.p s) z hn hp hu hl hc h hneg hz1 hz2 δ
  convert this using 1
  rw [hm, angleHq_zero, angleHpip_eq _ _ h, ← Matrix.mulVec_mulVec, rot_symm_seg hn hl hδ,
    Matrix.zero_mulVec, add_zero, ← Matrix.mulVec_add, Matrix.mulVec_zero, add_zero]

/-- The hypotheses hold for a target behind and to the left. -/
example : ∃ H, angleH 5 (posState ![-1, 1, 2] Quat.one 0) = some H ∧
    DerivAlong (angleResidual 5 ![1, Complex.arg ⟨-1, 1⟩]) (posState ![-1, 1, 2] Quat.one 0)
      (fun _ => 1) (-(H *ᵥ fun _ => 1)) := by
  have hpi := Real.pi_pos
  obtain ⟨H, e, h⟩ := C44_angle_partial 5 (posState ![-1, 1, 2] Quat.one 0)
    ![1, Complex.arg ⟨-1, 1⟩] positionDef_ok.1
    positionDef_ok.2 (posState_unit _ _ _ (by simp [Quat.one, Quat.normSq])) rfl (by decide)
    (by rw [(posState_reads _ _ _).2.1]; simp) (by rw [(posState_reads _ _ _).2.1]; simp)
    (by rw [(posState_reads _ _ _).2.1]; simpa using hpi.ne)
    (by rw [(posState_reads _ _ _).2.1]; simpa using hpi.ne')
  refine ⟨H, e, h _ (Or.inr ?_)⟩
  rw [(posState_reads _ _ _).2.2, one_toRot, Matrix.transpose_one]

/-- **C44 is violated for angles with an offset.**  IMU at (1,0,0), sensor at (1,1,0): moving along
y changes the azimuth at the rate 1/2, but the entry of `H` is 1. -/
theorem C44_angle_offset_violated :
    ∃ H, angleH 5 (posState ![1, 0, 0] Quat.one ![0, 1, 0]) = some H ∧ ∃ d,
      DerivAlong (angleResidual 5 ![0, Complex.arg ⟨1, 1⟩]) (posState ![1, 0, 0] Quat.one ![0, 1, 0])
        (unitErr 1) d ∧ -d 1 = 1 / 2 ∧ (H *ᵥ unitErr 1) 1 = 1 := by
  set s := posState ![1, 0, 0] Quat.one ![0, 1, 0] with hs
  obtain ⟨hl, hp, hq⟩ := posState_reads ![1, 0, 0] Quat.one ![0, 1, 0]
  rw [← hs] at hl hp hq
  have hpi := Real.pi_pos
  have hc : sensorPos 5 s = some ![1, 1, 0] := by
    rw [hs, posState_sensor, one_toRot, Matrix.one_mulVec]
    congr 1; funext i; fin_cases i <;> simp
  have e0 : segOf (D := coreDef positionAux) (unitErr 1) 0 3 = Pi.single 1 1 :=
    seg_unit_pos 0 0 (by decide) 1 (by decide)
  have e2 : segOf (D := coreDef positionAux) (unitErr 1) 2 3 = 0 :=
    seg_unit_pos_ne 2 6 1 (by decide) (by omega)
  have e5 : segOf (D := coreDef positionAux) (unitErr 1) 5 3 = 0 :=
    seg_unit_pos_ne 5 15 1 (by decide) (by omega)
  have hd := angle_deriv 5 s ![0, 1, 0] ![1, 1, 0] ![0, Complex.arg ⟨1, 1⟩] positionDef_ok.1
    positionDef_ok.2 (posState_unit _ _ _ (by simp [Quat.one, Quat.normSq])) hl hc
    (by simp) (by simp) (by simpa using hpi.ne) (by simpa using hpi.ne') (unitErr 1)
  obtain ⟨H, e, hm⟩ := angleH_mulVec 5 s _ positionDef_ok.1 hl (by decide) (by rw [hp]; simp)
  refine ⟨H, e, _, hd, ?_, ?_⟩
  · rw [e0, e2, e5]
    simp [angleHp, skew_zero', Matrix.mulVec, dotProduct, Fin.sum_univ_three]
    norm_num
  · rw [hm, e0, e2, e5, hp]
    simp [angleHp, Matrix.mulVec, dotProduct, Fin.sum_univ_three]

/-- **C44 for angles is violated.** -/
theorem C44_angle_violated : ¬ angleJacobian := by
  intro hcl
  have hpi := Real.pi_pos
  obtain ⟨H', e', d, hd, h1, h2⟩ := C44_angle_offset_violated
  obtain ⟨H, e, h⟩ := hcl positionAux 5 (posState ![1, 0, 0] Quat.one ![0, 1, 0]) ![0, 1, 0]
    ![1, 1, 0] ![0, Complex.arg ⟨1, 1⟩] positionDef_ok.1 positionDef_ok.2
    (posState_unit _ _ _ (by simp [Quat.one, Quat.normSq])) rfl (by decide)
    (by rw [(posState_reads _ _ _).2.1]; simp)
    (by
      rw [posState_sensor, one_toRot, Matrix.one_mulVec]
      congr 1; funext i; fin_cases i <;> simp)
    (by simp) (by simp) (by simpa using hpi)
  rw [e, Option.some.injEq] at e'
  subst e'
  have := hd.unique (h (unitErr 1))
  rw [this, Pi.neg_apply, neg_neg, h2] at h1
  norm_num at h1

end

end MSF
