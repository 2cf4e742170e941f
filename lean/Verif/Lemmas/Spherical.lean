import Verif.Lemmas.Jacobian
import Mathlib.Analysis.SpecialFunctions.Complex.LogDeriv
import Mathlib.Analysis.SpecialFunctions.Trigonometric.InverseDeriv
import Mathlib.Analysis.SpecialFunctions.Sqrt

/-!
# Spherical coordinates and their derivatives
-/

namespace MSF

open Matrix

/-! ### Azimuth -/

theorem arg_of_pos {x y : ℝ} (hx : 0 < x) : Complex.arg ⟨x, y⟩ = Real.arctan (y / x) := by
  have h : |Complex.arg ⟨x, y⟩| < Real.pi / 2 := Complex.abs_arg_lt_pi_div_two_iff.2 (Or.inl hx)
  rw [abs_lt] at h
  have ht := Complex.tan_arg ⟨x, y⟩
  rw [← Real.arctan_tan h.1 h.2, ht]

theorem arg_of_neg_pos {x y : ℝ} (hx : x < 0) (hy : 0 < y) :
    Complex.arg ⟨x, y⟩ = Real.arctan (y / x) + Real.pi := by
  have h1 : Real.pi / 2 < Complex.arg ⟨x, y⟩ := by
    by_contra hc
    rw [not_lt, Complex.arg_le_pi_div_two_iff] at hc
    simp only at hc
    rcases hc with h | h <;> linarith
  have h2 := Complex.arg_le_pi ⟨x, y⟩
  have ht : Real.tan (Complex.arg ⟨x, y⟩ - Real.pi) = y / x := by
    rw [Real.tan_sub_pi, Complex.tan_arg]
  rw [← ht, Real.arctan_tan (by linarith) (by linarith [Real.pi_pos]), sub_add_cancel]

theorem arg_of_neg_neg {x y : ℝ} (hx : x < 0) (hy : y < 0) :
    Complex.arg ⟨x, y⟩ = Real.arctan (y / x) - Real.pi := by
  have h1 : Complex.arg ⟨x, y⟩ < -(Real.pi / 2) := by
    by_contra hc
    rw [not_lt, Complex.neg_pi_div_two_le_arg_iff] at hc
    simp only at hc
    rcases hc with h | h <;> linarith
  have h2 := Complex.neg_pi_lt_arg ⟨x, y⟩
  have ht : Real.tan (Complex.arg ⟨x, y⟩ + Real.pi) = y / x := by
    rw [Real.tan_add_pi, Complex.tan_arg]
  rw [← ht, Real.arctan_tan (by linarith) (by linarith), add_sub_cancel_right]

theorem azimuth_eq_arg {x y : ℝ} (h0 : ¬ (x = 0 ∧ y = 0)) (hn : ¬ (x < 0 ∧ y = 0)) :
    azimuth x y = some (Complex.arg ⟨x, y⟩) := by
  unfold azimuth atanQuot
  rcases lt_trichotomy x 0 with hx | hx | hx
  · have hy : y ≠ 0 := fun h => hn ⟨hx, h⟩
    rw [if_neg hx.ne]
    simp only [Option.bind_eq_bind, Option.bind_some]
    rcases lt_or_gt_of_ne hy with hy | hy
    · rw [if_neg (by rintro ⟨_, h⟩; linarith), if_pos ⟨hx, hy⟩, arg_of_neg_neg hx hy]
    · rw [if_pos ⟨hx, hy⟩, if_neg (by rintro ⟨_, h⟩; linarith), arg_of_neg_pos hx hy]
  · subst hx
    have hy : y ≠ 0 := fun h => h0 ⟨rfl, h⟩
    rw [if_pos rfl, if_neg hy]
    rcases lt_or_gt_of_ne hy with hy | hy
    · rw [if_neg (by linarith)]
      simp only [Option.bind_eq_bind, Option.bind_some, lt_self_iff_false, false_and, if_false]
      rw [Complex.arg_eq_neg_pi_div_two_iff.2 ⟨rfl, hy⟩]
    · rw [if_pos hy]
      simp only [Option.bind_eq_bind, Option.bind_some, lt_self_iff_false, false_and, if_false]
      rw [Complex.arg_eq_pi_div_two_iff.2 ⟨rfl, hy⟩]
  · rw [if_neg hx.ne']
    simp only [Option.bind_eq_bind, Option.bind_some]
    rw [if_neg (by rintro ⟨h, _⟩; linarith), if_neg (by rintro ⟨h, _⟩; linarith), arg_of_pos hx]

theorem slit_iff {x y : ℝ} : (⟨x, y⟩ : ℂ) ∈ Complex.slitPlane ↔
    ¬ (x = 0 ∧ y = 0) ∧ ¬ (x < 0 ∧ y = 0) := by
  rw [Complex.mem_slitPlane_iff]
  simp only
  constructor
  · rintro (h | h)
    · exact ⟨fun hh => by linarith [hh.1], fun hh => by linarith [hh.1]⟩
    · exact ⟨fun hh => h hh.2, fun hh => h hh.2⟩
  · rintro ⟨h1, h2⟩
    by_contra hc
    rw [not_or, not_not, not_lt] at hc
    rcases hc.1.lt_or_eq with h | h
    · exact h2 ⟨h, hc.2⟩
    · exact h1 ⟨h, hc.2⟩

theorem arg_deriv {f g : ℝ → ℝ} {f' g' t : ℝ} (hf : HasDerivAt f f' t) (hg : HasDerivAt g g' t)
    (hs : (⟨f t, g t⟩ : ℂ) ∈ Complex.slitPlane) :
    HasDerivAt (fun ε => Complex.arg ⟨f ε, g ε⟩)
      ((f t * g' - g t * f') / (f t * f t + g t * g t)) t := by
  have e : ∀ a b : ℝ, (⟨a, b⟩ : ℂ) = (a : ℂ) + b * Complex.I := fun a b => by
    apply Complex.ext <;> simp
  have hz : HasDerivAt (fun ε => (f ε : ℂ) + g ε * Complex.I) ((f' : ℂ) + g' * Complex.I) t :=
    hf.ofReal_comp.add (hg.ofReal_comp.mul_const Complex.I)
  have hl := hz.clog_real (by rw [← e]; exact hs)
  have him := (Complex.imCLM.hasFDerivAt (x := _)).comp_hasDerivAt t hl
  refine (him.congr_of_eventuallyEq (Filter.Eventually.of_forall fun ε => ?_)).congr_deriv ?_
  · simp only [Function.comp, Complex.imCLM_apply, Complex.log_im, ← e]
  · rw [Complex.imCLM_apply, Complex.div_im]
    have hn : Complex.normSq ((f t : ℂ) + g t * Complex.I) = f t * f t + g t * g t := by
      rw [← e, Complex.normSq_mk]
    rw [hn]
    simp
    ring

/-! ### Wrapping -/

theorem wrapOnce_local {r0 : ℝ} (h1 : r0 ≠ Real.pi) (h2 : r0 ≠ -Real.pi) :
    ∃ k : ℝ, ∀ᶠ r in nhds r0, wrapOnce r = r + k := by
  have hp := Real.pi_pos
  rcases lt_or_gt_of_ne h2 with h | h
  · refine ⟨2 * Real.pi, ?_⟩
    filter_upwards [eventually_lt_nhds h] with r hr
    simp only [wrapOnce]
    split_ifs <;> linarith
  · rcases lt_or_gt_of_ne h1 with h' | h'
    · refine ⟨0, ?_⟩
      filter_upwards [eventually_lt_nhds h', eventually_gt_nhds h] with r hr hr'
      simp only [wrapOnce]
      split_ifs <;> linarith
    · refine ⟨-(2 * Real.pi), ?_⟩
      filter_upwards [eventually_gt_nhds h'] with r hr
      simp only [wrapOnce]
      split_ifs <;> linarith

/-! ### Radius and inclination -/

theorem sqsum_nonneg (c : V3 ℝ) : 0 ≤ c 0 * c 0 + c 1 * c 1 + c 2 * c 2 := by nlinarith

theorem radius_sq (c : V3 ℝ) : radius c * radius c = c 0 * c 0 + c 1 * c 1 + c 2 * c 2 :=
  Real.mul_self_sqrt (sqsum_nonneg c)

theorem radius_pos {c : V3 ℝ} (h : c ≠ 0) : 0 < radius c := by
  refine Real.sqrt_pos.2 (lt_of_le_of_ne (sqsum_nonneg c) fun h0 => h ?_)
  have a0 : c 0 = 0 := by nlinarith [mul_self_nonneg (c 0), mul_self_nonneg (c 1), mul_self_nonneg (c 2)]
  have a1 : c 1 = 0 := by nlinarith [mul_self_nonneg (c 0), mul_self_nonneg (c 1), mul_self_nonneg (c 2)]
  have a2 : c 2 = 0 := by nlinarith [mul_self_nonneg (c 0), mul_self_nonneg (c 1), mul_self_nonneg (c 2)]
  funext i
  fin_cases i
  · exact a0
  · exact a1
  · exact a2

theorem radius_deriv {f : ℝ → V3 ℝ} {d : V3 ℝ} {t : ℝ} (hf : HasDerivAt f d t) (h : f t ≠ 0) :
    HasDerivAt (fun ε => radius (f ε))
      ((f t 0 * d 0 + f t 1 * d 1 + f t 2 * d 2) / radius (f t)) t := by
  have hc := hasDerivAt_pi.1 hf
  have hs : HasDerivAt (fun ε => f ε 0 * f ε 0 + f ε 1 * f ε 1 + f ε 2 * f ε 2)
      ((d 0 * f t 0 + f t 0 * d 0) + (d 1 * f t 1 + f t 1 * d 1) + (d 2 * f t 2 + f t 2 * d 2)) t :=
    (((hc 0).mul (hc 0)).add ((hc 1).mul (hc 1))).add ((hc 2).mul (hc 2))
  have hr := radius_pos h
  have hpos : f t 0 * f t 0 + f t 1 * f t 1 + f t 2 * f t 2 ≠ 0 := by
    rw [← radius_sq]; positivity
  refine (hs.sqrt hpos).congr_deriv ?_
  change _ / (2 * radius (f t)) = _
  field_simp
  ring

theorem abs_lt_radius {c : V3 ℝ} (h : c 0 * c 0 + c 1 * c 1 ≠ 0) : |c 2| < radius c := by
  have h1 : 0 < c 0 * c 0 + c 1 * c 1 := lt_of_le_of_ne (by nlinarith) h.symm
  exact Real.lt_sqrt_of_sq_lt (by rw [sq_abs]; nlinarith)

theorem ne_zero_of_rho {c : V3 ℝ} (h : c 0 * c 0 + c 1 * c 1 ≠ 0) : c ≠ 0 := by
  rintro rfl
  simp at h

theorem cosine_bounds {c : V3 ℝ} (h : c 0 * c 0 + c 1 * c 1 ≠ 0) :
    -1 < c 2 / radius c ∧ c 2 / radius c < 1 := by
  have hr := radius_pos (ne_zero_of_rho h)
  have := abs_lt.1 (abs_lt_radius h)
  constructor
  · rw [lt_div_iff₀ hr]; linarith
  · rw [div_lt_iff₀ hr]; linarith

theorem sine_eq {c : V3 ℝ} (h : c 0 * c 0 + c 1 * c 1 ≠ 0) :
    Real.sqrt (1 - (c 2 / radius c) ^ 2) = Real.sqrt (c 0 * c 0 + c 1 * c 1) / radius c := by
  have hr := radius_pos (ne_zero_of_rho h)
  have e : 1 - (c 2 / radius c) ^ 2 = (c 0 * c 0 + c 1 * c 1) / (radius c) ^ 2 := by
    have := radius_sq c
    field_simp
    nlinarith
  rw [e, Real.sqrt_div' _ (by positivity), Real.sqrt_sq hr.le]

theorem inclination_deriv {f : ℝ → V3 ℝ} {d : V3 ℝ} {t : ℝ} (hf : HasDerivAt f d t)
    (h : f t 0 * f t 0 + f t 1 * f t 1 ≠ 0) :
    HasDerivAt (fun ε => Real.arccos (f ε 2 / radius (f ε)))
      ((f t 0 * f t 2 * d 0 + f t 1 * f t 2 * d 1 - (f t 0 * f t 0 + f t 1 * f t 1) * d 2) /
        (Real.sqrt (f t 0 * f t 0 + f t 1 * f t 1) * (radius (f t) * radius (f t)))) t := by
  have hne := ne_zero_of_rho h
  have hr := radius_pos hne
  have hb := cosine_bounds h
  have hc := hasDerivAt_pi.1 hf
  have hq := (hc 2).div (radius_deriv hf hne) hr.ne'
  have ha := (Real.hasDerivAt_arccos hb.1.ne' hb.2.ne).comp t hq
  refine ha.congr_deriv ?_
  rw [sine_eq h]
  have hρ : 0 < Real.sqrt (f t 0 * f t 0 + f t 1 * f t 1) :=
    Real.sqrt_pos.2 (lt_of_le_of_ne (by nlinarith) h.symm)
  have h2 := radius_sq (f t)
  field_simp
  rw [sq, h2]
  ring

/-! ### Products with the measurement matrices -/

section
variable {aux : List VarDesc}

theorem threeBlock_mulVec {m : Nat} (A B C : Matrix (Fin m) (Fin 3) ℝ) (pip : Nat)
    (s : Vars ℝ (coreDef aux)) (l : V3 ℝ)
    (hn : ∀ i (hi : i < (coreDef aux).length), (coreDef aux)[i].name = i)
    (hl : getVec s pip 3 = some l) (h0 : pip ≠ 0) :
    ∃ H, (do
      let H ← putBlock (D := coreDef aux) 0 0 0 A
      let H ← putBlock H 0 2 B
      putBlock H 0 pip C) = some H ∧
      ∀ δ, H *ᵥ δ = A *ᵥ segOf δ 0 3 + B *ᵥ segOf δ 2 3 + C *ᵥ segOf δ pip 3 := by
  have hi := indexingErrors_eq_zero.2 hn
  obtain ⟨hlt, hk⟩ := getVec_kind s hl
  have h2 : pip ≠ 2 := by
    rintro rfl
    cases hk
  have l0 : 0 < (coreDef aux).length := by simp [coreDef, coreDescs]
  have l2 : 2 < (coreDef aux).length := by simp [coreDef, coreDescs]
  have c0 : errLen (coreDef aux)[0] = 3 := rfl
  have c2 : errLen (coreDef aux)[2] = 3 := rfl
  obtain ⟨H1, e1, m1, z1⟩ := putBlock_mulVec (m := m) hi 0 0 0 l0 A 0 (by rw [c0])
    (by omega) (zeroVar_zero _ _ _ _)
  obtain ⟨H2, e2, m2, z2⟩ := putBlock_mulVec hi H1 0 2 l2 B 0
    (by rw [c2]) (by omega) (z1 _ _ _ _ (zeroVar_zero _ _ _ _) (Or.inl (by decide)))
  obtain ⟨H3, e3, m3, z3⟩ := putBlock_mulVec hi H2 0 pip hlt C 0
    (by rw [errLen_vec hl hlt]) (by omega)
    (z2 _ _ _ _ (z1 _ _ _ _ (zeroVar_zero _ _ _ _) (Or.inl h0.symm)) (Or.inl h2.symm))
  refine ⟨H3, ?_, fun δ => ?_⟩
  · simp only [Option.bind_eq_bind, Option.bind_some, e1, e2, e3]
  · rw [m3, m2, m1]
    simp only [pad_zero_full, Matrix.zero_mulVec, zero_add, add_zero]
    rfl

theorem distanceH_mulVec (pip : Nat) (s : Vars ℝ (coreDef aux)) (l : V3 ℝ)
    (hn : ∀ i (hi : i < (coreDef aux).length), (coreDef aux)[i].name = i)
    (hl : getVec s pip 3 = some l) (h0 : pip ≠ 0) (h : EKFState.p s ≠ 0) :
    ∃ H, distanceH pip s = some H ∧ ∀ δ, H *ᵥ δ = distanceHp (EKFState.p s) *ᵥ segOf δ 0 3 +
      distanceHq (EKFState.q s).toRotᵀ (EKFState.p s) l *ᵥ segOf δ 2 3 +
      distanceHpip (EKFState.q s).toRotᵀ (EKFState.p s) *ᵥ segOf δ pip 3 := by
  obtain ⟨H, e, hm⟩ := threeBlock_mulVec (distanceHp (EKFState.p s))
    (distanceHq (EKFState.q s).toRotᵀ (EKFState.p s) l)
    (distanceHpip (EKFState.q s).toRotᵀ (EKFState.p s)) pip s l hn hl h0
  refine ⟨H, ?_, hm⟩
  have hr := radius_pos h
  have hne : ¬ EKFState.p s 0 * EKFState.p s 0 + EKFState.p s 1 * EKFState.p s 1 +
      EKFState.p s 2 * EKFState.p s 2 = 0 := by rw [← radius_sq]; positivity
  rw [← e, distanceH, hl, toRot_conj, Option.bind_eq_bind, Option.bind_some]
  exact if_neg hne

theorem angleH_mulVec (pip : Nat) (s : Vars ℝ (coreDef aux)) (l : V3 ℝ)
    (hn : ∀ i (hi : i < (coreDef aux).length), (coreDef aux)[i].name = i)
    (hl : getVec s pip 3 = some l) (h0 : pip ≠ 0)
    (h : EKFState.p s 0 * EKFState.p s 0 + EKFState.p s 1 * EKFState.p s 1 ≠ 0) :
    ∃ H, angleH pip s = some H ∧ ∀ δ, H *ᵥ δ = angleHp (EKFState.p s) *ᵥ segOf δ 0 3 +
      angleHq (EKFState.q s).toRotᵀ (EKFState.p s) l *ᵥ segOf δ 2 3 +
      angleHpip (EKFState.q s).toRotᵀ (EKFState.p s) *ᵥ segOf δ pip 3 := by
  obtain ⟨H, e, hm⟩ := threeBlock_mulVec (angleHp (EKFState.p s))
    (angleHq (EKFState.q s).toRotᵀ (EKFState.p s) l)
    (angleHpip (EKFState.q s).toRotᵀ (EKFState.p s)) pip s l hn hl h0
  refine ⟨H, ?_, hm⟩
  rw [← e, angleH, hl, toRot_conj, Option.bind_eq_bind, Option.bind_some]
  exact if_neg h

/-- With `p_ip = 0` the attitude does not matter. -/
theorem distanceHq_zero (C : M33 ℝ) (p : V3 ℝ) : distanceHq C p 0 = 0 := by
  ext i j
  fin_cases j <;> simp [distanceHq]

theorem angleHq_zero (C : M33 ℝ) (p : V3 ℝ) : angleHq C p 0 = 0 := by
  ext i j
  fin_cases i <;> fin_cases j <;> simp [angleHq]

theorem distanceHpip_eq (C : M33 ℝ) (p : V3 ℝ) : distanceHpip C p = distanceHp p * C := by
  ext i j
  simp only [distanceHpip, distanceHp, Matrix.mul_apply, Matrix.of_apply, Fin.sum_univ_three]
  ring

/-- The block of `p_ip` is that of `p` times the (transposed) rotation. -/
theorem angleHpip_eq (C : M33 ℝ) (p : V3 ℝ) (h : p 0 * p 0 + p 1 * p 1 ≠ 0) :
    angleHpip C p = angleHp p * C := by
  have hr := radius_pos (ne_zero_of_rho h)
  have hρ : 0 < Real.sqrt (p 0 * p 0 + p 1 * p 1) :=
    Real.sqrt_pos.2 (lt_of_le_of_ne (by nlinarith) h.symm)
  have hs := sine_eq h
  have r2 := radius_sq p
  have ρ2 : Real.sqrt (p 0 * p 0 + p 1 * p 1) * Real.sqrt (p 0 * p 0 + p 1 * p 1) =
    p 0 * p 0 + p 1 * p 1 := Real.mul_self_sqrt (by nlinarith)
  have e : -(p 2 * p 2) / (p 0 * p 0 + p 1 * p 1 + p 2 * p 2) + 1 = 1 - (p 2 / radius p) ^ 2 := by
    rw [← r2]; field_simp; ring
  ext i j
  fin_cases i
  · simp only [angleHpip, angleHp, Matrix.mul_apply, Fin.sum_univ_three, e, hs]
    change _ / (_ * radius p) * _ = _
    simp only [Fin.zero_eta, Matrix.of_apply, Matrix.cons_val_zero, Matrix.cons_val_one,
      Matrix.cons_val]
    rw [← r2]
    generalize radius p = r at *
    generalize Real.sqrt (p 0 * p 0 + p 1 * p 1) = ρ at *
    field_simp
    linear_combination (C 2 j) * ρ2
  · simp [angleHpip, angleHp, Matrix.mul_apply, Fin.sum_univ_three]
    ring

/-- The derivative of the inclination in terms of the matrix. -/
theorem angleHp_mulVec (p d : V3 ℝ) (h : p 0 * p 0 + p 1 * p 1 ≠ 0) :
    angleHp p *ᵥ d = ![(p 0 * p 2 * d 0 + p 1 * p 2 * d 1 - (p 0 * p 0 + p 1 * p 1) * d 2) /
        (Real.sqrt (p 0 * p 0 + p 1 * p 1) * (radius p * radius p)),
      (p 0 * d 1 - p 1 * d 0) / (p 0 * p 0 + p 1 * p 1)] := by
  have hr := radius_pos (ne_zero_of_rho h)
  have hρ : 0 < Real.sqrt (p 0 * p 0 + p 1 * p 1) :=
    Real.sqrt_pos.2 (lt_of_le_of_ne (by nlinarith) h.symm)
  have r2 := radius_sq p
  have ρ2 : Real.sqrt (p 0 * p 0 + p 1 * p 1) * Real.sqrt (p 0 * p 0 + p 1 * p 1) =
    p 0 * p 0 + p 1 * p 1 := Real.mul_self_sqrt (by nlinarith)
  funext i
  fin_cases i
  · simp only [angleHp, ← r2, Matrix.mulVec, dotProduct, Fin.sum_univ_three]
    simp
    generalize radius p = r at *
    generalize Real.sqrt (p 0 * p 0 + p 1 * p 1) = ρ at *
    field_simp
    linear_combination (-(d 2)) * ρ2
  · simp [angleHp, Matrix.mulVec, dotProduct, Fin.sum_univ_three]
    field_simp
    ring

end

end MSF
