import Verif.Lemmas.Gps
import Mathlib.Analysis.SpecialFunctions.Trigonometric.Deriv
import Mathlib.Analysis.SpecialFunctions.Sqrt
import Mathlib.Analysis.Calculus.Deriv.Prod

/-! # Properties of the GPS conversion (C47, C66) -/

namespace MSF

open Matrix

namespace GPS

/-- **C47 (reference).**  Every reference can be set, and its own coordinates are then zero. -/
theorem C47_reference_zero (lat lon alt : ℝ) : ∃ g, initReference lat lon alt = some g ∧
    g.wgs84ToEnu lat lon alt = 0 := by
  obtain ⟨g, h1, h2, _, h4⟩ := initReference_spec lat lon alt
  refine ⟨g, h1, ?_⟩
  rw [wgs84ToEnu, ecefToEnu, h2, sub_self, h4, mulVec_zero]

/-- **C47 (rigid).**  Distances between any two points are preserved. -/
theorem C47_distance (lat lon alt : ℝ) (g : GPS) (hg : initReference lat lon alt = some g)
    (a b : V3 ℝ) : sqNorm3 (g.ecefToEnu a - g.ecefToEnu b) = sqNorm3 (a - b) := by
  obtain ⟨g', h1, _, h3, _⟩ := initReference_spec lat lon alt
  rw [hg, Option.some.injEq] at h1
  subst h1
  simp only [ecefToEnu]
  rw [rotate_eq, rotate_eq, ← mulVec_sub]
  have h := sqNorm3_rot (q := g.orientation.conj) (by rw [Quat.normSq_conj, h3])
  rw [toRot_conj, transpose_transpose] at h
  rw [h]
  congr 1
  abel

/-- **C47 (orientation).**  The frame is not mirrored: triple products are preserved. -/
theorem C47_orientation (lat lon alt : ℝ) (g : GPS) (hg : initReference lat lon alt = some g)
    (a b c o : V3 ℝ) :
    Matrix.det (of ![g.ecefToEnu a - g.ecefToEnu o, g.ecefToEnu b - g.ecefToEnu o,
      g.ecefToEnu c - g.ecefToEnu o]) = Matrix.det (of ![a - o, b - o, c - o]) := by
  obtain ⟨g', h1, h2, h3, h4⟩ := initReference_spec lat lon alt
  rw [hg, Option.some.injEq] at h1
  subst h1
  have e : ∀ x y : V3 ℝ, g.ecefToEnu x - g.ecefToEnu y = g.orientation.toRot *ᵥ (x - y) := by
    intro x y
    simp only [ecefToEnu]
    rw [rotate_eq, rotate_eq, ← mulVec_sub]
    congr 1
    abel
  have hdet : g.orientation.toRot.det = 1 := by
    rw [toRot_hom _ h3]
    have hn : g.orientation.w * g.orientation.w + g.orientation.x * g.orientation.x +
      g.orientation.y * g.orientation.y + g.orientation.z * g.orientation.z = 1 := h3
    have : (hrot g.orientation).det = g.orientation.normSq ^ 3 := by
      rw [det_fin_three]
      simp [hrot, Quat.normSq]
      ring
    rw [this, h3, one_pow]
  rw [e, e, e]
  have : (of ![g.orientation.toRot *ᵥ (a - o), g.orientation.toRot *ᵥ (b - o),
      g.orientation.toRot *ᵥ (c - o)] : M33 ℝ) =
      (of ![a - o, b - o, c - o] : M33 ℝ) * g.orientation.toRotᵀ := by
    ext i j
    fin_cases i <;> simp [Matrix.mul_apply, Matrix.mulVec, dotProduct, mul_comm]
  rw [this, det_mul, det_transpose, hdet, mul_one]

/-- **C47 (up).**  A point `h` above the reference has coordinates `(0, 0, h)`. -/
theorem C47_up (lat lon alt : ℝ) (g : GPS) (hg : initReference lat lon alt = some g) (h : ℝ) :
    g.wgs84ToEnu lat lon (alt + h) = ![0, 0, h] := by
  obtain ⟨g', h1, h2, _, h4⟩ := initReference_spec lat lon alt
  rw [hg, Option.some.injEq] at h1
  subst h1
  rw [wgs84ToEnu, ecefToEnu, h2, h4]
  have s1 := Real.sin_sq_add_cos_sq (lat * deg2rad)
  have s2 := Real.sin_sq_add_cos_sq (lon * deg2rad)
  funext i
  fin_cases i <;>
    simp [enuMatrix, wgs84ToEcef, Matrix.mulVec, dotProduct, Fin.sum_univ_succ]
  · ring
  · linear_combination (-h * Real.sin (lat * deg2rad) * Real.cos (lat * deg2rad)) * s2
  · linear_combination (h * Real.cos (lat * deg2rad) ^ 2) * s2 + h * s1

theorem deg2rad_pos : 0 < deg2rad := by
  have := Real.pi_pos
  unfold deg2rad
  positivity

theorem curvature_pos (x : ℝ) : 0 < 1 - 6.69437999014e-3 * Real.sin x * Real.sin x := by
  have h1 := Real.sin_sq_le_one x
  nlinarith

theorem hasDerivAt_sin' (x : ℝ) :
    HasDerivAt (fun l => Real.sin (l * deg2rad)) (Real.cos (x * deg2rad) * deg2rad) x := by
  have := (Real.hasDerivAt_sin (x * deg2rad)).comp x ((hasDerivAt_id x).mul_const deg2rad)
  rw [one_mul] at this
  exact this

theorem hasDerivAt_cos' (x : ℝ) :
    HasDerivAt (fun l => Real.cos (l * deg2rad)) (-Real.sin (x * deg2rad) * deg2rad) x := by
  have := (Real.hasDerivAt_cos (x * deg2rad)).comp x ((hasDerivAt_id x).mul_const deg2rad)
  rw [one_mul] at this
  exact this

/-- Derivative of the distance from the earth's axis along a meridian. -/
theorem meridian_radial (a e S C d w alt : ℝ) (hw : w ≠ 0) (s1 : S ^ 2 + C ^ 2 = 1)
    (hE : e * S * S = 1 - w * w) :
    ((0 * w - a * (-(e * (C * d) * S + e * S * (C * d)) / (2 * w))) / w ^ 2) * C +
      (a / w + alt) * (-S * d) = -S * d * (a * (1 - e) / (w * w * w) + alt) := by
  field_simp
  linear_combination (2 * a * S * d * e) * s1 - (2 * a * S * d) * hE

/-- Derivative of the distance from the equatorial plane along a meridian. -/
theorem meridian_axial (a e S C d w alt : ℝ) (hw : w ≠ 0) (hE : e * S * S = 1 - w * w) :
    ((0 * w - a * (-(e * (C * d) * S + e * S * (C * d)) / (2 * w))) / w ^ 2) * (1 - e) * S +
      (a / w * (1 - e) + alt) * (C * d) = C * d * (a * (1 - e) / (w * w * w) + alt) := by
  field_simp
  linear_combination (2 * a * C * d * (1 - e)) * hE

/-- **C47 (east).**  At the reference, increasing the longitude moves along the first axis, in
positive direction. -/
theorem C47_east (lat lon alt : ℝ) (g : GPS) (hg : initReference lat lon alt = some g)
    (hlat : 0 < Real.cos (lat * deg2rad)) (halt : -6378137 < alt) :
    ∃ k, 0 < k ∧ HasDerivAt (fun l => g.wgs84ToEnu lat l alt) ![k, 0, 0] lon := by
  obtain ⟨g', h1, h2, _, h4⟩ := initReference_spec lat lon alt
  rw [hg, Option.some.injEq] at h1
  subst h1
  have hw : 0 < Real.sqrt (1 - 6.69437999014e-3 * Real.sin (lat * deg2rad) *
      Real.sin (lat * deg2rad)) := Real.sqrt_pos.2 (curvature_pos _)
  have hw1 : Real.sqrt (1 - 6.69437999014e-3 * Real.sin (lat * deg2rad) *
      Real.sin (lat * deg2rad)) ≤ 1 := by
    rw [Real.sqrt_le_one]
    nlinarith [mul_self_nonneg (Real.sin (lat * deg2rad))]
  have hN : 6378137 ≤ primeVertical lat := by
    simp only [primeVertical]
    rw [le_div_iff₀ hw]
    nlinarith
  refine ⟨(primeVertical lat + alt) * Real.cos (lat * deg2rad) * deg2rad,
    mul_pos (mul_pos (by linarith) hlat) deg2rad_pos, ?_⟩
  rw [hasDerivAt_pi]
  have hc := hasDerivAt_cos' lon
  have hs := hasDerivAt_sin' lon
  set K := (primeVertical lat + alt) * Real.cos (lat * deg2rad) with hK
  have e : ∀ i l, g.wgs84ToEnu lat l alt i =
      enuMatrix lat lon i 0 * (K * Real.cos (l * deg2rad) - g.refPoint 0) +
      enuMatrix lat lon i 1 * (K * Real.sin (l * deg2rad) - g.refPoint 1) +
      enuMatrix lat lon i 2 * ((primeVertical lat * (1 - 6.69437999014e-3) + alt) *
        Real.sin (lat * deg2rad) - g.refPoint 2) := by
    intro i l
    rw [wgs84ToEnu, ecefToEnu, h4]
    simp only [Matrix.mulVec, dotProduct, Fin.sum_univ_succ, wgs84ToEcef]
    simp [hK, add_assoc]
  have d : ∀ i, HasDerivAt (fun l => g.wgs84ToEnu lat l alt i)
      (enuMatrix lat lon i 0 * (K * (-Real.sin (lon * deg2rad) * deg2rad)) +
        enuMatrix lat lon i 1 * (K * (Real.cos (lon * deg2rad) * deg2rad))) lon := by
    intro i
    simp only [e]
    exact ((((hc.const_mul K).sub_const _).const_mul _).add
      (((hs.const_mul K).sub_const _).const_mul _)).add_const _
  have s2 := Real.sin_sq_add_cos_sq (lon * deg2rad)
  intro i
  refine (d i).congr_deriv ?_
  fin_cases i
  · simp [enuMatrix]
    linear_combination (K * deg2rad) * s2
  · simp [enuMatrix]
    ring
  · simp [enuMatrix]
    ring

/-- **C47 (north).**  At the reference, increasing the latitude moves along the second axis, in
positive direction. -/
theorem C47_north (lat lon alt : ℝ) (g : GPS) (hg : initReference lat lon alt = some g)
    (halt : -6335000 < alt) :
    ∃ k, 0 < k ∧ HasDerivAt (fun l => g.wgs84ToEnu l lon alt) ![0, k, 0] lat := by
  obtain ⟨g', h1, h2, _, h4⟩ := initReference_spec lat lon alt
  rw [hg, Option.some.injEq] at h1
  subst h1
  have hc := hasDerivAt_cos' lat
  have hs := hasDerivAt_sin' lat
  have s1 := Real.sin_sq_add_cos_sq (lat * deg2rad)
  have s2 := Real.sin_sq_add_cos_sq (lon * deg2rad)
  have hW := curvature_pos (lat * deg2rad)
  have hw := Real.sqrt_pos.2 hW
  have hww := Real.mul_self_sqrt hW.le
  -- derivative of the radius of curvature
  have dW : HasDerivAt (fun l => 1 - 6.69437999014e-3 * Real.sin (l * deg2rad) *
      Real.sin (l * deg2rad)) (-(6.69437999014e-3 * (Real.cos (lat * deg2rad) * deg2rad) *
        Real.sin (lat * deg2rad) + 6.69437999014e-3 * Real.sin (lat * deg2rad) *
        (Real.cos (lat * deg2rad) * deg2rad))) lat := by
    have := ((hs.const_mul 6.69437999014e-3).mul hs).const_sub 1
    exact this
  have dw := dW.sqrt hW.ne'
  have dN := (hasDerivAt_const lat (6378137.0 : ℝ)).div dw hw.ne'
  have hw1 : Real.sqrt (1 - 6.69437999014e-3 * Real.sin (lat * deg2rad) *
      Real.sin (lat * deg2rad)) ≤ 1 := by
    rw [Real.sqrt_le_one]
    nlinarith [mul_self_nonneg (Real.sin (lat * deg2rad))]
  have dN' : HasDerivAt primeVertical _ lat := dN
  have hPV : primeVertical lat = 6378137.0 / Real.sqrt (1 - 6.69437999014e-3 *
      Real.sin (lat * deg2rad) * Real.sin (lat * deg2rad)) := rfl
  generalize Real.sqrt (1 - 6.69437999014e-3 * Real.sin (lat * deg2rad) *
      Real.sin (lat * deg2rad)) = w at *
  set S := Real.sin (lat * deg2rad) with hS
  set C := Real.cos (lat * deg2rad) with hC
  set d := deg2rad with hd
  have hM : 6335000 < 6378137.0 * (1 - 6.69437999014e-3) / (w * w * w) := by
    rw [lt_div_iff₀ (by positivity)]
    have : w * w ≤ 1 := by nlinarith
    have : w * w * w ≤ 1 := by nlinarith
    norm_num
    nlinarith
  refine ⟨(6378137.0 * (1 - 6.69437999014e-3) / (w * w * w) + alt) * d,
    mul_pos (by linarith) deg2rad_pos, ?_⟩
  rw [hasDerivAt_pi]
  set cl := Real.cos (lon * deg2rad) with hcl
  set sl := Real.sin (lon * deg2rad) with hsl
  have e : ∀ i l, g.wgs84ToEnu l lon alt i =
      enuMatrix lat lon i 0 * ((primeVertical l + alt) * Real.cos (l * deg2rad) * cl -
        g.refPoint 0) +
      enuMatrix lat lon i 1 * ((primeVertical l + alt) * Real.cos (l * deg2rad) * sl -
        g.refPoint 1) +
      enuMatrix lat lon i 2 * ((primeVertical l * (1 - 6.69437999014e-3) + alt) *
        Real.sin (l * deg2rad) - g.refPoint 2) := by
    intro i l
    rw [wgs84ToEnu, ecefToEnu, h4]
    simp only [Matrix.mulVec, dotProduct, Fin.sum_univ_succ, wgs84ToEcef]
    simp [hcl, hsl, add_assoc]
  have dX := (dN'.add_const alt).mul hc
  have dZ := ((dN'.mul_const (1 - 6.69437999014e-3)).add_const alt).mul hs
  have hX : ∀ l, (primeVertical l + alt) * Real.cos (l * deg2rad) =
    ((fun l => primeVertical l + alt) * fun l => Real.cos (l * deg2rad)) l := fun l => rfl
  intro i
  have D := (((dX.mul_const cl).sub_const (g.refPoint 0)).const_mul (enuMatrix lat lon i 0)).add
    (((dX.mul_const sl).sub_const (g.refPoint 1)).const_mul (enuMatrix lat lon i 1)) |>.add
    ((dZ.sub_const (g.refPoint 2)).const_mul (enuMatrix lat lon i 2))
  refine (D.congr_of_eventuallyEq (Filter.Eventually.of_forall (e i))).congr_deriv ?_
  rw [← hC, ← hS, hPV]
  have hE : (6.69437999014e-3 : ℝ) * S * S = 1 - w * w := by linarith
  have hw' := hw.ne'
  rw [meridian_radial _ _ _ _ _ _ alt hw' s1 hE, meridian_axial _ _ _ _ _ _ alt hw' hE]
  generalize 6378137.0 * (1 - 6.69437999014e-3) / (w * w * w) + alt = M
  fin_cases i
  · simp [enuMatrix, ← hS, ← hC, ← hd]
    ring
  · simp [enuMatrix, ← hS, ← hC, ← hd]
    linear_combination (M * d * S ^ 2) * s2 + M * d * s1
  · simp [enuMatrix, ← hS, ← hC, ← hd]
    linear_combination (-(M * d * S * C)) * s2

/-- **C47, partial: adjusting the reference.**  `AdjustReference` shifts all coordinates by the same
vector, which has a northern component except at the poles. -/
theorem C47_adjust_partial (lat lon alt : ℝ) (g : GPS) (hg : initReference lat lon alt = some g)
    (dz : ℝ) (p : V3 ℝ) :
    (g.adjustReference dz).ecefToEnu p = g.ecefToEnu p -
      ![0, dz * Real.cos (lat * deg2rad), dz * Real.sin (lat * deg2rad)] := by
  obtain ⟨g', h1, _, _, h4⟩ := initReference_spec lat lon alt
  rw [hg, Option.some.injEq] at h1
  subst h1
  have ho : (g.adjustReference dz).orientation = g.orientation := rfl
  rw [ecefToEnu, ecefToEnu, ho, h4, h4]
  funext i
  fin_cases i <;>
    simp [enuMatrix, adjustReference, Matrix.mulVec, dotProduct, Fin.sum_univ_succ] <;> ring

/-- **C47 is violated: adjusting the reference.**  Away from the poles a correction of the altitude
moves every point to the south or north. -/
theorem C47_adjust_violated (lat lon alt : ℝ) (g : GPS) (hg : initReference lat lon alt = some g)
    (hlat : Real.cos (lat * deg2rad) ≠ 0) (dz : ℝ) (hdz : dz ≠ 0) (p : V3 ℝ) :
    (g.adjustReference dz).ecefToEnu p 1 ≠ g.ecefToEnu p 1 := by
  rw [C47_adjust_partial lat lon alt g hg]
  intro h
  have h' : dz * Real.cos (lat * deg2rad) = 0 := by
    simpa using h
  rcases mul_eq_zero.1 h' with h | h
  · exact hdz h
  · exact hlat h

/-- **C47 is violated: altitude after `AdjustGPSZReference`.**  The reference is corrected so that the
current reading gets altitude `z`; on the equator the altitude does not change at all. -/
theorem C47_adjust_altitude_violated (lon alt z : ℝ) (g : GPS)
    (hg : initReference 0 lon alt = some g) (p : V3 ℝ) (hz : g.ecefToEnu p 2 ≠ z) :
    (g.adjustReference (g.ecefToEnu p 2 - z)).ecefToEnu p 2 ≠ z := by
  rw [C47_adjust_partial 0 lon alt g hg]
  simpa using hz

/-- C47 is not vacuous: a reference at the equator, from which the altitude correction of
`AdjustGPSZReference` does nothing. -/
example : ∃ g, initReference 0 8 400 = some g ∧ 0 < Real.cos (0 * deg2rad) ∧
    g.wgs84ToEnu 0 8 (400 + 5) 2 ≠ 0 := by
  obtain ⟨g, hg, _⟩ := C47_reference_zero 0 8 400
  refine ⟨g, hg, by simp, ?_⟩
  rw [C47_up 0 8 400 g hg]
  simp

end GPS

/-! ### C66: several GPS receivers -/

open GPS in
/-- **C66, partial.**  The first fix of the first handler becomes the origin of that handler. -/
theorem C66_first_partial (h : Nat) (lat lon alt : ℝ) : ∃ s,
    GpsHandlers.new.navSatFix h lat lon alt = some (s, 0) ∧
      initReference lat lon alt = some (s.conv h) ∧ s.referenceinit = true := by
  obtain ⟨g, h1, h2⟩ := C47_reference_zero lat lon alt
  refine ⟨⟨true, Function.update GpsHandlers.new.conv h g⟩, ?_, by simpa using h1, rfl⟩
  simp only [GpsHandlers.navSatFix, GpsHandlers.new, h1]
  simpa [wgs84ToEnu] using h2

/-- Once set, the reference of a handler does not change, and all its later fixes are converted with
it. -/
theorem C66_constant_partial (s : GpsHandlers) (hs : s.referenceinit = true)
    (ms : List (Nat × ℝ × ℝ × ℝ)) :
    s.run ms = some (s, ms.map fun m => (s.conv m.1).wgs84ToEnu m.2.1 m.2.2.1 m.2.2.2) := by
  induction ms with
  | nil => rfl
  | cons m ms ih =>
    simp only [GpsHandlers.run, GpsHandlers.navSatFix, hs, if_true, Option.map_some,
      Option.bind_some, ih, List.map_cons]
    rfl

open GPS in
/-- **C66 is violated.**  `referenceinit` is a static variable.  The reference of a second handler is
never set: its positions are geocentric coordinates, whatever the first handler received. -/
theorem C66_second_violated (h h' : Nat) (hne : h' ≠ h) (lat lon alt lat' lon' alt' : ℝ) : ∃ s,
    GpsHandlers.new.run [(h, lat, lon, alt), (h', lat', lon', alt')] =
      some (s, [0, wgs84ToEcef lat' lon' alt']) := by
  obtain ⟨s, h1, h2, h3⟩ := C66_first_partial h lat lon alt
  have hc : s.conv h' = GPS.new := by
    simp only [GpsHandlers.navSatFix, GpsHandlers.new, h2] at h1
    simp only [Bool.false_eq_true, if_false, Option.map_some, Option.some.injEq,
      Prod.mk.injEq] at h1
    have hs := h1.1
    rw [← hs]
    simp [Function.update, hne]
  refine ⟨s, ?_⟩
  rw [GpsHandlers.run]
  simp only [h1, Option.bind_some]
  rw [C66_constant_partial s h3]
  simp only [Option.map_some, List.map_cons, List.map_nil, hc]
  congr 4
  rw [wgs84ToEnu, ecefToEnu, rotate_eq]
  have : (GPS.new.orientation).toRot = 1 := by
    ext i j
    fin_cases i <;> fin_cases j <;> simp [GPS.new, Quat.one, Quat.toRot]
  rw [this, one_mulVec]
  have : GPS.new.refPoint = 0 := rfl
  rw [this, sub_zero]

end MSF
