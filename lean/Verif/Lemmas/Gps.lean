import Verif.Model.Gps
import Verif.Props.Similarity

/-! # Lemmas on rotation matrices and the GPS reference frame -/

namespace MSF

open Matrix

/-- Converting the rotation matrix of a unit quaternion gives the quaternion back up to sign. -/
theorem quatOfMatrix_toRot (q : Quat ℝ) (h : q.normSq = 1) :
    quatOfMatrix q.toRot = some q ∨
      quatOfMatrix q.toRot = some ⟨-q.w, -q.x, -q.y, -q.z⟩ := by
  have hn : q.w * q.w + q.x * q.x + q.y * q.y + q.z * q.z = 1 := h
  have m00 : q.toRot 0 0 = 1 - (2 * q.y * q.y + 2 * q.z * q.z) := rfl
  have m01 : q.toRot 0 1 = 2 * q.y * q.x - 2 * q.z * q.w := rfl
  have m02 : q.toRot 0 2 = 2 * q.z * q.x + 2 * q.y * q.w := rfl
  have m10 : q.toRot 1 0 = 2 * q.y * q.x + 2 * q.z * q.w := rfl
  have m11 : q.toRot 1 1 = 1 - (2 * q.x * q.x + 2 * q.z * q.z) := rfl
  have m12 : q.toRot 1 2 = 2 * q.z * q.y - 2 * q.x * q.w := rfl
  have m20 : q.toRot 2 0 = 2 * q.z * q.x - 2 * q.y * q.w := rfl
  have m21 : q.toRot 2 1 = 2 * q.z * q.y + 2 * q.x * q.w := rfl
  have m22 : q.toRot 2 2 = 1 - (2 * q.x * q.x + 2 * q.y * q.y) := rfl
  have hs : ∀ a e : ℝ, e = (2 * a) ^ 2 → Real.sqrt e = 2 * a ∨ Real.sqrt e = 2 * -a := by
    intro a e he
    rw [he, Real.sqrt_sq_eq_abs]
    rcases abs_choice (2 * a) with h | h
    · exact Or.inl h
    · right; rw [h]; ring
  have nz : ∀ e t : ℝ, 0 < e → Real.sqrt e = t → t ≠ 0 := by
    intro e t he ht
    rw [← ht]
    exact (Real.sqrt_pos.2 he).ne'
  by_cases htr : 0 < q.toRot 0 0 + q.toRot 1 1 + q.toRot 2 2
  · simp only [quatOfMatrix, if_pos htr]
    have he : q.toRot 0 0 + q.toRot 1 1 + q.toRot 2 2 + 1 = (2 * q.w) ^ 2 := by
      rw [m00, m11, m22]; linear_combination (-4) * hn
    have hpos : 0 < q.toRot 0 0 + q.toRot 1 1 + q.toRot 2 2 + 1 := by linarith
    rcases hs q.w _ he with ht | ht
    · left
      have hw := nz _ _ hpos ht
      have hw' : q.w ≠ 0 := fun h => hw (by rw [h]; ring)
      rw [ht, if_neg hw, m01, m02, m10, m12, m20, m21]
      congr 1
      ext <;> dsimp only <;> field_simp <;> ring
    · right
      have hw := nz _ _ hpos ht
      have hw' : q.w ≠ 0 := fun h => hw (by rw [h]; ring)
      rw [ht, if_neg hw, m01, m02, m10, m12, m20, m21]
      congr 1
      ext <;> dsimp only <;> field_simp <;> ring
  · simp only [quatOfMatrix, if_neg htr]
    rw [m00, m11, m22] at htr
    have hq : ∀ i : Fin 3, i = (if q.toRot (if q.toRot 0 0 < q.toRot 1 1 then 1 else 0)
        (if q.toRot 0 0 < q.toRot 1 1 then 1 else 0) < q.toRot 2 2 then 2 else
        (if q.toRot 0 0 < q.toRot 1 1 then 1 else 0)) →
        q.toRot 0 0 ≤ q.toRot i i ∧ q.toRot 1 1 ≤ q.toRot i i ∧ q.toRot 2 2 ≤ q.toRot i i := by
      intro i hi
      subst hi
      by_cases c1 : q.toRot 0 0 < q.toRot 1 1
      · simp only [if_pos c1]
        by_cases c2 : q.toRot 1 1 < q.toRot 2 2
        · simp only [if_pos c2]
          exact ⟨by linarith, c2.le, le_refl _⟩
        · simp only [if_neg c2]
          exact ⟨c1.le, le_refl _, not_lt.1 c2⟩
      · simp only [if_neg c1]
        by_cases c2 : q.toRot 0 0 < q.toRot 2 2
        · simp only [if_pos c2]
          exact ⟨c2.le, by linarith, le_refl _⟩
        · simp only [if_neg c2]
          exact ⟨le_refl _, not_lt.1 c1, not_lt.1 c2⟩
    generalize (if q.toRot (if q.toRot 0 0 < q.toRot 1 1 then 1 else 0)
        (if q.toRot 0 0 < q.toRot 1 1 then 1 else 0) < q.toRot 2 2 then 2 else
        (if q.toRot 0 0 < q.toRot 1 1 then 1 else 0) : Fin 3) = i at hq
    have hmax := hq i rfl
    rw [m00, m11, m22] at hmax
    fin_cases i
    · have e1 : ((0 : Fin 3) + 1) = 1 := rfl
      have e2 : ((1 : Fin 3) + 1) = 2 := rfl
      simp only [Fin.zero_eta, e1, e2]
      change _ ∧ _ ≤ q.toRot 0 0 ∧ _ ≤ q.toRot 0 0 at hmax
      rw [m00] at hmax
      have he : q.toRot 0 0 - q.toRot 1 1 - q.toRot 2 2 + 1 = (2 * q.x) ^ 2 := by
        rw [m00, m11, m22]; ring
      have hpos : 0 < q.toRot 0 0 - q.toRot 1 1 - q.toRot 2 2 + 1 := by
        rw [m00, m11, m22]; linarith
      rcases hs q.x _ he with ht | ht
      · left
        have hw := nz _ _ hpos ht
        have hw' : q.x ≠ 0 := fun h => hw (by rw [h]; ring)
        rw [ht, if_neg hw, m01, m02, m10, m12, m20, m21]
        congr 1
        ext <;> simp <;> field_simp <;> ring
      · right
        have hw := nz _ _ hpos ht
        have hw' : q.x ≠ 0 := fun h => hw (by rw [h]; ring)
        rw [ht, if_neg hw, m01, m02, m10, m12, m20, m21]
        congr 1
        ext <;> simp <;> field_simp <;> ring
    · have e1 : ((1 : Fin 3) + 1) = 2 := rfl
      have e2 : ((2 : Fin 3) + 1) = 0 := rfl
      simp only [Fin.mk_one, e1, e2]
      change _ ≤ q.toRot 1 1 ∧ _ ∧ _ ≤ q.toRot 1 1 at hmax
      rw [m11] at hmax
      have he : q.toRot 1 1 - q.toRot 2 2 - q.toRot 0 0 + 1 = (2 * q.y) ^ 2 := by
        rw [m00, m11, m22]; ring
      have hpos : 0 < q.toRot 1 1 - q.toRot 2 2 - q.toRot 0 0 + 1 := by
        rw [m00, m11, m22]; linarith
      rcases hs q.y _ he with ht | ht
      · left
        have hw := nz _ _ hpos ht
        have hw' : q.y ≠ 0 := fun h => hw (by rw [h]; ring)
        rw [ht, if_neg hw, m01, m02, m10, m12, m20, m21]
        congr 1
        ext <;> simp <;> field_simp <;> ring
      · right
        have hw := nz _ _ hpos ht
        have hw' : q.y ≠ 0 := fun h => hw (by rw [h]; ring)
        rw [ht, if_neg hw, m01, m02, m10, m12, m20, m21]
        congr 1
        ext <;> simp <;> field_simp <;> ring
    · have e1 : ((2 : Fin 3) + 1) = 0 := rfl
      have e2 : ((0 : Fin 3) + 1) = 1 := rfl
      have e0 : (⟨2, by decide⟩ : Fin 3) = 2 := rfl
      simp only [e0, e1, e2]
      change _ ≤ q.toRot 2 2 ∧ _ ≤ q.toRot 2 2 ∧ _ at hmax
      rw [m22] at hmax
      have he : q.toRot 2 2 - q.toRot 0 0 - q.toRot 1 1 + 1 = (2 * q.z) ^ 2 := by
        rw [m00, m11, m22]; ring
      have hpos : 0 < q.toRot 2 2 - q.toRot 0 0 - q.toRot 1 1 + 1 := by
        rw [m00, m11, m22]; linarith
      rcases hs q.z _ he with ht | ht
      · left
        have hw := nz _ _ hpos ht
        have hw' : q.z ≠ 0 := fun h => hw (by rw [h]; ring)
        rw [ht, if_neg hw, m01, m02, m10, m12, m20, m21]
        congr 1
        ext <;> simp <;> field_simp <;> ring
      · right
        have hw := nz _ _ hpos ht
        have hw' : q.z ≠ 0 := fun h => hw (by rw [h]; ring)
        rw [ht, if_neg hw, m01, m02, m10, m12, m20, m21]
        congr 1
        ext <;> simp <;> field_simp <;> ring

theorem toRot_neg (q : Quat ℝ) : (⟨-q.w, -q.x, -q.y, -q.z⟩ : Quat ℝ).toRot = q.toRot := by
  ext i j
  fin_cases i <;> fin_cases j <;> simp [Quat.toRot]

/-- Products of unit quaternions are products of rotations. -/
theorem toRot_mul {R : Type} [Field R] (a b : Quat R) (ha : a.normSq = 1) (hb : b.normSq = 1) :
    (a.mul b).toRot = a.toRot * b.toRot := by
  have h1 : a.w * a.w + a.x * a.x + a.y * a.y + a.z * a.z = 1 := ha
  have h2 : b.w * b.w + b.x * b.x + b.y * b.y + b.z * b.z = 1 := hb
  have hab : (a.mul b).normSq = 1 := by rw [Quat.normSq_mul, ha, hb, mul_one]
  rw [toRot_hom _ hab, toRot_hom _ ha, toRot_hom _ hb]
  ext i j
  fin_cases i <;> fin_cases j <;> simp [hrot, Quat.mul, Matrix.mul_apply, Fin.sum_univ_succ] <;> ring

namespace GPS

/-- The matrix of `InitReference`: rows east, north, up. -/
noncomputable def enuMatrix (latitude longitude : ℝ) : M33 ℝ :=
  let φ := latitude * deg2rad
  let l := longitude * deg2rad
  !![-Real.sin l, Real.cos l, 0;
    -Real.sin φ * Real.cos l, -Real.sin φ * Real.sin l, Real.cos φ;
    Real.cos φ * Real.cos l, Real.cos φ * Real.sin l, Real.sin φ]

/-- It is the rotation of a unit quaternion. -/
theorem enuMatrix_rot (latitude longitude : ℝ) :
    ∃ q : Quat ℝ, q.normSq = 1 ∧ q.toRot = enuMatrix latitude longitude := by
  set φ := latitude * deg2rad with hφ
  set l := longitude * deg2rad with hl
  set u := (Real.pi / 2 - φ) / 2 with hu
  set v := (Real.pi / 2 + l) / 2 with hv
  have hu1 := Real.cos_sq_add_sin_sq u
  have hv1 := Real.cos_sq_add_sin_sq v
  have sφ : Real.sin φ = 1 - 2 * Real.sin u ^ 2 := by
    rw [← Real.cos_pi_div_two_sub, show Real.pi / 2 - φ = 2 * u by rw [hu]; ring, Real.cos_two_mul]
    linarith
  have cφ : Real.cos φ = 2 * Real.sin u * Real.cos u := by
    rw [← Real.sin_pi_div_two_sub, show Real.pi / 2 - φ = 2 * u by rw [hu]; ring, Real.sin_two_mul]
  have sl : Real.sin l = -(1 - 2 * Real.sin v ^ 2) := by
    have : Real.cos (2 * v) = -Real.sin l := by
      rw [show 2 * v = l + Real.pi / 2 by rw [hv]; ring, Real.cos_add_pi_div_two]
    rw [Real.cos_two_mul] at this
    linarith
  have cl : Real.cos l = 2 * Real.sin v * Real.cos v := by
    rw [← Real.sin_two_mul, show 2 * v = l + Real.pi / 2 by rw [hv]; ring, Real.sin_add_pi_div_two]
  let qa : Quat ℝ := ⟨Real.cos u, -Real.sin u, 0, 0⟩
  let qb : Quat ℝ := ⟨Real.cos v, 0, 0, -Real.sin v⟩
  have ha : qa.normSq = 1 := by simp only [qa, Quat.normSq]; linarith
  have hb : qb.normSq = 1 := by simp only [qb, Quat.normSq]; linarith
  refine ⟨qa.mul qb, by rw [Quat.normSq_mul, ha, hb, mul_one], ?_⟩
  rw [toRot_mul _ _ ha hb]
  simp only [enuMatrix, ← hφ, ← hl, sφ, cφ, sl, cl]
  ext i j
  fin_cases i <;> fin_cases j <;>
    simp [qa, qb, Quat.toRot, Matrix.mul_apply, Fin.sum_univ_succ] <;> ring

/-- What `InitReference` followed by `ECEFToENU` computes. -/
theorem initReference_spec (latitude longitude altitude : ℝ) : ∃ g,
    initReference latitude longitude altitude = some g ∧
      g.refPoint = wgs84ToEcef latitude longitude altitude ∧ g.orientation.normSq = 1 ∧
      (∀ v, g.orientation.rotate v = enuMatrix latitude longitude *ᵥ v) := by
  obtain ⟨q, hq, hr⟩ := enuMatrix_rot latitude longitude
  have hi : initReference latitude longitude altitude =
      (quatOfMatrix (enuMatrix latitude longitude)).map
        fun q => ⟨q, wgs84ToEcef latitude longitude altitude⟩ := rfl
  rw [hi, ← hr]
  rcases quatOfMatrix_toRot q hq with h | h
  · rw [h]
    exact ⟨_, rfl, rfl, hq, fun v => rotate_eq _ _⟩
  · rw [h]
    refine ⟨_, rfl, rfl, ?_, fun v => ?_⟩
    · simp only [Quat.normSq] at hq ⊢
      linarith
    · rw [rotate_eq]
      dsimp only
      rw [toRot_neg]

end GPS

end MSF
