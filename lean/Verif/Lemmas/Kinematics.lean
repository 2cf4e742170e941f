import Verif.Lemmas.Jets
import Verif.Spec.Kinematics
import Verif.Lemmas.Propagate

/-! Expansion of the exact motion and of one propagation step in powers of the time step. -/

namespace MSF

open Asymptotics Filter Topology Quaternion

section
variable {K : Set ℝ} {x1 x2 x3 y1 y2 y3 : ℝ → ℝ → ℝ}
  {a1 a2 a3 b1 b2 b3 a1' a2' a3' b1' b2' b3' : ℝ → ℝ}

theorem J1.dot (k1 k2 k3 : ℝ) (h1 : J1 K x1 a1) (h2 : J1 K x2 a2) (h3 : J1 K x3 a3)
    (g1 : J1 K y1 b1) (g2 : J1 K y2 b2) (g3 : J1 K y3 b3) :
    J1 K (fun t h => k1 * (x1 t h * y1 t h) + k2 * (x2 t h * y2 t h) + k3 * (x3 t h * y3 t h))
      (fun t => k1 * (a1 t * b1 t) + k2 * (a2 t * b2 t) + k3 * (a3 t * b3 t)) :=
  (((h1.mul g1).cmul k1).add ((h2.mul g2).cmul k2)).add ((h3.mul g3).cmul k3)

theorem J2.dot (k1 k2 k3 : ℝ) (h1 : J2 K x1 a1 a1') (h2 : J2 K x2 a2 a2') (h3 : J2 K x3 a3 a3')
    (g1 : J2 K y1 b1 b1') (g2 : J2 K y2 b2 b2') (g3 : J2 K y3 b3 b3') :
    J2 K (fun t h => k1 * (x1 t h * y1 t h) + k2 * (x2 t h * y2 t h) + k3 * (x3 t h * y3 t h))
      (fun t => k1 * (a1 t * b1 t) + k2 * (a2 t * b2 t) + k3 * (a3 t * b3 t))
      (fun t => k1 * (a1 t * b1' t + a1' t * b1 t) + k2 * (a2 t * b2' t + a2' t * b2 t) +
        k3 * (a3 t * b3' t + a3' t * b3 t)) :=
  (((h1.mul g1).cmul k1).add ((h2.mul g2).cmul k2)).add ((h3.mul g3).cmul k3)

end

/-- The quaternion derivative `q w / 2` in coordinates. -/
noncomputable def attRate (q : Fin 4 → ℝ) (w : Fin 3 → ℝ) : Fin 4 → ℝ :=
  ![(-1 / 2) * (q 1 * w 0) + (-1 / 2) * (q 2 * w 1) + (-1 / 2) * (q 3 * w 2),
    (1 / 2) * (q 0 * w 0) + (1 / 2) * (q 2 * w 2) + (-1 / 2) * (q 3 * w 1),
    (1 / 2) * (q 0 * w 1) + (-1 / 2) * (q 1 * w 2) + (1 / 2) * (q 3 * w 0),
    (1 / 2) * (q 0 * w 2) + (1 / 2) * (q 1 * w 1) + (-1 / 2) * (q 2 * w 0)]

theorem attRate_eq (q : ℍ[ℝ]) (w : Fin 3 → ℝ) (i : Fin 4) :
    coordQ (q * pureQ w) i / 2 = attRate (coordQ q) w i := by
  have e0 : (pureQ w).re = 0 := rfl
  have e1 : (pureQ w).imI = w 0 := rfl
  have e2 : (pureQ w).imJ = w 1 := rfl
  have e3 : (pureQ w).imK = w 2 := rfl
  fin_cases i <;> simp [coordQ, attRate, e0, e1, e2, e3] <;> ring

/-- Expansion of the attitude of a body with angular rate `w`. -/
theorem att_expand {q : ℝ → Fin 4 → ℝ} {w w1 : ℝ → Fin 3 → ℝ} (A B : ℝ)
    (hq : ∀ t i, HasDerivAt (fun s => q s i) (attRate (q t) (w t) i) t)
    (hc : ∀ i, Continuous fun t => w t i)
    (hw : ∀ i, J2 (Set.Icc A B) (fun t h => w (t + h) i) (fun t => w t i) (fun t => w1 t i))
    (i : Fin 4) :
    J3 (Set.Icc A B) (fun t h => q (t + h) i) (fun t => q t i) (fun t => attRate (q t) (w t) i)
      (fun t => (attRate (q t) (w1 t) i + attRate (attRate (q t) (w t)) (w t) i) / 2) := by
  have qc : ∀ i, Continuous fun t => q t i := fun i =>
    continuous_iff_continuousAt.2 fun t => (hq t i).continuousAt
  have ac : ∀ i, Continuous fun t => attRate (q t) (w t) i := by
    have := qc 0; have := qc 1; have := qc 2; have := qc 3
    have := hc 0; have := hc 1; have := hc 2
    intro i
    fin_cases i <;> simp only [attRate] <;> simp <;> fun_prop
  have qb : ∀ i, Bd (Set.Icc A B) fun t => q (t + 0) i := fun i => by
    simpa using Bd.of_cont (qc i) A B
  have q1 : ∀ i, J1 (Set.Icc A B) (fun t h => q (t + h) i) (fun t => q t i) := fun i =>
    J1.of_deriv (F := fun t => q t i) (fun t => hq t i) (ac i) A B
  have w1' : ∀ i, J1 (Set.Icc A B) (fun t h => w (t + h) i) (fun t => w t i) := fun i => (hw i).to1
  have q2 : ∀ i, J2 (Set.Icc A B) (fun t h => q (t + h) i) (fun t => q t i)
      (fun t => attRate (q t) (w t) i) := by
    intro i
    refine (J1.integrate (f := fun t h => attRate (q (t + h)) (w (t + h)) i)
      (fun t x => (hq (t + x) i).comp_const_add t x) (qb i) ?_).cast (fun _ _ => rfl)
      (fun t => by rw [add_zero]) fun _ => rfl
    fin_cases i
    · exact J1.dot _ _ _ (q1 1) (q1 2) (q1 3) (w1' 0) (w1' 1) (w1' 2)
    · exact J1.dot _ _ _ (q1 0) (q1 2) (q1 3) (w1' 0) (w1' 2) (w1' 1)
    · exact J1.dot _ _ _ (q1 0) (q1 1) (q1 3) (w1' 1) (w1' 2) (w1' 0)
    · exact J1.dot _ _ _ (q1 0) (q1 1) (q1 2) (w1' 2) (w1' 1) (w1' 0)
  refine (J2.integrate (f := fun t h => attRate (q (t + h)) (w (t + h)) i)
    (a' := fun t => attRate (q t) (w1 t) i + attRate (attRate (q t) (w t)) (w t) i)
    (fun t x => (hq (t + x) i).comp_const_add t x) (qb i) ?_).cast (fun _ _ => rfl)
    (fun t => by rw [add_zero]) (fun _ => rfl) fun _ => rfl
  fin_cases i
  · exact (J2.dot _ _ _ (q2 1) (q2 2) (q2 3) (hw 0) (hw 1) (hw 2)).cast (fun _ _ => rfl)
      (fun _ => rfl) (fun t => by simp [attRate]; ring)
  · exact (J2.dot _ _ _ (q2 0) (q2 2) (q2 3) (hw 0) (hw 2) (hw 1)).cast (fun _ _ => rfl)
      (fun _ => rfl) (fun t => by simp [attRate]; ring)
  · exact (J2.dot _ _ _ (q2 0) (q2 1) (q2 3) (hw 1) (hw 2) (hw 0)).cast (fun _ _ => rfl)
      (fun _ => rfl) (fun t => by simp [attRate]; ring)
  · exact (J2.dot _ _ _ (q2 0) (q2 1) (q2 2) (hw 2) (hw 1) (hw 0)).cast (fun _ _ => rfl)
      (fun _ => rfl) (fun t => by simp [attRate]; ring)

/-- The coordinates of a quaternion of the model, scalar first. -/
def coordM (q : Quat ℝ) : Fin 4 → ℝ := ![q.w, q.x, q.y, q.z]

theorem coordM_comb (a : ℝ) (u : V3 ℝ) (q : Quat ℝ) (i : Fin 4) :
    coordM (Quat.ofCoeffs ((comb a u).mulVec q.coeffs)) i =
      a * coordM q i + 2 * attRate (coordM q) u i := by
  fin_cases i <;> simp [coordM, Quat.ofCoeffs, comb, Quat.coeffs, Matrix.mulVec, dotProduct,
    Fin.sum_univ_succ, attRate] <;> ring

theorem attRate_twice (q : Fin 4 → ℝ) (w : Fin 3 → ℝ) (i : Fin 4) :
    attRate (attRate q w) w i = -(sqNorm3 w / 4) * q i := by
  fin_cases i <;> simp [attRate, sqNorm3] <;> ring

/-- Expansion of the attitude after one propagation step. -/
theorem quatInt_expand {K : Set ℝ} {w w1 : ℝ → V3 ℝ}
    (hw : ∀ i, J2 K (fun t h => w (t + h) i) (fun t => w t i) (fun t => w1 t i))
    (q : ℝ → Quat ℝ) (hq : ∀ t, (q t).normSq = 1) (hqb : ∀ i, Bd K fun t => coordM (q t) i)
    {qn : ℝ → ℝ → Quat ℝ}
    (hqn : ∀ t h, (Quat.ofCoeffs ((quatInt (w (t + h)) (w t) h).mulVec (q t).coeffs)).normalize =
      some (qn t h))
    (i : Fin 4) :
    J3 K (fun t h => coordM (qn t h) i) (fun t => coordM (q t) i)
      (fun t => attRate (coordM (q t)) (w t) i)
      (fun t => (attRate (coordM (q t)) (w1 t) i +
        attRate (attRate (coordM (q t)) (w t)) (w t) i) / 2) := by
  -- the mean rate and the correction for its change
  let m : ℝ → ℝ → V3 ℝ := fun t h => (0.5 * h) • (2 : ℝ)⁻¹ • (w (t + h) + w t)
  let k : ℝ → ℝ → V3 ℝ := fun t h =>
    (h * h * (1 / 48)) • (cross3 (w t) (w (t + h)) - cross3 (w (t + h)) (w t))
  let n : ℝ → ℝ → ℝ := fun t h => sqNorm3 (m t h)
  let a : ℝ → ℝ → ℝ := fun t h => 1 - n t h / 2 + n t h ^ 2 / 6 + n t h ^ 4 / 24
  let c : ℝ → ℝ → Quat ℝ := fun t h =>
    Quat.ofCoeffs ((comb (a t h) (m t h + k t h)).mulVec (q t).coeffs)
  have hc : ∀ t h, Quat.ofCoeffs ((quatInt (w (t + h)) (w t) h).mulVec (q t).coeffs) = c t h := by
    intro t h
    obtain ⟨n', hn', e⟩ := quatInt_comb (w (t + h)) (w t) h
    rw [e, hn']
  have hwb : ∀ j, Bd K fun t => w t j := fun j => (hw j).bd
  have hm : ∀ j, J3 K (fun t h => m t h j) (fun _ => 0) (fun t => w t j / 2)
      (fun t => w1 t j / 4) := by
    intro j
    refine (((hw j).add (J2.const (hwb j))).cmul (1 / 4)).shift.cast ?_ (fun _ => rfl) ?_ ?_
    · intro t h; simp only [m, Pi.smul_apply, Pi.add_apply, smul_eq_mul]; ring
    · intro t; ring
    · intro t; ring
  have hk : ∀ j, J3 K (fun t h => k t h j) (fun _ => 0) (fun _ => 0) (fun _ => 0) := by
    have key : ∀ i j : Fin 3, J3 K (fun t h => h * (h * (1 / 24 * (w t i * w (t + h) j -
        w t j * w (t + h) i)))) (fun _ => 0) (fun _ => 0) (fun _ => 0) := by
      intro i j
      refine ((((((J1.const (hwb i)).mul (hw j).to1).add (((J1.const (hwb j)).mul (hw i).to1).cmul
        (-1))).cmul (1 / 24)).shift.shift)).cast ?_ (fun _ => rfl) (fun _ => rfl) ?_
      · intro t h; ring
      · intro t; ring
    intro j
    fin_cases j
    · exact (key 1 2).cast (by intro t h; simp [k, cross3]; ring) (fun _ => rfl) (fun _ => rfl)
        fun _ => rfl
    · exact (key 2 0).cast (by intro t h; simp [k, cross3]; ring) (fun _ => rfl) (fun _ => rfl)
        fun _ => rfl
    · exact (key 0 1).cast (by intro t h; simp [k, cross3]; ring) (fun _ => rfl) (fun _ => rfl)
        fun _ => rfl
  have hn : J3 K n (fun _ => 0) (fun _ => 0) (fun t => sqNorm3 (w t) / 4) := by
    refine (((hm 0).mul (hm 0)).add ((hm 1).mul (hm 1))).add ((hm 2).mul (hm 2)) |>.cast ?_ ?_ ?_ ?_
    · intro t h; simp only [n, sqNorm3]
    · intro t; ring
    · intro t; ring
    · intro t; simp only [sqNorm3]; ring
  have hn2 : J3 K (fun t h => n t h * n t h) (fun _ => 0) (fun _ => 0) (fun _ => 0) :=
    (hn.mul hn).cast (fun _ _ => rfl) (fun _ => by ring) (fun _ => by ring) (fun _ => by ring)
  have hn4 : J3 K (fun t h => n t h * n t h * (n t h * n t h)) (fun _ => 0) (fun _ => 0)
      (fun _ => 0) :=
    (hn2.mul hn2).cast (fun _ _ => rfl) (fun _ => by ring) (fun _ => by ring) (fun _ => by ring)
  have ha : J3 K a (fun _ => 1) (fun _ => 0) (fun t => -(sqNorm3 (w t) / 8)) := by
    refine ((((J3.const (Bd.const 1)).add (hn.cmul (-1 / 2))).add (hn2.cmul (1 / 6))).add
      (hn4.cmul (1 / 24))).cast ?_ ?_ ?_ ?_
    · intro t h; simp only [a]; ring
    · intro t; ring
    · intro t; ring
    · intro t; ring
  have hu : ∀ j, J3 K (fun t h => (m t h + k t h) j) (fun _ => 0) (fun t => w t j / 2)
      (fun t => w1 t j / 4) := fun j =>
    ((hm j).add (hk j)).cast (fun _ _ => rfl) (fun _ => by ring) (fun _ => by ring)
      (fun _ => by ring)
  -- the squared norm is one up to third order
  have hN : J3 K (fun t h => (c t h).normSq) (fun _ => 1) (fun _ => 0) (fun _ => 0) := by
    refine ((ha.mul ha).add ((((hu 0).mul (hu 0)).add ((hu 1).mul (hu 1))).add
      ((hu 2).mul (hu 2)))).cast ?_ ?_ ?_ ?_
    · intro t h; simp only [c, comb_normSq, hq, mul_one, sqNorm3]
    · intro t; ring
    · intro t; ring
    · intro t; simp only [sqNorm3]; ring
  have hcJ : J3 K (fun t h => coordM (c t h) i) (fun t => coordM (q t) i)
      (fun t => attRate (coordM (q t)) (w t) i)
      (fun t => (attRate (coordM (q t)) (w1 t) i +
        attRate (attRate (coordM (q t)) (w t)) (w t) i) / 2) := by
    have hat : J3 K (fun t h => attRate (coordM (q t)) (m t h + k t h) i) (fun _ => 0)
        (fun t => attRate (coordM (q t)) (w t) i / 2)
        (fun t => attRate (coordM (q t)) (w1 t) i / 4) := by
      have lin : ∀ (k1 k2 k3 : ℝ) (i1 i2 i3 : Fin 4) (j1 j2 j3 : Fin 3),
          J3 K (fun t h => k1 * (coordM (q t) i1 * (m t h + k t h) j1) +
            k2 * (coordM (q t) i2 * (m t h + k t h) j2) +
            k3 * (coordM (q t) i3 * (m t h + k t h) j3)) (fun _ => 0)
            (fun t => (k1 * (coordM (q t) i1 * w t j1) + k2 * (coordM (q t) i2 * w t j2) +
              k3 * (coordM (q t) i3 * w t j3)) / 2)
            (fun t => (k1 * (coordM (q t) i1 * w1 t j1) + k2 * (coordM (q t) i2 * w1 t j2) +
              k3 * (coordM (q t) i3 * w1 t j3)) / 4) := by
        intro k1 k2 k3 i1 i2 i3 j1 j2 j3
        have e : ∀ i j, J3 K (fun t h => coordM (q t) i * (m t h + k t h) j) (fun _ => 0)
            (fun t => coordM (q t) i * (w t j / 2)) (fun t => coordM (q t) i * (w1 t j / 4)) :=
          fun i j => ((J3.const (hqb i)).mul (hu j)).cast (fun _ _ => rfl) (fun _ => by ring)
            (fun _ => by ring) (fun _ => by ring)
        exact ((((e i1 j1).cmul k1).add ((e i2 j2).cmul k2)).add ((e i3 j3).cmul k3)).cast
          (fun _ _ => rfl) (fun _ => by ring) (fun _ => by ring) (fun _ => by ring)
      fin_cases i
      · exact lin _ _ _ 1 2 3 0 1 2
      · exact lin _ _ _ 0 2 3 0 2 1
      · exact lin _ _ _ 0 1 3 1 2 0
      · exact lin _ _ _ 0 1 2 2 1 0
    refine ((ha.mul (J3.const (hqb i))).add (hat.cmul 2)).cast ?_ ?_ ?_ ?_
    · intro t h; simp only [c, coordM_comb]
    · intro t; ring
    · intro t; ring
    · intro t; rw [attRate_twice]; ring
  refine (hcJ.mul hN.inv_sqrt).cast ?_ ?_ ?_ ?_
  · intro t h
    have h1 := hqn t h
    rw [hc t h] at h1
    simp only [Quat.normalize] at h1
    split at h1
    · cases h1
    · rw [← Option.some.inj h1]
      fin_cases i <;> simp [coordM, div_eq_mul_inv]
  · intro t; ring
  · intro t; ring
  · intro t; ring

/-- Rotation of a vector by a unit quaternion, in coordinates. -/
def rotC (q : Fin 4 → ℝ) (f : Fin 3 → ℝ) : Fin 3 → ℝ :=
  ![(1 - 2 * (q 2 * q 2 + q 3 * q 3)) * f 0 + 2 * (q 1 * q 2 - q 0 * q 3) * f 1 +
      2 * (q 1 * q 3 + q 0 * q 2) * f 2,
    2 * (q 1 * q 2 + q 0 * q 3) * f 0 + (1 - 2 * (q 1 * q 1 + q 3 * q 3)) * f 1 +
      2 * (q 2 * q 3 - q 0 * q 1) * f 2,
    2 * (q 1 * q 3 - q 0 * q 2) * f 0 + 2 * (q 2 * q 3 + q 0 * q 1) * f 1 +
      (1 - 2 * (q 1 * q 1 + q 2 * q 2)) * f 2]

theorem toRot_rotC (q : Quat ℝ) (f : V3 ℝ) (i : Fin 3) :
    q.toRot.mulVec f i = rotC (coordM q) f i := by
  fin_cases i <;> simp [Quat.toRot, rotC, coordM, Matrix.mulVec, dotProduct, Fin.sum_univ_succ] <;>
    ring

theorem conj_rotC (q : ℍ[ℝ]) (hq : normSq q = 1) (f : Fin 3 → ℝ) (i : Fin 3) :
    vecQ (q * pureQ f * star q) i = rotC (coordQ q) f i := by
  have e0 : (pureQ f).re = 0 := rfl
  have e1 : (pureQ f).imI = f 0 := rfl
  have e2 : (pureQ f).imJ = f 1 := rfl
  have e3 : (pureQ f).imK = f 2 := rfl
  have hn : q.re * q.re + q.imI * q.imI + q.imJ * q.imJ + q.imK * q.imK = 1 := by
    rw [Quaternion.normSq_def'] at hq
    linarith [hq]
  fin_cases i <;> simp [vecQ, rotC, coordQ, e0, e1, e2, e3]
  · linear_combination (f 0) * hn
  · linear_combination (f 1) * hn
  · linear_combination (f 2) * hn

/-- The rotated vector has an expansion that depends on the expansions of the quaternion and of the
vector only. -/
theorem rot_expand {K : Set ℝ} {f : ℝ → ℝ → Fin 3 → ℝ} {f0 f1 : ℝ → Fin 3 → ℝ}
    (q0 q1 : ℝ → Fin 4 → ℝ)
    (hf : ∀ i, J2 K (fun t h => f t h i) (fun t => f0 t i) (fun t => f1 t i)) (i : Fin 3) :
    ∃ g : ℝ → ℝ, ∀ q : ℝ → ℝ → Fin 4 → ℝ,
      (∀ i, J2 K (fun t h => q t h i) (fun t => q0 t i) (fun t => q1 t i)) →
      J2 K (fun t h => rotC (q t h) (f t h) i) (fun t => rotC (q0 t) (f0 t) i) g := by
  have row : ∀ (d k l : Fin 3 → ℝ) (A B C D : Fin 3 → Fin 4),
      ∃ g : ℝ → ℝ, ∀ q : ℝ → ℝ → Fin 4 → ℝ,
      (∀ i, J2 K (fun t h => q t h i) (fun t => q0 t i) (fun t => q1 t i)) →
      J2 K (fun t h =>
        (d 0 + (k 0 * (q t h (A 0) * q t h (B 0)) + l 0 * (q t h (C 0) * q t h (D 0)))) * f t h 0 +
        (d 1 + (k 1 * (q t h (A 1) * q t h (B 1)) + l 1 * (q t h (C 1) * q t h (D 1)))) * f t h 1 +
        (d 2 + (k 2 * (q t h (A 2) * q t h (B 2)) + l 2 * (q t h (C 2) * q t h (D 2)))) * f t h 2)
        (fun t =>
        (d 0 + (k 0 * (q0 t (A 0) * q0 t (B 0)) + l 0 * (q0 t (C 0) * q0 t (D 0)))) * f0 t 0 +
        (d 1 + (k 1 * (q0 t (A 1) * q0 t (B 1)) + l 1 * (q0 t (C 1) * q0 t (D 1)))) * f0 t 1 +
        (d 2 + (k 2 * (q0 t (A 2) * q0 t (B 2)) + l 2 * (q0 t (C 2) * q0 t (D 2)))) * f0 t 2) g := by
    intro d k l A B C D
    have e : ∀ j, ∃ g : ℝ → ℝ, ∀ q : ℝ → ℝ → Fin 4 → ℝ,
        (∀ i, J2 K (fun t h => q t h i) (fun t => q0 t i) (fun t => q1 t i)) →
        J2 K (fun t h => (d j + (k j * (q t h (A j) * q t h (B j)) +
            l j * (q t h (C j) * q t h (D j)))) * f t h j)
          (fun t => (d j + (k j * (q0 t (A j) * q0 t (B j)) +
            l j * (q0 t (C j) * q0 t (D j)))) * f0 t j) g :=
      fun j => ⟨_, fun q hq => ((J2.const (Bd.const (d j))).add ((((hq (A j)).mul (hq (B j))).cmul
        (k j)).add (((hq (C j)).mul (hq (D j))).cmul (l j)))).mul (hf j)⟩
    choose g hg using e
    exact ⟨_, fun q hq => ((hg 0 q hq).add (hg 1 q hq)).add (hg 2 q hq)⟩
  fin_cases i
  · obtain ⟨g, hg⟩ := row ![1, 0, 0] ![-2, 2, 2] ![-2, -2, 2] ![2, 1, 1] ![2, 2, 3] ![3, 0, 0] ![3, 3, 2]
    exact ⟨g, fun q hq => (hg q hq).cast (by intro t h; simp [rotC]; ring)
      (by intro t; simp [rotC]; ring) fun _ => rfl⟩
  · obtain ⟨g, hg⟩ := row ![0, 1, 0] ![2, -2, 2] ![2, -2, -2] ![1, 1, 2] ![2, 1, 3] ![0, 3, 0] ![3, 3, 1]
    exact ⟨g, fun q hq => (hg q hq).cast (by intro t h; simp [rotC]; ring)
      (by intro t; simp [rotC]; ring) fun _ => rfl⟩
  · obtain ⟨g, hg⟩ := row ![0, 0, 1] ![2, 2, -2] ![-2, 2, -2] ![1, 2, 1] ![3, 3, 1] ![0, 0, 2] ![2, 1, 2]
    exact ⟨g, fun q hq => (hg q hq).cast (by intro t h; simp [rotC]; ring)
      (by intro t; simp [rotC]; ring) fun _ => rfl⟩

end MSF
