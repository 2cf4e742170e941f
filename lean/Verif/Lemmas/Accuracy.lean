import Verif.Lemmas.Kinematics
import Mathlib.Analysis.Quaternion

/-! Error of one propagation step, uniform over a time interval, and stability of the step. -/

namespace MSF

open Asymptotics Filter Topology Quaternion

/-- A quaternion of the model as one of Mathlib. -/
def toH (q : Quat ℝ) : ℍ[ℝ] := ⟨q.w, q.x, q.y, q.z⟩

/-- The reverse. -/
def ofH (a : ℍ[ℝ]) : Quat ℝ := ⟨a.re, a.imI, a.imJ, a.imK⟩

@[simp] theorem toH_re (q : Quat ℝ) : (toH q).re = q.w := rfl
@[simp] theorem toH_imI (q : Quat ℝ) : (toH q).imI = q.x := rfl
@[simp] theorem toH_imJ (q : Quat ℝ) : (toH q).imJ = q.y := rfl
@[simp] theorem toH_imK (q : Quat ℝ) : (toH q).imK = q.z := rfl

theorem coordQ_toH (q : Quat ℝ) : coordQ (toH q) = coordM q := rfl

theorem coordM_ofH (a : ℍ[ℝ]) : coordM (ofH a) = coordQ a := rfl

theorem toH_ofH (a : ℍ[ℝ]) : toH (ofH a) = a := rfl

theorem normSq_toH (q : Quat ℝ) : normSq (toH q) = q.normSq := by
  rw [Quaternion.normSq_def']
  change q.w ^ 2 + q.x ^ 2 + q.y ^ 2 + q.z ^ 2 = _
  simp only [Quat.normSq]
  ring

theorem ofH_unit {a : ℍ[ℝ]} (h : normSq a = 1) : (ofH a).normSq = 1 := by
  rw [← normSq_toH, toH_ofH, h]

theorem norm_of_normSq {a : ℍ[ℝ]} (h : normSq a = 1) : ‖a‖ = 1 := by
  have h1 := Quaternion.normSq_eq_norm_mul_self (a := a)
  rw [h] at h1
  nlinarith [norm_nonneg a]

/-- A coordinate is at most the norm. -/
theorem vecQ_le (a : ℍ[ℝ]) (i : Fin 3) : |vecQ a i| ≤ ‖a‖ := by
  have h1 := Quaternion.normSq_eq_norm_mul_self (a := a)
  rw [Quaternion.normSq_def'] at h1
  refine abs_le_of_sq_le_sq ?_ (norm_nonneg a)
  rw [sq ‖a‖, ← h1]
  fin_cases i <;> simp [vecQ] <;> nlinarith [sq_nonneg a.re, sq_nonneg a.imI, sq_nonneg a.imJ,
    sq_nonneg a.imK]

/-- The norm is at most four times a bound of the coordinates. -/
theorem norm_le_coord {a : ℍ[ℝ]} {C : ℝ} (h : ∀ i, |coordQ a i| ≤ C) : ‖a‖ ≤ 4 * C := by
  have hC : 0 ≤ C := (abs_nonneg _).trans (h 0)
  have h1 := Quaternion.normSq_eq_norm_mul_self (a := a)
  rw [Quaternion.normSq_def'] at h1
  have e : ∀ x : ℝ, |x| ≤ C → x ^ 2 ≤ C ^ 2 := fun x hx => sq_le_sq' (by linarith [abs_le.1 hx])
    (abs_le.1 hx).2
  have h0 := e _ (h 0)
  have h2 := e _ (h 1)
  have h3 := e _ (h 2)
  have h4 := e _ (h 3)
  simp only [coordQ, Matrix.cons_val] at h0 h2 h3 h4
  refine le_of_sq_le_sq ?_ (by positivity)
  nlinarith

/-- Two rotations of one vector differ by at most twice the distance of the quaternions. -/
theorem rot_lipschitz (q r : Quat ℝ) (hq : q.normSq = 1) (hr : r.normSq = 1) (f : V3 ℝ) (i : Fin 3) :
    |q.toRot.mulVec f i - r.toRot.mulVec f i| ≤ 2 * ‖toH q - toH r‖ * ‖pureQ f‖ := by
  have hq' : normSq (toH q) = 1 := by rw [normSq_toH, hq]
  have hr' : normSq (toH r) = 1 := by rw [normSq_toH, hr]
  rw [toRot_rotC, toRot_rotC, ← coordQ_toH, ← coordQ_toH, ← conj_rotC _ hq', ← conj_rotC _ hr']
  have e : vecQ (toH q * pureQ f * star (toH q)) i - vecQ (toH r * pureQ f * star (toH r)) i =
      vecQ ((toH q - toH r) * pureQ f * star (toH q) +
        toH r * pureQ f * star (toH q - toH r)) i := by
    rw [star_sub, mul_sub, sub_mul, sub_mul]
    have : ∀ a b : ℍ[ℝ], vecQ a i - vecQ b i = vecQ (a - b) i := by
      intro a b
      fin_cases i <;> simp [vecQ]
    rw [this]
    congr 1
    abel
  rw [e]
  refine (vecQ_le _ i).trans ((norm_add_le _ _).trans ?_)
  rw [norm_mul, norm_mul, norm_mul, norm_mul, norm_star, norm_star, norm_of_normSq hq',
    norm_of_normSq hr']
  linarith

/-- The attitude step is a right multiplication by one and the same unit quaternion for all unit
attitudes, hence an isometry. -/
theorem step_isometry (w' w : V3 ℝ) (h : ℝ) (q r qn rn : Quat ℝ) (hq : q.normSq = 1)
    (hr : r.normSq = 1)
    (hqn : (Quat.ofCoeffs ((quatInt w' w h).mulVec q.coeffs)).normalize = some qn)
    (hrn : (Quat.ofCoeffs ((quatInt w' w h).mulVec r.coeffs)).normalize = some rn) :
    ‖toH qn - toH rn‖ = ‖toH q - toH r‖ := by
  obtain ⟨n, -, e⟩ := quatInt_comb w' w h
  rw [e] at hqn hrn
  generalize (1 - n / 2 + n ^ 2 / 6 + n ^ 4 / 24) = a at hqn hrn
  generalize ((0.5 * h) • (2 : ℝ)⁻¹ • (w' + w) + (h * h * (1 / 48)) • (cross3 w w' - cross3 w' w)) = u
    at hqn hrn
  let c : Quat ℝ := ⟨a, u 0, u 1, u 2⟩
  have hc : c.normSq = a * a + sqNorm3 u := by simp only [c, Quat.normSq, sqNorm3]; ring
  have key : ∀ x xn : Quat ℝ, x.normSq = 1 →
      (Quat.ofCoeffs ((comb a u).mulVec x.coeffs)).normalize = some xn →
      toH xn * (Real.sqrt c.normSq : ℍ[ℝ]) = toH x * toH c ∧ Real.sqrt c.normSq ≠ 0 := by
    intro x xn hx hn
    simp only [Quat.normalize, comb_normSq, hx, mul_one, ← hc] at hn
    split at hn
    · cases hn
    · rename_i h0
      refine ⟨?_, h0⟩
      rw [← Option.some.inj hn]
      generalize Real.sqrt c.normSq = ρ at h0
      ext <;> simp [Quat.ofCoeffs, comb, Quat.coeffs, Matrix.mulVec, dotProduct,
        Fin.sum_univ_succ, c, h0] <;> ring
  obtain ⟨k1, h0⟩ := key q qn hq hqn
  obtain ⟨k2, -⟩ := key r rn hr hrn
  have h1 : (toH qn - toH rn) * (Real.sqrt c.normSq : ℍ[ℝ]) = (toH q - toH r) * toH c := by
    rw [sub_mul, k1, k2, sub_mul]
  have h2 := congrArg norm h1
  rw [norm_mul, norm_mul] at h2
  have h3 : ‖toH c‖ = Real.sqrt c.normSq := by
    rw [← normSq_toH, Quaternion.normSq_eq_norm_mul_self, Real.sqrt_mul_self (norm_nonneg _)]
  have h4 : ‖(Real.sqrt c.normSq : ℍ[ℝ])‖ = Real.sqrt c.normSq := by
    rw [Quaternion.norm_coe, Real.norm_eq_abs, abs_of_nonneg (Real.sqrt_nonneg _)]
  rw [h3, h4] at h2
  exact mul_right_cancel₀ h0 h2

/-- The velocity the propagation computes from the attitudes `q`, `q'` and the forces `f`, `f'`. -/
noncomputable def stepV (q q' : Quat ℝ) (f f' v : V3 ℝ) (h : ℝ) : V3 ℝ :=
  v + h • ((2 : ℝ)⁻¹ • (q'.toRot.mulVec f' + q.toRot.mulVec f) - gravity)

/-- The position the propagation computes from the velocities. -/
noncomputable def stepP (v v' p : V3 ℝ) (h : ℝ) : V3 ℝ := p + h • ((2 : ℝ)⁻¹ • (v' + v))

/-- One step from the exact motion has an error of third order, uniformly over an interval. -/
theorem local_error {w f : ℝ → Fin 3 → ℝ} {q : ℝ → ℍ[ℝ]} {v p : ℝ → Fin 3 → ℝ}
    (hm : RigidMotion w f ![0, 0, 9.80834] q v p)
    (hw : ∀ i, ContDiff ℝ 2 fun t => w t i) (hf : ∀ i, ContDiff ℝ 2 fun t => f t i) (A B : ℝ)
    {qn : ℝ → ℝ → Quat ℝ}
    (hqn : ∀ t h, (Quat.ofCoeffs ((quatInt (w (t + h)) (w t) h).mulVec
      (ofH (q t)).coeffs)).normalize = some (qn t h)) :
    (∀ i, (fun x : ℝ × ℝ => coordM (qn x.1 x.2) i - coordQ (q (x.1 + x.2)) i)
      =O[Steps (Set.Icc A B)] fun x => x.2 ^ 3) ∧
    (∀ i, (fun x : ℝ × ℝ => stepV (ofH (q x.1)) (qn x.1 x.2) (f x.1) (f (x.1 + x.2)) (v x.1) x.2 i -
      v (x.1 + x.2) i) =O[Steps (Set.Icc A B)] fun x => x.2 ^ 3) ∧
    ∀ i, (fun x : ℝ × ℝ => stepP (v x.1)
      (stepV (ofH (q x.1)) (qn x.1 x.2) (f x.1) (f (x.1 + x.2)) (v x.1) x.2) (p x.1) x.2 i -
      p (x.1 + x.2) i) =O[Steps (Set.Icc A B)] fun x => x.2 ^ 3 := by
  set K := Set.Icc A B
  have jw : ∀ i, J2 K (fun t h => w (t + h) i) (fun t => w t i) (deriv fun t => w t i) := fun i =>
    J2.of_contDiff (hw i) A B
  have jf : ∀ i, J2 K (fun t h => f (t + h) i) (fun t => f t i) (deriv fun t => f t i) := fun i =>
    J2.of_contDiff (hf i) A B
  have hatt : ∀ t i, HasDerivAt (fun s => coordQ (q s) i) (attRate (coordQ (q t)) (w t) i) t :=
    fun t i => by rw [← attRate_eq]; exact hm.att t i
  have qc : ∀ i, Continuous fun t => coordQ (q t) i := fun i =>
    continuous_iff_continuousAt.2 fun t => (hatt t i).continuousAt
  have vc : ∀ i, Continuous fun t => v t i := fun i =>
    continuous_iff_continuousAt.2 fun t => (hm.vel t i).continuousAt
  have pc : ∀ i, Continuous fun t => p t i := fun i =>
    continuous_iff_continuousAt.2 fun t => (hm.pos t i).continuousAt
  have qt := att_expand (q := fun t => coordQ (q t)) (w := w)
    (w1 := fun t i => deriv (fun t => w t i) t) A B hatt (fun i => (hw i).continuous) jw
  have qf := quatInt_expand (w := w) (w1 := fun t i => deriv (fun t => w t i) t) jw
    (fun t => ofH (q t)) (fun t => ofH_unit (hm.unit t)) (fun i => Bd.of_cont (qc i) A B) hqn
  have vb : ∀ i, Bd K fun t => v t i := fun i => Bd.of_cont (vc i) A B
  have pb : ∀ i, Bd K fun t => p t i := fun i => Bd.of_cont (pc i) A B
  have hv : ∀ i, ∃ g0 g, J3 K (fun t h => stepV (ofH (q t)) (qn t h) (f t) (f (t + h)) (v t) h i)
      (fun t => v t i) g0 g ∧ J3 K (fun t h => v (t + h) i) (fun t => v t i) g0 g := by
    intro i
    obtain ⟨g, hg⟩ := rot_expand (f := fun t h => f (t + h)) (f0 := f)
      (f1 := fun t i => deriv (fun t => f t i) t) (fun t => coordQ (q t))
      (fun t i => attRate (coordQ (q t)) (w t) i) jf i
    have g1 := hg (fun t h => coordM (qn t h)) fun i => (qf i).to2
    have g2 := hg (fun t h => coordQ (q (t + h))) fun i => (qt i).to2
    refine ⟨fun t => rotC (coordQ (q t)) (f t) i - (![0, 0, 9.80834] : V3 ℝ) i,
      fun t => g t / 2, ?_, ?_⟩
    · refine ((J3.const (vb i)).add (((g1.add (J2.const g1.bd)).cmul (1 / 2)).add
        (J2.const (Bd.const (-(![0, 0, 9.80834] : V3 ℝ) i)))).shift).cast ?_ ?_ ?_ ?_
      · intro t h
        simp only [stepV, Pi.add_apply, Pi.smul_apply, Pi.sub_apply, smul_eq_mul, toRot_rotC,
          gravity, coordM_ofH]
        ring
      · intro t; ring
      · intro t; ring
      · intro t; ring
    · have := (g2.add (J2.const (Bd.const (-(![0, 0, 9.80834] : V3 ℝ) i)))).integrate
        (F := fun t h => v (t + h) i) (fun t x => by
          have := (hm.vel (t + x) i).comp_const_add t x
          rw [conj_rotC _ (hm.unit _)] at this
          refine this.congr_deriv ?_
          ring) (by simpa using vb i)
      refine this.cast (fun _ _ => rfl) ?_ ?_ ?_
      · intro t; rw [add_zero]
      · intro t; ring
      · intro t; ring
  refine ⟨fun i => (qf i).diff (qt i), ?_, ?_⟩
  · intro i
    obtain ⟨g0, g, h1, h2⟩ := hv i
    exact h1.diff h2
  · intro i
    obtain ⟨g0, g, h1, h2⟩ := hv i
    have p1 := h2.to2.integrate (F := fun t h => p (t + h) i)
      (fun t x => (hm.pos (t + x) i).comp_const_add t x) (by simpa using pb i)
    have p2 : J3 K (fun t h => stepP (v t) (stepV (ofH (q t)) (qn t h) (f t) (f (t + h)) (v t) h)
        (p t) h i) (fun t => p t i) (fun t => v t i) (fun t => g0 t / 2) := by
      refine ((J3.const (pb i)).add (((h1.to2.add (J2.const (vb i))).cmul (1 / 2)).shift)).cast
        ?_ ?_ ?_ ?_
      · intro t h
        simp only [stepP, Pi.add_apply, Pi.smul_apply, smul_eq_mul]
        ring
      · intro t; ring
      · intro t; ring
      · intro t; ring
    exact p2.diff (p1.cast (fun _ _ => rfl) (fun t => by rw [add_zero]) (fun _ => rfl) fun _ => rfl)

end MSF
