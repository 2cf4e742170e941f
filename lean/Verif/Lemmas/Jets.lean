import Mathlib.Analysis.Asymptotics.Lemmas
import Mathlib.Analysis.Calculus.MeanValue
import Mathlib.Analysis.Calculus.ContDiff.Basic
import Mathlib.Analysis.Calculus.ContDiff.Deriv
import Mathlib.Analysis.Calculus.Deriv.Pow
import Mathlib.Analysis.Calculus.Deriv.Shift
import Mathlib.Analysis.SpecialFunctions.Pow.Real
import Mathlib.Topology.Order.Compact
import Mathlib.Tactic.LinearCombination

/-! Expansions in powers of a time step `h` of functions of a time `t` and `h`, uniform for `t` in a
set `K`, up to an error of first, second or third order. -/

namespace MSF

open Asymptotics Filter Topology

/-- `t` in `K` and the time step near zero. -/
def Steps (K : Set ℝ) : Filter (ℝ × ℝ) := 𝓟 K ×ˢ 𝓝 0

theorem eventually_steps {K : Set ℝ} {P : ℝ × ℝ → Prop} :
    (∀ᶠ x in Steps K, P x) ↔ ∃ e > 0, ∀ t ∈ K, ∀ h, |h| < e → P (t, h) := by
  rw [Steps, Filter.eventually_prod_iff]
  constructor
  · rintro ⟨pa, ha, pb, hb, h⟩
    obtain ⟨e, he, hb⟩ := Metric.eventually_nhds_iff.1 hb
    exact ⟨e, he, fun t ht x hx => h (ha ht) (hb (by simpa using hx))⟩
  · rintro ⟨e, he, h⟩
    exact ⟨(· ∈ K), mem_principal_self K, fun x => |x| < e,
      Metric.eventually_nhds_iff.2 ⟨e, he, fun x hx => by simpa using hx⟩, fun ht _ hx => h _ ht _ hx⟩

variable {K : Set ℝ} {f g : ℝ → ℝ → ℝ} {a a' a'' b b' b'' : ℝ → ℝ}

/-- Bounded on `K`. -/
def Bd (K : Set ℝ) (a : ℝ → ℝ) : Prop := (fun x : ℝ × ℝ => a x.1) =O[Steps K] fun _ => (1 : ℝ)

/-- Bounded for small steps. -/
def J0 (K : Set ℝ) (f : ℝ → ℝ → ℝ) : Prop :=
  (fun x : ℝ × ℝ => f x.1 x.2) =O[Steps K] fun _ => (1 : ℝ)

/-- `f t h = a t + O(h)`. -/
structure J1 (K : Set ℝ) (f : ℝ → ℝ → ℝ) (a : ℝ → ℝ) : Prop where
  bd : Bd K a
  err : (fun x : ℝ × ℝ => f x.1 x.2 - a x.1) =O[Steps K] fun x => x.2 ^ 1

/-- `f t h = a t + a' t h + O(h²)`. -/
structure J2 (K : Set ℝ) (f : ℝ → ℝ → ℝ) (a a' : ℝ → ℝ) : Prop where
  bd : Bd K a
  bd' : Bd K a'
  err : (fun x : ℝ × ℝ => f x.1 x.2 - (a x.1 + a' x.1 * x.2)) =O[Steps K] fun x => x.2 ^ 2

/-- `f t h = a t + a' t h + a'' t h² + O(h³)`. -/
structure J3 (K : Set ℝ) (f : ℝ → ℝ → ℝ) (a a' a'' : ℝ → ℝ) : Prop where
  bd : Bd K a
  bd' : Bd K a'
  bd'' : Bd K a''
  err : (fun x : ℝ × ℝ => f x.1 x.2 - (a x.1 + a' x.1 * x.2 + a'' x.1 * x.2 ^ 2)) =O[Steps K]
    fun x => x.2 ^ 3

theorem tendsto_step (K : Set ℝ) : Tendsto (fun x : ℝ × ℝ => x.2) (Steps K) (𝓝 0) := tendsto_snd

theorem step_bdd (K : Set ℝ) (n : ℕ) :
    (fun x : ℝ × ℝ => x.2 ^ n) =O[Steps K] fun _ => (1 : ℝ) :=
  ((tendsto_step K).pow n).isBigO_one ℝ

theorem bigO_of_bdd {r : ℝ × ℝ → ℝ} (hr : r =O[Steps K] fun _ => (1 : ℝ)) (n : ℕ) :
    (fun x : ℝ × ℝ => x.2 ^ n * r x) =O[Steps K] fun x => x.2 ^ n := by
  simpa using (isBigO_refl (fun x : ℝ × ℝ => x.2 ^ n) (Steps K)).mul hr

theorem step_mono {m n : ℕ} (h : m ≤ n) :
    (fun x : ℝ × ℝ => x.2 ^ n) =O[Steps K] fun x => x.2 ^ m := by
  refine (bigO_of_bdd (step_bdd K (n - m)) m).congr_left fun x => ?_
  rw [← pow_add, Nat.add_sub_cancel' h]

theorem Bd.add (h : Bd K a) (k : Bd K b) : Bd K (fun t => a t + b t) := IsBigO.add h k

theorem Bd.mul (h : Bd K a) (k : Bd K b) : Bd K (fun t => a t * b t) := by
  simpa [Bd] using IsBigO.mul h k

theorem Bd.const (c : ℝ) : Bd K (fun _ => c) := isBigO_const_const c one_ne_zero _

theorem Bd.of_bound {C : ℝ} (h : ∀ t ∈ K, |a t| ≤ C) : Bd K a := by
  refine IsBigO.of_bound C (eventually_steps.2 ⟨1, one_pos, fun t ht h' _ => ?_⟩)
  simpa using h t ht

theorem J3.to2 (h : J3 K f a a' a'') : J2 K f a a' := by
  refine ⟨h.bd, h.bd', ?_⟩
  have h1 := h.err.trans (step_mono (show 2 ≤ 3 by norm_num))
  have h2 := bigO_of_bdd h.bd'' 2
  exact (h1.add h2).congr_left fun x => by ring

theorem J2.to1 (h : J2 K f a a') : J1 K f a := by
  refine ⟨h.bd, ?_⟩
  have h1 := h.err.trans (step_mono (show 1 ≤ 2 by norm_num))
  have h2 := bigO_of_bdd h.bd' 1
  exact (h1.add h2).congr_left fun x => by ring

theorem J1.to0 (h : J1 K f a) : J0 K f := by
  have h1 := (h.err.trans (step_bdd K 1)).add h.bd
  exact h1.congr_left fun x => by ring

theorem J1.const (c : Bd K a) : J1 K (fun t _ => a t) a :=
  ⟨c, by simp only [sub_self]; exact isBigO_zero _ _⟩

theorem J2.const (c : Bd K a) : J2 K (fun t _ => a t) a (fun _ => 0) :=
  ⟨c, Bd.const 0, by simp only [zero_mul, add_zero, sub_self]; exact isBigO_zero _ _⟩

theorem J3.const (c : Bd K a) : J3 K (fun t _ => a t) a (fun _ => 0) (fun _ => 0) :=
  ⟨c, Bd.const 0, Bd.const 0, by
    simp only [zero_mul, add_zero, sub_self]; exact isBigO_zero _ _⟩

theorem J1.add (h : J1 K f a) (k : J1 K g b) :
    J1 K (fun t x => f t x + g t x) (fun t => a t + b t) :=
  ⟨h.bd.add k.bd, (h.err.add k.err).congr_left fun x => by ring⟩

theorem J2.add (h : J2 K f a a') (k : J2 K g b b') :
    J2 K (fun t x => f t x + g t x) (fun t => a t + b t) (fun t => a' t + b' t) :=
  ⟨h.bd.add k.bd, h.bd'.add k.bd', (h.err.add k.err).congr_left fun x => by ring⟩

theorem J3.add (h : J3 K f a a' a'') (k : J3 K g b b' b'') :
    J3 K (fun t x => f t x + g t x) (fun t => a t + b t) (fun t => a' t + b' t)
      (fun t => a'' t + b'' t) :=
  ⟨h.bd.add k.bd, h.bd'.add k.bd', h.bd''.add k.bd'', (h.err.add k.err).congr_left fun x => by ring⟩

theorem J1.mul (h : J1 K f a) (k : J1 K g b) :
    J1 K (fun t x => f t x * g t x) (fun t => a t * b t) := by
  refine ⟨h.bd.mul k.bd, ?_⟩
  have h1 := h.err.mul k.to0
  have h2 := k.err.mul h.bd
  exact ((h1.congr_right fun x => mul_one _).add (h2.congr_right fun x => mul_one _)).congr_left
    fun x => by ring

theorem J2.mul (h : J2 K f a a') (k : J2 K g b b') :
    J2 K (fun t x => f t x * g t x) (fun t => a t * b t) (fun t => a t * b' t + a' t * b t) := by
  refine ⟨h.bd.mul k.bd, (h.bd.mul k.bd').add (h.bd'.mul k.bd), ?_⟩
  have h1 := h.err.mul k.to1.to0
  have hp : (fun x : ℝ × ℝ => a x.1 + a' x.1 * x.2) =O[Steps K] fun _ => (1 : ℝ) := by
    have := IsBigO.mul h.bd' (step_bdd K 1)
    exact (IsBigO.add h.bd (this.congr_right fun x => mul_one _)).congr_left fun x => by ring
  have h2 := k.err.mul hp
  have h3 := bigO_of_bdd (h.bd'.mul k.bd') 2
  exact (((h1.congr_right fun x => mul_one _).add (h2.congr_right fun x => mul_one _)).add
    h3).congr_left fun x => by ring

theorem J3.mul (h : J3 K f a a' a'') (k : J3 K g b b' b'') :
    J3 K (fun t x => f t x * g t x) (fun t => a t * b t) (fun t => a t * b' t + a' t * b t)
      (fun t => a t * b'' t + a' t * b' t + a'' t * b t) := by
  refine ⟨h.bd.mul k.bd, (h.bd.mul k.bd').add (h.bd'.mul k.bd),
    ((h.bd.mul k.bd'').add (h.bd'.mul k.bd')).add (h.bd''.mul k.bd), ?_⟩
  have h1 := h.err.mul k.to2.to1.to0
  have hp : (fun x : ℝ × ℝ => a x.1 + a' x.1 * x.2 + a'' x.1 * x.2 ^ 2) =O[Steps K]
      fun _ => (1 : ℝ) := by
    have e1 := IsBigO.mul h.bd' (step_bdd K 1)
    have e2 := IsBigO.mul h.bd'' (step_bdd K 2)
    exact ((IsBigO.add h.bd (e1.congr_right fun x => mul_one _)).add
      (e2.congr_right fun x => mul_one _)).congr_left fun x => by ring
  have h2 := k.err.mul hp
  have hr : (fun x : ℝ × ℝ => a' x.1 * b'' x.1 + a'' x.1 * b' x.1 + a'' x.1 * b'' x.1 * x.2)
      =O[Steps K] fun _ => (1 : ℝ) := by
    have e1 := IsBigO.mul (h.bd''.mul k.bd'') (step_bdd K 1)
    exact (IsBigO.add ((h.bd'.mul k.bd'').add (h.bd''.mul k.bd'))
      (e1.congr_right fun x => mul_one _)).congr_left fun x => by ring
  have h3 := bigO_of_bdd hr 3
  exact (((h1.congr_right fun x => mul_one _).add (h2.congr_right fun x => mul_one _)).add
    h3).congr_left fun x => by ring

theorem J1.cmul (c : ℝ) (h : J1 K f a) : J1 K (fun t x => c * f t x) (fun t => c * a t) :=
  (J1.const (Bd.const c)).mul h

theorem J2.cmul (c : ℝ) (h : J2 K f a a') :
    J2 K (fun t x => c * f t x) (fun t => c * a t) (fun t => c * a' t) :=
  ⟨(Bd.const c).mul h.bd, (Bd.const c).mul h.bd',
    (h.err.const_mul_left c).congr_left fun x => by ring⟩

theorem J3.cmul (c : ℝ) (h : J3 K f a a' a'') :
    J3 K (fun t x => c * f t x) (fun t => c * a t) (fun t => c * a' t) (fun t => c * a'' t) :=
  ⟨(Bd.const c).mul h.bd, (Bd.const c).mul h.bd', (Bd.const c).mul h.bd'',
    (h.err.const_mul_left c).congr_left fun x => by ring⟩

/-- Multiplication by the step raises the order. -/
theorem J1.shift (h : J1 K f a) : J2 K (fun t x => x * f t x) (fun _ => 0) a :=
  ⟨Bd.const 0, h.bd, (((isBigO_refl (fun x : ℝ × ℝ => x.2) (Steps K)).mul h.err).congr_left
    fun x => by ring).congr_right fun x => by ring⟩

theorem J2.shift (h : J2 K f a a') : J3 K (fun t x => x * f t x) (fun _ => 0) a a' :=
  ⟨Bd.const 0, h.bd, h.bd', (((isBigO_refl (fun x : ℝ × ℝ => x.2) (Steps K)).mul h.err).congr_left
    fun x => by ring).congr_right fun x => by ring⟩

theorem J1.cast (h : J1 K f a) (e : ∀ t x, f t x = g t x) (e0 : ∀ t, a t = b t) : J1 K g b := by
  obtain rfl : f = g := funext fun t => funext (e t)
  obtain rfl := funext e0
  exact h

theorem J2.cast (h : J2 K f a a') (e : ∀ t x, f t x = g t x) (e0 : ∀ t, a t = b t)
    (e1 : ∀ t, a' t = b' t) : J2 K g b b' := by
  obtain rfl : f = g := funext fun t => funext (e t)
  obtain rfl := funext e0
  obtain rfl := funext e1
  exact h

theorem J3.cast (h : J3 K f a a' a'') (e : ∀ t x, f t x = g t x) (e0 : ∀ t, a t = b t)
    (e1 : ∀ t, a' t = b' t) (e2 : ∀ t, a'' t = b'' t) : J3 K g b b' b'' := by
  obtain rfl : f = g := funext fun t => funext (e t)
  obtain rfl := funext e0
  obtain rfl := funext e1
  obtain rfl := funext e2
  exact h

/-- Two functions with one expansion agree to third order. -/
theorem J3.diff (h : J3 K f a a' a'') (k : J3 K g a a' a'') :
    (fun x : ℝ × ℝ => f x.1 x.2 - g x.1 x.2) =O[Steps K] fun x => x.2 ^ 3 :=
  (h.err.sub k.err).congr_left fun x => by ring

/-- If the derivative is small of order `n`, the function is small of order `n + 1`. -/
theorem bigO_integrate {F G : ℝ → ℝ → ℝ} (n : ℕ)
    (hF : ∀ t x, HasDerivAt (F t) (G t x) x) (h0 : ∀ t, F t 0 = 0)
    (hG : (fun x : ℝ × ℝ => G x.1 x.2) =O[Steps K] fun x => x.2 ^ n) :
    (fun x : ℝ × ℝ => F x.1 x.2) =O[Steps K] fun x => x.2 ^ (n + 1) := by
  obtain ⟨C, hC0, hC⟩ := hG.exists_nonneg
  obtain ⟨e, he, hb⟩ := eventually_steps.1 hC.bound
  refine IsBigO.of_bound C (eventually_steps.2 ⟨e, he, fun t ht x hx => ?_⟩)
  have key := Convex.norm_image_sub_le_of_norm_hasDerivWithin_le (f := F t) (f' := G t)
    (s := Set.uIcc 0 x) (x := 0) (y := x) (C := C * |x| ^ n)
    (fun y _ => (hF t y).hasDerivWithinAt) (by
      intro y hy
      have hyx : |y| ≤ |x| := by
        rcases Set.mem_uIcc.1 hy with ⟨h1, h2⟩ | ⟨h1, h2⟩
        · rw [abs_of_nonneg h1, abs_of_nonneg (h1.trans h2)]; exact h2
        · rw [abs_of_nonpos h2, abs_of_nonpos (h1.trans h2)]; linarith
      have h1 := hb t ht y (lt_of_le_of_lt hyx hx)
      rw [norm_pow, Real.norm_eq_abs y] at h1
      exact h1.trans (mul_le_mul_of_nonneg_left (pow_le_pow_left₀ (abs_nonneg y) hyx n) hC0))
    (convex_uIcc 0 x) Set.left_mem_uIcc Set.right_mem_uIcc
  rw [h0, sub_zero, sub_zero] at key
  rw [norm_pow, Real.norm_eq_abs x, pow_succ, ← mul_assoc]
  exact key

/-- The expansion of an integral. -/
theorem J0.integrate {F : ℝ → ℝ → ℝ} (hF : ∀ t x, HasDerivAt (F t) (f t x) x)
    (hb : Bd K fun t => F t 0) (h : J0 K f) : J1 K F (fun t => F t 0) := by
  refine ⟨hb, ?_⟩
  exact bigO_integrate (F := fun t x => F t x - F t 0) (G := f) 0
    (fun t x => (hF t x).sub_const _) (by simp) (IsBigO.congr_right h fun x => (pow_zero _).symm)

theorem J1.integrate {F : ℝ → ℝ → ℝ} (hF : ∀ t x, HasDerivAt (F t) (f t x) x)
    (hb : Bd K fun t => F t 0) (h : J1 K f a) : J2 K F (fun t => F t 0) a := by
  refine ⟨hb, h.bd, ?_⟩
  exact bigO_integrate (F := fun t x => F t x - (F t 0 + a t * x)) (G := fun t x => f t x - a t) 1
    (fun t x => by
      have h1 : HasDerivAt (fun x => F t 0 + a t * x) (a t) x := by
        simpa using ((hasDerivAt_id x).const_mul (a t)).const_add (F t 0)
      exact (hF t x).sub h1) (by simp) h.err

theorem J2.integrate {F : ℝ → ℝ → ℝ} (hF : ∀ t x, HasDerivAt (F t) (f t x) x)
    (hb : Bd K fun t => F t 0) (h : J2 K f a a') :
    J3 K F (fun t => F t 0) a (fun t => a' t / 2) := by
  refine ⟨hb, h.bd, ?_, ?_⟩
  · have := h.bd'.mul (Bd.const (1 / 2))
    exact IsBigO.congr_left this fun x => by ring
  · exact bigO_integrate (F := fun t x => F t x - (F t 0 + a t * x + a' t / 2 * x ^ 2))
      (G := fun t x => f t x - (a t + a' t * x)) 2
      (fun t x => by
        have h1 : HasDerivAt (fun x => F t 0 + a t * x + a' t / 2 * x ^ 2) (a t + a' t * x) x := by
          have h2 := (((hasDerivAt_id x).const_mul (a t)).const_add (F t 0)).add
            ((hasDerivAt_pow 2 x).const_mul (a' t / 2))
          refine h2.congr_deriv ?_
          simp; ring
        exact (hF t x).sub h1) (by simp) h.err

/-- A continuous function is bounded on an interval and around it. -/
theorem J0.of_cont {F : ℝ → ℝ} (h : Continuous F) (A B : ℝ) :
    J0 (Set.Icc A B) fun t x => F (t + x) := by
  obtain ⟨C, hC⟩ := isCompact_Icc.exists_bound_of_continuousOn
    (h.continuousOn (s := Set.Icc (A - 1) (B + 1)))
  refine IsBigO.of_bound C (eventually_steps.2 ⟨1, one_pos, fun t ht x hx => ?_⟩)
  have hx' := abs_lt.1 hx
  simpa using hC (t + x) ⟨by linarith [ht.1], by linarith [ht.2]⟩

theorem Bd.of_cont {F : ℝ → ℝ} (h : Continuous F) (A B : ℝ) : Bd (Set.Icc A B) F := by
  obtain ⟨C, hC⟩ := isCompact_Icc.exists_bound_of_continuousOn (h.continuousOn (s := Set.Icc A B))
  exact Bd.of_bound fun t ht => hC t ht

/-- A continuously differentiable function has an expansion of first order. -/
theorem J1.of_deriv {F G : ℝ → ℝ} (h : ∀ t, HasDerivAt F (G t) t) (hG : Continuous G) (A B : ℝ) :
    J1 (Set.Icc A B) (fun t x => F (t + x)) F := by
  have hF : Continuous F := continuous_iff_continuousAt.2 fun t => (h t).continuousAt
  have := (J0.of_cont hG A B).integrate (F := fun t x => F (t + x))
    (fun t x => (h (t + x)).comp_const_add t x) (by simpa using Bd.of_cont hF A B)
  exact this.cast (fun _ _ => rfl) (fun t => by rw [add_zero])

/-- A twice continuously differentiable function has an expansion of second order. -/
theorem J2.of_contDiff {F : ℝ → ℝ} (h : ContDiff ℝ 2 F) (A B : ℝ) :
    J2 (Set.Icc A B) (fun t x => F (t + x)) F (deriv F) := by
  have h1 : ContDiff ℝ 1 (deriv F) := by
    have : ContDiff ℝ (1 + 1) F := by simpa [one_add_one_eq_two] using h
    exact (contDiff_succ_iff_deriv.1 this).2.2
  have h2 := J1.of_deriv (F := deriv F) (G := deriv (deriv F))
    (fun t => ((h1.differentiable (by norm_num)) t).hasDerivAt)
    (contDiff_one_iff_deriv.1 h1).2 A B
  have h3 := h2.integrate (F := fun t x => F (t + x))
    (fun t x => (((h.differentiable (by norm_num)) (t + x)).hasDerivAt).comp_const_add t x)
    (by simpa using Bd.of_cont h.continuous A B)
  exact h3.cast (fun _ _ => rfl) (fun t => by rw [add_zero]) fun _ => rfl

/-- The reciprocal of the square root of a function that is one up to third order. -/
theorem J3.inv_sqrt (h : J3 K f (fun _ => 1) (fun _ => 0) (fun _ => 0)) :
    J3 K (fun t x => 1 / Real.sqrt (f t x)) (fun _ => 1) (fun _ => 0) (fun _ => 0) := by
  refine ⟨Bd.const 1, Bd.const 0, Bd.const 0, ?_⟩
  have h' : (fun x : ℝ × ℝ => f x.1 x.2 - 1) =O[Steps K] fun x => x.2 ^ 3 :=
    h.err.congr_left fun x => by ring
  have ht : Tendsto (fun x : ℝ × ℝ => f x.1 x.2 - 1) (Steps K) (𝓝 0) :=
    h'.trans_tendsto (by simpa using (tendsto_step K).pow 3)
  have hn : ∀ᶠ x in Steps K, |f x.1 x.2 - 1| < 3 / 4 := by
    have := ht.eventually (Metric.ball_mem_nhds (0 : ℝ) (show (0 : ℝ) < 3 / 4 by norm_num))
    simpa using this
  have hb : (fun x : ℝ × ℝ => 1 / Real.sqrt (f x.1 x.2) - 1) =O[Steps K]
      fun x => f x.1 x.2 - 1 := by
    refine IsBigO.of_bound 2 ?_
    filter_upwards [hn] with x hx
    have hx1 := abs_lt.1 hx
    have hf : 1 / 4 < f x.1 x.2 := by linarith [hx1.1]
    set r := Real.sqrt (f x.1 x.2) with hr
    have hr2 : r * r = f x.1 x.2 := Real.mul_self_sqrt (by linarith)
    have hr0 : 1 / 2 < r := by
      have : 0 ≤ r := Real.sqrt_nonneg _
      nlinarith
    rw [Real.norm_eq_abs, Real.norm_eq_abs, ← hr2]
    have e : 1 / r - 1 = -(r * r - 1) / (r * (r + 1)) := by
      field_simp
      ring
    rw [e, abs_div, abs_neg, div_le_iff₀ (by positivity)]
    have : |r * (r + 1)| = r * (r + 1) := abs_of_pos (by positivity)
    rw [this]
    nlinarith [abs_nonneg (r * r - 1), mul_nonneg (abs_nonneg (r * r - 1))
      (show (0 : ℝ) ≤ 2 * (r * (r + 1)) - 1 by nlinarith)]
  exact (hb.trans h').congr_left fun x => by ring

end MSF
