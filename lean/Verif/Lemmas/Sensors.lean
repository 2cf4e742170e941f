import Verif.Model.Sensors
import Verif.Spec.Deriv
import Verif.Lemmas.Gps
import Verif.Props.Layout
import Verif.Props.Similarity
import Mathlib.Analysis.Calculus.Deriv.Prod
import Mathlib.Analysis.Calculus.Deriv.Mul
import Mathlib.Analysis.SpecialFunctions.Sqrt

/-!
# Helper lemmas for the sensor models
-/

namespace MSF

open Matrix

section
variable {D : List VarDesc}

/-- The entries of an error state vector from `o` on. -/
def segD {n : Nat} (c : Fin n → ℝ) (o k : Nat) : Fin k → ℝ :=
  fun j => if h : o + j < n then c ⟨o + j, h⟩ else 0

/-- The part of an error state vector that belongs to the variable at position `i`. -/
def segOf (c : Fin (total errLen D) → ℝ) (i k : Nat) : Fin k → ℝ := segD c (offset errLen D i) k

theorem segOf_smul (c : Fin (total errLen D) → ℝ) (i k : Nat) (ε : ℝ) :
    segOf (ε • c) i k = ε • segOf c i k := by
  funext j
  simp only [segOf, segD, Pi.smul_apply, smul_eq_mul]
  split <;> simp

theorem ownSegment_eq (c : Fin (total errLen D) → ℝ) (i : Fin D.length) (n : Nat)
    (hn : errLen (D.get i) = n) : ownSegment c i n hn = segOf c i n := by
  funext j
  have := offset_add_len_le (D := D) errLen i i.2
  have h2 : errLen D[i.val] = n := hn
  have := j.2
  simp only [segOf, segD, ownSegment]
  rw [dif_pos (by omega)]
  rfl

theorem getVec_kind {R : Type} (s : Vars R D) {i n : Nat} {x : Fin n → R} (h : getVec s i n = some x) :
    ∃ hi : i < D.length, (D.get ⟨i, hi⟩).kind = .vec n := by
  unfold getVec at h
  split at h
  · rename_i hi
    refine ⟨hi, ?_⟩
    revert h
    generalize (s ⟨i, hi⟩).val = v
    revert v
    generalize (D.get ⟨i, hi⟩).kind = k
    intro v h
    cases k with
    | vec m =>
      simp only [vecOf] at h
      split at h
      · rename_i hm; rw [hm]
      · cases h
    | quat => cases h
  · cases h

theorem getQuat_kind {R : Type} (s : Vars R D) {i : Nat} {x : Quat R} (h : getQuat s i = some x) :
    ∃ hi : i < D.length, (D.get ⟨i, hi⟩).kind = .quat := by
  unfold getQuat at h
  split at h
  · rename_i hi
    refine ⟨hi, ?_⟩
    revert h
    generalize (s ⟨i, hi⟩).val = v
    revert v
    generalize (D.get ⟨i, hi⟩).kind = k
    intro v h
    cases k with
    | vec m => cases h
    | quat => rfl
  · cases h

theorem PlainVars.quats (h : PlainVars D) : PlainQuats D := fun d hd _ => h d hd

theorem vecOf_corrected {i : Fin D.length} (ho : (D.get i).multiplicative = false)
    (c : Fin (total errLen D) → ℝ) {n : Nat} :
    ∀ (k : Kind) (hk : (D.get i).kind = k) (x y : Val ℝ k), CorrectedVal c i k hk x y →
      ∀ u, vecOf n k x = some u → vecOf n k y = some (u + segOf c i n) := by
  intro k hk x y hc u hu
  cases k with
  | vec m =>
    simp only [vecOf] at hu ⊢
    split at hu
    · rename_i hm
      subst hm
      rw [dif_pos rfl, ← Option.some.inj hu]
      congr 1
      funext j
      have := hc j
      rw [if_neg (by rw [ho]; decide), ownSegment_eq] at this
      exact this
    · cases hu
  | quat => cases hu

theorem quatOf_corrected {i : Fin D.length} (c : Fin (total errLen D) → ℝ) :
    ∀ (k : Kind) (hk : (D.get i).kind = k) (x y : Val ℝ k), CorrectedVal c i k hk x y →
      ∀ u, quatOf k x = some u → quatOf k y = some (u.mul (quatFromSmallAngle (segOf c i 3))) := by
  intro k hk x y hc u hu
  cases k with
  | vec m => cases hu
  | quat =>
    have hc' : y = Quat.mul x (quatFromSmallAngle (ownSegment c i 3 (by rw [errLen, hk]; rfl))) := hc
    rw [ownSegment_eq] at hc'
    rw [hc', ← Option.some.inj hu]
    rfl

/-- The correction in terms of reads. -/
theorem correct_reads (s : Vars ℝ D) (c : Fin (total errLen D) → ℝ)
    (h : ∀ i (hi : i < D.length), D[i].name = i) (hp : PlainVars D) (hu : UnitQuats s) :
    ∃ s', correct s c = some s' ∧
      (∀ i n u, getVec s i n = some u → getVec s' i n = some (u + segOf c i n)) ∧
      (∀ i u, getQuat s i = some u →
        getQuat s' i = some (u.mul (quatFromSmallAngle (segOf c i 3)))) := by
  obtain ⟨s', e, hs⟩ := C36_correct s c h hp.quats hu
  refine ⟨s', e, ?_, ?_⟩
  · intro i n u hi
    obtain ⟨hl, _⟩ := getVec_kind s hi
    unfold getVec at hi ⊢
    rw [dif_pos hl] at hi ⊢
    have ho : (D.get ⟨i, hl⟩).multiplicative = false := by
      rw [VarDesc.multiplicative, hp _ (List.get_mem D ⟨i, hl⟩)]; rfl
    exact vecOf_corrected ho c _ rfl _ _ (hs ⟨i, hl⟩).1 u hi
  · intro i u hi
    obtain ⟨hl, _⟩ := getQuat_kind s hi
    unfold getQuat at hi ⊢
    rw [dif_pos hl] at hi ⊢
    exact quatOf_corrected c _ rfl _ _ (hs ⟨i, hl⟩).1 u hi

theorem getQuat_unit {s : Vars ℝ D} (hu : UnitQuats s) {i : Nat} {u : Quat ℝ}
    (h : getQuat s i = some u) : u.normSq = 1 := by
  obtain ⟨hl, _⟩ := getQuat_kind s h
  unfold getQuat at h
  rw [dif_pos hl] at h
  exact hu _ _ h

theorem getVec_p {R : Type} {aux : List VarDesc} (s : Vars R (coreDef aux)) :
    getVec s 0 3 = some (EKFState.p s) := rfl

theorem getQuat_q {R : Type} {aux : List VarDesc} (s : Vars R (coreDef aux)) :
    getQuat s 2 = some (EKFState.q s) := rfl

/-! ### Blocks of the measurement matrix -/

/-- Rows of a block inside a larger vector. -/
def pad {m a : Nat} (row : Nat) (u : Fin a → ℝ) : Fin m → ℝ :=
  fun r => if h : row ≤ r ∧ r < row + a then u ⟨r - row, by omega⟩ else 0

/-- The part of the rows `row .. row + a - 1` that belongs to a variable is zero. -/
def ZeroVar {m : Nat} (H : Matrix (Fin m) (Fin (total errLen D)) ℝ) (row a i : Nat)
    (hi : i < D.length) : Prop :=
  ∀ r c, row ≤ r.val → r.val < row + a → offset errLen D i ≤ c.val →
    c.val < offset errLen D i + errLen D[i] → H r c = 0

theorem zeroVar_zero {m : Nat} (row a i : Nat) (hi : i < D.length) :
    ZeroVar (0 : Matrix (Fin m) (Fin (total errLen D)) ℝ) row a i hi := fun _ _ _ _ _ _ => rfl

theorem startIndexInCorrection_get (h : indexingErrors D = 0) (i : Nat) (hi : i < D.length) :
    startIndexInCorrection D i = some (offset errLen D i : Int) := by
  unfold startIndexInCorrection
  rw [List.getElem?_eq_getElem hi]
  exact startIndex_get errLen h i hi

theorem putBlock_eq (h : indexingErrors D = 0) {m a b : Nat}
    (H : Matrix (Fin m) (Fin (total errLen D)) ℝ) (row i : Nat) (hi : i < D.length)
    (B : Matrix (Fin a) (Fin b) ℝ) (off : Nat) (hb : off + b ≤ errLen D[i]) (hr : row + a ≤ m) :
    putBlock H row i B off = some (setBlock H row (offset errLen D i + off) B) := by
  have := offset_add_len_le (D := D) errLen i hi
  unfold putBlock
  rw [startIndexInCorrection_get h i hi]
  simp only [Option.bind_eq_bind, Option.bind_some]
  rw [if_pos ⟨by omega, by simp only [Int.toNat_natCast]; omega, hr⟩]
  simp

theorem setBlock_mulVec {m n a b : Nat} (H : Matrix (Fin m) (Fin n) ℝ) (row col : Nat)
    (B : Matrix (Fin a) (Fin b) ℝ) (hc : col + b ≤ n)
    (hz : ∀ r c, row ≤ r.val → r.val < row + a → col ≤ c.val → c.val < col + b → H r c = 0)
    (δ : Fin n → ℝ) :
    setBlock H row col B *ᵥ δ = H *ᵥ δ + pad row (B *ᵥ segD δ col b) := by
  funext r
  simp only [Matrix.mulVec, dotProduct, Pi.add_apply, pad]
  by_cases hr : row ≤ r.val ∧ r.val < row + a
  · rw [dif_pos hr]
    have e : ∀ c : Fin n, setBlock H row col B r c * δ c = H r c * δ c +
        (if h : col ≤ c.val ∧ c.val < col + b then B ⟨r - row, by omega⟩ ⟨c - col, by omega⟩ * δ c
          else 0) := by
      intro c
      simp only [setBlock, Matrix.of_apply]
      by_cases hcc : col ≤ c.val ∧ c.val < col + b
      · rw [dif_pos ⟨hr, hcc⟩, dif_pos hcc, hz r c hr.1 hr.2 hcc.1 hcc.2, zero_mul, zero_add]
      · rw [dif_neg (fun h => hcc h.2), dif_neg hcc, add_zero]
    rw [Finset.sum_congr rfl (fun c _ => e c), Finset.sum_add_distrib]
    congr 1
    symm
    let f : Fin b → Fin n := fun j => ⟨col + j, by omega⟩
    have hf : Function.Injective f := fun x y h => by
      have := congrArg Fin.val h
      simp only [f] at this
      exact Fin.ext (by omega)
    have : ∀ j : Fin b, B ⟨r - row, by omega⟩ j * segD δ col b j =
        (fun c : Fin n => if h : col ≤ c.val ∧ c.val < col + b then
          B ⟨r - row, by omega⟩ ⟨c - col, by omega⟩ * δ c else 0) (f j) := by
      intro j
      have hj := j.2
      simp only [f, segD]
      rw [dif_pos (by omega), dif_pos ⟨by omega, by omega⟩]
      congr 2
      exact Fin.ext (by simp)
    rw [Finset.sum_congr rfl (fun j _ => this j)]
    refine Finset.sum_of_injOn f hf.injOn (fun _ _ => Finset.mem_coe.2 (Finset.mem_univ _)) ?_ (fun _ _ => rfl)
    intro c _ hn
    rw [dif_neg]
    intro hcc
    exact hn ⟨⟨c - col, by omega⟩, Finset.mem_coe.2 (Finset.mem_univ _), Fin.ext (by simp [f]; omega)⟩
  · rw [dif_neg hr, add_zero]
    refine Finset.sum_congr rfl fun c _ => ?_
    simp only [setBlock, Matrix.of_apply]
    rw [dif_neg (fun h => hr h.1)]

theorem putBlock_mulVec (h : indexingErrors D = 0) {m a b : Nat}
    (H : Matrix (Fin m) (Fin (total errLen D)) ℝ) (row i : Nat) (hi : i < D.length)
    (B : Matrix (Fin a) (Fin b) ℝ) (off : Nat) (hb : off + b ≤ errLen D[i]) (hr : row + a ≤ m)
    (hz : ZeroVar H row a i hi) :
    ∃ H', putBlock H row i B off = some H' ∧
      (∀ δ, H' *ᵥ δ = H *ᵥ δ + pad row (B *ᵥ segD δ (offset errLen D i + off) b)) ∧
      ∀ row' a' i' (hi' : i' < D.length), ZeroVar H row' a' i' hi' →
        (i ≠ i' ∨ row + a ≤ row' ∨ row' + a' ≤ row) → ZeroVar H' row' a' i' hi' := by
  have hle := offset_add_len_le (D := D) errLen i hi
  refine ⟨_, putBlock_eq h H row i hi B off hb hr, fun δ => ?_, ?_⟩
  · exact setBlock_mulVec H row _ B (by omega)
      (fun r c h1 h2 h3 h4 => hz r c h1 h2 (by omega) (by omega)) δ
  · intro row' a' i' hi' hz' hd r c h1 h2 h3 h4
    simp only [setBlock, Matrix.of_apply]
    rw [dif_neg]
    · exact hz' r c h1 h2 h3 h4
    · rintro ⟨⟨h5, h6⟩, h7, h8⟩
      rcases hd with hd | hd | hd
      · exact hd (owner_unique errLen c hi hi' (by omega) (by omega) h3 h4)
      · omega
      · omega

end

/-! ### Derivatives -/

/-- Entry-wise derivative of a matrix-valued function. -/
def MatDeriv {m n : Nat} (A : ℝ → Matrix (Fin m) (Fin n) ℝ) (A' : Matrix (Fin m) (Fin n) ℝ)
    (t : ℝ) : Prop := ∀ i j, HasDerivAt (fun ε => A ε i j) (A' i j) t

theorem hasDerivAt_mulVec {m n : Nat} {A : ℝ → Matrix (Fin m) (Fin n) ℝ}
    {A' : Matrix (Fin m) (Fin n) ℝ} {x : ℝ → Fin n → ℝ} {x' : Fin n → ℝ} {t : ℝ}
    (hA : MatDeriv A A' t) (hx : HasDerivAt x x' t) :
    HasDerivAt (fun ε => A ε *ᵥ x ε) (A' *ᵥ x t + A t *ᵥ x') t := by
  rw [hasDerivAt_pi] at hx ⊢
  intro i
  have : HasDerivAt (fun ε => ∑ j, A ε i j * x ε j) (∑ j, (A' i j * x t j + A t i j * x' j)) t :=
    HasDerivAt.fun_sum fun j _ => (hA i j).mul (hx j)
  rw [Finset.sum_add_distrib] at this
  exact this

theorem matDeriv_const_mul {k m n : Nat} (C : Matrix (Fin k) (Fin m) ℝ)
    {A : ℝ → Matrix (Fin m) (Fin n) ℝ} {A' : Matrix (Fin m) (Fin n) ℝ} {t : ℝ}
    (hA : MatDeriv A A' t) : MatDeriv (fun ε => C * A ε) (C * A') t := by
  intro i j
  simp only [Matrix.mul_apply]
  exact HasDerivAt.fun_sum fun l _ => (hA l j).const_mul (C i l)

/-- Component-wise derivative of a quaternion-valued function. -/
structure QDeriv (a : ℝ → Quat ℝ) (a' : Quat ℝ) (t : ℝ) : Prop where
  w : HasDerivAt (fun ε => (a ε).w) a'.w t
  x : HasDerivAt (fun ε => (a ε).x) a'.x t
  y : HasDerivAt (fun ε => (a ε).y) a'.y t
  z : HasDerivAt (fun ε => (a ε).z) a'.z t

def qadd (a b : Quat ℝ) : Quat ℝ := ⟨a.w + b.w, a.x + b.x, a.y + b.y, a.z + b.z⟩

theorem QDeriv.mul {a b : ℝ → Quat ℝ} {a' b' : Quat ℝ} {t : ℝ} (ha : QDeriv a a' t)
    (hb : QDeriv b b' t) :
    QDeriv (fun ε => (a ε).mul (b ε)) (qadd (a'.mul (b t)) ((a t).mul b')) t := by
  constructor
  · refine ((((ha.w.mul hb.w).sub (ha.x.mul hb.x)).sub (ha.y.mul hb.y)).sub (ha.z.mul hb.z)).congr_deriv ?_
    simp only [qadd, Quat.mul]; ring
  · refine ((((ha.w.mul hb.x).add (ha.x.mul hb.w)).add (ha.y.mul hb.z)).sub (ha.z.mul hb.y)).congr_deriv ?_
    simp only [qadd, Quat.mul]; ring
  · refine ((((ha.w.mul hb.y).add (ha.y.mul hb.w)).add (ha.z.mul hb.x)).sub (ha.x.mul hb.z)).congr_deriv ?_
    simp only [qadd, Quat.mul]; ring
  · refine ((((ha.w.mul hb.z).add (ha.z.mul hb.w)).add (ha.x.mul hb.y)).sub (ha.y.mul hb.x)).congr_deriv ?_
    simp only [qadd, Quat.mul]; ring

theorem QDeriv.const (a : Quat ℝ) (t : ℝ) : QDeriv (fun _ => a) ⟨0, 0, 0, 0⟩ t :=
  ⟨hasDerivAt_const _ _, hasDerivAt_const _ _, hasDerivAt_const _ _, hasDerivAt_const _ _⟩

theorem QDeriv.conj {a : ℝ → Quat ℝ} {a' : Quat ℝ} {t : ℝ} (ha : QDeriv a a' t) :
    QDeriv (fun ε => (a ε).conj) a'.conj t :=
  ⟨ha.w, ha.x.neg, ha.y.neg, ha.z.neg⟩

theorem quatFromSmallAngle_zero : quatFromSmallAngle (0 : V3 ℝ) = Quat.one := by
  simp [quatFromSmallAngle, sqNorm3, Quat.one]

/-- The derivative of the small angle quaternion at zero. -/
theorem smallAngle_deriv (θ : V3 ℝ) :
    QDeriv (fun ε => quatFromSmallAngle (ε • θ)) ⟨0, θ 0 / 2, θ 1 / 2, θ 2 / 2⟩ 0 := by
  have hq : ∀ ε : ℝ, sqNorm3 (ε • θ) / 4 = ε ^ 2 * (sqNorm3 θ / 4) := by
    intro ε; simp [sqNorm3]; ring
  have hc : Continuous fun ε : ℝ => ε ^ 2 * (sqNorm3 θ / 4) := by fun_prop
  have hev : ∀ᶠ ε : ℝ in nhds 0, ε ^ 2 * (sqNorm3 θ / 4) < 1 := by
    have := hc.tendsto 0
    simp only [ne_eq, OfNat.ofNat_ne_zero, not_false_eq_true, zero_pow, zero_mul] at this
    exact this.eventually (gt_mem_nhds (by norm_num : (0 : ℝ) < 1))
  have e : ∀ᶠ ε : ℝ in nhds 0, quatFromSmallAngle (ε • θ) =
      ⟨Real.sqrt (1 - ε ^ 2 * (sqNorm3 θ / 4)), ε * (θ 0 / 2), ε * (θ 1 / 2), ε * (θ 2 / 2)⟩ := by
    filter_upwards [hev] with ε hε
    simp only [quatFromSmallAngle, hq]
    rw [if_pos hε]
    simp only [Pi.smul_apply, smul_eq_mul, Quat.mk.injEq, true_and]
    refine ⟨by ring, by ring, by ring⟩
  have hlin : ∀ c : ℝ, HasDerivAt (fun ε : ℝ => ε * c) c 0 := by
    intro c
    have := (hasDerivAt_id (0 : ℝ)).mul_const c
    rw [one_mul] at this
    exact this
  refine ⟨?_, ?_, ?_, ?_⟩
  · have hin : HasDerivAt (fun ε : ℝ => 1 - ε ^ 2 * (sqNorm3 θ / 4)) 0 0 := by
      have := ((hasDerivAt_pow 2 (0 : ℝ)).mul_const (sqNorm3 θ / 4)).const_sub 1
      refine this.congr_deriv ?_
      simp
    have hs := hin.sqrt (by simp)
    refine (hs.congr_of_eventuallyEq ?_).congr_deriv (by simp)
    filter_upwards [e] with ε hε
    rw [hε]
  · refine (hlin _).congr_of_eventuallyEq ?_
    filter_upwards [e] with ε hε
    rw [hε]
  · refine (hlin _).congr_of_eventuallyEq ?_
    filter_upwards [e] with ε hε
    rw [hε]
  · refine (hlin _).congr_of_eventuallyEq ?_
    filter_upwards [e] with ε hε
    rw [hε]

/-- The derivative of the small rotation at zero. -/
theorem smallRot_deriv (θ : V3 ℝ) :
    MatDeriv (fun ε => (quatFromSmallAngle (ε • θ)).toRot) (skew θ) 0 := by
  have d := smallAngle_deriv θ
  have hm : ∀ {f g : ℝ → ℝ} {f' g' : ℝ}, HasDerivAt f f' 0 → HasDerivAt g g' 0 →
      HasDerivAt (fun ε => 2 * f ε * g ε) (2 * f' * g 0 + 2 * f 0 * g') 0 := by
    intro f g f' g' hf hg
    exact (hf.const_mul 2).mul hg
  intro i j
  have one : HasDerivAt (fun _ : ℝ => (1 : ℝ)) 0 0 := hasDerivAt_const _ _
  fin_cases i <;> fin_cases j
  · exact (one.sub ((hm d.y d.y).add (hm d.z d.z))).congr_deriv (by
      simp [quatFromSmallAngle_zero, Quat.one, skew])
  · exact ((hm d.y d.x).sub (hm d.z d.w)).congr_deriv (by simp [quatFromSmallAngle_zero, Quat.one, skew]; try ring)
  · exact ((hm d.z d.x).add (hm d.y d.w)).congr_deriv (by simp [quatFromSmallAngle_zero, Quat.one, skew]; try ring)
  · exact ((hm d.y d.x).add (hm d.z d.w)).congr_deriv (by simp [quatFromSmallAngle_zero, Quat.one, skew]; try ring)
  · exact (one.sub ((hm d.x d.x).add (hm d.z d.z))).congr_deriv (by
      simp [quatFromSmallAngle_zero, Quat.one, skew])
  · exact ((hm d.z d.y).sub (hm d.x d.w)).congr_deriv (by simp [quatFromSmallAngle_zero, Quat.one, skew]; try ring)
  · exact ((hm d.z d.x).sub (hm d.y d.w)).congr_deriv (by simp [quatFromSmallAngle_zero, Quat.one, skew]; try ring)
  · exact ((hm d.z d.y).add (hm d.x d.w)).congr_deriv (by simp [quatFromSmallAngle_zero, Quat.one, skew]; try ring)
  · exact (one.sub ((hm d.x d.x).add (hm d.y d.y))).congr_deriv (by
      simp [quatFromSmallAngle_zero, Quat.one, skew])

/-- A rotation perturbed on the right. -/
theorem rot_deriv (q : Quat ℝ) (hq : q.normSq = 1) (θ : V3 ℝ) :
    MatDeriv (fun ε : ℝ => (q.mul (quatFromSmallAngle (ε • θ))).toRot) (q.toRot * skew θ) 0 := by
  have e : (fun ε : ℝ => (q.mul (quatFromSmallAngle (ε • θ))).toRot) =
      fun ε : ℝ => q.toRot * (quatFromSmallAngle (ε • θ)).toRot := by
    funext ε
    exact toRot_mul q _ hq (quatFromSmallAngle_unit _)
  rw [e]
  exact matDeriv_const_mul _ (smallRot_deriv θ)

theorem line_deriv {n : Nat} (x δ : Fin n → ℝ) : HasDerivAt (fun ε : ℝ => x + ε • δ) δ 0 := by
  have := ((hasDerivAt_id (0 : ℝ)).smul_const δ).const_add x
  rw [one_smul] at this
  exact this

theorem skew_comm (a b : V3 ℝ) : skew a *ᵥ b = -(skew b *ᵥ a) := by
  funext i
  fin_cases i <;>
    simp [skew, Matrix.mulVec, dotProduct, Fin.sum_univ_three] <;> ring

end MSF
