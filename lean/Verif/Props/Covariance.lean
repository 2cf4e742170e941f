import Verif.Lemmas.Covariance
import Verif.Lemmas.Layout
import Verif.Props.Layout
import Verif.Props.Propagation

/-!
# Properties of the covariance update: C28, C30, C31, C34, C56
-/

namespace MSF

open Matrix

section
variable {k : Nat} {m : Type} [Fintype m] [DecidableEq m]

/-! ### Positive semidefiniteness -/

/-- **C28.**  For every symmetric positive semidefinite covariance, every measurement matrix, every
positive semidefinite measurement noise and *every* gain the new covariance is symmetric positive
semidefinite. -/
theorem C28_update_psd (P : Matrix (Fin k) (Fin k) ℝ) (hP : P.PosSemidef) (H : Matrix m (Fin k) ℝ)
    (R : Matrix m m ℝ) (hR : R.PosSemidef) (K : Matrix (Fin k) m ℝ) :
    (josephUpdate P H R K).PosSemidef := by
  have h := joseph_psd hP hR H K
  rw [josephUpdate, symInPlace_of_symm _ (psd_transpose_eq h)]
  exact h

/-- The sequence of covariances under any list of measurements of any dimensions, rejected ones
included. -/
noncomputable def updateChain (k : Nat) : Matrix (Fin k) (Fin k) ℝ →
    List ((d : Nat) × Bool × ℝ × Matrix (Fin d) (Fin k) ℝ × (Fin d → ℝ) × Matrix (Fin d) (Fin d) ℝ) →
    Option (Matrix (Fin k) (Fin k) ℝ)
  | P, [] => some P
  | P, ⟨_, en, thr, H, r, R⟩ :: l => do
    match ← calculateCorrection en thr P H r R with
    | none => updateChain k P l
    | some (_, P') => updateChain k P' l

/-- **C28, any number of updates.** -/
theorem C28_chain (P P' : Matrix (Fin k) (Fin k) ℝ) (hP : P.PosSemidef)
    (l : List ((d : Nat) × Bool × ℝ × Matrix (Fin d) (Fin k) ℝ × (Fin d → ℝ) ×
      Matrix (Fin d) (Fin d) ℝ))
    (hR : ∀ x ∈ l, x.2.2.2.2.2.PosSemidef) (h : updateChain k P l = some P') :
    P'.PosSemidef := by
  induction l generalizing P with
  | nil => exact Option.some.inj h ▸ hP
  | cons x l ih =>
    obtain ⟨d, en, thr, H, r, R⟩ := x
    simp only [updateChain, Option.bind_eq_bind] at h
    rw [Option.bind_eq_some_iff] at h
    obtain ⟨o, ho, h⟩ := h
    have hR' := hR _ (List.mem_cons_self ..)
    have hl := fun x hx => hR x (List.mem_cons_of_mem _ hx)
    cases o with
    | none => exact ih P hP hl h
    | some c =>
      obtain ⟨c, Q⟩ := c
      refine ih Q ?_ hl h
      simp only [calculateCorrection] at ho
      split at ho
      · cases ho
      · split at ho
        · cases ho
        · simp only [Option.some.injEq, Prod.mk.injEq] at ho
          rw [← ho.2]
          exact C28_update_psd P hP H R hR' _

/-- With positive definite noise the innovation covariance can always be inverted, so the update
never fails. -/
theorem C28_never_fails (P : Matrix (Fin k) (Fin k) ℝ) (hP : P.PosSemidef)
    (H : Matrix m (Fin k) ℝ) (R : Matrix m m ℝ) (hR : R.PosDef) (en : Bool) (thr : ℝ) (r : m → ℝ) :
    (calculateCorrection en thr P H r R).isSome := by
  have hS : (innovCov P H R).PosDef := hR.posSemidef_add (psd_congr hP H)
  have : (innovCov P H R).det ≠ 0 :=
    ((Matrix.isUnit_iff_isUnit_det _).1 hS.isUnit).ne_zero
  simp only [calculateCorrection, if_neg this]
  split <;> rfl

/-- The hypotheses of C28 and C30 hold for two states, one measured component, unit covariance and
noise. -/
example : (1 : Matrix (Fin 2) (Fin 2) ℝ).PosSemidef ∧ (1 : Matrix (Fin 1) (Fin 1) ℝ).PosDef ∧
    IsUnit (innovCov (1 : Matrix (Fin 2) (Fin 2) ℝ) !![1, 0] (1 : Matrix (Fin 1) (Fin 1) ℝ)).det := by
  refine ⟨PosSemidef.one, PosDef.one, ?_⟩
  have e : (innovCov (1 : Matrix (Fin 2) (Fin 2) ℝ) !![1, 0] (1 : Matrix (Fin 1) (Fin 1) ℝ)).det
      = 2 := by
    rw [det_fin_one]
    simp only [innovCov, Matrix.mul_one, Matrix.add_apply, Matrix.mul_apply, Fin.sum_univ_two,
      Matrix.transpose_apply, Matrix.one_apply_eq]
    norm_num
  rw [e]
  exact (two_ne_zero).isUnit

/-! ### Information -/

/-- **C30.**  With the gain of the filter the new covariance equals `(I - KH) P` and is at most the
prior covariance in the semidefinite order. -/
theorem C30_update_decreases (P : Matrix (Fin k) (Fin k) ℝ) (hP : P.PosSemidef)
    (H : Matrix m (Fin k) ℝ) (R : Matrix m m ℝ) (hR : R.PosSemidef)
    (hS : IsUnit (innovCov P H R).det) :
    josephUpdate P H R (gain P H R) = (1 - gain P H R * H) * P ∧
      (P - josephUpdate P H R (gain P H R)).PosSemidef := by
  have hp := joseph_psd hP hR H (gain P H R)
  have he : josephUpdate P H R (gain P H R) = (1 - gain P H R * H) * P := by
    rw [josephUpdate, symInPlace_of_symm _ (psd_transpose_eq hp)]
    exact joseph_optimal P (psd_transpose_eq hP) H R hS _ rfl
  refine ⟨he, ?_⟩
  rw [he, Matrix.sub_mul, Matrix.one_mul, sub_sub_cancel]
  exact joseph_decrease P hP H R hR

/-- **C30, optimality.**  No other gain gives a smaller covariance. -/
theorem C30_optimal_gain (P : Matrix (Fin k) (Fin k) ℝ) (hP : P.PosSemidef)
    (H : Matrix m (Fin k) ℝ) (R : Matrix m m ℝ) (hR : R.PosSemidef)
    (hS : IsUnit (innovCov P H R).det) (K' : Matrix (Fin k) m ℝ) :
    (josephUpdate P H R K' - josephUpdate P H R (gain P H R)).PosSemidef := by
  have hPt := psd_transpose_eq hP
  have hSp : (innovCov P H R).PosSemidef := (psd_congr hP H).add hR
  have hSt := psd_transpose_eq hSp
  have hKS : gain P H R * innovCov P H R = P * Hᵀ := by
    rw [gain, Matrix.mul_assoc, nonsing_inv_mul _ hS, Matrix.mul_one]
  have hSK : innovCov P H R * (gain P H R)ᵀ = H * P := by
    have := congrArg transpose hKS
    rwa [transpose_mul, transpose_mul, hSt, hPt, transpose_transpose] at this
  have h1 : josephUpdate P H R K' = P - K' * (H * P) - (H * P)ᵀ * K'ᵀ + K' * innovCov P H R * K'ᵀ := by
    rw [josephUpdate, symInPlace_of_symm _ (psd_transpose_eq (joseph_psd hP hR H K'))]
    exact joseph_expand P hPt H R K'
  have h2 := (C30_update_decreases P hP H R hR hS).1
  have key : josephUpdate P H R K' - josephUpdate P H R (gain P H R) =
      (K' - gain P H R) * innovCov P H R * (K' - gain P H R)ᵀ := by
    rw [h1, h2, transpose_sub, Matrix.sub_mul, Matrix.mul_sub, Matrix.sub_mul, hKS,
      Matrix.sub_mul, Matrix.sub_mul, Matrix.mul_assoc K' _ (gain P H R)ᵀ, hSK, transpose_mul, hPt,
      Matrix.one_mul]
    have : P * Hᵀ * (gain P H R)ᵀ = gain P H R * H * P := by
      rw [← hKS, Matrix.mul_assoc, hSK, Matrix.mul_assoc]
    rw [this]
    abel
  rw [key]
  exact psd_congr hSp _

/-! ### Outlier gate -/

theorem mahRejects_iff (d2 thr : ℝ) (ht : 0 ≤ thr) : mahRejects d2 thr ↔ thr ^ 2 < d2 := by
  constructor
  · rintro ⟨h0, h⟩
    exact (Real.lt_sqrt ht).1 h
  · intro h
    have h0 : 0 ≤ d2 := le_trans (sq_nonneg thr) h.le
    exact ⟨h0, (Real.lt_sqrt ht).2 h⟩

end

variable {aux : List VarDesc} {m : Type} [Fintype m] [DecidableEq m]

/-- **C31, rejected.**  With rejection enabled and a threshold that is not negative, a measurement
whose squared Mahalanobis distance (`rᵀ x` with `S x = r`) exceeds the squared threshold leaves
the state object (variables and covariance) and the tracker unchanged. -/
theorem C31_outlier_ignored (uc : UserCalc (coreDef aux)) (t : Tracker ℝ)
    (s : EKFState ℝ (coreDef aux)) (thr : ℝ) (ht : 0 ≤ thr)
    (H : Matrix m (Fin (total errLen (coreDef aux))) ℝ) (r x : m → ℝ) (R : Matrix m m ℝ)
    (hS : IsUnit (innovCov s.P H R).det) (hx : (H * s.P * Hᵀ + R) *ᵥ x = r)
    (hd : thr ^ 2 < r ⬝ᵥ x) :
    updateState uc t s true thr H r R = some (t, s, false) := by
  have hx' : (innovCov s.P H R)⁻¹ *ᵥ r = x := by
    rw [← hx, mulVec_mulVec]
    show ((innovCov s.P H R)⁻¹ * innovCov s.P H R) *ᵥ x = x
    rw [nonsing_inv_mul _ hS, one_mulVec]
  have hm : mahRejects (mahSquared s.P H R r) thr := by
    rw [mahRejects_iff _ _ ht, mahSquared, hx']
    exact hd
  have hc : calculateCorrection true thr s.P H r R = some none := by
    rw [calculateCorrection, if_neg hS.ne_zero, if_pos ⟨rfl, hm⟩]
  simp only [updateState, hc, Option.bind_eq_bind, Option.bind_some]

/-- **C31, accepted.**  A measurement within the threshold, or any measurement with rejection
disabled, gets the correction `K r` and the covariance update, whatever the threshold. -/
theorem C31_inlier_applied (uc : UserCalc (coreDef aux)) (t : Tracker ℝ)
    (s : EKFState ℝ (coreDef aux)) (en : Bool) (thr : ℝ) (ht : 0 ≤ thr)
    (H : Matrix m (Fin (total errLen (coreDef aux))) ℝ) (r x : m → ℝ) (R : Matrix m m ℝ)
    (hS : IsUnit (innovCov s.P H R).det) (hx : (H * s.P * Hᵀ + R) *ᵥ x = r)
    (hd : en = false ∨ r ⬝ᵥ x ≤ thr ^ 2) :
    updateState uc t s en thr H r R =
      (applyCorrection uc t s.vars ((s.P * Hᵀ) *ᵥ x)).map fun y =>
        (y.1, { s with P := josephUpdate s.P H R (gain s.P H R), vars := y.2.1 }, y.2.2) := by
  have hx' : (innovCov s.P H R)⁻¹ *ᵥ r = x := by
    rw [← hx, mulVec_mulVec]
    show ((innovCov s.P H R)⁻¹ * innovCov s.P H R) *ᵥ x = x
    rw [nonsing_inv_mul _ hS, one_mulVec]
  have hm : ¬ (en = true ∧ mahRejects (mahSquared s.P H R r) thr) := by
    rintro ⟨he, hm⟩
    rw [mahRejects_iff _ _ ht, mahSquared, hx'] at hm
    rcases hd with h | h
    · rw [h] at he; cases he
    · exact absurd h (not_le.2 hm)
  have hK : gain s.P H R *ᵥ r = (s.P * Hᵀ) *ᵥ x := by
    rw [gain, ← mulVec_mulVec, hx']
  have hc : calculateCorrection en thr s.P H r R
      = some (some ((s.P * Hᵀ) *ᵥ x, josephUpdate s.P H R (gain s.P H R))) := by
    rw [calculateCorrection, if_neg hS.ne_zero, if_neg hm]
    simp only [hK]
  simp only [updateState, hc, Option.bind_eq_bind, Option.bind_some]
  cases applyCorrection uc t s.vars ((s.P * Hᵀ) *ᵥ x) <;> rfl

/-- **C31 for negative thresholds.**  A negative threshold rejects every measurement whose
distance is a real number, the perfect one included. -/
theorem C31_negative_threshold (d2 thr : ℝ) (h : thr < 0) : mahRejects d2 thr ↔ 0 ≤ d2 :=
  ⟨And.left, fun h0 => ⟨h0, lt_of_lt_of_le h (Real.sqrt_nonneg _)⟩⟩

/-- A filter without auxiliary states, unit covariance, measuring the first position component
with unit noise. -/
noncomputable def gateState : EKFState ℝ (coreDef []) := { blankState [] 0 0 0 with P := 1 }
def gateH : Matrix (Fin 1) (Fin (total errLen (coreDef []))) ℝ :=
  Matrix.of fun _ j => if j.val = 0 then 1 else 0

theorem gateInnov : gateH * gateState.P * gateHᵀ + 1 = Matrix.of fun _ _ => (2 : ℝ) := by
  have e : gateState.P = 1 := rfl
  rw [e, Matrix.mul_one]
  ext i j
  fin_cases i; fin_cases j
  have : ∑ x : Fin (total errLen (coreDef [])), (gateH 0 x * gateH 0 x) = 1 := by
    rw [Finset.sum_eq_single (⟨0, by decide⟩ : Fin (total errLen (coreDef [])))]
    · simp [gateH]
    · intro b _ hb
      have : b.val ≠ 0 := fun h => hb (Fin.ext h)
      simp [gateH, this]
    · simp
  simp only [Matrix.add_apply, Matrix.mul_apply, transpose_apply, Matrix.of_apply,
    Matrix.one_apply_eq]
  norm_num
  rw [this]
  norm_num

/-- C31 is not vacuous: residual 3 is rejected with threshold 2, residual 2 is applied. -/
example (uc : UserCalc (coreDef [])) :
    updateState uc Tracker.reset gateState true 2 gateH (fun _ => 3) 1
      = some (Tracker.reset, gateState, false) ∧
    updateState uc Tracker.reset gateState true 2 gateH (fun _ => 2) 1 =
      (applyCorrection uc Tracker.reset gateState.vars ((gateState.P * gateHᵀ) *ᵥ fun _ => 1)).map
        fun y => (y.1, { gateState with
          P := josephUpdate gateState.P gateH 1 (gain gateState.P gateH 1), vars := y.2.1 },
          y.2.2) := by
  have hdet : IsUnit (innovCov gateState.P gateH 1).det := by
    rw [innovCov, gateInnov, det_fin_one]
    exact (two_ne_zero).isUnit
  constructor
  · refine C31_outlier_ignored uc _ _ 2 (by norm_num) gateH _ (fun _ => 3 / 2) 1 hdet ?_ ?_
    · rw [gateInnov]; ext i; simp [mulVec, dotProduct]; norm_num
    · simp [dotProduct]; norm_num
  · refine C31_inlier_applied uc _ _ true 2 (by norm_num) gateH _ (fun _ => 1) 1 hdet ?_
      (Or.inr ?_)
    · rw [gateInnov]; ext i; simp [mulVec, dotProduct]
    · simp [dotProduct]; norm_num

/-! ### In-place symmetrisation -/

/-- The claim of the comment "Make sure P stays symmetric". -/
def symmetrizes : Prop :=
  ∀ (k : Nat) (P : Matrix (Fin k) (Fin k) ℝ), (symInPlace P)ᵀ = symInPlace P

/-- **C56 is violated.**  The assignment reads the matrix it writes, so a matrix that is not
symmetric stays that way. -/
theorem C56_violated : ¬ symmetrizes := by
  intro h
  have := congrFun (congrFun (h 2 !![0, 1; 0, 0]) 0) 1
  rw [Matrix.transpose_apply, symInPlace_lower _ 1 0 (by decide),
    symInPlace_upper _ 0 1 (by decide)] at this
  norm_num at this

/-- **C56, the part that holds.**  Each assignment divides every asymmetry by four, keeps the
diagonal, and keeps symmetric matrices. -/
theorem C56_asymmetry_shrinks_partial {k : Nat} (P : Matrix (Fin k) (Fin k) ℝ) :
    (∀ i j, symInPlace P i j - symInPlace P j i = (P i j - P j i) / 4) ∧
    (∀ i, symInPlace P i i = P i i) ∧
    ((symInPlace P)ᵀ = symInPlace P ↔ Pᵀ = P) := by
  have key : ∀ i j, symInPlace P i j - symInPlace P j i = (P i j - P j i) / 4 := by
    intro i j
    rcases lt_trichotomy i j with h | rfl | h
    · rw [symInPlace_upper P i j h, symInPlace_lower P j i h]; ring
    · simp
    · rw [symInPlace_lower P i j h, symInPlace_upper P j i h]; ring
  refine ⟨key, symInPlace_diag P, ⟨fun h => ?_, fun h => ?_⟩⟩
  · ext i j
    have := key j i
    rw [← transpose_apply (symInPlace P) i j, h, sub_self] at this
    rw [transpose_apply]
    linarith
  · rw [symInPlace_of_symm P h, h]

/-- The update of an asymmetric covariance is not symmetric: no measurement information
(`H = 0`), two states. -/
theorem C56_update_violated :
    ∃ (P : Matrix (Fin 2) (Fin 2) ℝ) (H : Matrix (Fin 1) (Fin 2) ℝ) (R : Matrix (Fin 1) (Fin 1) ℝ),
      R.PosDef ∧
      (josephUpdate P H R (gain P H R))ᵀ ≠ josephUpdate P H R (gain P H R) := by
  refine ⟨!![1, 1; 0, 1], 0, 1, PosDef.one, fun h => ?_⟩
  have e : josephUpdate !![1, 1; 0, 1] (0 : Matrix (Fin 1) (Fin 2) ℝ) 1
      (gain !![1, 1; 0, 1] 0 1) = symInPlace !![1, 1; 0, 1] := by
    simp [josephUpdate, gain]
  rw [e, (C56_asymmetry_shrinks_partial _).2.2] at h
  have := congrFun (congrFun h 0) 1
  simp at this

/-! ### Relative updates -/

section
variable {k : Nat} {m : Type} [Fintype m] [DecidableEq m]

/-- The covariance after propagating through a chain of (transition, noise) pairs, oldest first:
`P := F P Fᵀ + Q`. -/
def propagateCov (P : Matrix (Fin k) (Fin k) ℝ) :
    List (Matrix (Fin k) (Fin k) ℝ × Matrix (Fin k) (Fin k) ℝ) → Matrix (Fin k) (Fin k) ℝ
  | [] => P
  | (F, Q) :: l => propagateCov (F * P * Fᵀ + Q) l

/-- The transition of the error over a chain, oldest first: `… F₂ F₁ F₀`. -/
def transition : List (Matrix (Fin k) (Fin k) ℝ) → Matrix (Fin k) (Fin k) ℝ
  | [] => 1
  | F :: l => transition l * F

theorem propagateCov_eq (P : Matrix (Fin k) (Fin k) ℝ)
    (l : List (Matrix (Fin k) (Fin k) ℝ × Matrix (Fin k) (Fin k) ℝ))
    (hQ : ∀ x ∈ l, x.2.PosSemidef) :
    ∃ W : Matrix (Fin k) (Fin k) ℝ, W.PosSemidef ∧
      propagateCov P l = transition (l.map Prod.fst) * P * (transition (l.map Prod.fst))ᵀ + W := by
  induction l generalizing P with
  | nil => exact ⟨0, PosSemidef.zero, by simp [propagateCov, transition]⟩
  | cons x l ih =>
    obtain ⟨F, Q⟩ := x
    obtain ⟨W, hW, h⟩ := ih (F * P * Fᵀ + Q) fun x hx => hQ x (List.mem_cons_of_mem _ hx)
    have hQ' : Q.PosSemidef := hQ _ (List.mem_cons_self ..)
    refine ⟨transition (l.map Prod.fst) * Q * (transition (l.map Prod.fst))ᵀ + W,
      (psd_congr hQ' _).add hW, ?_⟩
    rw [propagateCov, h, List.map_cons, transition, transpose_mul]
    simp only [Matrix.mul_add, Matrix.add_mul, Matrix.mul_assoc]
    rw [add_assoc]

/-- The claim C34: old and new covariance related by the buffered transitions, symmetric positive
semidefinite noises; the transition matrix is the one the code accumulates. -/
def relativeKeepsPSD : Prop :=
  ∀ (k d : Nat) (P : Matrix (Fin k) (Fin k) ℝ)
    (l : List (Matrix (Fin k) (Fin k) ℝ × Matrix (Fin k) (Fin k) ℝ))
    (Hold Hnew : Matrix (Fin d) (Fin k) ℝ) (r : Fin d → ℝ) (R : Matrix (Fin d) (Fin d) ℝ)
    (c : Fin k → ℝ) (P' : Matrix (Fin k) (Fin k) ℝ),
    P.PosSemidef → (∀ x ∈ l, x.2.PosSemidef) → R.PosDef →
    calculateCorrectionRelative P (propagateCov P l) (accumulateF (l.map Prod.fst)) Hold Hnew r R
      = some (c, P') → P'.PosSemidef

/-- **C34 is violated.**  The code multiplies the transitions in the wrong order.  Two transitions
that do not commute and the measurement of a coordinate difference give a covariance that is not
positive semidefinite. -/
theorem C34_violated : ¬ relativeKeepsPSD := by
  intro h
  let F0 : Matrix (Fin 2) (Fin 2) ℝ := !![1, 1; 0, 1]
  let F1 : Matrix (Fin 2) (Fin 2) ℝ := !![1, 0; 1, 1]
  let Ho : Matrix (Fin 1) (Fin 2) ℝ := !![-1, 0]
  let Hn : Matrix (Fin 1) (Fin 2) ℝ := !![1, 0]
  let R : Matrix (Fin 1) (Fin 1) ℝ := !![2]
  have hP : propagateCov 1 [(F0, 0), (F1, 0)] = !![2, 3; 3, 5] := by
    have e : propagateCov 1 [(F0, 0), (F1, 0)] = F1 * (F0 * F0ᵀ) * F1ᵀ := by simp [propagateCov]
    have e1 : F0 * F0ᵀ = !![2, 1; 1, 1] := by
      ext i j
      fin_cases i <;> fin_cases j <;> simp [F0, Matrix.mul_apply, Fin.sum_univ_two] <;> norm_num
    have e2 : F1 * !![2, 1; 1, 1] = !![2, 1; 3, 2] := by
      ext i j
      fin_cases i <;> fin_cases j <;> simp [F1] <;> norm_num
    rw [e, e1, e2]
    ext i j
    fin_cases i <;> fin_cases j <;> simp [F1, Matrix.mul_apply, Fin.sum_univ_two] <;> norm_num
  have hF : accumulateF [F0, F1] = !![2, 1; 1, 1] := by
    ext i j
    fin_cases i <;> fin_cases j <;>
      simp [accumulateF, F0, F1] <;> norm_num
  have hS : relInnovCov 1 !![2, 3; 3, 5] !![2, 1; 1, 1] Ho Hn R = 1 := by
    ext i j
    fin_cases i; fin_cases j
    simp [relInnovCov, clonedH, clonedCov, Ho, Hn, R, Matrix.mul_apply, Fin.sum_univ_two,
      Fintype.sum_sum_type]
  have hK : relGain 1 !![2, 3; 3, 5] !![2, 1; 1, 1] Ho Hn R = !![0; 2] := by
    rw [relGain, hS, inv_one, Matrix.mul_one]
    ext i j
    fin_cases i <;> fin_cases j <;>
      simp [clonedH, clonedCov, Ho, Hn, Matrix.mul_apply, Fin.sum_univ_two,
        Fintype.sum_sum_type] <;> norm_num
  have hc : calculateCorrectionRelative 1 (propagateCov 1 [(F0, 0), (F1, 0)])
      (accumulateF ([(F0, 0), (F1, (0 : Matrix (Fin 2) (Fin 2) ℝ))].map Prod.fst)) Ho Hn 0 R
      = some (!![0; 2] *ᵥ 0, !![2, 3; 3, 1]) := by
    have hF' : accumulateF ([(F0, 0), (F1, (0 : Matrix (Fin 2) (Fin 2) ℝ))].map Prod.fst)
        = !![2, 1; 1, 1] := hF
    rw [hF', hP, calculateCorrectionRelative, hS, if_neg (by simp)]
    simp only [hK]
    have e : ((!![2, 3; 3, 5] : Matrix (Fin 2) (Fin 2) ℝ) -
        (!![0; 2] : Matrix (Fin 2) (Fin 1) ℝ) * (1 : Matrix (Fin 1) (Fin 1) ℝ) * (!![0; 2] : Matrix (Fin 2) (Fin 1) ℝ)ᵀ)
        = !![2, 3; 3, 1] := by
      rw [Matrix.mul_one]
      ext i j
      simp only [Matrix.sub_apply, Matrix.mul_apply, Matrix.transpose_apply,
        Finset.univ_unique, Finset.sum_singleton]
      fin_cases i <;> fin_cases j <;> simp <;> norm_num
    rw [e, symInPlace_of_symm]
    ext i j
    fin_cases i <;> fin_cases j <;> simp
  have hR : R.PosDef := by
    have : R = diagonal fun _ => 2 := by
      ext i j
      fin_cases i; fin_cases j
      simp [R]
    rw [this]
    exact PosDef.diagonal fun _ => by norm_num
  have hpsd := h 2 1 1 [(F0, 0), (F1, 0)] Ho Hn 0 R _ _ PosSemidef.one
    (by intro x hx; simp at hx; rcases hx with rfl | rfl <;> exact PosSemidef.zero) hR hc
  have := hpsd.dotProduct_mulVec_nonneg ![1, -1]
  simp [dotProduct, mulVec, Fin.sum_univ_two] at this
  norm_num at this

/-- The joint covariance of old and new error is positive semidefinite when the cross term uses
the true transition. -/
theorem clonedCov_psd (P W F : Matrix (Fin k) (Fin k) ℝ) (hP : P.PosSemidef) (hW : W.PosSemidef) :
    (clonedCov P (F * P * Fᵀ + W) F).PosSemidef := by
  have e : clonedCov P (F * P * Fᵀ + W) F =
      fromRows (1 : Matrix (Fin k) (Fin k) ℝ) F * P * (fromRows 1 F)ᵀ +
        fromRows (0 : Matrix (Fin k) (Fin k) ℝ) 1 * W * (fromRows 0 1)ᵀ := by
    rw [transpose_fromRows, transpose_fromRows, fromRows_mul 1 F P, fromRows_mul 0 1 W,
      fromRows_mul_fromCols, fromRows_mul_fromCols, fromBlocks_add, clonedCov]
    simp
  rw [e]
  exact (psd_congr hP _).add (psd_congr hW _)

/-- **C34, the part that holds.**  If the accumulated matrix is the transition from the old to the
new state, the updated covariance is symmetric positive semidefinite and at most the covariance
before the update. -/
theorem C34_relative_psd_partial (P : Matrix (Fin k) (Fin k) ℝ)
    (l : List (Matrix (Fin k) (Fin k) ℝ × Matrix (Fin k) (Fin k) ℝ))
    (Hold Hnew : Matrix m (Fin k) ℝ) (r : m → ℝ) (R : Matrix m m ℝ) (c : Fin k → ℝ)
    (P' : Matrix (Fin k) (Fin k) ℝ) (hP : P.PosSemidef) (hQ : ∀ x ∈ l, x.2.PosSemidef)
    (hR : R.PosSemidef) (hF : accumulateF (l.map Prod.fst) = transition (l.map Prod.fst))
    (h : calculateCorrectionRelative P (propagateCov P l) (accumulateF (l.map Prod.fst))
      Hold Hnew r R = some (c, P')) :
    P'.PosSemidef ∧ (propagateCov P l - P').PosSemidef := by
  obtain ⟨W, hW, hpr⟩ := propagateCov_eq P l hQ
  rw [hF] at h
  set F := transition (l.map Prod.fst) with hFd
  have hC := clonedCov_psd P W F hP hW
  rw [← hpr] at hC
  rw [calculateCorrectionRelative] at h
  split at h
  · cases h
  rename_i hdet
  simp only [Option.some.injEq, Prod.mk.injEq] at h
  have hS : IsUnit (relInnovCov P (propagateCov P l) F Hold Hnew R).det := Ne.isUnit hdet
  have hSp : (relInnovCov P (propagateCov P l) F Hold Hnew R).PosSemidef :=
    (psd_congr hC _).add hR
  set S := relInnovCov P (propagateCov P l) F Hold Hnew R with hSd
  set PC := clonedCov P (propagateCov P l) F with hPC
  set HC := clonedH Hold Hnew with hHC
  set KC := PC * HCᵀ * S⁻¹ with hKC
  have hK : relGain P (propagateCov P l) F Hold Hnew R = KC.toRows₂ := rfl
  have hjo := joseph_optimal PC (psd_transpose_eq hC) HC R hS KC rfl
  have hjp := joseph_psd hC hR HC KC
  rw [hjo] at hjp
  have hKS : KC * S = PC * HCᵀ := by
    rw [hKC, Matrix.mul_assoc, nonsing_inv_mul _ hS, Matrix.mul_one]
  have hred : (1 - KC * HC) * PC = PC - KC * S * KCᵀ := by
    have hSK : S * KCᵀ = HC * PC := by
      have := congrArg transpose hKS
      rwa [transpose_mul KC S, transpose_mul PC HCᵀ, psd_transpose_eq hSp, psd_transpose_eq hC,
        transpose_transpose] at this
    rw [Matrix.sub_mul, Matrix.one_mul, Matrix.mul_assoc KC S, hSK, Matrix.mul_assoc]
  rw [hred] at hjp
  have hsub := hjp.submatrix (Sum.inr : Fin k → Fin k ⊕ Fin k)
  have hblock : (PC - KC * S * KCᵀ).submatrix Sum.inr Sum.inr
      = propagateCov P l - KC.toRows₂ * S * KC.toRows₂ᵀ := by
    ext i j
    simp [hPC, clonedCov, Matrix.mul_apply, toRows₂]
  rw [hblock] at hsub
  have hP' : P' = propagateCov P l - KC.toRows₂ * S * KC.toRows₂ᵀ := by
    rw [← h.2, hK, symInPlace_of_symm _ (psd_transpose_eq hsub)]
  refine ⟨hP' ▸ hsub, ?_⟩
  rw [hP', sub_sub_cancel]
  exact psd_congr hSp _

theorem accumulateF_eq_prod (l : List (Matrix (Fin k) (Fin k) ℝ)) : accumulateF l = l.prod := by
  rw [accumulateF, List.prod_eq_foldl]

theorem transition_eq_prod (l : List (Matrix (Fin k) (Fin k) ℝ)) :
    transition l = l.reverse.prod := by
  induction l with
  | nil => simp [transition]
  | cons F l ih => simp [transition, ih]

/-- The condition of the partial theorem holds when the transitions commute; in particular for a
single transition. -/
theorem C34_commuting (l : List (Matrix (Fin k) (Fin k) ℝ)) (h : l.Pairwise Commute) :
    accumulateF l = transition l := by
  rw [accumulateF_eq_prod, transition_eq_prod]
  exact (List.reverse_perm l).symm.prod_eq' h

example (F : Matrix (Fin k) (Fin k) ℝ) : accumulateF [F] = transition [F] :=
  C34_commuting [F] (List.pairwise_singleton ..)

end

end MSF
