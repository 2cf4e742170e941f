import Verif.Lemmas.InitCov
import Verif.Props.Managers
import Verif.Props.Covariance

/-!
# Properties of the initial covariance (C67)
-/

namespace MSF

open Matrix

/-- The core block of the initial covariance. -/
theorem setPCore_core {n : Nat} (i j : Fin n) (hi : i.val < 15) (hj : j.val < 15) :
    setPCore ℝ n i j = symInPlace (pCoreRaw ℝ) ⟨i, hi⟩ ⟨j, hj⟩ := by
  simp [setPCore, setBlock, hi, hj]

/-- Everything outside the core block. -/
theorem setPCore_aux {n : Nat} (i j : Fin n) (h : ¬ (i.val < 15 ∧ j.val < 15)) :
    setPCore ℝ n i j = if i = j then 0.0001 else 0 := by
  have : ¬ ((0 ≤ i.val ∧ i.val < 0 + 15) ∧ (0 ≤ j.val ∧ j.val < 0 + 15)) := by omega
  simp only [setPCore, setBlock, of_apply, dif_neg this, Matrix.smul_apply, Matrix.one_apply, smul_eq_mul]
  split <;> norm_num

theorem pCoreRaw_apply (i j : Fin 15) : pCoreRaw ℝ i j = (tab pCoreTable i j : ℝ) / 10000 := rfl

/-- The symmetric part of the core block, from the table. -/
theorem symCore (i j : Fin 15) : symInPlace (pCoreRaw ℝ) i j + symInPlace (pCoreRaw ℝ) j i =
    (sym8 pCoreTable i j : ℝ) / 40000 := by
  have key : ∀ a b : Fin 15, a < b → symInPlace (pCoreRaw ℝ) a b + symInPlace (pCoreRaw ℝ) b a =
      ((5 * tab pCoreTable a b + 3 * tab pCoreTable b a : Int) : ℝ) / 40000 := by
    intro a b h
    rw [symInPlace_upper _ a b h, symInPlace_lower _ b a h, pCoreRaw_apply, pCoreRaw_apply]
    push_cast
    ring
  rcases lt_trichotomy i j with h | rfl | h
  · rw [key i j h, sym8, if_pos (show i.val < j.val from h)]
  · rw [symInPlace_diag, pCoreRaw_apply, sym8, if_neg (lt_irrefl _), if_neg (lt_irrefl _)]
    push_cast
    ring
  · rw [add_comm, key j i h, sym8, if_neg (not_lt_of_gt (show j.val < i.val from h)),
      if_pos (show j.val < i.val from h)]

/-- The quadratic form of the core block is never negative. -/
theorem core_quad (x : Fin 15 → ℝ) : 0 ≤ ∑ i : Fin 15, ∑ j : Fin 15, x i * symInPlace (pCoreRaw ℝ) i j * x j := by
  have hsym : 2 * ∑ i : Fin 15, ∑ j : Fin 15, x i * symInPlace (pCoreRaw ℝ) i j * x j =
      ∑ i : Fin 15, ∑ j : Fin 15, x i * ((sym8 pCoreTable i j : ℝ) / 40000) * x j := by
    have hswap : ∑ i : Fin 15, ∑ j : Fin 15, x i * symInPlace (pCoreRaw ℝ) i j * x j =
        ∑ i : Fin 15, ∑ j : Fin 15, x i * symInPlace (pCoreRaw ℝ) j i * x j := by
      rw [Finset.sum_comm]
      refine Finset.sum_congr rfl fun i _ => Finset.sum_congr rfl fun j _ => by ring
    rw [two_mul]
    nth_rewrite 2 [hswap]
    rw [← Finset.sum_add_distrib]
    refine Finset.sum_congr rfl fun i _ => ?_
    rw [← Finset.sum_add_distrib]
    refine Finset.sum_congr rfl fun j _ => ?_
    rw [← symCore]
    ring
  have hc : (0 : ℝ) < certFactor := by
    have : 0 < certFactor := by decide
    exact_mod_cast this
  have hid : (certFactor : ℝ) * ∑ i : Fin 15, ∑ j : Fin 15, x i * ((sym8 pCoreTable i j : ℝ) / 40000) * x j =
      (1 / 40000) * ∑ k ∈ Finset.range 12, ((certWeights[k]?.getD 0 : Nat) : ℝ) *
        (∑ i : Fin 15, (tab certForms k i : ℝ) * x i) ^ 2 := by
    have h1 : ∀ i j : Fin 15, (certFactor : ℝ) * (sym8 pCoreTable i j : ℝ) =
        ∑ k ∈ Finset.range 12, ((certWeights[k]?.getD 0 : Nat) : ℝ) * (tab certForms k i : ℝ) *
          (tab certForms k j : ℝ) := by
      intro i j
      exact_mod_cast cert_identity i j
    have h3 : ∀ k, (∑ i : Fin 15, (tab certForms k i : ℝ) * x i) ^ 2 =
        ∑ i : Fin 15, ∑ j : Fin 15, (tab certForms k i : ℝ) * x i * ((tab certForms k j : ℝ) * x j) := by
      intro k
      rw [sq, Finset.sum_mul_sum]
    simp only [h3, Finset.mul_sum]
    rw [Finset.sum_comm (s := Finset.range 12)]
    refine Finset.sum_congr rfl fun i _ => ?_
    rw [Finset.sum_comm (s := Finset.range 12)]
    refine Finset.sum_congr rfl fun j _ => ?_
    rw [show (certFactor : ℝ) * (x i * ((sym8 pCoreTable i j : ℝ) / 40000) * x j) =
      1 / 40000 * x i * x j * ((certFactor : ℝ) * (sym8 pCoreTable i j : ℝ)) by ring, h1,
      Finset.mul_sum]
    refine Finset.sum_congr rfl fun k _ => by ring
  have : 0 ≤ ∑ k ∈ Finset.range 12, ((certWeights[k]?.getD 0 : Nat) : ℝ) *
        (∑ i : Fin 15, (tab certForms k i : ℝ) * x i) ^ 2 :=
    Finset.sum_nonneg fun k _ => mul_nonneg (Nat.cast_nonneg _) (sq_nonneg _)
  have h2 : 0 ≤ ∑ i : Fin 15, ∑ j : Fin 15, x i * ((sym8 pCoreTable i j : ℝ) / 40000) * x j := by
    by_contra hn
    rw [not_le] at hn
    have := mul_neg_of_pos_of_neg hc hn
    rw [hid] at this
    linarith
  linarith

/-- The claim: the initial covariance of every filter is symmetric positive semidefinite. -/
def initialCovClaim : Prop :=
  ∀ (aux : List VarDesc) (m : InitMeas ℝ (coreDef aux)), m.P = 0 → (coreInit m).P.PosSemidef

theorem coreInit_P {D : List VarDesc} (m : InitMeas ℝ D) (h : m.P = 0) :
    (coreInit m).P = setPCore ℝ _ := by
  simp only [coreInit, InitMeas.apply, if_pos h]

theorem total_core (aux : List VarDesc) :
    total errLen (coreDef aux) = 15 + total errLen aux := by
  simp [total, coreDef, coreDescs, errLen, Kind.errLen]
  omega

/-- **C67, partial.**  For every filter the quadratic form of the default initial covariance is never
negative, auxiliary states start independent of everything else with variance 0.0001. -/
theorem C67_initial_covariance_partial (aux : List VarDesc) (m : InitMeas ℝ (coreDef aux))
    (h : m.P = 0) :
    (∀ x, 0 ≤ x ⬝ᵥ ((coreInit m).P *ᵥ x)) ∧
    (∀ i j, 15 ≤ i.val ∨ 15 ≤ j.val → (coreInit m).P i j = if i = j then 0.0001 else 0) := by
  rw [coreInit_P m h]
  refine ⟨fun x => ?_, fun i j hij => setPCore_aux i j (by omega)⟩
  have ht := total_core aux
  generalize total errLen (coreDef aux) = n at ht x
  subst ht
  generalize total errLen aux = k at x
  have e : x ⬝ᵥ (setPCore ℝ (15 + k) *ᵥ x) =
      ∑ i : Fin 15, ∑ j : Fin 15, (fun i => x (Fin.castAdd k i)) i *
        symInPlace (pCoreRaw ℝ) i j * (fun i => x (Fin.castAdd k i)) j +
      ∑ i : Fin k, 0.0001 * (x (Fin.natAdd 15 i)) ^ 2 := by
    simp only [dotProduct, mulVec, Fin.sum_univ_add]
    congr 1
    · refine Finset.sum_congr rfl fun i _ => ?_
      rw [show ∑ l : Fin k, setPCore ℝ (15 + k) (Fin.castAdd k i) (Fin.natAdd 15 l) *
        x (Fin.natAdd 15 l) = 0 from Finset.sum_eq_zero fun l _ => by
          rw [setPCore_aux _ _ (by simp), if_neg (by
            intro h; have := congrArg Fin.val h; simp at this; omega), zero_mul], add_zero,
        Finset.mul_sum]
      refine Finset.sum_congr rfl fun j _ => ?_
      rw [setPCore_core _ _ (by simp) (by simp)]
      simp only [Fin.val_castAdd, Fin.eta]
      ring
    · refine Finset.sum_congr rfl fun i _ => ?_
      rw [show ∑ l : Fin 15, setPCore ℝ (15 + k) (Fin.natAdd 15 i) (Fin.castAdd k l) *
        x (Fin.castAdd k l) = 0 from Finset.sum_eq_zero fun l _ => by
          rw [setPCore_aux _ _ (by simp), if_neg (by
            intro h; have := congrArg Fin.val h; simp at this; omega), zero_mul], zero_add,
        Finset.sum_eq_single i]
      · rw [setPCore_aux _ _ (by simp), if_pos rfl]; ring
      · intro l _ hl
        rw [setPCore_aux _ _ (by simp), if_neg (by
            intro h; apply hl; have := congrArg Fin.val h; simp at this; exact (Fin.ext this).symm),
          zero_mul]
      · simp
  rw [e]
  refine add_nonneg (core_quad _) (Finset.sum_nonneg fun i _ => ?_)
  positivity

/-- **C67 is violated.**  The hard-coded table is not symmetric, and the assignment that should
symmetrise it reads the matrix it writes: no filter starts with a symmetric covariance. -/
theorem C67_violated (aux : List VarDesc) (m : InitMeas ℝ (coreDef aux)) (h : m.P = 0) :
    (coreInit m).Pᵀ ≠ (coreInit m).P := by
  intro hs
  rw [coreInit_P m h] at hs
  have ht := total_core aux
  have h0 : 0 < total errLen (coreDef aux) := by omega
  have h1 : 1 < total errLen (coreDef aux) := by omega
  have := congrFun (congrFun hs ⟨0, h0⟩) ⟨1, h1⟩
  rw [transpose_apply, setPCore_core _ _ (by norm_num) (by norm_num),
    setPCore_core _ _ (by norm_num) (by norm_num), symInPlace_lower _ _ _ (by simp),
    symInPlace_upper _ _ _ (by simp)] at this
  simp only [pCoreRaw_apply] at this
  norm_num [tab, pCoreTable] at this

theorem C67_claim_violated : ¬ initialCovClaim := fun h =>
  C67_violated [] ⟨noInit _, 0, 0, 0, 0, true⟩ rfl
    (psd_transpose_eq (h [] ⟨noInit _, 0, 0, 0, 0, true⟩ rfl))

/-- **C68 is violated for the gyro bias.**  Its initial variances and all covariances with it are
zero. -/
theorem C68_gyro_bias_violated (aux : List VarDesc) (m : InitMeas ℝ (coreDef aux)) (h : m.P = 0)
    (i j : Fin (total errLen (coreDef aux))) (hi : 9 ≤ i.val) (hi' : i.val < 12) :
    (coreInit m).P i j = 0 ∧ (coreInit m).P j i = 0 := by
  rw [coreInit_P m h]
  by_cases hj : j.val < 15
  · have z : ∀ a b : Fin 15, 9 ≤ a.val → a.val < 12 →
        tab pCoreTable a b = 0 ∧ tab pCoreTable b a = 0 := by decide +kernel
    have hz := z ⟨i, by omega⟩ ⟨j, hj⟩ hi hi'
    rw [setPCore_core _ _ (by omega) hj, setPCore_core _ _ hj (by omega)]
    have r1 : pCoreRaw ℝ ⟨i, by omega⟩ ⟨j, hj⟩ = 0 := by rw [pCoreRaw_apply, hz.1]; simp
    have r2 : pCoreRaw ℝ ⟨j, hj⟩ ⟨i, by omega⟩ = 0 := by rw [pCoreRaw_apply, hz.2]; simp
    rcases lt_trichotomy i.val j.val with hl | hl | hl
    · rw [symInPlace_upper _ _ _ (by exact hl), symInPlace_lower _ _ _ (by exact hl), r1, r2]
      simp
    · have : (⟨i, by omega⟩ : Fin 15) = ⟨j, hj⟩ := Fin.ext hl
      rw [this, symInPlace_diag]
      rw [this] at r1
      exact ⟨r1, r1⟩
    · rw [symInPlace_lower _ _ _ (by exact hl), symInPlace_upper _ _ _ (by exact hl), r1, r2]
      simp
  · rw [setPCore_aux _ _ (by omega), setPCore_aux _ _ (by omega), if_neg, if_neg]
    · simp
    · intro e; rw [e] at hj; omega
    · intro e; rw [e] at hi'; omega

/-- **C68, partial.**  Every other error state starts with a positive variance. -/
theorem C68_variance_partial (aux : List VarDesc) (m : InitMeas ℝ (coreDef aux)) (h : m.P = 0)
    (i : Fin (total errLen (coreDef aux))) (hi : i.val < 9 ∨ 12 ≤ i.val) :
    0 < (coreInit m).P i i := by
  rw [coreInit_P m h]
  by_cases hj : i.val < 15
  · have z : ∀ a : Fin 15, a.val < 9 ∨ 12 ≤ a.val → 0 < tab pCoreTable a a := by decide +kernel
    rw [setPCore_core _ _ hj hj, symInPlace_diag, pCoreRaw_apply]
    have := z ⟨i, hj⟩ hi
    have : (0 : ℝ) < (tab pCoreTable (⟨i, hj⟩ : Fin 15).val (⟨i, hj⟩ : Fin 15).val : ℝ) := by
      exact_mod_cast this
    positivity
  · rw [setPCore_aux _ _ (by omega), if_pos rfl]; norm_num

/-- Consequence: no measurement, of any kind and accuracy, can correct the gyro bias before the first
prediction. -/
theorem C68_gyro_bias_uncorrectable (aux : List VarDesc) (m : InitMeas ℝ (coreDef aux))
    (h : m.P = 0) {l : Nat} (H : Matrix (Fin l) (Fin (total errLen (coreDef aux))) ℝ)
    (R : Matrix (Fin l) (Fin l) ℝ) (r : Fin l → ℝ) (i : Fin (total errLen (coreDef aux)))
    (hi : 9 ≤ i.val) (hi' : i.val < 12) : (gain (coreInit m).P H R *ᵥ r) i = 0 := by
  have hrow : ∀ j, (coreInit m).P i j = 0 := fun j => (C68_gyro_bias_violated aux m h i j hi hi').1
  have : (gain (coreInit m).P H R) i = 0 := by
    funext j
    rw [gain, Matrix.mul_assoc, mul_apply]
    exact Finset.sum_eq_zero fun k _ => by rw [hrow, zero_mul]
  simp [mulVec, this]

/-! ### The first update -/

/-- The Joseph form with the gain of the filter, for any matrix `P`. -/
theorem joseph_any {k : Nat} {m : Type} [Fintype m] [DecidableEq m] (P : Matrix (Fin k) (Fin k) ℝ)
    (H : Matrix m (Fin k) ℝ) (R : Matrix m m ℝ) (hS : IsUnit (innovCov P H R).det) :
    (1 - gain P H R * H) * P * (1 - gain P H R * H)ᵀ + gain P H R * R * (gain P H R)ᵀ =
      P - gain P H R * (H * P) := by
  have hKS : gain P H R * (H * P * Hᵀ + R) = P * Hᵀ := by
    rw [innovCov] at hS
    rw [gain, innovCov, Matrix.mul_assoc, nonsing_inv_mul _ hS, Matrix.mul_one]
  generalize gain P H R = K at hKS
  have : (1 - K * H) * P * (1 - K * H)ᵀ + K * R * Kᵀ =
      P - K * (H * P) + (K * (H * P * Hᵀ + R) - P * Hᵀ) * Kᵀ := by
    rw [transpose_sub, transpose_mul, transpose_one]
    simp only [Matrix.sub_mul, Matrix.mul_sub, Matrix.mul_add, Matrix.add_mul, Matrix.one_mul,
      Matrix.mul_one, Matrix.mul_assoc]
    abel
  rw [this, hKS, sub_self, Matrix.zero_mul, add_zero]

/-- **C69, what holds**: for any `P` with a non-negative quadratic form, symmetric or not, any gain
and any positive semidefinite `R`, the Joseph expression has a non-negative quadratic form before
`P` is symmetrised in place. -/
theorem C69_joseph_partial {k : Nat} {m : Type} [Fintype m] [DecidableEq m]
    (P : Matrix (Fin k) (Fin k) ℝ) (H : Matrix m (Fin k) ℝ) (R : Matrix m m ℝ)
    (K : Matrix (Fin k) m ℝ) (hP : ∀ x, 0 ≤ x ⬝ᵥ (P *ᵥ x)) (hR : ∀ y, 0 ≤ y ⬝ᵥ (R *ᵥ y))
    (x : Fin k → ℝ) :
    0 ≤ x ⬝ᵥ (((1 - K * H) * P * (1 - K * H)ᵀ + K * R * Kᵀ) *ᵥ x) := by
  have quad : ∀ {n : Type} [Fintype n] (A : Matrix (Fin k) n ℝ) (M : Matrix n n ℝ),
      x ⬝ᵥ ((A * M * Aᵀ) *ᵥ x) = (Aᵀ *ᵥ x) ⬝ᵥ (M *ᵥ (Aᵀ *ᵥ x)) := by
    intro n _ A M
    rw [Matrix.mul_assoc, ← mulVec_mulVec, ← mulVec_mulVec, dotProduct_mulVec, mulVec_transpose]
  rw [add_mulVec, dotProduct_add, quad, quad]
  exact add_nonneg (hP _) (hR _)

/-- The claim: starting from the default covariance, the update by any measurement with a positive
definite noise covariance leaves a covariance whose quadratic form is never negative. -/
def firstUpdateClaim : Prop :=
  ∀ (aux : List VarDesc) (m : InitMeas ℝ (coreDef aux)) (l : Nat)
    (H : Matrix (Fin l) (Fin (total errLen (coreDef aux))) ℝ) (R : Matrix (Fin l) (Fin l) ℝ),
    m.P = 0 → R.PosDef → ∀ x, 0 ≤ x ⬝ᵥ (josephUpdate (coreInit m).P H R
      (gain (coreInit m).P H R) *ᵥ x)

/-- The direction measured by the witness: `p_x - p_y - p_z`. -/
def badDir : Fin 15 → ℝ := fun i => if i.val = 0 then 1 else if i.val = 1 ∨ i.val = 2 then -1 else 0

theorem badDir_sum (f : Fin 15 → ℝ) : ∑ i, badDir i * f i = f 0 - f 1 - f 2 := by
  have : ∀ i : Fin 12, badDir (Fin.natAdd 3 i) = 0 := by
    intro i
    simp only [badDir, Fin.val_natAdd]
    rw [if_neg (by omega), if_neg (by omega)]
  rw [show (∑ i : Fin 15, badDir i * f i) = ∑ i : Fin (3 + 12), badDir i * f i from rfl,
    Fin.sum_univ_add, Fin.sum_univ_three]
  simp only [this, zero_mul, Finset.sum_const_zero, add_zero]
  have h0 : badDir (Fin.castAdd 12 0) = 1 := by simp [badDir]
  have h1 : badDir (Fin.castAdd 12 1) = -1 := by simp [badDir]
  have h2 : badDir (Fin.castAdd 12 2) = -1 := by simp [badDir]
  rw [h0, h1, h2, show Fin.castAdd 12 (0 : Fin 3) = (0 : Fin 15) from rfl,
    show Fin.castAdd 12 (1 : Fin 3) = (1 : Fin 15) from rfl,
    show Fin.castAdd 12 (2 : Fin 3) = (2 : Fin 15) from rfl]
  ring

/-- **C69 is violated**: a measurement of `p_x - p_y - p_z` with a standard deviation of one
millimetre leaves a negative variance in the direction it measured. -/
theorem C69_violated : ¬ firstUpdateClaim := by
  intro hcl
  have hR : (Matrix.of fun _ _ : Fin 1 => (1 / 1000000 : ℝ)).PosDef := by
    rw [show (Matrix.of fun _ _ : Fin 1 => (1 / 1000000 : ℝ)) =
      (1 / 1000000 : ℝ) • (1 : Matrix (Fin 1) (Fin 1) ℝ) by
        ext i j; fin_cases i; fin_cases j; simp]
    exact PosDef.one.smul (by norm_num)
  have h := hcl [] ⟨noInit _, 0, 0, 0, 0, true⟩ 1 (Matrix.of fun _ i => badDir i)
    (Matrix.of fun _ _ => 1 / 1000000) rfl hR badDir
  rw [coreInit_P _ rfl] at h
  change 0 ≤ badDir ⬝ᵥ (josephUpdate (setPCore ℝ 15) (Matrix.of fun _ i => badDir i)
    (Matrix.of fun _ _ => 1 / 1000000) (gain (setPCore ℝ 15) (Matrix.of fun _ i => badDir i)
    (Matrix.of fun _ _ => 1 / 1000000)) *ᵥ badDir) at h
  set P := setPCore ℝ 15 with hP
  set H : Matrix (Fin 1) (Fin 15) ℝ := Matrix.of fun _ i => badDir i with hH
  set R : Matrix (Fin 1) (Fin 1) ℝ := Matrix.of fun _ _ => 1 / 1000000 with hRd
  have entry : ∀ i j : Fin 15, P i j = symInPlace (pCoreRaw ℝ) i j := fun i j =>
    setPCore_core i j i.2 j.2
  have e00 : P 0 0 = 0.0166 := by
    rw [entry, symInPlace_diag, pCoreRaw_apply]; norm_num [tab, pCoreTable]
  have e11 : P 1 1 = 0.0508 := by
    rw [entry, symInPlace_diag, pCoreRaw_apply]; norm_num [tab, pCoreTable]
  have e22 : P 2 2 = 0.0142 := by
    rw [entry, symInPlace_diag, pCoreRaw_apply]; norm_num [tab, pCoreTable]
  have e10 : P 1 0 = 0.01255 := by
    rw [entry, symInPlace_lower _ _ _ (by decide), pCoreRaw_apply, pCoreRaw_apply]
    norm_num [tab, pCoreTable]
  have e01 : P 0 1 = 0.012375 := by
    rw [entry, symInPlace_upper _ _ _ (by decide), pCoreRaw_apply, pCoreRaw_apply]
    norm_num [tab, pCoreTable]
  have e20 : P 2 0 = -0.0014 := by
    rw [entry, symInPlace_lower _ _ _ (by decide), pCoreRaw_apply, pCoreRaw_apply]
    norm_num [tab, pCoreTable]
  have e02 : P 0 2 = -0.00145 := by
    rw [entry, symInPlace_upper _ _ _ (by decide), pCoreRaw_apply, pCoreRaw_apply]
    norm_num [tab, pCoreTable]
  have e21 : P 2 1 = -0.00145 := by
    rw [entry, symInPlace_lower _ _ _ (by decide), pCoreRaw_apply, pCoreRaw_apply]
    norm_num [tab, pCoreTable]
  have e12 : P 1 2 = -0.001725 := by
    rw [entry, symInPlace_upper _ _ _ (by decide), pCoreRaw_apply, pCoreRaw_apply]
    norm_num [tab, pCoreTable]
  have hrow : ∀ j, (H * P) 0 j = P 0 j - P 1 j - P 2 j := fun j => by
    rw [mul_apply]; exact badDir_sum fun i => P i j
  have hcol : ∀ M : Matrix (Fin 15) (Fin 15) ℝ, ∀ i, (M *ᵥ badDir) i = M i 0 - M i 1 - M i 2 := by
    intro M i
    rw [mulVec, dotProduct_comm]; exact badDir_sum fun j => M i j
  have hPH : ∀ i, (P * Hᵀ) i 0 = P i 0 - P i 1 - P i 2 := fun i => hcol P i
  have hS : innovCov P H R = Matrix.of fun _ _ => (0.056351 : ℝ) := by
    ext a b
    fin_cases a; fin_cases b
    change (H * P * Hᵀ + R) 0 0 = 0.056351
    rw [Matrix.add_apply, Matrix.mul_assoc, mul_apply]
    rw [show (∑ j, H 0 j * (P * Hᵀ) j 0) = _ from badDir_sum fun j => (P * Hᵀ) j 0]
    simp only [hPH, e00, e01, e02, e10, e11, e12, e20, e21, e22, hRd, of_apply]
    norm_num
  have hdet : IsUnit (innovCov P H R).det := by
    rw [hS, det_fin_one]; exact (by norm_num [of_apply] : (0.056351 : ℝ) ≠ 0).isUnit
  have hinv : (innovCov P H R)⁻¹ 0 0 = (0.056351 : ℝ)⁻¹ := by
    rw [hS, inv_def, det_fin_one, adjugate_fin_one]
    simp
  have hg : ∀ i, gain P H R i 0 = (P i 0 - P i 1 - P i 2) * (0.056351 : ℝ)⁻¹ := by
    intro i
    rw [gain, mul_apply, Fin.sum_univ_one, hPH, hinv]
  have hJ : ∀ i j, (P - gain P H R * (H * P)) i j =
      P i j - (P i 0 - P i 1 - P i 2) * (0.056351 : ℝ)⁻¹ * (P 0 j - P 1 j - P 2 j) := by
    intro i j
    rw [Matrix.sub_apply, mul_apply, Fin.sum_univ_one, hg, hrow]
  have hup : josephUpdate P H R (gain P H R) = symInPlace (P - gain P H R * (H * P)) := by
    rw [← joseph_any P H R hdet]; rfl
  rw [hup, show badDir ⬝ᵥ (symInPlace (P - gain P H R * (H * P)) *ᵥ badDir) = _ from badDir_sum _,
    hcol, hcol, hcol, symInPlace_diag, symInPlace_diag, symInPlace_diag,
    symInPlace_upper _ 0 1 (by decide), symInPlace_upper _ 0 2 (by decide),
    symInPlace_upper _ 1 2 (by decide), symInPlace_lower _ 1 0 (by decide),
    symInPlace_lower _ 2 0 (by decide), symInPlace_lower _ 2 1 (by decide)] at h
  simp only [hJ, e00, e01, e02, e10, e11, e12, e20, e21, e22] at h
  norm_num at h

/-- Hypotheses of C67, C68 and C69: an initialisation without a covariance of its own.  Its covariance can be
updated, and the quadratic form stays non-negative though the matrix is not symmetric. -/
example : ∃ m : InitMeas ℝ (coreDef []), m.P = 0 ∧ (coreInit m).Pᵀ ≠ (coreInit m).P ∧
    0 < (coreInit m).P ⟨0, by decide⟩ ⟨0, by decide⟩ ∧
    ∀ (H : Matrix (Fin 1) (Fin (total errLen (coreDef []))) ℝ) (K : Matrix (Fin (total errLen (coreDef []))) (Fin 1) ℝ) x,
      0 ≤ x ⬝ᵥ (((1 - K * H) * (coreInit m).P * (1 - K * H)ᵀ + K * (1 : Matrix (Fin 1) (Fin 1) ℝ) * Kᵀ) *ᵥ x) := by
  refine ⟨⟨noInit _, 0, 0, 0, 0, true⟩, rfl, C67_violated [] _ rfl, C68_variance_partial [] _ rfl _ (.inl (by decide)),
    fun H K => C69_joseph_partial _ H _ K (C67_initial_covariance_partial [] _ rfl).1 fun y => ?_⟩
  rw [one_mulVec]
  exact Finset.sum_nonneg fun i _ => mul_self_nonneg _

end MSF
