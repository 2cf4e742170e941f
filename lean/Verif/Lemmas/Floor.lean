import Verif.Lemmas.RunNumbers
import Verif.Lemmas.Unchecked
import Verif.Lemmas.Yaw

/-! Lower bounds on the covariance along one direction of the error state (C119). -/

namespace MSF

open Matrix EKFState Spec

/-- The covariance `P` is at least `c δ δᵀ`: the variance of every linear function of the error is at
least `c` times its squared slope along `δ`. -/
def Floor {n : Type} [Fintype n] (c : ℝ) (δ : n → ℝ) (P : Matrix n n ℝ) : Prop :=
  P.PosSemidef ∧ (P - c • vecMulVec δ δ).PosSemidef

section
variable {n : Type} [Fintype n] {c : ℝ} {δ : n → ℝ} {P : Matrix n n ℝ}

theorem quad_vecMulVec (u δ : n → ℝ) : u ⬝ᵥ (vecMulVec δ δ *ᵥ u) = (u ⬝ᵥ δ) ^ 2 := by
  have : vecMulVec δ δ *ᵥ u = (δ ⬝ᵥ u) • δ := by
    ext i
    simp only [mulVec, vecMulVec_apply, dotProduct, Pi.smul_apply, smul_eq_mul, Finset.sum_mul]
    exact Finset.sum_congr rfl fun _ _ => by ring
  rw [this, dotProduct_smul, smul_eq_mul, dotProduct_comm δ u]
  ring

theorem Floor.bound (h : Floor c δ P) (u : n → ℝ) : c * (u ⬝ᵥ δ) ^ 2 ≤ u ⬝ᵥ (P *ᵥ u) := by
  have := h.2.dotProduct_mulVec_nonneg u
  rw [star_trivial, sub_mulVec, dotProduct_sub, smul_mulVec, dotProduct_smul, smul_eq_mul,
    quad_vecMulVec] at this
  linarith

theorem vecMulVec_symm (δ : n → ℝ) : (vecMulVec δ δ)ᵀ = vecMulVec δ δ := by
  ext i j
  simp only [transpose_apply, vecMulVec_apply, mul_comm]

theorem Floor.of_bound (hP : P.PosSemidef) (h : ∀ u, c * (u ⬝ᵥ δ) ^ 2 ≤ u ⬝ᵥ (P *ᵥ u)) : Floor c δ P := by
  refine ⟨hP, PosSemidef.of_dotProduct_mulVec_nonneg ?_ fun u => ?_⟩
  · refine hP.1.sub ?_
    rw [IsHermitian, conjTranspose_eq_transpose_of_trivial, transpose_smul, vecMulVec_symm]
  · rw [star_trivial, sub_mulVec, dotProduct_sub, smul_mulVec, dotProduct_smul, smul_eq_mul,
      quad_vecMulVec]
    linarith [h u]

/-- The bound that the inverse of a covariance gives. -/
theorem floor_of_inverse [DecidableEq n] (hP : P.PosDef) (hc : 0 ≤ c) (h : c * (δ ⬝ᵥ (P⁻¹ *ᵥ δ)) ≤ 1) :
    Floor c δ P := by
  refine .of_bound hP.posSemidef fun u => ?_
  have hu := (Matrix.isUnit_iff_isUnit_det _).1 hP.isUnit
  set y := P⁻¹ *ᵥ δ with hy
  have hPy : P *ᵥ y = δ := by rw [hy, mulVec_mulVec, mul_nonsing_inv _ hu, one_mulVec]
  set t := u ⬝ᵥ δ with ht
  have hsym : Pᵀ = P := psd_transpose_eq hP.posSemidef
  have h1 : u ⬝ᵥ (P *ᵥ y) = t := by rw [hPy]
  have h2 : y ⬝ᵥ (P *ᵥ u) = t := by
    rw [dotProduct_mulVec, ← mulVec_transpose, hsym, hPy, dotProduct_comm]
  have h3 : y ⬝ᵥ (P *ᵥ y) = δ ⬝ᵥ y := by rw [hPy, dotProduct_comm]
  have hq := hP.posSemidef.dotProduct_mulVec_nonneg (u - (c * t) • y)
  rw [star_trivial, mulVec_sub, mulVec_smul, sub_dotProduct, dotProduct_sub, dotProduct_sub,
    smul_dotProduct, smul_dotProduct, dotProduct_smul, dotProduct_smul, h1, h2, h3] at hq
  simp only [smul_eq_mul] at hq
  have h4 : (c * t) * (c * t) * (δ ⬝ᵥ y) ≤ c * t ^ 2 := by
    have : (c * t) * (c * t) * (δ ⬝ᵥ y) = (c * t ^ 2) * (c * (δ ⬝ᵥ y)) := by ring
    rw [this]
    exact mul_le_of_le_one_right (mul_nonneg hc (sq_nonneg _)) h
  nlinarith

theorem congr_vecMulVec {k : Type} [Fintype k] (A : Matrix k n ℝ) (δ : n → ℝ) :
    A * vecMulVec δ δ * Aᵀ = vecMulVec (A *ᵥ δ) (A *ᵥ δ) := by
  rw [mul_vecMulVec, vecMulVec_mul, vecMul_transpose]

end

theorem Floor.update {k : Nat} {m : Type} [Fintype m] [DecidableEq m] {en : Bool} {thr c : ℝ}
    {δ : Fin k → ℝ} {P P' : Matrix (Fin k) (Fin k) ℝ} {H : Matrix m (Fin k) ℝ} {r : m → ℝ}
    {R : Matrix m m ℝ} {x : Fin k → ℝ} (hf : Floor c δ P) (hR : R.PosSemidef) (hH : H *ᵥ δ = 0)
    (h : calculateCorrection en thr P H r R = some (some (x, P'))) : Floor c δ P' := by
  have hP' := calculateCorrection_psd hf.1 hR h
  refine ⟨hP', ?_⟩
  unfold calculateCorrection at h
  split at h
  · cases h
  split at h
  · cases h
  simp only [Option.some.injEq, Prod.mk.injEq] at h
  have hj := joseph_psd hf.2 hR H (gain P H R)
  rw [← h.2, josephUpdate, symInPlace_of_symm _ (psd_transpose_eq (joseph_psd hf.1 hR H _))]
  have hδ : (1 - gain P H R * H) *ᵥ δ = δ := by
    rw [sub_mulVec, one_mulVec, ← mulVec_mulVec, hH, mulVec_zero, sub_zero]
  generalize 1 - gain P H R * H = G at hj hδ ⊢
  convert hj using 1
  rw [Matrix.mul_sub, Matrix.sub_mul, Matrix.mul_smul, Matrix.smul_mul, congr_vecMulVec, hδ]
  abel

variable {aux : List VarDesc}

theorem Floor.clear {D : List VarDesc} (h : ∀ i (hi : i < D.length), D[i].name = i) {c : ℝ}
    {δ : Fin (total errLen D) → ℝ} (fixed : Nat) (is : List Nat)
    (hδ : ∀ i ∈ is, fixed.testBit i = true → ∀ (hi : i < D.length) k, Owns D ⟨i, hi⟩ k → δ k = 0) :
    ∀ P P' : ErrMat ℝ D, Floor c δ P → clearFixed fixed is P = some P' → Floor c δ P' := by
  induction is with
  | nil => intro P P' hP e; cases e; exact hP
  | cons a l ih =>
    intro P P' hP e
    unfold clearFixed at e
    rw [List.foldlM_cons] at e
    obtain ⟨P1, e1, e2⟩ := Option.bind_eq_some_iff.1 e
    refine ih (fun i hi => hδ i (List.mem_cons_of_mem _ hi)) P1 P' ?_ e2
    by_cases hf : fixed.testBit a = true
    · rw [if_pos hf] at e1
      by_cases ha : a < D.length
      · have hz := hδ a List.mem_cons_self hf ha
        obtain ⟨P2, e3, a1, a2, a3, h4⟩ := C38_clear_cross_cov P ⟨a, ha⟩ h
        obtain rfl := Option.some.inj (e3.symm.trans e1)
        refine ⟨h4 hP.1, ?_⟩
        obtain ⟨P3, e5, b1, b2, b3, h6⟩ := C38_clear_cross_cov (P - c • vecMulVec δ δ) ⟨a, ha⟩ h
        convert h6 hP.2 using 1
        ext r s
        rw [Matrix.sub_apply, Matrix.smul_apply, vecMulVec_apply]
        by_cases hr : Owns D ⟨a, ha⟩ r <;> by_cases hs : Owns D ⟨a, ha⟩ s
        · rw [b1 r s hr hs, a1 r s hr hs, Matrix.sub_apply, Matrix.smul_apply, vecMulVec_apply]
        · rw [(b3 r s hr hs).1, (a3 r s hr hs).1, hz r hr]; simp
        · rw [(b3 s r hs hr).2, (a3 s r hs hr).2, hz s hs]; simp
        · rw [b2 r s hr hs, a2 r s hr hs, Matrix.sub_apply, Matrix.smul_apply, vecMulVec_apply]
      · simp only [clearCrossCov, List.getElem?_eq_none (not_lt.1 ha), Option.bind_eq_bind,
          Option.bind_none] at e1
        cases e1
    · rw [if_neg hf] at e1
      cases e1
      exact hP

/-- The direction does not touch velocity, attitude and biases. -/
def Standing (δ : Fin (total errLen (coreDef aux)) → ℝ) : Prop := ∀ k, 3 ≤ k.val → k.val < 15 → δ k = 0

theorem setFd_standing (C : M33 ℝ) (w a : V3 ℝ) (dt : ℝ) {δ : Fin (total errLen (coreDef aux)) → ℝ}
    (h : Standing δ) :
    setFd (fun b => 3 * b.idx.val) (1 : ErrMat ℝ (coreDef aux)) C w a dt *ᵥ δ = δ := by
  have key : ∀ r c : Fin (total errLen (coreDef aux)), c.val < 3 ∨ 15 ≤ c.val →
      setFd (fun b => 3 * b.idx.val) (1 : ErrMat ℝ (coreDef aux)) C w a dt r c =
        (1 : ErrMat ℝ (coreDef aux)) r c := by
    intro r c hc
    by_cases hrc : 15 ≤ r.val ∨ 15 ≤ c.val
    · exact setFd_outside _ (fun _ => rfl) _ _ _ _ _ r c hrc
    · have hb : ∀ b : Fin 5, coreBlock (setFd (fun b => 3 * b.idx.val)
          (1 : ErrMat ℝ (coreDef aux)) C w a dt) b 0 =
          coreBlock (1 : ErrMat ℝ (coreDef aux)) b 0 := by
        intro b
        rw [coreBlock_setFd _ (fun _ => rfl)]
        simp
      have := congrFun (congrFun (hb ⟨r / 3, by omega⟩) ⟨r % 3, by omega⟩) ⟨c, by omega⟩
      simp only [coreBlock, of_apply] at this
      have er : ∀ h, (⟨3 * (r.val / 3) + r.val % 3, h⟩ : Fin (total errLen (coreDef aux))) = r :=
        fun h => Fin.ext (by simp only; omega)
      have ec : ∀ h, (⟨3 * (0 : Fin 5).val + c.val, h⟩ : Fin (total errLen (coreDef aux))) = c :=
        fun h => Fin.ext (by simp)
      rwa [er, ec] at this
  funext r
  have e : ((1 : ErrMat ℝ (coreDef aux)) *ᵥ δ) r = δ r := by rw [one_mulVec]
  rw [← e]
  simp only [mulVec, dotProduct]
  refine Finset.sum_congr rfl fun c _ => ?_
  by_cases hc : c.val < 3 ∨ 15 ≤ c.val
  · rw [key r c hc]
  · rw [h c (by omega) (by omega), mul_zero, mul_zero]

/-- A prediction keeps a lower bound along such a direction. -/
theorem Floor.predict (ho : Ordered aux) (np : NoiseParams ℝ (coreDef aux))
    (hg : np.gyr = 0 ∧ np.gyrBias = 0) (hb : np.accBias = 0)
    (haux : ∀ s dt i, ((coreDef aux).get i).isAux → (np.qAux s dt i).Q.PosSemidef)
    {dt c : ℝ} (hdt : 0 < dt) {P : ErrMat ℝ (coreDef aux)} {u : Input (V3 ℝ) (V3 ℝ)}
    {x : Values (coreDef aux)} {δ : Fin (total errLen (coreDef aux)) → ℝ} (hδ : Standing δ)
    (hP : Floor c δ P) (hx : UnitQuats (toVars x)) {r}
    (hr : predictProcessCovariance np (mkState (noInit _) ⟨0, 0⟩ 0 P) (mkState (toVars x) u dt 0) 0 =
      some r) : Floor c δ r.2.1.P := by
  have hno : ∀ Q : ErrMat ℝ (coreDef aux), ¬ (mkState (toVars x) u dt 0).time -
      (mkState (noInit (coreDef aux)) ⟨0, 0⟩ 0 Q).time ≤ 0 := by
    intro Q
    change ¬ dt - 0 ≤ 0
    linarith
  obtain ⟨r1, h1, h1p⟩ := predict_psd ho np hg hb haux dt u hP.1 hx
  obtain rfl := Option.some.inj (h1.symm.trans hr)
  refine ⟨h1p, ?_⟩
  have hie := indexingErrors_eq_zero.2 ho
  obtain ⟨r2, h2, h2p⟩ := predict_psd ho np hg hb haux dt u hP.2 hx
  obtain ⟨Q1, e1, q1⟩ := predict_apply hie np (mkState (noInit _) ⟨0, 0⟩ 0 P)
    (mkState (toVars x) u dt 0) 0 (hno _)
  obtain ⟨Q2, e2, q2⟩ := predict_apply hie np (mkState (noInit _) ⟨0, 0⟩ 0 (P - c • vecMulVec δ δ))
    (mkState (toVars x) u dt 0) 0 (hno _)
  obtain rfl := Option.some.inj (h1.symm.trans e1)
  obtain rfl := Option.some.inj (h2.symm.trans e2)
  have hQ : Q1 = Q2 := by
    ext a b
    by_cases hab : ∃ i : Fin (coreDef aux).length, ((coreDef aux).get i).isAux ∧
        InVar (coreDef aux) i a ∧ InVar (coreDef aux) i b
    · obtain ⟨i, hi, ha, hb⟩ := hab
      rw [(q1 a b).1 i hi ha hb, (q2 a b).1 i hi ha hb]
      rfl
    · have hno : ∀ i, ((coreDef aux).get i).isAux →
          ¬ (InVar (coreDef aux) i a ∧ InVar (coreDef aux) i b) := fun i hi h => hab ⟨i, hi, h⟩
      rw [(q1 a b).2 hno, (q2 a b).2 hno]
      rfl
  subst hQ
  convert h2p using 1
  simp only [mkState]
  change _ = setFd (fun b => 3 * b.idx.val) (1 : ErrMat ℝ (coreDef aux)) _ _ _ _ *
    (P - c • vecMulVec δ δ) * (setFd (fun b => 3 * b.idx.val) (1 : ErrMat ℝ (coreDef aux)) _ _ _ _)ᵀ + Q1
  rw [Matrix.mul_sub, Matrix.sub_mul, Matrix.mul_smul, Matrix.smul_mul, congr_vecMulVec,
    setFd_standing _ _ _ _ hδ]
  abel

/-! ### The batch filter -/

section batch
variable {A W X C M T E : Type} [AddCommGroup A] [Module ℚ A] [AddCommGroup W] [Module ℚ W]
  {K : Kernel A W X C M T E} {J : X → C → Prop}

theorem correct_joint (hu : ∀ m x P, J x P → J (K.update K.tr0 m x P).x (K.update K.tr0 m x P).P)
    (o : Option M) (x : X) (P : C) (h : J x P) :
    J (Spec.correct K o (x, P)).1 (Spec.correct K o (x, P)).2 := by
  cases o with
  | none => exact h
  | some m => exact hu m x P h

theorem forward_joint (hp : ∀ dt u x P u', 0 < dt → J x P →
      J (K.prop dt u x u') (K.predP dt P u' (K.prop dt u x u')))
    (hu : ∀ m x P, J x P → J (K.update K.tr0 m x P).x (K.update K.tr0 m x P).P)
    (input : ℚ → Input A W) (meas : ℚ → Option M) (ts : List ℚ) :
    ∀ p : ℚ × St A W X C, (p.1 :: ts).Pairwise (· < ·) → J p.2.x p.2.P →
      ∀ e ∈ forward K input meas p ts, J e.2.x e.2.P := by
  induction ts with
  | nil => intro p _ _ e he; cases he
  | cons t ts ih =>
    intro p hs hp' e he
    have h1 : p.1 < t := List.rel_of_pairwise_cons hs List.mem_cons_self
    have h2 : (t :: ts).Pairwise (· < ·) := (List.pairwise_cons.1 hs).2
    have key := correct_joint hu (meas t) _ _ (hp (t - p.1) p.2.u p.2.x p.2.P (input t) (by linarith) hp')
    unfold forward at he
    rcases List.mem_cons.1 he with rfl | he
    · exact key
    · exact ih _ h2 key e he

/-- An invariant of mean and covariance holds for all states of the batch filter. -/
theorem batch_joint (hp : ∀ dt u x P u', 0 < dt → J x P →
      J (K.prop dt u x u') (K.predP dt P u' (K.prop dt u x u')))
    (hu : ∀ m x P, J x P → J (K.update K.tr0 m x P).x (K.update K.tr0 m x P).P) (x : X) (P : C)
    (h : J x P) (L : Log A W M) : ∀ e ∈ batch K x P L, J e.2.x e.2.P := by
  have hs : (times L).Pairwise (· < ·) := (times_sortedLT L).pairwise
  unfold batch
  cases ht : times L with
  | nil => intro e he; cases he
  | cons t ts =>
    rw [ht] at hs
    have key := correct_joint hu (measAt L.stamps L.hist t) x P h
    intro e he
    rcases List.mem_cons.1 he with rfl | he
    · exact key
    · exact forward_joint hp hu _ _ ts (t, _) hs key e he

end batch

end MSF
