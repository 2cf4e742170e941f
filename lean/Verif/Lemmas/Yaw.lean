import Verif.Lemmas.Translate
import Verif.Lemmas.RunNumbers
import Verif.Lemmas.StillRun
import Verif.Props.TimeOrigin
import Verif.Lemmas.Gps
import Verif.Spec.Heading

/-! Rotating the world frame about the vertical axis commutes with the numerics of the filter. -/

namespace MSF

open Matrix EKFState

variable {aux : List VarDesc}

/-! ### The mean -/

theorem IsYaw.orth {g : Quat ℝ} (h : IsYaw g) : g.toRot * g.toRotᵀ = 1 := toRot_orthogonal g h.unit

theorem IsYaw.orth' {g : Quat ℝ} (h : IsYaw g) : g.toRotᵀ * g.toRot = 1 :=
  mul_eq_one_comm.1 h.orth

theorem IsYaw.gravity {g : Quat ℝ} (h : IsYaw g) : g.toRot *ᵥ (MSF.gravity : V3 ℝ) = MSF.gravity := by
  have e : (MSF.gravity : V3 ℝ) = (9.80834 : ℝ) • ![0, 0, 1] := by
    funext i; fin_cases i <;> simp [MSF.gravity]
  rw [e, mulVec_smul, h.vert]

/-- The third row of the rotation. -/
theorem IsYaw.row {g : Quat ℝ} (h : IsYaw g) (y : V3 ℝ) : (g.toRot *ᵥ y) 2 = y 2 := by
  have e : g.toRotᵀ *ᵥ ![0, 0, 1] = ![0, 0, 1] := by
    conv_lhs => rw [← h.vert]
    rw [mulVec_mulVec, h.orth', one_mulVec]
  have e0 := congrFun e 0
  have e1 := congrFun e 1
  have e2 := congrFun e 2
  simp [mulVec, dotProduct, Fin.sum_univ_three] at e0 e1 e2
  simp [mulVec, dotProduct, Fin.sum_univ_three, e0, e1, e2]

theorem set3_other (s : Vars ℝ (coreDef aux)) (a b : V3 ℝ) (c : Quat ℝ) (i : Fin (coreDef aux).length)
    (h0 : i ≠ ip) (h1 : i ≠ iv) (h2 : i ≠ iq) : setQ (setV (setP s a) b) c i = s i := by
  unfold setQ setV setP
  rw [Function.update_of_ne h2, Function.update_of_ne h1, Function.update_of_ne h0]

theorem ne01 : (ip : Fin (coreDef aux).length) ≠ iv :=
  Fin.ne_of_val_ne (show (0 : Nat) ≠ 1 by decide)
theorem ne02 : (ip : Fin (coreDef aux).length) ≠ iq :=
  Fin.ne_of_val_ne (show (0 : Nat) ≠ 2 by decide)
theorem ne12 : (iv : Fin (coreDef aux).length) ≠ iq :=
  Fin.ne_of_val_ne (show (1 : Nat) ≠ 2 by decide)

theorem set3_p (s : Vars ℝ (coreDef aux)) (a b : V3 ℝ) (c : Quat ℝ) :
    setQ (setV (setP s a) b) c ip = { s ip with val := a } := by
  unfold setQ setV setP
  rw [Function.update_of_ne ne02, Function.update_of_ne ne01, Function.update_self]

theorem set3_v (s : Vars ℝ (coreDef aux)) (a b : V3 ℝ) (c : Quat ℝ) :
    setQ (setV (setP s a) b) c iv = { s iv with val := b } := by
  unfold setQ setV setP
  rw [Function.update_of_ne ne12, Function.update_self, Function.update_of_ne ne01.symm]

theorem set3_q (s : Vars ℝ (coreDef aux)) (a b : V3 ℝ) (c : Quat ℝ) :
    setQ (setV (setP s a) b) c iq = { s iq with val := c } := by
  unfold setQ setV setP
  rw [Function.update_self, Function.update_of_ne ne12.symm, Function.update_of_ne ne02.symm]

theorem p_rotVars (g : Quat ℝ) (s : Vars ℝ (coreDef aux)) : p (rotVars g s) = g.toRot *ᵥ p s := by
  unfold rotVars
  exact congrArg StateVar.val (set3_p s _ _ _)

theorem v_rotVars (g : Quat ℝ) (s : Vars ℝ (coreDef aux)) : v (rotVars g s) = g.toRot *ᵥ v s := by
  unfold rotVars
  exact congrArg StateVar.val (set3_v s _ _ _)

theorem q_rotVars (g : Quat ℝ) (s : Vars ℝ (coreDef aux)) : q (rotVars g s) = g.mul (q s) := by
  unfold rotVars
  exact congrArg StateVar.val (set3_q s _ _ _)

theorem other_rotVars (g : Quat ℝ) (s : Vars ℝ (coreDef aux)) (i : Fin (coreDef aux).length)
    (h0 : i ≠ ip) (h1 : i ≠ iv) (h2 : i ≠ iq) : rotVars g s i = s i := set3_other _ _ _ _ _ h0 h1 h2

theorem bw_rotVars (g : Quat ℝ) (s : Vars ℝ (coreDef aux)) : b_w (rotVars g s) = b_w s :=
  congrArg StateVar.val (other_rotVars g s ibw (Fin.ne_of_val_ne (show (3 : Nat) ≠ 0 by decide))
    (Fin.ne_of_val_ne (show (3 : Nat) ≠ 1 by decide)) (Fin.ne_of_val_ne (show (3 : Nat) ≠ 2 by decide)))

theorem ba_rotVars (g : Quat ℝ) (s : Vars ℝ (coreDef aux)) : b_a (rotVars g s) = b_a s :=
  congrArg StateVar.val (other_rotVars g s iba (Fin.ne_of_val_ne (show (4 : Nat) ≠ 0 by decide))
    (Fin.ne_of_val_ne (show (4 : Nat) ≠ 1 by decide)) (Fin.ne_of_val_ne (show (4 : Nat) ≠ 2 by decide)))

theorem toVars_values (x : Vars ℝ (coreDef aux)) (h : ∀ i, (x i).Q = 0 ∧ (x i).hasReset = false) :
    toVars (values x) = x := by
  funext i
  obtain ⟨h1, h2⟩ := h i
  unfold toVars values
  cases hx : x i with
  | mk a b c =>
    rw [hx] at h1 h2
    simp only at h1 h2
    rw [h1, h2]

theorem toVars_rotVals (g : Quat ℝ) (x : Values (coreDef aux)) :
    toVars (rotVals g x) = rotVars g (toVars x) := by
  refine toVars_values _ fun i => ?_
  unfold rotVars
  by_cases h0 : i = ip
  · subst h0; rw [set3_p]; exact ⟨rfl, rfl⟩
  by_cases h1 : i = iv
  · subst h1; rw [set3_v]; exact ⟨rfl, rfl⟩
  by_cases h2 : i = iq
  · subst h2; rw [set3_q]; exact ⟨rfl, rfl⟩
  rw [set3_other _ _ _ _ _ h0 h1 h2]; exact ⟨rfl, rfl⟩

theorem rotVals_values (g : Quat ℝ) (s : Vars ℝ (coreDef aux)) :
    rotVals g (values s) = values (rotVars g s) := by
  funext i
  unfold rotVals values rotVars
  by_cases h0 : i = ip
  · subst h0; rw [set3_p, set3_p]; rfl
  by_cases h1 : i = iv
  · subst h1; rw [set3_v, set3_v]; rfl
  by_cases h2 : i = iq
  · subst h2; rw [set3_q, set3_q]; rfl
  rw [set3_other _ _ _ _ _ h0 h1 h2, set3_other _ _ _ _ _ h0 h1 h2]; rfl

/-- Two state objects are equal if their variables are. -/
theorem vars_ext {s t : Vars ℝ (coreDef aux)} (h0 : s ip = t ip) (h1 : s iv = t iv) (h2 : s iq = t iq)
    (h : ∀ i, i ≠ ip → i ≠ iv → i ≠ iq → s i = t i) : s = t := by
  funext i
  by_cases e0 : i = ip
  · subst e0; exact h0
  by_cases e1 : i = iv
  · subst e1; exact h1
  by_cases e2 : i = iq
  · subst e2; exact h2
  exact h i e0 e1 e2

/-- `quatInt` multiplies from the right. -/
theorem quatInt_mul (g q : Quat ℝ) (ew ewold : V3 ℝ) (dt : ℝ) :
    Quat.ofCoeffs ((quatInt ew ewold dt).mulVec (g.mul q).coeffs) =
      g.mul (Quat.ofCoeffs ((quatInt ew ewold dt).mulVec q.coeffs)) := by
  obtain ⟨n, -, h⟩ := quatInt_comb ew ewold dt
  rw [h]
  generalize (1 - n / 2 + n ^ 2 / 6 + n ^ 4 / 24) = a
  generalize ((0.5 * dt) • (2 : ℝ)⁻¹ • (ew + ewold) +
        (dt * dt * (1 / 48)) • (cross3 ewold ew - cross3 ew ewold)) = u
  simp only [comb, Quat.ofCoeffs, Quat.coeffs, Quat.mul, mulVec, dotProduct, Fin.sum_univ_four,
    Quat.mk.injEq]
  simp
  refine ⟨?_, ?_, ?_, ?_⟩ <;> ring

theorem normalize_rot {g : Quat ℝ} (hg : g.normSq = 1) (q : Quat ℝ) :
    (g.mul q).normalize = q.normalize.map g.mul := by
  have e : (g.mul q).normSq = q.normSq := by rw [Quat.normSq_mul, hg, one_mul]
  unfold Quat.normalize
  simp only [e]
  split
  · rfl
  · simp only [Option.map_some, Option.some.injEq, Quat.mul, Quat.mk.injEq]
    refine ⟨?_, ?_, ?_, ?_⟩ <;> ring

theorem normalize_normSq {q u : Quat ℝ} (h : q.normalize = some u) : u.normSq = 1 := by
  have h0 : 0 < q.normSq := by
    refine lt_of_le_of_ne (Quat.normSq_nonneg q) fun h0 => ?_
    simp [Quat.normalize, ← h0] at h
  obtain ⟨u', h1, h2, -⟩ := Quat.normalize_pos h0
  rw [h] at h1
  rw [Option.some.inj h1]
  exact h2

theorem copyNon_rot (g : Quat ℝ) (s t : Vars ℝ (coreDef aux)) :
    copyNonPropagationStates (rotVars g s) t = copyNonPropagationStates s t := by
  funext i
  unfold copyNonPropagationStates
  by_cases h : ((coreDef aux).get i).stype = .coreProp
  · rw [if_pos h, if_pos h]
  · rw [if_neg h, if_neg h]
    exact other_rotVars g s i (fun e => h (by subst e; rfl)) (fun e => h (by subst e; rfl))
      (fun e => h (by subst e; rfl))

/-- `PropagateState` commutes with a rotation about the vertical axis. -/
theorem propagate_rot {g : Quat ℝ} (hg : IsYaw g)
    (old new : EKFState ℝ (coreDef aux)) (hq : (q old.vars).normSq = 1) :
    propagateState { old with vars := rotVars g old.vars } new =
      (propagateState old new).map fun s => { s with vars := rotVars g s.vars } := by
  unfold propagateState
  simp only [copyNon_rot, bw_rotVars, ba_rotVars, q_rotVars, v_rotVars, p_rotVars, quatInt_mul,
    normalize_rot hg.unit]
  cases hn : (Quat.ofCoeffs ((quatInt (new.w_m - b_w (copyNonPropagationStates old.vars
      (resetState new.vars))) (old.w_m - b_w old.vars) (new.time - old.time)).mulVec
      (q old.vars).coeffs)).normalize with
  | none => rfl
  | some qn =>
    have hqn := normalize_normSq hn
    simp only [Option.map_some, Option.some.injEq, EKFState.mk.injEq, and_true, q_setQ, v_setV,
      toRot_mul _ _ hg.unit hqn, toRot_mul _ _ hg.unit hq]
    generalize copyNonPropagationStates old.vars (resetState new.vars) = w
    generalize new.a_m - b_a w = ea
    generalize old.a_m - b_a old.vars = eo
    generalize new.time - old.time = dt
    have ev : g.toRot *ᵥ v old.vars + dt • ((2 : ℝ)⁻¹ • ((g.toRot * qn.toRot) *ᵥ ea +
        (g.toRot * (q old.vars).toRot) *ᵥ eo) - MSF.gravity) = g.toRot *ᵥ (v old.vars +
        dt • ((2 : ℝ)⁻¹ • (qn.toRot *ᵥ ea + (q old.vars).toRot *ᵥ eo) - MSF.gravity)) := by
      rw [mulVec_add, mulVec_smul, mulVec_sub, mulVec_smul, mulVec_add, hg.gravity, mulVec_mulVec,
        mulVec_mulVec]
    rw [ev]
    generalize v old.vars + dt • ((2 : ℝ)⁻¹ • (qn.toRot *ᵥ ea + (q old.vars).toRot *ᵥ eo) -
      MSF.gravity) = vn
    have ep : g.toRot *ᵥ p old.vars + dt • ((2 : ℝ)⁻¹ • (g.toRot *ᵥ vn + g.toRot *ᵥ v old.vars)) =
        g.toRot *ᵥ (p old.vars + dt • ((2 : ℝ)⁻¹ • (vn + v old.vars))) := by
      rw [mulVec_add, mulVec_smul, mulVec_smul, mulVec_add]
    rw [ep]
    generalize p old.vars + dt • ((2 : ℝ)⁻¹ • (vn + v old.vars)) = pn
    have h3 : ∀ a b c, setP (setV (setQ w c) b) a = setQ (setV (setP w a) b) c := by
      intro a b c
      refine vars_ext ?_ ?_ ?_ fun i h0 h1 h2 => ?_
      · rw [set3_p]; simp [setP, setV, setQ, ne01, ne02]
      · rw [set3_v]; simp [setP, setV, setQ, ne01.symm, ne12]
      · rw [set3_q]; simp [setP, setV, setQ, ne02.symm, ne12.symm]
      · rw [set3_other _ _ _ _ _ h0 h1 h2]
        simp [setP, setV, setQ, h0, h1, h2]
    rw [h3, h3]
    refine vars_ext ?_ ?_ ?_ fun i h0 h1 h2 => ?_
    · rw [set3_p, rotVars, set3_p]
      simp only [p, set3_p]
    · rw [set3_v, rotVars, set3_v]
      simp only [v, set3_v]
    · rw [set3_q, rotVars, set3_q]
      simp only [q, set3_q]
    · rw [other_rotVars _ _ _ h0 h1 h2, set3_other _ _ _ _ _ h0 h1 h2, set3_other _ _ _ _ _ h0 h1 h2]

/-! ### Matrices on the error state -/

theorem rotErr_block (R : M33 ℝ) (b b' : Fin 5) :
    coreBlock (rotErr (aux := aux) R) b b' =
      if b = 1 ∧ b' = 1 then R else if b = 0 ∧ b' = 0 then R else (1 : BM ℝ) b b' := by
  have e := coreBlock_setBlock (setBlock (1 : ErrMat ℝ (coreDef aux)) 0 0 R) 1 1 b b' R
  have e' := coreBlock_setBlock (1 : ErrMat ℝ (coreDef aux)) 0 0 b b' R
  refine e.trans ?_
  rw [← coreBlock_one aux]
  exact congrArg _ e'

theorem rotErr_aux (R : M33 ℝ) (r c : Fin (total errLen (coreDef aux))) (h : 6 ≤ r.val ∨ 6 ≤ c.val) :
    rotErr R r c = (1 : ErrMat ℝ (coreDef aux)) r c := by
  simp only [rotErr, setBlock, of_apply]
  rw [dif_neg (by omega), dif_neg (by omega)]

/-- Matrices that agree on the core blocks and outside are equal. -/
theorem core_ext {M N : ErrMat ℝ (coreDef aux)} (h : ∀ b b', coreBlock M b b' = coreBlock N b b')
    (h' : ∀ r c, 15 ≤ r.val ∨ 15 ≤ c.val → M r c = N r c) : M = N := by
  ext r c
  by_cases hrc : 15 ≤ r.val ∨ 15 ≤ c.val
  · exact h' r c hrc
  · have := congrFun (congrFun (h ⟨r / 3, by omega⟩ ⟨c / 3, by omega⟩) ⟨r % 3, by omega⟩)
      ⟨c % 3, by omega⟩
    simp only [coreBlock, of_apply] at this
    have er : ∀ h, (⟨3 * (r.val / 3) + r.val % 3, h⟩ : Fin (total errLen (coreDef aux))) = r :=
      fun h => Fin.ext (by simp only; omega)
    have ec : ∀ h, (⟨3 * (c.val / 3) + c.val % 3, h⟩ : Fin (total errLen (coreDef aux))) = c :=
      fun h => Fin.ext (by simp only; omega)
    rwa [er, ec] at this

/-- A sum over the error state when only the core contributes. -/
theorem sum_core (f : Fin (total errLen (coreDef aux)) → ℝ) (h : ∀ k, 15 ≤ k.val → f k = 0) :
    ∑ k, f k = ∑ b : Fin 5, ∑ i : Fin 3, f ⟨3 * b + i, by have := core_le_total aux; omega⟩ := by
  rw [← Finset.sum_product']
  symm
  refine Finset.sum_bij_ne_zero (fun x _ _ => ⟨3 * x.1 + x.2, by have := core_le_total aux; omega⟩)
    (fun _ _ _ => Finset.mem_univ _) ?_ ?_ ?_
  · rintro ⟨a, i⟩ - - ⟨b, j⟩ - - e
    have := congrArg Fin.val e
    simp only at this
    refine Prod.ext (Fin.ext ?_) (Fin.ext ?_) <;> simp only <;> omega
  · intro k _ hk
    have hk : k.val < 15 := by by_contra hc; exact hk (h k (by omega))
    have e : ∀ h, (⟨3 * (k.val / 3) + k.val % 3, h⟩ : Fin (total errLen (coreDef aux))) = k :=
      fun h => Fin.ext (by simp only; omega)
    refine ⟨(⟨k / 3, by omega⟩, ⟨k % 3, by omega⟩), Finset.mem_univ _, ?_, e _⟩
    simp only [e]
    assumption
  · intros; rfl

/-- Products of matrices of which one does not mix the core with the rest. -/
theorem coreBlock_mul (M N : ErrMat ℝ (coreDef aux)) (b b' : Fin 5)
    (h : ∀ r k c : Fin (total errLen (coreDef aux)), r.val < 15 → c.val < 15 → 15 ≤ k.val →
      M r k * N k c = 0) :
    coreBlock (M * N) b b' = ∑ b'', coreBlock M b b'' * coreBlock N b'' b' := by
  ext i j
  rw [Matrix.sum_apply]
  simp only [coreBlock, of_apply, mul_apply]
  rw [sum_core _ fun k hk => h _ _ _ (by simp only; omega) (by simp only; omega) hk]

/-- Outside the core the rotation does nothing. -/
theorem rotErr_mul (R : M33 ℝ) (M : ErrMat ℝ (coreDef aux))
    (r c : Fin (total errLen (coreDef aux))) (h : 6 ≤ r.val) :
    (rotErr R * M : ErrMat ℝ (coreDef aux)) r c = M r c := by
  rw [mul_apply]
  simp only [rotErr_aux R r _ (.inl h)]
  rw [← mul_apply, Matrix.one_mul]

theorem mul_rotErr (R : M33 ℝ) {k : Type} (M : Matrix k (Fin (total errLen (coreDef aux))) ℝ) (r : k)
    (c : Fin (total errLen (coreDef aux))) (h : 6 ≤ c.val) :
    (M * rotErr R : Matrix k (Fin (total errLen (coreDef aux))) ℝ) r c = M r c := by
  rw [mul_apply]
  simp only [rotErr_aux R _ c (.inr h)]
  rw [← mul_apply, Matrix.mul_one]

theorem rotErr_transpose (R : M33 ℝ) : (rotErr R : ErrMat ℝ (coreDef aux))ᵀ = rotErr Rᵀ := by
  refine core_ext (fun b b' => ?_) fun r c h => ?_
  · have e : coreBlock ((rotErr R : ErrMat ℝ (coreDef aux))ᵀ) b b' =
      (coreBlock (rotErr (aux := aux) R) b' b)ᵀ := rfl
    rw [e, rotErr_block, rotErr_block]
    by_cases h1 : b = 1 ∧ b' = 1
    · rw [if_pos ⟨h1.2, h1.1⟩, if_pos h1]
    · rw [if_neg fun h => h1 ⟨h.2, h.1⟩, if_neg h1]
      by_cases h0 : b = 0 ∧ b' = 0
      · rw [if_pos ⟨h0.2, h0.1⟩, if_pos h0]
      · rw [if_neg fun h => h0 ⟨h.2, h.1⟩, if_neg h0]
        by_cases e : b = b'
        · subst e; rw [one_apply_eq, transpose_one]
        · rw [one_apply_ne e, one_apply_ne (Ne.symm e), transpose_zero]
  · rw [transpose_apply, rotErr_aux _ _ _ (by omega), rotErr_aux _ _ _ (by omega), one_apply, one_apply]
    simp only [eq_comm]

theorem rotErr_core (R : M33 ℝ) (M : ErrMat ℝ (coreDef aux)) (b b' : Fin 5) :
    coreBlock (rotErr R * M) b b' = (if b = 1 ∨ b = 0 then R else 1) * coreBlock M b b' := by
  rw [coreBlock_mul]
  · simp only [rotErr_block]
    match b with
    | 0 => simp [Fin.sum_univ_five, one_apply]
    | 1 => simp [Fin.sum_univ_five, one_apply]
    | 2 => simp [Fin.sum_univ_five, one_apply]
    | 3 => simp [Fin.sum_univ_five, one_apply]
    | 4 => simp [Fin.sum_univ_five, one_apply]
  · intro r k c hr hc hk
    rw [rotErr_aux _ _ _ (by omega), one_apply_ne (by rintro rfl; omega), zero_mul]

theorem core_rotErr (R : M33 ℝ) (M : ErrMat ℝ (coreDef aux)) (b b' : Fin 5) :
    coreBlock (M * rotErr R) b b' = coreBlock M b b' * (if b' = 1 ∨ b' = 0 then R else 1) := by
  rw [coreBlock_mul]
  · simp only [rotErr_block]
    match b' with
    | 0 => simp [Fin.sum_univ_five, one_apply]
    | 1 => simp [Fin.sum_univ_five, one_apply]
    | 2 => simp [Fin.sum_univ_five, one_apply]
    | 3 => simp [Fin.sum_univ_five, one_apply]
    | 4 => simp [Fin.sum_univ_five, one_apply]
  · intro r k c hr hc hk
    rw [rotErr_aux _ _ _ (by omega), one_apply_ne (by rintro rfl; omega), mul_zero]

theorem rotErr_orth {R : M33 ℝ} (h : R * Rᵀ = 1) :
    (rotErr R : ErrMat ℝ (coreDef aux)) * (rotErr R)ᵀ = 1 := by
  rw [rotErr_transpose]
  refine core_ext (fun b b' => ?_) fun r c hrc => ?_
  · rw [rotErr_core, rotErr_block, coreBlock_one]
    by_cases e : b = b'
    · subst e
      match b with
      | 0 => simp [h]
      | 1 => simp [h]
      | 2 => simp
      | 3 => simp
      | 4 => simp
    · have e1 : ∀ k : Fin 5, ¬ (b = k ∧ b' = k) := fun k hk => e (hk.1.trans hk.2.symm)
      rw [if_neg (e1 1), if_neg (e1 0), one_apply_ne e, mul_zero]
  · rcases hrc with hr | hc
    · rw [rotErr_mul _ _ _ _ (by omega), rotErr_aux _ _ _ (by omega)]
    · rw [mul_rotErr _ _ _ _ (by omega), rotErr_aux _ _ _ (by omega)]

theorem rotCov_zero (R : M33 ℝ) : rotCov (aux := aux) R 0 = 0 := by simp [rotCov]

theorem rotCov_core (R : M33 ℝ) (M : ErrMat ℝ (coreDef aux)) (b b' : Fin 5) :
    coreBlock (rotCov R M) b b' = (if b = 1 ∨ b = 0 then R else 1) * coreBlock M b b' *
      (if b' = 1 ∨ b' = 0 then Rᵀ else 1) := by
  rw [rotCov, rotErr_transpose, core_rotErr, rotErr_core]

/-- The transition matrix of a prediction. -/
theorem setFd_rot {R : M33 ℝ} (C : M33 ℝ) (w a : V3 ℝ) (dt : ℝ) :
    setFd (fun b => 3 * b.idx.val) (1 : ErrMat ℝ (coreDef aux)) (R * C) w a dt * rotErr R =
      rotErr R * setFd (fun b => 3 * b.idx.val) 1 C w a dt := by
  refine core_ext (fun b b' => ?_) fun r c hrc => ?_
  · rw [core_rotErr, rotErr_core, coreBlock_setFd _ (fun _ => rfl), coreBlock_setFd _ (fun _ => rfl),
      coreBlock_one]
    simp only [fdBlocks]
    match b, b' with
    | 0, 0 => simp
    | 0, 1 => simp
    | 0, 2 => simp [Matrix.mul_assoc]
    | 0, 3 => simp [Matrix.mul_assoc]
    | 0, 4 => simp
    | 1, 0 => simp
    | 1, 1 => simp
    | 1, 2 => simp [Matrix.mul_assoc]
    | 1, 3 => simp [Matrix.mul_assoc]
    | 1, 4 => simp
    | 2, 0 => simp
    | 2, 1 => simp
    | 2, 2 => simp
    | 2, 3 => simp
    | 2, 4 => simp
    | 3, 0 => simp
    | 3, 1 => simp
    | 3, 2 => simp
    | 3, 3 => simp
    | 3, 4 => simp
    | 4, 0 => simp
    | 4, 1 => simp
    | 4, 2 => simp
    | 4, 3 => simp
    | 4, 4 => simp
  · have hF : ∀ C, ∀ r c, 15 ≤ r.val ∨ 15 ≤ c.val →
        setFd (fun b => 3 * b.idx.val) (1 : ErrMat ℝ (coreDef aux)) C w a dt r c = (1 : ErrMat ℝ _) r c :=
      fun C r c h => setFd_outside _ (fun _ => rfl) _ _ _ _ _ _ _ h
    rcases hrc with hr | hc
    · rw [rotErr_mul _ _ _ _ (by omega), hF _ _ _ (.inl hr), mul_apply]
      simp only [hF _ r _ (.inl hr)]
      rw [← mul_apply, Matrix.one_mul, rotErr_aux _ _ _ (by omega)]
    · rw [mul_rotErr _ _ _ _ (by omega), hF _ _ _ (.inr hc), mul_apply]
      simp only [hF _ _ c (.inr hc)]
      rw [← mul_apply, Matrix.mul_one, rotErr_aux _ _ _ (by omega)]

/-! ### Process noise -/

/-- The form of the process noise without gyro noise. -/
structure NoiseForm (Q : ErrMat ℝ (coreDef aux)) (C : M33 ℝ) (na nba dt : ℝ)
    (B : (i : Fin (coreDef aux).length) → Matrix (Fin ((coreDef aux).get i).kind.errLen)
      (Fin ((coreDef aux).get i).kind.errLen) ℝ) : Prop where
  core : ∀ b b', coreBlock Q b b' = simpleQ C (fun _ => na) (fun _ => nba) 0 0 dt b b'
  own : ∀ i, ((coreDef aux).get i).isAux → ∀ r c, ∀ (hr : InVar (coreDef aux) i r)
    (hc : InVar (coreDef aux) i c), Q r c =
      B i ⟨r - offset errLen (coreDef aux) i, by have := hr.1; have := hr.2; omega⟩
        ⟨c - offset errLen (coreDef aux) i, by have := hc.1; have := hc.2; omega⟩
  zero : ∀ r c, 15 ≤ r.val ∨ 15 ≤ c.val → (∀ i, ((coreDef aux).get i).isAux →
    ¬ (InVar (coreDef aux) i r ∧ InVar (coreDef aux) i c)) → Q r c = 0

theorem NoiseForm.cross {Q : ErrMat ℝ (coreDef aux)} {C : M33 ℝ} {na nba dt : ℝ} {B}
    (h : NoiseForm Q C na nba dt B) (r c) (hr : 15 ≤ r.val) (hc : c.val < 15) :
    Q r c = 0 ∧ Q c r = 0 :=
  ⟨h.zero r c (.inl hr) fun i hi hh => by have := aux_inVar_ge i hi c hh.2; omega,
    h.zero c r (.inr hr) fun i hi hh => by have := aux_inVar_ge i hi c hh.1; omega⟩

/-- The prediction of the concrete kernel over a positive time without gyro noise. -/
theorem predict_form (ho : Ordered aux) (np : NoiseParams ℝ (coreDef aux))
    (hg : np.gyr = 0 ∧ np.gyrBias = 0) (dt : ℝ) (hdt : 0 < dt) (P : ErrMat ℝ (coreDef aux))
    (u : Input (V3 ℝ) (V3 ℝ)) (x : Vars ℝ (coreDef aux)) (hx : (q x).normSq = 1) :
    ∃ r Qd, predictProcessCovariance np (mkState (noInit _) ⟨0, 0⟩ 0 P) (mkState x u dt 0) 0 =
        some r ∧
      r.2.1.P = setFd (fun b => 3 * b.idx.val) 1 (q x).toRot (u.w - b_w x) (u.a - b_a x) dt * P *
        (setFd (fun b => 3 * b.idx.val) 1 (q x).toRot (u.w - b_w x) (u.a - b_a x) dt)ᵀ + Qd ∧
      NoiseForm Qd (q x).toRot np.acc np.accBias dt (fun i => (np.qAux x dt i).Q) := by
  have hd : (mkState x u dt 0).time - (mkState (noInit (coreDef aux)) ⟨0, 0⟩ 0 P).time = dt :=
    sub_zero dt
  obtain ⟨Qd, e, hQ⟩ := predict_apply (indexingErrors_eq_zero.2 ho) np
    (mkState (noInit _) ⟨0, 0⟩ 0 P) (mkState x u dt 0) 0 (by rw [hd]; linarith)
  have hc := fun b b' => core_noise ho np _ _ 0 (Live.fresh _ rfl rfl)
    (show (0 : ℝ) < dt from hdt) e b b'
  rw [hd] at e hc hQ
  refine ⟨_, Qd, e, rfl, fun b b' => ?_, fun i hi r c hr hc => (hQ r c).1 i hi hr hc,
    fun r c hrc hno => ?_⟩
  · refine (hc b b').trans ?_
    have z : (fun _ => (0 : ℝ)) = (0 : V3 ℝ) := rfl
    rw [hg.1, hg.2, z, qBlock_acc]
    change simpleQ (hrot (q x)) _ _ 0 0 dt b b' = _
    rw [← toRot_hom _ hx]
  · rw [(hQ r c).2 hno]
    cases hlk : CalcQ.lookup (CalcQ.mkIn dt (EKFState.q (mkState x u dt 0).vars)
        ((mkState x u dt 0).w_m - EKFState.b_w (mkState x u dt 0).vars)
        ((mkState x u dt 0).a_m - EKFState.b_a (mkState x u dt 0).vars)
        (fun _ => np.acc) (fun _ => np.accBias) (fun _ => np.gyr) (fun _ => np.gyrBias))
        r c with
    | some y =>
      have := lookup_core _ _ _ (show (CalcQ.lookup _ r c).isSome = true by rw [hlk]; rfl)
      omega
    | none => rfl

theorem NoiseForm.rot {Q Q' : ErrMat ℝ (coreDef aux)} {R C : M33 ℝ} {na nba dt : ℝ} {B}
    (h : NoiseForm Q C na nba dt B) (h' : NoiseForm Q' (R * C) na nba dt B) : Q' = rotCov R Q := by
  refine core_ext (fun b b' => ?_) fun r c hrc => ?_
  · rw [rotCov_core, h.core, h'.core]
    match b, b' with
    | 0, 0 => simp [simpleQ, Matrix.mul_assoc]
    | 0, 1 => simp [simpleQ, Matrix.mul_assoc]
    | 0, 2 => simp [simpleQ]
    | 0, 3 => simp [simpleQ]
    | 0, 4 => simp [simpleQ, Matrix.mul_assoc]
    | 1, 0 => simp [simpleQ, Matrix.mul_assoc]
    | 1, 1 => simp [simpleQ, Matrix.mul_assoc, Matrix.mul_add, Matrix.add_mul]
    | 1, 2 => simp [simpleQ]
    | 1, 3 => simp [simpleQ]
    | 1, 4 => simp [simpleQ, Matrix.mul_assoc]
    | 2, 0 => simp [simpleQ]
    | 2, 1 => simp [simpleQ]
    | 2, 2 => simp [simpleQ]
    | 2, 3 => simp [simpleQ]
    | 2, 4 => simp [simpleQ]
    | 3, 0 => simp [simpleQ]
    | 3, 1 => simp [simpleQ]
    | 3, 2 => simp [simpleQ]
    | 3, 3 => simp [simpleQ]
    | 3, 4 => simp [simpleQ]
    | 4, 0 => simp [simpleQ, Matrix.mul_assoc]
    | 4, 1 => simp [simpleQ, Matrix.mul_assoc]
    | 4, 2 => simp [simpleQ]
    | 4, 3 => simp [simpleQ]
    | 4, 4 => simp [simpleQ]
  · have eq : Q' r c = Q r c := by
      by_cases hno : ∀ i, ((coreDef aux).get i).isAux →
          ¬ (InVar (coreDef aux) i r ∧ InVar (coreDef aux) i c)
      · rw [h.zero r c hrc hno, h'.zero r c hrc hno]
      · push Not at hno
        obtain ⟨i, hi, hr, hc⟩ := hno
        rw [h.own i hi r c hr hc, h'.own i hi r c hr hc]
    rw [eq, rotCov, rotErr_transpose]
    by_cases hr : 15 ≤ r.val
    · by_cases hc : 15 ≤ c.val
      · rw [mul_rotErr _ _ _ _ (by omega), rotErr_mul _ _ _ _ (by omega)]
      · rw [(h.cross r c hr (by omega)).1, mul_apply, Finset.sum_eq_zero]
        intro k _
        rw [rotErr_mul _ _ _ _ (by omega)]
        by_cases hk : 15 ≤ k.val
        · rw [rotErr_aux _ _ _ (by omega), one_apply_ne (by rintro rfl; omega), mul_zero]
        · rw [(h.cross r k hr (by omega)).1, zero_mul]
    · have hc : 15 ≤ c.val := by omega
      rw [mul_rotErr _ _ _ _ (by omega), (h.cross c r hc (by omega)).2, mul_apply,
        Finset.sum_eq_zero]
      intro k _
      by_cases hk : 15 ≤ k.val
      · rw [rotErr_aux _ _ _ (by omega), one_apply_ne (by rintro rfl; omega), zero_mul]
      · rw [(h.cross c k hc (by omega)).2, mul_zero]

theorem NoiseForm.symm {Q : ErrMat ℝ (coreDef aux)} {C : M33 ℝ} {na nba dt : ℝ} {B}
    (h : NoiseForm Q C na nba dt B) (hB : ∀ i, ((coreDef aux).get i).isAux → (B i)ᵀ = B i) :
    Qᵀ = Q := by
  refine core_ext (fun b b' => ?_) fun r c hrc => ?_
  · have e : coreBlock Qᵀ b b' = (coreBlock Q b' b)ᵀ := rfl
    rw [e, h.core, h.core]
    match b, b' with
    | 0, 0 => simp [simpleQ, Matrix.mul_assoc]
    | 0, 1 => simp [simpleQ, Matrix.mul_assoc]
    | 0, 2 => simp [simpleQ]
    | 0, 3 => simp [simpleQ]
    | 0, 4 => simp [simpleQ]
    | 1, 0 => simp [simpleQ, Matrix.mul_assoc]
    | 1, 1 => simp [simpleQ, Matrix.mul_assoc]
    | 1, 2 => simp [simpleQ]
    | 1, 3 => simp [simpleQ]
    | 1, 4 => simp [simpleQ]
    | 2, 0 => simp [simpleQ]
    | 2, 1 => simp [simpleQ]
    | 2, 2 => simp [simpleQ]
    | 2, 3 => simp [simpleQ]
    | 2, 4 => simp [simpleQ]
    | 3, 0 => simp [simpleQ]
    | 3, 1 => simp [simpleQ]
    | 3, 2 => simp [simpleQ]
    | 3, 3 => simp [simpleQ]
    | 3, 4 => simp [simpleQ]
    | 4, 0 => simp [simpleQ]
    | 4, 1 => simp [simpleQ]
    | 4, 2 => simp [simpleQ]
    | 4, 3 => simp [simpleQ]
    | 4, 4 => simp [simpleQ]
  · rw [transpose_apply]
    by_cases hno : ∀ i, ((coreDef aux).get i).isAux →
        ¬ (InVar (coreDef aux) i r ∧ InVar (coreDef aux) i c)
    · rw [h.zero r c hrc hno, h.zero c r hrc.symm fun i hi hh => hno i hi ⟨hh.2, hh.1⟩]
    · push Not at hno
      obtain ⟨i, hi, hr, hc⟩ := hno
      rw [h.own i hi r c hr hc, h.own i hi c r hc hr]
      exact congrFun (congrFun (hB i hi) _) _

/-- Covariance prediction commutes with a rotation about the vertical axis. -/
theorem predict_rot (ho : Ordered aux) (np : NoiseParams ℝ (coreDef aux))
    (hg : np.gyr = 0 ∧ np.gyrBias = 0)
    (hq : ∀ s s' dt i, (∀ j, (s j).Q = (s' j).Q) → (np.qAux s dt i).Q = (np.qAux s' dt i).Q)
    {g : Quat ℝ} (hy : IsYaw g) (dt : ℝ) (P : ErrMat ℝ (coreDef aux)) (u : Input (V3 ℝ) (V3 ℝ))
    (x : Vars ℝ (coreDef aux)) (hx : (q x).normSq = 1) :
    (predictProcessCovariance np (mkState (noInit _) ⟨0, 0⟩ 0 (rotCov g.toRot P))
        (mkState (rotVars g x) u dt 0) 0).map (fun r => r.2.1.P) =
      (predictProcessCovariance np (mkState (noInit _) ⟨0, 0⟩ 0 P) (mkState x u dt 0) 0).map
        (fun r => rotCov g.toRot r.2.1.P) := by
  by_cases hdt : 0 < dt
  · obtain ⟨r, Qd, e, eP, h⟩ := predict_form ho np hg dt hdt P u x hx
    have hx' : (q (rotVars g x)).normSq = 1 := by rw [q_rotVars, Quat.normSq_mul, hy.unit, hx, one_mul]
    obtain ⟨r', Qd', e', eP', h'⟩ := predict_form ho np hg dt hdt (rotCov g.toRot P) u (rotVars g x) hx'
    have hB : (fun i => (np.qAux (rotVars g x) dt i).Q) = fun i => (np.qAux x dt i).Q := by
      funext i
      refine hq _ _ _ _ fun j => ?_
      unfold rotVars
      by_cases h0 : j = ip
      · subst h0; rw [set3_p]
      by_cases h1 : j = iv
      · subst h1; rw [set3_v]
      by_cases h2 : j = iq
      · subst h2; rw [set3_q]
      rw [set3_other _ _ _ _ _ h0 h1 h2]
    rw [hB, q_rotVars, toRot_mul _ _ hy.unit hx] at h'
    rw [q_rotVars, toRot_mul _ _ hy.unit hx, bw_rotVars, ba_rotVars] at eP'
    have eQ := h.rot h'
    rw [e, e', Option.map_some, Option.map_some, eP, eP', eQ]
    have eF := setFd_rot (aux := aux) (R := g.toRot) (q x).toRot (u.w - b_w x) (u.a - b_a x) dt
    generalize setFd (fun b => 3 * b.idx.val) (1 : ErrMat ℝ (coreDef aux)) (q x).toRot (u.w - b_w x)
      (u.a - b_a x) dt = F at eF ⊢
    generalize setFd (fun b => 3 * b.idx.val) (1 : ErrMat ℝ (coreDef aux)) (g.toRot * (q x).toRot)
      (u.w - b_w x) (u.a - b_a x) dt = F' at eF ⊢
    congr 1
    have e1 : F' * rotCov g.toRot P * F'ᵀ = F' * rotErr g.toRot * P * (F' * rotErr g.toRot)ᵀ := by
      rw [rotCov, transpose_mul]
      simp only [Matrix.mul_assoc]
    rw [e1, eF, rotCov, rotCov, transpose_mul, Matrix.mul_add, Matrix.add_mul]
    simp only [Matrix.mul_assoc]
  · have h : ∀ P x, predictProcessCovariance np (mkState (noInit _) ⟨0, 0⟩ 0 P) (mkState x u dt 0) 0 =
        some (mkState (noInit _) ⟨0, 0⟩ 0 P, mkState x u dt 0, 0) := by
      intro P x
      rw [predictProcessCovariance, if_pos]
      change dt - 0 ≤ 0
      linarith
    rw [h, h, Option.map_some, Option.map_some]
    exact congrArg some (rotCov_zero _).symm

theorem predict_symm (ho : Ordered aux) (np : NoiseParams ℝ (coreDef aux))
    (hg : np.gyr = 0 ∧ np.gyrBias = 0)
    (hs : ∀ s dt i, ((coreDef aux).get i).isAux → (np.qAux s dt i).Qᵀ = (np.qAux s dt i).Q)
    (dt : ℝ) {P : ErrMat ℝ (coreDef aux)} (u : Input (V3 ℝ) (V3 ℝ)) {x : Vars ℝ (coreDef aux)}
    (hx : (q x).normSq = 1) (hP : Pᵀ = P) {r}
    (hr : predictProcessCovariance np (mkState (noInit _) ⟨0, 0⟩ 0 P) (mkState x u dt 0) 0 = some r) :
    r.2.1.Pᵀ = r.2.1.P := by
  by_cases hdt : 0 < dt
  · obtain ⟨r', Qd, e, eP, h⟩ := predict_form ho np hg dt hdt P u x hx
    obtain rfl := Option.some.inj (e.symm.trans hr)
    rw [eP, transpose_add, transpose_mul, transpose_mul, transpose_transpose, hP,
      h.symm fun i hi => hs x dt i hi, Matrix.mul_assoc]
  · have hd : (mkState x u dt 0).time - (mkState (noInit (coreDef aux)) ⟨0, 0⟩ 0 P).time ≤ 0 := by
      change dt - 0 ≤ 0
      linarith
    rw [predictProcessCovariance, if_pos hd] at hr
    rw [← Option.some.inj hr]
    exact transpose_zero

/-! ### The update -/

section
variable {m : Type} [Fintype m] [DecidableEq m]

theorem innovCov_rot {k : Nat} {T : Matrix (Fin k) (Fin k) ℝ} (hT : Tᵀ * T = 1) (S : Matrix m m ℝ)
    (P : Matrix (Fin k) (Fin k) ℝ) {H H' : Matrix m (Fin k) ℝ} (hH : H' * T = S * H)
    (R : Matrix m m ℝ) :
    innovCov (T * P * Tᵀ) H' (S * R * Sᵀ) = S * innovCov P H R * Sᵀ := by
  have e : H' * (T * P * Tᵀ) * H'ᵀ = (H' * T) * P * (H' * T)ᵀ := by
    rw [transpose_mul]; simp only [Matrix.mul_assoc]
  rw [innovCov, innovCov, e, hH, transpose_mul, Matrix.mul_add, Matrix.add_mul]
  simp only [Matrix.mul_assoc]

theorem inv_rot {S A : Matrix m m ℝ} (hS : S * Sᵀ = 1) : (S * A * Sᵀ)⁻¹ = S * A⁻¹ * Sᵀ := by
  have h1 : S⁻¹ = Sᵀ := inv_eq_right_inv hS
  have h2 : (Sᵀ)⁻¹ = S := inv_eq_left_inv hS
  rw [Matrix.mul_inv_rev, Matrix.mul_inv_rev, h1, h2, Matrix.mul_assoc]

theorem calculateCorrection_rot {k : Nat} {T : Matrix (Fin k) (Fin k) ℝ} (hT : T * Tᵀ = 1)
    {S : Matrix m m ℝ} (hS : S * Sᵀ = 1) (en : Bool) (thr : ℝ) {P : Matrix (Fin k) (Fin k) ℝ}
    (hP : Pᵀ = P) {H H' : Matrix m (Fin k) ℝ} (hH : H' * T = S * H) (r : m → ℝ) {R : Matrix m m ℝ}
    (hR : Rᵀ = R) :
    calculateCorrection en thr (T * P * Tᵀ) H' (S *ᵥ r) (S * R * Sᵀ) =
      (calculateCorrection en thr P H r R).map fun o => o.map fun cP =>
        (T *ᵥ cP.1, T * cP.2 * Tᵀ) := by
  have hT' : Tᵀ * T = 1 := mul_eq_one_comm.1 hT
  have hS' : Sᵀ * S = 1 := mul_eq_one_comm.1 hS
  have e1 := innovCov_rot hT' S P hH R
  have edet : (S * innovCov P H R * Sᵀ).det = (innovCov P H R).det := by
    have hd : S.det * Sᵀ.det = 1 := by rw [← det_mul, hS, det_one]
    rw [det_mul, det_mul, mul_comm S.det, mul_assoc, hd, mul_one]
  have emah : mahSquared (T * P * Tᵀ) H' (S * R * Sᵀ) (S *ᵥ r) = mahSquared P H R r := by
    rw [mahSquared, mahSquared, e1, inv_rot hS, mulVec_mulVec, Matrix.mul_assoc, Matrix.mul_assoc, hS',
      Matrix.mul_one, ← mulVec_mulVec, dotProduct_mulVec, ← mulVec_transpose, mulVec_mulVec, hS',
      one_mulVec]
  have egain : gain (T * P * Tᵀ) H' (S * R * Sᵀ) = T * gain P H R * Sᵀ := by
    have e : (T * P * Tᵀ) * H'ᵀ = T * P * (H' * T)ᵀ := by
      rw [transpose_mul]; simp only [Matrix.mul_assoc]
    rw [gain, gain, e1, inv_rot hS, e, hH, transpose_mul]
    simp only [Matrix.mul_assoc]
    rw [← Matrix.mul_assoc Sᵀ S, hS', Matrix.one_mul]
  have ej : ∀ K : Matrix (Fin k) m ℝ,
      josephUpdate (T * P * Tᵀ) H' (S * R * Sᵀ) (T * K * Sᵀ) =
      T * josephUpdate P H R K * Tᵀ := by
    intro K
    have eKH : 1 - T * K * Sᵀ * H' = T * (1 - K * H) * Tᵀ := by
      have : H' = S * H * Tᵀ := by rw [← hH, Matrix.mul_assoc, hT, Matrix.mul_one]
      rw [this, Matrix.mul_sub, Matrix.mul_one, Matrix.sub_mul, hT]
      simp only [Matrix.mul_assoc]
      rw [← Matrix.mul_assoc Sᵀ S, hS', Matrix.one_mul]
    have eM : (1 - T * K * Sᵀ * H') * (T * P * Tᵀ) * (1 - T * K * Sᵀ * H')ᵀ +
        (T * K * Sᵀ) * (S * R * Sᵀ) * (T * K * Sᵀ)ᵀ =
        T * ((1 - K * H) * P * (1 - K * H)ᵀ + K * R * Kᵀ) * Tᵀ := by
      rw [eKH]
      simp only [transpose_mul, transpose_transpose, Matrix.mul_add, Matrix.add_mul, Matrix.mul_assoc]
      congr 1
      · rw [← Matrix.mul_assoc Tᵀ T, hT', Matrix.one_mul, ← Matrix.mul_assoc Tᵀ T, hT', Matrix.one_mul]
      · rw [← Matrix.mul_assoc Sᵀ S, hS', Matrix.one_mul, ← Matrix.mul_assoc Sᵀ S, hS', Matrix.one_mul]
    have hs : ((1 - K * H) * P * (1 - K * H)ᵀ + K * R * Kᵀ)ᵀ =
        (1 - K * H) * P * (1 - K * H)ᵀ + K * R * Kᵀ := by
      simp only [transpose_add, transpose_mul, transpose_transpose, hP, hR, Matrix.mul_assoc]
    have hs' : (T * ((1 - K * H) * P * (1 - K * H)ᵀ + K * R * Kᵀ) * Tᵀ)ᵀ =
        T * ((1 - K * H) * P * (1 - K * H)ᵀ + K * R * Kᵀ) * Tᵀ := by
      rw [transpose_mul, transpose_mul, transpose_transpose, hs]
      exact (Matrix.mul_assoc _ _ _).symm
    rw [josephUpdate, josephUpdate]
    simp only [eM]
    rw [symInPlace_of_symm _ hs, symInPlace_of_symm _ hs']
  unfold calculateCorrection
  rw [e1, edet, emah, egain]
  split
  · rfl
  · split
    · rfl
    · simp only [Option.map_some, ej]
      congr 3
      rw [mulVec_mulVec, mulVec_mulVec, Matrix.mul_assoc, Matrix.mul_assoc, hS', Matrix.mul_one]

omit [DecidableEq m] in
theorem josephUpdate_symm {k : Nat} {P : Matrix (Fin k) (Fin k) ℝ} (hP : Pᵀ = P)
    (H : Matrix m (Fin k) ℝ) {R : Matrix m m ℝ} (hR : Rᵀ = R) (K : Matrix (Fin k) m ℝ) :
    (josephUpdate P H R K)ᵀ = josephUpdate P H R K := by
  have hs : ((1 - K * H) * P * (1 - K * H)ᵀ + K * R * Kᵀ)ᵀ =
      (1 - K * H) * P * (1 - K * H)ᵀ + K * R * Kᵀ := by
    simp only [transpose_add, transpose_mul, transpose_transpose, hP, hR, Matrix.mul_assoc]
  unfold josephUpdate
  rw [symInPlace_of_symm _ hs, hs]

end

theorem rotErr_mulVec_aux (R : M33 ℝ) (c : Fin (total errLen (coreDef aux)) → ℝ) (k) (h : 6 ≤ k.val) :
    (rotErr R *ᵥ c) k = c k := by
  have e : (rotErr R *ᵥ c) k = ((1 : ErrMat ℝ (coreDef aux)) *ᵥ c) k := by
    simp only [mulVec, dotProduct, rotErr_aux R k _ (.inl h)]
  rw [e, one_mulVec]

/-- The part of a correction that belongs to a core variable. -/
def coreSeg (c : Fin (total errLen (coreDef aux)) → ℝ) (b : Fin 5) : V3 ℝ :=
  fun i => c ⟨3 * b + i, by have := core_le_total aux; omega⟩

theorem rotErr_mulVec_core (R : M33 ℝ) (c : Fin (total errLen (coreDef aux)) → ℝ) (b : Fin 5)
    (hb : b = 0 ∨ b = 1) : coreSeg (rotErr R *ᵥ c) b = R *ᵥ coreSeg c b := by
  funext i
  have e : coreSeg (rotErr R *ᵥ c) b i =
      ∑ b' : Fin 5, ∑ j : Fin 3, coreBlock (rotErr (aux := aux) R) b b' i j * coreSeg c b' j := by
    refine sum_core _ fun k hk => ?_
    have hb : b.val ≤ 1 := by rcases hb with rfl | rfl <;> decide
    change (rotErr R : ErrMat ℝ (coreDef aux)) _ k * c k = 0
    rw [rotErr_aux _ _ _ (.inr (by omega)), one_apply_ne, zero_mul]
    intro h
    have := congrArg Fin.val h
    simp only at this
    omega
  rw [e]
  simp only [rotErr_block]
  rcases hb with rfl | rfl <;>
  simp [Fin.sum_univ_five, mulVec, dotProduct]

theorem correctedVal_unique {D : List VarDesc} {c c' : Fin (total errLen D) → ℝ} {i : Fin D.length}
    (hcc : ∀ k : Fin (total errLen D), offset errLen D i ≤ k.val → c' k = c k) :
    ∀ (k : Kind) (hk : (D.get i).kind = k) (x y y' : Val ℝ k), CorrectedVal c i k hk x y →
      CorrectedVal c' i k hk x y' → y' = y
  | .vec n, hk, x, y, y', h, h' => by
    have hn : errLen (D.get i) = n := by rw [errLen, hk]; rfl
    have e : ownSegment c' i n hn = ownSegment c i n hn := by
      funext j
      exact hcc _ (Nat.le_add_right _ _)
    funext j
    rw [h j, h' j, e]
  | .quat, hk, x, y, y', h, h' => by
    have hn : errLen (D.get i) = 3 := by rw [errLen, hk]; rfl
    have e : ownSegment c' i 3 hn = ownSegment c i 3 hn := by
      funext j
      exact hcc _ (Nat.le_add_right _ _)
    have h1 : y = Quat.mul x (quatFromSmallAngle (ownSegment c i 3 hn)) := h
    have h2 : y' = Quat.mul x (quatFromSmallAngle (ownSegment c' i 3 hn)) := h'
    rw [h1, h2, e]

theorem stateVar_ext {k : Kind} {a b : StateVar ℝ k} (h : a.val = b.val) (h1 : a.Q = b.Q)
    (h2 : a.hasReset = b.hasReset) : a = b := by
  cases a; cases b
  simp only at h h1 h2
  rw [h, h1, h2]

theorem rotVars_unit {g : Quat ℝ} (hg : g.normSq = 1) {s : Vars ℝ (coreDef aux)} (h : UnitQuats s) :
    UnitQuats (rotVars g s) := by
  intro i
  by_cases h0 : i = ip
  · subst h0; intro q hq; cases hq
  by_cases h1 : i = iv
  · subst h1; intro q hq; cases hq
  by_cases h2 : i = iq
  · subst h2
    intro q' hq
    have : some (g.mul (q s)) = some q' := by
      rw [← q_rotVars]; exact hq
    rw [← Option.some.inj this, Quat.normSq_mul, hg, one_mul]
    exact h iq _ rfl
  rw [other_rotVars _ _ _ h0 h1 h2]
  exact h i

/-- A correction commutes with a rotation. -/
theorem correct_rot (ho : Ordered aux) (hp : PlainQuats (coreDef aux)) {g : Quat ℝ}
    (hg : g.normSq = 1) (s : Vars ℝ (coreDef aux)) (hu : UnitQuats s)
    (c : Fin (total errLen (coreDef aux)) → ℝ) :
    correct (rotVars g s) (rotErr g.toRot *ᵥ c) = (correct s c).map (rotVars g) := by
  obtain ⟨s1, e1, h1⟩ := C36_correct s c ho hp hu
  obtain ⟨s2, e2, h2⟩ := C36_correct (rotVars g s) (rotErr g.toRot *ᵥ c) ho hp (rotVars_unit hg hu)
  rw [e1, e2, Option.map_some, Option.some.injEq]
  refine vars_ext ?_ ?_ ?_ fun i h0 h1' h2' => ?_
  · have a1 : ∀ j, p s1 j = p s j + coreSeg c 0 j := fun j => ((h1 ip).1 j).trans (if_neg (show ¬ (coreDescs[0].multiplicative = true) by decide))
    have a2 : ∀ j, p s2 j = p (rotVars g s) j + coreSeg (rotErr g.toRot *ᵥ c) 0 j :=
      fun j => ((h2 ip).1 j).trans (if_neg (show ¬ (coreDescs[0].multiplicative = true) by decide))
    rw [rotVars, set3_p]
    refine stateVar_ext (?_ : p s2 = g.toRot *ᵥ p s1) ?_ ?_
    · have b1 : p s1 = p s + coreSeg c 0 := funext a1
      have b2 : p s2 = p (rotVars g s) + coreSeg (rotErr g.toRot *ᵥ c) 0 := funext a2
      rw [b1, b2, p_rotVars, rotErr_mulVec_core _ _ _ (.inl rfl), mulVec_add]
    · rw [(h2 ip).2.1]; change _ = (s1 ip).Q; rw [(h1 ip).2.1, rotVars, set3_p]
    · rw [(h2 ip).2.2]; change _ = (s1 ip).hasReset; rw [(h1 ip).2.2, rotVars, set3_p]
  · have a1 : ∀ j, v s1 j = v s j + coreSeg c 1 j := fun j => ((h1 iv).1 j).trans (if_neg (show ¬ (coreDescs[1].multiplicative = true) by decide))
    have a2 : ∀ j, v s2 j = v (rotVars g s) j + coreSeg (rotErr g.toRot *ᵥ c) 1 j :=
      fun j => ((h2 iv).1 j).trans (if_neg (show ¬ (coreDescs[1].multiplicative = true) by decide))
    rw [rotVars, set3_v]
    refine stateVar_ext (?_ : v s2 = g.toRot *ᵥ v s1) ?_ ?_
    · have b1 : v s1 = v s + coreSeg c 1 := funext a1
      have b2 : v s2 = v (rotVars g s) + coreSeg (rotErr g.toRot *ᵥ c) 1 := funext a2
      rw [b1, b2, v_rotVars, rotErr_mulVec_core _ _ _ (.inr rfl), mulVec_add]
    · rw [(h2 iv).2.1]; change _ = (s1 iv).Q; rw [(h1 iv).2.1, rotVars, set3_v]
    · rw [(h2 iv).2.2]; change _ = (s1 iv).hasReset; rw [(h1 iv).2.2, rotVars, set3_v]
  · have a1 : q s1 = (q s).mul (quatFromSmallAngle (coreSeg c 2)) := (h1 iq).1
    have a2 : q s2 = (q (rotVars g s)).mul (quatFromSmallAngle (coreSeg (rotErr g.toRot *ᵥ c) 2)) :=
      (h2 iq).1
    have e : coreSeg (rotErr g.toRot *ᵥ c) 2 = coreSeg c 2 := by
      funext j
      exact rotErr_mulVec_aux _ _ _ (Nat.le_add_right 6 j.val)
    rw [rotVars, set3_q]
    refine stateVar_ext (?_ : q s2 = g.mul (q s1)) ?_ ?_
    · rw [a1, a2, e, q_rotVars, Quat.mul_assoc']
    · rw [(h2 iq).2.1]; change _ = (s1 iq).Q; rw [(h1 iq).2.1, rotVars, set3_q]
    · rw [(h2 iq).2.2]; change _ = (s1 iq).hasReset; rw [(h1 iq).2.2, rotVars, set3_q]
  · rw [other_rotVars _ _ _ h0 h1' h2']
    have h3 : 3 ≤ i.val := by
      by_contra hlt
      have h0 : i.val ≠ 0 := fun e => h0 (Fin.ext e)
      have h1 : i.val ≠ 1 := fun e => h1' (Fin.ext e)
      have h2 : i.val ≠ 2 := fun e => h2' (Fin.ext e)
      omega
    have ho9 : 9 ≤ offset errLen (coreDef aux) i := by
      have e : offset errLen (coreDef aux) 3 = 9 := rfl
      have := offset_mono (D := coreDef aux) errLen h3
      omega
    have hi2 := h2 i
    rw [other_rotVars _ _ _ h0 h1' h2'] at hi2
    refine stateVar_ext ?_ (hi2.2.1.trans (h1 i).2.1.symm) (hi2.2.2.trans (h1 i).2.2.symm)
    exact correctedVal_unique (fun k hk => rotErr_mulVec_aux _ _ _ (by omega)) _ rfl _ _ _ (h1 i).1 hi2.1

theorem zeroBias_rot (R : M33 ℝ) (c : Fin (total errLen (coreDef aux)) → ℝ) :
    zeroBias (rotErr R *ᵥ c) = rotErr R *ᵥ zeroBias c := by
  have e : ∀ c' : Fin (total errLen (coreDef aux)) → ℝ, (∀ k, k.val < 6 → c' k = c k) →
      ∀ k, k.val < 6 → (rotErr R *ᵥ c') k = (rotErr R *ᵥ c) k := by
    intro c' h k hk
    simp only [mulVec, dotProduct]
    refine Finset.sum_congr rfl fun j _ => ?_
    by_cases hj : j.val < 6
    · rw [h j hj]
    · rw [rotErr_aux _ _ _ (by omega), one_apply_ne (by rintro rfl; omega), zero_mul, zero_mul]
  funext k
  by_cases hk : k.val < 6
  · rw [e (zeroBias c) (fun k hk => by
      simp only [zeroBias]
      rw [if_neg (by omega), if_neg (by omega)]) k hk]
    simp only [zeroBias]
    rw [if_neg (by omega), if_neg (by omega)]
  · rw [rotErr_mulVec_aux _ _ _ (by omega)]
    simp only [zeroBias, rotErr_mulVec_aux R c k (by omega)]

theorem applyCorrection_rot (ho : Ordered aux) (hd : NoDrift aux) (hp : PlainQuats (coreDef aux))
    (fb : Bool) {g : Quat ℝ} (hg : g.normSq = 1) (tr : Tracker ℝ) (s : Vars ℝ (coreDef aux))
    (hu : UnitQuats s) (c : Fin (total errLen (coreDef aux)) → ℝ) :
    applyCorrection (plainCalc fb) tr (rotVars g s) (rotErr g.toRot *ᵥ c) =
      (applyCorrection (plainCalc fb) tr s c).map fun r => (r.1, rotVars g r.2.1, r.2.2) := by
  rw [applyCorrection_plain hd, applyCorrection_plain hd]
  have e : (if fb then zeroBias (rotErr g.toRot *ᵥ c) else rotErr g.toRot *ᵥ c) =
      rotErr g.toRot *ᵥ (if fb then zeroBias c else c) := by
    cases fb
    · rfl
    · exact zeroBias_rot _ _
  rw [e, correct_rot ho hp hg s hu, Option.map_map, Option.map_map]
  rfl

end MSF
