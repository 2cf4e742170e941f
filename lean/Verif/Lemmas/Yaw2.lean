import Verif.Lemmas.Yaw
import Verif.Props.RunNumbers

/-! Rotating the world frame about the vertical axis: fixed states, measurements, whole runs. -/

namespace MSF

open Matrix EKFState Core

variable {aux : List VarDesc}

/-! ### Fixed states -/

theorem rotErr_diag (R : M33 ℝ) (d : Fin (total errLen (coreDef aux)) → ℝ)
    (h : ∀ k : Fin (total errLen (coreDef aux)), k.val < 6 → d k = d ⟨0, by
      have := core_le_total aux; omega⟩) :
    (rotErr R : ErrMat ℝ (coreDef aux)) * diagonal d = diagonal d * rotErr R := by
  ext r c
  rw [mul_diagonal, diagonal_mul]
  by_cases hrc : 6 ≤ r.val ∨ 6 ≤ c.val
  · rw [rotErr_aux _ _ _ hrc]
    by_cases e : r = c
    · subst e; ring
    · rw [one_apply_ne e]; ring
  · rw [h r (by omega), h c (by omega)]; ring

/-- Clearing as a sum of two congruences. -/
theorem clear_sum {P P' : ErrMat ℝ (coreDef aux)} {own : Fin (total errLen (coreDef aux)) → Prop}
    [DecidablePred own] (h1 : ∀ r c, own r → own c → P' r c = P r c)
    (h2 : ∀ r c, ¬ own r → ¬ own c → P' r c = P r c)
    (h3 : ∀ r c, own r → ¬ own c → P' r c = 0 ∧ P' c r = 0) :
    P' = diagonal (fun k => if own k then 1 else 0) * P * diagonal (fun k => if own k then 1 else 0) +
      diagonal (fun k => if own k then 0 else 1) * P * diagonal (fun k => if own k then 0 else 1) := by
  ext r c
  rw [Matrix.add_apply, mul_diagonal, mul_diagonal, diagonal_mul, diagonal_mul]
  by_cases hr : own r <;> by_cases hc : own c
  · simp [hr, hc, h1 r c hr hc]
  · simp [hr, hc, (h3 r c hr hc).1]
  · simp [hr, hc, (h3 c r hc hr).2]
  · simp [hr, hc, h2 r c hr hc]

theorem congr_sum {k : Type} [Fintype k] {T D E : Matrix k k ℝ} (hD : T * D = D * T)
    (hE : T * E = E * T) (hd : Dᵀ = D) (he : Eᵀ = E) (P : Matrix k k ℝ) :
    T * (D * P * D + E * P * E) * Tᵀ = D * (T * P * Tᵀ) * D + E * (T * P * Tᵀ) * E := by
  have h1 : ∀ F : Matrix k k ℝ, T * F = F * T → Fᵀ = F → T * (F * P * F) * Tᵀ = F * (T * P * Tᵀ) * F := by
    intro F hF hf
    have hF' : F * Tᵀ = Tᵀ * F := by
      have := congrArg transpose hF
      rwa [transpose_mul, transpose_mul, hf] at this
    calc T * (F * P * F) * Tᵀ = (T * F) * P * (F * Tᵀ) := by simp only [Matrix.mul_assoc]
      _ = F * (T * P * Tᵀ) * F := by rw [hF, hF']; simp only [Matrix.mul_assoc]
  rw [Matrix.mul_add, Matrix.add_mul, h1 D hD hd, h1 E hE he]

theorem clearCrossCov_rot (ho : Ordered aux) (R : M33 ℝ) (P : ErrMat ℝ (coreDef aux)) (i : Nat)
    (hi : 5 ≤ i) : clearCrossCov (rotCov R P) i = (clearCrossCov P i).map (rotCov R) := by
  classical
  by_cases hl : i < (coreDef aux).length
  · have hix := indexingErrors_eq_zero.2 ho
    obtain ⟨P1, e1, a1, a2, a3, -⟩ := C38_clear_cross_cov P ⟨i, hl⟩ ho
    obtain ⟨P2, e2, b1, b2, b3, -⟩ := C38_clear_cross_cov (rotCov R P) ⟨i, hl⟩ ho
    change clearCrossCov _ i = _ at e1 e2
    rw [e1, e2, Option.map_some, Option.some.injEq, clear_sum a1 a2 a3, clear_sum b1 b2 b3]
    have hown : ∀ k : Fin (total errLen (coreDef aux)), k.val < 6 →
        ¬ Owns (coreDef aux) ⟨i, hl⟩ k := by
      intro k hk h
      rw [owns_iff hix] at h
      have e : offset errLen (coreDef aux) 5 = 15 := rfl
      have := offset_mono (D := coreDef aux) errLen hi
      have := h.1
      simp only at this
      omega
    have c1 := rotErr_diag (aux := aux) R (fun k => if Owns (coreDef aux) ⟨i, hl⟩ k then 1 else 0)
      (fun k hk => by rw [if_neg (hown k hk), if_neg (hown _ (by simp))])
    have c2 := rotErr_diag (aux := aux) R (fun k => if Owns (coreDef aux) ⟨i, hl⟩ k then 0 else 1)
      (fun k hk => by rw [if_neg (hown k hk), if_neg (hown _ (by simp))])
    exact (congr_sum c1 c2 (diagonal_transpose _) (diagonal_transpose _) P).symm
  · have e : (coreDef aux)[i]? = none := List.getElem?_eq_none (by omega)
    simp only [clearCrossCov, e, Option.bind_eq_bind, Option.bind_none, Option.map_none]

theorem clearFixed_rot (ho : Ordered aux) (R : M33 ℝ) (fixed : Nat) (is : List Nat)
    (hi : ∀ i ∈ is, 5 ≤ i) : ∀ P : ErrMat ℝ (coreDef aux),
    clearFixed fixed is (rotCov R P) = (clearFixed fixed is P).map (rotCov R) := by
  induction is with
  | nil => intro P; rfl
  | cons i is ih =>
    intro P
    have ih := ih fun j hj => hi j (List.mem_cons_of_mem _ hj)
    unfold clearFixed at ih ⊢
    simp only [List.foldlM_cons, Option.bind_eq_bind]
    by_cases hb : fixed.testBit i
    · simp only [hb, if_true]
      rw [clearCrossCov_rot ho R P i (hi i (List.mem_cons_self ..))]
      cases clearCrossCov P i with
      | none => rfl
      | some P1 => exact ih P1
    · simp only [hb]
      exact ih P

theorem clearFixed_symm (ho : Ordered aux) (fixed : Nat) (is : List Nat) :
    ∀ P P' : ErrMat ℝ (coreDef aux), Pᵀ = P → clearFixed fixed is P = some P' → P'ᵀ = P' := by
  classical
  induction is with
  | nil => intro P P' h e; cases e; exact h
  | cons i is ih =>
    intro P P' h e
    unfold clearFixed at e ih
    simp only [List.foldlM_cons, Option.bind_eq_bind] at e
    by_cases hb : fixed.testBit i
    · simp only [hb, if_true] at e
      obtain ⟨P1, e1, e⟩ := Option.bind_eq_some_iff.1 e
      refine ih P1 P' ?_ e
      by_cases hl : i < (coreDef aux).length
      · obtain ⟨P2, e2, a1, a2, a3, -⟩ := C38_clear_cross_cov P ⟨i, hl⟩ ho
        obtain rfl := Option.some.inj (e1.symm.trans e2)
        rw [clear_sum a1 a2 a3]
        simp only [transpose_add, transpose_mul, diagonal_transpose, h, Matrix.mul_assoc]
      · have e : (coreDef aux)[i]? = none := List.getElem?_eq_none (by omega)
        simp only [clearCrossCov, e, Option.bind_eq_bind, Option.bind_none] at e1
        cases e1
    · simp only [hb] at e
      exact ih P P' h e

/-! ### Measurements -/

theorem Reading.Turns.turn {g : Quat ℝ} {m : Reading} (h : m.Turns aux) : (m.turn g).Turns aux := by
  cases m with
  | position =>
    refine ⟨h.1, h.2.1, ?_⟩
    simp only [transpose_mul, transpose_transpose, h.2.2, Matrix.mul_assoc]
  | pressure => exact h
  | pose => exact h.elim
  | angle => exact h.elim
  | distance => exact h.elim

theorem Reading.Turns.symm {m : Reading} (h : m.Turns aux) :
    (m.meas (aux := aux)).Rᵀ = (m.meas (aux := aux)).R := by
  cases m with
  | position => exact h.2.2
  | pressure => exact diagonal_transpose _
  | pose => exact h.elim
  | angle => exact h.elim
  | distance => exact h.elim

theorem getVec_rotVars (g : Quat ℝ) (s : Vars ℝ (coreDef aux)) {i : Nat} (hi : 5 ≤ i) (n : Nat) :
    getVec (rotVars g s) i n = getVec s i n := by
  unfold getVec
  by_cases h : i < (coreDef aux).length
  · rw [dif_pos h, dif_pos h, other_rotVars]
    all_goals
      intro e
      have := congrArg Fin.val e
      simp only at this
      omega
  · rw [dif_neg h, dif_neg h]

/-- A block of full height to the right of the rotated columns. -/
theorem setBlock_rotErr {k b : Nat} (R : M33 ℝ) (M : Matrix (Fin k) (Fin (total errLen (coreDef aux))) ℝ)
    (col : Nat) (hcol : 6 ≤ col) (B : Matrix (Fin k) (Fin b) ℝ) :
    setBlock M 0 col B * rotErr R = setBlock (M * rotErr R) 0 col B := by
  ext r c
  by_cases hc : 6 ≤ c.val
  · rw [mul_rotErr _ _ _ _ hc]
    simp only [setBlock, of_apply]
    split
    · rfl
    · rw [mul_rotErr _ _ _ _ hc]
  · have e : setBlock (M * rotErr R) 0 col B r c =
        (M * rotErr R : Matrix (Fin k) (Fin (total errLen (coreDef aux))) ℝ) r c := by
      simp only [setBlock, of_apply]
      rw [dif_neg (by omega)]
    rw [e, mul_apply, mul_apply]
    refine Finset.sum_congr rfl fun j _ => ?_
    by_cases hj : 6 ≤ j.val
    · rw [rotErr_aux _ _ _ (.inl hj), one_apply_ne (by rintro rfl; omega), mul_zero, mul_zero]
    · have e : setBlock M 0 col B r j = M r j := by
        simp only [setBlock, of_apply]
        rw [dif_neg (by omega)]
      rw [e]

theorem mul_setBlock {k n b : Nat} (R : Matrix (Fin k) (Fin k) ℝ) (M : Matrix (Fin k) (Fin n) ℝ)
    (col : Nat) (B : Matrix (Fin k) (Fin b) ℝ) :
    R * setBlock M 0 col B = setBlock (R * M) 0 col (R * B) := by
  ext r c
  by_cases h : col ≤ c.val ∧ c.val < col + b
  · have e : setBlock (R * M) 0 col (R * B) r c = (R * B) r ⟨c - col, by omega⟩ := by
      simp only [setBlock, of_apply]
      rw [dif_pos (by omega)]
      rfl
    rw [e, mul_apply, mul_apply]
    refine Finset.sum_congr rfl fun j _ => ?_
    simp only [setBlock, of_apply]
    rw [dif_pos (by omega)]
    rfl
  · have e : setBlock (R * M) 0 col (R * B) r c = (R * M) r c := by
      simp only [setBlock, of_apply]
      rw [dif_neg (by omega)]
    rw [e, mul_apply, mul_apply]
    refine Finset.sum_congr rfl fun j _ => ?_
    simp only [setBlock, of_apply]
    rw [dif_neg (by omega)]

theorem setBlock_one_rotErr (R : M33 ℝ) :
    setBlock (0 : Matrix (Fin 3) (Fin (total errLen (coreDef aux))) ℝ) 0 0 (1 : M33 ℝ) * rotErr R =
      setBlock 0 0 0 R := by
  ext r c
  have h15 := core_le_total aux
  rw [mul_apply, Finset.sum_eq_single ⟨r.val, by omega⟩]
  · have e : setBlock (0 : Matrix (Fin 3) (Fin (total errLen (coreDef aux))) ℝ) 0 0 (1 : M33 ℝ) r
        ⟨r.val, by omega⟩ = 1 := by
      simp only [setBlock, of_apply]
      rw [dif_pos (by omega)]
      exact one_apply_eq r
    rw [e, one_mul]
    simp only [rotErr, setBlock, of_apply]
    rw [dif_neg (by omega)]
    by_cases hc : c.val < 3
    · rw [dif_pos (by omega), dif_pos (by omega)]
    · rw [dif_neg (by omega), dif_neg (by omega), one_apply_ne]
      · rfl
      · intro h
        have := congrArg Fin.val h
        simp only at this
        omega
  · intro j _ hj
    have e : setBlock (0 : Matrix (Fin 3) (Fin (total errLen (coreDef aux))) ℝ) 0 0 (1 : M33 ℝ) r j = 0 := by
      simp only [setBlock, of_apply]
      split
      · refine one_apply_ne fun h => hj (Fin.ext ?_)
        have := congrArg Fin.val h
        simp only at this ⊢
        omega
      · rfl
    rw [e, zero_mul]
  · intro h
    exact absurd (Finset.mem_univ _) h

theorem positionH_rot (ho : Ordered aux) {g : Quat ℝ} (pip fixed : Nat) (hp : 5 ≤ pip)
    (hl : pip < (coreDef aux).length) (hk : ((coreDef aux)[pip]).kind = .vec 3)
    (s : Vars ℝ (coreDef aux)) (hg : g.normSq = 1) (hu : (q s).normSq = 1) :
    ∃ H H', positionH pip fixed s = some H ∧ positionH pip fixed (rotVars g s) = some H' ∧
      H' * rotErr g.toRot = g.toRot * H := by
  have hix := indexingErrors_eq_zero.2 ho
  obtain ⟨l, hl'⟩ := getVec_some s hl hk
  have h0 : 0 < (coreDef aux).length := by simp [coreDef, coreDescs]
  have h2 : 2 < (coreDef aux).length := by simp [coreDef, coreDescs]
  have e3 : errLen (coreDef aux)[pip] = 3 := by rw [errLen, hk]; rfl
  have hoff : 15 ≤ offset errLen (coreDef aux) pip := by
    have e : offset errLen (coreDef aux) 5 = 15 := rfl
    have := offset_mono (D := coreDef aux) errLen hp
    omega
  have form : ∀ s : Vars ℝ (coreDef aux), getVec s pip 3 = some l → positionH pip fixed s =
      some (setBlock (setBlock (setBlock 0 0 0 (1 : M33 ℝ)) 0 6 (-(q s).conj.toRotᵀ * skew l)) 0
        (offset errLen (coreDef aux) pip) (if fixed.testBit pip then 0 else (q s).conj.toRotᵀ)) := by
    intro s hs
    simp only [positionH, hs, Option.bind_eq_bind, Option.bind_some]
    rw [putBlock_eq hix _ 0 0 h0 _ 0 (show 0 + 3 ≤ 3 by decide) (by decide), Option.bind_some,
      putBlock_eq hix _ 0 2 h2 _ 0 (show 0 + 3 ≤ 3 by decide) (by decide), Option.bind_some,
      putBlock_eq hix _ 0 pip hl _ 0 (by rw [e3]) (by decide)]
    rfl
  refine ⟨_, _, form s hl', form (rotVars g s) (by rw [getVec_rotVars g s hp, hl']), ?_⟩
  rw [setBlock_rotErr _ _ _ (by omega), setBlock_rotErr _ _ _ (le_refl 6), setBlock_one_rotErr,
    mul_setBlock, mul_setBlock, mul_setBlock, Matrix.mul_zero, Matrix.mul_one]
  simp only [conj_toRot_transpose, q_rotVars, toRot_mul _ _ hg hu]
  congr 1
  · congr 1
    rw [Matrix.neg_mul, Matrix.neg_mul, Matrix.mul_neg, Matrix.mul_assoc]
  · split
    · rw [Matrix.mul_zero]
    · rfl

theorem IsYaw.rowEntry {g : Quat ℝ} (h : IsYaw g) (j : Fin 3) :
    g.toRot 2 j = (1 : M33 ℝ) 2 j := by
  have e := h.row (Pi.single j 1)
  rw [mulVec_single_one] at e
  refine e.trans ?_
  rw [one_apply, Pi.single_apply]

theorem pressureH_rot (ho : Ordered aux) {g : Quat ℝ} (hg : IsYaw g) (bp : Nat) (hp : 5 ≤ bp)
    (hl : bp < (coreDef aux).length) (hk : ((coreDef aux)[bp]).kind = .vec 1) :
    ∃ H : Matrix (Fin 1) (Fin (total errLen (coreDef aux))) ℝ, pressureH bp = some H ∧
      H * rotErr g.toRot = H := by
  have hix := indexingErrors_eq_zero.2 ho
  have h15 := core_le_total aux
  have h0 : 0 < (coreDef aux).length := by simp [coreDef, coreDescs]
  have e1 : errLen (coreDef aux)[bp] = 1 := by rw [errLen, hk]; rfl
  have hoff : 15 ≤ offset errLen (coreDef aux) bp := by
    have e : offset errLen (coreDef aux) 5 = 15 := rfl
    have := offset_mono (D := coreDef aux) errLen hp
    omega
  refine ⟨setBlock (setBlock 0 0 2 (1 : Matrix (Fin 1) (Fin 1) ℝ)) 0
    (offset errLen (coreDef aux) bp) (-1 : Matrix (Fin 1) (Fin 1) ℝ), ?_, ?_⟩
  · simp only [pressureH, Option.bind_eq_bind]
    rw [putBlock_eq hix _ 0 0 h0 _ 2 (show 2 + 1 ≤ 3 by decide) (by decide), Option.bind_some,
      putBlock_eq hix _ 0 bp hl _ 0 (by rw [e1]) (by decide)]
    rfl
  · rw [setBlock_rotErr _ _ _ (by omega)]
    congr 1
    ext r c
    have hr : r = 0 := Subsingleton.elim _ _
    subst hr
    by_cases hc : 6 ≤ c.val
    · exact mul_rotErr _ _ _ _ hc
    · rw [mul_apply, Finset.sum_eq_single ⟨2, by omega⟩]
      · have e : setBlock (0 : Matrix (Fin 1) (Fin (total errLen (coreDef aux))) ℝ) 0 2
            (1 : Matrix (Fin 1) (Fin 1) ℝ) 0 ⟨2, by omega⟩ = 1 := by
          simp only [setBlock, of_apply]
          rw [dif_pos (by simp)]
          rfl
        rw [e, one_mul]
        by_cases hc3 : c.val < 3
        · have e : (rotErr g.toRot : ErrMat ℝ (coreDef aux)) ⟨2, by omega⟩ c =
              g.toRot 2 ⟨c.val, hc3⟩ := by
            simp only [rotErr, setBlock, of_apply]
            rw [dif_neg (by omega), dif_pos (by omega)]
            rfl
          rw [e, hg.rowEntry]
          simp only [setBlock, of_apply]
          by_cases h2 : c.val = 2
          · rw [dif_pos (by simp [h2])]
            have : (⟨c.val, hc3⟩ : Fin 3) = 2 := Fin.ext h2
            rw [this, one_apply_eq]
            have : (⟨c.val - 2, by omega⟩ : Fin 1) = 0 := Subsingleton.elim _ _
            rw [this]
            rfl
          · rw [dif_neg (by omega), one_apply_ne]
            · rfl
            · intro h
              exact h2 (congrArg Fin.val h).symm
        · simp only [rotErr, setBlock, of_apply]
          rw [dif_neg (by omega), dif_neg (by omega), dif_neg (by omega), one_apply_ne]
          · rfl
          · intro h
            have := congrArg Fin.val h
            simp only at this
            omega
      · intro j _ hj
        have e : setBlock (0 : Matrix (Fin 1) (Fin (total errLen (coreDef aux))) ℝ) 0 2
            (1 : Matrix (Fin 1) (Fin 1) ℝ) 0 j = 0 := by
          simp only [setBlock, of_apply]
          rw [dif_neg]
          · rfl
          · intro h
            refine hj (Fin.ext ?_)
            simp only
            omega
        rw [e, zero_mul]
      · intro h
        exact absurd (Finset.mem_univ _) h

/-- An update in the rotated frame, from how Jacobian and residual rotate. -/
theorem sensorUpdate_rot (ho : Ordered aux) (hd : NoDrift aux) (hp : PlainQuats (coreDef aux))
    (fb : Bool) {g : Quat ℝ} (hg : IsYaw g) (tr : Tracker ℝ) (k : Nat)
    (H H' : Vars ℝ (coreDef aux) → Option (Matrix (Fin k) (Fin (total errLen (coreDef aux))) ℝ))
    (r r' : Vars ℝ (coreDef aux) → Option (Fin k → ℝ)) (R_ : Matrix (Fin k) (Fin k) ℝ)
    (en : Bool) (thr : ℝ) (fixed : Nat) (cl : List Nat) (hcl : ∀ i ∈ cl, 5 ≤ i)
    (S : Matrix (Fin k) (Fin k) ℝ) (hS : S * Sᵀ = 1) (hR : R_ᵀ = R_)
    (x : Values (coreDef aux)) (hu : UnitQuats (toVars x)) (P : ErrMat ℝ (coreDef aux)) (hP : Pᵀ = P)
    (hH : ∃ h h', H (toVars x) = some h ∧ H' (rotVars g (toVars x)) = some h' ∧
      h' * rotErr g.toRot = S * h)
    (hr : r' (rotVars g (toVars x)) = (r (toVars x)).map (S *ᵥ ·)) :
    sensorUpdate (plainCalc fb) tr ⟨⟨k, H', r', S * R_ * Sᵀ, en, thr⟩, fixed, cl⟩ (rotVals g x)
        (rotCov g.toRot P) =
      (sensorUpdate (plainCalc fb) tr ⟨⟨k, H, r, R_, en, thr⟩, fixed, cl⟩ x P).map
        fun u => ⟨u.tr, rotVals g u.x, rotCov g.toRot u.P, u.applied, u.fuzzy⟩ := by
  obtain ⟨h, h', e1, e2, e3⟩ := hH
  unfold sensorUpdate
  simp only [Option.bind_eq_bind]
  rw [clearFixed_rot ho _ _ _ hcl]
  cases hc : clearFixed fixed cl P with
  | none => rfl
  | some P1 =>
    have hP1 := clearFixed_symm ho _ _ _ _ hP hc
    simp only [Option.map_some, Option.bind_some]
    unfold measUpdate
    simp only [Option.bind_eq_bind, toVars_rotVals, e1, e2, hr, Option.bind_some]
    cases r (toVars x) with
    | none => rfl
    | some y =>
      simp only [Option.map_some, Option.bind_some]
      have hT : (rotErr g.toRot : ErrMat ℝ (coreDef aux)) * (rotErr g.toRot)ᵀ = 1 :=
        rotErr_orth hg.orth
      have key := calculateCorrection_rot hT hS en thr hP1 e3 y hR
      rw [show rotCov g.toRot P1 = rotErr g.toRot * P1 * (rotErr g.toRot)ᵀ from rfl, key]
      cases calculateCorrection en thr P1 h y R_ with
      | none => rfl
      | some o =>
        cases o with
        | none => rfl
        | some cP =>
          simp only [Option.map_some, Option.bind_some]
          rw [applyCorrection_rot ho hd hp fb hg.unit tr _ hu]
          cases applyCorrection (plainCalc fb) tr (toVars x) cP.1 with
          | none => rfl
          | some w =>
            simp only [Option.map_some, Option.bind_some, rotVals_values]
            rfl

theorem q_unit {x : Values (coreDef aux)} (hu : UnitQuats (toVars x)) : (q (toVars x)).normSq = 1 :=
  hu iq _ rfl

theorem reading_rot (ho : Ordered aux) (hd : NoDrift aux) (hp : PlainQuats (coreDef aux))
    (fb : Bool) {g : Quat ℝ} (hg : IsYaw g) (tr : Tracker ℝ) (m : Reading) (hm : m.Turns aux)
    (x : Values (coreDef aux)) (hu : UnitQuats (toVars x)) (P : ErrMat ℝ (coreDef aux)) (hP : Pᵀ = P) :
    sensorUpdate (plainCalc fb) tr (m.turn g).meas (rotVals g x) (rotCov g.toRot P) =
      (sensorUpdate (plainCalc fb) tr m.meas x P).map
        fun u => ⟨u.tr, rotVals g u.x, rotCov g.toRot u.P, u.applied, u.fuzzy⟩ := by
  cases m with
  | position pip fixed en thr z R_ =>
    obtain ⟨h5, ⟨hl, hk⟩, hR⟩ := hm
    refine sensorUpdate_rot ho hd hp fb hg tr 3 (positionH pip fixed) (positionH pip fixed)
      (positionResidual pip z) (positionResidual pip (g.toRot *ᵥ z)) R_ en thr fixed [pip]
      (fun i hi => by rw [List.mem_singleton.1 hi]; exact h5) g.toRot hg.orth hR x hu P hP
      (positionH_rot ho pip fixed h5 hl hk _ hg.unit (q_unit hu)) ?_
    simp only [positionResidual, sensorPos, getVec_rotVars g _ h5, Option.bind_eq_bind, p_rotVars,
      q_rotVars, conj_toRot_transpose, toRot_mul _ _ hg.unit (q_unit hu)]
    cases getVec (toVars x) pip 3 with
    | none => rfl
    | some l =>
      simp only [Option.bind_some, Option.map_some, Option.some.injEq]
      rw [mulVec_sub, mulVec_add, mulVec_mulVec]
  | pressure bp en thr z n =>
    obtain ⟨h5, hl, hk⟩ := hm
    obtain ⟨H, hH, hHT⟩ := pressureH_rot ho hg bp h5 hl hk
    have := sensorUpdate_rot ho hd hp fb hg tr 1 (fun _ => pressureH bp) (fun _ => pressureH bp)
      (pressureResidual bp z) (pressureResidual bp z) (Matrix.diagonal fun _ => n * n) en thr 0 []
      (fun i hi => by cases hi) 1 (by simp) (diagonal_transpose _) x hu P hP
      ⟨H, H, hH, hH, by rw [hHT, Matrix.one_mul]⟩ (by
        simp only [pressureResidual, getVec_rotVars g _ h5, Option.bind_eq_bind, p_rotVars, hg.row]
        cases getVec (toVars x) bp 1 with
        | none => rfl
        | some l => simp only [Option.bind_some, Option.map_some, one_mulVec])
    rw [Matrix.one_mul, transpose_one, Matrix.mul_one] at this
    exact this
  | pose => exact hm.elim
  | angle => exact hm.elim
  | distance => exact hm.elim

/-! ### Whole runs -/

theorem turn_inv (ho : Ordered aux) (np : NoiseParams ℝ (coreDef aux)) (fb : Bool)
    (hp : PlainQuats (coreDef aux)) (ha : ∀ d ∈ aux, d.isAux) (hg : np.gyr = 0 ∧ np.gyrBias = 0)
    (hs : ∀ s dt i, ((coreDef aux).get i).isAux → (np.qAux s dt i).Qᵀ = (np.qAux s dt i).Q) :
    KernelInv (readingKernel np (plainCalc fb)) (Sane fun v => UnitQuats (toVars v))
      (Sane fun P => Pᵀ = P) (fun m => m.Turns aux) (fun e => e.q.normSq = 1) :=
  readingKernel_inv np _ _ _ _ _ (fun s new s' h e => (propagate_keeps ha h e (le_refl 5)).2)
    (fun x e h1 h2 => ext_unit e h1 h2)
    (fun dt P u x r hP hx e => predict_symm ho np hg hs dt u (q_unit hx) hP e)
    (fun m tr x P u hm h hP e => by
      obtain ⟨P1, H, r, h1, -, -, h2 | ⟨c, P', t', vars, fz, h2, hc, rfl⟩⟩ := sensorUpdate_cases e
      · rw [h2.2]
        exact ⟨h, clearFixed_symm ho _ _ _ _ hP h1⟩
      · have hv : UnitQuats vars := applyCorrection_unit ho hp h (fun _ _ _ h => h) hc
        refine ⟨hv, ?_⟩
        have hP1 := clearFixed_symm ho _ _ _ _ hP h1
        unfold calculateCorrection at h2
        split at h2
        · cases h2
        · split at h2
          · cases h2
          · simp only [Option.some.injEq, Prod.mk.injEq] at h2
            rw [← h2.2]
            exact josephUpdate_symm hP1 _ hm.symm _)
    transpose_zero

noncomputable def turnHom (ho : Ordered aux) (np : NoiseParams ℝ (coreDef aux)) (fb : Bool)
    (hd : NoDrift aux)
    (hp : PlainQuats (coreDef aux)) (ha : ∀ d ∈ aux, d.isAux) (hg : np.gyr = 0 ∧ np.gyrBias = 0)
    (hs : ∀ s dt i, ((coreDef aux).get i).isAux → (np.qAux s dt i).Qᵀ = (np.qAux s dt i).Q)
    (hq : ∀ s s' dt i, (∀ j, (s j).Q = (s' j).Q) → (np.qAux s dt i).Q = (np.qAux s' dt i).Q)
    {g : Quat ℝ} (hy : IsYaw g) :
    KHom (turn_inv ho np fb hp ha hg hs).restrict (readingKernel np (plainCalc fb)) where
  x x := x.1.map (rotVals g)
  c P := P.1.map (rotCov g.toRot)
  m _ m := m.1.turn g
  t := id
  e e := e.1.turn g
  prop dt u s u' := by
    obtain ⟨s, hs⟩ := s
    cases s with
    | none => rfl
    | some x =>
      have hx : UnitQuats (toVars x) := hs x rfl
      have key := propagate_rot hy (mkState (toVars x) u 0 0) (mkState (noInit _) u' (dt : ℝ) 0)
        (q_unit hx)
      simp only [readingKernel, sensorKernel, filterKernel, KernelInv.restrict, Option.map_some,
        Option.bind_eq_bind, Option.bind_some, toVars_rotVals]
      rw [show mkState (rotVars g (toVars x)) u 0 0 =
        { mkState (toVars x) u 0 0 with vars := rotVars g (mkState (toVars x) u 0 0).vars } from rfl, key]
      cases propagateState (mkState (toVars x) u 0 0) (mkState (noInit _) u' (dt : ℝ) 0) with
      | none => rfl
      | some s =>
        simp only [Option.map_some, Option.bind_some, rotVals_values]
  extProp e s := by
    obtain ⟨s, hs⟩ := s
    cases s with
    | none => rfl
    | some x =>
      simp only [readingKernel, sensorKernel, filterKernel, KernelInv.restrict, Option.map_some,
        Option.some.injEq, toVars_rotVals, rotVals_values]
      congr 1
      refine vars_ext ?_ ?_ ?_ fun i h0 h1 h2 => ?_
      · unfold rotVars p
        simp only [set3_p]
        rfl
      · unfold rotVars v
        simp only [set3_v]
        rfl
      · unfold rotVars q
        simp only [set3_q]
        rfl
      · rw [set3_other _ _ _ _ _ h0 h1 h2, other_rotVars _ _ _ h0 h1 h2, other_rotVars _ _ _ h0 h1 h2,
          set3_other _ _ _ _ _ h0 h1 h2]
  predP dt P u s := by
    obtain ⟨s, hs'⟩ := s
    obtain ⟨P, hP⟩ := P
    cases P with
    | none => rfl
    | some P =>
      cases s with
      | none => rfl
      | some x =>
        have hx : UnitQuats (toVars x) := hs' x rfl
        have key := predict_rot ho np hg hq hy (dt : ℝ) P u (toVars x) (q_unit hx)
        simp only [readingKernel, sensorKernel, filterKernel, KernelInv.restrict, Option.map_some,
          Option.bind_eq_bind, Option.bind_some, toVars_rotVals]
        generalize predictProcessCovariance np (mkState (noInit _) ⟨0, 0⟩ 0 (rotCov g.toRot P))
          (mkState (rotVars g (toVars x)) u (dt : ℝ) 0) 0 = a at key ⊢
        generalize predictProcessCovariance np (mkState (noInit _) ⟨0, 0⟩ 0 P)
          (mkState (toVars x) u (dt : ℝ) 0) 0 = b at key ⊢
        cases a <;> cases b
        · rfl
        · cases key
        · cases key
        · simpa using key
  update _ tr m s P := by
    obtain ⟨s, hs'⟩ := s
    obtain ⟨P, hP⟩ := P
    cases s with
    | none => rfl
    | some x =>
      cases P with
      | none => rfl
      | some P =>
        have key := reading_rot ho hd hp fb hy tr m.1 m.2 x (hs' x rfl) P (hP P rfl)
        simp only [readingKernel, sensorKernel, KernelInv.restrict, Option.map_some, id, key]
        cases sensorUpdate (plainCalc fb) tr m.1.meas x P <;> rfl
  P0 := by
    change some 0 = some (rotCov g.toRot 0)
    rw [rotCov_zero]
  tr0 := rfl
  spike _ := rfl
  numX _ := rfl
  numPos _ := rfl

end MSF
