import Verif.Lemmas.Yaw2
import Verif.Lemmas.Signs
import Verif.Spec.LengthUnit

/-! Changing the unit of length of the camera frame commutes with the numerics of the filter. -/

namespace MSF

open Matrix EKFState Core

variable {rest : List VarDesc}

/-! ### The state -/

theorem unitVars_other (k : ℝ) (s : Vars ℝ (coreDef (scaleVar :: rest)))
    {i : Fin (coreDef (scaleVar :: rest)).length} (h : i ≠ iL) : unitVars k s i = s i := by
  unfold unitVars
  exact Function.update_of_ne h _ _

theorem unitVars_L (k : ℝ) (s : Vars ℝ (coreDef (scaleVar :: rest))) :
    unitVars k s iL = { s iL with val := unitVal k (s iL).val } := by
  unfold unitVars
  exact Function.update_self _ _ _

theorem unitVars_ext {k : ℝ} {s t : Vars ℝ (coreDef (scaleVar :: rest))}
    (h : ∀ i, i ≠ iL → t i = s i) (hL : t iL = { s iL with val := unitVal k (s iL).val }) : t = unitVars k s := by
  funext i
  by_cases e : i = iL
  · subst e; rw [hL, unitVars_L]
  · rw [h i e, unitVars_other k s e]

theorem ne_iL {i : Fin (coreDef (scaleVar :: rest)).length} (h : i.val < 5) : i ≠ iL := fun e => by
  have := congrArg Fin.val e
  simp only at this
  omega

theorem p_unitVars (k : ℝ) (s : Vars ℝ (coreDef (scaleVar :: rest))) : p (unitVars k s) = p s := by
  unfold p; rw [unitVars_other k s (ne_iL (by simp))]

theorem v_unitVars (k : ℝ) (s : Vars ℝ (coreDef (scaleVar :: rest))) : v (unitVars k s) = v s := by
  unfold v; rw [unitVars_other k s (ne_iL (by simp))]

theorem q_unitVars (k : ℝ) (s : Vars ℝ (coreDef (scaleVar :: rest))) : q (unitVars k s) = q s := by
  unfold q; rw [unitVars_other k s (ne_iL (by simp))]

theorem bw_unitVars (k : ℝ) (s : Vars ℝ (coreDef (scaleVar :: rest))) : b_w (unitVars k s) = b_w s := by
  unfold b_w; rw [unitVars_other k s (ne_iL (by simp))]

theorem ba_unitVars (k : ℝ) (s : Vars ℝ (coreDef (scaleVar :: rest))) : b_a (unitVars k s) = b_a s := by
  unfold b_a; rw [unitVars_other k s (ne_iL (by simp))]

theorem unitVals_other (k : ℝ) (x : Values (coreDef (scaleVar :: rest)))
    {i : Fin (coreDef (scaleVar :: rest)).length} (h : i ≠ iL) : unitVals k x i = x i := by
  unfold unitVals
  exact Function.update_of_ne h _ _

theorem unitVals_L (k : ℝ) (x : Values (coreDef (scaleVar :: rest))) :
    unitVals k x iL = (unitVal k (x iL) : Val ℝ ((coreDef (scaleVar :: rest)).get iL).kind) := by
  unfold unitVals
  exact Function.update_self _ _ _

theorem toVars_unitVals (k : ℝ) (x : Values (coreDef (scaleVar :: rest))) :
    toVars (unitVals k x) = unitVars k (toVars x) := by
  refine unitVars_ext (fun i h => ?_) ?_
  · unfold toVars
    rw [unitVals_other k x h]
  · unfold toVars
    rw [unitVals_L]

theorem unitVals_values (k : ℝ) (s : Vars ℝ (coreDef (scaleVar :: rest))) :
    unitVals k (values s) = values (unitVars k s) := by
  funext i
  by_cases e : i = iL
  · subst e
    rw [unitVals_L]
    unfold values
    rw [unitVars_L]
  · rw [unitVals_other k _ e]
    unfold values
    rw [unitVars_other k s e]

theorem copyNon_unit (k : ℝ) (s t : Vars ℝ (coreDef (scaleVar :: rest))) :
    copyNonPropagationStates (unitVars k s) t = unitVars k (copyNonPropagationStates s t) := by
  refine unitVars_ext (fun i h => ?_) ?_
  · unfold copyNonPropagationStates
    rw [unitVars_other k s h]
  · unfold copyNonPropagationStates
    have e : ¬ ((coreDef (scaleVar :: rest)).get iL).stype = .coreProp := by
      change ¬ SType.aux = SType.coreProp
      decide
    rw [if_neg e, if_neg e, unitVars_L]

theorem copyNon_unit' (k : ℝ) (s t : Vars ℝ (coreDef (scaleVar :: rest))) :
    copyNonPropagationStates (unitVars k s) (unitVars k t) =
      unitVars k (copyNonPropagationStates s t) := by
  refine unitVars_ext (fun i h => ?_) ?_
  · unfold copyNonPropagationStates
    rw [unitVars_other k s h, unitVars_other k t h]
  · unfold copyNonPropagationStates
    have e : ¬ ((coreDef (scaleVar :: rest)).get iL).stype = .coreProp := by
      change ¬ SType.aux = SType.coreProp
      decide
    rw [if_neg e, if_neg e, unitVars_L]

theorem set3_unit (k : ℝ) (w : Vars ℝ (coreDef (scaleVar :: rest))) (a b : V3 ℝ) (c : Quat ℝ) :
    setP (setV (setQ (unitVars k w) c) b) a = unitVars k (setP (setV (setQ w c) b) a) := by
  have hs : ∀ {i : Fin (coreDef (scaleVar :: rest)).length} (_ : i ≠ iL)
      {w' : Vars ℝ (coreDef (scaleVar :: rest))} (_ : w' i = w i),
      setP (setV (setQ w' c) b) a i = setP (setV (setQ w c) b) a i := by
    intro i _ w' h
    unfold setP setV setQ
    by_cases h0 : i = ip
    · subst h0
      rw [Function.update_self, Function.update_self, Function.update_of_ne ne01,
        Function.update_of_ne ne02, Function.update_of_ne ne01, Function.update_of_ne ne02, h]
    by_cases h1 : i = iv
    · subst h1
      rw [Function.update_of_ne h0, Function.update_of_ne h0, Function.update_self,
        Function.update_self, Function.update_of_ne ne12, Function.update_of_ne ne12, h]
    by_cases h2 : i = iq
    · subst h2
      rw [Function.update_of_ne h0, Function.update_of_ne h0, Function.update_of_ne h1,
        Function.update_of_ne h1, Function.update_self, Function.update_self, h]
    rw [Function.update_of_ne h0, Function.update_of_ne h0, Function.update_of_ne h1,
      Function.update_of_ne h1, Function.update_of_ne h2, Function.update_of_ne h2, h]
  refine unitVars_ext (fun i h => hs h (unitVars_other k w h)) ?_
  have h0 : (iL : Fin (coreDef (scaleVar :: rest)).length) ≠ ip := (ne_iL (by simp)).symm
  have h1 : (iL : Fin (coreDef (scaleVar :: rest)).length) ≠ iv := (ne_iL (by simp)).symm
  have h2 : (iL : Fin (coreDef (scaleVar :: rest)).length) ≠ iq := (ne_iL (by simp)).symm
  have e : ∀ w : Vars ℝ (coreDef (scaleVar :: rest)), setP (setV (setQ w c) b) a iL = w iL := by
    intro w
    unfold setP setV setQ
    rw [Function.update_of_ne h0, Function.update_of_ne h1, Function.update_of_ne h2]
  rw [e, e, unitVars_L]

/-- `PropagateState` does not touch the scale. -/
theorem propagate_unit (k : ℝ) (old new : EKFState ℝ (coreDef (scaleVar :: rest))) :
    propagateState { old with vars := unitVars k old.vars } new =
      (propagateState old new).map fun s => { s with vars := unitVars k s.vars } := by
  unfold propagateState
  simp only [copyNon_unit, bw_unitVars, ba_unitVars, q_unitVars, v_unitVars, p_unitVars]
  cases (Quat.ofCoeffs ((quatInt (new.w_m - b_w (copyNonPropagationStates old.vars
      (resetState new.vars))) (old.w_m - b_w old.vars) (new.time - old.time)).mulVec
      (q old.vars).coeffs)).normalize with
  | none => rfl
  | some qn =>
    simp only [Option.map_some, Option.some.injEq, EKFState.mk.injEq, and_true, q_setQ, v_setV]
    exact set3_unit k _ _ _ _

/-! ### Covariances -/

theorem unitCov_eq {n : Nat} (k : ℝ) (P : Matrix (Fin n) (Fin n) ℝ) :
    unitCov k P = diagonal (unitFac k) * P * diagonal (unitFac k) := by
  ext r c
  rw [mul_diagonal, diagonal_mul]
  rfl

theorem unitCov_zero {n : Nat} (k : ℝ) : unitCov k (0 : Matrix (Fin n) (Fin n) ℝ) = 0 := by
  ext r c
  simp [unitCov]

theorem unitFac_core {n : Nat} (k : ℝ) (i : Fin n) (h : i.val < 15) : unitFac k i = 1 :=
  if_neg (by omega)

theorem unitFac_ne {n : Nat} (k : ℝ) (i : Fin n) (h : i.val ≠ 15) : unitFac k i = 1 := if_neg h

theorem unitFac_pos {n : Nat} {k : ℝ} (hk : 0 < k) (i : Fin n) : 0 < unitFac k i := by
  unfold unitFac
  split
  · exact hk
  · exact one_pos

theorem offL : offset errLen (coreDef (scaleVar :: rest)) 5 = 15 := rfl

theorem offL' : offset errLen (coreDef (scaleVar :: rest)) 6 = 16 := rfl

/-- A segment of another variable does not contain the scale. -/
theorem seg_ne {i : Nat} (h : i < (coreDef (scaleVar :: rest)).length) (h5 : i ≠ 5) {j : Nat}
    (hj : offset errLen (coreDef (scaleVar :: rest)) i ≤ j)
    (hj' : j < offset errLen (coreDef (scaleVar :: rest)) i + errLen (coreDef (scaleVar :: rest))[i]) :
    j ≠ 15 := by
  rcases Nat.lt_or_gt_of_ne h5 with hl | hl
  · have h1 := offset_mono (D := coreDef (scaleVar :: rest)) errLen (show i + 1 ≤ 5 from hl)
    rw [offset_succ errLen i h, offL] at h1
    omega
  · have h1 := offset_mono (D := coreDef (scaleVar :: rest)) errLen (show 6 ≤ i from hl)
    rw [offL'] at h1
    omega

/-! ### Prediction -/

theorem inVar_fac {i : Fin (coreDef (scaleVar :: rest)).length}
    {r : Fin (total errLen (coreDef (scaleVar :: rest)))} (h : InVar (coreDef (scaleVar :: rest)) i r)
    (k : ℝ) : (if i.val = 5 then k else 1) = unitFac k r := by
  unfold unitFac
  by_cases h5 : i.val = 5
  · have e : i = iL := Fin.ext h5
    subst e
    have h1 := h.1
    have h2 := h.2
    change 15 ≤ r.val at h1
    change r.val < 15 + 1 at h2
    rw [if_pos rfl, if_pos (by omega)]
  · rw [if_neg h5, if_neg (seg_ne i.2 h5 h.1 h.2)]

theorem predict_unit (ho : Ordered (scaleVar :: rest)) {k : ℝ}
    {np np' : NoiseParams ℝ (coreDef (scaleVar :: rest))} (hn : UnitNoise k np np') (dt : ℝ)
    (P : ErrMat ℝ (coreDef (scaleVar :: rest))) (u : Input (V3 ℝ) (V3 ℝ))
    (x : Vars ℝ (coreDef (scaleVar :: rest))) :
    (predictProcessCovariance np' (mkState (noInit _) ⟨0, 0⟩ 0 (unitCov k P))
        (mkState (unitVars k x) u dt 0) 0).map (fun r => r.2.1.P) =
      (predictProcessCovariance np (mkState (noInit _) ⟨0, 0⟩ 0 P) (mkState x u dt 0) 0).map
        (fun r => unitCov k r.2.1.P) := by
  by_cases hdt : 0 < dt
  · have hd : ∀ (P : ErrMat ℝ (coreDef (scaleVar :: rest)))
        (x : Vars ℝ (coreDef (scaleVar :: rest))), (mkState x u dt 0).time -
        (mkState (noInit (coreDef (scaleVar :: rest))) ⟨0, 0⟩ 0 P).time = dt := fun _ _ => sub_zero dt
    obtain ⟨Q, e, hQ⟩ := predict_apply (indexingErrors_eq_zero.2 ho) np
      (mkState (noInit _) ⟨0, 0⟩ 0 P) (mkState x u dt 0) 0 (by rw [hd]; linarith)
    obtain ⟨Q', e', hQ'⟩ := predict_apply (indexingErrors_eq_zero.2 ho) np'
      (mkState (noInit _) ⟨0, 0⟩ 0 (unitCov k P)) (mkState (unitVars k x) u dt 0) 0
      (by rw [hd]; linarith)
    rw [hd] at e hQ e' hQ'
    have eQ : Q' = unitCov k Q := by
      ext r c
      change _ = unitFac k r * Q r c * unitFac k c
      by_cases hno : ∀ i, ((coreDef (scaleVar :: rest)).get i).isAux →
          ¬ (InVar (coreDef (scaleVar :: rest)) i r ∧ InVar (coreDef (scaleVar :: rest)) i c)
      · rw [(hQ r c).2 hno, (hQ' r c).2 hno]
        simp only [mkState, q_unitVars, bw_unitVars, ba_unitVars, hn.acc, hn.accBias, hn.gyr,
          hn.gyrBias]
        generalize hlk : CalcQ.lookup (_ : CalcQ.In ℝ) r.val c.val = o
        cases o with
        | none => simp
        | some y =>
          have := lookup_core _ _ _ (show (CalcQ.lookup _ r c).isSome = true by rw [hlk]; rfl)
          rw [unitFac_core k r this.1, unitFac_core k c this.2, one_mul, mul_one]
      · push Not at hno
        obtain ⟨i, hi, hr, hc⟩ := hno
        rw [(hQ r c).1 i hi hr hc, (hQ' r c).1 i hi hr hc, ← inVar_fac hr k]
        refine (hn.aux _ _ _ hi _ _).trans ?_
        congr 1
        exact (inVar_fac hr k).trans ((inVar_fac hr k).symm.trans (inVar_fac hc k))
    rw [e, e', Option.map_some, Option.map_some, eQ]
    simp only [mkState, q_unitVars, bw_unitVars, ba_unitVars]
    have eF := fun r c => setFd_outside (fun b => 3 * b.idx.val) (fun _ => rfl)
      (1 : ErrMat ℝ (coreDef (scaleVar :: rest))) (q x).toRot (u.w - b_w x) (u.a - b_a x) dt r c
    generalize setFd (fun b => 3 * b.idx.val) (1 : ErrMat ℝ (coreDef (scaleVar :: rest)))
      (q x).toRot (u.w - b_w x) (u.a - b_a x) dt = F at eF ⊢
    have hc : F * diagonal (unitFac k) = diagonal (unitFac k) * F := by
      ext r c
      rw [mul_diagonal, diagonal_mul]
      by_cases h : 15 ≤ r.val ∨ 15 ≤ c.val
      · rw [eF r c h]
        by_cases hrc : r = c
        · subst hrc; ring
        · rw [one_apply_ne hrc]; ring
      · rw [unitFac_core k r (by omega), unitFac_core k c (by omega), one_mul, mul_one]
    have hc' : diagonal (unitFac k) * Fᵀ = Fᵀ * diagonal (unitFac k) := by
      have := congrArg transpose hc
      rwa [transpose_mul, transpose_mul, diagonal_transpose] at this
    refine congrArg some ?_
    rw [unitCov_eq, unitCov_eq, unitCov_eq, Matrix.mul_add, Matrix.add_mul]
    refine congrArg (· + _) ?_
    calc F * (diagonal (unitFac k) * P * diagonal (unitFac k)) * Fᵀ =
        (F * diagonal (unitFac k)) * P * (diagonal (unitFac k) * Fᵀ) := by
          simp only [Matrix.mul_assoc]
      _ = _ := by rw [hc, hc']; simp only [Matrix.mul_assoc]
  · have h : ∀ (np : NoiseParams ℝ (coreDef (scaleVar :: rest))) P x,
        predictProcessCovariance np (mkState (noInit _) ⟨0, 0⟩ 0 P) (mkState x u dt 0) 0 =
        some (mkState (noInit _) ⟨0, 0⟩ 0 P, mkState x u dt 0, 0) := by
      intro np P x
      rw [predictProcessCovariance, if_pos]
      change dt - 0 ≤ 0
      linarith
    rw [h, h, Option.map_some, Option.map_some]
    exact congrArg some (unitCov_zero k).symm

/-! ### Correction -/

section
variable {m : Type} [Fintype m] [DecidableEq m]

theorem symInPlace_diagonal {n : Nat} (w : Fin n → ℝ) (M : Matrix (Fin n) (Fin n) ℝ) :
    symInPlace (diagonal w * M * diagonal w) = diagonal w * symInPlace M * diagonal w := by
  have e : ∀ (N : Matrix (Fin n) (Fin n) ℝ) r c,
      (diagonal w * N * diagonal w) r c = w r * N r c * w c := by
    intro N r c
    rw [mul_diagonal, diagonal_mul]
  ext r s
  rw [e]
  rcases lt_trichotomy r s with h | rfl | h
  · rw [symInPlace_upper _ r s h, symInPlace_upper _ r s h, e, e]; ring
  · rw [symInPlace_diag, symInPlace_diag, e]
  · rw [symInPlace_lower _ r s h, symInPlace_lower _ r s h, e, e]; ring

theorem diagonal_inv_mul {n : Type} [Fintype n] [DecidableEq n] {w : n → ℝ} (h : ∀ i, 0 < w i) :
    diagonal (fun i => (w i)⁻¹) * diagonal w = 1 := by
  rw [diagonal_mul_diagonal, ← diagonal_one]
  congr 1
  funext i
  exact inv_mul_cancel₀ (h i).ne'

/-- Gain, correction and covariance when state and reading are measured in other units. -/
theorem calculateCorrection_units {n : Nat} {w : Fin n → ℝ} (hw : ∀ i, 0 < w i) {σ : m → ℝ}
    (hσ : ∀ i, 0 < σ i) (en : Bool) (thr : ℝ) (P : Matrix (Fin n) (Fin n) ℝ)
    {H H' : Matrix m (Fin n) ℝ} (hH : H' * diagonal w = diagonal σ * H) (r : m → ℝ)
    (R : Matrix m m ℝ) :
    calculateCorrection en thr (diagonal w * P * diagonal w) H' (diagonal σ *ᵥ r)
        (diagonal σ * R * diagonal σ) =
      (calculateCorrection en thr P H r R).map fun o => o.map fun cP =>
        (diagonal w *ᵥ cP.1, diagonal w * cP.2 * diagonal w) := by
  have hsym := symInPlace_diagonal w
  have hT := diagonal_inv_mul hw
  have hS := diagonal_inv_mul hσ
  have tT : (diagonal w)ᵀ = diagonal w := diagonal_transpose w
  have tT' : (diagonal fun i => (w i)⁻¹)ᵀ = diagonal fun i => (w i)⁻¹ := diagonal_transpose _
  have tS : (diagonal σ)ᵀ = diagonal σ := diagonal_transpose σ
  have tS' : (diagonal fun i => (σ i)⁻¹)ᵀ = diagonal fun i => (σ i)⁻¹ := diagonal_transpose _
  generalize (diagonal fun i => (w i)⁻¹) = T' at hT tT'
  generalize (diagonal fun i => (σ i)⁻¹) = S' at hS tS'
  generalize diagonal w = T at *
  generalize diagonal σ = S at *
  have hT' : T * T' = 1 := mul_eq_one_comm.1 hT
  have hS' : S * S' = 1 := mul_eq_one_comm.1 hS
  have iS : S⁻¹ = S' := inv_eq_left_inv hS
  have e1 : innovCov (T * P * T) H' (S * R * S) = S * innovCov P H R * S := by
    have e : H' * (T * P * T) * H'ᵀ = (H' * T) * P * (H' * T)ᵀ := by
      rw [transpose_mul, tT]; simp only [Matrix.mul_assoc]
    rw [innovCov, innovCov, e, hH, transpose_mul, tS, Matrix.mul_add, Matrix.add_mul]
    simp only [Matrix.mul_assoc]
  have dS : S.det ≠ 0 := by
    intro h0
    have := congrArg det hS'
    rw [det_mul, h0, zero_mul, det_one] at this
    exact zero_ne_one this
  have edet : (S * innovCov P H R * S).det = 0 ↔ (innovCov P H R).det = 0 := by
    rw [det_mul, det_mul]
    simp [dS]
  have einv : (S * innovCov P H R * S)⁻¹ = S' * (innovCov P H R)⁻¹ * S' := by
    rw [Matrix.mul_inv_rev, Matrix.mul_inv_rev, iS, Matrix.mul_assoc]
  have emah : mahSquared (T * P * T) H' (S * R * S) (S *ᵥ r) = mahSquared P H R r := by
    rw [mahSquared, mahSquared, e1, einv, mulVec_mulVec, Matrix.mul_assoc, hS, Matrix.mul_one,
      ← mulVec_mulVec, dotProduct_mulVec, ← mulVec_transpose, tS', mulVec_mulVec, hS, one_mulVec]
  have egain : gain (T * P * T) H' (S * R * S) = T * gain P H R * S' := by
    have e : (T * P * T) * H'ᵀ = T * P * (H' * T)ᵀ := by
      rw [transpose_mul, tT]; simp only [Matrix.mul_assoc]
    rw [gain, gain, e1, einv, e, hH, transpose_mul, tS]
    simp only [Matrix.mul_assoc]
    rw [← Matrix.mul_assoc S S', hS', Matrix.one_mul]
  have ej : ∀ K : Matrix (Fin n) m ℝ,
      josephUpdate (T * P * T) H' (S * R * S) (T * K * S') = T * josephUpdate P H R K * T := by
    intro K
    have eKH : 1 - T * K * S' * H' = T * (1 - K * H) * T' := by
      have : H' = S * H * T' := by rw [← hH, Matrix.mul_assoc, hT', Matrix.mul_one]
      rw [this, Matrix.mul_sub, Matrix.mul_one, Matrix.sub_mul, hT']
      simp only [Matrix.mul_assoc]
      rw [← Matrix.mul_assoc S' S, hS, Matrix.one_mul]
    have eM : (1 - T * K * S' * H') * (T * P * T) * (1 - T * K * S' * H')ᵀ +
        (T * K * S') * (S * R * S) * (T * K * S')ᵀ =
        T * ((1 - K * H) * P * (1 - K * H)ᵀ + K * R * Kᵀ) * T := by
      rw [eKH]
      simp only [transpose_mul, tT, tT', tS', Matrix.mul_add, Matrix.add_mul, Matrix.mul_assoc]
      congr 1
      · rw [← Matrix.mul_assoc T' T, hT, Matrix.one_mul, ← Matrix.mul_assoc T T', hT', Matrix.one_mul]
      · rw [← Matrix.mul_assoc S' S, hS, Matrix.one_mul, ← Matrix.mul_assoc S S', hS', Matrix.one_mul]
    rw [josephUpdate, josephUpdate]
    simp only [eM, hsym]
  unfold calculateCorrection
  rw [e1, emah, egain]
  by_cases h0 : (innovCov P H R).det = 0
  · rw [if_pos h0, if_pos (edet.2 h0)]; rfl
  · rw [if_neg h0, if_neg (fun h => h0 (edet.1 h))]
    split
    · rfl
    · simp only [Option.map_some, ej]
      congr 3
      rw [mulVec_mulVec, mulVec_mulVec, Matrix.mul_assoc, hS, Matrix.mul_one]

end

theorem segment_unit {i : Nat} (h : i < (coreDef (scaleVar :: rest)).length) (h5 : i ≠ 5) (k : ℝ)
    (c : Fin (total errLen (coreDef (scaleVar :: rest))) → ℝ) {n : Nat}
    (hn : n ≤ errLen (coreDef (scaleVar :: rest))[i]) :
    segment (fun j => unitFac k j * c j) (offset errLen (coreDef (scaleVar :: rest)) i : Int) n =
      segment c (offset errLen (coreDef (scaleVar :: rest)) i : Int) n := by
  unfold segment
  split
  · congr 1
    funext j
    simp only
    rw [unitFac_ne, one_mul]
    exact seg_ne h h5 (by simp) (by simp only [Int.toNat_natCast]; omega)
  · rfl

theorem correctVal_unit (ho : Ordered (scaleVar :: rest)) (hp : PlainQuats (coreDef (scaleVar :: rest)))
    (k : ℝ) (c : Fin (total errLen (coreDef (scaleVar :: rest))) → ℝ)
    {i : Fin (coreDef (scaleVar :: rest)).length} (h5 : i ≠ iL) :
    ∀ (kd : Kind) (_ : ((coreDef (scaleVar :: rest)).get i).kind = kd) (x : Val ℝ kd),
      correctVal (fun j => unitFac k j * c j) ((coreDef (scaleVar :: rest)).get i) kd x =
        correctVal c ((coreDef (scaleVar :: rest)).get i) kd x
  | .vec n, hk, x => by
    have e := startIndex_get errLen (indexingErrors_eq_zero.2 ho) i.1 i.2
    have h5' : i.val ≠ 5 := fun h => h5 (Fin.ext h)
    have hn : n ≤ errLen (coreDef (scaleVar :: rest))[i.val] := by
      change n ≤ ((coreDef (scaleVar :: rest)).get i).kind.errLen
      rw [hk]; exact le_refl n
    change correctVec _ _ n x = correctVec _ _ n x
    unfold correctVec
    rw [show startIndex errLen (coreDef (scaleVar :: rest)) ((coreDef (scaleVar :: rest)).get i) = _
      from e]
    simp only [Option.bind_eq_bind, Option.bind_some]
    rw [segment_unit i.2 h5' k c hn]
  | .quat, hk, x => by
    have e := startIndex_get errLen (indexingErrors_eq_zero.2 ho) i.1 i.2
    have h5' : i.val ≠ 5 := fun h => h5 (Fin.ext h)
    have hn : 3 ≤ errLen (coreDef (scaleVar :: rest))[i.val] := by
      change 3 ≤ ((coreDef (scaleVar :: rest)).get i).kind.errLen
      rw [hk]; exact le_refl 3
    have h0 : ((coreDef (scaleVar :: rest)).get i).options = 0 := hp _ (List.get_mem _ _) hk
    have hd : { (coreDef (scaleVar :: rest)).get i with options := 0 } =
        (coreDef (scaleVar :: rest)).get i := by
      generalize (coreDef (scaleVar :: rest)).get i = d at h0
      cases d
      simp only at h0
      rw [h0]
    change correctQuat _ _ x = correctQuat _ _ x
    unfold correctQuat
    rw [hd, show startIndex errLen (coreDef (scaleVar :: rest)) ((coreDef (scaleVar :: rest)).get i) = _
      from e]
    simp only [Option.bind_eq_bind, Option.bind_some]
    rw [segment_unit i.2 h5' k c hn]

/-- `Correct` in the other unit. -/
theorem correct_unit (ho : Ordered (scaleVar :: rest)) (hp : PlainQuats (coreDef (scaleVar :: rest)))
    (k : ℝ) (s : Vars ℝ (coreDef (scaleVar :: rest)))
    (c : Fin (total errLen (coreDef (scaleVar :: rest))) → ℝ) :
    correct (unitVars k s) (fun j => unitFac k j * c j) = (correct s c).map (unitVars k) := by
  have key : Option.Rel (fun a b : Vars ℝ (coreDef (scaleVar :: rest)) =>
      ∀ i, ∀ t : Vars ℝ (coreDef (scaleVar :: rest)), t i = a i → unitVars k t i = b i)
      (correct s c) (correct (unitVars k s) (fun j => unitFac k j * c j)) := by
    unfold correct
    refine allSome_rel (R := fun i (a b : StateVar ℝ ((coreDef (scaleVar :: rest)).get i).kind) =>
      ∀ t : Vars ℝ (coreDef (scaleVar :: rest)), t i = a → unitVars k t i = b) fun i => ?_
    by_cases h5 : i = iL
    · subst h5
      rw [unitVars_L]
      have e := startIndex_get errLen (indexingErrors_eq_zero.2 ho) (iL (rest := rest)).1 iL.2
      change Option.Rel _ ((correctVec c scaleVar 1 (s iL).val).map _)
        ((correctVec _ scaleVar 1 (unitVal k (s iL).val)).map _)
      unfold correctVec
      rw [show startIndex errLen (coreDef (scaleVar :: rest)) scaleVar = some (15 : Int) from e]
      simp only [Option.bind_eq_bind, Option.bind_some]
      unfold segment
      by_cases hs : 0 ≤ (15 : Int) ∧ (15 : Int).toNat + 1 ≤ total errLen (coreDef (scaleVar :: rest))
      · rw [dif_pos hs, dif_pos hs]
        simp only [Option.bind_some]
        rw [if_neg (show ¬ scaleVar.multiplicative = true by decide),
          if_neg (show ¬ scaleVar.multiplicative = true by decide)]
        refine Option.Rel.some fun t ht => ?_
        rw [unitVars_L, ht]
        refine stateVar_ext ?_ rfl rfl
        funext j
        have hj : j = (0 : Fin 1) := Subsingleton.elim _ _
        subst hj
        simp only [unitVal]
        have : unitFac k (⟨15 + 0, by omega⟩ : Fin (total errLen (coreDef (scaleVar :: rest)))) = k :=
          if_pos rfl
        change k * (_ + _) = k * _ + unitFac k (⟨15 + 0, by omega⟩ : Fin (total errLen (coreDef (scaleVar :: rest)))) * _
        rw [this, mul_add]
      · rw [dif_neg hs, dif_neg hs]
        exact .none
    · rw [unitVars_other k s h5, correctVal_unit ho hp k c h5 _ rfl]
      cases (correctVal c ((coreDef (scaleVar :: rest)).get i)
          ((coreDef (scaleVar :: rest)).get i).kind (s i).val) with
      | none => exact .none
      | some y =>
        refine .some fun t ht => ?_
        rw [unitVars_other k t h5, ht]
  revert key
  cases correct s c with
  | none =>
    cases correct (unitVars k s) (fun j => unitFac k j * c j) with
    | none => intro _; rfl
    | some b => intro h; cases h
  | some a =>
    cases correct (unitVars k s) (fun j => unitFac k j * c j) with
    | none => intro h; cases h
    | some b =>
      intro h
      cases h with
      | some h =>
        rw [Option.map_some, Option.some.injEq]
        funext i
        exact (h i a rfl).symm

theorem zeroBias_unit {n : Nat} (k : ℝ) (c : Fin n → ℝ) :
    zeroBias (fun j => unitFac k j * c j) = fun j => unitFac k j * zeroBias c j := by
  funext j
  simp only [zeroBias]
  split
  · rw [mul_zero]
  · split
    · rw [mul_zero]
    · rfl

theorem fuzzyCheck_unit (k : ℝ) (tr : Tracker ℝ) (d b : Vars ℝ (coreDef (scaleVar :: rest)))
    (thr : ℝ) : fuzzyCheck' tr (unitVars k d) (unitVars k b) thr =
      (fuzzyCheck' tr d b thr).map fun r => (r.1, unitVars k r.2.1, r.2.2) := by
  unfold fuzzyCheck'
  split
  · rfl
  · unfold fuzzyCheck
    simp only [Option.bind_eq_bind]
    cases bestIndex (coreDef (scaleVar :: rest)) with
    | none => rfl
    | some i =>
      simp only [Option.bind_some]
      by_cases h5 : i = iL
      · subst h5
        rfl
      · rw [unitVars_other k d h5]
        cases quatOf ((coreDef (scaleVar :: rest)).get i).kind (d i).val with
        | none => rfl
        | some q =>
          simp only [Option.bind_some]
          split
          · split
            · simp only [copyNon_unit']
              rfl
            · cases tr.writeRow (tr.timer - nBuff - 1) q <;> rfl
          · cases tr.writeRow (tr.timer - 1) q <;> rfl

theorem sanity_unit {k : ℝ} (hk : 0 < k) (ρ : ℝ) (fb : Bool)
    (a b : Vars ℝ (coreDef (scaleVar :: rest))) (c c') :
    (scaleCalcWith (k * ρ) fb).sanity (unitVars k a) b c =
      unitVars k ((scaleCalcWith ρ fb).sanity a b c') := by
  simp only [scaleCalcWith]
  have e : (show Fin 1 → ℝ from (unitVars k a iL).val) 0 = k * (show Fin 1 → ℝ from (a iL).val) 0 := by
    rw [unitVars_L]; rfl
  by_cases h : (show Fin 1 → ℝ from (a iL).val) 0 < 0
  · have h' : (show Fin 1 → ℝ from (unitVars k a iL).val) 0 < 0 := by
      rw [e]; exact mul_neg_of_pos_of_neg hk h
    rw [if_pos h, if_pos h']
    refine unitVars_ext (fun i hi => ?_) ?_
    · rw [Function.update_of_ne hi, Function.update_of_ne hi, unitVars_other k a hi]
    · rw [Function.update_self, Function.update_self, unitVars_L]
      rfl
  · have h' : ¬ (show Fin 1 → ℝ from (unitVars k a iL).val) 0 < 0 := by
      rw [e]; exact not_lt.2 (mul_nonneg hk.le (not_lt.1 h))
    rw [if_neg h, if_neg h']

/-- `ApplyCorrection` in the other unit. -/
theorem applyCorrection_unit' (ho : Ordered (scaleVar :: rest))
    (hp : PlainQuats (coreDef (scaleVar :: rest))) {k : ℝ} (hk : 0 < k) (ρ : ℝ) (fb : Bool)
    (tr : Tracker ℝ) (s : Vars ℝ (coreDef (scaleVar :: rest)))
    (c : Fin (total errLen (coreDef (scaleVar :: rest))) → ℝ) :
    applyCorrection (scaleCalcWith (k * ρ) fb) tr (unitVars k s) (fun j => unitFac k j * c j) =
      (applyCorrection (scaleCalcWith ρ fb) tr s c).map fun r => (r.1, unitVars k r.2.1, r.2.2) := by
  unfold applyCorrection
  have e : (if fb then zeroBias (fun j => unitFac k j * c j) else fun j => unitFac k j * c j) =
      fun j => unitFac k j * (if fb then zeroBias c else c) j := by
    cases fb
    · rfl
    · exact zeroBias_unit k c
  simp only [Option.bind_eq_bind]
  change ((correct (unitVars k s) (if fb then zeroBias (fun j => unitFac k j * c j) else
    fun j => unitFac k j * c j)).bind _) = ((correct s (if fb then zeroBias c else c)).bind _).map _
  rw [e, correct_unit ho hp]
  cases correct s (if fb then zeroBias c else c) with
  | none => rfl
  | some s' =>
    simp only [Option.map_some, Option.bind_some]
    rw [sanity_unit hk ρ fb s' _ _ ((scaleCalcWith (rest := rest) ρ fb).augment c), fuzzyCheck_unit]
    rfl

end MSF
