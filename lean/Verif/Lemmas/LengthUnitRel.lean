import Verif.Lemmas.LengthUnit2
import Verif.Lemmas.RelRuns
import Verif.Model.Relative

/-! Changing the unit of length of the camera frame commutes with relative updates. -/

namespace MSF

open Matrix EKFState Core

variable {rest : List VarDesc}

section
variable {n : Nat} {m : Type} [Fintype m] [DecidableEq m]

/-- The relative update when state and reading are measured in other units. -/
theorem calculateCorrectionRelative_units {w : Fin n → ℝ} (hw : ∀ i, 0 < w i) {σ : m → ℝ}
    (hσ : ∀ i, 0 < σ i) (Po P F : Matrix (Fin n) (Fin n) ℝ) {Ho Ho' Hn Hn' : Matrix m (Fin n) ℝ}
    (ho : Ho' * diagonal w = diagonal σ * Ho) (hn : Hn' * diagonal w = diagonal σ * Hn) (r : m → ℝ)
    (R : Matrix m m ℝ) :
    calculateCorrectionRelative (diagonal w * Po * diagonal w) (diagonal w * P * diagonal w)
        (diagonal w * F * diagonal fun i => (w i)⁻¹) Ho' Hn' (diagonal σ *ᵥ r)
        (diagonal σ * R * diagonal σ) =
      (calculateCorrectionRelative Po P F Ho Hn r R).map fun cP =>
        (diagonal w *ᵥ cP.1, diagonal w * cP.2 * diagonal w) := by
  have hsym := symInPlace_diagonal w
  have hT := diagonal_inv_mul hw
  have hS := diagonal_inv_mul hσ
  have tT : (diagonal w)ᵀ = diagonal w := diagonal_transpose w
  have tT' : (diagonal fun i => (w i)⁻¹)ᵀ = diagonal fun i => (w i)⁻¹ := diagonal_transpose _
  have tS : (diagonal σ)ᵀ = diagonal σ := diagonal_transpose σ
  have tS' : (diagonal fun i => (σ i)⁻¹)ᵀ = diagonal fun i => (σ i)⁻¹ := diagonal_transpose _
  generalize (diagonal fun i => (w i)⁻¹) = T' at *
  generalize (diagonal fun i => (σ i)⁻¹) = S' at *
  generalize diagonal w = T at *
  generalize diagonal σ = S at *
  have hT' : T * T' = 1 := mul_eq_one_comm.1 hT
  have hS' : S * S' = 1 := mul_eq_one_comm.1 hS
  have iS : S⁻¹ = S' := inv_eq_left_inv hS
  have eC : clonedCov (T * Po * T) (T * P * T) (T * F * T') =
      fromBlocks T 0 0 T * clonedCov Po P F * fromBlocks T 0 0 T := by
    rw [clonedCov, clonedCov, fromBlocks_multiply, fromBlocks_multiply]
    simp only [Matrix.zero_mul, Matrix.mul_zero, add_zero, zero_add, transpose_mul, tT, tT']
    congr 1
    · simp only [Matrix.mul_assoc]
      rw [← Matrix.mul_assoc T T', hT', Matrix.one_mul]
    · simp only [Matrix.mul_assoc]
      rw [← Matrix.mul_assoc T' T, hT, Matrix.one_mul]
  have eH : clonedH Ho' Hn' * fromBlocks T 0 0 T = S * clonedH Ho Hn := by
    rw [clonedH, clonedH, fromCols_mul_fromBlocks, mul_fromCols]
    simp only [Matrix.mul_zero, add_zero, zero_add, ho, hn]
  have tD : (fromBlocks T 0 0 T)ᵀ = fromBlocks T 0 0 T := by
    rw [fromBlocks_transpose, tT, transpose_zero]
  have eHt : fromBlocks T 0 0 T * (clonedH Ho' Hn')ᵀ = (clonedH Ho Hn)ᵀ * S := by
    have := congrArg transpose eH
    rwa [transpose_mul, transpose_mul, tD, tS] at this
  have eI : relInnovCov (T * Po * T) (T * P * T) (T * F * T') Ho' Hn' (S * R * S) =
      S * relInnovCov Po P F Ho Hn R * S := by
    have e : clonedH Ho' Hn' * (fromBlocks T 0 0 T * clonedCov Po P F * fromBlocks T 0 0 T) *
        (clonedH Ho' Hn')ᵀ = S * (clonedH Ho Hn * clonedCov Po P F * (clonedH Ho Hn)ᵀ) * S := by
      calc _ = (clonedH Ho' Hn' * fromBlocks T 0 0 T) * clonedCov Po P F *
          (fromBlocks T 0 0 T * (clonedH Ho' Hn')ᵀ) := by simp only [Matrix.mul_assoc]
        _ = _ := by rw [eH, eHt]; simp only [Matrix.mul_assoc]
    rw [relInnovCov, relInnovCov, eC, e, Matrix.mul_add, Matrix.add_mul]
  have dS : S.det ≠ 0 := by
    intro h0
    have := congrArg det hS'
    rw [det_mul, h0, zero_mul, det_one] at this
    exact zero_ne_one this
  have edet : (S * relInnovCov Po P F Ho Hn R * S).det = 0 ↔ (relInnovCov Po P F Ho Hn R).det = 0 := by
    rw [det_mul, det_mul]
    simp [dS]
  have einv : (S * relInnovCov Po P F Ho Hn R * S)⁻¹ = S' * (relInnovCov Po P F Ho Hn R)⁻¹ * S' := by
    rw [Matrix.mul_inv_rev, Matrix.mul_inv_rev, iS, Matrix.mul_assoc]
  have etop : ∀ M : Matrix (Fin n ⊕ Fin n) m ℝ,
      (fromBlocks T 0 0 T * M * S').toRows₂ = T * M.toRows₂ * S' := by
    intro M
    conv_lhs => rw [← fromRows_toRows M]
    rw [fromBlocks_mul_fromRows, fromRows_mul, toRows₂_fromRows]
    simp only [Matrix.zero_mul, zero_add]
  have eK : relGain (T * Po * T) (T * P * T) (T * F * T') Ho' Hn' (S * R * S) =
      T * relGain Po P F Ho Hn R * S' := by
    unfold relGain
    simp only [eI, einv, eC]
    rw [← etop]
    congr 1
    calc fromBlocks T 0 0 T * clonedCov Po P F * fromBlocks T 0 0 T * (clonedH Ho' Hn')ᵀ *
          (S' * (relInnovCov Po P F Ho Hn R)⁻¹ * S') =
        fromBlocks T 0 0 T * clonedCov Po P F * (fromBlocks T 0 0 T * (clonedH Ho' Hn')ᵀ) *
          (S' * (relInnovCov Po P F Ho Hn R)⁻¹ * S') := by simp only [Matrix.mul_assoc]
      _ = fromBlocks T 0 0 T * clonedCov Po P F * (clonedH Ho Hn)ᵀ * (S * S') *
          (relInnovCov Po P F Ho Hn R)⁻¹ * S' := by rw [eHt]; simp only [Matrix.mul_assoc]
      _ = _ := by rw [hS', Matrix.mul_one]; simp only [Matrix.mul_assoc]
  unfold calculateCorrectionRelative
  rw [eI, eK]
  by_cases h0 : (relInnovCov Po P F Ho Hn R).det = 0
  · rw [if_pos h0, if_pos (edet.2 h0)]; rfl
  · rw [if_neg h0, if_neg (fun h => h0 (edet.1 h))]
    have eP : ∀ K : Matrix (Fin n) m ℝ, T * P * T - T * K * S' * (S * relInnovCov Po P F Ho Hn R * S) *
        (T * K * S')ᵀ = T * (P - K * relInnovCov Po P F Ho Hn R * Kᵀ) * T := by
      intro K
      rw [Matrix.mul_sub, Matrix.sub_mul]
      congr 1
      simp only [transpose_mul, tT, tS', Matrix.mul_assoc]
      rw [← Matrix.mul_assoc S' S, hS, Matrix.one_mul, ← Matrix.mul_assoc S S', hS', Matrix.one_mul]
    simp only [Option.map_some, eP, hsym]
    congr 2
    rw [mulVec_mulVec, mulVec_mulVec, Matrix.mul_assoc, hS, Matrix.mul_one]

end

/-! ### Transitions -/

/-- A transition in the other unit. -/
noncomputable def unitTrans {n : Nat} (k : ℝ) (F : Matrix (Fin n) (Fin n) ℝ) : Matrix (Fin n) (Fin n) ℝ :=
  diagonal (unitFac k) * F * diagonal fun i => (unitFac k i)⁻¹

theorem unitTrans_one {n : Nat} {k : ℝ} (hk : 0 < k) :
    unitTrans k (1 : Matrix (Fin n) (Fin n) ℝ) = 1 := by
  unfold unitTrans
  rw [Matrix.mul_one]
  exact mul_eq_one_comm.1 (diagonal_inv_mul (unitFac_pos hk))

theorem unitTrans_mul {n : Nat} {k : ℝ} (hk : 0 < k) (F G : Matrix (Fin n) (Fin n) ℝ) :
    unitTrans k F * unitTrans k G = unitTrans k (F * G) := by
  unfold unitTrans
  have h := diagonal_inv_mul (n := Fin n) (unitFac_pos hk)
  generalize (diagonal fun i : Fin n => (unitFac k i)⁻¹) = T' at *
  generalize diagonal (unitFac k : Fin n → ℝ) = T at *
  simp only [Matrix.mul_assoc]
  rw [← Matrix.mul_assoc T' T, h, Matrix.one_mul]

/-- A transition that leaves the scale alone is the same in the other unit. -/
theorem unitTrans_core {n : Nat} {k : ℝ} (hk : 0 < k) {F : Matrix (Fin n) (Fin n) ℝ}
    (hF : ∀ r c, 15 ≤ r.val ∨ 15 ≤ c.val → F r c = (1 : Matrix (Fin n) (Fin n) ℝ) r c) :
    unitTrans k F = F := by
  ext r c
  unfold unitTrans
  rw [mul_diagonal, diagonal_mul]
  by_cases h : 15 ≤ r.val ∨ 15 ≤ c.val
  · rw [hF r c h]
    by_cases e : r = c
    · subst e
      rw [one_apply_eq, mul_one, mul_inv_cancel₀ (unitFac_pos hk r).ne']
    · rw [one_apply_ne e]; ring
  · rw [unitFac_core k r (by omega), unitFac_core k c (by omega), one_mul, inv_one, mul_one]

theorem fd_unit (ho : Ordered (scaleVar :: rest)) {k : ℝ} (hk : 0 < k)
    (np np' : NoiseParams ℝ (coreDef (scaleVar :: rest))) (dt : ℝ) (u : Input (V3 ℝ) (V3 ℝ))
    (x : Vars ℝ (coreDef (scaleVar :: rest))) :
    (predictProcessCovariance np' (mkState (noInit _) ⟨0, 0⟩ 0 0) (mkState (unitVars k x) u dt 0) 0).map
        (fun r => r.1.Fd) =
      (predictProcessCovariance np (mkState (noInit _) ⟨0, 0⟩ 0 0) (mkState x u dt 0) 0).map
        (fun r => unitTrans k r.1.Fd) := by
  by_cases hdt : 0 < dt
  · have hd : ∀ x : Vars ℝ (coreDef (scaleVar :: rest)), (mkState x u dt 0).time -
        (mkState (noInit (coreDef (scaleVar :: rest))) ⟨0, 0⟩ 0 0).time = dt := fun _ => sub_zero dt
    obtain ⟨Q, e, -⟩ := predict_apply (indexingErrors_eq_zero.2 ho) np
      (mkState (noInit _) ⟨0, 0⟩ 0 0) (mkState x u dt 0) 0 (by rw [hd]; linarith)
    obtain ⟨Q', e', -⟩ := predict_apply (indexingErrors_eq_zero.2 ho) np'
      (mkState (noInit _) ⟨0, 0⟩ 0 0) (mkState (unitVars k x) u dt 0) 0 (by rw [hd]; linarith)
    rw [hd] at e e'
    rw [e, e', Option.map_some, Option.map_some]
    simp only [mkState, q_unitVars, bw_unitVars, ba_unitVars]
    refine congrArg some (unitTrans_core hk fun r c => ?_).symm
    exact setFd_outside (fun b => 3 * b.idx.val) (fun _ => rfl)
      (1 : ErrMat ℝ (coreDef (scaleVar :: rest))) (q x).toRot (u.w - b_w x) (u.a - b_a x) dt r c
  · have h : ∀ (np : NoiseParams ℝ (coreDef (scaleVar :: rest))) x,
        predictProcessCovariance np (mkState (noInit _) ⟨0, 0⟩ 0 0) (mkState x u dt 0) 0 =
        some (mkState (noInit _) ⟨0, 0⟩ 0 0, mkState x u dt 0, 0) := by
      intro np x
      rw [predictProcessCovariance, if_pos]
      change dt - 0 ≤ 0
      linarith
    rw [h, h, Option.map_some, Option.map_some]
    exact congrArg some (unitTrans_one hk).symm

/-! ### Measurements -/

/-- The residual of a relative pose in the other unit. -/
theorem relResidual_unit (k : ℝ) (vo vn : PoseView ℝ) (zo zn : PoseMeas ℝ) :
    PoseView.relResidual { vo with L := k * vo.L } { vn with L := k * vn.L }
        ((zo.unit k).z_p, (zo.unit k).z_q) ((zn.unit k).z_p, (zn.unit k).z_q) =
      (PoseView.relResidual vo vn (zo.z_p, zo.z_q) (zn.z_p, zn.z_q)).map (diagonal (poseFac k) *ᵥ ·) := by
  have ep : ∀ v : PoseView ℝ, PoseView.predPos { v with L := k * v.L } = k • v.predPos := by
    intro v
    unfold PoseView.predPos
    exact mul_smul _ _ _
  unfold PoseView.relResidual
  simp only [ep]
  change (attResidual ((vn.predAtt.conj.mul vo.predAtt).conj.mul (zn.z_q.conj.mul zo.z_q))).bind _ =
    ((attResidual ((vn.predAtt.conj.mul vo.predAtt).conj.mul (zn.z_q.conj.mul zo.z_q))).bind _).map _
  cases attResidual ((vn.predAtt.conj.mul vo.predAtt).conj.mul (zn.z_q.conj.mul zo.z_q)) with
  | none => rfl
  | some a =>
    simp only [Option.bind_some, Option.bind_eq_bind]
    cases yawResidual vn.qwv with
    | none => rfl
    | some y =>
      simp only [Option.bind_some, Option.map_some, Option.some.injEq]
      funext i
      rw [mulVec_diagonal]
      simp only [PoseMeas.unit]
      fin_cases i <;> simp [rows7, poseFac, mul_sub]

/-- The relative update in the other unit. -/
theorem relPoseUpdate_unit (ho : Ordered (scaleVar :: rest))
    (hp : PlainQuats (coreDef (scaleVar :: rest))) {k : ℝ} (hk : 0 < k) (ρ : ℝ) (fb : Bool)
    (tr : Tracker ℝ) (ix : PoseIdx) (hL : ix.L = 5) (fixed : Nat) (hf : fixed.testBit ix.pwv = true)
    (zo z : PoseMeas ℝ) (xo x : Values (coreDef (scaleVar :: rest)))
    (Po F P : ErrMat ℝ (coreDef (scaleVar :: rest))) :
    relPoseUpdate (scaleCalcWith (k * ρ) fb) tr ix fixed (zo.unit k) (z.unit k) (unitVals k xo)
        (unitCov k Po) (unitTrans k F) (unitVals k x) (unitCov k P) =
      (relPoseUpdate (scaleCalcWith ρ fb) tr ix fixed zo z xo Po F x P).map
        fun u => ⟨u.tr, unitVals k u.x, unitCov k u.P, u.applied, u.fuzzy⟩ := by
  have h1 := poseH_unit ho k ix hL fixed hf (toVars xo)
  have h2 := poseH_unit ho k ix hL fixed hf (toVars x)
  unfold relPoseUpdate
  simp only [Option.bind_eq_bind, toVars_unitVals, poseView_unit k ix hL]
  generalize poseH ix fixed (toVars xo) = a at h1 ⊢
  generalize poseH ix fixed (unitVars k (toVars xo)) = a' at h1 ⊢
  generalize poseH ix fixed (toVars x) = b at h2 ⊢
  generalize poseH ix fixed (unitVars k (toVars x)) = b' at h2 ⊢
  cases h1 with
  | none => rfl
  | some h1 =>
  cases h2 with
  | none => rfl
  | some h2 =>
  rename_i Ho Ho' Hn Hn'
  simp only [Option.bind_some]
  cases poseView ix (toVars xo) with
  | none => rfl
  | some vo =>
  cases poseView ix (toVars x) with
  | none => rfl
  | some vn =>
  simp only [Option.map_some, Option.bind_some]
  rw [relResidual_unit]
  cases PoseView.relResidual vo vn (zo.z_p, zo.z_q) (z.z_p, z.z_q) with
  | none => rfl
  | some r =>
  simp only [Option.map_some, Option.bind_some]
  have hR : (z.unit k).R_ = diagonal (poseFac k) * z.R_ * diagonal (poseFac k) := by
    ext i j
    rw [mul_diagonal, diagonal_mul]
    rfl
  have hneg : -Ho' * diagonal (unitFac k) = diagonal (poseFac k) * -Ho := by
    rw [Matrix.neg_mul, Matrix.mul_neg, h1.mul]
  rw [hR, unitCov_eq, unitCov_eq, unitTrans,
    calculateCorrectionRelative_units (unitFac_pos hk) (poseFac_pos hk) Po P F hneg h2.mul r z.R_]
  cases calculateCorrectionRelative Po P F (-Ho) Hn r z.R_ with
  | none => rfl
  | some cP =>
  simp only [Option.map_some, Option.bind_some]
  have ec : diagonal (unitFac k) *ᵥ cP.1 = fun j => unitFac k j * cP.1 j := by
    funext j
    exact mulVec_diagonal _ _ _
  rw [ec, applyCorrection_unit' ho hp hk ρ fb tr]
  cases applyCorrection (scaleCalcWith ρ fb) tr (toVars x) cP.1 with
  | none => rfl
  | some w => simp only [Option.map_some, Option.bind_some, unitVals_values, unitCov_eq]

end MSF
