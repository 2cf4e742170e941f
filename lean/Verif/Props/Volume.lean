import Verif.Lemmas.Volume

/-!
# C124: prediction makes nothing more certain

The volume of the region in which the true state is expected is proportional to the root of the determinant of the
covariance.
-/

namespace MSF
open Matrix EKFState

section
variable {aux : List VarDesc}

/-- What a prediction does to the covariance. -/
theorem predict_cov {np : NoiseParams ℝ (coreDef aux)} {old new old' new' : EKFState ℝ (coreDef aux)} {t t' : ℝ}
    (hdt : old.time < new.time) (h : predictProcessCovariance np old new t = some (old', new', t')) :
    new'.P = old'.Fd * old.P * old'.Fdᵀ + old'.Qd ∧
      ∀ P, ∃ o n, predictProcessCovariance np { old with P := P } new t = some (o, n, t') ∧
        n.P = old'.Fd * P * old'.Fdᵀ + old'.Qd := by
  have hdt' : ¬ new.time - old.time ≤ 0 := by linarith
  simp only [predictProcessCovariance, if_neg hdt', Option.bind_eq_bind, Option.bind_eq_some_iff] at h
  obtain ⟨s, hs, Q, hQ, Q', hQ', h⟩ := h
  cases h
  refine ⟨rfl, fun P => ?_⟩
  simp only [predictProcessCovariance, if_neg hdt', hs, hQ, hQ', Option.bind_eq_bind, Option.bind_some,
    Option.some.injEq, Prod.mk.injEq]
  exact ⟨_, _, ⟨rfl, rfl, trivial⟩, rfl⟩

/-- **C124, transition.**  The transition of the errors that the filter computes never loses volume, whatever the
state and the readings: its determinant is `1 + |ω Δt|⁴ / 4`, with the bias-free angular rate `ω`. -/
theorem C124_transition (ho : Ordered aux) (np : NoiseParams ℝ (coreDef aux))
    (old new old' new' : EKFState ℝ (coreDef aux)) (t t' : ℝ) (hl : Live old) (hdt : old.time < new.time)
    (h : predictProcessCovariance np old new t = some (old', new', t')) :
    old'.Fd.det = 1 + (((new.w_m - b_w new.vars) 0 ^ 2 + (new.w_m - b_w new.vars) 1 ^ 2 +
      (new.w_m - b_w new.vars) 2 ^ 2) * (new.time - old.time) ^ 2) ^ 2 / 4 := by
  obtain ⟨Qd, e, -⟩ := predict_apply (indexingErrors_eq_zero.2 ho) np old new t (by linarith)
  rw [e, Option.some.injEq, Prod.mk.injEq] at h
  have hF := congrArg EKFState.Fd h.1
  simp only at hF
  rw [← hF, (hl.clean ho).1, setFd_det]

/-- **C124, any noise.**  If the process noise that the filter computed is a covariance, the volume of the uncertainty
does not shrink in a prediction, and if every combination of states was uncertain before, it still is. -/
theorem C124_noise (ho : Ordered aux) (np : NoiseParams ℝ (coreDef aux))
    (old new old' new' : EKFState ℝ (coreDef aux)) (t t' : ℝ) (hl : Live old) (hdt : old.time < new.time)
    (hP : old.P.PosSemidef) (h : predictProcessCovariance np old new t = some (old', new', t'))
    (hQ : old'.Qd.PosSemidef) : old.P.det ≤ new'.P.det ∧ (old.P.PosDef → new'.P.PosDef) := by
  have hd := C124_transition ho np old new old' new' t t' hl hdt h
  have h0 : ∀ x : ℝ, 1 ≤ 1 + x ^ 2 / 4 := fun x => by nlinarith [sq_nonneg x]
  have h1 : 1 ≤ old'.Fd.det := hd ▸ h0 _
  rw [(predict_cov hdt h).1]
  exact volume_step h1 hP hQ

/-- **C124, partial.**  Without gyro noise, or at rest, and with bias noise that is not too large, the volume of the
uncertainty does not shrink in a prediction, and no combination of states becomes certain.
Full claim: for all noises; false by `C124_violated`. -/
theorem C124_volume_partial (ho : Ordered aux)
    (np : NoiseParams ℝ (coreDef aux)) (old new old' new' : EKFState ℝ (coreDef aux)) (t t' : ℝ)
    (hl : Live old) (hdt : old.time < new.time) (hP : old.P.PosSemidef)
    (hq : (q new.vars).normSq = 1)
    (haux : ∀ dt i, ((coreDef aux).get i).isAux → (np.qAux new.vars dt i).Q.PosSemidef)
    (hn : np.accBias ^ 2 * (new.time - old.time) ^ 2 ≤ 9 * np.acc ^ 2)
    (hcase : (np.gyr = 0 ∧ np.gyrBias = 0) ∨ (new.w_m = b_w new.vars ∧ new.a_m = b_a new.vars))
    (h : predictProcessCovariance np old new t = some (old', new', t')) :
    old.P.det ≤ new'.P.det ∧ (old.P.PosDef → new'.P.PosDef) := by
  obtain ⟨o, n, e, hn'⟩ := (predict_cov hdt h).2 0
  rw [Matrix.mul_zero, Matrix.zero_mul, zero_add] at hn'
  -- the covariance of the newer state does not matter
  have hp : ∀ P', predictProcessCovariance np { old with P := 0 } { new with P := P' } t = some (o, n, t') := by
    intro P'
    rw [← e]
    have hdt' : ¬ new.time - old.time ≤ 0 := by linarith
    simp only [predictProcessCovariance, if_neg hdt']
  have hQ := C29_prediction_psd_partial ho np { old with P := 0 } { new with P := 0 } t (.changed hl rfl rfl)
    PosSemidef.zero PosSemidef.zero hq haux hn hcase (hp 0)
  rw [hn'] at hQ
  exact C124_noise ho np old new old' new' t t' hl hdt hP h hQ

end

/-! ### The violation -/

/-- Variances of position, velocity and accelerometer bias; the others are one. -/
noncomputable def slimCov : ErrMat ℝ (coreDef []) :=
  Matrix.diagonal fun i => if i.val < 3 then 1 / 32 else if i.val < 6 then 1 / 48 else if 12 ≤ i.val then 1 / 27 else 1

theorem slimCov_posDef : slimCov.PosDef := PosDef.diagonal fun i => by
  split
  · norm_num
  split
  · norm_num
  split <;> norm_num

/-- Entries of a vector with three components. -/
def slimVec (a b c : ℝ) : Fin (total errLen (coreDef [])) → ℝ :=
  fun i => if i.val = 0 then a else if i.val = 3 then b else if i.val = 12 then c else 0

theorem mulVec_slim (M : ErrMat ℝ (coreDef [])) (a b c : ℝ) (r : Fin (total errLen (coreDef []))) :
    (M *ᵥ slimVec a b c) r = M r ⟨0, by decide⟩ * a + M r ⟨3, by decide⟩ * b + M r ⟨12, by decide⟩ * c := by
  change ∑ j : Fin 15, M r j * slimVec a b c j = _
  simp only [Fin.sum_univ_succ]
  simp [slimVec]
  rw [add_assoc]
  rfl

theorem fin5_cases : ∀ k : Fin 5, k = 0 ∨ k = 1 ∨ k = 2 ∨ k = 3 ∨ k = 4 := by decide

theorem fin3_cases : ∀ k : Fin 3, k = 0 ∨ k = 1 ∨ k = 2 := by decide

theorem entry_of_block {M : ErrMat ℝ (coreDef [])} (b b' : Fin 5) (i j : Fin 3) :
    M ⟨3 * b + i, by have := core_le_total []; omega⟩ ⟨3 * b' + j, by have := core_le_total []; omega⟩ =
      coreBlock M b b' i j := rfl

/-- A vector is `slimVec` if it is so in each block. -/
theorem slim_ext {v : Fin (total errLen (coreDef [])) → ℝ} {a b c : ℝ}
    (h : ∀ (k : Fin 5) (i : Fin 3), v ⟨3 * k + i, by have := core_le_total []; omega⟩ =
      if i = 0 then (if k = 0 then a else if k = 1 then b else if k = 4 then c else 0) else 0) :
    v = slimVec a b c := by
  funext r
  have hr : r.val < 15 := r.2
  have := h ⟨r.val / 3, by omega⟩ ⟨r.val % 3, by omega⟩
  have e : (⟨3 * (r.val / 3) + r.val % 3, by omega⟩ : Fin (total errLen (coreDef []))) = r :=
    Fin.ext (Nat.div_add_mod r.val 3)
  rw [e] at this
  rw [this, slimVec]
  obtain ⟨r, hr'⟩ := r
  interval_cases r <;> simp

theorem slim_F : setFd (fun b => 3 * b.idx.val) (1 : ErrMat ℝ (coreDef [])) 1 0 0 1 *ᵥ slimVec (1 / 2) (1 / 2) (-1 / 3) =
    slimVec (7 / 6) (5 / 6) (-1 / 3) := by
  refine slim_ext fun k i => ?_
  rw [mulVec_slim]
  have e0 := entry_of_block (M := setFd (fun b => 3 * b.idx.val) (1 : ErrMat ℝ (coreDef [])) 1 0 0 1) k 0 i 0
  have e1 := entry_of_block (M := setFd (fun b => 3 * b.idx.val) (1 : ErrMat ℝ (coreDef [])) 1 0 0 1) k 1 i 0
  have e4 := entry_of_block (M := setFd (fun b => 3 * b.idx.val) (1 : ErrMat ℝ (coreDef [])) 1 0 0 1) k 4 i 0
  rw [coreBlock_setFd _ (fun _ => rfl), coreBlock_one_ite] at e0 e1 e4
  refine (congrArg₂ (· + ·) (congrArg₂ (· + ·) (congrArg (· * (1 / 2 : ℝ)) e0) (congrArg (· * (1 / 2 : ℝ)) e1))
    (congrArg (· * (-1 / 3 : ℝ)) e4)).trans ?_
  have hs : skew (0 : V3 ℝ) = 0 := by ext i j; fin_cases i <;> fin_cases j <;> simp [skew]
  rcases fin5_cases k with rfl | rfl | rfl | rfl | rfl <;> rcases fin3_cases i with rfl | rfl | rfl <;>
    simp [Matrix.one_apply, fdBlocks, hs] <;> norm_num

theorem slim_Ft : (setFd (fun b => 3 * b.idx.val) (1 : ErrMat ℝ (coreDef [])) 1 0 0 1)ᵀ *ᵥ slimVec 16 8 7 =
    slimVec 16 24 (-9) := by
  refine slim_ext fun k i => ?_
  rw [mulVec_slim]
  have e0 := entry_of_block (M := setFd (fun b => 3 * b.idx.val) (1 : ErrMat ℝ (coreDef [])) 1 0 0 1) 0 k 0 i
  have e1 := entry_of_block (M := setFd (fun b => 3 * b.idx.val) (1 : ErrMat ℝ (coreDef [])) 1 0 0 1) 1 k 0 i
  have e4 := entry_of_block (M := setFd (fun b => 3 * b.idx.val) (1 : ErrMat ℝ (coreDef [])) 1 0 0 1) 4 k 0 i
  rw [coreBlock_setFd _ (fun _ => rfl), coreBlock_one_ite] at e0 e1 e4
  refine (congrArg₂ (· + ·) (congrArg₂ (· + ·) (congrArg (· * (16 : ℝ)) e0) (congrArg (· * (8 : ℝ)) e1))
    (congrArg (· * (7 : ℝ)) e4)).trans ?_
  have hs : skew (0 : V3 ℝ) = 0 := by ext i j; fin_cases i <;> fin_cases j <;> simp [skew]
  rcases fin5_cases k with rfl | rfl | rfl | rfl | rfl <;> rcases fin3_cases i with rfl | rfl | rfl <;>
    simp [Matrix.one_apply, fdBlocks, hs] <;> norm_num

theorem slim_D : slimCov *ᵥ slimVec 16 24 (-9) = slimVec (1 / 2) (1 / 2) (-1 / 3) := by
  refine slim_ext fun k i => ?_
  rw [slimCov, mulVec_diagonal, slimVec]
  rcases fin5_cases k with rfl | rfl | rfl | rfl | rfl <;> rcases fin3_cases i with rfl | rfl | rfl <;>
    simp <;> norm_num

theorem slim_Q {Q : ErrMat ℝ (coreDef [])} (h : ∀ b b', coreBlock Q b b' = simpleQ 1 0 (fun _ => 1) 0 0 1 b b') :
    Q *ᵥ slimVec 16 8 7 = slimVec (-7 / 6) (-5 / 6) (1 / 3) := by
  refine slim_ext fun k i => ?_
  rw [mulVec_slim]
  have e0 := entry_of_block (M := Q) k 0 i 0
  have e1 := entry_of_block (M := Q) k 1 i 0
  have e4 := entry_of_block (M := Q) k 4 i 0
  rw [h] at e0 e1 e4
  refine (congrArg₂ (· + ·) (congrArg₂ (· + ·) (congrArg (· * (16 : ℝ)) e0) (congrArg (· * (8 : ℝ)) e1))
    (congrArg (· * (7 : ℝ)) e4)).trans ?_
  rcases fin5_cases k with rfl | rfl | rfl | rfl | rfl <;> rcases fin3_cases i with rfl | rfl | rfl <;>
    simp only [simpleQ, of_apply, cons_val, cons_val', Matrix.smul_apply, Matrix.neg_apply, Matrix.add_apply, diagonal_apply,
      Matrix.one_mul, Matrix.mul_one, transpose_one, Matrix.zero_apply, Fin.isValue, Fin.reduceEq, if_true, if_false,
      ite_true, reduceIte, Pi.zero_apply] <;> norm_num

/-- **C124 is violated by the noise of the accelerometer bias.**  A vehicle hovers level with a diagonal covariance in
which everything is uncertain; the only noise is that of the accelerometer bias, which can only add uncertainty.
After one second some combination of position, velocity and bias has the variance zero: the filter believes that it
has learnt it exactly, though no measurement arrived. -/
theorem C124_violated : ∃ (np : NoiseParams ℝ (coreDef [])) (old new old' new' : EKFState ℝ (coreDef [])) (t' : ℝ),
    np.gyr = 0 ∧ np.gyrBias = 0 ∧ Live old ∧ old.time < new.time ∧ old.P.PosDef ∧ (q new.vars).normSq = 1 ∧
      new.w_m = b_w new.vars ∧ new.a_m = b_a new.vars ∧
      predictProcessCovariance np old new 0 = some (old', new', t') ∧
      (∃ u ≠ 0, new'.P *ᵥ u = 0) ∧ new'.P.det = 0 ∧ 0 < old.P.det := by
  have hlt : (0 : ℝ) < 1 := one_pos
  obtain ⟨Qd, e, -⟩ := predict_apply (indexingErrors_eq_zero.2 ordered_core) (plainNoise 0 1 0 0)
    { blankState [] 0 0 0 with P := slimCov } (blankState [] 1 0 0) 0 (by simp [blankState])
  have hl : Live ({ blankState [] 0 0 0 with P := slimCov } : EKFState ℝ (coreDef [])) :=
    .changed (live_blank [] 0 0 0) rfl rfl
  have hQ := core_noise ordered_core (plainNoise 0 1 0 0) { blankState [] 0 0 0 with P := slimCov }
    (blankState [] 1 0 0) 0 hl hlt e
  have hu : slimVec 16 8 7 ≠ 0 := fun h => by
    have := congrFun h ⟨0, by decide⟩
    norm_num [slimVec] at this
  have e1 : b_w (blankState [] 1 0 0).vars = 0 := rfl
  have e2 : b_a (blankState [] 1 0 0).vars = 0 := rfl
  have e3 : q (blankState [] 1 0 0).vars = Quat.one := rfl
  have e4 : (blankState [] 1 0 0).time - (blankState [] 0 0 0).time = 1 := sub_zero 1
  have e5 : (blankState [] 1 0 0).w_m = 0 := rfl
  have e6 : (blankState [] 1 0 0).a_m = 0 := rfl
  have e7 : (blankState [] 0 0 0).Fd = 1 := rfl
  have hr : (Quat.one : Quat ℝ).toRot = 1 := by
    ext i j
    fin_cases i <;> fin_cases j <;> simp [Quat.toRot, Quat.one]
  have hh : hrot (Quat.one : Quat ℝ) = 1 := by
    ext i j
    fin_cases i <;> fin_cases j <;> simp [hrot, Quat.one]
  have hQ' : ∀ b b', coreBlock Qd b b' = simpleQ 1 0 (fun _ => 1) 0 0 1 b b' := by
    intro b b'
    have := hQ b b'
    simp only [e1, e2, e3, e4, e5, e6, sub_zero] at this
    rw [← hh, ← qBlock_acc Quat.one 0 0]
    exact this
  have hz : (setFd (fun b => 3 * b.idx.val) (1 : ErrMat ℝ (coreDef [])) 1 0 0 1 * slimCov *
      (setFd (fun b => 3 * b.idx.val) (1 : ErrMat ℝ (coreDef [])) 1 0 0 1)ᵀ + Qd) *ᵥ slimVec 16 8 7 = 0 := by
    rw [add_mulVec, ← mulVec_mulVec, ← mulVec_mulVec, slim_Ft, slim_D, slim_F, slim_Q hQ']
    funext r
    simp only [slimVec, Pi.add_apply, Pi.zero_apply]
    split
    · norm_num
    split
    · norm_num
    split <;> norm_num
  simp only [e1, e2, e3, e4, e5, e6, e7, hr, sub_zero] at e
  exact ⟨plainNoise 0 1 0 0, _, blankState [] 1 0 0, _, _, _, rfl, rfl, hl, hlt, slimCov_posDef, Quat.normSq_one, rfl, rfl, e,
    ⟨_, hu, hz⟩, exists_mulVec_eq_zero_iff.1 ⟨_, hu, hz⟩, slimCov_posDef.det_pos⟩

/-! ### Examples -/

/-- Hypotheses of `C124_transition`, in flight: the volume grows by a quarter when the vehicle turns by a radian
between two readings. -/
example : ∃ (old new old' new' : EKFState ℝ (coreDef [])) (t' : ℝ), Live old ∧ old.time < new.time ∧
    predictProcessCovariance (plainNoise 1 1 1 1) old new 0 = some (old', new', t') ∧ old'.Fd.det = 5 / 4 := by
  have hlt : (blankState [] 0 0 0).time < (blankState [] 1 ![0, 0, 981 / 100] ![1, 0, 0]).time := one_pos
  obtain ⟨Qd, e, -⟩ := predict_apply (indexingErrors_eq_zero.2 ordered_core) (plainNoise 1 1 1 1)
    (blankState [] 0 0 0) (blankState [] 1 ![0, 0, 981 / 100] ![1, 0, 0]) 0 (by simp [blankState])
  have hd := C124_transition ordered_core _ _ _ _ _ _ _ (live_blank [] 0 0 0) hlt e
  refine ⟨_, _, _, _, _, live_blank [] 0 0 0, hlt, e, hd.trans ?_⟩
  have e1 : b_w (blankState [] 1 ![0, 0, 981 / 100] ![1, 0, 0]).vars = 0 := rfl
  have e5 : (blankState [] 1 ![0, 0, 981 / 100] ![1, 0, 0]).w_m = ![1, 0, 0] := rfl
  have e4 : (blankState [] 1 ![0, 0, 981 / 100] ![1, 0, 0]).time - (blankState [] 0 0 0).time = 1 := sub_zero 1
  rw [e1, e4, e5]
  simp only [Pi.sub_apply, Pi.zero_apply, cons_val]
  norm_num

/-- Hypotheses of `C124_volume_partial` and `C124_noise`: the setting of the violation, with accelerometer noise as
large as that of the bias. -/
example : ∃ (old new old' new' : EKFState ℝ (coreDef [])) (t' : ℝ), Live old ∧ old.time < new.time ∧
    predictProcessCovariance (plainNoise 1 1 0 0) old new 0 = some (old', new', t') ∧ old'.Qd.PosSemidef ∧
      old.P.PosDef ∧ new'.P.PosDef ∧ old.P.det ≤ new'.P.det := by
  have hlt : (0 : ℝ) < 1 := one_pos
  obtain ⟨Qd, e, -⟩ := predict_apply (indexingErrors_eq_zero.2 ordered_core) (plainNoise 1 1 0 0)
    { blankState [] 0 0 0 with P := slimCov } (blankState [] 1 0 0) 0 (by simp [blankState])
  obtain ⟨Q0, e0, -⟩ := predict_apply (indexingErrors_eq_zero.2 ordered_core) (plainNoise 1 1 0 0)
    (blankState [] 0 0 0) (blankState [] 1 0 0) 0 (by simp [blankState])
  have hl : Live ({ blankState [] 0 0 0 with P := slimCov } : EKFState ℝ (coreDef [])) :=
    .changed (live_blank [] 0 0 0) rfl rfl
  have hno : ∀ (dt : ℝ) i, ((coreDef []).get i).isAux → ((plainNoise 1 1 0 0).qAux (blankState [] 1 0 0).vars dt i).Q.PosSemidef :=
    fun _ _ _ => PosSemidef.zero
  have hn : (plainNoise 1 1 0 0).accBias ^ 2 * ((1 : ℝ) - 0) ^ 2 ≤ 9 * (plainNoise 1 1 0 0).acc ^ 2 := by
    norm_num [plainNoise]
  have hv := C124_volume_partial ordered_core _ _ (blankState [] 1 0 0) _ _ 0 _ hl hlt slimCov_posDef.posSemidef Quat.normSq_one hno hn
    (.inl ⟨rfl, rfl⟩) e
  have h0 := C29_prediction_psd_partial ordered_core _ _ (blankState [] 1 0 0) 0 (live_blank [] 0 0 0) PosSemidef.zero PosSemidef.zero
    Quat.normSq_one hno hn (.inl ⟨rfl, rfl⟩) e0
  obtain ⟨o, n, e', hn'⟩ := (predict_cov hlt e).2 0
  have hQ : n.P = Qd := by rw [hn', Matrix.mul_zero, Matrix.zero_mul, zero_add]
  have hs : n = _ := (Prod.mk.inj (Prod.mk.inj (Option.some.inj (e'.symm.trans e0))).2).1
  rw [← hs, hQ] at h0
  exact ⟨_, blankState [] 1 0 0, _, _, _, hl, hlt, e, h0, slimCov_posDef, hv.2 slimCov_posDef, hv.1⟩

end MSF
