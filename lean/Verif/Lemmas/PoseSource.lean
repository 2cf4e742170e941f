import Verif.Model.PoseSource
import Verif.Lemmas.Agree
import Verif.Lemmas.Jacobian
import Verif.Lemmas.Yaw
import Verif.Props.PoseSensor
import Verif.Props.YawRow
import Verif.Props.Handlers
import Verif.Props.Layout

/-!
# Helpers for C123
-/

namespace MSF

open Matrix

theorem PoseSource.run_append (es es' : List (PoseEvent ℝ)) : ∀ h : PoseSource ℝ,
    h.run (es ++ es') = (((h.run es).1.run es').1, (h.run es).2 ++ ((h.run es).1.run es').2) := by
  induction es with
  | nil => intro h; simp [PoseSource.run]
  | cons e es ih =>
    intro h
    simp only [PoseSource.run, List.cons_append, ih, List.append_assoc]

theorem getLast?_map_getD {α β : Type} (l : List α) (f : α → β) (a : α) (d : β) :
    (((l ++ [a]).getLast?).map f).getD d = f a := by simp

/-! ### Updates without noise -/

section
variable {k : Nat} {m : Type} [Fintype m] [DecidableEq m]

/-- What a direction without noise knows after the update. -/
theorem joseph_exact {P : Matrix (Fin k) (Fin k) ℝ} (hP : Pᵀ = P) (H : Matrix m (Fin k) ℝ) {R : Matrix m m ℝ}
    (hR : Rᵀ = R) (hS : IsUnit (innovCov P H R).det) {v : m → ℝ} (hv : R *ᵥ v = 0) :
    (H * josephUpdate P H R (gain P H R) * Hᵀ) *ᵥ v = 0 := by
  have hs : ((1 - gain P H R * H) * P * (1 - gain P H R * H)ᵀ + gain P H R * R * (gain P H R)ᵀ)ᵀ =
      (1 - gain P H R * H) * P * (1 - gain P H R * H)ᵀ + gain P H R * R * (gain P H R)ᵀ := by
    simp only [transpose_add, transpose_mul, transpose_transpose, hP, hR, Matrix.mul_assoc]
  have hS' : IsUnit (H * P * Hᵀ + R).det := hS
  have e : josephUpdate P H R (gain P H R) = (1 - gain P H R * H) * P := by
    unfold josephUpdate
    rw [symInPlace_of_symm _ hs]
    exact joseph_optimal P hP H R hS' _ rfl
  rw [e]
  have hg : gain P H R = P * Hᵀ * (H * P * Hᵀ + R)⁻¹ := rfl
  rw [hg]
  set S := H * P * Hᵀ + R with hSd
  have hT : H * P * Hᵀ = S - R := by rw [hSd]; abel
  have hcalc : H * ((1 - P * Hᵀ * S⁻¹ * H) * P) * Hᵀ = R - R * S⁻¹ * R := by
    have h1 : H * ((1 - P * Hᵀ * S⁻¹ * H) * P) * Hᵀ = H * P * Hᵀ - (H * P * Hᵀ) * S⁻¹ * (H * P * Hᵀ) := by
      simp only [Matrix.sub_mul, Matrix.mul_sub, Matrix.one_mul, Matrix.mul_assoc]
    rw [h1, hT]
    simp only [Matrix.sub_mul, Matrix.mul_sub]
    rw [Matrix.mul_nonsing_inv _ hS', Matrix.one_mul, Matrix.one_mul, Matrix.mul_assoc R, Matrix.nonsing_inv_mul _ hS',
      Matrix.mul_one]
    abel
  rw [hcalc, sub_mulVec, hv, ← mulVec_mulVec, hv, mulVec_zero, sub_zero]

end

/-- If the check gets a state equal to the buffered one, it returns that state. -/
theorem fuzzyCheck'_same {aux : List VarDesc} {t t' : Tracker ℝ} {a s' : Vars ℝ (coreDef aux)} {thres : ℝ} {fz : Bool}
    (h : fuzzyCheck' t a a thres = some (t', s', fz)) : s' = a := by
  rcases fuzzyCheck'_vars t t' a a s' thres fz h with h | h
  · exact h
  · rw [h]
    funext i
    unfold copyNonPropagationStates
    split <;> simp

/-! ### The pose Jacobian has full rank on position and attitude -/

/-- An error of position and attitude of the vehicle only. -/
def coreError {aux : List VarDesc} (u w : V3 ℝ) : Fin (total errLen (coreDef aux)) → ℝ := fun k =>
  if h : k.val < 3 then u ⟨k, h⟩ else if h : 6 ≤ k.val ∧ k.val < 9 then w ⟨k - 6, by omega⟩ else 0

theorem coreError_zeroAt {aux : List VarDesc} (hi : indexingErrors (coreDef aux) = 0) (u w : V3 ℝ) (i : Nat)
    (h0 : i ≠ 0) (h2 : i ≠ 2) : ZeroAt (coreError (aux := aux) u w) i := by
  intro j hj k hk
  have l : 3 ≤ (coreDef aux).length := by simp [coreDef, coreDescs]
  unfold coreError
  split
  · exact absurd (Owns.disjoint hi (i := j) (j := ⟨0, by omega⟩) (fun e => h0 (by rw [← hj, e])) hk
      ((owns_iff hi _ _).2 ⟨Nat.zero_le _, by assumption⟩)) id
  · split
    · rename_i h
      exact absurd (Owns.disjoint hi (i := j) (j := ⟨2, by omega⟩) (fun e => h2 (by rw [← hj, e])) hk
        ((owns_iff hi _ _).2 ⟨h.1, h.2⟩)) id
    · rfl

theorem coreError_p {aux : List VarDesc} (u w : V3 ℝ) : segOf (coreError (aux := aux) u w) 0 3 = u := by
  have l : 0 < (coreDef aux).length := by simp [coreDef, coreDescs]
  have ho : offset errLen (coreDef aux) 0 = 0 := rfl
  have he : errLen (coreDef aux)[0] = 3 := rfl
  have ht := offset_add_len_le (D := coreDef aux) errLen 0 l
  rw [ho, he] at ht
  funext j
  have hj := j.2
  have hlt : 0 + j.val < total errLen (coreDef aux) := by omega
  simp only [segOf, segD, ho]
  rw [dif_pos hlt]
  simp only [coreError, Nat.zero_add]
  rw [dif_pos hj]

theorem coreError_q {aux : List VarDesc} (u w : V3 ℝ) : segOf (coreError (aux := aux) u w) 2 3 = w := by
  have l : 2 < (coreDef aux).length := by simp [coreDef, coreDescs]
  have ho : offset errLen (coreDef aux) 2 = 6 := rfl
  have he : errLen (coreDef aux)[2] = 3 := rfl
  have ht := offset_add_len_le (D := coreDef aux) errLen 2 l
  rw [ho, he] at ht
  funext j
  have hj := j.2
  have hlt : 6 + j.val < total errLen (coreDef aux) := by omega
  simp only [segOf, segD, ho]
  rw [dif_pos hlt]
  simp only [coreError]
  rw [dif_neg (by omega), dif_pos (by omega)]
  congr 1
  exact Fin.ext (by simp)

theorem poseH_coreError {aux : List VarDesc} {ix : PoseIdx} {fixed : Nat} {s : Vars ℝ (coreDef aux)} {v : PoseView ℝ}
    (hn : ∀ i (hi : i < (coreDef aux).length), (coreDef aux)[i].name = i)
    (hv : poseView ix s = some v) (hd : ix.Distinct) : ∃ H, poseH ix fixed s = some H ∧ ∀ u w : V3 ℝ,
      H *ᵥ coreError u w = pad 0 ((v.L • v.qwv.toRot) *ᵥ u) +
        pad 0 ((v.L • (-v.qwv.toRot * v.q.toRot * skew v.pic)) *ᵥ w) + pad 3 (v.qic.conj.toRot *ᵥ w) := by
  obtain ⟨H, hH, hm⟩ := poseH_mulVec ix fixed s v hn hv hd
  refine ⟨H, hH, fun u w => ?_⟩
  have hi := indexingErrors_eq_zero.2 hn
  obtain ⟨r1, r2, rL, rqic, rpic, rqwv, rpwv⟩ := poseView_reads hv
  obtain ⟨lL, -⟩ := getVec_kind s rL
  obtain ⟨lqic, -⟩ := getQuat_kind s rqic
  obtain ⟨lpic, -⟩ := getVec_kind s rpic
  obtain ⟨lqwv, -⟩ := getQuat_kind s rqwv
  obtain ⟨lpwv, -⟩ := getVec_kind s rpwv
  have hdd := hd
  simp only [PoseIdx.Distinct, List.nodup_cons, List.mem_cons, List.not_mem_nil, or_false, not_or,
    List.nodup_nil, and_true, not_false_eq_true] at hdd
  have z := coreError_zeroAt hi u w
  have zL := (z ix.L (by omega) (by omega)).segOf hi lL 1 (errLen_vec rL lL)
  have zqic := (z ix.qic (by omega) (by omega)).segOf hi lqic 3 (errLen_quat rqic lqic)
  have zpic := (z ix.pic (by omega) (by omega)).segOf hi lpic 3 (errLen_vec rpic lpic)
  have zqwv := (z ix.qwv (by omega) (by omega)).segOf hi lqwv 3 (errLen_quat rqwv lqwv)
  have zpwv := (z ix.pwv (by omega) (by omega)).segOf hi lpwv 3 (errLen_vec rpwv lpwv)
  have p0 : ∀ n : Nat, (pad n (0 : V3 ℝ) : Fin 7 → ℝ) = 0 := by
    intro n; funext j; simp [pad]
  rw [hm, zL, zqic, zpic, zqwv, zpwv, coreError_p, coreError_q]
  simp only [mulVec_zero, p0, add_zero]

/-- Even without noise the residual covariance of a pose is invertible, if nothing is known exactly. -/
theorem exact_innov {aux : List VarDesc} {ix : PoseIdx} {s : Vars ℝ (coreDef aux)} {v : PoseView ℝ} {fixed : Nat}
    (hn : ∀ i (hi : i < (coreDef aux).length), (coreDef aux)[i].name = i)
    (hv : poseView ix s = some v) (hd : ix.Distinct) (hL : v.L ≠ 0) (hw : v.qwv.normSq = 1) (hc : v.qic.normSq = 1)
    {P : ErrMat ℝ (coreDef aux)} (hP : P.PosDef) {R : Matrix (Fin 7) (Fin 7) ℝ} (hR : R.PosSemidef)
    (h6 : ∀ x, x ⬝ᵥ R *ᵥ x = 0 → x 6 = 0) {H} (hH : poseH ix fixed s = some H) : IsUnit (innovCov P H R).det := by
  obtain ⟨H', hH', hm⟩ := poseH_coreError (fixed := fixed) hn hv hd
  obtain rfl := Option.some.inj (hH'.symm.trans hH)
  rw [isUnit_iff_ne_zero]
  intro h
  obtain ⟨x, hx, hS⟩ := Matrix.exists_mulVec_eq_zero_iff.2 h
  have h1 : 0 ≤ (H'ᵀ *ᵥ x) ⬝ᵥ P *ᵥ (H'ᵀ *ᵥ x) := by
    simpa using hP.posSemidef.dotProduct_mulVec_nonneg (H'ᵀ *ᵥ x)
  have h2 : 0 ≤ x ⬝ᵥ R *ᵥ x := by simpa using hR.dotProduct_mulVec_nonneg x
  have hsum : (H'ᵀ *ᵥ x) ⬝ᵥ P *ᵥ (H'ᵀ *ᵥ x) + x ⬝ᵥ R *ᵥ x = 0 := by
    have e : x ⬝ᵥ (innovCov P H' R *ᵥ x) = 0 := by rw [hS, dotProduct_zero]
    have e2 : innovCov P H' R *ᵥ x = H' *ᵥ (P *ᵥ (H'ᵀ *ᵥ x)) + R *ᵥ x := by
      change (H' * P * H'ᵀ + R) *ᵥ x = _
      rw [add_mulVec, ← mulVec_mulVec, ← mulVec_mulVec]
    rw [e2, dotProduct_add, dotProduct_mulVec, ← mulVec_transpose] at e
    exact e
  have hz : H'ᵀ *ᵥ x = 0 := by
    by_contra hne
    have := hP.dotProduct_mulVec_pos hne
    simp only [star_trivial] at this
    linarith
  have hx6 : x 6 = 0 := h6 x (by linarith)
  have hdot : ∀ δ, x ⬝ᵥ H' *ᵥ δ = 0 := by
    intro δ
    rw [dotProduct_mulVec, ← mulVec_transpose, hz, zero_dotProduct]
  have orth : ∀ q : Quat ℝ, q.normSq = 1 → ∀ a : V3 ℝ, q.toRot *ᵥ (q.toRotᵀ *ᵥ a) = a := by
    intro q hq a
    rw [mulVec_mulVec, toRot_orthogonal q hq, one_mulVec]
  have t1 := hdot (coreError (v.L⁻¹ • (v.qwv.toRotᵀ *ᵥ ![x 0, x 1, x 2])) 0)
  rw [hm, smul_mulVec, mulVec_smul, smul_smul, mul_inv_cancel₀ hL, one_smul, orth _ hw] at t1
  simp only [mulVec_zero] at t1
  have t1' : x 0 * x 0 + x 1 * x 1 + x 2 * x 2 = 0 := by
    simpa [dotProduct, Fin.sum_univ_succ, pad, add_assoc] using t1
  have a0 : x 0 = 0 := by nlinarith [mul_self_nonneg (x 0), mul_self_nonneg (x 1), mul_self_nonneg (x 2)]
  have a1 : x 1 = 0 := by nlinarith [mul_self_nonneg (x 0), mul_self_nonneg (x 1), mul_self_nonneg (x 2)]
  have a2 : x 2 = 0 := by nlinarith [mul_self_nonneg (x 0), mul_self_nonneg (x 1), mul_self_nonneg (x 2)]
  have t2 := hdot (coreError 0 (v.qic.conj.toRotᵀ *ᵥ ![x 3, x 4, x 5]))
  have hc' : v.qic.conj.normSq = 1 := by rw [← hc]; simp [Quat.normSq, Quat.conj]
  rw [hm, orth _ hc'] at t2
  have t2' : x 3 * x 3 + x 4 * x 4 + x 5 * x 5 = 0 := by
    simpa [dotProduct, Fin.sum_univ_succ, pad, add_assoc, a0, a1, a2, hx6] using t2
  have a3 : x 3 = 0 := by nlinarith [mul_self_nonneg (x 3), mul_self_nonneg (x 4), mul_self_nonneg (x 5)]
  have a4 : x 4 = 0 := by nlinarith [mul_self_nonneg (x 3), mul_self_nonneg (x 4), mul_self_nonneg (x 5)]
  have a5 : x 5 = 0 := by nlinarith [mul_self_nonneg (x 3), mul_self_nonneg (x 4), mul_self_nonneg (x 5)]
  apply hx
  funext i
  fin_cases i <;> assumption

end MSF
