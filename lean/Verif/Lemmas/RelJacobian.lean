import Verif.Spec.RelJacobian
import Verif.Props.Jacobian

/-!
# The derivative of the residual of a relative pose measurement
-/

namespace MSF

open Matrix

theorem DerivAlongBoth.unique {D : List VarDesc} {m : Nat} {res : Vars ℝ D → Vars ℝ D → Option (Fin m → ℝ)}
    {so sn : Vars ℝ D} {δo δn : Fin (total errLen D) → ℝ} {d d' : Fin m → ℝ}
    (h : DerivAlongBoth res so sn δo δn d) (h' : DerivAlongBoth res so sn δo δn d') : d = d' := by
  obtain ⟨f, hf, hd⟩ := h
  obtain ⟨g, hg, hd'⟩ := h'
  have e : f =ᶠ[nhds 0] g := by
    filter_upwards [hf, hg] with ε h1 h2
    rw [h1] at h2
    exact Option.some.inj h2
  exact hd.unique (hd'.congr_of_eventuallyEq e)

section
variable {aux : List VarDesc}

/-- The rotation vector of the predicted attitude along an error state. -/
noncomputable def attDeriv (ix : PoseIdx) (v : PoseView ℝ) (δ : Fin (total errLen (coreDef aux)) → ℝ) : V3 ℝ :=
  v.qic.toRotᵀ *ᵥ (v.q.toRotᵀ *ᵥ segOf δ ix.qwv 3 + segOf δ 2 3) + segOf δ ix.qic 3

/-- The change of the predicted position along an error state. -/
noncomputable def placeDeriv (ix : PoseIdx) (v : PoseView ℝ) (δ : Fin (total errLen (coreDef aux)) → ℝ) : V3 ℝ :=
  posDeriv v (segOf δ 0 3) (segOf δ 2 3) (segOf δ ix.pic 3) (segOf δ ix.qwv 3) (segOf δ ix.pwv 3)
    (segOf δ ix.L 1 0)

/-- What the sensor would see along an error state. -/
theorem pose_path (ix : PoseIdx) (s : Vars ℝ (coreDef aux)) (v : PoseView ℝ)
    (hn : ∀ i (hi : i < (coreDef aux).length), (coreDef aux)[i].name = i)
    (hp : PlainVars (coreDef aux)) (hu : UnitQuats s) (hv : poseView ix s = some v)
    (δ : Fin (total errLen (coreDef aux)) → ℝ) :
    ∃ w : ℝ → PoseView ℝ, (∀ ε, (correct s (ε • δ)).bind (poseView ix) = some (w ε)) ∧ w 0 = v ∧
      QDeriv (fun ε => (w ε).predAtt) (v.predAtt.mul (pureH (attDeriv ix v δ))) 0 ∧
      HasDerivAt (fun ε => (w ε).predPos) (placeDeriv ix v δ) 0 ∧
      QDeriv (fun ε => (w ε).qwv) (v.qwv.mul (pureH (segOf δ ix.qwv 3))) 0 := by
  obtain ⟨r1, r2, rL, rqic, rpic, rqwv, rpwv⟩ := poseView_reads hv
  have uq : v.q.normSq = 1 := by rw [r2]; exact getQuat_unit hu (getQuat_q s)
  have uqic : v.qic.normSq = 1 := getQuat_unit hu rqic
  have uqwv : v.qwv.normSq = 1 := getQuat_unit hu rqwv
  let w : ℝ → PoseView ℝ := fun ε =>
    ⟨v.p + ε • segOf δ 0 3, v.q.mul (quatFromSmallAngle (ε • segOf δ 2 3)),
      v.L + ε * segOf δ ix.L 1 0, v.qic.mul (quatFromSmallAngle (ε • segOf δ ix.qic 3)),
      v.pic + ε • segOf δ ix.pic 3, v.qwv.mul (quatFromSmallAngle (ε • segOf δ ix.qwv 3)),
      v.pwv + ε • segOf δ ix.pwv 3⟩
  refine ⟨w, fun ε => ?_, ?_, predAtt_deriv v.qwv v.q v.qic uq uqic _ _ _, ?_, pert_deriv v.qwv _⟩
  · obtain ⟨s', e, hv', hq'⟩ := correct_reads s (ε • δ) hn hp hu
    have h0 := hv' 0 3 _ (getVec_p s)
    rw [getVec_p, Option.some.injEq] at h0
    have h2 := hq' 2 _ (getQuat_q s)
    rw [getQuat_q, Option.some.injEq] at h2
    rw [e, Option.bind_some, poseView_mk (hv' _ _ _ rL) (hq' _ _ rqic) (hv' _ _ _ rpic)
      (hq' _ _ rqwv) (hv' _ _ _ rpwv), h0, h2, ← r1, ← r2]
    simp only [segOf_smul, w, Pi.add_apply, Pi.smul_apply, smul_eq_mul]
  · simp only [w, zero_smul, zero_mul, add_zero, quatFromSmallAngle_zero, Quat.mul_one']
  · have dA := rot_deriv v.qwv uqwv (segOf δ ix.qwv 3)
    have dB := rot_deriv v.q uq (segOf δ 2 3)
    have d1 := hasDerivAt_mulVec dB (line_deriv v.pic (segOf δ ix.pic 3))
    have d2 := ((line_deriv v.pwv (segOf δ ix.pwv 3)).neg.add
      (line_deriv v.p (segOf δ 0 3))).add d1
    have d3 := hasDerivAt_mulVec dA d2
    have dL : HasDerivAt (fun ε : ℝ => v.L + ε * segOf δ ix.L 1 0) (segOf δ ix.L 1 0) 0 := by
      have := ((hasDerivAt_id (0 : ℝ)).mul_const (segOf δ ix.L 1 0)).const_add v.L
      rw [one_mul] at this
      exact this
    have d4 := dL.smul d3
    refine (d4.congr_of_eventuallyEq (Filter.Eventually.of_forall fun ε => ?_)).congr_deriv ?_
    · simp only [PoseView.predPos, w, toRot_conj, Matrix.transpose_transpose]
      rfl
    · simp only [zero_smul, zero_mul, add_zero, quatFromSmallAngle_zero, Quat.mul_one', placeDeriv,
        posDeriv, Pi.add_apply, Pi.neg_apply]
      rw [add_comm (v.L • _)]

/-- The product of the measurement matrix with an error state. -/
theorem poseH_rows (ix : PoseIdx) (fixed : Nat) (s : Vars ℝ (coreDef aux)) (v : PoseView ℝ)
    (hn : ∀ i (hi : i < (coreDef aux).length), (coreDef aux)[i].name = i)
    (hv : poseView ix s = some v) (hd : ix.Distinct) :
    ∃ H, poseH ix fixed s = some H ∧ ∀ δ, RespectsFixed ix fixed δ →
      H *ᵥ δ = rows7 (placeDeriv ix v δ + (v.L • v.qwv.toRot - 1) *ᵥ segOf δ ix.pwv 3) (attDeriv ix v δ) 0 := by
  obtain ⟨H, e, hm⟩ := poseH_mulVec ix fixed s v hn hv hd
  refine ⟨H, e, fun δ hδ => ?_⟩
  have hi := indexingErrors_eq_zero.2 hn
  obtain ⟨r1, r2, rL, rqic, rpic, rqwv, rpwv⟩ := poseView_reads hv
  obtain ⟨lL, -⟩ := getVec_kind s rL
  obtain ⟨lqic, -⟩ := getQuat_kind s rqic
  obtain ⟨lpic, -⟩ := getVec_kind s rpic
  obtain ⟨lqwv, -⟩ := getQuat_kind s rqwv
  obtain ⟨lpwv, -⟩ := getVec_kind s rpwv
  have zL : fixed.testBit ix.L = true → segOf δ ix.L 1 = 0 := fun h =>
    (hδ _ (by simp) h).segOf hi lL 1 (errLen_vec rL lL)
  have zqic : fixed.testBit ix.qic = true → segOf δ ix.qic 3 = 0 := fun h =>
    (hδ _ (by simp) h).segOf hi lqic 3 (errLen_quat rqic lqic)
  have zpic : fixed.testBit ix.pic = true → segOf δ ix.pic 3 = 0 := fun h =>
    (hδ _ (by simp) h).segOf hi lpic 3 (errLen_vec rpic lpic)
  have zqwv : fixed.testBit ix.qwv = true → segOf δ ix.qwv 3 = 0 := fun h =>
    (hδ _ (by simp) h).segOf hi lqwv 3 (errLen_quat rqwv lqwv)
  have zpwv : fixed.testBit ix.pwv = true → segOf δ ix.pwv 3 = 0 := fun h =>
    (hδ _ (by simp) h).segOf hi lpwv 3 (errLen_vec rpwv lpwv)
  have ite0 : ∀ {b : Bool} {n : Nat} {A : Matrix (Fin 3) (Fin n) ℝ} {x : Fin n → ℝ},
      (b = true → x = 0) → (if b = true then 0 else A) *ᵥ x = A *ᵥ x := by
    intro b n A x h
    by_cases hb : b = true
    · rw [if_pos hb, h hb, Matrix.mulVec_zero, Matrix.mulVec_zero]
    · rw [if_neg hb]
  have hHδ := hm δ
  simp only [ite0 zL, ite0 zqic, ite0 zpic, ite0 zqwv, ite0 zpwv] at hHδ
  have hp0 : ∀ u : V3 ℝ, (pad 0 u : Fin 7 → ℝ) = rows7 u 0 0 := fun u =>
    funext fun r => pad_zero_apply u r
  have hp3 : ∀ u : V3 ℝ, (pad 3 u : Fin 7 → ℝ) = rows7 0 u 0 := fun u =>
    funext fun r => pad_three_apply u r
  simp only [hp0, hp3, rows7_add, add_zero, zero_add] at hHδ
  rw [hHδ]
  have ea : v.qic.conj.toRot *ᵥ segOf δ 2 3 +
      (v.qic.conj.toRot * v.q.toRotᵀ) *ᵥ segOf δ ix.qwv 3 + (1 : M33 ℝ) *ᵥ segOf δ ix.qic 3 =
      attDeriv ix v δ := by
    rw [attDeriv, toRot_conj, Matrix.one_mulVec, Matrix.mulVec_add, Matrix.mulVec_mulVec]
    abel
  rw [ea]
  have e1 : ((v.q.toRot * skew (segOf δ 2 3)) *ᵥ v.pic) =
      -((v.q.toRot * skew v.pic) *ᵥ segOf δ 2 3) := by
    rw [← Matrix.mulVec_mulVec, skew_comm, Matrix.mulVec_neg, Matrix.mulVec_mulVec]
  have e2 : ∀ u : V3 ℝ, (v.qwv.toRot * skew (segOf δ ix.qwv 3)) *ᵥ u =
      -((v.qwv.toRot * skew u) *ᵥ segOf δ ix.qwv 3) := by
    intro u
    rw [← Matrix.mulVec_mulVec, skew_comm, Matrix.mulVec_neg, Matrix.mulVec_mulVec]
  have e3 : ∀ u : V3 ℝ, skew (v.L • u) = v.L • skew u := by
    intro u
    ext i j
    fin_cases i <;> fin_cases j <;> simp [skew]
  have e4 : (Matrix.of fun i (_ : Fin 1) => ((v.qwv.toRot * v.q.toRot) *ᵥ v.pic +
      v.qwv.toRot *ᵥ (-v.pwv + v.p)) i) *ᵥ segOf δ ix.L 1 =
      segOf δ ix.L 1 0 • (v.qwv.toRot *ᵥ (-v.pwv + v.p + v.q.toRot *ᵥ v.pic)) := by
    funext i
    have : v.qwv.toRot *ᵥ (-v.pwv + v.p + v.q.toRot *ᵥ v.pic) =
        (v.qwv.toRot * v.q.toRot) *ᵥ v.pic + v.qwv.toRot *ᵥ (-v.pwv + v.p) := by
      rw [Matrix.mulVec_add, Matrix.mulVec_mulVec, add_comm]
    rw [this]
    simp only [Matrix.mulVec, dotProduct, Matrix.of_apply, Fin.sum_univ_one, Pi.smul_apply,
      smul_eq_mul]
    ring
  refine congrArg (fun x => rows7 x _ _) ?_
  rw [placeDeriv, posDeriv, e1, e2, e3, e4]
  simp only [Matrix.mulVec_add, Matrix.mulVec_neg, Matrix.neg_mul, Matrix.neg_mulVec,
    Matrix.smul_mulVec, Matrix.mulVec_mulVec, Matrix.mul_smul, Matrix.sub_mulVec,
    Matrix.one_mulVec, smul_neg, smul_add, Matrix.mul_assoc]
  abel

/-- The derivative of the error quaternion of a relative measurement. -/
theorem turn_both_deriv (o n e : Quat ℝ) (φo φn : V3 ℝ) (c : ℝ) (uo : o.normSq = 1) (un : n.normSq = 1)
    (h : (n.conj.mul o).conj.mul e = ⟨c, 0, 0, 0⟩) :
    qadd ((qadd ((n.mul (pureH φn)).conj.mul o) (n.conj.mul (o.mul (pureH φo)))).conj.mul e)
      ((n.conj.mul o).conj.mul ⟨0, 0, 0, 0⟩) =
      ⟨0, c * ((o.conj.mul n).toRot *ᵥ φn - φo) 0 / 2, c * ((o.conj.mul n).toRot *ᵥ φn - φo) 1 / 2,
        c * ((o.conj.mul n).toRot *ᵥ φn - φo) 2 / 2⟩ := by
  set T := o.conj.mul n with hT
  have hTu : T.normSq = 1 := by rw [hT, Quat.normSq_mul, Quat.normSq_conj, uo, un, one_mul]
  have hTc : n.conj.mul o = T.conj := by rw [hT, Quat.conj_mul, Quat.conj_conj]
  rw [hTc, Quat.conj_conj] at h
  have one : T.conj.mul T = Quat.one := by
    rw [Quat.conj_mul_self, hTu]; rfl
  have he : e = T.conj.mul ⟨c, 0, 0, 0⟩ := by
    rw [← h, ← Quat.mul_assoc', one, Quat.one_mul']
  have h1 : (n.mul (pureH φn)).conj.mul o = (pureH φn).conj.mul T.conj := by
    rw [Quat.conj_mul, Quat.mul_assoc', hTc]
  have h2 : n.conj.mul (o.mul (pureH φo)) = T.conj.mul (pureH φo) := by
    rw [← Quat.mul_assoc', hTc]
  have h3 : (qadd ((pureH φn).conj.mul T.conj) (T.conj.mul (pureH φo))).conj =
      qadd (T.mul (pureH φn)) ((pureH φo).conj.mul T) := by
    ext <;> simp [qadd, Quat.mul, Quat.conj] <;> ring
  have h4 : (T.mul (pureH φn)).mul T.conj = pureH (T.toRot *ᵥ φn) := by
    rw [Quat.mul_assoc', pureH_mul T.conj (by rw [Quat.normSq_conj, hTu]), ← Quat.mul_assoc',
      Quat.mul_conj_self, hTu, toRot_conj, Matrix.transpose_transpose]
    exact Quat.one_mul' _
  have h5 : ((pureH φo).conj.mul T).mul T.conj = (pureH φo).conj := by
    rw [Quat.mul_assoc', Quat.mul_conj_self, hTu]
    exact Quat.mul_one' _
  rw [h1, h2, h3, he, ← Quat.mul_assoc', qadd_mul, h4, h5]
  ext <;> simp [qadd, Quat.mul, Quat.conj, pureH] <;> ring

/-- The derivative of the residual of a relative measurement at states whose predicted turn is the measured
one. -/
theorem relPose_deriv (ix : PoseIdx) (so sn : Vars ℝ (coreDef aux)) (vo vn : PoseView ℝ)
    (hn : ∀ i (hi : i < (coreDef aux).length), (coreDef aux)[i].name = i)
    (hp : PlainVars (coreDef aux)) (huo : UnitQuats so) (hun : UnitQuats sn) (hvo : poseView ix so = some vo)
    (hvn : poseView ix sn = some vn) (prev z : V3 ℝ × Quat ℝ)
    (hz : attResidual ((vn.predAtt.conj.mul vo.predAtt).conj.mul (z.2.conj.mul prev.2)) = some 0)
    (hy : (yawResidual vn.qwv).isSome) (δo δn : Fin (total errLen (coreDef aux)) → ℝ) :
    DerivAlongBoth (relPoseRes ix prev z) so sn δo δn
      (rows7 (placeDeriv ix vo δo - placeDeriv ix vn δn)
        ((vo.predAtt.conj.mul vn.predAtt).toRot *ᵥ attDeriv ix vn δn - attDeriv ix vo δo)
        (yawDeriv vn.qwv (segOf δn ix.qwv 3))) := by
  obtain ⟨wo, hwo, wo0, hAo, hPo, -⟩ := pose_path ix so vo hn hp huo hvo δo
  obtain ⟨wn, hwn, wn0, hAn, hPn, hY⟩ := pose_path ix sn vn hn hp hun hvn δn
  have hy' : 1 - 2 * (vn.qwv.y * vn.qwv.y + vn.qwv.z * vn.qwv.z) ≠ 0 := by
    intro h0
    rw [yawResidual, if_pos h0] at hy
    cases hy
  have unit : ∀ {s : Vars ℝ (coreDef aux)} {v : PoseView ℝ}, UnitQuats s → poseView ix s = some v →
      v.predAtt.normSq = 1 := by
    intro s v hu hv
    obtain ⟨r1, r2, rL, rqic, rpic, rqwv, rpwv⟩ := poseView_reads hv
    rw [PoseView.predAtt, Quat.normSq_mul, Quat.normSq_mul, r2, getQuat_unit hu (getQuat_q s),
      getQuat_unit hu rqic, getQuat_unit hu rqwv]
    norm_num
  have uo := unit huo hvo
  have un := unit hun hvn
  set φo := attDeriv ix vo δo with hφo
  set φn := attDeriv ix vn δn with hφn
  set T := vo.predAtt.conj.mul vn.predAtt with hT
  have hTu : T.normSq = 1 := by rw [hT, Quat.normSq_mul, Quat.normSq_conj, uo, un, one_mul]
  -- the turn predicted by the two states, and the error quaternion
  have hE := ((hAn.conj.mul hAo).conj).mul (QDeriv.const (z.2.conj.mul prev.2) 0)
  obtain ⟨c, hc, hE0⟩ : ∃ c : ℝ, c ≠ 0 ∧
      (vn.predAtt.conj.mul vo.predAtt).conj.mul (z.2.conj.mul prev.2) = ⟨c, 0, 0, 0⟩ := by
    generalize (vn.predAtt.conj.mul vo.predAtt).conj.mul (z.2.conj.mul prev.2) = e at hz
    unfold attResidual at hz
    split at hz
    · cases hz
    · rename_i hw
      have := Option.some.inj hz
      have g : ∀ i, e.vec i = 0 := by
        intro i
        have := congrFun this i
        simp only [Pi.zero_apply] at this
        have h2 : e.vec i / e.w = 0 := by linarith
        rcases div_eq_zero_iff.1 h2 with h | h
        · exact h
        · exact absurd h hw
      refine ⟨e.w, hw, ?_⟩
      ext
      · rfl
      · exact g 0
      · exact g 1
      · exact g 2
  have e0w : ((wn 0).predAtt.conj.mul (wo 0).predAtt).conj.mul (z.2.conj.mul prev.2) = ⟨c, 0, 0, 0⟩ := by
    rw [wo0, wn0, hE0]
  set ψ := T.toRot *ᵥ φn - φo with hψ
  have hE' : qadd ((qadd ((vn.predAtt.mul (pureH φn)).conj.mul (wo 0).predAtt)
        ((wn 0).predAtt.conj.mul (vo.predAtt.mul (pureH φo)))).conj.mul (z.2.conj.mul prev.2))
      (((wn 0).predAtt.conj.mul (wo 0).predAtt).conj.mul ⟨0, 0, 0, 0⟩) =
      ⟨0, c * ψ 0 / 2, c * ψ 1 / 2, c * ψ 2 / 2⟩ := by
    rw [wo0, wn0]
    exact turn_both_deriv vo.predAtt vn.predAtt _ φo φn c uo un hE0
  rw [hE'] at hE
  have hatt : HasDerivAt (fun ε => fun i =>
      (((wn ε).predAtt.conj.mul (wo ε).predAtt).conj.mul (z.2.conj.mul prev.2)).vec i /
      (((wn ε).predAtt.conj.mul (wo ε).predAtt).conj.mul (z.2.conj.mul prev.2)).w * 2) ψ 0 := by
    rw [hasDerivAt_pi]
    have hwne : (((wn 0).predAtt.conj.mul (wo 0).predAtt).conj.mul (z.2.conj.mul prev.2)).w ≠ 0 := by
      rw [e0w]; exact hc
    intro i
    fin_cases i
    · refine ((hE.x.div hE.w hwne).mul_const 2).congr_deriv ?_
      rw [e0w]; simp; field_simp
    · refine ((hE.y.div hE.w hwne).mul_const 2).congr_deriv ?_
      rw [e0w]; simp; field_simp
    · refine ((hE.z.div hE.w hwne).mul_const 2).congr_deriv ?_
      rw [e0w]; simp; field_simp
  have hattne : ∀ᶠ ε in nhds (0 : ℝ),
      (((wn ε).predAtt.conj.mul (wo ε).predAtt).conj.mul (z.2.conj.mul prev.2)).w ≠ 0 := by
    apply hE.w.continuousAt.eventually_ne
    rw [e0w]
    exact hc
  -- yaw
  have hden : HasDerivAt (fun ε => 1 - 2 * ((wn ε).qwv.y * (wn ε).qwv.y + (wn ε).qwv.z * (wn ε).qwv.z)) _ 0 :=
    (((hY.y.mul hY.y).add (hY.z.mul hY.z)).const_mul 2).const_sub 1
  have hnum : HasDerivAt (fun ε => -2 * ((wn ε).qwv.w * (wn ε).qwv.z + (wn ε).qwv.x * (wn ε).qwv.y)) _ 0 :=
    ((hY.w.mul hY.z).add (hY.x.mul hY.y)).const_mul (-2)
  have hy0 : 1 - 2 * ((wn 0).qwv.y * (wn 0).qwv.y + (wn 0).qwv.z * (wn 0).qwv.z) ≠ 0 := by
    rw [wn0]; exact hy'
  have hyaw := hnum.div hden hy0
  have hyne : ∀ᶠ ε in nhds (0 : ℝ),
      1 - 2 * ((wn ε).qwv.y * (wn ε).qwv.y + (wn ε).qwv.z * (wn ε).qwv.z) ≠ 0 :=
    hden.continuousAt.eventually_ne hy0
  have hpos : HasDerivAt (fun ε => (z.1 - prev.1) - ((wn ε).predPos - (wo ε).predPos))
      (placeDeriv ix vo δo - placeDeriv ix vn δn) 0 := by
    refine ((hPn.sub hPo).const_sub (z.1 - prev.1)).congr_deriv ?_
    abel
  refine ⟨fun ε => rows7 ((z.1 - prev.1) - ((wn ε).predPos - (wo ε).predPos))
    (fun i => (((wn ε).predAtt.conj.mul (wo ε).predAtt).conj.mul (z.2.conj.mul prev.2)).vec i /
      (((wn ε).predAtt.conj.mul (wo ε).predAtt).conj.mul (z.2.conj.mul prev.2)).w * 2)
    (-2 * ((wn ε).qwv.w * (wn ε).qwv.z + (wn ε).qwv.x * (wn ε).qwv.y) /
      (1 - 2 * ((wn ε).qwv.y * (wn ε).qwv.y + (wn ε).qwv.z * (wn ε).qwv.z))), ?_, ?_⟩
  · filter_upwards [hattne, hyne] with ε h1 h2
    have ho := hwo ε
    have hn' := hwn ε
    cases hcs : correct so (ε • δo) with
    | none => rw [hcs] at ho; cases ho
    | some so' =>
      cases hcn : correct sn (ε • δn) with
      | none => rw [hcn] at hn'; cases hn'
      | some sn' =>
        rw [hcs, Option.bind_some] at ho
        rw [hcn, Option.bind_some] at hn'
        rw [Option.bind_some, Option.bind_some, relPoseRes, ho, Option.bind_some, hn', Option.bind_some]
        unfold PoseView.relResidual attResidual yawResidual
        simp only [Option.bind_eq_bind]
        rw [if_neg h1, if_neg h2]
        rfl
  · refine rows7_deriv hpos hatt (hyaw.congr_deriv ?_)
    rw [wn0]
    rfl

end

end MSF
