import Verif.Lemmas.Jacobian
import Verif.Props.CovBlocks

/-!
# C44: measurement matrices are derivatives
-/

namespace MSF

open Matrix

section
variable {aux : List VarDesc}

/-- The error state has no component at the variable at position `i`. -/
def ZeroAt {D : List VarDesc} (δ : Fin (total errLen D) → ℝ) (i : Nat) : Prop :=
  ∀ j : Fin D.length, j.val = i → ∀ k, Owns D j k → δ k = 0

theorem ZeroAt.segOf {D : List VarDesc} {δ : Fin (total errLen D) → ℝ} {i : Nat}
    (h : ZeroAt δ i) (hn : indexingErrors D = 0) (hi : i < D.length) (n : Nat)
    (hl : errLen D[i] = n) : MSF.segOf δ i n = 0 := by
  funext j
  have := offset_add_len_le (D := D) errLen i hi
  have := j.2
  simp only [MSF.segOf, segD, Pi.zero_apply]
  rw [dif_pos (by omega)]
  apply h ⟨i, hi⟩ rfl
  rw [owns_iff hn]
  have : errLen (D.get ⟨i, hi⟩) = n := hl
  simp only [this]
  omega

/-- **C44, position.**  For every state definition, state with unit quaternions and offset `p_ip`,
the matrix `H` of a position measurement exists and, along every error state direction that does
not touch a fixed `p_ip`, the residual has the derivative `-H δ`. -/
theorem C44_position (pip fixed : Nat) (s : Vars ℝ (coreDef aux)) (l z : V3 ℝ)
    (hn : ∀ i (hi : i < (coreDef aux).length), (coreDef aux)[i].name = i)
    (hp : PlainVars (coreDef aux)) (hu : UnitQuats s) (hl : getVec s pip 3 = some l)
    (h0 : pip ≠ 0) :
    ∃ H, positionH pip fixed s = some H ∧
      ∀ δ, (fixed.testBit pip = true → ZeroAt δ pip) →
        DerivAlong (positionResidual pip z) s δ (-(H *ᵥ δ)) := by
  obtain ⟨H, e, hm⟩ := positionH_mulVec pip fixed s l hn hl h0
  refine ⟨H, e, fun δ hδ => ?_⟩
  have d := sensorPos_deriv pip s l hn hp hu hl δ
  obtain ⟨f, hf, hd⟩ := d
  refine ⟨fun ε => z - f ε, ?_, ?_⟩
  · filter_upwards [hf] with ε h1
    cases hc : correct s (ε • δ) with
    | none => rw [hc] at h1; cases h1
    | some s' =>
      rw [hc, Option.bind_some] at h1
      rw [Option.bind_some, positionResidual, h1]
      rfl
  · refine (hd.const_sub z).congr_deriv ?_
    rw [hm]
    congr 1
    have e1 : ((EKFState.q s).toRot * skew (segOf δ 2 3)) *ᵥ l =
        (-(EKFState.q s).toRot * skew l) *ᵥ segOf δ 2 3 := by
      rw [← Matrix.mulVec_mulVec, skew_comm, Matrix.neg_mul, Matrix.neg_mulVec,
        Matrix.mulVec_neg, Matrix.mulVec_mulVec]
    rw [e1]
    congr 1
    by_cases hf : fixed.testBit pip = true
    · obtain ⟨hi, -⟩ := getVec_kind s hl
      rw [if_pos hf, (hδ hf).segOf (indexingErrors_eq_zero.2 hn) hi 3 (errLen_vec hl hi),
        Matrix.mulVec_zero]
    · rw [if_neg hf]

/-- **C44, pressure.**  The matrix of a pressure measurement is the derivative along every error
state direction. -/
theorem C44_pressure (bp : Nat) (s : Vars ℝ (coreDef aux)) (b : Fin 1 → ℝ) (z : ℝ)
    (hn : ∀ i (hi : i < (coreDef aux).length), (coreDef aux)[i].name = i)
    (hp : PlainVars (coreDef aux)) (hu : UnitQuats s) (hl : getVec s bp 1 = some b) :
    ∃ H, pressureH bp = some H ∧
      ∀ δ, DerivAlong (pressureResidual bp z) s δ (-(H *ᵥ δ)) := by
  obtain ⟨H, e, hm⟩ := pressureH_mulVec bp s b hn hl
  refine ⟨H, e, fun δ => ?_⟩
  refine ⟨fun ε _ => z + (b 0 + ε * segOf δ bp 1 0) - (EKFState.p s 2 + ε * segOf δ 0 3 2),
    Filter.Eventually.of_forall fun ε => ?_, ?_⟩
  · obtain ⟨s', e', hv, -⟩ := correct_reads s (ε • δ) hn hp hu
    have h0 := hv 0 3 _ (getVec_p s)
    rw [getVec_p, Option.some.injEq] at h0
    rw [e', Option.bind_some, pressureResidual, hv _ _ _ hl, h0]
    simp only [segOf_smul, Option.bind_eq_bind, Option.bind_some, Pi.add_apply, Pi.smul_apply,
      smul_eq_mul]
  · rw [hm, hasDerivAt_pi]
    intro _
    have hlin : ∀ c : ℝ, HasDerivAt (fun ε : ℝ => ε * c) c 0 := by
      intro c
      have := (hasDerivAt_id (0 : ℝ)).mul_const c
      rw [one_mul] at this
      exact this
    refine ((((hlin (segOf δ bp 1 0)).const_add (b 0)).const_add z).sub
      ((hlin (segOf δ 0 3 2)).const_add (EKFState.p s 2))).congr_deriv ?_
    simp

/-! ### Pose -/

/-- The residual of an absolute pose measurement as a function of the state. -/
noncomputable def poseRes (ix : PoseIdx) (z_p : V3 ℝ) (z_q : Quat ℝ) (s : Vars ℝ (coreDef aux)) :
    Option (Fin 7 → ℝ) := (poseView ix s).bind fun v => v.residual z_p z_q

/-- The positions of the variables are different, also from those of `p` and `q`. -/
def PoseIdx.Distinct (ix : PoseIdx) : Prop :=
  [0, 2, ix.L, ix.qic, ix.pic, ix.qwv, ix.pwv].Nodup

/-- The error state has no component at a fixed variable. -/
def RespectsFixed {D : List VarDesc} (ix : PoseIdx) (fixed : Nat)
    (δ : Fin (total errLen D) → ℝ) : Prop :=
  ∀ i ∈ [ix.L, ix.qic, ix.pic, ix.qwv, ix.pwv], fixed.testBit i = true → ZeroAt δ i

/-- The full claim for the pose sensor: all seven rows, all error states. -/
def poseJacobian : Prop :=
  ∀ (aux : List VarDesc) (ix : PoseIdx) (fixed : Nat) (s : Vars ℝ (coreDef aux)) (v : PoseView ℝ)
    (z_p : V3 ℝ) (z_q : Quat ℝ),
    (∀ i (hi : i < (coreDef aux).length), (coreDef aux)[i].name = i) → PlainVars (coreDef aux) →
    UnitQuats s → poseView ix s = some v → ix.Distinct →
    attResidual (v.predAtt.conj.mul z_q) = some 0 → (yawResidual v.qwv).isSome →
    ∃ H, poseH ix fixed s = some H ∧
      ∀ δ, RespectsFixed ix fixed δ → DerivAlong (poseRes ix z_p z_q) s δ (-(H *ᵥ δ))

theorem pad_zero_apply (u : V3 ℝ) (r : Fin 7) :
    (pad 0 u : Fin 7 → ℝ) r = rows7 u 0 0 r := by
  fin_cases r <;> rfl

theorem pad_three_apply (u : V3 ℝ) (r : Fin 7) :
    (pad 3 u : Fin 7 → ℝ) r = rows7 0 u 0 r := by
  fin_cases r <;> rfl

theorem rows7_add (a b a' b' : V3 ℝ) (c c' : ℝ) :
    rows7 a b c + rows7 a' b' c' = rows7 (a + a') (b + b') (c + c') := by
  funext r
  fin_cases r <;> rfl

/-- The derivative along every direction, compared with `H`: what the comment in the code leaves
out is the factor of the block of `p_wv` and the yaw row. -/
theorem pose_compare (ix : PoseIdx) (fixed : Nat) (s : Vars ℝ (coreDef aux))
    (v : PoseView ℝ) (z_p : V3 ℝ) (z_q : Quat ℝ)
    (hn : ∀ i (hi : i < (coreDef aux).length), (coreDef aux)[i].name = i)
    (hp : PlainVars (coreDef aux)) (hu : UnitQuats s) (hv : poseView ix s = some v)
    (hd : ix.Distinct) (hz : attResidual (v.predAtt.conj.mul z_q) = some 0)
    (hy : (yawResidual v.qwv).isSome) :
    ∃ H, poseH ix fixed s = some H ∧ ∀ δ, RespectsFixed ix fixed δ →
      DerivAlong (poseRes ix z_p z_q) s δ (-(H *ᵥ δ) +
        rows7 ((v.L • v.qwv.toRot - 1) *ᵥ segOf δ ix.pwv 3) 0
          (yawDeriv v.qwv (segOf δ ix.qwv 3))) := by
  obtain ⟨H, e, hm⟩ := poseH_mulVec ix fixed s v hn hv hd
  refine ⟨H, e, fun δ hδ => ?_⟩
  have hi := indexingErrors_eq_zero.2 hn
  have hy' : 1 - 2 * (v.qwv.y * v.qwv.y + v.qwv.z * v.qwv.z) ≠ 0 := by
    intro h0
    rw [yawResidual, if_pos h0] at hy
    cases hy
  have d := pose_deriv ix s v hn hp hu hv z_p z_q hz hy' δ
  obtain ⟨r1, r2, rL, rqic, rpic, rqwv, rpwv⟩ := poseView_reads hv
  obtain ⟨lL, -⟩ := getVec_kind s rL
  obtain ⟨lqic, -⟩ := getQuat_kind s rqic
  obtain ⟨lpic, -⟩ := getVec_kind s rpic
  obtain ⟨lqwv, -⟩ := getQuat_kind s rqwv
  obtain ⟨lpwv, -⟩ := getVec_kind s rpwv
  have zL : fixed.testBit ix.L = true → segOf δ ix.L 1 = 0 := fun h =>
    (hδ _ (by simp) h).segOf hi lL 1 (errLen_vec rL lL)
  have zqic : fixed.testBit ix.qic = true → segOf δ ix.qic 3 = 0 := fun h =>
    (hδ _ (by simp) h).segOf hi lqic 3 (errLen_quat rqic lqic)
  have zpic : fixed.testBit ix.pic = true → segOf δ ix.pic 3 = 0 := fun h =>
    (hδ _ (by simp) h).segOf hi lpic 3 (errLen_vec rpic lpic)
  have zqwv : fixed.testBit ix.qwv = true → segOf δ ix.qwv 3 = 0 := fun h =>
    (hδ _ (by simp) h).segOf hi lqwv 3 (errLen_quat rqwv lqwv)
  have zpwv : fixed.testBit ix.pwv = true → segOf δ ix.pwv 3 = 0 := fun h =>
    (hδ _ (by simp) h).segOf hi lpwv 3 (errLen_vec rpwv lpwv)
  have ite0 : ∀ {b : Bool} {n : Nat} {A : Matrix (Fin 3) (Fin n) ℝ} {x : Fin n → ℝ},
      (b = true → x = 0) → (if b = true then 0 else A) *ᵥ x = A *ᵥ x := by
    intro b n A x h
    by_cases hb : b = true
    · rw [if_pos hb, h hb, Matrix.mulVec_zero, Matrix.mulVec_zero]
    · rw [if_neg hb]
  have hHδ := hm δ
  simp only [ite0 zL, ite0 zqic, ite0 zpic, ite0 zqwv, ite0 zpwv] at hHδ
  have hp0 : ∀ u : V3 ℝ, (pad 0 u : Fin 7 → ℝ) = rows7 u 0 0 := fun u =>
    funext fun r => pad_zero_apply u r
  have hp3 : ∀ u : V3 ℝ, (pad 3 u : Fin 7 → ℝ) = rows7 0 u 0 := fun u =>
    funext fun r => pad_three_apply u r
  simp only [hp0, hp3, rows7_add, add_zero, zero_add] at hHδ
  have hneg : ∀ a b c, -rows7 (R := ℝ) a b c = rows7 (-a) (-b) (-c) := by
    intro a b c; funext r; fin_cases r <;> rfl
  rw [hHδ, hneg, rows7_add]
  have ea : -(v.qic.conj.toRot *ᵥ segOf δ 2 3 +
      (v.qic.conj.toRot * v.q.toRotᵀ) *ᵥ segOf δ ix.qwv 3 + (1 : M33 ℝ) *ᵥ segOf δ ix.qic 3) + 0 =
      -(v.qic.toRotᵀ *ᵥ (v.q.toRotᵀ *ᵥ segOf δ ix.qwv 3 + segOf δ 2 3) + segOf δ ix.qic 3) := by
    rw [toRot_conj, Matrix.one_mulVec, Matrix.mulVec_add, Matrix.mulVec_mulVec, add_zero]
    abel
  have ep : ∀ x : V3 ℝ, x = -posDeriv v (segOf δ 0 3) (segOf δ 2 3) (segOf δ ix.pic 3)
      (segOf δ ix.qwv 3) (segOf δ ix.pwv 3) (segOf δ ix.L 1 0) →
      DerivAlong (poseRes ix z_p z_q) s δ (rows7 x (-(v.qic.toRotᵀ *ᵥ (v.q.toRotᵀ *ᵥ
        segOf δ ix.qwv 3 + segOf δ 2 3) + segOf δ ix.qic 3)) (yawDeriv v.qwv (segOf δ ix.qwv 3))) := by
    intro x hx
    rw [hx]
    exact d
  rw [ea, neg_zero, zero_add]
  apply ep
  have e1 : ((v.q.toRot * skew (segOf δ 2 3)) *ᵥ v.pic) =
      -((v.q.toRot * skew v.pic) *ᵥ segOf δ 2 3) := by
    rw [← Matrix.mulVec_mulVec, skew_comm, Matrix.mulVec_neg, Matrix.mulVec_mulVec]
  have e2 : ∀ u : V3 ℝ, (v.qwv.toRot * skew (segOf δ ix.qwv 3)) *ᵥ u =
      -((v.qwv.toRot * skew u) *ᵥ segOf δ ix.qwv 3) := by
    intro u
    rw [← Matrix.mulVec_mulVec, skew_comm, Matrix.mulVec_neg, Matrix.mulVec_mulVec]
  have e3 : ∀ u : V3 ℝ, skew (v.L • u) = v.L • skew u := by
    intro u
    ext i j
    fin_cases i <;> fin_cases j <;> simp [skew]
  have e4 : (Matrix.of fun i (_ : Fin 1) => ((v.qwv.toRot * v.q.toRot) *ᵥ v.pic +
      v.qwv.toRot *ᵥ (-v.pwv + v.p)) i) *ᵥ segOf δ ix.L 1 =
      segOf δ ix.L 1 0 • (v.qwv.toRot *ᵥ (-v.pwv + v.p + v.q.toRot *ᵥ v.pic)) := by
    funext i
    have : v.qwv.toRot *ᵥ (-v.pwv + v.p + v.q.toRot *ᵥ v.pic) =
        (v.qwv.toRot * v.q.toRot) *ᵥ v.pic + v.qwv.toRot *ᵥ (-v.pwv + v.p) := by
      rw [Matrix.mulVec_add, Matrix.mulVec_mulVec, add_comm]
    rw [this]
    simp only [Matrix.mulVec, dotProduct, Matrix.of_apply, Fin.sum_univ_one, Pi.smul_apply,
      smul_eq_mul]
    ring
  rw [posDeriv, e1, e2, e3, e4]
  simp only [Matrix.mulVec_add, Matrix.mulVec_neg, Matrix.neg_mul, Matrix.neg_mulVec,
    Matrix.smul_mulVec, Matrix.mulVec_mulVec, Matrix.mul_smul, Matrix.sub_mulVec,
    Matrix.one_mulVec, smul_neg, smul_add, Matrix.mul_assoc]
  abel

/-- **C44, pose (partial).**  At every state with unit quaternions and a measured attitude equal to
the predicted one, the position and attitude rows of `H` are the derivatives of the residual along
all error states that do not touch fixed variables and either have no `p_wv` component or are taken
at a state where `L R(q_wv)` is the identity.
Missing: the block of `p_wv` in general and the yaw row, see the violations below. -/
theorem C44_pose_partial (ix : PoseIdx) (fixed : Nat) (s : Vars ℝ (coreDef aux))
    (v : PoseView ℝ) (z_p : V3 ℝ) (z_q : Quat ℝ)
    (hn : ∀ i (hi : i < (coreDef aux).length), (coreDef aux)[i].name = i)
    (hp : PlainVars (coreDef aux)) (hu : UnitQuats s) (hv : poseView ix s = some v)
    (hd : ix.Distinct) (hz : attResidual (v.predAtt.conj.mul z_q) = some 0)
    (hy : (yawResidual v.qwv).isSome) :
    ∃ H, poseH ix fixed s = some H ∧ ∀ δ, RespectsFixed ix fixed δ →
      (ZeroAt δ ix.pwv ∨ v.L • v.qwv.toRot = 1) →
      ∃ d, DerivAlong (poseRes ix z_p z_q) s δ d ∧ ∀ i : Fin 7, i ≠ 6 → d i = -(H *ᵥ δ) i := by
  obtain ⟨H, e, hH⟩ := pose_compare ix fixed s v z_p z_q hn hp hu hv hd hz hy
  refine ⟨H, e, fun δ hδ hw => ⟨_, hH δ hδ, fun i hi => ?_⟩⟩
  obtain ⟨-, -, -, -, -, -, rpwv⟩ := poseView_reads hv
  obtain ⟨lpwv, -⟩ := getVec_kind s rpwv
  have z : (v.L • v.qwv.toRot - 1) *ᵥ segOf δ ix.pwv 3 = 0 := by
    rcases hw with hw | hw
    · rw [hw.segOf (indexingErrors_eq_zero.2 hn) lpwv 3 (errLen_vec rpwv lpwv),
        Matrix.mulVec_zero]
    · rw [hw, sub_self, Matrix.zero_mulVec]
  rw [z, Pi.add_apply]
  have : rows7 (0 : V3 ℝ) 0 (yawDeriv v.qwv (segOf δ ix.qwv 3)) i = 0 := by
    fin_cases i
    · rfl
    · rfl
    · rfl
    · rfl
    · rfl
    · rfl
    · exact absurd rfl hi
  rw [this, add_zero, Pi.neg_apply]

end

/-- The template arguments of the pose filter (msf_updates/src/pose_msf/msf_statedef.hpp:37-53). -/
def poseIx : PoseIdx := ⟨5, 8, 9, 6, 7⟩

/-- A state of the pose filter with scale `c`, everything else reset. -/
noncomputable def scaleState (c : ℝ) : Vars ℝ (coreDef poseAux) :=
  Function.update (blankState poseAux 0 0 0).vars ⟨5, by decide⟩ ⟨fun _ => c, 0, false⟩

theorem scaleState_view (c : ℝ) :
    poseView poseIx (scaleState c) = some ⟨0, Quat.one, c, Quat.one, 0, Quat.one, 0⟩ := rfl

theorem scaleState_unit (c : ℝ) : UnitQuats (scaleState c) := by
  intro i q hq
  by_cases h : i = ⟨5, by decide⟩
  · subst h
    simp only [scaleState, Function.update_self] at hq
    cases hq
  · simp only [scaleState] at hq
    rw [Function.update_of_ne h] at hq
    exact blank_unitQuats poseAux 0 0 0 i q hq

theorem posePlain : PlainVars (coreDef poseAux) := by unfold PlainVars; decide

theorem poseIx_distinct : poseIx.Distinct := by unfold PoseIdx.Distinct; decide

theorem one_att : attResidual ((Quat.one : Quat ℝ).conj.mul Quat.one) = some 0 := by
  have h : ((Quat.one : Quat ℝ).conj.mul Quat.one).w ≠ 0 := by simp [Quat.one, Quat.conj, Quat.mul]
  rw [attResidual, if_neg h]
  congr 1
  funext i
  fin_cases i <;> simp [Quat.one, Quat.conj, Quat.mul, Quat.vec]

theorem one_predAtt (c : ℝ) :
    (PoseView.mk 0 Quat.one c Quat.one 0 Quat.one 0 : PoseView ℝ).predAtt = Quat.one := by
  simp [PoseView.predAtt, Quat.mul_one']

theorem one_yaw : (yawResidual (Quat.one : Quat ℝ)).isSome := by
  have : (1 : ℝ) - 2 * ((Quat.one : Quat ℝ).y * (Quat.one : Quat ℝ).y +
      (Quat.one : Quat ℝ).z * (Quat.one : Quat ℝ).z) ≠ 0 := by simp [Quat.one]
  rw [yawResidual, if_neg this]
  rfl

/-- The hypotheses of the partial theorem hold for a pose filter with scale 2; along the direction
`(1, …, 1)` without `p_wv` the rows 0 to 5 are right. -/
example : ∃ H, poseH poseIx 0 (scaleState 2) = some H ∧ ∃ d,
    DerivAlong (poseRes poseIx ![1, 2, 3] Quat.one) (scaleState 2)
      (fun k => if k.val = 19 ∨ k.val = 20 ∨ k.val = 21 then 0 else 1) d ∧
    ∀ i : Fin 7, i ≠ 6 → d i = -(H *ᵥ fun k => if k.val = 19 ∨ k.val = 20 ∨ k.val = 21 then 0 else 1) i := by
  obtain ⟨H, e, h⟩ := C44_pose_partial poseIx 0 (scaleState 2) _ ![1, 2, 3] Quat.one poseDef_ok.1
    posePlain (scaleState_unit 2) (scaleState_view 2) poseIx_distinct
    (by rw [one_predAtt]; exact one_att) one_yaw
  refine ⟨H, e, h _ (fun i _ hf => ?_) (Or.inl fun j hj k hk => ?_)⟩
  · simp at hf
  · rw [owns_iff (indexingErrors_eq_zero.2 poseDef_ok.1)] at hk
    have : j = ⟨7, by decide⟩ := Fin.ext hj
    subst this
    have o : offset errLen (coreDef poseAux) 7 = 19 := by decide
    have l : errLen ((coreDef poseAux).get ⟨7, by decide⟩) = 3 := by decide
    simp only [o, l] at hk
    simp only
    rw [if_pos (by omega)]

/-- A unit error in one entry. -/
def unitErr {n : Nat} (k : Nat) : Fin n → ℝ := fun i => if i.val = k then 1 else 0

theorem pose_violation (c : ℝ) (k : Nat) (r : Fin 7)
    (hne : rows7 ((c • (Quat.one : Quat ℝ).toRot - 1) *ᵥ
        segOf (D := coreDef poseAux) (unitErr k) 7 3) 0
      (yawDeriv Quat.one (segOf (D := coreDef poseAux) (unitErr k) 6 3)) r ≠ 0) :
    ∃ H, poseH poseIx 0 (scaleState c) = some H ∧ ∃ d,
      DerivAlong (poseRes poseIx 0 Quat.one) (scaleState c) (unitErr k) d ∧
      d r ≠ -(H *ᵥ unitErr k) r := by
  obtain ⟨H, e, h⟩ := pose_compare poseIx 0 (scaleState c) _ 0 Quat.one poseDef_ok.1
    posePlain (scaleState_unit c) (scaleState_view c) poseIx_distinct
    (by rw [one_predAtt]; exact one_att) one_yaw
  refine ⟨H, e, _, h (unitErr k) (fun i _ hf => by simp at hf), ?_⟩
  rw [Pi.add_apply, Pi.neg_apply]
  intro h0
  apply hne
  exact add_eq_left.mp h0

theorem one_toRot : (Quat.one : Quat ℝ).toRot = 1 := by
  ext i j
  fin_cases i <;> fin_cases j <;> simp [Quat.one, Quat.toRot]

theorem seg_unit (i k : Nat) (hk : offset errLen (coreDef poseAux) i = k) (j : Fin 3)
    (hj : k + j < total errLen (coreDef poseAux)) :
    segOf (D := coreDef poseAux) (unitErr (k + j)) i 3 j = 1 := by
  simp only [segOf, segD, hk]
  rw [dif_pos hj]
  simp [unitErr]

/-- **C44 is violated for `p_wv`.**  With scale 2, moving the vision frame along x changes the
residual by 2, but the entry of `H` is -1. -/
theorem C44_pwv_violated : ∃ H, poseH poseIx 0 (scaleState 2) = some H ∧ ∃ d,
    DerivAlong (poseRes poseIx 0 Quat.one) (scaleState 2) (unitErr 19) d ∧
    d 0 ≠ -(H *ᵥ unitErr 19) 0 := by
  apply pose_violation
  have h := seg_unit 7 19 (by decide) 0 (by decide)
  have h' : segOf (D := coreDef poseAux) (unitErr 19) 7 3 0 = 1 := h
  simp only [rows7, one_toRot]
  have : ((2 : ℝ) • (1 : M33 ℝ) - 1) = 1 := by rw [two_smul, add_sub_cancel_right]
  rw [this, Matrix.one_mulVec]
  simp [h']

/-- **C44 is violated for the yaw row.**  Turning `q_wv` about z changes row 6 of the residual, but
row 6 of `H` is zero. -/
theorem C44_yaw_violated : ∃ H, poseH poseIx 0 (scaleState 1) = some H ∧ ∃ d,
    DerivAlong (poseRes poseIx 0 Quat.one) (scaleState 1) (unitErr 18) d ∧
    d 6 ≠ -(H *ᵥ unitErr 18) 6 := by
  apply pose_violation
  have h : segOf (D := coreDef poseAux) (unitErr 18) 6 3 2 = 1 := seg_unit 6 16 (by decide) 2 (by decide)
  simp [rows7, yawDeriv, Quat.one, Quat.mul, pureH, h]

/-- **C44 for the pose sensor is violated.** -/
theorem C44_pose_violated : ¬ poseJacobian := by
  intro hcl
  obtain ⟨H, e, h⟩ := hcl poseAux poseIx 0 (scaleState 1) _ 0 Quat.one poseDef_ok.1
    posePlain (scaleState_unit 1) (scaleState_view 1) poseIx_distinct
    (by rw [one_predAtt]; exact one_att) one_yaw
  obtain ⟨H', e', d, hd, hne⟩ := C44_yaw_violated
  rw [e, Option.some.injEq] at e'
  subst e'
  have := (h (unitErr 18) (fun i _ hf => by simp at hf)).unique hd
  exact hne (by rw [← this]; rfl)

/-- A state of the position filter with position `x`, attitude `a` and offset `l`. -/
noncomputable def posState (x : V3 ℝ) (a : Quat ℝ) (l : V3 ℝ) : Vars ℝ (coreDef positionAux) :=
  Function.update (EKFState.setQ (EKFState.setP (blankState positionAux 0 0 0).vars x) a)
    ⟨5, by decide⟩ ⟨l, 0, false⟩

theorem posState_unit (x : V3 ℝ) (a : Quat ℝ) (l : V3 ℝ) (ha : a.normSq = 1) :
    UnitQuats (posState x a l) := by
  have h6 : (coreDef positionAux).length = 6 := by decide
  rintro ⟨n, hn⟩ q hq
  have hn' : n < 6 := by omega
  interval_cases n
  · cases hq
  · cases hq
  · have : some a = some q := hq
    rw [← Option.some.inj this]; exact ha
  · cases hq
  · cases hq
  · cases hq

theorem posState_reads (x : V3 ℝ) (a : Quat ℝ) (l : V3 ℝ) :
    getVec (posState x a l) 5 3 = some l ∧ EKFState.p (posState x a l) = x ∧
      EKFState.q (posState x a l) = a := ⟨rfl, rfl, rfl⟩

theorem positionDef_ok : (∀ i (hi : i < (coreDef positionAux).length),
    (coreDef positionAux)[i].name = i) ∧ PlainVars (coreDef positionAux) := by
  constructor
  · decide
  · unfold PlainVars; decide

/-- The hypotheses of the position theorem hold for a rotated state with an offset. -/
example : ∃ H, positionH 5 0 (posState ![1, 2, 3] ⟨3 / 5, 0, 4 / 5, 0⟩ ![4, 5, 6]) = some H ∧
    DerivAlong (positionResidual 5 ![7, 8, 9]) (posState ![1, 2, 3] ⟨3 / 5, 0, 4 / 5, 0⟩ ![4, 5, 6])
      (unitErr 7) (-(H *ᵥ unitErr 7)) := by
  obtain ⟨H, e, h⟩ := C44_position 5 0 (posState ![1, 2, 3] ⟨3 / 5, 0, 4 / 5, 0⟩ ![4, 5, 6])
    ![4, 5, 6] ![7, 8, 9] positionDef_ok.1 positionDef_ok.2
    (posState_unit _ _ _ (by norm_num [Quat.normSq])) rfl (by decide)
  exact ⟨H, e, h _ (by simp)⟩

theorem posePressureDef_ok : (∀ i (hi : i < (coreDef posePressureAux).length),
    (coreDef posePressureAux)[i].name = i) ∧ PlainVars (coreDef posePressureAux) := by
  constructor
  · decide
  · unfold PlainVars; decide

/-- The hypotheses of the pressure theorem hold for the pose-pressure filter. -/
example : ∃ H, pressureH (aux := posePressureAux) 10 = some H ∧
    DerivAlong (pressureResidual 10 5) (blankState posePressureAux 0 0 0).vars
      (unitErr 2) (-(H *ᵥ unitErr 2)) := by
  obtain ⟨H, e, h⟩ := C44_pressure 10 (blankState posePressureAux 0 0 0).vars 0 5
    posePressureDef_ok.1 posePressureDef_ok.2 (blank_unitQuats _ _ _ _) rfl
  exact ⟨H, e, h _⟩

end MSF
