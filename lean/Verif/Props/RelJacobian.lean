import Verif.Lemmas.RelJacobian
import Verif.Lemmas.LengthUnit3
import Verif.Props.LengthUnit
import Verif.Model.Relative

/-!
# C122: the matrices of a relative update are the derivatives of its residual
-/

namespace MSF

open Matrix

section
variable {aux : List VarDesc}

/-- What an update of the pose sensor in relative mode uses: the residual `r` of the two states, two matrices and
the correction `c` computed from them; `u` is the outcome of the update. -/
def RelUses (uc : UserCalc (coreDef aux)) (tr : Tracker ℝ) (ix : PoseIdx) (prev z : PoseMeas ℝ) (xo : Values (coreDef aux)) (Po F : ErrMat ℝ (coreDef aux))
    (x : Values (coreDef aux)) (P : ErrMat ℝ (coreDef aux))
    (u : Upd (Values (coreDef aux)) (ErrMat ℝ (coreDef aux)) (Tracker ℝ))
    (Hold Hnew : Matrix (Fin 7) (Fin (total errLen (coreDef aux))) ℝ) (r : Fin 7 → ℝ) : Prop :=
  relPoseRes ix (prev.z_p, prev.z_q) (z.z_p, z.z_q) (toVars xo) (toVars x) = some r ∧
    ∃ c vars, calculateCorrectionRelative Po P F Hold Hnew r z.R_ = some (c, u.P) ∧
      applyCorrection uc tr (toVars x) c = some (u.tr, vars, u.fuzzy) ∧ u.x = values vars

/-- The full claim: at states whose predicted turn is the measured one, the position and attitude rows change
along every pair of error states as the two matrices say. -/
def relativeJacobian : Prop :=
  ∀ (aux : List VarDesc) (uc : UserCalc (coreDef aux)) (tr : Tracker ℝ) (ix : PoseIdx) (fixed : Nat)
    (prev z : PoseMeas ℝ) (xo : Values (coreDef aux)) (Po F : ErrMat ℝ (coreDef aux)) (x : Values (coreDef aux))
    (P : ErrMat ℝ (coreDef aux)) (u : Upd (Values (coreDef aux)) (ErrMat ℝ (coreDef aux)) (Tracker ℝ)),
    (∀ i (hi : i < (coreDef aux).length), (coreDef aux)[i].name = i) → PlainVars (coreDef aux) →
    UnitQuats (toVars xo) → UnitQuats (toVars x) → ix.Distinct →
    relPoseUpdate uc tr ix fixed prev z xo Po F x P = some u →
    ∀ (Hold Hnew : Matrix (Fin 7) (Fin (total errLen (coreDef aux))) ℝ) (r : Fin 7 → ℝ),
      poseH ix fixed (toVars xo) = some (-Hold) → poseH ix fixed (toVars x) = some Hnew →
      RelUses uc tr ix prev z xo Po F x P u Hold Hnew r → r 3 = 0 → r 4 = 0 → r 5 = 0 →
      ∀ δo δn, RespectsFixed ix fixed δo → RespectsFixed ix fixed δn → ZeroAt δo ix.pwv → ZeroAt δn ix.pwv →
        ∃ d, DerivAlongBoth (relPoseRes ix (prev.z_p, prev.z_q) (z.z_p, z.z_q)) (toVars xo) (toVars x) δo δn d ∧
          ∀ i : Fin 7, i ≠ 6 → d i = -(Hold *ᵥ δo + Hnew *ᵥ δn) i

theorem relPoseUpdate_parts {uc : UserCalc (coreDef aux)} {tr : Tracker ℝ} {ix : PoseIdx} {fixed : Nat}
    {prev z : PoseMeas ℝ} {xo : Values (coreDef aux)} {Po F : ErrMat ℝ (coreDef aux)} {x : Values (coreDef aux)}
    {P : ErrMat ℝ (coreDef aux)} {u : Upd (Values (coreDef aux)) (ErrMat ℝ (coreDef aux)) (Tracker ℝ)}
    (h : relPoseUpdate uc tr ix fixed prev z xo Po F x P = some u) :
    ∃ Ho Hn vo vn r c vars, poseH ix fixed (toVars xo) = some Ho ∧ poseH ix fixed (toVars x) = some Hn ∧
      poseView ix (toVars xo) = some vo ∧ poseView ix (toVars x) = some vn ∧
      PoseView.relResidual vo vn (prev.z_p, prev.z_q) (z.z_p, z.z_q) = some r ∧
      calculateCorrectionRelative Po P F (-Ho) Hn r z.R_ = some (c, u.P) ∧
      applyCorrection uc tr (toVars x) c = some (u.tr, vars, u.fuzzy) ∧ u.x = values vars := by
  unfold relPoseUpdate at h
  simp only [Option.bind_eq_bind, Option.bind_eq_some_iff] at h
  obtain ⟨Ho, h1, Hn, h2, vo, h3, vn, h4, r, h5, ⟨c, P'⟩, h6, ⟨t', vars, fz⟩, h7, h8⟩ := h
  have e := Option.some.inj h8
  subst e
  exact ⟨Ho, Hn, vo, vn, r, c, vars, h1, h2, h3, h4, h5, h6, h7, rfl⟩

theorem rel_att_zero {vo vn : PoseView ℝ} {prev z : V3 ℝ × Quat ℝ} {r : Fin 7 → ℝ}
    (h : PoseView.relResidual vo vn prev z = some r) (h3 : r 3 = 0) (h4 : r 4 = 0) (h5 : r 5 = 0) :
    attResidual ((vn.predAtt.conj.mul vo.predAtt).conj.mul (z.2.conj.mul prev.2)) = some 0 ∧
      (yawResidual vn.qwv).isSome := by
  unfold PoseView.relResidual at h
  simp only [Option.bind_eq_bind, Option.bind_eq_some_iff] at h
  obtain ⟨a, ha, y, hy, hr⟩ := h
  refine ⟨ha.trans (congrArg some ?_), by rw [hy]; rfl⟩
  have := Option.some.inj hr
  subst this
  funext i
  fin_cases i
  · exact h3
  · exact h4
  · exact h5

/-- **C122, partial.**  Whatever relative pose measurement is applied, to states with unit quaternions, in any state
definition: the update uses the residual of the two states and two matrices.  At states whose predicted turn is the
measured one, along every pair of error states that does not touch fixed variables or `p_wv` (or `L R(q_wv) = 1`),
the position rows change as the matrices say.  The attitude rows change with the opposite sign, and the new state's
part is turned by the predicted motion.
Missing: the sign and the turn of the attitude rows, see `C122_attitude_violated`; the block of `p_wv` and the yaw
row, see C44. -/
theorem C122_position_partial (uc : UserCalc (coreDef aux)) (tr : Tracker ℝ) (ix : PoseIdx) (fixed : Nat)
    (prev z : PoseMeas ℝ) (xo : Values (coreDef aux)) (Po F : ErrMat ℝ (coreDef aux)) (x : Values (coreDef aux))
    (P : ErrMat ℝ (coreDef aux)) (u : Upd (Values (coreDef aux)) (ErrMat ℝ (coreDef aux)) (Tracker ℝ))
    (hn : ∀ i (hi : i < (coreDef aux).length), (coreDef aux)[i].name = i) (hp : PlainVars (coreDef aux))
    (huo : UnitQuats (toVars xo)) (hun : UnitQuats (toVars x)) (hd : ix.Distinct)
    (h : relPoseUpdate uc tr ix fixed prev z xo Po F x P = some u) :
    ∃ (vo vn : PoseView ℝ) (Hold Hnew : Matrix (Fin 7) (Fin (total errLen (coreDef aux))) ℝ) (r : Fin 7 → ℝ),
      poseView ix (toVars xo) = some vo ∧ poseView ix (toVars x) = some vn ∧
      RelUses uc tr ix prev z xo Po F x P u Hold Hnew r ∧
      (r 3 = 0 → r 4 = 0 → r 5 = 0 → ∀ δo δn, RespectsFixed ix fixed δo → RespectsFixed ix fixed δn →
        (ZeroAt δo ix.pwv ∨ vo.L • vo.qwv.toRot = 1) → (ZeroAt δn ix.pwv ∨ vn.L • vn.qwv.toRot = 1) →
        ∃ d, DerivAlongBoth (relPoseRes ix (prev.z_p, prev.z_q) (z.z_p, z.z_q)) (toVars xo) (toVars x) δo δn d ∧
          (∀ i : Fin 7, i.val < 3 → d i = -(Hold *ᵥ δo + Hnew *ᵥ δn) i) ∧
          ![d 3, d 4, d 5] = ![(Hold *ᵥ δo) 3, (Hold *ᵥ δo) 4, (Hold *ᵥ δo) 5] +
            (vo.predAtt.conj.mul vn.predAtt).toRot *ᵥ ![(Hnew *ᵥ δn) 3, (Hnew *ᵥ δn) 4, (Hnew *ᵥ δn) 5]) := by
  obtain ⟨Ho, Hn, vo, vn, r, c, vars, h1, h2, h3, h4, h5, h6⟩ := relPoseUpdate_parts h
  refine ⟨vo, vn, -Ho, Hn, r, h3, h4, ⟨?_, c, vars, h6⟩, fun r3 r4 r5 δo δn fo fn wo wn => ?_⟩
  · rw [relPoseRes, h3, Option.bind_some, h4, Option.bind_some, h5]
  obtain ⟨ha, hy⟩ := rel_att_zero h5 r3 r4 r5
  refine ⟨_, relPose_deriv ix _ _ vo vn hn hp huo hun h3 h4 _ _ ha hy δo δn, ?_⟩
  obtain ⟨Ho', e, ho⟩ := poseH_rows ix fixed (toVars xo) vo hn h3 hd
  obtain rfl := Option.some.inj (h1.symm.trans e)
  obtain ⟨Hn', e', hnn⟩ := poseH_rows ix fixed (toVars x) vn hn h4 hd
  obtain rfl := Option.some.inj (h2.symm.trans e')
  have zero : ∀ {s : Vars ℝ (coreDef aux)} {v : PoseView ℝ} {δ : Fin (total errLen (coreDef aux)) → ℝ},
      poseView ix s = some v → (ZeroAt δ ix.pwv ∨ v.L • v.qwv.toRot = 1) →
      (v.L • v.qwv.toRot - 1) *ᵥ segOf δ ix.pwv 3 = 0 := by
    intro s v δ hv hw
    obtain ⟨-, -, -, -, -, -, rpwv⟩ := poseView_reads hv
    obtain ⟨lpwv, -⟩ := getVec_kind s rpwv
    rcases hw with hw | hw
    · rw [hw.segOf (indexingErrors_eq_zero.2 hn) lpwv 3 (errLen_vec rpwv lpwv),
        Matrix.mulVec_zero]
    · rw [hw, sub_self, Matrix.zero_mulVec]
  have eo := ho δo fo
  have en := hnn δn fn
  rw [zero h3 wo, add_zero] at eo
  rw [zero h4 wn, add_zero] at en
  have ao : ![(Ho *ᵥ δo) 3, (Ho *ᵥ δo) 4, (Ho *ᵥ δo) 5] = attDeriv ix vo δo := by
    rw [eo]; funext i; fin_cases i <;> rfl
  have an : ![(Hn *ᵥ δn) 3, (Hn *ᵥ δn) 4, (Hn *ᵥ δn) 5] = attDeriv ix vn δn := by
    rw [en]; funext i; fin_cases i <;> rfl
  have no : ![((-Ho) *ᵥ δo) 3, ((-Ho) *ᵥ δo) 4, ((-Ho) *ᵥ δo) 5] = -attDeriv ix vo δo := by
    rw [← ao, neg_mulVec]; funext i; fin_cases i <;> rfl
  refine ⟨fun i hi => ?_, ?_⟩
  · rw [neg_mulVec, Pi.add_apply, Pi.neg_apply, eo, en]
    have : i = 0 ∨ i = 1 ∨ i = 2 := by omega
    rcases this with rfl | rfl | rfl <;> simp [rows7] <;> ring
  · rw [no, an]
    funext i
    rw [Pi.add_apply, Pi.neg_apply]
    fin_cases i
    · exact sub_eq_neg_add _ _
    · exact sub_eq_neg_add _ _
    · exact sub_eq_neg_add _ _

end

/-! ### Violations -/

/-- The pose filter at the origin with scale 1. -/
noncomputable def atOrigin : Values (coreDef poseAux) := values (scaleState 1)

theorem atOrigin_view : poseView poseIx (toVars atOrigin) =
    some ⟨0, Quat.one, 1, Quat.one, 0, Quat.one, 0⟩ := rfl

theorem atOrigin_unit : UnitQuats (toVars atOrigin) := by
  have h : ∀ i : Fin (coreDef poseAux).length, ∀ q, quatOf _ ((toVars atOrigin) i).val = some q →
      q = Quat.one := by
    intro i q hq
    fin_cases i <;> first | exact (Option.some.inj hq).symm | cases hq
  intro i q hq
  rw [h i q hq]
  exact Quat.normSq_one

/-- The error state of the first attitude component. -/
def roll : Fin (total errLen (coreDef poseAux)) := ⟨6, by decide⟩

theorem roll_seg : (∀ l ∈ [0, 6, 7, 8, 9], segOf (D := coreDef poseAux) (Pi.single roll (1 : ℝ)) l 3 = 0) ∧
    segOf (D := coreDef poseAux) (Pi.single roll (1 : ℝ)) 5 1 = 0 ∧
    segOf (D := coreDef poseAux) (Pi.single roll (1 : ℝ)) 2 3 = ![1, 0, 0] := by
  refine ⟨fun l hl => ?_, ?_, ?_⟩
  · funext i
    simp only [List.mem_cons, List.not_mem_nil, or_false] at hl
    rcases hl with rfl | rfl | rfl | rfl | rfl <;> fin_cases i <;> rfl
  · funext i; fin_cases i; rfl
  · funext i; fin_cases i <;> rfl

theorem atOrigin_att : attDeriv (aux := poseAux) poseIx ⟨0, Quat.one, 1, Quat.one, 0, Quat.one, 0⟩
    (Pi.single roll 1) = ![1, 0, 0] := by
  obtain ⟨z, -, o⟩ := roll_seg
  unfold attDeriv
  simp only [z poseIx.qwv (by decide), z poseIx.qic (by decide), o, mulVec_zero, one_toRot]
  simp

/-- The column of the roll error. -/
theorem atOrigin_col : ∃ H, poseH poseIx 0 (toVars atOrigin) = some H ∧
    ∀ r, H r roll = (Pi.single 3 1 : Fin 7 → ℝ) r := by
  obtain ⟨H, hH, hm⟩ := poseH_rows poseIx 0 _ _ poseDef_ok.1 atOrigin_view poseIx_distinct
  refine ⟨H, hH, fun r => ?_⟩
  have col : H r roll = (H *ᵥ Pi.single roll 1) r := by rw [mulVec_single_one]; rfl
  rw [col, hm _ (fun i _ hf => by simp at hf), atOrigin_att]
  obtain ⟨z, z5, o⟩ := roll_seg
  have z5' : segOf (D := coreDef poseAux) (Pi.single roll (1 : ℝ)) poseIx.L 1 = 0 := z5
  unfold placeDeriv posDeriv
  simp only [z 0 (by decide), z poseIx.qwv (by decide), z poseIx.pwv (by decide),
    z poseIx.pic (by decide), z5', o, mulVec_zero, one_toRot]
  fin_cases r <;> simp [rows7, Pi.single_apply]

theorem atOrigin_res (w s : ℝ) (hw : w ≠ 0) : ∃ r, relPoseRes poseIx (0, Quat.one) (0, ⟨w, s, 0, 0⟩)
    (toVars atOrigin) (toVars atOrigin) = some r ∧ r 3 = -(2 * s / w) ∧ r 4 = 0 ∧ r 5 = 0 := by
  obtain ⟨y, hy⟩ := Option.isSome_iff_exists.1 one_yaw
  have hp : (PoseView.mk 0 Quat.one 1 Quat.one 0 Quat.one 0 : PoseView ℝ).predAtt =
    Quat.one := one_predAtt 1
  have he : (((Quat.one : Quat ℝ).conj.mul Quat.one).conj.mul ((⟨w, s, 0, 0⟩ : Quat ℝ).conj.mul Quat.one)) =
      ⟨w, -s, 0, 0⟩ := by
    ext <;> simp [Quat.one, Quat.conj, Quat.mul]
  have ha : attResidual (⟨w, -s, 0, 0⟩ : Quat ℝ) = some ![-(2 * s / w), 0, 0] := by
    rw [attResidual, if_neg hw]
    congr 1
    funext i
    fin_cases i <;> simp [Quat.vec]
    ring
  refine ⟨rows7 ((0 - 0) - (PoseView.predPos ⟨0, Quat.one, 1, Quat.one, 0, Quat.one, 0⟩ -
    PoseView.predPos ⟨0, Quat.one, 1, Quat.one, 0, Quat.one, 0⟩)) ![-(2 * s / w), 0, 0] y, ?_, rfl, rfl, rfl⟩
  unfold relPoseRes
  rw [atOrigin_view]
  simp only [Option.bind_some, PoseView.relResidual, hp, he, ha, hy, Option.bind_eq_bind]

/-- If the older state is certain, the correction is the one of an absolute measurement with the matrix of the
newer state. -/
theorem relative_certain {k m : Nat} {P F : Matrix (Fin k) (Fin k) ℝ} {Hold Hnew : Matrix (Fin m) (Fin k) ℝ}
    {r : Fin m → ℝ} {R : Matrix (Fin m) (Fin m) ℝ} {thr : ℝ} {c : Fin k → ℝ} {P' : Matrix (Fin k) (Fin k) ℝ}
    (h : calculateCorrection false thr P Hnew r R = some (some (c, P'))) :
    ∃ P'', calculateCorrectionRelative 0 P F Hold Hnew r R = some (c, P'') := by
  have e0 : clonedCov 0 P F * (clonedH Hold Hnew)ᵀ = fromRows 0 (P * Hnewᵀ) := by
    unfold clonedCov clonedH
    rw [transpose_fromCols, fromBlocks_mul_fromRows]
    simp
  have hS : relInnovCov 0 P F Hold Hnew R = innovCov P Hnew R := by
    unfold relInnovCov innovCov
    rw [Matrix.mul_assoc, e0]
    unfold clonedH
    rw [fromCols_mul_fromRows, Matrix.mul_zero, zero_add, Matrix.mul_assoc]
  have hK : relGain 0 P F Hold Hnew R = gain P Hnew R := by
    unfold relGain gain
    rw [hS, e0, fromRows_mul]
    exact toRows₂_fromRows _ _
  unfold calculateCorrection at h
  split at h
  · cases h
  rename_i hd
  rw [if_neg (by simp)] at h
  have := Option.some.inj (Option.some.inj h)
  refine ⟨symInPlace (P - gain P Hnew R * innovCov P Hnew R * (gain P Hnew R)ᵀ), ?_⟩
  unfold calculateCorrectionRelative
  rw [hS, if_neg hd, hK]
  obtain ⟨rfl, -⟩ := Prod.mk.inj this
  rfl

/-- The update of a filter at the origin, uncertain in roll only, by a turn about x. -/
theorem origin_update (w s a : ℝ) (hw : w ≠ 0) (ha : 0 ≤ a) (F : ErrMat ℝ (coreDef poseAux)) :
    ∃ u, relPoseUpdate (aux := poseAux) (scaleCalc false) Tracker.reset poseIx 0 ⟨0, Quat.one, diagonal fun _ => 1⟩
        ⟨0, ⟨w, s, 0, 0⟩, diagonal fun _ => 1⟩ atOrigin 0 F atOrigin (diagonal (Pi.single roll a)) = some u ∧
      getQuat (toVars u.x) 2 = some (quatFromSmallAngle ![a * -(2 * s / w) / (1 + a), 0, 0]) := by
  have e1 : (scaleCalc false : UserCalc (coreDef poseAux)) = scaleCalcWith 0.1 false := scaleCalc_eq false
  rw [e1]
  obtain ⟨H, hH, hc⟩ := atOrigin_col
  obtain ⟨r, hr, r3, -⟩ := atOrigin_res w s hw
  obtain ⟨P', hP'⟩ := single_correction H roll 3 a 1 (fun _ => 1) r hc ha (fun _ => one_pos) 0
  obtain ⟨P'', hP''⟩ := relative_certain (F := F) (Hold := -H) hP'
  rw [r3, mul_one, mul_one] at hP''
  set b := a * -(2 * s / w) / (1 + a) with hb
  obtain ⟨s1, hs1, -, hq1⟩ := correct_reads (toVars atOrigin) (Pi.single roll b)
    poseDef_ok.1 posePlain atOrigin_unit
  obtain ⟨t', ht'⟩ := fuzzy_reset ((scaleCalcWith 0.1 false : UserCalc (coreDef poseAux)).sanity s1 (toVars atOrigin)
    (Pi.single roll b)) (toVars atOrigin)
  have hA : applyCorrection (aux := poseAux) (scaleCalcWith 0.1 false) Tracker.reset (toVars atOrigin)
      (Pi.single roll b) = some (t', (scaleCalcWith 0.1 false : UserCalc (coreDef poseAux)).sanity s1
        (toVars atOrigin) (Pi.single roll b), false) := by
    change ((correct (toVars atOrigin) (Pi.single roll b)).bind fun s' =>
      fuzzyCheck' _ ((scaleCalcWith 0.1 false : UserCalc (coreDef poseAux)).sanity s' (toVars atOrigin) _) _ _) = _
    rw [hs1]
    exact ht'
  refine ⟨⟨t', values ((scaleCalcWith 0.1 false : UserCalc (coreDef poseAux)).sanity s1
        (toVars atOrigin) (Pi.single roll b)), P'', true, false⟩, ?_, ?_⟩
  · unfold relPoseUpdate
    rw [hH]
    simp only [Option.bind_eq_bind, Option.bind_some]
    rw [atOrigin_view]
    simp only [Option.bind_some]
    have hr' : PoseView.relResidual ⟨0, Quat.one, 1, Quat.one, 0, Quat.one, 0⟩
      ⟨0, Quat.one, 1, Quat.one, 0, Quat.one, 0⟩ ((0 : V3 ℝ), Quat.one) (0, ⟨w, s, 0, 0⟩) = some r := hr
    rw [hr', Option.bind_some]
    refine (congrArg (fun o => Option.bind o _) hP'').trans ?_
    simp only [Option.bind_some]
    refine (congrArg (fun o => Option.bind o _) hA).trans ?_
    rfl
  · have h := hq1 2 Quat.one rfl
    have e : segOf (D := coreDef poseAux) (Pi.single roll b) 2 3 = ![b, 0, 0] := by
      funext i; fin_cases i <;> rfl
    rw [e, Quat.one_mul'] at h
    have h2 := sanity_other (rest := poseAux.tail) 0.1 s1 (i := ⟨2, by decide⟩) (by decide)
    have h3 : (((scaleCalcWith 0.1 false : UserCalc (coreDef poseAux)).sanity s1 (toVars atOrigin)
        (Pi.single roll b) ⟨2, by decide⟩).val : Quat ℝ) = (s1 ⟨2, by decide⟩).val :=
      congrArg StateVar.val h2
    exact (congrArg some h3).trans h

/-- The hypotheses of the partial theorem hold for a filter that has not moved and a sensor that has seen no
motion: the attitude rows of the residual are zero. -/
example : ∃ u, relPoseUpdate (aux := poseAux) (scaleCalc false) Tracker.reset poseIx 0
      ⟨0, Quat.one, diagonal fun _ => 1⟩ ⟨0, ⟨1, 0, 0, 0⟩, diagonal fun _ => 1⟩ atOrigin 0 1 atOrigin
      (diagonal (Pi.single roll 1)) = some u ∧ UnitQuats (toVars atOrigin) ∧ poseIx.Distinct ∧
    ∃ r, relPoseRes poseIx (0, Quat.one) (0, ⟨1, 0, 0, 0⟩) (toVars atOrigin) (toVars atOrigin) = some r ∧
      r 3 = 0 ∧ r 4 = 0 ∧ r 5 = 0 := by
  obtain ⟨u, hu, -⟩ := origin_update 1 0 1 one_ne_zero zero_le_one 1
  obtain ⟨r, hr, h3, h4, h5⟩ := atOrigin_res 1 0 one_ne_zero
  exact ⟨u, hu, atOrigin_unit, poseIx_distinct, r, hr, by rw [h3]; norm_num, h4, h5⟩

/-- **C122 is violated for the attitude.**  When the filter predicts no motion and the sensor has seen none, a small
roll of the newer state changes the residual by plus the same amount, but the matrix says minus. -/
theorem C122_attitude_violated : ¬ relativeJacobian := by
  intro hcl
  obtain ⟨u, hu, -⟩ := origin_update 1 0 1 one_ne_zero zero_le_one 1
  obtain ⟨Ho, Hn, vo', vn', r', c, vars, h1, h2, h3, h4, h5, h6⟩ := relPoseUpdate_parts hu
  obtain rfl := Option.some.inj (h3.symm.trans atOrigin_view)
  obtain rfl := Option.some.inj (h4.symm.trans atOrigin_view)
  have hres : relPoseRes poseIx (0, Quat.one) (0, ⟨1, 0, 0, 0⟩) (toVars atOrigin) (toVars atOrigin) = some r' := by
    rw [relPoseRes, h3, Option.bind_some, Option.bind_some, h5]
  obtain ⟨r0, hr0, z3, z4, z5⟩ := atOrigin_res 1 0 one_ne_zero
  obtain rfl := Option.some.inj (hres.symm.trans hr0)
  have z3' : r' 3 = 0 := by rw [z3]; norm_num
  have zo : ZeroAt (D := coreDef poseAux) 0 poseIx.pwv := fun _ _ _ _ => rfl
  have zn : ZeroAt (D := coreDef poseAux) (Pi.single roll (1 : ℝ)) poseIx.pwv := by
    intro j hj k hk
    rw [owns_iff (indexingErrors_eq_zero.2 poseDef_ok.1)] at hk
    have : j = ⟨7, by decide⟩ := Fin.ext hj
    subst this
    have o : offset errLen (coreDef poseAux) 7 = 19 := by decide
    simp only [o] at hk
    exact Pi.single_eq_of_ne (fun e => by rw [e] at hk; exact absurd hk.1 (by decide)) _
  obtain ⟨d, hd, hrow⟩ := hcl poseAux _ _ poseIx 0 _ _ _ _ _ _ _ u poseDef_ok.1 posePlain atOrigin_unit
    atOrigin_unit poseIx_distinct hu (-Ho) Hn r' (by rw [neg_neg]; exact h1) h2 ⟨hres, c, vars, h6⟩ z3' z4 z5
    0 (Pi.single roll 1) (fun i _ hf => by simp at hf) (fun i _ hf => by simp at hf) zo zn
  obtain ⟨ha, hy⟩ := rel_att_zero h5 z3' z4 z5
  have hd' := relPose_deriv poseIx _ _ _ _ poseDef_ok.1 posePlain atOrigin_unit atOrigin_unit h3 h4
    ((0 : V3 ℝ), Quat.one) (0, ⟨1, 0, 0, 0⟩) ha hy 0 (Pi.single roll 1)
  have he := hd.unique hd'
  obtain ⟨H, hH, hc⟩ := atOrigin_col
  obtain rfl := Option.some.inj (h2.symm.trans hH)
  have hr3 := hrow 3 (by decide)
  rw [mulVec_zero, zero_add, mulVec_single_one] at hr3
  have hc3 : Hn.col roll 3 = 1 := hc 3
  have hr3' : d 3 = -Hn.col roll 3 := hr3
  rw [hc3, congrFun he 3] at hr3'
  have e3 : ∀ (a b : V3 ℝ) (c : ℝ), rows7 a b c 3 = b 0 := fun _ _ _ => rfl
  rw [e3, one_predAtt] at hr3'
  have h1 : (Quat.one : Quat ℝ).conj.mul Quat.one = Quat.one := by
    ext <;> simp [Quat.one, Quat.conj, Quat.mul]
  have hz : attDeriv (aux := poseAux) poseIx ⟨0, Quat.one, 1, Quat.one, 0, Quat.one, 0⟩ 0 = 0 := by
    have z : ∀ l, segOf (D := coreDef poseAux) 0 l 3 = 0 := by
      intro l
      funext i
      unfold segOf segD
      split <;> rfl
    unfold attDeriv
    simp only [z, mulVec_zero, add_zero]
  rw [h1, one_toRot, one_mulVec, hz, sub_zero, atOrigin_att] at hr3'
  norm_num at hr3'

/-- **C122 is violated: relative measurements turn the estimate the wrong way.**  The older state is certain, and the
newer one is uncertain in roll only, with any variance.  The filter predicts no motion.  Whatever turn about x the
sensor has seen since the last measurement, the update turns the estimate in the opposite direction. -/
theorem C122_turn_violated (w s a : ℝ) (hw : 0 < w) (hs : 0 < s) (ha : 0 < a) (F : ErrMat ℝ (coreDef poseAux)) :
    ∃ u q', relPoseUpdate (aux := poseAux) (scaleCalc false) Tracker.reset poseIx 0 ⟨0, Quat.one, diagonal fun _ => 1⟩
        ⟨0, ⟨w, s, 0, 0⟩, diagonal fun _ => 1⟩ atOrigin 0 F atOrigin (diagonal (Pi.single roll a)) = some u ∧
      getQuat (toVars u.x) 2 = some q' ∧ q'.x < 0 := by
  obtain ⟨u, hu, hq⟩ := origin_update w s a hw.ne' ha.le F
  refine ⟨u, _, hu, hq, ?_⟩
  have hb : a * -(2 * s / w) / (1 + a) < 0 := by
    have : 0 < 2 * s / w := by positivity
    apply div_neg_of_neg_of_pos
    · nlinarith
    · linarith
  set b := a * -(2 * s / w) / (1 + a)
  unfold quatFromSmallAngle
  simp only []
  split
  · simp; linarith
  · rename_i h
    have hq : (0 : ℝ) < 1 + sqNorm3 ![b, 0, 0] / 4 := by linarith [not_lt.1 h]
    have := Real.sqrt_pos.2 hq
    change b * (1 / Real.sqrt (1 + sqNorm3 ![b, 0, 0] / 4) * 0.5) < 0
    apply mul_neg_of_neg_of_pos hb
    positivity

end MSF
