import Verif.Lemmas.FixedStates
import Verif.Props.Predict
import Verif.Lemmas.Spherical
import Verif.Props.YawRow

/-!
# C78: fixed calibration states do not move
-/

namespace MSF

open Matrix

section
variable {aux : List VarDesc}

theorem pad_zero_vec {m a : Nat} (row : Nat) : (pad row (0 : Fin a → ℝ) : Fin m → ℝ) = 0 := by
  funext r
  simp only [pad]
  split <;> rfl

theorem fixed_block {m n : Nat} {b : Bool} (B : Matrix (Fin m) (Fin n) ℝ) (u : Fin n → ℝ)
    (h : b = true ∨ u = 0) : (if b = true then 0 else B) *ᵥ u = 0 := by
  rcases h with h | h
  · rw [if_pos h, zero_mulVec]
  · rw [h, mulVec_zero]

/-- The columns of a variable the pose measurement does not use, or that is fixed, are zero. -/
theorem poseH_spares {ix : PoseIdx} {fixed : Nat} {s : Vars ℝ (coreDef aux)}
    {H : Matrix (Fin 7) (Fin (total errLen (coreDef aux))) ℝ}
    (hn : ∀ i (hi : i < (coreDef aux).length), (coreDef aux)[i].name = i) (hd : ix.Distinct)
    (hH : poseH ix fixed s = some H) (i : Fin (coreDef aux).length) (h02 : i.val ≠ 0 ∧ i.val ≠ 2)
    (hf : i.val ∈ ix.clearOrder → fixed.testBit i = true) (a : Fin 7)
    (k : Fin (total errLen (coreDef aux))) (hk : Owns (coreDef aux) i k) : H a k = 0 := by
  have hie := indexingErrors_eq_zero.2 hn
  have hv : ∃ v, poseView ix s = some v := by
    unfold poseH at hH
    simp only [Option.bind_eq_bind] at hH
    obtain ⟨v, hv, -⟩ := Option.bind_eq_some_iff.1 hH
    exact ⟨v, hv⟩
  obtain ⟨v, hv⟩ := hv
  obtain ⟨H', hH', hm⟩ := poseH_mulVec ix fixed s v hn hv hd
  rw [hH, Option.some.injEq] at hH'
  subst hH'
  obtain ⟨-, -, rL, rqic, rpic, rqwv, rpwv⟩ := poseView_reads hv
  have l0 : 0 < (coreDef aux).length := by simp [coreDef, coreDescs]
  have l2 : 2 < (coreDef aux).length := by simp [coreDef, coreDescs]
  have seg : ∀ (j n : Nat) (hj : j < (coreDef aux).length), n = errLen (coreDef aux)[j] →
      j ≠ i.val → segOf (Pi.single k 1 : Fin (total errLen (coreDef aux)) → ℝ) j n = 0 := by
    intro j n hj hn' hji
    exact segOf_single hie i ⟨j, hj⟩ (fun e => hji (congrArg Fin.val e)) n hn' k hk
  have blk : ∀ (j n : Nat) (hj : j < (coreDef aux).length), j ∈ ix.clearOrder →
      n = errLen (coreDef aux)[j] → fixed.testBit j = true ∨
        segOf (Pi.single k 1 : Fin (total errLen (coreDef aux)) → ℝ) j n = 0 := by
    intro j n hj hjc hn'
    by_cases hji : j = i.val
    · left; rw [hji]; exact hf (hji ▸ hjc)
    · exact Or.inr (seg j n hj hn' hji)
  obtain ⟨lL, -⟩ := getVec_kind s rL
  obtain ⟨lqic, -⟩ := getQuat_kind s rqic
  obtain ⟨lpic, -⟩ := getVec_kind s rpic
  obtain ⟨lqwv, -⟩ := getQuat_kind s rqwv
  obtain ⟨lpwv, -⟩ := getVec_kind s rpwv
  have e := congrFun (hm (Pi.single k 1)) a
  rw [mulVec_single_one] at e
  rw [show H a k = H.col k a from rfl, e, seg 0 3 l0 rfl h02.1.symm, seg 2 3 l2 rfl h02.2.symm]
  rw [fixed_block _ _ (blk ix.L 1 lL (by simp [PoseIdx.clearOrder]) 
      (errLen_vec rL lL).symm),
    fixed_block _ _ (blk ix.qwv 3 lqwv (by simp [PoseIdx.clearOrder]) (errLen_quat rqwv lqwv).symm),
    fixed_block _ _ (blk ix.pic 3 lpic (by simp [PoseIdx.clearOrder]) (errLen_vec rpic lpic).symm),
    fixed_block _ _ (blk ix.pwv 3 lpwv (by simp [PoseIdx.clearOrder]) (errLen_vec rpwv lpwv).symm),
    fixed_block _ _ (blk ix.qwv 3 lqwv (by simp [PoseIdx.clearOrder]) (errLen_quat rqwv lqwv).symm),
    fixed_block _ _ (blk ix.qic 3 lqic (by simp [PoseIdx.clearOrder]) (errLen_quat rqic lqic).symm)]
  simp only [mulVec_zero, pad_zero_vec, add_zero, Pi.zero_apply]

/-- The columns of a fixed variable in the pose measurement matrix are zero. -/
theorem poseH_fixed {ix : PoseIdx} {fixed : Nat} {s : Vars ℝ (coreDef aux)}
    {H : Matrix (Fin 7) (Fin (total errLen (coreDef aux))) ℝ}
    (hn : ∀ i (hi : i < (coreDef aux).length), (coreDef aux)[i].name = i) (hd : ix.Distinct)
    (hH : poseH ix fixed s = some H) (i : Fin (coreDef aux).length) (hi : i.val ∈ ix.clearOrder)
    (hf : fixed.testBit i = true) (a : Fin 7) (k : Fin (total errLen (coreDef aux)))
    (hk : Owns (coreDef aux) i k) : H a k = 0 := by
  have hd' : ([0, 2, ix.L, ix.qic, ix.pic, ix.qwv, ix.pwv] : List Nat).Nodup := hd
  refine poseH_spares hn hd hH i ?_ (fun _ => hf) a k hk
  simp only [List.nodup_cons, List.mem_cons, not_or] at hd'
  simp only [PoseIdx.clearOrder, List.mem_cons, List.not_mem_nil, or_false] at hi
  omega

theorem positionH_reads {pip fixed : Nat} {s : Vars ℝ (coreDef aux)}
    {H : Matrix (Fin 3) (Fin (total errLen (coreDef aux))) ℝ} (hH : positionH pip fixed s = some H) :
    ∃ l, getVec s pip 3 = some l := by
  unfold positionH at hH
  simp only [Option.bind_eq_bind] at hH
  obtain ⟨l, hl, -⟩ := Option.bind_eq_some_iff.1 hH
  exact ⟨l, hl⟩

/-- The columns of a fixed `p_ip` in the position measurement matrix are zero. -/
theorem positionH_fixed {pip fixed : Nat} {s : Vars ℝ (coreDef aux)} {l : V3 ℝ}
    {H : Matrix (Fin 3) (Fin (total errLen (coreDef aux))) ℝ}
    (hn : ∀ i (hi : i < (coreDef aux).length), (coreDef aux)[i].name = i)
    (hl : getVec s pip 3 = some l) (h0 : pip ≠ 0) (hH : positionH pip fixed s = some H)
    (hp : pip < (coreDef aux).length) (hf : fixed.testBit pip = true) (a : Fin 3)
    (k : Fin (total errLen (coreDef aux))) (hk : Owns (coreDef aux) ⟨pip, hp⟩ k) : H a k = 0 := by
  have hie := indexingErrors_eq_zero.2 hn
  obtain ⟨H', hH', hm⟩ := positionH_mulVec pip fixed s l hn hl h0
  rw [hH, Option.some.injEq] at hH'
  subst hH'
  obtain ⟨hlt, hkind⟩ := getVec_kind s hl
  have h2 : pip ≠ 2 := by
    rintro rfl
    cases hkind
  have l0 : 0 < (coreDef aux).length := by simp [coreDef, coreDescs]
  have l2 : 2 < (coreDef aux).length := by simp [coreDef, coreDescs]
  have e := congrFun (hm (Pi.single k 1)) a
  rw [mulVec_single_one, if_pos hf] at e
  have s0 := segOf_single hie ⟨pip, hp⟩ ⟨0, l0⟩ (fun e => h0 (congrArg Fin.val e).symm) 3 rfl k hk
  have s2 := segOf_single hie ⟨pip, hp⟩ ⟨2, l2⟩ (fun e => h2 (congrArg Fin.val e).symm) 3 rfl k hk
  simp only at s0 s2
  rw [show H a k = H.col k a from rfl, e, s0, s2, mulVec_zero]
  simp

end

theorem scaleVal_of_keeps {rest : List VarDesc}
    {s s' : Vars ℝ (coreDef (⟨.vec 1, 5, .aux, 0⟩ :: rest))} (h : Keeps 5 s s') :
    scaleVal s' = scaleVal s := by
  have e := scaleOf_eq s
  have e' := scaleOf_eq s'
  unfold scaleOf at e e'
  obtain ⟨u, hu, hu0⟩ := Option.map_eq_some_iff.1 e
  rw [h.1 1 u hu, Option.map_some, Option.some.injEq] at e'
  rw [← e', hu0]

theorem scaleCalc_keeping {rest : List VarDesc} (fb : Bool) (i : Nat) :
    (scaleCalc (rest := rest) fb).Keeping (fun s => i = 5 → 0 ≤ scaleVal s) i := by
  refine ⟨rfl, fun a b c hok hk => ?_, fun a b c hu => ?_⟩
  · change Keeps i b (scaleSanity a)
    by_cases h5 : i = 5
    · subst h5
      have e : scaleSanity a = a := by
        refine if_neg ?_
        change ¬ scaleVal a < 0
        rw [scaleVal_of_keeps hk]
        exact not_lt.2 (hok rfl)
      rw [e]; exact hk
    · refine hk.trans (Keeps.of_eq fun hi => ?_)
      unfold scaleSanity
      simp only
      split
      · exact Function.update_of_ne (fun e => h5 (congrArg Fin.val e)) _ _
      · rfl
  · change UnitQuats (scaleSanity a)
    unfold scaleSanity
    simp only
    split
    · intro j q hq
      by_cases h5 : j = ⟨5, by simp [coreDef, coreDescs]⟩
      · subst h5
        rw [Function.update_self] at hq
        cases hq
      · rw [Function.update_of_ne h5] at hq
        exact hu j q hq
    · exact hu

theorem plainCalc_keeping {aux : List VarDesc} (fb : Bool) (i : Nat) :
    (plainCalc (aux := aux) fb).Keeping (fun _ => True) i :=
  ⟨rfl, fun _ _ _ _ h => h, fun _ _ _ h => h⟩

/-- Propagation keeps auxiliary variables and unit quaternions. -/
theorem propagate_keeps {aux : List VarDesc} (ha : ∀ d ∈ aux, d.isAux)
    {s new s' : EKFState ℝ (coreDef aux)} (hu : UnitQuats s.vars)
    (h : propagateState s new = some s') {i : Nat} (hi : 5 ≤ i) :
    Keeps i s.vars s'.vars ∧ UnitQuats s'.vars := by
  have hst : ∀ j : Fin (coreDef aux).length, 5 ≤ j.val → ((coreDef aux).get j).stype ≠ .coreProp := by
    intro j hj
    have : (coreDef aux).get j ∈ aux := by
      simp only [coreDef, List.get_eq_getElem]
      rw [List.getElem_append_right (by simpa [coreDescs] using hj)]
      exact List.getElem_mem _
    exact (ha _ this).1
  refine ⟨Keeps.of_eq fun hlt => C25_nonpropagated_copied _ _ _ h ⟨i, hlt⟩ (hst ⟨i, hlt⟩ hi), ?_⟩
  intro j q hq
  by_cases hj : 5 ≤ j.val
  · rw [C25_nonpropagated_copied _ _ _ h j (hst j hj)] at hq
    exact hu j q hq
  · have hq0 : (EKFState.q s.vars).normSq = 1 := hu EKFState.iq _ rfl
    obtain ⟨s1, e1, hn⟩ := C24_attitude_stays_unit s new hq0
    rw [h, Option.some.injEq] at e1
    subst e1
    obtain ⟨j, hlt⟩ := j
    simp only at hj
    match j, hlt, hj with
    | 0, _, _ => cases hq
    | 1, _, _ => cases hq
    | 2, _, _ =>
      have : some (EKFState.q s'.vars) = some q := hq
      rw [← Option.some.inj this]; exact hn
    | 3, _, _ => cases hq
    | 4, _, _ => cases hq
    | n + 5, _, hj => omega

section
variable {rest : List VarDesc}

/-- One step of a filter with pose measurements and a scale as first auxiliary state: propagation, an
absolute pose measurement, a relative pose measurement over states whose transition matrices came
from predictions (`C60_auxiliary_constant`), or any change of the covariance. -/
inductive PoseStep (fb : Bool) (ix : PoseIdx) (fixed : Nat) :
    Tracker ℝ × EKFState ℝ (coreDef (⟨.vec 1, 5, .aux, 0⟩ :: rest)) →
    Tracker ℝ × EKFState ℝ (coreDef (⟨.vec 1, 5, .aux, 0⟩ :: rest)) → Prop
  | predict {t s new s'} : propagateState s new = some s' → PoseStep fb ix fixed (t, s) (t, s')
  | pose {t s t' s' fz enable thr z} :
      poseApply (scaleCalc fb) t ix fixed enable thr z s = some (t', s', fz) →
      PoseStep fb ix fixed (t, s) (t', s')
  | relative {t old between s t' s' fz prev z} :
      (∀ x ∈ old :: between, ∀ r c, 15 ≤ r.val → x.Fd r c = (1 : ErrMat ℝ _) r c) →
      poseApplyRelative (scaleCalc fb) t ix fixed prev z old between s = some (t', s', fz) →
      PoseStep fb ix fixed (t, s) (t', s')
  | covariance {t s P} : PoseStep fb ix fixed (t, s) (t, { s with P := P })

theorem PoseStep.scale {fb : Bool} {ix : PoseIdx} {fixed : Nat}
    {x y : Tracker ℝ × EKFState ℝ (coreDef (⟨.vec 1, 5, .aux, 0⟩ :: rest))}
    (h : PoseStep fb ix fixed x y) : Relation.ReflTransGen (ScaleStep fb) x y := by
  cases h with
  | predict h => exact .single (.predict h)
  | pose h =>
    unfold poseApply at h
    simp only [Option.bind_eq_bind] at h
    obtain ⟨P, -, h⟩ := Option.bind_eq_some_iff.1 h
    obtain ⟨H, -, h⟩ := Option.bind_eq_some_iff.1 h
    obtain ⟨v, -, h⟩ := Option.bind_eq_some_iff.1 h
    obtain ⟨r, -, h⟩ := Option.bind_eq_some_iff.1 h
    exact (Relation.ReflTransGen.single (.covariance (P := P))).tail (.update h)
  | relative _ h =>
    unfold poseApplyRelative at h
    simp only [Option.bind_eq_bind] at h
    obtain ⟨Po, -, h⟩ := Option.bind_eq_some_iff.1 h
    obtain ⟨Ho, -, h⟩ := Option.bind_eq_some_iff.1 h
    obtain ⟨P, -, h⟩ := Option.bind_eq_some_iff.1 h
    obtain ⟨Hn, -, h⟩ := Option.bind_eq_some_iff.1 h
    obtain ⟨vo, -, h⟩ := Option.bind_eq_some_iff.1 h
    obtain ⟨vn, -, h⟩ := Option.bind_eq_some_iff.1 h
    obtain ⟨r, -, h⟩ := Option.bind_eq_some_iff.1 h
    exact (Relation.ReflTransGen.single (.covariance (P := P))).tail (.relative h)
  | covariance => exact .single .covariance

theorem clearOrder_lt {aux : List VarDesc} {ix : PoseIdx} {s : Vars ℝ (coreDef aux)} {v : PoseView ℝ}
    (hv : poseView ix s = some v) : ∀ i ∈ ix.clearOrder, i < (coreDef aux).length := by
  obtain ⟨-, -, rL, rqic, rpic, rqwv, rpwv⟩ := poseView_reads hv
  intro i hi
  simp only [PoseIdx.clearOrder, List.mem_cons, List.not_mem_nil, or_false] at hi
  rcases hi with rfl | rfl | rfl | rfl | rfl
  · exact (getVec_kind s rL).1
  · exact (getVec_kind s rpic).1
  · exact (getQuat_kind s rqic).1
  · exact (getQuat_kind s rqwv).1
  · exact (getVec_kind s rpwv).1

theorem PoseStep.keeps {fb : Bool} {ix : PoseIdx} {fixed : Nat}
    (hn : ∀ i (hi : i < (coreDef (⟨.vec 1, 5, .aux, 0⟩ :: rest)).length),
      (coreDef (⟨.vec 1, 5, .aux, 0⟩ :: rest))[i].name = i)
    (hp : PlainVars (coreDef (⟨.vec 1, 5, .aux, 0⟩ :: rest))) (ha : ∀ d ∈ rest, d.isAux)
    (hd : ix.Distinct) {i : Nat} (hi : i ∈ ix.clearOrder) (hi5 : 5 ≤ i)
    (hf : fixed.testBit i = true)
    {x y : Tracker ℝ × EKFState ℝ (coreDef (⟨.vec 1, 5, .aux, 0⟩ :: rest))}
    (hu : UnitQuats x.2.vars) (h0 : i = 5 → 0 ≤ scaleVal x.2.vars)
    (h : PoseStep fb ix fixed x y) : Keeps i x.2.vars y.2.vars ∧ UnitQuats y.2.vars := by
  have ha' : ∀ d ∈ (⟨.vec 1, 5, .aux, 0⟩ :: rest : List VarDesc), d.isAux := by
    intro d hd
    rcases List.mem_cons.1 hd with rfl | hd
    · decide
    · exact ha d hd
  cases h with
  | predict h => exact propagate_keeps ha' hu h hi5
  | pose h =>
    unfold poseApply at h
    simp only [Option.bind_eq_bind] at h
    obtain ⟨P, hP, h⟩ := Option.bind_eq_some_iff.1 h
    obtain ⟨H, hH, h⟩ := Option.bind_eq_some_iff.1 h
    obtain ⟨v, hv, h⟩ := Option.bind_eq_some_iff.1 h
    obtain ⟨r, -, h⟩ := Option.bind_eq_some_iff.1 h
    have hlt := clearOrder_lt hv
    obtain ⟨P1, hP1, -, hz⟩ := clearFixed_spec hn fixed ix.clearOrder hlt _
    rw [hP, Option.some.injEq] at hP1
    subst hP1
    unfold updateState at h
    simp only [Option.bind_eq_bind] at h
    obtain ⟨o, ho, h⟩ := Option.bind_eq_some_iff.1 h
    cases o with
    | none => cases h; exact ⟨Keeps.rfl' _, hu⟩
    | some cp =>
      obtain ⟨⟨t1, v1, f1⟩, hc, h⟩ := Option.bind_eq_some_iff.1 h
      cases h
      exact applyCorrection_keeps (ok := fun s => i = 5 → 0 ≤ scaleVal s) hn hp hu h0
        ⟨i, hlt i hi⟩ (scaleCalc_keeping fb i)
        (correction_zero _ _ (hz i (hlt i hi) hi hf) H
          (poseH_fixed hn hd hH ⟨i, hlt i hi⟩ hi hf) _ _ _ _ _ _ ho) hc
  | @relative t old between s t' s' fz prev z hF h =>
    unfold poseApplyRelative at h
    simp only [Option.bind_eq_bind] at h
    obtain ⟨Po, hPo, h⟩ := Option.bind_eq_some_iff.1 h
    obtain ⟨Ho, hHo, h⟩ := Option.bind_eq_some_iff.1 h
    obtain ⟨P, hP, h⟩ := Option.bind_eq_some_iff.1 h
    obtain ⟨Hn, hHn, h⟩ := Option.bind_eq_some_iff.1 h
    obtain ⟨vo, -, h⟩ := Option.bind_eq_some_iff.1 h
    obtain ⟨vn, hv, h⟩ := Option.bind_eq_some_iff.1 h
    obtain ⟨r, -, h⟩ := Option.bind_eq_some_iff.1 h
    have hlt := clearOrder_lt hv
    obtain ⟨P1, hP1, -, hz⟩ := clearFixed_spec hn fixed ix.clearOrder hlt _
    rw [hP, Option.some.injEq] at hP1
    subst hP1
    obtain ⟨P2, hP2, -, hzo⟩ := clearFixed_spec hn fixed ix.clearOrder hlt _
    rw [hPo, Option.some.injEq] at hP2
    subst hP2
    unfold updateStateRelative at h
    simp only [Option.bind_eq_bind] at h
    obtain ⟨cp, ho, h⟩ := Option.bind_eq_some_iff.1 h
    obtain ⟨⟨t1, v1, f1⟩, hc, h⟩ := Option.bind_eq_some_iff.1 h
    cases h
    have hie := indexingErrors_eq_zero.2 hn
    refine applyCorrection_keeps (ok := fun s => i = 5 → 0 ≤ scaleVal s) hn hp hu h0
      ⟨i, hlt i hi⟩ (scaleCalc_keeping fb i) (correction_zero_relative _ _ _ _
        (hzo i (hlt i hi) hi hf) (hz i (hlt i hi) hi hf) ?_ _ Hn ?_
        (poseH_fixed hn hd hHn ⟨i, hlt i hi⟩ hi hf) _ _ _ _ ho) hc
    · intro r c hr
      refine accumulateF_row _ r ?_ c
      intro F hFm b
      obtain ⟨x, hx, rfl⟩ := List.mem_map.1 hFm
      rw [owns_iff hie] at hr
      have : 15 ≤ r.val := by
        have h15 : offset errLen (coreDef (⟨.vec 1, 5, .aux, 0⟩ :: rest)) 5 = 15 := rfl
        have := offset_mono (D := coreDef (⟨.vec 1, 5, .aux, 0⟩ :: rest)) errLen hi5
        simp only at hr
        omega
      rcases List.mem_cons.1 hx with rfl | hx
      · exact hF old (by simp) r b this
      · exact hF x (by simp [hx]) r b this
    · intro a k hk
      rw [Matrix.neg_apply, poseH_fixed hn hd hHo ⟨i, hlt i hi⟩ hi hf a k hk, neg_zero]
  | covariance => exact ⟨Keeps.rfl' _, hu⟩

/-- **C78, partial: pose filters.**  In every filter with the scale first among the auxiliary states
(pose, pose-pressure, position-pose) a calibration state of the pose sensor that is fixed has the same
value after any sequence of propagations, absolute and relative pose measurements and covariance
changes.  The covariance need not be symmetric or positive.  Missing: a negative fixed scale (see
`C78_negative_scale_violated`). -/
theorem C78_pose_fixed_partial (fb : Bool) (ix : PoseIdx) (fixed : Nat)
    (hn : ∀ i (hi : i < (coreDef (⟨.vec 1, 5, .aux, 0⟩ :: rest)).length),
      (coreDef (⟨.vec 1, 5, .aux, 0⟩ :: rest))[i].name = i)
    (hp : PlainVars (coreDef (⟨.vec 1, 5, .aux, 0⟩ :: rest))) (ha : ∀ d ∈ rest, d.isAux)
    (hd : ix.Distinct) (i : Nat) (hi : i ∈ [ix.L, ix.qic, ix.pic, ix.qwv, ix.pwv]) (hi5 : 5 ≤ i)
    (hf : fixed.testBit i = true)
    {x y : Tracker ℝ × EKFState ℝ (coreDef (⟨.vec 1, 5, .aux, 0⟩ :: rest))}
    (hu : UnitQuats x.2.vars) (h0 : i = 5 → ∃ L, scaleOf x.2.vars = some L ∧ 0 ≤ L)
    (h : Relation.ReflTransGen (PoseStep fb ix fixed) x y) :
    (∀ n u, getVec x.2.vars i n = some u → getVec y.2.vars i n = some u) ∧
      ∀ u, getQuat x.2.vars i = some u → getQuat y.2.vars i = some u := by
  have hi' : i ∈ ix.clearOrder := by
    simp only [PoseIdx.clearOrder, List.mem_cons, List.not_mem_nil, or_false] at hi ⊢
    tauto
  have key : Keeps i x.2.vars y.2.vars ∧ UnitQuats y.2.vars ∧
      (i = 5 → ∃ L, scaleOf y.2.vars = some L ∧ 0 ≤ L) := by
    induction h with
    | refl => exact ⟨Keeps.rfl' _, hu, h0⟩
    | tail _ hs ih =>
      obtain ⟨k1, u1, s1⟩ := ih
      obtain ⟨k2, u2⟩ := hs.keeps hn hp ha hd hi' hi5 hf u1 (fun e => by
        obtain ⟨L, hL, h0⟩ := s1 e
        rw [scaleOf_eq, Option.some.injEq] at hL
        rw [hL]; exact h0)
      exact ⟨k1.trans k2, u2, fun e => C72_scale_partial fb hs.scale (s1 e)⟩
  exact key.1

end

/-! ### Position filter -/

section
variable {aux : List VarDesc}

/-- One step of the position filter: propagation, a position measurement, or any change of the
covariance. -/
inductive PositionStep (fb : Bool) (pip fixed : Nat) :
    Tracker ℝ × EKFState ℝ (coreDef aux) → Tracker ℝ × EKFState ℝ (coreDef aux) → Prop
  | predict {t s new s'} : propagateState s new = some s' → PositionStep fb pip fixed (t, s) (t, s')
  | position {t s t' s' fz absolute enable thr z R} :
      positionApply (plainCalc fb) t pip fixed absolute enable thr z R s = some (t', s', fz) →
      PositionStep fb pip fixed (t, s) (t', s')
  | covariance {t s P} : PositionStep fb pip fixed (t, s) (t, { s with P := P })

/-- **C78, partial: position filter.**  A fixed antenna position `p_ip` has the same value after any
sequence of propagations, position measurements and covariance changes. -/
theorem C78_position_fixed_partial (fb : Bool) (pip fixed : Nat)
    (hn : ∀ i (hi : i < (coreDef aux).length), (coreDef aux)[i].name = i)
    (hp : PlainVars (coreDef aux)) (ha : ∀ d ∈ aux, d.isAux) (h5 : 5 ≤ pip)
    (hf : fixed.testBit pip = true) {x y : Tracker ℝ × EKFState ℝ (coreDef aux)}
    (hu : UnitQuats x.2.vars) (h : Relation.ReflTransGen (PositionStep fb pip fixed) x y) :
    ∀ u, getVec x.2.vars pip 3 = some u → getVec y.2.vars pip 3 = some u := by
  have key : Keeps pip x.2.vars y.2.vars ∧ UnitQuats y.2.vars := by
    induction h with
    | refl => exact ⟨Keeps.rfl' _, hu⟩
    | tail _ hs ih =>
      obtain ⟨k1, u1⟩ := ih
      suffices h : Keeps pip _ _ ∧ UnitQuats _ from ⟨k1.trans h.1, h.2⟩
      cases hs with
      | predict h => exact propagate_keeps ha u1 h h5
      | position h =>
        unfold positionApply at h
        split at h
        · simp only [Option.bind_eq_bind] at h
          obtain ⟨P, hP, h⟩ := Option.bind_eq_some_iff.1 h
          obtain ⟨H, hH, h⟩ := Option.bind_eq_some_iff.1 h
          obtain ⟨r, -, h⟩ := Option.bind_eq_some_iff.1 h
          obtain ⟨l, hl⟩ := positionH_reads hH
          obtain ⟨hlt, -⟩ := getVec_kind _ hl
          obtain ⟨P1, hP1, -, hz⟩ := clearFixed_spec hn fixed [pip] (by simpa using hlt) _
          rw [hP, Option.some.injEq] at hP1
          subst hP1
          unfold updateState at h
          simp only [Option.bind_eq_bind] at h
          obtain ⟨o, ho, h⟩ := Option.bind_eq_some_iff.1 h
          cases o with
          | none => cases h; exact ⟨Keeps.rfl' _, u1⟩
          | some cp =>
            obtain ⟨⟨t1, v1, f1⟩, hc, h⟩ := Option.bind_eq_some_iff.1 h
            cases h
            exact applyCorrection_keeps (ok := fun _ => True) hn hp u1 trivial ⟨pip, hlt⟩
              (plainCalc_keeping fb pip)
              (correction_zero _ _ (hz pip hlt (by simp) hf) H
                (positionH_fixed hn hl (by omega) hH hlt hf) _ _ _ _ _ _ ho) hc
        · cases h; exact ⟨Keeps.rfl' _, u1⟩
      | covariance => exact ⟨Keeps.rfl' _, u1⟩
  exact key.1.1 3

end

/-! ### Violations -/

theorem fuzzy_reset (a b : Vars ℝ (coreDef poseAux)) :
    ∃ t', fuzzyCheck' (Tracker.reset : Tracker ℝ) a b 0.1 = some (t', a, false) := by
  have hb : bestIndex (coreDef poseAux) = some ⟨6, by decide⟩ := by decide +kernel
  have hd : indexOfBestNonTemporalDriftingState (coreDef poseAux) ≠ some (-1) := by decide +kernel
  have hq : ∃ q, quatOf _ (a ⟨6, by decide⟩).val = some q := ⟨_, rfl⟩
  obtain ⟨q, hq⟩ := hq
  unfold fuzzyCheck' fuzzyCheck
  rw [if_neg hd, hb]
  simp only [Option.bind_eq_bind, Option.bind_some, hq]
  rw [if_neg (by decide)]
  exact ⟨_, rfl⟩

/-- Clearing the cross covariances of a unit covariance. -/
theorem clear_one {D : List VarDesc} (h : ∀ i (hi : i < D.length), D[i].name = i) (fixed : Nat)
    (is : List Nat) (hl : ∀ i ∈ is, i < D.length) :
    clearFixed fixed is (1 : ErrMat ℝ D) = some 1 := by
  induction is with
  | nil => rfl
  | cons a l ih =>
    have e : (if fixed.testBit a = true then clearCrossCov (1 : ErrMat ℝ D) a else some 1) = some 1 := by
      split
      · obtain ⟨P, e, h1, h2, h3, -⟩ := C38_clear_cross_cov (1 : ErrMat ℝ D) ⟨a, hl a (by simp)⟩ h
        refine e.trans (congrArg some ?_)
        ext r c
        by_cases hr : Owns D ⟨a, hl a (by simp)⟩ r <;> by_cases hc : Owns D ⟨a, hl a (by simp)⟩ c
        · exact h1 r c hr hc
        · rw [(h3 r c hr hc).1, one_apply, if_neg (by rintro rfl; exact hc hr)]
        · rw [(h3 c r hc hr).2, one_apply, if_neg (by rintro rfl; exact hr hc)]
        · exact h2 r c hr hc
      · rfl
    unfold clearFixed at ih ⊢
    rw [List.foldlM_cons, e]
    exact ih fun i hi => hl i (by simp [hi])

/-- A pose filter state with scale `c` and unit covariance. -/
noncomputable def fixState (c : ℝ) : EKFState ℝ (coreDef poseAux) :=
  { blankState poseAux 0 0 0 with vars := scaleState c, P := 1 }

/-- A pose measurement is applied to `fixState`, whatever is fixed. -/
theorem fixState_runs (c : ℝ) (fixed : Nat) : ∃ t' P' s1,
    poseApply poseCalc Tracker.reset poseIx fixed false 0 (makePose unitCfg ![1, 2, 3] Quat.one 0)
      (fixState c) = some (t', { fixState c with P := P', vars := scaleSanity s1 }, false) := by
  have hv : poseView poseIx (fixState c).vars = some ⟨0, Quat.one, c, Quat.one, 0, Quat.one, 0⟩ :=
    scaleState_view c
  obtain ⟨H, hH, -⟩ := poseH_mulVec poseIx fixed (fixState c).vars _ poseDef_ok.1 hv poseIx_distinct
  have hclear : clearFixed fixed poseIx.clearOrder (fixState c).P = some (fixState c).P :=
    clear_one poseDef_ok.1 fixed poseIx.clearOrder (clearOrder_lt hv)
  have hr : ∃ r, (PoseView.mk 0 Quat.one c Quat.one 0 Quat.one 0 : PoseView ℝ).residual ![1, 2, 3]
      Quat.one = some r := by
    have e1 : (PoseView.mk 0 Quat.one c Quat.one 0 Quat.one 0 : PoseView ℝ).predAtt = Quat.one :=
      one_predAtt c
    have hy : yawResidual (Quat.one : Quat ℝ) = some 0 := by simp [yawResidual, Quat.one]
    rw [PoseView.residual, e1, attResidual_exact (by simp [Quat.normSq, Quat.one])]
    simp only [hy]
    exact ⟨_, rfl⟩
  obtain ⟨r, hr⟩ := hr
  have hR : (makePose unitCfg ![1, 2, 3] Quat.one 0).R_.PosDef := unitCfg_posDef _ _ _
  generalize hz : makePose unitCfg ![1, 2, 3] Quat.one 0 = z at hR ⊢
  have hzp : z.z_p = ![1, 2, 3] := by rw [← hz]; rfl
  have hzq : z.z_q = Quat.one := by rw [← hz]; rfl
  have hS : (innovCov (fixState c).P H z.R_).PosDef :=
    hR.posSemidef_add (psd_congr PosSemidef.one H)
  have hdet : (innovCov (fixState c).P H z.R_).det ≠ 0 :=
    ((Matrix.isUnit_iff_isUnit_det _).1 hS.isUnit).ne_zero
  have hcc : calculateCorrection false 0 (fixState c).P H r z.R_ =
      some (some (gain (fixState c).P H z.R_ *ᵥ r,
        josephUpdate (fixState c).P H z.R_ (gain (fixState c).P H z.R_))) := by
    simp only [calculateCorrection]
    rw [if_neg hdet, if_neg (by simp)]
  obtain ⟨s1, hs1, -⟩ := correct_reads (fixState c).vars (gain (fixState c).P H z.R_ *ᵥ r)
    poseDef_ok.1 posePlain (scaleState_unit c)
  obtain ⟨t', hf⟩ := fuzzy_reset (scaleSanity s1) (fixState c).vars
  have ha : applyCorrection poseCalc Tracker.reset (fixState c).vars
      (gain (fixState c).P H z.R_ *ᵥ r) = some (t', scaleSanity s1, false) := by
    change ((correct (fixState c).vars (gain (fixState c).P H z.R_ *ᵥ r)).bind fun s' =>
      fuzzyCheck' Tracker.reset (scaleSanity s') (fixState c).vars 0.1) = _
    rw [hs1]
    exact hf
  refine ⟨t', josephUpdate (fixState c).P H z.R_ (gain (fixState c).P H z.R_), s1, ?_⟩
  simp only [poseApply, hclear, Option.bind_eq_bind, Option.bind_some, hH, hv, hzp, hzq, hr,
    updateState, hcc, ha]
  rfl

/-- The hypotheses of the pose theorem are met by a pose filter with the scale fixed at 2 that
applies a pose measurement. -/
example : ∃ y, Relation.ReflTransGen (PoseStep false poseIx 32) (Tracker.reset, fixState 2) y ∧
    getVec y.2.vars 5 1 = some fun _ => 2 := by
  obtain ⟨t', P', s1, h⟩ := fixState_runs 2 32
  have hs : Relation.ReflTransGen (PoseStep false poseIx 32) (Tracker.reset, fixState 2) _ :=
    .single (.pose h)
  refine ⟨_, hs, ?_⟩
  exact (C78_pose_fixed_partial false poseIx 32 poseDef_ok.1 posePlain (by decide) poseIx_distinct 5
    (by decide) (by decide) (by decide) (scaleState_unit 2)
    (fun _ => ⟨2, rfl, by norm_num⟩) hs).1 1 _ rfl

/-- The claim of C78 for the scale of the pose filter: one pose measurement with the scale fixed
does not change it. -/
def scaleFixedClaim : Prop :=
  ∀ (fixed : Nat) (t t' : Tracker ℝ) (s s' : EKFState ℝ (coreDef poseAux))
    (en : Bool) (thr : ℝ) (z : PoseMeas ℝ) (fz : Bool),
    fixed.testBit 5 = true → UnitQuats s.vars → s.P.PosSemidef → z.R_.PosDef →
    poseApply poseCalc t poseIx fixed en thr z s = some (t', s', fz) →
    getVec s'.vars 5 1 = getVec s.vars 5 1

/-- **C78 is violated by a negative scale**: the sanity check replaces it although it is fixed. -/
theorem C78_negative_scale_violated : ¬ scaleFixedClaim := by
  intro h
  obtain ⟨t', P', s1, hpa⟩ := fixState_runs (-1) 32
  have key := h 32 _ _ _ _ _ _ _ _ (by decide) (scaleState_unit (-1)) PosSemidef.one
    (unitCfg_posDef _ _ _) hpa
  have e1 : scaleOf (scaleSanity s1 : Vars ℝ (coreDef poseAux)) = some (scaleVal (scaleSanity s1)) :=
    scaleOf_eq (scaleSanity s1)
  have e2 : scaleOf ((fixState (-1)).vars : Vars ℝ (coreDef poseAux)) = some (-1) := rfl
  have e3 : scaleOf (scaleSanity s1 : Vars ℝ (coreDef poseAux)) = scaleOf (fixState (-1)).vars :=
    congrArg (Option.map fun u : Fin 1 → ℝ => u 0) key
  rw [e1, e2, Option.some.injEq] at e3
  have := scaleSanity_nonneg s1
  linarith

/-- The hypotheses of the position theorem are met by a position filter with a fixed offset that
applies a position measurement. -/
example : ∃ y, Relation.ReflTransGen (PositionStep false 5 32)
    (Tracker.reset, { blankState positionAux 0 0 0 with
      vars := posState ![1, 0, 0] Quat.one ![4, 5, 6], P := 1 }) y ∧
    getVec y.2.vars 5 3 = some ![4, 5, 6] := by
  generalize hs : ({ blankState positionAux 0 0 0 with
      vars := posState ![1, 0, 0] Quat.one ![4, 5, 6], P := 1 } : EKFState ℝ (coreDef positionAux)) = s
  have hvars : s.vars = posState ![1, 0, 0] Quat.one ![4, 5, 6] := by rw [← hs]
  have hP1 : s.P = 1 := by rw [← hs]
  have hl : getVec s.vars 5 3 = some ![4, 5, 6] := by rw [hvars]; rfl
  have hu : UnitQuats s.vars := by
    rw [hvars]; exact posState_unit _ _ _ (by simp [Quat.normSq, Quat.one])
  obtain ⟨H, hH, -⟩ := positionH_mulVec 5 32 s.vars _ positionDef_ok.1 hl (by decide)
  have hclear : clearFixed 32 [5] s.P = some s.P := by
    rw [hP1]; exact clear_one positionDef_ok.1 32 [5] (by decide)
  have hr : ∃ r, positionResidual 5 ![7, 8, 9] s.vars = some r := by
    simp only [positionResidual, sensorPos, hl, Option.bind_eq_bind, Option.bind_some]
    exact ⟨_, rfl⟩
  obtain ⟨r, hr⟩ := hr
  have hcc := C28_never_fails s.P (by rw [hP1]; exact PosSemidef.one) H (1 : M33 ℝ) PosDef.one false 0 r
  obtain ⟨o, ho⟩ := Option.isSome_iff_exists.1 hcc
  have hd : indexOfBestNonTemporalDriftingState (coreDef positionAux) = some (-1) := by
    decide +kernel
  have hrun : ∃ s', positionApply (plainCalc false) Tracker.reset 5 32 true false 0 ![7, 8, 9] 1 s =
      some (Tracker.reset, s', false) := by
    cases o with
    | none =>
      refine ⟨s, ?_⟩
      simp only [positionApply, if_true, hclear, hH, hr, Option.bind_eq_bind, Option.bind_some,
        updateState, ho]
    | some cp =>
      obtain ⟨s1, hs1, -⟩ := correct_reads s.vars cp.1 positionDef_ok.1 positionDef_ok.2 hu
      refine ⟨{ s with P := cp.2, vars := s1 }, ?_⟩
      have ha : applyCorrection (plainCalc false) Tracker.reset s.vars cp.1 =
          some (Tracker.reset, s1, false) := by
        change ((correct s.vars cp.1).bind fun s' => fuzzyCheck' Tracker.reset s' s.vars 0.1) = _
        rw [hs1]
        unfold fuzzyCheck'
        simp only [Option.bind_some, if_pos hd]
      simp only [positionApply, if_true, hclear, hH, hr, Option.bind_eq_bind, Option.bind_some,
        updateState, ho, ha]
  obtain ⟨s', hrun⟩ := hrun
  have hstep : Relation.ReflTransGen (PositionStep false 5 32) (Tracker.reset, s) (Tracker.reset, s') :=
    .single (.position hrun)
  exact ⟨_, hstep, C78_position_fixed_partial false 5 32 positionDef_ok.1 positionDef_ok.2 (by decide)
    (by decide) (by decide) hu hstep _ hl⟩

/-- The claim of C78 for the antenna position of the spherical filter and a distance measurement. -/
def distanceFixedClaim : Prop :=
  ∀ (pip fixed : Nat) (t t' : Tracker ℝ) (s s' : EKFState ℝ (coreDef positionAux))
    (en : Bool) (thr z n_zd : ℝ) (fz : Bool),
    fixed.testBit pip = true → UnitQuats s.vars → s.P.PosSemidef → 0 < n_zd →
    distanceApply (plainCalc false) t pip fixed true en thr z n_zd s = some (t', s', fz) →
    getVec s'.vars pip 3 = getVec s.vars pip 3

/-- **C78 is violated by distance measurements**: the block of `p_ip` in the measurement matrix is
written although `p_ip` is fixed. -/
theorem C78_distance_violated : ¬ distanceFixedClaim := by
  intro h
  let s : EKFState ℝ (coreDef positionAux) :=
    { blankState positionAux 0 0 0 with vars := posState ![1, 0, 0] Quat.one 0, P := 1 }
  have hu : UnitQuats s.vars := posState_unit _ _ _ (by simp [Quat.normSq, Quat.one])
  have hp : EKFState.p s.vars = ![1, 0, 0] := (posState_reads _ _ _).2.1
  have hq : EKFState.q s.vars = Quat.one := (posState_reads _ _ _).2.2
  have hl : getVec s.vars 5 3 = some 0 := (posState_reads _ _ _).1
  obtain ⟨H, hH, hm⟩ := distanceH_mulVec 5 s.vars 0 positionDef_ok.1 hl (by decide) (by
    rw [hp]; exact fun h => by simpa using congrFun h 0)
  have hclear : clearFixed 32 [5] s.P = some s.P := clear_one positionDef_ok.1 32 [5] (by decide)
  have hr : distanceResidual 5 2 s.vars = some fun _ => 1 := by
    have : sensorPos 5 s.vars = some ![1, 0, 0] := by
      simp only [sensorPos, hl, hp, Option.bind_eq_bind, Option.bind_some, mulVec_zero, add_zero]
    simp only [distanceResidual, this, Option.bind_eq_bind, Option.bind_some]
    congr 1
    funext i
    simp only [radius, cons_val_zero, cons_val_one, cons_val_two]
    norm_num [vecHead, vecTail]
  let R : Matrix (Fin 1) (Fin 1) ℝ := Matrix.diagonal fun _ => 1 * 1
  have hR : R.PosDef := PosDef.diagonal fun _ => by norm_num
  have hP : s.P.PosSemidef := PosSemidef.one
  have hS : (innovCov s.P H R).PosDef := hR.posSemidef_add (psd_congr hP H)
  have hdet : (innovCov s.P H R).det ≠ 0 :=
    ((Matrix.isUnit_iff_isUnit_det _).1 hS.isUnit).ne_zero
  have hcc : calculateCorrection false 0 s.P H (fun _ => 1) R =
      some (some (gain s.P H R *ᵥ (fun _ => 1), josephUpdate s.P H R (gain s.P H R))) := by
    simp only [calculateCorrection]
    rw [if_neg hdet, if_neg (by simp)]
  obtain ⟨s1, hs1, hread, -⟩ := correct_reads s.vars (gain s.P H R *ᵥ (fun _ => 1))
    positionDef_ok.1 positionDef_ok.2 hu
  have hd : indexOfBestNonTemporalDriftingState (coreDef positionAux) = some (-1) := by
    decide +kernel
  have ha : applyCorrection (plainCalc false) Tracker.reset s.vars (gain s.P H R *ᵥ (fun _ => 1)) =
      some (Tracker.reset, s1, false) := by
    change ((correct s.vars (gain s.P H R *ᵥ (fun _ => 1))).bind fun s' =>
      fuzzyCheck' Tracker.reset s' s.vars 0.1) = _
    rw [hs1]
    unfold fuzzyCheck'
    simp only [Option.bind_some, if_pos hd]
  have hpa : ∃ P', distanceApply (plainCalc false) Tracker.reset 5 32 true false 0 2 1 s =
      some (Tracker.reset, { s with P := P', vars := s1 }, false) := by
    refine ⟨josephUpdate s.P H R (gain s.P H R), ?_⟩
    have hcc' : calculateCorrection false 0 s.P H (fun _ => 1)
      (Matrix.diagonal fun _ => (1 : ℝ) * 1) = _ := hcc
    simp only [distanceApply, if_true, hclear, Option.bind_eq_bind, Option.bind_some, hH, hr,
      updateState, hcc', ha]
  obtain ⟨P', hpa⟩ := hpa
  have key := h 5 32 _ _ _ _ _ _ _ _ _ (by decide) hu hP one_pos hpa
  have e1 : getVec s1 5 3 = some (0 : V3 ℝ) := key.trans hl
  rw [hread 5 3 0 hl, Option.some.injEq, zero_add] at e1
  have e2 := congrFun e1 0
  let k : Fin (total errLen (coreDef positionAux)) := ⟨15, by decide⟩
  have e3 : segOf (gain s.P H R *ᵥ (fun _ => 1)) 5 3 0 = (gain s.P H R *ᵥ (fun _ => 1)) k := rfl
  rw [e3] at e2
  have hk : H 0 k = 1 := by
    have e := congrFun (hm (Pi.single k 1)) 0
    rw [mulVec_single_one] at e
    rw [show H 0 k = H.col k 0 from rfl, e, hp, hq]
    have s0 : segOf (Pi.single k 1 : Fin (total errLen (coreDef positionAux)) → ℝ) 0 3 = 0 := by
      funext j; fin_cases j <;> rfl
    have s2 : segOf (Pi.single k 1 : Fin (total errLen (coreDef positionAux)) → ℝ) 2 3 = 0 := by
      funext j; fin_cases j <;> rfl
    have s5 : segOf (Pi.single k 1 : Fin (total errLen (coreDef positionAux)) → ℝ) 5 3 = ![1, 0, 0] := by
      funext j; fin_cases j <;> rfl
    rw [s0, s2, s5, one_toRot]
    simp [distanceHpip, vecHead]
  have hg : (gain s.P H R *ᵥ (fun _ => 1)) k = (innovCov s.P H R)⁻¹ 0 0 := by
    have hP1 : s.P = 1 := rfl
    simp only [gain, hP1, Matrix.one_mul, mulVec, dotProduct, Finset.univ_unique,
      Finset.sum_singleton, mul_one, Matrix.mul_apply, transpose_apply, Fin.default_eq_zero]
    rw [hk, one_mul]
  rw [hg] at e2
  have hinv := Matrix.mul_nonsing_inv _ (Ne.isUnit hdet)
  have h00 := congrFun (congrFun hinv 0) 0
  rw [Matrix.mul_apply, Finset.univ_unique, Finset.sum_singleton, Fin.default_eq_zero] at h00
  rw [show (innovCov s.P H R)⁻¹ 0 0 = 0 from e2, mul_zero] at h00
  simp at h00

end MSF
