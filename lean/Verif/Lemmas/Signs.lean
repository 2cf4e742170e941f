import Verif.Lemmas.KernelQuot
import Verif.Lemmas.CalcQSign
import Verif.Lemmas.Yaw

/-! The numerics of the filter do not depend on the signs of quaternions. -/

namespace MSF

open Matrix EKFState

/-! ### Quaternions -/

namespace Quat

/-- One of the two signs. -/
def sgn (b : Bool) (q : Quat ℝ) : Quat ℝ := if b then q.neg else q

theorem neg_neg' (q : Quat ℝ) : q.neg.neg = q := by simp [neg]

theorem toRot_neg (q : Quat ℝ) : q.neg.toRot = q.toRot := by
  simp [toRot, neg]

theorem conj_neg (q : Quat ℝ) : q.neg.conj = q.conj.neg := by simp [conj, neg]

theorem mul_neg_left (p q : Quat ℝ) : p.neg.mul q = (p.mul q).neg := by
  simp only [mul, neg, Quat.mk.injEq]
  refine ⟨?_, ?_, ?_, ?_⟩ <;> ring

theorem mul_neg_right (p q : Quat ℝ) : p.mul q.neg = (p.mul q).neg := by
  simp only [mul, neg, Quat.mk.injEq]
  refine ⟨?_, ?_, ?_, ?_⟩ <;> ring

theorem normSq_neg (q : Quat ℝ) : q.neg.normSq = q.normSq := by simp [normSq, neg]

theorem normalize_neg (q : Quat ℝ) : q.neg.normalize = q.normalize.map neg := by
  unfold normalize
  simp only [normSq_neg]
  split
  · rfl
  · simp only [neg, Option.map_some, neg_div]

theorem sgn_false (q : Quat ℝ) : sgn false q = q := rfl
theorem sgn_true (q : Quat ℝ) : sgn true q = q.neg := rfl

theorem toRot_sgn (b : Bool) (q : Quat ℝ) : (sgn b q).toRot = q.toRot := by
  cases b
  · rfl
  · exact toRot_neg q

theorem conj_sgn (b : Bool) (q : Quat ℝ) : (sgn b q).conj = sgn b q.conj := by
  cases b
  · rfl
  · exact conj_neg q

theorem sgn_sgn (b c : Bool) (q : Quat ℝ) : sgn b (sgn c q) = sgn (b ^^ c) q := by
  cases b <;> cases c
  · rfl
  · rfl
  · rfl
  · exact neg_neg' q

theorem sgn_mul (b : Bool) (p q : Quat ℝ) : (sgn b p).mul q = sgn b (p.mul q) := by
  cases b
  · rfl
  · exact mul_neg_left p q

theorem mul_sgn (b : Bool) (p q : Quat ℝ) : p.mul (sgn b q) = sgn b (p.mul q) := by
  cases b
  · rfl
  · exact mul_neg_right p q

theorem coeffs_neg (q : Quat ℝ) : q.neg.coeffs = -q.coeffs := by
  funext i
  fin_cases i <;> simp [coeffs, neg]

theorem ofCoeffs_neg (c : Fin 4 → ℝ) : ofCoeffs (-c) = (ofCoeffs c).neg := rfl

end Quat

open Quat

theorem attResidual_sgn (b : Bool) (e : Quat ℝ) : attResidual (sgn b e) = attResidual e := by
  cases b
  · rfl
  · unfold attResidual
    simp only [sgn_true, Quat.neg, neg_eq_zero]
    split
    · rfl
    · congr 1
      funext i
      fin_cases i <;> simp [Quat.vec]

theorem yawResidual_sgn (b : Bool) (e : Quat ℝ) : yawResidual (sgn b e) = yawResidual e := by
  cases b
  · rfl
  · unfold yawResidual
    simp only [sgn_true, Quat.neg, neg_mul_neg]

/-! ### States -/

variable {D : List VarDesc} {aux : List VarDesc}

theorem negVal_negVal : ∀ (k : Kind) (x : Val ℝ k), negVal k (negVal k x) = x
  | .vec _, _ => rfl
  | .quat, q => neg_neg' q

/-- The same state variables up to signs. -/
def SameVars (s s' : Vars ℝ D) : Prop :=
  ∀ i, s' i = s i ∨ (bestIndex D ≠ some i ∧ s' i = { s i with val := negVal _ (s i).val })

theorem SameValues.refl (x : Values D) : SameValues x x := fun _ => .inl rfl

theorem SameValues.symm {x y : Values D} (h : SameValues x y) : SameValues y x := fun i => by
  rcases h i with h | ⟨h0, h⟩
  · exact .inl h.symm
  · exact .inr ⟨h0, by rw [h, negVal_negVal]⟩

theorem SameValues.trans {x y z : Values D} (h : SameValues x y) (h' : SameValues y z) :
    SameValues x z := fun i => by
  rcases h i with h | ⟨h0, h⟩ <;> rcases h' i with h' | ⟨h1, h'⟩
  · exact .inl (h'.trans h)
  · exact .inr ⟨h1, by rw [h', h]⟩
  · exact .inr ⟨h0, by rw [h', h]⟩
  · exact .inl (by rw [h', h, negVal_negVal])

theorem SameValues.vars {x y : Values D} (h : SameValues x y) : SameVars (toVars x) (toVars y) :=
  fun i => by
    rcases h i with h | ⟨h0, h⟩
    · exact .inl (by simp only [toVars, h])
    · exact .inr ⟨h0, by simp only [toVars, h]⟩

theorem SameVars.values {s s' : Vars ℝ D} (h : SameVars s s') : SameValues (values s) (values s') :=
  fun i => by
    rcases h i with h | ⟨h0, h⟩
    · exact .inl (by simp only [MSF.values, h])
    · exact .inr ⟨h0, by simp only [MSF.values, h]⟩

theorem SameVars.Q {s s' : Vars ℝ D} (h : SameVars s s') (i) : (s i).Q = (s' i).Q := by
  rcases h i with h | ⟨-, h⟩ <;> rw [h]

theorem SameVars.vec {s s' : Vars ℝ D} (h : SameVars s s') {i : Fin D.length} {n : Nat}
    (hk : (D.get i).kind = .vec n) : s' i = s i := by
  rcases h i with h | ⟨-, h⟩
  · exact h
  · rw [h]
    have : ∀ (k : Kind) (x : Val ℝ k), k = .vec n → negVal k x = x := by
      rintro k x rfl; rfl
    rw [this _ _ hk]

theorem SameVars.p {s s' : Vars ℝ (coreDef aux)} (h : SameVars s s') : p s' = p s :=
  congrArg StateVar.val (h.vec (i := ip) (n := 3) rfl)
theorem SameVars.v {s s' : Vars ℝ (coreDef aux)} (h : SameVars s s') : v s' = v s :=
  congrArg StateVar.val (h.vec (i := iv) (n := 3) rfl)
theorem SameVars.bw {s s' : Vars ℝ (coreDef aux)} (h : SameVars s s') : b_w s' = b_w s :=
  congrArg StateVar.val (h.vec (i := ibw) (n := 3) rfl)
theorem SameVars.ba {s s' : Vars ℝ (coreDef aux)} (h : SameVars s s') : b_a s' = b_a s :=
  congrArg StateVar.val (h.vec (i := iba) (n := 3) rfl)

theorem SameVars.q {s s' : Vars ℝ (coreDef aux)} (h : SameVars s s') :
    (q s' = q s) ∨ (bestIndex (coreDef aux) ≠ some iq ∧ q s' = (q s).neg) := by
  rcases h iq with h | ⟨h0, h⟩
  · exact .inl (congrArg StateVar.val h)
  · exact .inr ⟨h0, congrArg StateVar.val h⟩

theorem SameVars.q_sgn {s s' : Vars ℝ (coreDef aux)} (h : SameVars s s') : ∃ b, EKFState.q s' = sgn b (EKFState.q s) := by
  rcases h.q with h | ⟨-, h⟩
  · exact ⟨false, h⟩
  · exact ⟨true, h⟩

theorem SameVars.rot {s s' : Vars ℝ (coreDef aux)} (h : SameVars s s') :
    (EKFState.q s').toRot = (EKFState.q s).toRot := by
  obtain ⟨b, h⟩ := h.q_sgn
  rw [h, toRot_sgn]

theorem SameVars.conjRot {s s' : Vars ℝ (coreDef aux)} (h : SameVars s s') :
    (EKFState.q s').conj.toRot = (EKFState.q s).conj.toRot := by
  obtain ⟨b, h⟩ := h.q_sgn
  rw [h, conj_sgn, toRot_sgn]

theorem SameVars.getVec {s s' : Vars ℝ D} (h : SameVars s s') (i n : Nat) :
    getVec s' i n = getVec s i n := by
  unfold MSF.getVec
  by_cases hi : i < D.length
  · rw [dif_pos hi, dif_pos hi]
    rcases h ⟨i, hi⟩ with h | ⟨-, h⟩
    · rw [h]
    · rw [h]
      have : ∀ (k : Kind) (x : Val ℝ k), vecOf n k (negVal k x) = vecOf n k x := by
        intro k x; cases k <;> rfl
      exact this _ _
  · rw [dif_neg hi, dif_neg hi]

theorem SameVars.getQuat {s s' : Vars ℝ D} (h : SameVars s s') (i : Nat) :
    ∃ b, getQuat s' i = (getQuat s i).map (sgn b) := by
  unfold MSF.getQuat
  by_cases hi : i < D.length
  · rw [dif_pos hi, dif_pos hi]
    rcases h ⟨i, hi⟩ with h | ⟨-, h⟩
    · refine ⟨false, ?_⟩
      rw [h]
      cases quatOf _ (s ⟨i, hi⟩).val <;> rfl
    · refine ⟨true, ?_⟩
      rw [h]
      have : ∀ (k : Kind) (x : Val ℝ k), quatOf k (negVal k x) = (quatOf k x).map (sgn true) := by
        intro k x; cases k <;> rfl
      exact this _ _
  · refine ⟨true, ?_⟩
    rw [dif_neg hi, dif_neg hi]
    rfl

theorem SameVars.copyNon {s s' t t' : Vars ℝ D} (h : SameVars s s') (h' : SameVars t t') :
    SameVars (copyNonPropagationStates s t) (copyNonPropagationStates s' t') := fun i => by
  unfold copyNonPropagationStates
  by_cases hi : (D.get i).stype = .coreProp
  · simp only [if_pos hi]; exact h' i
  · simp only [if_neg hi]; exact h i

theorem SameVars.refl (s : Vars ℝ D) : SameVars s s := fun _ => .inl rfl

theorem SameVars.set3 {s s' : Vars ℝ (coreDef aux)} (h : SameVars s s') (a b : V3 ℝ) {c c' : Quat ℝ}
    (hc : c' = c ∨ (bestIndex (coreDef aux) ≠ some iq ∧ c' = c.neg)) :
    SameVars (setQ (setV (setP s a) b) c) (setQ (setV (setP s' a) b) c') := fun i => by
  by_cases h0 : i = ip
  · subst h0; rw [set3_p, set3_p, h.vec (i := ip) (n := 3) rfl]; exact .inl rfl
  by_cases h1 : i = iv
  · subst h1; rw [set3_v, set3_v, h.vec (i := iv) (n := 3) rfl]; exact .inl rfl
  by_cases h2 : i = iq
  · subst h2; rw [set3_q, set3_q]
    rcases hc with rfl | ⟨hc0, rfl⟩
    · left
      rcases h iq with e | ⟨-, e⟩ <;> rw [e]
    · right
      refine ⟨hc0, ?_⟩
      rcases h iq with e | ⟨-, e⟩ <;> rw [e] <;> rfl
  rw [set3_other _ _ _ _ _ h0 h1 h2, set3_other _ _ _ _ _ h0 h1 h2]; exact h i

/-! ### Propagation -/

theorem setPVQ (w : Vars ℝ (coreDef aux)) (a b : V3 ℝ) (c : Quat ℝ) :
    setP (setV (setQ w c) b) a = setQ (setV (setP w a) b) c := by
  refine vars_ext ?_ ?_ ?_ fun i h0 h1 h2 => ?_
  · rw [set3_p]; simp [setP, setV, setQ, ne01, ne02]
  · rw [set3_v]; simp [setP, setV, setQ, ne01.symm, ne12]
  · rw [set3_q]; simp [setP, setV, setQ, ne02.symm, ne12.symm]
  · rw [set3_other _ _ _ _ _ h0 h1 h2]
    simp [setP, setV, setQ, h0, h1, h2]

theorem propagate_same {old old' new : EKFState ℝ (coreDef aux)} (h : SameVars old.vars old'.vars)
    (hw : old'.w_m = old.w_m) (ha : old'.a_m = old.a_m) (ht : old'.time = old.time) :
    Option.Rel (fun s s' : EKFState ℝ (coreDef aux) => SameVars s.vars s'.vars)
      (propagateState old new) (propagateState old' new) := by
  have hc := h.copyNon (SameVars.refl (resetState new.vars))
  unfold propagateState
  simp only [hw, ha, ht, hc.bw, hc.ba, h.bw, h.ba, h.v, h.p, h.rot]
  set A := quatInt (new.w_m - b_w (copyNonPropagationStates old.vars (resetState new.vars)))
    (old.w_m - b_w old.vars) (new.time - old.time)
  have key : ∀ qn qn' : Quat ℝ, (qn' = qn ∨ (bestIndex (coreDef aux) ≠ some iq ∧ qn' = qn.neg)) →
      Option.Rel (fun s s' : EKFState ℝ (coreDef aux) => SameVars s.vars s'.vars) _ _ :=
    fun qn qn' hq => Option.Rel.some (a := { new with vars := setP (setV (setQ
        (copyNonPropagationStates old.vars (resetState new.vars)) qn) (v old.vars + (new.time - old.time) •
          ((2 : ℝ)⁻¹ • (qn.toRot *ᵥ (new.a_m - b_a (copyNonPropagationStates old.vars (resetState new.vars))) +
            (q old.vars).toRot *ᵥ (old.a_m - b_a old.vars)) - gravity))) (p old.vars + (new.time - old.time) •
              ((2 : ℝ)⁻¹ • ((v old.vars + (new.time - old.time) •
          ((2 : ℝ)⁻¹ • (qn.toRot *ᵥ (new.a_m - b_a (copyNonPropagationStates old.vars (resetState new.vars))) +
            (q old.vars).toRot *ᵥ (old.a_m - b_a old.vars)) - gravity)) + v old.vars))) })
      (b := { new with vars := setP (setV (setQ
        (copyNonPropagationStates old'.vars (resetState new.vars)) qn') (v old.vars + (new.time - old.time) •
          ((2 : ℝ)⁻¹ • (qn'.toRot *ᵥ (new.a_m - b_a (copyNonPropagationStates old.vars (resetState new.vars))) +
            (q old.vars).toRot *ᵥ (old.a_m - b_a old.vars)) - gravity))) (p old.vars + (new.time - old.time) •
              ((2 : ℝ)⁻¹ • ((v old.vars + (new.time - old.time) •
          ((2 : ℝ)⁻¹ • (qn'.toRot *ᵥ (new.a_m - b_a (copyNonPropagationStates old.vars (resetState new.vars))) +
            (q old.vars).toRot *ᵥ (old.a_m - b_a old.vars)) - gravity)) + v old.vars))) }) (by
      have hr : qn'.toRot = qn.toRot := by
        rcases hq with rfl | ⟨-, rfl⟩
        · rfl
        · exact toRot_neg _
      simp only [setPVQ, hr]
      exact hc.set3 _ _ hq)
  rcases h.q with e | ⟨e0, e⟩
  · rw [e]
    cases hn : (ofCoeffs (A *ᵥ (q old.vars).coeffs)).normalize with
    | none => exact .none
    | some qn =>
      simp only [q_setQ, v_setV]
      exact key qn qn (.inl rfl)
  · have hA : (ofCoeffs (A *ᵥ (q old.vars).neg.coeffs)).normalize =
        (ofCoeffs (A *ᵥ (q old.vars).coeffs)).normalize.map neg := by
      rw [coeffs_neg, mulVec_neg, ofCoeffs_neg, normalize_neg]
    rw [e, hA]
    cases hn : (ofCoeffs (A *ᵥ (q old.vars).coeffs)).normalize with
    | none => exact .none
    | some qn =>
      simp only [Option.map_some, q_setQ, v_setV]
      exact key qn qn.neg (.inr ⟨e0, rfl⟩)

/-! ### Prediction of the covariance -/

theorem copyQBlocks_congr {s s' : Vars ℝ D} (h : ∀ i, (s i).Q = (s' i).Q) (Q : ErrMat ℝ D) :
    copyQBlocks s Q = copyQBlocks s' Q := by
  have : copyQBlock s = copyQBlock s' := by
    funext Q i
    unfold copyQBlock
    rw [h i]
  unfold copyQBlocks
  rw [this]

theorem calcQCore_sgn (b : Bool) (dt : ℝ) (q : Quat ℝ) (ew ea n_a n_ba n_w n_bw : V3 ℝ) (Q : ErrMat ℝ D) :
    calcQCore (CalcQ.mkIn dt (sgn b q) ew ea n_a n_ba n_w n_bw) Q =
      calcQCore (CalcQ.mkIn dt q ew ea n_a n_ba n_w n_bw) Q := by
  cases b
  · rfl
  · have e : CalcQ.mkIn dt q.neg ew ea n_a n_ba n_w n_bw =
        (CalcQ.mkIn dt q ew ea n_a n_ba n_w n_bw).negQ := rfl
    rw [sgn_true, e]
    unfold calcQCore
    rw [CalcQ.writes_negQ]

theorem predict_same (np : NoiseParams ℝ (coreDef aux))
    (hq : ∀ s s' dt i, (∀ j, (s j).Q = (s' j).Q) → (np.qAux s dt i).Q = (np.qAux s' dt i).Q)
    (old new new' : EKFState ℝ (coreDef aux)) (tP : ℝ) (h : SameVars new.vars new'.vars)
    (hw : new'.w_m = new.w_m) (ha : new'.a_m = new.a_m) (ht : new'.time = new.time)
    (hP : new'.P = new.P) :
    (predictProcessCovariance np old new' tP).map (fun r => r.2.1.P) =
      (predictProcessCovariance np old new tP).map (fun r => r.2.1.P) := by
  unfold predictProcessCovariance
  obtain ⟨b, hb⟩ := h.q_sgn
  simp only [hw, ha, ht, h.bw, h.ba, hb, toRot_sgn, calcQCore_sgn]
  split
  · simp [hP]
  · simp only [Option.bind_eq_bind]
    cases coreStarts (coreDef aux) with
    | none => rfl
    | some st =>
      simp only [Option.bind_some]
      cases calcQCore (D := coreDef aux) (CalcQ.mkIn (new.time - old.time) (q new.vars) (new.w_m - b_w new.vars)
          (new.a_m - b_a new.vars) (fun _ => np.acc) (fun _ => np.accBias) (fun _ => np.gyr)
          (fun _ => np.gyrBias)) old.Qd with
      | none => rfl
      | some Qd =>
        simp only [Option.bind_some]
        rw [copyQBlocks_congr (fun i => hq new'.vars new.vars _ i fun j => (h.Q j).symm)]
        cases copyQBlocks (np.qAux new.vars (new.time - old.time)) Qd <;> rfl

/-! ### Measurements -/

theorem sensorPos_same {s s' : Vars ℝ (coreDef aux)} (h : SameVars s s') (pip : Nat) :
    sensorPos pip s' = sensorPos pip s := by
  unfold sensorPos
  rw [h.getVec, h.p, h.conjRot]

theorem positionH_same {s s' : Vars ℝ (coreDef aux)} (h : SameVars s s') (pip fixed : Nat) :
    positionH pip fixed s' = positionH pip fixed s := by
  unfold positionH
  rw [h.getVec, h.conjRot]

theorem angleH_same {s s' : Vars ℝ (coreDef aux)} (h : SameVars s s') (pip : Nat) :
    angleH pip s' = angleH pip s := by
  unfold angleH
  rw [h.getVec, h.conjRot, h.p]

theorem distanceH_same {s s' : Vars ℝ (coreDef aux)} (h : SameVars s s') (pip : Nat) :
    distanceH pip s' = distanceH pip s := by
  unfold distanceH
  rw [h.getVec, h.conjRot, h.p]

theorem poseView_same {s s' : Vars ℝ (coreDef aux)} (h : SameVars s s') (ix : PoseIdx) :
    ∃ b0 b1 b2, poseView ix s' = (poseView ix s).map fun v =>
      { v with q := sgn b0 v.q, qic := sgn b1 v.qic, qwv := sgn b2 v.qwv } := by
  obtain ⟨b0, h0⟩ := h.q_sgn
  obtain ⟨b1, h1⟩ := h.getQuat ix.qic
  obtain ⟨b2, h2⟩ := h.getQuat ix.qwv
  refine ⟨b0, b1, b2, ?_⟩
  unfold poseView
  simp only [h.getVec, h.p, h0, h1, h2, Option.bind_eq_bind]
  cases getVec s ix.L 1 <;> simp only [Option.bind_none, Option.bind_some, Option.map_none]
  cases getQuat s ix.qic <;> simp only [Option.bind_none, Option.bind_some, Option.map_none, Option.map_some]
  cases getVec s ix.pic 3 <;> simp only [Option.bind_none, Option.bind_some, Option.map_none]
  cases getQuat s ix.qwv <;> simp only [Option.bind_none, Option.bind_some, Option.map_none, Option.map_some]
  cases getVec s ix.pwv 3 <;> simp only [Option.bind_none, Option.bind_some, Option.map_none, Option.map_some]

theorem poseH_same {s s' : Vars ℝ (coreDef aux)} (h : SameVars s s') (ix : PoseIdx) (fixed : Nat) :
    poseH ix fixed s' = poseH ix fixed s := by
  obtain ⟨b0, b1, b2, hv⟩ := poseView_same h ix
  unfold poseH
  rw [hv]
  cases poseView ix s with
  | none => rfl
  | some v => simp only [Option.map_some, Option.bind_eq_bind, Option.bind_some, toRot_sgn, conj_sgn]

theorem poseResidual_same {s s' : Vars ℝ (coreDef aux)} (h : SameVars s s') (ix : PoseIdx) (z : V3 ℝ)
    (c : Bool) (zq : Quat ℝ) :
    ((poseView ix s').bind fun v => v.residual z (sgn c zq)) =
      (poseView ix s).bind fun v => v.residual z zq := by
  obtain ⟨b0, b1, b2, hv⟩ := poseView_same h ix
  rw [hv]
  cases poseView ix s with
  | none => rfl
  | some v =>
    simp only [Option.map_some, Option.bind_some, PoseView.residual, PoseView.predAtt, PoseView.predPos,
      toRot_sgn, conj_sgn, sgn_mul, mul_sgn, sgn_sgn, attResidual_sgn, yawResidual_sgn]

/-- Readings with the same sign-independent content. -/
theorem reading_same {s s' : Vars ℝ (coreDef aux)} (h : SameVars s s') {m m' : Reading}
    (hm : SameReading m m') :
    (m'.meas (aux := aux)).fixed = (m.meas (aux := aux)).fixed ∧
    (m'.meas (aux := aux)).cleared = (m.meas (aux := aux)).cleared ∧
    (m'.meas (aux := aux)).enable = (m.meas (aux := aux)).enable ∧
    (m'.meas (aux := aux)).thr = (m.meas (aux := aux)).thr ∧
    (m'.meas (aux := aux)).dim = (m.meas (aux := aux)).dim ∧
      HEq (m'.meas (aux := aux)).R (m.meas (aux := aux)).R ∧
      HEq ((m'.meas (aux := aux)).H s') ((m.meas (aux := aux)).H s) ∧
      HEq ((m'.meas (aux := aux)).r s') ((m.meas (aux := aux)).r s) := by
  rcases hm with rfl | ⟨ix, fixed, en, thr, z, rfl, rfl⟩
  · refine ⟨rfl, rfl, rfl, rfl, rfl, HEq.rfl, ?_⟩
    cases m' with
    | position pip fixed en thr z R_ =>
      refine ⟨heq_of_eq (positionH_same h pip fixed), heq_of_eq ?_⟩
      change positionResidual pip z s' = positionResidual pip z s
      unfold positionResidual
      rw [sensorPos_same h]
    | pose ix fixed en thr z =>
      exact ⟨heq_of_eq (poseH_same h ix fixed), heq_of_eq (poseResidual_same h ix z.z_p false z.z_q)⟩
    | pressure bp en thr z n =>
      refine ⟨HEq.rfl, heq_of_eq ?_⟩
      change pressureResidual bp z s' = pressureResidual bp z s
      unfold pressureResidual
      rw [h.getVec, h.p]
    | angle pip fixed en thr z n =>
      refine ⟨heq_of_eq (angleH_same h pip), heq_of_eq ?_⟩
      change angleResidual pip z s' = angleResidual pip z s
      unfold angleResidual
      rw [sensorPos_same h]
    | distance pip fixed en thr z n =>
      refine ⟨heq_of_eq (distanceH_same h pip), heq_of_eq ?_⟩
      change distanceResidual pip z s' = distanceResidual pip z s
      unfold distanceResidual
      rw [sensorPos_same h]
  · exact ⟨rfl, rfl, rfl, rfl, rfl, HEq.rfl, heq_of_eq (poseH_same h ix fixed),
      heq_of_eq (poseResidual_same h ix z.z_p true z.z_q)⟩

/-! ### Corrections -/

theorem correctVal_neg (c : Fin (total errLen D) → ℝ) (d : VarDesc) : ∀ (k : Kind) (x : Val ℝ k),
    correctVal c d k (negVal k x) = (correctVal c d k x).map (negVal k)
  | .vec n, x => by
    change correctVec c d n x = (correctVec c d n x).map fun y => y
    cases correctVec c d n x <;> rfl
  | .quat, q => by
    change correctQuat c d q.neg = (correctQuat c d q).map neg
    unfold correctQuat
    simp only [Option.bind_eq_bind]
    cases startIndex errLen D { d with options := 0 } with
    | none => rfl
    | some st =>
      simp only [Option.bind_some]
      split
      · rfl
      · cases segment c st 3 with
        | none => rfl
        | some sg =>
          simp only [Option.bind_some]
          rw [mul_neg_left, normalize_neg]

theorem allSome_rel {n : Nat} {β : Fin n → Type} {f f' : (i : Fin n) → Option (β i)}
    {R : (i : Fin n) → β i → β i → Prop} (h : ∀ i, Option.Rel (R i) (f i) (f' i)) :
    Option.Rel (fun a b : (i : Fin n) → β i => ∀ i, R i (a i) (b i)) (allSome f) (allSome f') := by
  have hs : ∀ i, (f' i).isSome = (f i).isSome := fun i => by
    have := h i
    revert this
    cases f i <;> cases f' i <;> intro this <;> cases this <;> rfl
  unfold allSome
  by_cases h1 : ∀ i, (f i).isSome
  · have h2 : ∀ i, (f' i).isSome := fun i => by rw [hs]; exact h1 i
    rw [dif_pos h1, dif_pos h2]
    refine .some fun i => ?_
    have := h i
    rw [← Option.some_get (h1 i), ← Option.some_get (h2 i)] at this
    cases this with
    | some h => exact h
  · have h2 : ¬ ∀ i, (f' i).isSome := fun h2 => h1 fun i => by rw [← hs]; exact h2 i
    rw [dif_neg h1, dif_neg h2]
    exact .none

theorem correct_same {s s' : Vars ℝ D} (h : SameVars s s') (c : Fin (total errLen D) → ℝ) :
    Option.Rel SameVars (correct s c) (correct s' c) := by
  unfold correct
  refine allSome_rel (R := fun i (a b : StateVar ℝ (D.get i).kind) =>
    b = a ∨ (bestIndex D ≠ some i ∧ b = { a with val := negVal _ a.val })) fun i => ?_
  rcases h i with h | ⟨h0, h⟩
  · rw [h]
    cases correctVal c (D.get i) _ (s i).val with
    | none => exact .none
    | some v => exact .some (.inl rfl)
  · rw [h]
    simp only [correctVal_neg]
    cases correctVal c (D.get i) _ (s i).val with
    | none => exact .none
    | some v => exact .some (.inr ⟨h0, rfl⟩)

theorem fuzzyCheck_same {t : Tracker ℝ} {d d' b b' : Vars ℝ D} (h : SameVars d d') (hb : SameVars b b')
    (thres : ℝ) :
    Option.Rel (fun r r' : Tracker ℝ × Vars ℝ D × Bool => r'.1 = r.1 ∧ SameVars r.2.1 r'.2.1 ∧
      r'.2.2 = r.2.2) (fuzzyCheck' t d b thres) (fuzzyCheck' t d' b' thres) := by
  unfold fuzzyCheck'
  split
  · exact .some ⟨rfl, h, rfl⟩
  · unfold fuzzyCheck
    simp only [Option.bind_eq_bind]
    cases hi : bestIndex D with
    | none => exact .none
    | some i =>
      have e : d' i = d i := by
        rcases h i with h | ⟨h0, -⟩
        · exact h
        · exact absurd hi h0
      simp only [Option.bind_some, e]
      cases quatOf _ (d i).val with
      | none => exact .none
      | some q =>
        simp only [Option.bind_some]
        split
        · split
          · exact .some ⟨rfl, hb.copyNon h, rfl⟩
          · cases t.writeRow (t.timer - nBuff - 1) q with
            | none => exact .none
            | some w => exact .some ⟨rfl, h, rfl⟩
        · cases t.writeRow (t.timer - 1) q with
          | none => exact .none
          | some w => exact .some ⟨rfl, h, rfl⟩

/-- The sanity check of the manager does not look at signs. -/
def UserCalc.Signless (uc : UserCalc D) : Prop :=
  ∀ s s' t t' c, SameVars s s' → SameVars t t' → SameVars (uc.sanity s t c) (uc.sanity s' t' c)

theorem applyCorrection_same {uc : UserCalc (coreDef aux)} (hu : uc.Signless) (tr : Tracker ℝ)
    {s s' : Vars ℝ (coreDef aux)} (h : SameVars s s') (c : Fin (total errLen (coreDef aux)) → ℝ) :
    Option.Rel (fun r r' : Tracker ℝ × Vars ℝ (coreDef aux) × Bool => r'.1 = r.1 ∧ SameVars r.2.1 r'.2.1 ∧
      r'.2.2 = r.2.2) (applyCorrection uc tr s c) (applyCorrection uc tr s' c) := by
  unfold applyCorrection
  simp only [Option.bind_eq_bind]
  generalize (if uc.fixedBias = true then zeroBias (uc.augment c) else uc.augment c) = c
  have := correct_same h c
  revert this
  generalize correct s c = a
  generalize correct s' c = b
  intro this
  cases this with
  | none => exact .none
  | some h' => exact fuzzyCheck_same (hu _ _ _ _ _ h' h) h _

theorem measUpdate_same {uc : UserCalc (coreDef aux)} (hu : uc.Signless) (tr : Tracker ℝ)
    {x x' : Values (coreDef aux)} (h : SameValues x x') {m m' : AbsMeas (coreDef aux)}
    (he : m'.enable = m.enable) (ht : m'.thr = m.thr) (hd : m'.dim = m.dim) (hR : HEq m'.R m.R)
    (hH : HEq (m'.H (toVars x')) (m.H (toVars x))) (hr : HEq (m'.r (toVars x')) (m.r (toVars x)))
    (P : ErrMat ℝ (coreDef aux)) :
    Option.Rel (fun u u' : Upd (Values (coreDef aux)) (ErrMat ℝ (coreDef aux)) (Tracker ℝ) =>
      u'.tr = u.tr ∧ SameValues u.x u'.x ∧ u'.P = u.P ∧ u'.applied = u.applied ∧ u'.fuzzy = u.fuzzy)
      (measUpdate uc tr m x P) (measUpdate uc tr m' x' P) := by
  obtain ⟨k, H, r, R, en, thr⟩ := m
  obtain ⟨k', H', r', R', en', thr'⟩ := m'
  simp only at he ht hd
  subst he ht hd
  have hR : R' = R := eq_of_heq hR
  have eH : H' (toVars x') = H (toVars x) := eq_of_heq hH
  have er : r' (toVars x') = r (toVars x) := eq_of_heq hr
  subst hR
  unfold measUpdate
  simp only [Option.bind_eq_bind, eH, er]
  cases H (toVars x) with
  | none => exact .none
  | some h1 =>
    simp only [Option.bind_some]
    cases r (toVars x) with
    | none => exact .none
    | some r1 =>
      simp only [Option.bind_some]
      cases calculateCorrection en' thr' P h1 r1 R' with
      | none => exact .none
      | some o =>
        cases o with
        | none => exact .some ⟨rfl, h, rfl, rfl, rfl⟩
        | some cP =>
          simp only [Option.bind_some]
          have := applyCorrection_same hu tr h.vars cP.1
          revert this
          generalize applyCorrection uc tr (toVars x) cP.1 = a
          generalize applyCorrection uc tr (toVars x') cP.1 = b
          intro this
          cases this with
          | none => exact .none
          | some h' => exact .some ⟨h'.1, h'.2.1.values, rfl, rfl, h'.2.2⟩

/-! ### The kernel -/

theorem SameState.equiv : Equivalence (SameState (D := D)) where
  refl x := by
    cases x with
    | none => exact .none
    | some x => exact .some (.refl x)
  symm h := by
    cases h with
    | none => exact .none
    | some h => exact .some h.symm
  trans h h' := by
    cases h with
    | none => exact h'
    | some h =>
      cases h' with
      | some h' => exact .some (h.trans h')

theorem SameReading.equiv : Equivalence SameReading where
  refl _ := .inl rfl
  symm h := by
    rcases h with rfl | ⟨ix, fixed, en, thr, z, rfl, rfl⟩
    · exact .inl rfl
    · exact .inr ⟨ix, fixed, en, thr, _, rfl, by simp only [neg_neg']⟩
  trans h h' := by
    rcases h with rfl | ⟨ix, fixed, en, thr, z, rfl, rfl⟩
    · exact h'
    · rcases h' with rfl | ⟨ix', fixed', en', thr', z', e, rfl⟩
      · exact .inr ⟨ix, fixed, en, thr, z, rfl, rfl⟩
      · cases e
        exact .inl (by simp only [neg_neg'])

theorem SameExt.equiv : Equivalence SameExt where
  refl _ := .inl rfl
  symm h := by
    rcases h with rfl | rfl
    · exact .inl rfl
    · exact .inr (by simp only [neg_neg'])
  trans h h' := by
    rcases h with rfl | rfl
    · exact h'
    · rcases h' with rfl | rfl
      · exact .inr rfl
      · exact .inl (by simp only [neg_neg'])

theorem sign_congr (np : NoiseParams ℝ (coreDef aux)) (uc : UserCalc (coreDef aux)) (hu : uc.Signless)
    (hn : bestIndex (coreDef aux) ≠ some iq)
    (hq : ∀ s s' dt i, (∀ j, (s j).Q = (s' j).Q) → (np.qAux s dt i).Q = (np.qAux s' dt i).Q) :
    KCongr (readingKernel np uc) ⟨SameState, SameState.equiv⟩ ⟨SameReading, SameReading.equiv⟩
      ⟨SameExt, SameExt.equiv⟩ where
  prop dt u s s' u' h := by
    cases h with
    | none => exact .none
    | some h =>
      rename_i x x'
      have := propagate_same (old := mkState (toVars x) u 0 0) (old' := mkState (toVars x') u 0 0)
        (new := mkState (noInit _) u' (dt : ℝ) 0) h.vars rfl rfl rfl
      change Option.Rel SameValues
        ((propagateState (mkState (toVars x) u 0 0) (mkState (noInit _) u' (dt : ℝ) 0)).bind
          fun s => some (values s.vars))
        ((propagateState (mkState (toVars x') u 0 0) (mkState (noInit _) u' (dt : ℝ) 0)).bind
          fun s => some (values s.vars))
      revert this
      generalize propagateState (mkState (toVars x) u 0 0) (mkState (noInit _) u' (dt : ℝ) 0) = a
      generalize propagateState (mkState (toVars x') u 0 0) (mkState (noInit _) u' (dt : ℝ) 0) = b
      intro this
      cases this with
      | none => exact .none
      | some h => exact .some h.values
  extProp e e' s s' he hs := by
    cases hs with
    | none => exact .none
    | some h =>
      refine .some (SameVars.values ?_)
      rcases he with rfl | rfl
      · exact h.vars.set3 _ _ (.inl rfl)
      · exact h.vars.set3 _ _ (.inr ⟨hn, rfl⟩)
  predP dt P u s s' hs := by
    cases hs with
    | none => rfl
    | some h =>
      rename_i x x'
      cases P with
      | none => simp only [readingKernel, sensorKernel, filterKernel, Option.bind_eq_bind, Option.bind_none]
      | some P =>
        have := predict_same np hq (mkState (noInit _) ⟨0, 0⟩ 0 P) (mkState (toVars x) u (dt : ℝ) 0)
          (mkState (toVars x') u (dt : ℝ) 0) 0 h.vars rfl rfl rfl rfl
        simp only [readingKernel, sensorKernel, filterKernel, Option.bind_eq_bind, Option.bind_some]
        revert this
        generalize predictProcessCovariance np (mkState (noInit _) ⟨0, 0⟩ 0 P)
          (mkState (toVars x) u (dt : ℝ) 0) 0 = a
        generalize predictProcessCovariance np (mkState (noInit _) ⟨0, 0⟩ 0 P)
          (mkState (toVars x') u (dt : ℝ) 0) 0 = b
        intro this
        cases a <;> cases b
        · rfl
        · cases this
        · cases this
        · simpa using this.symm
  update tr m m' s s' P hm hs := by
    cases hs with
    | none => exact ⟨rfl, .none, rfl, rfl, rfl⟩
    | some h =>
      rename_i x x'
      cases P with
      | none => exact ⟨rfl, .none, rfl, rfl, rfl⟩
      | some P =>
        obtain ⟨h1, h2, h3, h4, h5, h6, h7, h8⟩ := reading_same h.vars hm
        have key : Option.Rel (fun u u' : Upd (Values (coreDef aux)) (ErrMat ℝ (coreDef aux)) (Tracker ℝ) =>
            u'.tr = u.tr ∧ SameValues u.x u'.x ∧ u'.P = u.P ∧ u'.applied = u.applied ∧ u'.fuzzy = u.fuzzy)
            (sensorUpdate uc tr m.meas x P) (sensorUpdate uc tr m'.meas x' P) := by
          unfold sensorUpdate
          rw [h1, h2]
          simp only [Option.bind_eq_bind]
          cases clearFixed m.meas.fixed m.meas.cleared P with
          | none => exact .none
          | some P1 => exact measUpdate_same hu tr h h3 h4 h5 h6 h7 h8 P1
        simp only [readingKernel, sensorKernel]
        revert key
        generalize sensorUpdate uc tr m.meas x P = a
        generalize sensorUpdate uc tr m'.meas x' P = b
        intro key
        cases key with
        | none => exact ⟨rfl, .none, rfl, rfl, rfl⟩
        | some h =>
          obtain ⟨g1, g2, g3, g4, g5⟩ := h
          exact ⟨g1.symm, .some g2, by simp only [g3], g4.symm, g5.symm⟩
  numX _ _ _ := rfl
  numPos _ _ _ := rfl

end MSF
