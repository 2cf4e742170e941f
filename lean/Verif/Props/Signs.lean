import Verif.Lemmas.Signs
import Verif.Props.Translation
import Verif.Props.Fuzzy

/-!
# C106: the sign of a quaternion does not matter

A quaternion and its opposite are the same rotation, and sources of attitudes switch between them at
will.  The statement is about two complete runs of a filter whose calls agree up to signs.
-/

namespace MSF

open Matrix EKFState Core

variable {aux : List VarDesc}

/-- **C106, partial**: the signs of measured attitudes, of externally propagated attitudes and of
the quaternions of initial states do not matter, for every filter whose fuzzy tracker does not watch
the attitude of the body.  Signs may change with every call.
Missing: the quaternion that the tracker watches (`C106_watched_violated`). -/
theorem C106_signs_partial (np : NoiseParams ℝ (coreDef aux)) (uc : UserCalc (coreDef aux))
    (hu : uc.Signless) (hn : bestIndex (coreDef aux) ≠ some iq)
    (hq : ∀ s s' dt i, (∀ j, (s j).Q = (s' j).Q) → (np.qAux s dt i).Q = (np.qAux s' dt i).Q) :
    SignInvariant np uc :=
  fun env _ _ hc => (sign_congr np uc hu hn hq).apis env hc

theorem plainCalc_signless (fb : Bool) : (plainCalc (aux := aux) fb).Signless :=
  fun _ _ _ _ _ h _ => h

theorem scaleCalc_signless {rest : List VarDesc} (fb : Bool) :
    (scaleCalc (rest := rest) fb).Signless := by
  intro s s' t t' c h _
  have e := h.vec (i := ⟨5, by simp [coreDef, coreDescs]⟩) (n := 1) rfl
  change SameVars (scaleSanity s) (scaleSanity s')
  unfold scaleSanity
  simp only [e]
  split
  · intro i
    by_cases hi : i = ⟨5, by simp [coreDef, coreDescs]⟩
    · subst hi
      left
      rw [Function.update_self, Function.update_self]
    · rw [Function.update_of_ne hi, Function.update_of_ne hi]
      exact h i
  · exact h

/-- **C106 for the shipped filters**, any process noise. -/
theorem C106_shipped_partial (a b g c : ℝ) (n : AuxNoise ℝ) (fixedBias : Bool) :
    SignInvariant (noiseOf a b g c (poseQAux n)) (scaleCalc fixedBias) ∧
    SignInvariant (noiseOf a b g c (positionQAux n)) (plainCalc fixedBias) ∧
    SignInvariant (noiseOf a b g c (posePressureQAux n)) (scaleCalc fixedBias) ∧
    SignInvariant (noiseOf a b g c (positionPoseQAux n)) (scaleCalc fixedBias) := by
  refine ⟨C106_signs_partial _ _ (scaleCalc_signless _) (by decide +kernel) fun s s' dt i h => ?_,
    C106_signs_partial _ _ (plainCalc_signless _) (by decide +kernel) fun s s' dt i h => ?_,
    C106_signs_partial _ _ (scaleCalc_signless _) (by decide +kernel) fun s s' dt i h => ?_,
    C106_signs_partial _ _ (scaleCalc_signless _) (by decide +kernel) fun s s' dt i h => ?_⟩
  · exact setQBlock_Q (setQBlock_Q (setQBlock_Q (setQBlock_Q (setQBlock_Q h _ _ _) _ _ _) _ _ _) _ _ _) _ _ _ i
  · exact setQBlock_Q h _ _ _ i
  · exact setQBlock_Q (setQBlock_Q (setQBlock_Q (setQBlock_Q (setQBlock_Q h _ _ _) _ _ _) _ _ _) _ _ _) _ _ _ i
  · exact setQBlock_Q (setQBlock_Q (setQBlock_Q (setQBlock_Q (setQBlock_Q h _ _ _) _ _ _) _ _ _) _ _ _) _ _ _ i

/-- The reading that a pose handler makes from a message: the other sign of the attitude of the
message gives the same reading with the other sign, in every configuration. -/
theorem C106_make_pose (cfg : PoseCfg ℝ) (pos : V3 ℝ) (att : Quat ℝ) (cov : Fin 36 → ℝ) :
    makePose cfg pos att.neg cov =
      { makePose cfg pos att cov with z_q := (makePose cfg pos att cov).z_q.neg } := by
  unfold makePose
  split
  · rfl
  · simp only [Quat.toRot_neg, Quat.conj_neg]
    split <;> rfl

theorem setInit_same {D : List VarDesc} {s s' : Vars ℝ D} (h : SameVars s s') (i : Fin D.length)
    (x : Val ℝ (D.get i).kind) : SameVars (setInit s i x) (setInit s' i x) := fun j => by
  unfold setInit
  by_cases hj : j = i
  · subst hj
    left
    rw [Function.update_self, Function.update_self]
    rcases h j with h | ⟨-, h⟩ <;> rw [h]
  · rw [Function.update_of_ne hj, Function.update_of_ne hj]
    exact h j

theorem initCore_same (hn : bestIndex (coreDef aux) ≠ some iq) (p : V3 ℝ) (q : Quat ℝ) :
    SameVars (initCore (aux := aux) p q) (initCore p q.neg) := by
  unfold initCore
  refine setInit_same (setInit_same (fun j => ?_) _ _) _ _
  unfold setInit
  by_cases hj : j = iq
  · subst hj
    right
    exact ⟨hn, by rw [Function.update_self, Function.update_self]; rfl⟩
  · left
    rw [Function.update_of_ne hj, Function.update_of_ne hj]

theorem inverse_neg (q : Quat ℝ) : q.neg.inverse = q.inverse.neg := by
  unfold Quat.inverse
  simp only [Quat.normSq_neg]
  split <;> simp [Quat.neg, neg_div]

theorem rotate_neg (q : Quat ℝ) (v : V3 ℝ) : q.neg.rotate v = q.rotate v := by
  funext i
  fin_cases i <;> simp [Quat.rotate, Quat.neg, cross3, Quat.vec] <;> ring

theorem initMeas_same {s s' : Vars ℝ (coreDef aux)} (h : SameVars s s') {q q' : Quat ℝ}
    (hq : q' = q ∨ q' = q.neg) (time : ℝ) :
    (initMeas s' q' time).a_m = (initMeas s q time).a_m := by
  rcases hq with rfl | rfl
  · rfl
  · change q.neg.inverse.rotate managerGravity = q.inverse.rotate managerGravity
    rw [inverse_neg, rotate_neg]

/-- Two initialisations agree up to signs: the same IMU readings, covariance and time. -/
def SameInit {D : List VarDesc} (m m' : InitMeas ℝ D) : Prop :=
  SameVars m.vars m'.vars ∧ m'.P = m.P ∧ m'.a_m = m.a_m ∧ m'.w_m = m.w_m ∧ m'.time = m.time ∧
    m'.containsReadings = m.containsReadings

theorem sameInit_of {s s' : Vars ℝ (coreDef aux)} (h : SameVars s s') {q q' : Quat ℝ}
    (hq : q' = q ∨ q' = q.neg) (time : ℝ) : SameInit (initMeas s q time) (initMeas s' q' time) :=
  ⟨h, rfl, initMeas_same h hq time, rfl, rfl, rfl⟩

/-- The attitude computed by `Init` from either sign of the measured attitude. -/
theorem init_att_neg (received : Bool) (qi q_cv : Quat ℝ) :
    ∃ b, (if received = true then ((qi.mul q_cv.neg.conj).mul Quat.one).conj else Quat.one).normalize =
      ((if received = true then ((qi.mul q_cv.conj).mul Quat.one).conj else Quat.one).normalize).map
        (Quat.sgn b) := by
  cases received
  · refine ⟨false, ?_⟩
    simp only [Bool.false_eq_true, if_false]
    generalize Quat.normalize _ = a
    cases a <;> rfl
  · refine ⟨true, ?_⟩
    simp only [if_true]
    rw [Quat.conj_neg, Quat.mul_neg_right, Quat.mul_neg_left, Quat.conj_neg, Quat.normalize_neg]
    rfl

theorem initCore_sgn (hn : bestIndex (coreDef aux) ≠ some iq) (b : Bool) (p : V3 ℝ) (q : Quat ℝ) :
    SameVars (initCore (aux := aux) p q) (initCore p (Quat.sgn b q)) := by
  cases b
  · exact .refl _
  · exact initCore_same hn p q

theorem sgn_cases (b : Bool) (q : Quat ℝ) : Quat.sgn b q = q ∨ Quat.sgn b q = q.neg := by
  cases b
  · exact .inl rfl
  · exact .inr rfl

/-- Initialisation of the pose filter from a stored measurement: the other sign of its attitude gives
the same initial state up to signs. -/
theorem C106_pose_init (scale : ℝ) (received : Bool) (p_vc : V3 ℝ) (q_cv : Quat ℝ) (p_ic : V3 ℝ)
    (q_ic : Quat ℝ) (time : ℝ) :
    Option.Rel SameInit (poseInit scale received p_vc q_cv p_ic q_ic time)
      (poseInit scale received p_vc q_cv.neg p_ic q_ic time) := by
  unfold poseInit
  simp only [Option.bind_eq_bind]
  cases q_ic.normalize with
  | none => exact .none
  | some qi =>
    simp only [Option.bind_some]
    obtain ⟨b, key⟩ := init_att_neg received qi q_cv
    rw [key]
    cases (if received = true then ((qi.mul q_cv.conj).mul Quat.one).conj else Quat.one).normalize with
    | none => exact .none
    | some qn =>
      simp only [Option.map_some, Option.bind_some, Quat.toRot_sgn]
      split
      · exact .none
      · refine .some (sameInit_of ?_ (sgn_cases b qn) time)
        exact setInit_same (setInit_same (setInit_same (setInit_same (setInit_same
          (initCore_sgn (by decide +kernel) b _ _) _ _) _ _) _ _) _ _) _ _

/-- The same for the pose-pressure filter. -/
theorem C106_pose_pressure_init (scale : ℝ) (received : Bool) (p_vc : V3 ℝ) (q_vc : Quat ℝ) (z : ℝ)
    (p_ic : V3 ℝ) (q_ic : Quat ℝ) (time : ℝ) :
    Option.Rel SameInit (posePressureInit scale received p_vc q_vc z p_ic q_ic time)
      (posePressureInit scale received p_vc q_vc.neg z p_ic q_ic time) := by
  unfold posePressureInit
  simp only [Option.bind_eq_bind]
  split
  · exact .none
  · cases q_ic.normalize with
    | none => exact .none
    | some qi =>
      simp only [Option.bind_some]
      obtain ⟨b, key⟩ := init_att_neg received qi q_vc
      rw [key]
      cases (if received = true then ((qi.mul q_vc.conj).mul Quat.one).conj else Quat.one).normalize with
      | none => exact .none
      | some qn =>
        simp only [Option.map_some, Option.bind_some, Quat.toRot_sgn]
        refine .some (sameInit_of ?_ (sgn_cases b qn) time)
        exact setInit_same (setInit_same (setInit_same (setInit_same (setInit_same
          (initCore_sgn (by decide +kernel) b _ _) _ _) _ _) _ _) _ _) _ _

/-- What states that agree up to signs have in common: position, velocity, biases and the rotation. -/
theorem C106_same_motion {x y : Values (coreDef aux)} (h : SameValues x y) :
    p (toVars y) = p (toVars x) ∧ v (toVars y) = v (toVars x) ∧
    (q (toVars y)).toRot = (q (toVars x)).toRot ∧ b_w (toVars y) = b_w (toVars x) ∧
    b_a (toVars y) = b_a (toVars x) :=
  ⟨h.vars.p, h.vars.v, h.vars.rot, h.vars.bw, h.vars.ba⟩

/-- **C106 is violated for the quaternion that the tracker watches.**  Fifteen corrections leave one
value of `q_wv`, fifteen another, then the first value comes back: this is an alarm.  The same history
with all signs changed, that is with the same rotations, is none: the window has an even number of
entries, and its median is the upper one of the two in the middle. -/
theorem C106_watched_violated :
    let q : Quat ℚ := Quat.one
    let r : Quat ℚ := ⟨24 / 25, 7 / 25, 0, 0⟩
    let op := fun x => FuzzyOp.check (poseVars x) (poseVars x) (1 / 10)
    let alarm := fun (f : Quat ℚ → Quat ℚ) =>
      (runFuzzy poseIq (List.replicate 15 (op (f q)) ++ List.replicate 15 (op (f r))) Tracker.reset []).bind
        fun t => (fuzzyCheck t.1 (poseVars (f q)) (poseVars (f q)) (1 / 10)).map fun o => o.2.2
    q.normSq = 1 ∧ r.normSq = 1 ∧ q.neg.toRot = q.toRot ∧ r.neg.toRot = r.toRot ∧
    alarm id = some true ∧ alarm Quat.neg = some false := by
  refine ⟨by decide +kernel, by decide +kernel, by decide +kernel, by decide +kernel, ?_, ?_⟩
  · decide +kernel
  · decide +kernel

/-- Calls that agree up to signs: the attitude of the initial state and the measured attitude have
other signs. -/
example (u : Input (V3 ℝ) (V3 ℝ)) (x : Values (coreDef poseAux)) (P : ErrMat ℝ (coreDef poseAux))
    (ix : PoseIdx) (z : PoseMeas ℝ) :
    List.Forall₂ (Api.Equiv SameState SameReading SameExt)
      ([.init 1 ⟨u, some x, some P⟩, .imu 2 u, .meas ⟨2, 0, .pose ix 0 false 0 z⟩] :
        List (Api (V3 ℝ) (V3 ℝ) (Option (Values (coreDef poseAux))) (Option (ErrMat ℝ (coreDef poseAux)))
          Reading ExtState))
      [.init 1 ⟨u, some (Function.update x iq (negVal _ (x iq))), some P⟩, .imu 2 u,
        .meas ⟨2, 0, .pose ix 0 false 0 { z with z_q := z.z_q.neg }⟩] := by
  refine .cons (.init _ _ _ _ _ (.some fun i => ?_)) (.cons (.imu _ _) (.cons (.meas _ _ _ _ (.inr
    ⟨ix, 0, false, 0, z, rfl, rfl⟩)) .nil))
  by_cases hi : i = iq
  · subst hi
    exact .inr ⟨by decide +kernel, by rw [Function.update_self]⟩
  · exact .inl (by rw [Function.update_of_ne hi])

/-- The initial state of the pose filter from either sign. -/
example : Option.Rel SameInit
    (poseInit 1 true 0 ⟨3 / 5, 0, 0, 4 / 5⟩ 0 Quat.one 1)
    (poseInit 1 true 0 ⟨-(3 / 5), -0, -0, -(4 / 5)⟩ 0 Quat.one 1) :=
  C106_pose_init 1 true 0 ⟨3 / 5, 0, 0, 4 / 5⟩ 0 Quat.one 1

end MSF
