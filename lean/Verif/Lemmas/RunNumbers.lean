import Verif.Lemmas.Runs
import Verif.Props.Predict
import Verif.Props.FilterKernel

/-! Lemmas for C101: clearing, updates and predictions keep valid covariances. -/

namespace MSF

open Matrix EKFState

variable {aux : List VarDesc}

theorem clearFixed_psd {D : List VarDesc} (h : ∀ i (hi : i < D.length), D[i].name = i) (fixed : Nat)
    (is : List Nat) : ∀ P P' : ErrMat ℝ D, P.PosSemidef → clearFixed fixed is P = some P' →
      P'.PosSemidef := by
  induction is with
  | nil => intro P P' hP e; cases e; exact hP
  | cons a l ih =>
    intro P P' hP e
    unfold clearFixed at e
    rw [List.foldlM_cons] at e
    obtain ⟨P1, e1, e2⟩ := Option.bind_eq_some_iff.1 e
    refine ih P1 P' ?_ e2
    by_cases hf : fixed.testBit a = true
    · rw [if_pos hf] at e1
      by_cases ha : a < D.length
      · obtain ⟨P2, e3, -, -, -, h4⟩ := C38_clear_cross_cov P ⟨a, ha⟩ h
        obtain rfl := Option.some.inj (e3.symm.trans e1)
        exact h4 hP
      · simp only [clearCrossCov, List.getElem?_eq_none (not_lt.1 ha), Option.bind_eq_bind,
          Option.bind_none] at e1
        cases e1
    · rw [if_neg hf] at e1
      cases e1
      exact hP

theorem calculateCorrection_psd {k : Nat} {m : Type} [Fintype m] [DecidableEq m] {en : Bool} {thr : ℝ}
    {P P' : Matrix (Fin k) (Fin k) ℝ} {H : Matrix m (Fin k) ℝ} {r : m → ℝ} {R : Matrix m m ℝ}
    {c : Fin k → ℝ} (hP : P.PosSemidef) (hR : R.PosSemidef)
    (h : calculateCorrection en thr P H r R = some (some (c, P'))) : P'.PosSemidef := by
  unfold calculateCorrection at h
  split at h
  · cases h
  · split at h
    · cases h
    · simp only [Option.some.injEq, Prod.mk.injEq] at h
      rw [← h.2]
      exact C28_update_psd P hP H R hR _

/-- A prediction of the concrete kernel is defined and keeps a valid covariance. -/
theorem predict_psd (ho : Ordered aux) (np : NoiseParams ℝ (coreDef aux))
    (hg : np.gyr = 0 ∧ np.gyrBias = 0) (hb : np.accBias = 0)
    (haux : ∀ s dt i, ((coreDef aux).get i).isAux → (np.qAux s dt i).Q.PosSemidef)
    (dt : ℝ) {P : ErrMat ℝ (coreDef aux)} (u : Input (V3 ℝ) (V3 ℝ)) {x : Values (coreDef aux)}
    (hP : P.PosSemidef) (hx : UnitQuats (toVars x)) :
    ∃ r, predictProcessCovariance np (mkState (noInit _) ⟨0, 0⟩ 0 P) (mkState (toVars x) u dt 0) 0 =
      some r ∧ r.2.1.P.PosSemidef := by
  have hs : ∃ r, predictProcessCovariance np (mkState (noInit _) ⟨0, 0⟩ 0 P)
      (mkState (toVars x) u dt 0) 0 = some r := by
    by_cases hdt : (mkState (toVars x) u dt 0).time - (mkState (noInit (coreDef aux)) ⟨0, 0⟩ 0 P).time ≤ 0
    · exact ⟨_, by rw [predictProcessCovariance, if_pos hdt]⟩
    · obtain ⟨Qd, e, -⟩ := predict_apply (indexingErrors_eq_zero.2 ho) np _ _ 0 hdt
      exact ⟨_, e⟩
  obtain ⟨⟨o', n', t'⟩, hr⟩ := hs
  refine ⟨_, hr, ?_⟩
  refine C29_prediction_psd_partial ho np _ _ 0 (Live.fresh _ rfl rfl) hP PosSemidef.zero ?_
    (fun dt i hi => haux _ dt i hi) (by rw [hb]; simp [sq_nonneg]) (Or.inl hg) hr
  exact hx iq _ rfl

end MSF
