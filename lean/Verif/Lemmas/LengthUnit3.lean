import Verif.Lemmas.LengthUnit2
import Verif.Props.FixedStates

/-! Updates with a covariance that has a single entry, and a run with one of them. -/

namespace MSF

open Matrix EKFState Core

/-- What is published after initialisation, an external state and a measurement of that time, any
kernel. -/
theorem init_ext_meas_out {A W X C M T E : Type} [AddCommGroup A] [Module ℚ A] [AddCommGroup W] [Module ℚ W]
    (K : Kernel A W X C M T E) (env : Env) (s : St A W X C) (u : Input A W) (e : E) (m : M)
    (hs : K.spike u.a = false) (hx : ∀ x, K.numX x = true) :
    (Core.apis env K (Core.new K) [.init 1 s, .ext 2 u (some e), .meas ⟨2, 0, m⟩]).map Core.out =
      .ok [.initial 1 s.x s.P, .afterPropagation 2 (K.extProp e s.x) s.P,
        .afterUpdate 2 (K.update K.tr0 m (K.extProp e s.x) s.P).x
          (K.update K.tr0 m (K.extProp e s.x) s.P).P] := by
  simp [Core.apis, Core.api, Core.init, Core.new, Core.processExternal, Core.handlePending,
      Core.addMeasurement, Core.measLoop, Core.getClosestState, Core.applyMeas, Core.repropagate,
      Core.finishMeas, Core.propPToState, timeOf, Buf.last, Buf.first,
      Buf.insert, Buf.clear, Buf.find, insertNode, Buf.deref, Node.iter, invalidTime, hs,
      Core.propagatePOneStep, Buf.iterAtValue, Buf.incr, Buf.upperBound, Buf.toIter,
      Buf.modify, Buf.size, pure, bind, Except.pure, Except.bind, Except.map]
  norm_num
  simp [insertNode, Buf.iterClosest, Buf.find, Buf.deref, Node.iter, hx, Core.interpolate,
    Core.propPLoop, Core.measLoop, Core.propLoop, Buf.incr, Buf.upperBound, Buf.toIter, Buf.modify, pure,
    bind, Except.pure, Except.bind, invalidTime]
  norm_num [Buf.deref, Core.propPLoop, Core.propLoop, Core.measLoop, Buf.incr, Buf.upperBound,
    Buf.toIter, Buf.find, hx]

section
variable {n m : Nat}

/-- One uncertain direction, seen by one row. -/
theorem single_innov (H : Matrix (Fin m) (Fin n) ℝ) (j : Fin n) (i : Fin m) (a h : ℝ) (ρ : Fin m → ℝ)
    (hH : ∀ r, H r j = (Pi.single i h : Fin m → ℝ) r) :
    innovCov (diagonal (Pi.single j a)) H (diagonal ρ) = diagonal (ρ + Pi.single i (a * h * h)) := by
  ext r s
  unfold innovCov
  rw [Matrix.add_apply, Matrix.mul_assoc, Matrix.mul_apply]
  rw [Finset.sum_eq_single j]
  · rw [diagonal_mul, transpose_apply, hH, hH, Pi.single_eq_same, diagonal_apply, diagonal_apply,
      Pi.add_apply]
    by_cases e : r = s
    · subst e
      rw [if_pos rfl, if_pos rfl]
      by_cases hr : r = i
      · subst hr; simp only [Pi.single_eq_same]; ring
      · simp only [Pi.single_eq_of_ne hr]; ring
    · rw [if_neg e, if_neg e]
      by_cases hr : r = i
      · subst hr; rw [Pi.single_eq_of_ne (Ne.symm e)]; ring
      · rw [Pi.single_eq_of_ne hr]; ring
  · intro b _ hb
    rw [diagonal_mul, Pi.single_eq_of_ne hb, zero_mul, mul_zero]
  · intro h; exact absurd (Finset.mem_univ _) h

theorem single_correction (H : Matrix (Fin m) (Fin n) ℝ) (j : Fin n) (i : Fin m) (a h : ℝ)
    (ρ r : Fin m → ℝ) (hH : ∀ r, H r j = (Pi.single i h : Fin m → ℝ) r) (ha : 0 ≤ a)
    (hρ : ∀ r, 0 < ρ r) (thr : ℝ) :
    ∃ P', calculateCorrection false thr (diagonal (Pi.single j a)) H r (diagonal ρ) =
      some (some (Pi.single j (a * h * r i / (ρ i + a * h * h)), P')) := by
  have hpos : ∀ s, 0 < (ρ + Pi.single i (a * h * h) : Fin m → ℝ) s := by
    intro s
    rw [Pi.add_apply]
    by_cases hs : s = i
    · subst hs
      rw [Pi.single_eq_same]
      have := hρ s
      have : 0 ≤ a * h * h := by rw [mul_assoc]; exact mul_nonneg ha (mul_self_nonneg h)
      linarith
    · rw [Pi.single_eq_of_ne hs, add_zero]; exact hρ s
  have hS := single_innov H j i a h ρ hH
  refine ⟨josephUpdate (diagonal (Pi.single j a)) H (diagonal ρ)
    (gain (diagonal (Pi.single j a)) H (diagonal ρ)), ?_⟩
  unfold calculateCorrection
  rw [if_neg (by
    rw [hS, det_diagonal]
    exact Finset.prod_ne_zero_iff.2 fun s _ => (hpos s).ne'), if_neg (by simp)]
  refine congrArg some (congrArg some (Prod.ext ?_ rfl))
  change gain (diagonal (Pi.single j a)) H (diagonal ρ) *ᵥ r = _
  have hinv : (innovCov (diagonal (Pi.single j a)) H (diagonal ρ))⁻¹ =
      diagonal fun s => ((ρ + Pi.single i (a * h * h) : Fin m → ℝ) s)⁻¹ := by
    rw [hS]
    refine Matrix.inv_eq_right_inv ?_
    rw [diagonal_mul_diagonal]
    rw [← diagonal_one]
    congr 1
    funext s
    exact mul_inv_cancel₀ (hpos s).ne'
  unfold gain
  rw [hinv, ← mulVec_mulVec, ← mulVec_mulVec]
  funext l
  rw [mulVec_diagonal]
  simp only []
  by_cases hl : l = j
  · subst hl
    rw [Pi.single_eq_same, Pi.single_eq_same]
    have : (Hᵀ *ᵥ (diagonal (fun s => ((ρ + Pi.single i (a * h * h) : Fin m → ℝ) s)⁻¹) *ᵥ r)) l =
        h * ((ρ i + a * h * h)⁻¹ * r i) := by
      change ∑ s, H s l * _ = _
      rw [Finset.sum_eq_single i]
      · rw [hH, Pi.single_eq_same, mulVec_diagonal, Pi.add_apply, Pi.single_eq_same]
      · intro b _ hb
        rw [hH, Pi.single_eq_of_ne hb, zero_mul]
      · intro h; exact absurd (Finset.mem_univ _) h
    rw [this]
    ring
  · rw [Pi.single_eq_of_ne hl, Pi.single_eq_of_ne hl, zero_mul]

end

/-- Clearing the cross covariances of a diagonal covariance. -/
theorem clear_diagonal {D : List VarDesc} (h : ∀ i (hi : i < D.length), D[i].name = i) (fixed : Nat)
    (d : Fin (total errLen D) → ℝ) (is : List Nat) (hl : ∀ i ∈ is, i < D.length) :
    clearFixed fixed is (diagonal d : ErrMat ℝ D) = some (diagonal d) := by
  induction is with
  | nil => rfl
  | cons a l ih =>
    have e : (if fixed.testBit a = true then clearCrossCov (diagonal d : ErrMat ℝ D) a
        else some (diagonal d)) = some (diagonal d) := by
      split
      · obtain ⟨P, e, h1, h2, h3, -⟩ := C38_clear_cross_cov (diagonal d : ErrMat ℝ D)
          ⟨a, hl a (by simp)⟩ h
        refine e.trans (congrArg some ?_)
        ext r c
        by_cases hr : Owns D ⟨a, hl a (by simp)⟩ r <;> by_cases hc : Owns D ⟨a, hl a (by simp)⟩ c
        · exact h1 r c hr hc
        · rw [(h3 r c hr hc).1, diagonal_apply_ne _ (by rintro rfl; exact hc hr)]
        · rw [(h3 c r hc hr).2, diagonal_apply_ne _ (by rintro rfl; exact hr hc)]
        · exact h2 r c hr hc
      · rfl
    unfold clearFixed at ih ⊢
    rw [List.foldlM_cons, e]
    exact ih fun i hi => hl i (by simp [hi])

section
variable (fixed : Nat) (x : Values (coreDef poseAux)) (hu : UnitQuats (toVars x))
    (z : V3 ℝ) (zq : Quat ℝ) (ρ : Fin 7 → ℝ) (hρ : ∀ r, 0 < ρ r)
    (H : Matrix (Fin 7) (Fin (total errLen (coreDef poseAux))) ℝ)
    (hH : poseH poseIx fixed (toVars x) = some H) (r : Fin 7 → ℝ)
    (hr : poseRes poseIx z zq (toVars x) = some r)
    (j : Fin (total errLen (coreDef poseAux))) (i : Fin 7) (a h : ℝ) (ha : 0 ≤ a)
    (hc : ∀ r, H r j = (Pi.single i h : Fin 7 → ℝ) r)
include hu hρ hH hr ha hc

/-- A pose update of the pose filter with one uncertain direction that is seen by one row. -/
theorem pose_single_eq : ∃ (s : Vars ℝ (coreDef poseAux)) (P' : ErrMat ℝ (coreDef poseAux)),
    (∀ l n w, getVec (toVars x) l n = some w → getVec s l n =
      some (w + segOf (Pi.single j (a * h * r i / (ρ i + a * h * h))) l n)) ∧
    ∀ (σ : ℝ) (t' : Tracker ℝ),
      fuzzyCheck' Tracker.reset ((scaleCalcWith σ false : UserCalc (coreDef poseAux)).sanity s s 0)
        (toVars x) 0.1 =
        some (t', (scaleCalcWith σ false : UserCalc (coreDef poseAux)).sanity s s 0, false) →
      sensorUpdate (aux := poseAux) (scaleCalcWith σ false) ⟨1, fun _ _ => 0⟩
        (Reading.pose poseIx fixed false 0 ⟨z, zq, diagonal ρ⟩).meas x (diagonal (Pi.single j a)) =
        some ⟨t', values ((scaleCalcWith σ false : UserCalc (coreDef poseAux)).sanity s s 0), P', true,
          false⟩ := by
  obtain ⟨P', hP'⟩ := single_correction H j i a h ρ r hc ha hρ 0
  obtain ⟨s, hs, hread, -⟩ := correct_reads (toVars x) (Pi.single j (a * h * r i / (ρ i + a * h * h)))
    poseDef_ok.1 posePlain hu
  refine ⟨s, P', hread, fun σ t' ht' => ?_⟩
  have ha' : applyCorrection (aux := poseAux) (scaleCalcWith σ false) ⟨1, fun _ _ => 0⟩
      (toVars x) (Pi.single j (a * h * r i / (ρ i + a * h * h))) =
      some (t', (scaleCalcWith σ false : UserCalc (coreDef poseAux)).sanity s s 0, false) := by
    change ((correct (toVars x) (Pi.single j (a * h * r i / (ρ i + a * h * h)))).bind fun s' =>
      fuzzyCheck' _ ((scaleCalcWith σ false : UserCalc (coreDef poseAux)).sanity s' (toVars x) _) _ _) = _
    rw [hs]
    exact ht'
  have hcl : clearFixed fixed poseIx.clearOrder (diagonal (Pi.single j a) : ErrMat ℝ (coreDef poseAux)) =
      some (diagonal (Pi.single j a)) := clear_diagonal poseDef_ok.1 fixed _ _ (by decide)
  unfold sensorUpdate measUpdate
  simp only [Reading.meas, Option.bind_eq_bind]
  rw [hcl, Option.bind_some, hH, Option.bind_some]
  rw [show ((poseView poseIx (toVars x)).bind fun v => v.residual z zq) = some r from hr,
    Option.bind_some]
  refine (congrArg (fun o => Option.bind o _) hP').trans ?_
  simp only [Option.bind_some]
  refine (congrArg (fun o => Option.bind o _) ha').trans ?_
  rfl

/-- The same with the value that replaces a negative scale. -/
theorem pose_single (σ : ℝ) :
    ∃ (u : Upd (Values (coreDef poseAux)) (ErrMat ℝ (coreDef poseAux)) (Tracker ℝ)) (s : Vars ℝ (coreDef poseAux)),
      sensorUpdate (aux := poseAux) (scaleCalcWith σ false) ⟨1, fun _ _ => 0⟩
        (Reading.pose poseIx fixed false 0 ⟨z, zq, diagonal ρ⟩).meas x (diagonal (Pi.single j a)) = some u ∧
      (∀ l n w, getVec (toVars x) l n = some w → getVec s l n =
        some (w + segOf (Pi.single j (a * h * r i / (ρ i + a * h * h))) l n)) ∧
      u.x = values ((scaleCalcWith σ false : UserCalc (coreDef poseAux)).sanity s s 0) := by
  obtain ⟨s, P', hread, h⟩ := pose_single_eq fixed x hu z zq ρ hρ H hH r hr j i a h ha hc
  obtain ⟨t', ht'⟩ := fuzzy_reset ((scaleCalcWith σ false : UserCalc (coreDef poseAux)).sanity s s 0)
    (toVars x)
  exact ⟨_, s, h σ t' ht', hread, rfl⟩

/-- If the scale stays positive, the update is the same whatever would replace a negative one. -/
theorem pose_single_calm (L : Fin 1 → ℝ) (hL : getVec (toVars x) 5 1 = some L)
    (hpos : 0 ≤ (L + segOf (Pi.single j (a * h * r i / (ρ i + a * h * h))) 5 1) 0) :
    ∃ u : Upd (Values (coreDef poseAux)) (ErrMat ℝ (coreDef poseAux)) (Tracker ℝ), ∀ σ,
      sensorUpdate (aux := poseAux) (scaleCalcWith σ false) ⟨1, fun _ _ => 0⟩
        (Reading.pose poseIx fixed false 0 ⟨z, zq, diagonal ρ⟩).meas x (diagonal (Pi.single j a)) = some u := by
  obtain ⟨s, P', hread, h⟩ := pose_single_eq fixed x hu z zq ρ hρ H hH r hr j i a h ha hc
  have e : ∀ σ, (scaleCalcWith σ false : UserCalc (coreDef poseAux)).sanity s s 0 = s := by
    intro σ
    have hl := hread 5 1 L hL
    have hs : ((s ⟨5, by decide⟩).val : Fin 1 → ℝ) = _ := Option.some.inj hl
    have hn : ¬ ((s ⟨5, by decide⟩).val : Fin 1 → ℝ) 0 < 0 := by
      rw [hs]; exact not_lt.2 hpos
    exact if_neg hn
  obtain ⟨t', ht'⟩ := fuzzy_reset s (toVars x)
  refine ⟨⟨t', values s, P', true, false⟩, fun σ => ?_⟩
  rw [h σ t' (by rw [e]; exact ht'), e]

end

end MSF
