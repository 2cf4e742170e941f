import Verif.Props.Heading
import Verif.Props.FixedStates

/-!
# C105 for distance measurements

A distance to the origin is the same number in every frame, so a distance measurement should have the
same effect whichever way the world frame points.
-/

namespace MSF

open Matrix EKFState Core

/-- The claim of C105 for one distance measurement: the update of the rotated state with the rotated
covariance is the rotated update. -/
def distanceHeadingClaim : Prop :=
  ∀ (g : Quat ℝ) (pip fixed : Nat) (t t' : Tracker ℝ) (s s' : EKFState ℝ (coreDef positionAux))
    (en : Bool) (thr z n_zd : ℝ) (fz : Bool),
    IsYaw g → UnitQuats s.vars → s.P.PosSemidef → 0 < n_zd →
    distanceApply (plainCalc false) t pip fixed true en thr z n_zd s = some (t', s', fz) →
    distanceApply (plainCalc false) t pip fixed true en thr z n_zd
        { s with vars := rotVars g s.vars, P := rotCov g.toRot s.P } =
      some (t', { s' with vars := rotVars g s'.vars, P := rotCov g.toRot s'.P }, fz)

/-- What a distance that is one too large does to the offset of the antenna. -/
theorem distance_moves (s : EKFState ℝ (coreDef positionAux)) (hu : UnitQuats s.vars) (hP1 : s.P = 1)
    (hl : getVec s.vars 5 3 = some 0) (hp : radius (EKFState.p s.vars) = 1) :
    ∃ (s' : EKFState ℝ (coreDef positionAux)) (u : V3 ℝ) (c : ℝ),
      distanceApply (plainCalc false) Tracker.reset 5 0 true false 0 2 1 s =
        some (Tracker.reset, s', false) ∧
      getVec s'.vars 5 3 = some u ∧ 0 < c ∧
      u 0 = c * ((EKFState.q s.vars).toRot *ᵥ EKFState.p s.vars) 0 := by
  have hp0 : EKFState.p s.vars ≠ 0 := by
    intro h
    rw [h] at hp
    simp [radius] at hp
  obtain ⟨H, hH, hm⟩ := distanceH_mulVec 5 s.vars 0 positionDef_ok.1 hl (by decide) hp0
  have hclear : clearFixed 0 [5] s.P = some s.P := by
    rw [hP1]; exact clear_one positionDef_ok.1 0 [5] (by decide)
  have hr : distanceResidual 5 2 s.vars = some fun _ => 1 := by
    have : sensorPos 5 s.vars = some (EKFState.p s.vars) := by
      simp only [sensorPos, hl, Option.bind_eq_bind, Option.bind_some, mulVec_zero, add_zero]
    simp only [distanceResidual, this, Option.bind_eq_bind, Option.bind_some, hp]
    norm_num
  let R : Matrix (Fin 1) (Fin 1) ℝ := Matrix.diagonal fun _ => 1 * 1
  have hR : R.PosDef := PosDef.diagonal fun _ => by norm_num
  have hP : s.P.PosSemidef := by rw [hP1]; exact PosSemidef.one
  have hS : (innovCov s.P H R).PosDef := hR.posSemidef_add (psd_congr hP H)
  have hdet : (innovCov s.P H R).det ≠ 0 :=
    ((Matrix.isUnit_iff_isUnit_det _).1 hS.isUnit).ne_zero
  have hcc : calculateCorrection false 0 s.P H (fun _ => 1) R =
      some (some (gain s.P H R *ᵥ (fun _ => 1), josephUpdate s.P H R (gain s.P H R))) := by
    simp only [calculateCorrection]
    rw [if_neg hdet, if_neg (by simp)]
  obtain ⟨s1, hs1, hread, -⟩ := correct_reads s.vars (gain s.P H R *ᵥ (fun _ => 1))
    positionDef_ok.1 positionDef_ok.2 hu
  have hd : indexOfBestNonTemporalDriftingState (coreDef positionAux) = some (-1) := by
    decide +kernel
  have ha : applyCorrection (plainCalc false) Tracker.reset s.vars (gain s.P H R *ᵥ (fun _ => 1)) =
      some (Tracker.reset, s1, false) := by
    change ((correct s.vars (gain s.P H R *ᵥ (fun _ => 1))).bind fun s' =>
      fuzzyCheck' Tracker.reset s' s.vars 0.1) = _
    rw [hs1]
    unfold fuzzyCheck'
    simp only [Option.bind_some, if_pos hd]
  have hcc' : calculateCorrection false 0 s.P H (fun _ => 1)
      (Matrix.diagonal fun _ => (1 : ℝ) * 1) = _ := hcc
  refine ⟨{ s with P := josephUpdate s.P H R (gain s.P H R), vars := s1 }, _,
    (innovCov s.P H R)⁻¹ 0 0, ?_, hread 5 3 0 hl, ?_, ?_⟩
  · simp only [distanceApply, if_true, hclear, Option.bind_eq_bind, Option.bind_some, hH, hr,
      updateState, hcc', ha]
  · exact hS.inv.diag_pos
  let k : Fin (total errLen (coreDef positionAux)) := ⟨15, by decide⟩
  have hk : H 0 k = ((EKFState.q s.vars).toRot *ᵥ EKFState.p s.vars) 0 := by
    have e := congrFun (hm (Pi.single k 1)) 0
    rw [mulVec_single_one] at e
    rw [show H 0 k = H.col k 0 from rfl, e]
    have s0 : segOf (Pi.single k 1 : Fin (total errLen (coreDef positionAux)) → ℝ) 0 3 = 0 := by
      funext j; fin_cases j <;> rfl
    have s2 : segOf (Pi.single k 1 : Fin (total errLen (coreDef positionAux)) → ℝ) 2 3 = 0 := by
      funext j; fin_cases j <;> rfl
    have s5 : segOf (Pi.single k 1 : Fin (total errLen (coreDef positionAux)) → ℝ) 5 3 = ![1, 0, 0] := by
      funext j; fin_cases j <;> rfl
    have hp' : Real.sqrt (EKFState.p s.vars 0 * EKFState.p s.vars 0 +
      EKFState.p s.vars 1 * EKFState.p s.vars 1 + EKFState.p s.vars 2 * EKFState.p s.vars 2) = 1 := hp
    rw [s0, s2, s5]
    simp [distanceHpip, vecHead, hp', mulVec, dotProduct, Fin.sum_univ_three]
  have e3 : segOf (gain s.P H R *ᵥ (fun _ => 1)) 5 3 0 = (gain s.P H R *ᵥ (fun _ => 1)) k := rfl
  rw [zero_add, e3, ← hk]
  simp only [gain, hP1, Matrix.one_mul, mulVec, dotProduct, Finset.univ_unique,
      Finset.sum_singleton, mul_one, Matrix.mul_apply, transpose_apply, Fin.default_eq_zero]
  rw [mul_comm]

/-- **C105 is violated by distance measurements.**  One metre from the origin, with a unit covariance:
in a frame turned by 106° the same reading moves the offset of the antenna the other way, because the
measurement matrix takes the inverse of the rotation it should (see C44). -/
theorem C105_distance_violated : ¬ distanceHeadingClaim := by
  intro h
  have hy : IsYaw ⟨3 / 5, 0, 0, 4 / 5⟩ := by
    refine ⟨by norm_num [Quat.normSq], ?_⟩
    funext i
    fin_cases i <;> simp [Quat.toRot, mulVec, dotProduct, Fin.sum_univ_three]
  set g : Quat ℝ := ⟨3 / 5, 0, 0, 4 / 5⟩ with hgdef
  let s : EKFState ℝ (coreDef positionAux) :=
    { blankState positionAux 0 0 0 with vars := posState ![1, 0, 0] Quat.one 0, P := 1 }
  have hu : UnitQuats s.vars := posState_unit _ _ _ (by simp [Quat.normSq, Quat.one])
  have hp : EKFState.p s.vars = ![1, 0, 0] := (posState_reads _ _ _).2.1
  have hq : EKFState.q s.vars = Quat.one := (posState_reads _ _ _).2.2
  have hl : getVec s.vars 5 3 = some 0 := (posState_reads _ _ _).1
  have hc1 : rotCov g.toRot (1 : ErrMat ℝ (coreDef positionAux)) = 1 := by
    rw [rotCov, Matrix.mul_one, rotErr_orth hy.orth]
  have hgp : g.toRot *ᵥ ![1, 0, 0] = ![-7 / 25, 24 / 25, 0] := by
    funext i
    fin_cases i <;> simp [hgdef, Quat.toRot, mulVec, dotProduct, Fin.sum_univ_three] <;> norm_num
  obtain ⟨s', u, c, e, hu', hc, h0⟩ := distance_moves s hu rfl hl (by
    rw [hp]; simp [radius])
  obtain ⟨r', u', c', e', hur, hc', h0'⟩ := distance_moves
    { s with vars := rotVars g s.vars, P := rotCov g.toRot s.P } (rotVars_unit hy.unit hu) hc1
    (by rw [getVec_rotVars g s.vars (le_refl 5), hl]) (by
      change radius (EKFState.p (rotVars g s.vars)) = 1
      rw [p_rotVars, hp, hgp]
      simp only [radius, cons_val_zero, cons_val_one, cons_val_two]
      norm_num [vecHead, vecTail])
  have key := h g 5 0 _ _ _ _ _ _ _ _ _ hy hu PosSemidef.one one_pos e
  rw [e'] at key
  simp only [Option.some.injEq, Prod.mk.injEq, and_true, true_and] at key
  rw [key] at hur
  have hur' : getVec (rotVars g s'.vars) 5 3 = some u' := hur
  rw [getVec_rotVars g s'.vars (le_refl 5), hu', Option.some.injEq] at hur'
  rw [← hur', h0] at h0'
  have hq' : EKFState.q (rotVars g s.vars) = g := by
    rw [q_rotVars, hq]
    simp [Quat.mul, Quat.one]
  have h0'' : c * ((EKFState.q s.vars).toRot *ᵥ EKFState.p s.vars) 0 =
    c' * ((EKFState.q (rotVars g s.vars)).toRot *ᵥ EKFState.p (rotVars g s.vars)) 0 := h0'
  rw [hq, hp, one_toRot, one_mulVec, hq', p_rotVars, hp, hgp] at h0''
  simp [hgdef, Quat.toRot, mulVec, dotProduct, Fin.sum_univ_three] at h0''
  nlinarith

end MSF
