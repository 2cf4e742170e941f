import Verif.Props.HeadingDistance
import Verif.Props.Spherical

/-!
# C105 for angle measurements

The angles under which a tracker sees a point change with the frame in a known way.  Given to the
filter in both frames, they should have the same effect.
-/

namespace MSF

open Matrix EKFState Core

/-- The claim of C105 for one angle measurement: the reading is the inclination and azimuth of a point,
in the turned frame those of the turned point; the update of the rotated state with the rotated
covariance is the rotated update. -/
def angleHeadingClaim : Prop :=
  ∀ (g : Quat ℝ) (pip fixed : Nat) (t t' : Tracker ℝ) (s s' : EKFState ℝ (coreDef positionAux))
    (en : Bool) (thr n_za : ℝ) (c : V3 ℝ) (R : ℝ) (z z' : Fin 2 → ℝ) (fz : Bool),
    IsYaw g → UnitQuats s.vars → s.P.PosSemidef → 0 < n_za →
    IsSpherical c R (z 0) (z 1) → IsSpherical (g.toRot *ᵥ c) R (z' 0) (z' 1) →
    angleApply (plainCalc false) t pip fixed true en thr z n_za s = some (t', s', fz) →
    angleApply (plainCalc false) t pip fixed true en thr z' n_za
        { s with vars := rotVars g s.vars, P := rotCov g.toRot s.P } =
      some (t', { s' with vars := rotVars g s'.vars, P := rotCov g.toRot s'.P }, fz)

/-- What an azimuth that is off by a quarter turn does to the offset of the antenna. -/
theorem angle_moves (s : EKFState ℝ (coreDef positionAux)) (z : Fin 2 → ℝ) (hu : UnitQuats s.vars)
    (hP1 : s.P = 1) (hl : getVec s.vars 5 3 = some 0)
    (hp : EKFState.p s.vars 0 * EKFState.p s.vars 0 + EKFState.p s.vars 1 * EKFState.p s.vars 1 ≠ 0)
    (hr : angleResidual 5 z s.vars = some ![0, Real.pi / 2])
    (ha : angleHpip (EKFState.q s.vars).toRotᵀ (EKFState.p s.vars) 0 1 = 0) :
    ∃ (s' : EKFState ℝ (coreDef positionAux)) (u : V3 ℝ) (c : ℝ),
      angleApply (plainCalc false) Tracker.reset 5 0 true false 0 z 1 s =
        some (Tracker.reset, s', false) ∧
      getVec s'.vars 5 3 = some u ∧ 0 < c ∧
      u 1 = c * angleHpip (EKFState.q s.vars).toRotᵀ (EKFState.p s.vars) 1 1 := by
  obtain ⟨H, hH, hm⟩ := angleH_mulVec 5 s.vars 0 positionDef_ok.1 hl (by decide) hp
  have hclear : clearFixed 0 [5] s.P = some s.P := by
    rw [hP1]; exact clear_one positionDef_ok.1 0 [5] (by decide)
  let R : Matrix (Fin 2) (Fin 2) ℝ := Matrix.diagonal fun _ => 1 * 1
  have hR : R.PosDef := PosDef.diagonal fun _ => by norm_num
  have hP : s.P.PosSemidef := by rw [hP1]; exact PosSemidef.one
  have hS : (innovCov s.P H R).PosDef := hR.posSemidef_add (psd_congr hP H)
  have hdet : (innovCov s.P H R).det ≠ 0 :=
    ((Matrix.isUnit_iff_isUnit_det _).1 hS.isUnit).ne_zero
  set r : Fin 2 → ℝ := ![0, Real.pi / 2] with hrdef
  have hcc : calculateCorrection false 0 s.P H r R =
      some (some (gain s.P H R *ᵥ r, josephUpdate s.P H R (gain s.P H R))) := by
    simp only [calculateCorrection]
    rw [if_neg hdet, if_neg (by simp)]
  obtain ⟨s1, hs1, hread, -⟩ := correct_reads s.vars (gain s.P H R *ᵥ r)
    positionDef_ok.1 positionDef_ok.2 hu
  have hd : indexOfBestNonTemporalDriftingState (coreDef positionAux) = some (-1) := by
    decide +kernel
  have hap : applyCorrection (plainCalc false) Tracker.reset s.vars (gain s.P H R *ᵥ r) =
      some (Tracker.reset, s1, false) := by
    change ((correct s.vars (gain s.P H R *ᵥ r)).bind fun s' =>
      fuzzyCheck' Tracker.reset s' s.vars 0.1) = _
    rw [hs1]
    unfold fuzzyCheck'
    simp only [Option.bind_some, if_pos hd]
  have hcc' : calculateCorrection false 0 s.P H r
      (Matrix.diagonal fun _ => (1 : ℝ) * 1) = _ := hcc
  refine ⟨{ s with P := josephUpdate s.P H R (gain s.P H R), vars := s1 }, _,
    (innovCov s.P H R)⁻¹ 1 1 * (Real.pi / 2), ?_, hread 5 3 0 hl, ?_, ?_⟩
  · simp only [angleApply, if_true, hclear, Option.bind_eq_bind, Option.bind_some, hH, hr,
      updateState, hcc', hap]
  · exact mul_pos hS.inv.diag_pos (by positivity)
  let k : Fin (total errLen (coreDef positionAux)) := ⟨16, by decide⟩
  have hk : ∀ i, H i k = angleHpip (EKFState.q s.vars).toRotᵀ (EKFState.p s.vars) i 1 := by
    intro i
    have e := congrFun (hm (Pi.single k 1)) i
    rw [mulVec_single_one] at e
    rw [show H i k = H.col k i from rfl, e]
    have s0 : segOf (Pi.single k 1 : Fin (total errLen (coreDef positionAux)) → ℝ) 0 3 = 0 := by
      funext j; fin_cases j <;> rfl
    have s2 : segOf (Pi.single k 1 : Fin (total errLen (coreDef positionAux)) → ℝ) 2 3 = 0 := by
      funext j; fin_cases j <;> rfl
    have s5 : segOf (Pi.single k 1 : Fin (total errLen (coreDef positionAux)) → ℝ) 5 3 =
        Pi.single 1 1 := by
      funext j; fin_cases j <;> rfl
    rw [s0, s2, s5, mulVec_zero, mulVec_zero, zero_add, zero_add, mulVec_single_one]
    rfl
  have e3 : segOf (gain s.P H R *ᵥ r) 5 3 1 = (gain s.P H R *ᵥ r) k := rfl
  have hg : (gain s.P H R *ᵥ r) k = ∑ j, H j k * ((innovCov s.P H R)⁻¹ *ᵥ r) j := by
    simp only [gain, hP1, Matrix.one_mul]
    rw [← mulVec_mulVec]
    rfl
  rw [Pi.add_apply, Pi.zero_apply, zero_add, e3, hg, Fin.sum_univ_two, hk, hk, ha, zero_mul, zero_add]
  rw [show ((innovCov s.P H R)⁻¹ *ᵥ r) 1 = (innovCov s.P H R)⁻¹ 1 1 * (Real.pi / 2) by
    simp [mulVec, dotProduct, Fin.sum_univ_two, hrdef]]
  ring

/-- **C105 is violated by angle measurements.**  One metre from the tracker, with a unit covariance:
the same point seen a quarter turn to the left of the estimate moves the offset of the antenna to one
side, and in a frame turned by 90° to the other, because the measurement matrix takes the inverse of the
rotation it should (see C44). -/
theorem C105_angle_violated : ¬ angleHeadingClaim := by
  intro h
  have hpi := Real.pi_pos
  set b : ℝ := Real.sqrt (1 / 2) with hb
  have hbb : b * b = 1 / 2 := Real.mul_self_sqrt (by norm_num)
  set g : Quat ℝ := ⟨b, 0, 0, b⟩ with hgdef
  have hrot : g.toRot = !![0, -1, 0; 1, 0, 0; 0, 0, 1] := by
    ext i j
    fin_cases i <;> fin_cases j <;> simp [hgdef, Quat.toRot] <;> linarith
  have hy : IsYaw g := by
    refine ⟨by simp only [hgdef, Quat.normSq]; linarith, ?_⟩
    rw [hrot]
    funext i
    fin_cases i <;> simp [mulVec, dotProduct, Fin.sum_univ_three]
  let s : EKFState ℝ (coreDef positionAux) :=
    { blankState positionAux 0 0 0 with vars := posState ![1, 0, 0] Quat.one 0, P := 1 }
  have hu : UnitQuats s.vars := posState_unit _ _ _ (by simp [Quat.normSq, Quat.one])
  have hp : EKFState.p s.vars = ![1, 0, 0] := (posState_reads _ _ _).2.1
  have hq : EKFState.q s.vars = Quat.one := (posState_reads _ _ _).2.2
  have hl : getVec s.vars 5 3 = some 0 := (posState_reads _ _ _).1
  have hc1 : rotCov g.toRot (1 : ErrMat ℝ (coreDef positionAux)) = 1 := by
    rw [rotCov, Matrix.mul_one, rotErr_orth hy.orth]
  have hgp : g.toRot *ᵥ ![1, 0, 0] = ![0, 1, 0] := by
    rw [hrot]; funext i
    fin_cases i <;> simp [mulVec, dotProduct, Fin.sum_univ_three]
  have hgc : g.toRot *ᵥ ![0, 1, 0] = ![-1, 0, 0] := by
    rw [hrot]; funext i
    fin_cases i <;> simp [mulVec, dotProduct, Fin.sum_univ_three]
  have hq' : EKFState.q (rotVars g s.vars) = g := by
    rw [q_rotVars, hq]
    simp [Quat.mul, Quat.one]
  have hp' : EKFState.p (rotVars g s.vars) = ![0, 1, 0] := by rw [p_rotVars, hp, hgp]
  have hl' : getVec (rotVars g s.vars) 5 3 = some 0 := by
    rw [getVec_rotVars g s.vars (le_refl 5), hl]
  have hs : sensorPos 5 s.vars = some ![1, 0, 0] := by
    simp only [sensorPos, hl, hp, Option.bind_eq_bind, Option.bind_some, mulVec_zero, add_zero]
  have hs' : sensorPos 5 (rotVars g s.vars) = some ![0, 1, 0] := by
    simp only [sensorPos, hl', hp', Option.bind_eq_bind, Option.bind_some, mulVec_zero, add_zero]
  have hr : angleResidual 5 ![Real.pi / 2, Real.pi / 2] s.vars = some ![0, Real.pi / 2] := by
    simp only [angleResidual, hs, Option.bind_eq_bind, Option.bind_some]
    simp [inclination, azimuth, atanQuot, radius, wrapOnce]
    split_ifs <;> linarith
  have hr' : angleResidual 5 ![Real.pi / 2, Real.pi] (rotVars g s.vars) = some ![0, Real.pi / 2] := by
    simp only [angleResidual, hs', Option.bind_eq_bind, Option.bind_some]
    simp [inclination, azimuth, atanQuot, radius, wrapOnce]
    split_ifs <;> linarith
  obtain ⟨s', u, c, e, hu', hc, h0⟩ := angle_moves s _ hu rfl hl (by rw [hp]; simp) hr (by
    rw [hp, hq]
    simp [angleHpip, one_toRot])
  obtain ⟨r', u', c', e', hur, hc', h0'⟩ := angle_moves
    { s with vars := rotVars g s.vars, P := rotCov g.toRot s.P } _ (rotVars_unit hy.unit hu) hc1
    hl' (by rw [show EKFState.p (rotVars g s.vars) = _ from hp']; simp) hr' (by
      rw [show EKFState.p (rotVars g s.vars) = _ from hp',
        show EKFState.q (rotVars g s.vars) = _ from hq', hrot]
      simp [angleHpip])
  have key := h g 5 0 _ _ _ _ _ _ _ ![0, 1, 0] 1 ![Real.pi / 2, Real.pi / 2] ![Real.pi / 2, Real.pi]
    _ hy hu PosSemidef.one one_pos
    (by
      refine ⟨?_, ?_, ?_, one_pos.le, ⟨?_, ?_⟩, ?_, ?_⟩ <;>
        first
          | (simp; done)
          | (simp only [cons_val_zero, cons_val_one]; linarith))
    (by
      rw [hgc]
      refine ⟨?_, ?_, ?_, one_pos.le, ⟨?_, ?_⟩, ?_, ?_⟩ <;>
        first
          | (simp; done)
          | (simp only [cons_val_zero, cons_val_one]; linarith))
    e
  rw [e'] at key
  simp only [Option.some.injEq, Prod.mk.injEq, and_true, true_and] at key
  rw [key] at hur
  have hur' : getVec (rotVars g s'.vars) 5 3 = some u' := hur
  rw [getVec_rotVars g s'.vars (le_refl 5), hu', Option.some.injEq] at hur'
  rw [← hur', h0] at h0'
  have h0'' : c * angleHpip (EKFState.q s.vars).toRotᵀ (EKFState.p s.vars) 1 1 =
    c' * angleHpip (EKFState.q (rotVars g s.vars)).toRotᵀ (EKFState.p (rotVars g s.vars)) 1 1 := h0'
  rw [hq, hp, one_toRot, hq', hp', hrot] at h0''
  simp [angleHpip] at h0''
  nlinarith

end MSF
