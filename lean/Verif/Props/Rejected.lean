import Verif.Props.RunNumbers

/-!
# C15: what a rejected reading of a shipped sensor leaves behind
-/

namespace MSF

open Matrix EKFState

variable {aux : List VarDesc}

theorem clearFixed_free {D : List VarDesc} {fixed : Nat} {is : List Nat}
    (h : ∀ i ∈ is, fixed.testBit i = false) (P : ErrMat ℝ D) : clearFixed fixed is P = some P := by
  unfold clearFixed
  induction is with
  | nil => rfl
  | cons i is ih =>
    rw [List.foldlM_cons, h i List.mem_cons_self, if_neg (by decide)]
    exact ih fun j hj => h j (List.mem_cons_of_mem _ hj)

theorem calculateCorrection_reject {k : Nat} {m : Type} [Fintype m] [DecidableEq m] {thr : ℝ} (ht : 0 ≤ thr)
    {P : Matrix (Fin k) (Fin k) ℝ} {H : Matrix m (Fin k) ℝ} {r y : m → ℝ} {R : Matrix m m ℝ}
    (hS : (H * P * Hᵀ + R).det ≠ 0) (hy : (H * P * Hᵀ + R) *ᵥ y = r) (hd : thr ^ 2 < r ⬝ᵥ y) :
    calculateCorrection true thr P H r R = some none := by
  change (innovCov P H R).det ≠ 0 at hS
  have hy' : (innovCov P H R)⁻¹ *ᵥ r = y := by
    rw [← hy, mulVec_mulVec]
    change ((innovCov P H R)⁻¹ * innovCov P H R) *ᵥ y = y
    rw [nonsing_inv_mul _ (isUnit_iff_ne_zero.2 hS), one_mulVec]
  unfold calculateCorrection
  rw [if_neg hS, if_pos]
  refine ⟨rfl, ?_⟩
  unfold mahSquared mahRejects
  rw [hy']
  exact ⟨(sq_nonneg thr).trans hd.le, (Real.lt_sqrt ht).2 hd⟩

theorem reading_update {np : NoiseParams ℝ (coreDef aux)} {uc : UserCalc (coreDef aux)} {m : Reading}
    {tr : Tracker ℝ} {x : Values (coreDef aux)} {P : ErrMat ℝ (coreDef aux)} {u}
    (h : sensorUpdate uc tr m.meas x P = some u) : (readingKernel np uc).update tr m (some x) (some P) =
      ⟨u.tr, some u.x, some u.P, u.applied, u.fuzzy⟩ := by
  change (match sensorUpdate uc tr m.meas x P with
    | some u => (⟨u.tr, some u.x, some u.P, u.applied, u.fuzzy⟩ :
      Upd (Option (Values (coreDef aux))) (Option (ErrMat ℝ (coreDef aux))) (Tracker ℝ))
    | none => ⟨tr, none, none, true, false⟩) = _
  rw [h]

/-- **C15, readings of the shipped sensors (partial).**  A reading of any shipped sensor whose normalised
squared residual `rᵀ (H P Hᵀ + R)⁻¹ r` exceeds the square of the threshold leaves the tracker, the mean and
the covariance of the state as they are and reports that nothing was applied.  Missing: sensors with fixed
states, where it is false (`C15_fixed_violated`). -/
theorem C15_reading_partial (np : NoiseParams ℝ (coreDef aux)) (uc : UserCalc (coreDef aux)) (m : Reading)
    (tr : Tracker ℝ) (x : Values (coreDef aux)) (P : ErrMat ℝ (coreDef aux))
    (hfree : ∀ i ∈ (m.meas (aux := aux)).cleared, (m.meas (aux := aux)).fixed.testBit i = false)
    (hen : (m.meas (aux := aux)).enable = true) (ht : 0 ≤ (m.meas (aux := aux)).thr)
    (H) (hH : (m.meas (aux := aux)).H (toVars x) = some H)
    (r) (hr : (m.meas (aux := aux)).r (toVars x) = some r)
    (hS : (H * P * Hᵀ + (m.meas (aux := aux)).R).det ≠ 0)
    (y) (hy : (H * P * Hᵀ + (m.meas (aux := aux)).R) *ᵥ y = r)
    (hd : (m.meas (aux := aux)).thr ^ 2 < r ⬝ᵥ y) :
    (readingKernel np uc).update tr m (some x) (some P) = ⟨tr, some x, some P, false, false⟩ := by
  exact reading_update (sensorUpdate_rejected (uc := uc) (tr := tr) (clearFixed_free hfree P) hH hr
    (by rw [hen]; exact calculateCorrection_reject ht hS hy hd))

/-- Positions that are far away enough are rejected. -/
theorem position_rejected (ho : Ordered aux) (pip fixed : Nat) (h : pip < (coreDef aux).length)
    (hk : ((coreDef aux)[pip]).kind = .vec 3) (thr : ℝ) (ht : 0 ≤ thr) (R : M33 ℝ)
    (hR : R.PosDef) (uc : UserCalc (coreDef aux)) (tr : Tracker ℝ) (x : Values (coreDef aux))
    (P : ErrMat ℝ (coreDef aux)) (hP : P.PosSemidef) :
    ∃ z P1, clearFixed fixed [pip] P = some P1 ∧
      sensorUpdate uc tr (Reading.position pip fixed true thr z R).meas x P = some ⟨tr, x, P1, false, false⟩ := by
  obtain ⟨l, hl⟩ := getVec_some (toVars x) h hk
  obtain ⟨H, hH⟩ : ∃ H, positionH pip fixed (toVars x) = some H :=
    (position_defined ho (m := .position pip fixed true thr 0 R)
      ⟨pip, fixed, true, thr, 0, R, h, rfl, hk, hR⟩ (toVars x)).1
  obtain ⟨P1, hP1, -, -⟩ := clearFixed_spec2 ho fixed [pip] (fun i hi => by
    rw [List.mem_singleton.1 hi]; exact h) P
  have hP1' := clearFixed_psd ho _ _ P P1 hP hP1
  have hS : (H * P1 * Hᵀ + R).PosDef := by
    have : (H * P1 * Hᵀ).PosSemidef := by
      have := hP1'.mul_mul_conjTranspose_same H
      rwa [conjTranspose_eq_transpose_of_trivial] at this
    exact hR.posSemidef_add this
  set S : M33 ℝ := H * P1 * Hᵀ + R with hSdef
  have hpos : 0 < (![1, 0, 0] : V3 ℝ) ⬝ᵥ (S *ᵥ ![1, 0, 0]) := by
    have := hS.dotProduct_mulVec_pos (x := ![1, 0, 0]) (by intro h; simpa using congrFun h 0)
    simpa using this
  set q := (![1, 0, 0] : V3 ℝ) ⬝ᵥ (S *ᵥ ![1, 0, 0]) with hq
  obtain ⟨a, ha⟩ : ∃ a : ℝ, thr ^ 2 < a ^ 2 * q := by
    refine ⟨(thr ^ 2 / q) + 1, ?_⟩
    have h0 : 0 ≤ thr ^ 2 / q := by positivity
    have : thr ^ 2 = thr ^ 2 / q * q := by field_simp
    nlinarith [mul_pos hpos hpos, mul_nonneg h0 hpos.le, mul_nonneg (mul_nonneg h0 h0) hpos.le]
  obtain ⟨y0, hy0⟩ : ∃ y0, sensorPos pip (toVars x) = some y0 := by
    unfold sensorPos
    rw [hl]
    exact ⟨_, rfl⟩
  have hlong : thr ^ 2 < (S *ᵥ (a • ![1, 0, 0])) ⬝ᵥ (a • ![1, 0, 0] : V3 ℝ) := by
    rw [mulVec_smul, smul_dotProduct, dotProduct_smul, dotProduct_comm, ← hq, smul_eq_mul, smul_eq_mul]
    nlinarith
  have hdet : S.det ≠ 0 := (isUnit_iff_isUnit_det S).1 hS.isUnit |>.ne_zero
  refine ⟨S *ᵥ (a • ![1, 0, 0]) + y0, P1, hP1, ?_⟩
  refine sensorUpdate_rejected (H := H) (r := S *ᵥ (a • ![1, 0, 0])) hP1 hH ?_ ?_
  · change positionResidual pip _ (toVars x) = _
    unfold positionResidual
    rw [hy0]
    exact congrArg some (add_sub_cancel_right _ _)
  · exact calculateCorrection_reject (m := Fin 3) ht hdet (y := a • ![1, 0, 0]) rfl hlong

/-- **C15 is violated for sensors with fixed states.**  Whatever the filter, its state and the threshold: if
`p_ip` is fixed and correlated with another state, some position is rejected and still changes the
covariance, since the correlations are removed before the test. -/
theorem C15_fixed_violated (ho : Ordered aux) (pip : Fin (coreDef aux).length)
    (hk : ((coreDef aux).get pip).kind = .vec 3) (thr : ℝ) (ht : 0 ≤ thr) (R : M33 ℝ) (hR : R.PosDef)
    (np : NoiseParams ℝ (coreDef aux)) (uc : UserCalc (coreDef aux)) (tr : Tracker ℝ)
    (x : Values (coreDef aux)) (P : ErrMat ℝ (coreDef aux)) (hP : P.PosSemidef)
    (r c) (hr : Owns (coreDef aux) pip r) (hc : ¬ Owns (coreDef aux) pip c) (hne : P r c ≠ 0) :
    ∃ z, ((readingKernel np uc).update tr (.position pip (1 <<< pip.val) true thr z R) (some x)
        (some P)).applied = false ∧
      ((readingKernel np uc).update tr (.position pip (1 <<< pip.val) true thr z R) (some x)
        (some P)).P ≠ some P := by
  obtain ⟨z, P1, h1, h2⟩ := position_rejected ho pip (1 <<< pip.val) pip.2 hk thr ht R hR uc tr x P hP
  have h3 : (readingKernel np uc).update tr (.position pip (1 <<< pip.val) true thr z R) (some x) (some P) =
      ⟨tr, some x, some P1, false, false⟩ := reading_update h2
  refine ⟨z, by rw [h3], ?_⟩
  rw [h3]
  intro h
  obtain rfl : P1 = P := Option.some.inj h
  refine hne (clearFixed_uncorrelated ho (fun i hi => ?_) h1 pip (.inr ⟨by simp, ?_⟩) r c hr hc).1
  · rw [List.mem_singleton.1 hi]
    exact pip.2
  · simp [Nat.testBit_shiftLeft]

/-- Non-vacuity of `C15_reading_partial`: whatever the state of the position filter, some position is
rejected and changes nothing. -/
example (np : NoiseParams ℝ (coreDef positionAux)) (uc : UserCalc (coreDef positionAux)) (tr : Tracker ℝ)
    (x : Values (coreDef positionAux)) : ∃ z, (readingKernel np uc).update tr (.position 5 0 true 3 z 1) (some x)
      (some 1) = ⟨tr, some x, some 1, false, false⟩ := by
  obtain ⟨z, P1, h1, h2⟩ := position_rejected (aux := positionAux)
    (indexingErrors_eq_zero.1 (by decide)) 5 0 (by decide) (by decide) 3
    (by norm_num) 1 PosDef.one uc tr x 1 PosSemidef.one
  rw [clearFixed_zero] at h1
  obtain rfl := Option.some.inj h1
  exact ⟨z, reading_update h2⟩

/-- Non-vacuity of `C15_fixed_violated`: the covariance with all entries one is positive semidefinite and
correlates `p_ip` with the position. -/
example : (Matrix.of fun _ _ => 1 : ErrMat ℝ (coreDef positionAux)).PosSemidef ∧
    Owns (coreDef positionAux) ⟨5, by decide⟩ ⟨15, by decide⟩ ∧
    ¬ Owns (coreDef positionAux) ⟨5, by decide⟩ ⟨0, by decide⟩ := by
  have hix : indexingErrors (coreDef positionAux) = 0 := indexingErrors_eq_zero.2 (by decide)
  refine ⟨?_, (owns_iff hix _ _).2 (by decide), fun h => absurd ((owns_iff hix _ _).1 h) (by decide)⟩
  have := posSemidef_vecMulVec_self_star (R := ℝ) (n := Fin (total errLen (coreDef positionAux))) fun _ => 1
  convert this using 1
  ext i j
  simp [vecMulVec]

/-! ### Between IMU stamps -/

/-- Position and velocity along one axis, integrated by the trapezoidal rules of `PropagateState`
(msf_core_inl.h:381-389), with an outlier test on the position: more than 10 away is rejected. -/
def Demo.Kmove : Kernel ℚ ℚ (ℚ × ℚ) ℚ ℚ Unit Unit where
  prop dt uo x un :=
    let v := x.2 + dt * ((uo.a + un.a) / 2)
    (x.1 + dt * ((x.2 + v) / 2), v)
  extProp _ x := x
  predP dt P _ _ := P + dt
  update _ m x P := if |m - x.1| > 10 then ⟨(), x, P, false, false⟩
    else ⟨(), (x.1 + P / (P + 1) * (m - x.1), x.2), P / (P + 1), true, false⟩
  P0 := 0
  tr0 := ()
  spike a := decide (50 < |a|)
  numX _ := true
  numPos _ := true

/-- The states of a run of this filter from `Init` at time 1. -/
def Demo.viewMove (ops : List (Op ℚ ℚ ℚ)) : Option (List (ℚ × (ℚ × ℚ) × ℚ)) :=
  match Core.calls env Kmove ((Core.new Kmove).init Kmove 1 ⟨⟨0, 0⟩, (0, 0), 1⟩) ops with
  | .ok c => some (c.states.nodes.map fun n => (n.key, n.val.x, n.val.P))
  | .error _ => none

open Demo in
/-- **C15 is violated between IMU stamps.**  A measurement stamped between the last two IMU readings that
the interpolated state rejects, with no other measurement: the newest position differs from the one of the
run without it, because the interpolated state stays in the buffer and later states are integrated
through it. -/
theorem C15_between_violated : ∃ l1 l2,
    viewMove (four ++ [meas (1035/1000) 100]) = some l1 ∧ viewMove four = some l2 ∧
    (∃ e ∈ l1, e.1 = 1035/1000 ∧ (Kmove.update () 100 e.2.1 e.2.2).applied = false) ∧
    l1.getLast?.map (·.1) = some (104/100) ∧ l2.getLast?.map (·.1) = some (104/100) ∧
    l1.getLast? ≠ l2.getLast? :=
  ⟨[(1, (0, 0), 1), (101/100, (1/40000, 1/200), 101/100), (102/100, (3/20000, 1/50), 102/100),
      (103/100, (19/40000, 9/200), 103/100), (1035/1000, (117/160000, 23/400), 1035/1000),
      (104/100, (83/80000, 13/200), 104/100)],
    [(1, (0, 0), 1), (101/100, (1/40000, 1/200), 101/100), (102/100, (3/20000, 1/50), 102/100),
      (103/100, (19/40000, 9/200), 103/100), (104/100, (41/40000, 13/200), 104/100)], by decide +kernel⟩

end MSF
