import Verif.Props.Information
import Verif.Props.HeadingDistance
import Verif.Lemmas.RunNumbers

/-!
# C117: an update moves the estimate towards the measurement

After an update the measured quantity, as predicted from the new estimate, should be at least as close to the
measured value as before, not beyond it, and known at least as well as the sensor measures it.
-/

namespace MSF

open Matrix

section
variable {k : Nat} {m : Type} [Fintype m] [DecidableEq m]

theorem correction_form {en : Bool} {thr : ℝ} {P P' : Matrix (Fin k) (Fin k) ℝ} {H : Matrix m (Fin k) ℝ}
    {R : Matrix m m ℝ} {r : m → ℝ} {c : Fin k → ℝ}
    (h : calculateCorrection en thr P H r R = some (some (c, P'))) :
    IsUnit (innovCov P H R).det ∧ c = gain P H R *ᵥ r ∧ P' = josephUpdate P H R (gain P H R) := by
  simp only [calculateCorrection] at h
  split at h
  · cases h
  rename_i hd
  split at h
  · cases h
  simp only [Option.some.injEq, Prod.mk.injEq] at h
  exact ⟨Ne.isUnit hd, h.1.symm, h.2.symm⟩

/-- What remains of the residual. -/
theorem remaining {P : Matrix (Fin k) (Fin k) ℝ} {H : Matrix m (Fin k) ℝ} {R : Matrix m m ℝ}
    (hS : IsUnit (innovCov P H R).det) (r : m → ℝ) :
    r - H *ᵥ (gain P H R *ᵥ r) = R *ᵥ ((innovCov P H R)⁻¹ *ᵥ r) := by
  have e : innovCov P H R *ᵥ ((innovCov P H R)⁻¹ *ᵥ r) = r := by
    rw [mulVec_mulVec, mul_nonsing_inv _ hS, one_mulVec]
  rw [gain, ← mulVec_mulVec, mulVec_mulVec, ← Matrix.mul_assoc]
  generalize (innovCov P H R)⁻¹ *ᵥ r = w at e ⊢
  rw [← e, innovCov, add_mulVec, add_sub_cancel_left]

/-- **C117, the linear part.**  For every covariance and every noise: what remains of the residual is at most
as large as the residual, measured with the noise of the sensor, and does not point the other way; the
uncertainty of the predicted measurement is at most the noise of the sensor. -/
theorem C117_linear (P : Matrix (Fin k) (Fin k) ℝ) (hP : P.PosSemidef) (H : Matrix m (Fin k) ℝ)
    (R : Matrix m m ℝ) (hR : R.PosDef) (en : Bool) (thr : ℝ) (r : m → ℝ) (c : Fin k → ℝ)
    (P' : Matrix (Fin k) (Fin k) ℝ) (h : calculateCorrection en thr P H r R = some (some (c, P'))) :
    (r - H *ᵥ c) ⬝ᵥ (R⁻¹ *ᵥ (r - H *ᵥ c)) ≤ r ⬝ᵥ (R⁻¹ *ᵥ r) ∧ 0 ≤ r ⬝ᵥ (R⁻¹ *ᵥ (r - H *ᵥ c)) ∧
      (R - H * P' * Hᵀ).PosSemidef := by
  obtain ⟨hS, rfl, rfl⟩ := correction_form h
  have hRu := (Matrix.isUnit_iff_isUnit_det _).1 hR.isUnit
  have hS0 : (H * P * Hᵀ).PosSemidef := psd_congr hP H
  have hSp : (innovCov P H R).PosDef := hR.posSemidef_add hS0
  have hRt := psd_transpose_eq hR.posSemidef
  set S := innovCov P H R with hSdef
  set w := S⁻¹ *ᵥ r with hw
  have hr : r = (H * P * Hᵀ) *ᵥ w + R *ᵥ w := by
    rw [← add_mulVec]
    change r = S *ᵥ w
    rw [hw, mulVec_mulVec, mul_nonsing_inv _ hS, one_mulVec]
  have hi : ∀ v, R⁻¹ *ᵥ (R *ᵥ v) = v := fun v => by
    rw [mulVec_mulVec, nonsing_inv_mul _ hRu, one_mulVec]
  have a0 : 0 ≤ w ⬝ᵥ ((H * P * Hᵀ) *ᵥ w) := by
    simpa using hS0.dotProduct_mulVec_nonneg w
  have a1 : 0 ≤ w ⬝ᵥ (R *ᵥ w) := by simpa using hR.posSemidef.dotProduct_mulVec_nonneg w
  have a2 : 0 ≤ ((H * P * Hᵀ) *ᵥ w) ⬝ᵥ (R⁻¹ *ᵥ ((H * P * Hᵀ) *ᵥ w)) := by
    simpa using hR.inv.posSemidef.dotProduct_mulVec_nonneg ((H * P * Hᵀ) *ᵥ w)
  have hsym : ∀ x y : m → ℝ, x ⬝ᵥ (R⁻¹ *ᵥ y) = y ⬝ᵥ (R⁻¹ *ᵥ x) := symm_dot (inv_symm hR)
  have b1 : (R *ᵥ w) ⬝ᵥ (R⁻¹ *ᵥ ((H * P * Hᵀ) *ᵥ w)) = w ⬝ᵥ ((H * P * Hᵀ) *ᵥ w) := by
    rw [hsym, hi, dotProduct_comm]
  rw [remaining hS]
  change (R *ᵥ w) ⬝ᵥ (R⁻¹ *ᵥ (R *ᵥ w)) ≤ _ ∧ 0 ≤ r ⬝ᵥ (R⁻¹ *ᵥ (R *ᵥ w)) ∧ _
  refine ⟨?_, ?_, ?_⟩
  · rw [hi]
    conv_rhs => rw [hr]
    rw [mulVec_add, hi, dotProduct_add, add_dotProduct, add_dotProduct, b1]
    rw [dotProduct_comm ((H * P * Hᵀ) *ᵥ w) w, dotProduct_comm (R *ᵥ w) w]
    linarith
  · rw [hi]
    conv_rhs => rw [hr]
    rw [add_dotProduct, dotProduct_comm, dotProduct_comm (R *ᵥ w)]
    linarith
  · obtain ⟨he, -⟩ := C30_update_decreases P hP H R hR.posSemidef hS
    rw [he]
    have e1 : H * ((1 - gain P H R * H) * P) * Hᵀ = R - R * S⁻¹ * R := by
      have hSS : H * P * Hᵀ = S - R := by rw [hSdef, innovCov]; abel
      calc H * ((1 - gain P H R * H) * P) * Hᵀ
          = H * P * Hᵀ - H * P * Hᵀ * S⁻¹ * (H * P * Hᵀ) := by
            rw [gain, ← hSdef]
            simp only [Matrix.sub_mul, Matrix.mul_sub, Matrix.one_mul, Matrix.mul_assoc]
        _ = R - R * S⁻¹ * R := by
            rw [hSS]
            simp only [Matrix.sub_mul, Matrix.mul_sub, mul_nonsing_inv _ hS, Matrix.one_mul,
              Matrix.mul_assoc, nonsing_inv_mul _ hS, Matrix.mul_one]
            abel
    rw [e1, sub_sub_cancel]
    have := psd_congr hSp.inv.posSemidef R
    rwa [hRt] at this

end

section
variable {aux : List VarDesc}

/-- After an update with a reading that is not rejected and raises no fuzzy alarm, the new residual is at
most as large as the old one, measured with the noise of the sensor, and does not point the other way. -/
def TowardsClaim (uc : UserCalc (coreDef aux)) (ok : Reading → Values (coreDef aux) → Prop) : Prop :=
  ∀ (rd : Reading) (x : Values (coreDef aux)) (P : ErrMat ℝ (coreDef aux)) (tr : Tracker ℝ)
    (u : Upd (Values (coreDef aux)) (ErrMat ℝ (coreDef aux)) (Tracker ℝ)), ok rd x →
    UnitQuats (toVars x) → P.PosSemidef → (rd.meas (aux := aux)).R.PosDef →
    sensorUpdate uc tr rd.meas x P = some u → u.applied = true → u.fuzzy = false →
    ∃ r r', (rd.meas (aux := aux)).r (toVars x) = some r ∧ (rd.meas (aux := aux)).r (toVars u.x) = some r' ∧
      r' ⬝ᵥ ((rd.meas (aux := aux)).R⁻¹ *ᵥ r') ≤ r ⬝ᵥ ((rd.meas (aux := aux)).R⁻¹ *ᵥ r) ∧
      0 ≤ r ⬝ᵥ ((rd.meas (aux := aux)).R⁻¹ *ᵥ r')

/-- An applied, calm update corrects the state with the correction of the cleared covariance. -/
theorem sensorUpdate_calm {uc : UserCalc (coreDef aux)} (huc : NoHooks uc) {m : SensorMeas (coreDef aux)}
    {x : Values (coreDef aux)} {P : ErrMat ℝ (coreDef aux)} {tr : Tracker ℝ}
    {u : Upd (Values (coreDef aux)) (ErrMat ℝ (coreDef aux)) (Tracker ℝ)}
    (h : sensorUpdate uc tr m x P = some u) (ha : u.applied = true) (hf : u.fuzzy = false) :
    ∃ P0 H r c P' s', clearFixed m.fixed m.cleared P = some P0 ∧ m.H (toVars x) = some H ∧
      m.r (toVars x) = some r ∧ calculateCorrection m.enable m.thr P0 H r m.R = some (some (c, P')) ∧
      correct (toVars x) c = some s' ∧ u.x = values s' ∧ u.P = P' := by
  unfold sensorUpdate measUpdate at h
  simp only [Option.bind_eq_bind, Option.bind_eq_some_iff] at h
  obtain ⟨P0, h0, H, hH, r, hr, o, ho, h⟩ := h
  cases o with
  | none =>
    simp only [Option.some.injEq] at h
    rw [← h] at ha
    cases ha
  | some cp =>
    obtain ⟨c, P'⟩ := cp
    simp only [Option.bind_eq_some_iff] at h
    obtain ⟨⟨t1, v1, fz⟩, hc, h⟩ := h
    obtain rfl := Option.some.inj h
    simp only at hf
    subst hf
    simp only [applyCorrection, huc.augment, huc.sanity, huc.bias, Option.bind_eq_bind,
      Option.bind_eq_some_iff] at hc
    obtain ⟨s', hs', hc⟩ := hc
    obtain rfl := fuzzyCheck'_calm hc
    exact ⟨P0, H, r, c, P', v1, h0, hH, hr, ho, hs', rfl, rfl⟩

/-- The readings that measure a linear function of the state: pressure, and positions of an antenna that is
fixed at the place of the IMU. -/
def Linear (rd : Reading) (x : Values (coreDef aux)) : Prop :=
  match rd with
  | .pressure _ _ _ _ _ => True
  | .position pip fixed _ _ _ _ => pip ≠ 0 ∧ fixed.testBit pip = true ∧ getVec (toVars x) pip 3 = some 0
  | _ => False

/-- The residual of a pressure reading is linear in the correction. -/
theorem pressure_after {bp : Nat} {z : ℝ} {s s' : Vars ℝ (coreDef aux)} {H : Matrix (Fin 1) _ ℝ}
    {r : Fin 1 → ℝ} {c : Fin (total errLen (coreDef aux)) → ℝ}
    (hn : ∀ i (hi : i < (coreDef aux).length), (coreDef aux)[i].name = i) (hp : PlainVars (coreDef aux))
    (hu : UnitQuats s) (hs : correct s c = some s') (hH : pressureH bp = some H)
    (hr : pressureResidual bp z s = some r) :
    pressureResidual bp z (toVars (values s')) = some (r - H *ᵥ c) := by
  obtain ⟨s2, e2, hv, -⟩ := correct_reads s c hn hp hu
  rw [hs, Option.some.injEq] at e2
  subst e2
  have hpos := hv _ _ _ (getVec_p s)
  rw [getVec_p, Option.some.injEq] at hpos
  unfold pressureResidual at hr ⊢
  obtain ⟨b, hb, hr⟩ := Option.bind_eq_some_iff.1 hr
  obtain rfl := Option.some.inj hr
  obtain ⟨H', hH2, hm⟩ := pressureH_mulVec bp s b hn hb
  obtain rfl := Option.some.inj (hH.symm.trans hH2)
  rw [getVec_toVars_values, hv _ _ _ hb, Option.bind_eq_bind, Option.bind_some, hm]
  congr 1
  funext j
  change z + (b 0 + segOf c bp 1 0) - EKFState.p s' 2 = z + b 0 - EKFState.p s 2 - (_ - _)
  rw [hpos, Pi.add_apply]
  ring

/-- The residual of a position is linear in the correction if the antenna is at the place of the IMU. -/
theorem position_after {pip fixed : Nat} {z : V3 ℝ} {s s' : Vars ℝ (coreDef aux)} {H : Matrix (Fin 3) _ ℝ}
    {r : V3 ℝ} {c : Fin (total errLen (coreDef aux)) → ℝ}
    (hn : ∀ i (hi : i < (coreDef aux).length), (coreDef aux)[i].name = i) (hp : PlainVars (coreDef aux))
    (hu : UnitQuats s) (hs : correct s c = some s') (hH : positionH pip fixed s = some H)
    (hr : positionResidual pip z s = some r) (hp0 : pip ≠ 0) (hfix : fixed.testBit pip = true)
    (hl : getVec s pip 3 = some 0) (hc0 : segOf c pip 3 = 0) :
    positionResidual pip z (toVars (values s')) = some (r - H *ᵥ c) := by
  obtain ⟨s2, e2, hv, -⟩ := correct_reads s c hn hp hu
  rw [hs, Option.some.injEq] at e2
  subst e2
  have hpos := hv _ _ _ (getVec_p s)
  rw [getVec_p, Option.some.injEq] at hpos
  obtain ⟨H', hH2, hm⟩ := positionH_mulVec pip fixed s 0 hn hl hp0
  obtain rfl := Option.some.inj (hH.symm.trans hH2)
  have hl' : getVec (toVars (values s')) pip 3 = some 0 := by
    rw [getVec_toVars_values, hv _ _ _ hl, hc0, add_zero]
  have hp' : EKFState.p (toVars (values s')) = EKFState.p s + segOf c 0 3 := hpos
  simp only [positionResidual, sensorPos, hl, hl', Option.bind_eq_bind, Option.bind_some, mulVec_zero,
    add_zero, Option.some.injEq] at hr ⊢
  have hsk : skew (0 : V3 ℝ) = 0 := by
    ext i j
    fin_cases i <;> fin_cases j <;> simp [skew]
  rw [← hr, hm, if_pos hfix, hp', hsk, Matrix.mul_zero, zero_mulVec, add_zero, add_zero]
  abel

/-- **C117, partial**: for pressure readings, and for positions of an antenna that is fixed at the place of the
IMU, in every filter without hooks.
Missing: positions of an antenna away from the IMU and distances, where the claim is false
(`C117_position_violated`, `C117_distance_violated`), poses and angles. -/
theorem C117_towards_partial (uc : UserCalc (coreDef aux)) (huc : NoHooks uc)
    (hn : ∀ i (hi : i < (coreDef aux).length), (coreDef aux)[i].name = i) (hp : PlainVars (coreDef aux)) :
    TowardsClaim uc Linear := by
  intro rd x P tr u hok hu hP hR h ha hf
  obtain ⟨P0, H, r, c, P', s', h0, hH, hr, ho, hs', hx, -⟩ := sensorUpdate_calm huc h ha hf
  have hP0 := clearFixed_psd hn _ _ _ _ hP h0
  obtain ⟨k1, k2, -⟩ := C117_linear P0 hP0 H _ hR _ _ r c P' ho
  suffices hlin : (rd.meas (aux := aux)).r (toVars u.x) = some (r - H *ᵥ c) from
    ⟨r, _, hr, hlin, k1, k2⟩
  rw [hx]
  cases rd with
  | pressure bp en thr z n => exact pressure_after hn hp hu hs' hH hr
  | position pip fixed en thr z R_ =>
    obtain ⟨hp0, hfix, hl⟩ := hok
    have h0' : clearFixed fixed [pip] P = some P0 := h0
    obtain ⟨hlt, hkind⟩ := getVec_kind _ hl
    have hie := indexingErrors_eq_zero.2 hn
    refine position_after hn hp hu hs' hH hr hp0 hfix hl ?_
    refine segOf_eq_zero hie ⟨pip, hlt⟩ 3 ?_ c fun k hk => ?_
    · rw [errLen, hkind]; rfl
    · obtain ⟨P1, e1, -, hz⟩ := clearFixed_spec hn fixed [pip] (fun i hi => by
        rw [List.mem_singleton.1 hi]; exact hlt) P
      rw [h0', Option.some.injEq] at e1
      subst e1
      exact correction_zero P0 ⟨pip, hlt⟩ (fun a b hr hc => hz pip hlt (by simp) hfix a b hr hc) H
        (fun a k hk => positionH_fixed hn hl hp0 hH hlt hfix a k hk) r _ _ _ c P' ho k hk
  | pose => exact hok.elim
  | angle => exact hok.elim
  | distance => exact hok.elim

end

/-! ### Violations -/

theorem plain_noHooks : NoHooks (plainCalc (aux := positionAux) false) := by
  constructor <;> intros <;> rfl

/-- An accepted update of the position filter. -/
theorem sensorUpdate_position {m : SensorMeas (coreDef positionAux)}
    {x : Values (coreDef positionAux)} {s' : Vars ℝ (coreDef positionAux)}
    {P P' : ErrMat ℝ (coreDef positionAux)} {H r c} (hf : clearFixed m.fixed m.cleared P = some P)
    (hH : m.H (toVars x) = some H)
    (hr : m.r (toVars x) = some r) (hc : calculateCorrection m.enable m.thr P H r m.R = some (some (c, P')))
    (hs : correct (toVars x) c = some s') :
    sensorUpdate (plainCalc false) Tracker.reset m x P =
      some ⟨Tracker.reset, values s', P', true, false⟩ := by
  have hd : indexOfBestNonTemporalDriftingState (coreDef positionAux) = some (-1) := by
    decide +kernel
  have ha : applyCorrection (plainCalc false) Tracker.reset (toVars x) c =
      some (Tracker.reset, s', false) := by
    change ((correct (toVars x) c).bind fun s' => fuzzyCheck' Tracker.reset s' (toVars x) 0.1) = _
    rw [hs]
    unfold fuzzyCheck'
    simp only [Option.bind_some, if_pos hd]
  simp only [sensorUpdate, measUpdate, hf, hH, hr, hc, ha, Option.bind_eq_bind,
    Option.bind_some]

/-- A covariance without correlations. -/
def onlyVar {n : Nat} (p : Fin n → Prop) [DecidablePred p] : Matrix (Fin n) (Fin n) ℝ :=
  Matrix.diagonal fun i => if p i then 1 else 0

theorem onlyVar_psd {n : Nat} (p : Fin n → Prop) [DecidablePred p] : (onlyVar p).PosSemidef :=
  PosSemidef.diagonal fun i => by change (0 : ℝ) ≤ if p i then 1 else 0; split <;> norm_num

theorem onlyVar_mul {n : Nat} {m : Type} (p : Fin n → Prop) [DecidablePred p] (A : Matrix (Fin n) m ℝ) :
    onlyVar p * A = Matrix.of fun i j => if p i then A i j else 0 := by
  ext i j
  rw [onlyVar, diagonal_mul]
  simp

/-- The correction that a positive definite noise leads to. -/
theorem correction_accepted {k : Nat} {m : Type} [Fintype m] [DecidableEq m]
    (P : Matrix (Fin k) (Fin k) ℝ) (hP : P.PosSemidef) (H : Matrix m (Fin k) ℝ) (R : Matrix m m ℝ)
    (hR : R.PosDef) (r : m → ℝ) :
    calculateCorrection false 0 P H r R =
      some (some (gain P H R *ᵥ r, josephUpdate P H R (gain P H R))) := by
  have hS : (innovCov P H R).PosDef := hR.posSemidef_add (psd_congr hP H)
  have hdet : (innovCov P H R).det ≠ 0 :=
    ((Matrix.isUnit_iff_isUnit_det _).1 hS.isUnit).ne_zero
  simp only [calculateCorrection]
  rw [if_neg hdet, if_neg (by simp)]

theorem posValues_reads (p : V3 ℝ) (a : Quat ℝ) (l : V3 ℝ) :
    getVec (toVars (values (posState p a l))) 5 3 = some l ∧
      EKFState.p (toVars (values (posState p a l))) = p ∧
      EKFState.q (toVars (values (posState p a l))) = a := ⟨rfl, rfl, rfl⟩

/-- **C117 is violated by distances.**  The offset of the antenna is the only uncertain variable, the IMU is one
metre from the origin and turned by 106°, the distance is measured to be two metres: the update moves the antenna
to a distance of 0.64 metres, because the measurement matrix takes the inverse of the rotation (see C44). -/
theorem C117_distance_violated :
    ¬ TowardsClaim (plainCalc (aux := positionAux) false) fun rd _ => ∃ n, rd = .distance 5 0 false 0 2 n := by
  intro h
  let g : Quat ℝ := ⟨3 / 5, 0, 0, 4 / 5⟩
  have hg : g.normSq = 1 := by norm_num [g, Quat.normSq]
  let x : Values (coreDef positionAux) := values (posState ![1, 0, 0] g 0)
  let P : ErrMat ℝ (coreDef positionAux) := onlyVar fun i => 15 ≤ i.val
  have hu : UnitQuats (toVars x) := posState_unit _ _ _ hg
  have hp : EKFState.p (toVars x) = ![1, 0, 0] := (posValues_reads ![1, 0, 0] g 0).2.1
  have hq : EKFState.q (toVars x) = g := (posValues_reads ![1, 0, 0] g 0).2.2
  have hl : getVec (toVars x) 5 3 = some 0 := (posValues_reads ![1, 0, 0] g 0).1
  have hp0 : EKFState.p (toVars x) ≠ 0 := by
    rw [hp]
    intro e
    simpa using congrFun e 0
  obtain ⟨H, hH, hm⟩ := distanceH_mulVec 5 (toVars x) 0 positionDef_ok.1 hl (by decide) hp0
  have hr : distanceResidual 5 2 (toVars x) = some fun _ => 1 := by
    simp only [distanceResidual, sensorPos, hl, Option.bind_eq_bind, Option.bind_some, mulVec_zero, add_zero,
      hp]
    congr 1
    funext
    simp [radius]
    norm_num
  let R : Matrix (Fin 1) (Fin 1) ℝ := Matrix.diagonal fun _ => 1 * 1
  have hR : R.PosDef := PosDef.diagonal fun _ => by norm_num
  have hP : P.PosSemidef := onlyVar_psd _
  have hcc := correction_accepted P hP H R hR fun _ => 1
  obtain ⟨s1, hs1, hread, hreadq⟩ := correct_reads (toVars x) (gain P H R *ᵥ (fun _ => 1))
    positionDef_ok.1 positionDef_ok.2 hu
  have hup := sensorUpdate_position (m := (Reading.distance 5 0 false 0 2 1).meas) (clearFixed_zero _ _) hH hr hcc hs1
  obtain ⟨r, r', e1, hr2, hle, -⟩ : ∃ r r' : Fin 1 → ℝ, distanceResidual 5 2 (toVars x) = some r ∧
      distanceResidual 5 2 (toVars (values s1)) = some r' ∧
      r' ⬝ᵥ (R⁻¹ *ᵥ r') ≤ r ⬝ᵥ (R⁻¹ *ᵥ r) ∧ 0 ≤ r ⬝ᵥ (R⁻¹ *ᵥ r') :=
    h _ x P _ _ ⟨1, rfl⟩ hu hP hR hup rfl rfl
  obtain rfl := Option.some.inj (hr.symm.trans e1)
  set c := gain P H R *ᵥ (fun _ => (1 : ℝ)) with hcdef
  set σ := (innovCov P H R)⁻¹ 0 0 with hσ
  have hck : ∀ k, c k = if 15 ≤ k.val then H 0 k * σ else 0 := by
    intro k
    rw [hcdef, gain, onlyVar_mul]
    simp only [mulVec, dotProduct, Finset.univ_unique, Finset.sum_singleton, mul_one, Matrix.mul_apply,
      Fin.default_eq_zero, of_apply, transpose_apply, hσ]
    split <;> simp
  have hcol : ∀ k, H 0 k = (H *ᵥ (Pi.single k 1)) 0 := fun k => by
    rw [mulVec_single_one]; rfl
  have c0 : segOf c 0 3 = 0 := by
    funext j; fin_cases j <;> exact (hck _).trans (if_neg (by decide))
  have c2 : segOf c 2 3 = 0 := by
    funext j; fin_cases j <;> exact (hck _).trans (if_neg (by decide))
  have c5 : segOf c 5 3 = ![-7 / 25 * σ, 24 / 25 * σ, 0] := by
    have hk : ∀ j : Fin 3, H 0 ⟨15 + j.val, by have := j.2; change _ < 18; omega⟩ = g.toRot j 0 := by
      intro j
      rw [hcol, hm]
      have s0 : segOf (Pi.single ⟨15 + j.val, by have := j.2; change _ < 18; omega⟩ 1 :
          Fin (total errLen (coreDef positionAux)) → ℝ) 0 3 = 0 := by
        funext i; fin_cases j <;> fin_cases i <;> rfl
      have s2 : segOf (Pi.single ⟨15 + j.val, by have := j.2; change _ < 18; omega⟩ 1 :
          Fin (total errLen (coreDef positionAux)) → ℝ) 2 3 = 0 := by
        funext i; fin_cases j <;> fin_cases i <;> rfl
      have s5 : segOf (Pi.single ⟨15 + j.val, by have := j.2; change _ < 18; omega⟩ 1 :
          Fin (total errLen (coreDef positionAux)) → ℝ) 5 3 = Pi.single j 1 := by
        funext i; fin_cases j <;> fin_cases i <;> rfl
      rw [s0, s2, s5, mulVec_zero, mulVec_zero, zero_add, zero_add, mulVec_single_one, hp, hq]
      simp [distanceHpip, Matrix.col]
    funext j
    have e : segOf c 5 3 j = H 0 ⟨15 + j.val, by have := j.2; change _ < 18; omega⟩ * σ := by
      fin_cases j <;> exact (hck _).trans (if_pos (by decide))
    rw [e, hk]
    fin_cases j <;> simp [g, Quat.toRot] <;> norm_num
  have hS : (innovCov P H R).PosDef := hR.posSemidef_add (psd_congr hP H)
  have hσ1 : 0 < σ ∧ σ ≤ 1 := by
    refine ⟨hS.inv.diag_pos, ?_⟩
    have hS1 : 1 ≤ innovCov P H R 0 0 := by
      have := (psd_congr hP H).diag_nonneg (i := 0)
      simp only [innovCov, Matrix.add_apply, R, diagonal_apply_eq]
      linarith
    have hmul : innovCov P H R 0 0 * σ = 1 := by
      have := congrFun (congrFun (mul_nonsing_inv _ ((Matrix.isUnit_iff_isUnit_det _).1 hS.isUnit)) 0) 0
      simp only [Matrix.mul_apply, Finset.univ_unique, Finset.sum_singleton, one_apply_eq,
        Fin.default_eq_zero] at this
      exact this
    nlinarith [hS.inv.diag_pos (i := (0 : Fin 1))]
  have hl' : getVec (toVars (values s1)) 5 3 = some ![-7 / 25 * σ, 24 / 25 * σ, 0] := by
    rw [getVec_toVars_values, hread 5 3 0 hl, c5, zero_add]
  have hp' : EKFState.p (toVars (values s1)) = ![1, 0, 0] := by
    have e := hread _ _ _ (getVec_p (toVars x))
    rw [getVec_p, Option.some.injEq, c0, add_zero, hp] at e
    exact e
  have hq' : EKFState.q (toVars (values s1)) = g := by
    have e := hreadq _ _ (getQuat_q (toVars x))
    rw [getQuat_q, Option.some.injEq, c2, quatFromSmallAngle_zero, Quat.mul_one', hq] at e
    exact e
  have hpos : sensorPos 5 (toVars (values s1)) = some ![1 - 527 / 625 * σ, - 336 / 625 * σ, 0] := by
    rw [sensorPos, hl', hp', hq', Option.bind_eq_bind, Option.bind_some]
    congr 1
    funext i
    fin_cases i <;>
      simp [g, Quat.toRot, Quat.conj, mulVec, dotProduct, Fin.sum_univ_three] <;> ring
  rw [distanceResidual, hpos, Option.bind_eq_bind, Option.bind_some] at hr2
  have hr3 := Option.some.inj hr2
  have hrad : radius ![1 - 527 / 625 * σ, - 336 / 625 * σ, 0] < 1 := by
    rw [radius, Real.sqrt_lt' one_pos]
    simp
    nlinarith [hσ1.1, hσ1.2]
  have hR1 : R⁻¹ = 1 := by
    rw [show R = 1 from by ext i j; fin_cases i; fin_cases j; simp [R], inv_one]
  rw [hR1, one_mulVec, one_mulVec, ← hr3] at hle
  simp only [dotProduct, Finset.univ_unique, Finset.sum_singleton, mul_one] at hle
  nlinarith

/-- **C117 is violated by positions of an antenna away from the IMU.**  The antenna is one metre in front of the IMU,
only the heading is uncertain, and the sensor is much better along one axis than along the other: the update
turns the IMU by 74° and thereby moves the antenna 72 centimetres along the axis on which the prediction was
exact, which is 7 standard deviations. -/
theorem C117_position_violated :
    ¬ TowardsClaim (plainCalc (aux := positionAux) false) fun rd _ => ∃ R, rd = .position 5 0 false 0 ![1, 12 / 5, 0] R := by
  intro h
  let x : Values (coreDef positionAux) := values (posState 0 Quat.one ![1, 0, 0])
  let k8 : Fin (total errLen (coreDef positionAux)) := ⟨8, by decide⟩
  let P : ErrMat ℝ (coreDef positionAux) := onlyVar fun i => i = k8
  have hu : UnitQuats (toVars x) := posState_unit _ _ _ (by simp [Quat.normSq, Quat.one])
  have hp : EKFState.p (toVars x) = 0 := (posValues_reads 0 Quat.one ![1, 0, 0]).2.1
  have hq : EKFState.q (toVars x) = Quat.one := (posValues_reads 0 Quat.one ![1, 0, 0]).2.2
  have hl : getVec (toVars x) 5 3 = some ![1, 0, 0] := (posValues_reads 0 Quat.one ![1, 0, 0]).1
  obtain ⟨H, hH, hm⟩ := positionH_mulVec 5 0 (toVars x) ![1, 0, 0] positionDef_ok.1 hl (by decide)
  have hr : positionResidual 5 ![1, 12 / 5, 0] (toVars x) = some ![0, 12 / 5, 0] := by
    simp only [positionResidual, sensorPos, hl, Option.bind_eq_bind, Option.bind_some, hp, hq]
    congr 1
    funext i
    fin_cases i <;> simp [Quat.toRot, Quat.conj, Quat.one, mulVec, dotProduct, Fin.sum_univ_three]
  let R : M33 ℝ := Matrix.diagonal ![1 / 100, 1, 1]
  have hR : R.PosDef := PosDef.diagonal fun i => by fin_cases i <;> simp
  have hP : P.PosSemidef := onlyVar_psd _
  have hcc := correction_accepted P hP H R hR ![0, 12 / 5, 0]
  obtain ⟨s1, hs1, hread, hreadq⟩ := correct_reads (toVars x) (gain P H R *ᵥ ![0, 12 / 5, 0])
    positionDef_ok.1 positionDef_ok.2 hu
  have hup := sensorUpdate_position
    (m := (Reading.position 5 0 false 0 ![1, 12 / 5, 0] R).meas) (clearFixed_zero _ _) hH hr hcc hs1
  obtain ⟨r, r', e1, hr2, hle, -⟩ : ∃ r r' : V3 ℝ, positionResidual 5 ![1, 12 / 5, 0] (toVars x) = some r ∧
      positionResidual 5 ![1, 12 / 5, 0] (toVars (values s1)) = some r' ∧
      r' ⬝ᵥ (R⁻¹ *ᵥ r') ≤ r ⬝ᵥ (R⁻¹ *ᵥ r) ∧ 0 ≤ r ⬝ᵥ (R⁻¹ *ᵥ r') :=
    h _ x P _ _ ⟨R, rfl⟩ hu hP hR hup rfl rfl
  obtain rfl := Option.some.inj (hr.symm.trans e1)
  have hcol : (fun i => H i k8) = ![0, 1, 0] := by
    have e : H *ᵥ (Pi.single k8 1) = fun i => H i k8 := by rw [mulVec_single_one]; rfl
    have s0 : segOf (Pi.single k8 1 : Fin (total errLen (coreDef positionAux)) → ℝ) 0 3 = 0 := by
      funext j; fin_cases j <;> rfl
    have s2 : segOf (Pi.single k8 1 : Fin (total errLen (coreDef positionAux)) → ℝ) 2 3 = ![0, 0, 1] := by
      funext j; fin_cases j <;> rfl
    have s5 : segOf (Pi.single k8 1 : Fin (total errLen (coreDef positionAux)) → ℝ) 5 3 = 0 := by
      funext j; fin_cases j <;> rfl
    rw [← e, hm, s0, s2, s5, hq, one_toRot]
    funext i
    fin_cases i <;> simp [skew, mulVec, dotProduct, Fin.sum_univ_three]
  have hHi : ∀ i, H i k8 = (![0, 1, 0] : V3 ℝ) i := fun i => congrFun hcol i
  have hS : innovCov P H R = Matrix.diagonal ![1 / 100, 2, 1] := by
    ext i j
    have e : (H * P * Hᵀ) i j = H i k8 * H j k8 := by
      rw [Matrix.mul_assoc, onlyVar_mul, Matrix.mul_apply, Finset.sum_eq_single k8]
      · simp
      · intro b _ hb
        simp [hb]
      · simp
    rw [innovCov, Matrix.add_apply, e, hHi, hHi]
    fin_cases i <;> fin_cases j <;> simp [R] <;> norm_num
  have hSu : IsUnit (innovCov P H R).det :=
    (Matrix.isUnit_iff_isUnit_det _).1 (hR.posSemidef_add (psd_congr hP H)).isUnit
  have hSr : (innovCov P H R)⁻¹ *ᵥ ![0, 12 / 5, 0] = ![0, 6 / 5, 0] := by
    have e : (innovCov P H R) *ᵥ ![0, 6 / 5, 0] = ![0, 12 / 5, 0] := by
      rw [hS]
      funext i
      fin_cases i <;> simp [mulVec_diagonal] <;> norm_num
    rw [← e, mulVec_mulVec, nonsing_inv_mul _ hSu, one_mulVec]
  set c := gain P H R *ᵥ ![0, 12 / 5, 0] with hcdef
  have hck : ∀ k, c k = if k = k8 then 6 / 5 else 0 := by
    intro k
    rw [hcdef, gain, onlyVar_mul, ← mulVec_mulVec, hSr]
    simp only [mulVec, dotProduct, Fin.sum_univ_three, of_apply, transpose_apply]
    split
    · rename_i hk
      rw [hk, hHi, hHi, hHi]
      simp
    · simp
  have c0 : segOf c 0 3 = 0 := by
    funext j; fin_cases j <;> exact (hck _).trans (if_neg (by decide))
  have c5 : segOf c 5 3 = 0 := by
    funext j; fin_cases j <;> exact (hck _).trans (if_neg (by decide))
  have c2 : segOf c 2 3 = ![0, 0, 6 / 5] := by
    funext j
    fin_cases j
    · exact (hck _).trans (if_neg (by decide))
    · exact (hck _).trans (if_neg (by decide))
    · exact (hck _).trans (if_pos (by decide))
  have hqs : quatFromSmallAngle ![0, 0, 6 / 5] = ⟨4 / 5, 0, 0, 3 / 5⟩ := by
    have e : sqNorm3 (![0, 0, 6 / 5] : V3 ℝ) / 4 = 9 / 25 := by
      simp [sqNorm3]; norm_num
    simp only [quatFromSmallAngle, e]
    rw [if_pos (by norm_num), show (1 : ℝ) - 9 / 25 = (4 / 5) ^ 2 by norm_num, Real.sqrt_sq (by norm_num)]
    simp
    norm_num
  have hl' : getVec (toVars (values s1)) 5 3 = some ![1, 0, 0] := by
    rw [getVec_toVars_values, hread 5 3 _ hl, c5, add_zero]
  have hp' : EKFState.p (toVars (values s1)) = 0 := by
    have e := hread _ _ _ (getVec_p (toVars x))
    rw [getVec_p, Option.some.injEq, c0, add_zero, hp] at e
    exact e
  have hq' : EKFState.q (toVars (values s1)) = ⟨4 / 5, 0, 0, 3 / 5⟩ := by
    have e := hreadq _ _ (getQuat_q (toVars x))
    rw [getQuat_q, Option.some.injEq, c2, hqs, hq] at e
    refine e.trans ?_
    simp [Quat.mul, Quat.one]
  have hr' : r' = ![18 / 25, 36 / 25, 0] := by
    rw [positionResidual, sensorPos, hl', hp', hq'] at hr2
    rw [← Option.some.inj hr2]
    funext i
    fin_cases i <;> simp [Quat.toRot, Quat.conj, mulVec, dotProduct, Fin.sum_univ_three] <;> norm_num
  have hRi : R⁻¹ = Matrix.diagonal ![100, 1, 1] := by
    refine inv_eq_right_inv ?_
    simp only [R, diagonal_mul_diagonal]
    rw [← diagonal_one]
    congr 1
    funext i
    fin_cases i <;> simp
  rw [hr', hRi] at hle
  simp [mulVec_diagonal, dotProduct, Fin.sum_univ_three] at hle
  norm_num at hle

/-- The hypotheses of the theorem hold for a position that is some metres off. -/
example : ∃ u, sensorUpdate (plainCalc (aux := positionAux) false) Tracker.reset
    (Reading.position 5 32 false 0 ![1, 2, 3] 1).meas (values (posState 0 Quat.one 0)) 1 = some u ∧
    u.applied = true ∧ u.fuzzy = false ∧
    Linear (aux := positionAux) (.position 5 32 false 0 ![1, 2, 3] 1) (values (posState 0 Quat.one 0)) := by
  have hl := (posValues_reads 0 Quat.one 0).1
  have hu : UnitQuats (toVars (values (posState 0 Quat.one 0))) :=
    posState_unit _ _ _ (by simp [Quat.normSq, Quat.one])
  obtain ⟨H, hH, -⟩ := positionH_mulVec 5 32 (toVars (values (posState 0 Quat.one 0))) 0 positionDef_ok.1 hl
    (by decide)
  have hr : positionResidual 5 ![1, 2, 3] (toVars (values (posState 0 Quat.one 0))) = some ![1, 2, 3] := by
    simp only [positionResidual, sensorPos, hl, Option.bind_eq_bind, Option.bind_some, mulVec_zero, add_zero,
      (posValues_reads 0 Quat.one 0).2.1, sub_zero]
  have hcc := correction_accepted (1 : ErrMat ℝ (coreDef positionAux)) PosSemidef.one H 1 PosDef.one ![1, 2, 3]
  obtain ⟨s1, hs1, -⟩ := correct_reads (toVars (values (posState 0 Quat.one 0)))
    (gain (1 : ErrMat ℝ (coreDef positionAux)) H 1 *ᵥ ![1, 2, 3]) positionDef_ok.1 positionDef_ok.2 hu
  exact ⟨_, sensorUpdate_position (m := (Reading.position 5 32 false 0 ![1, 2, 3] 1).meas)
    (clear_one positionDef_ok.1 32 [5] (by decide)) hH hr hcc hs1, rfl, rfl, by decide, by decide, hl⟩

end MSF
