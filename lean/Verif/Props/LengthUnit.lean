import Verif.Lemmas.LengthUnit3
import Verif.Props.Translation
import Verif.Props.FixedStates
import Verif.Props.RunNumbers

/-!
# C121: the unit of length of the camera map does not matter

A camera on its own measures positions in an arbitrary unit, which is why the pose filters estimate a
scale.  Whatever the unit, the vehicle flies the same way: if all readings of the camera, their noise,
the initial scale with its variance and the process noise of the scale are given in another unit, the
filter should publish the same position, attitude, velocity and calibration, and the scale in the
other unit.
-/

namespace MSF

open Matrix EKFState Core

variable {rest : List VarDesc}

theorem scaleCalc_eq (fb : Bool) :
    (scaleCalc fb : UserCalc (coreDef (scaleVar :: rest))) = scaleCalcWith 0.1 fb := by
  unfold scaleCalc scaleCalcWith
  congr 1

/-- **C121 as far as it holds.**  For every filter with a scale, every environment and every sequence
of calls whose poses come with a fixed origin of the camera frame: in a unit `k` times smaller, with
the value that replaces a negative scale given in that unit as well, the filter publishes the same
states and covariances in the other unit, at the same times, and has undefined behaviour in the same
cases.

The full statement would allow poses whose camera frame has an estimated origin, and would have the
constant 0.1 of `SanityCheckCorrection` in both units; see `C121_origin_violated` and
`C121_negative_violated`. -/
theorem C121_unit_partial (ho : Ordered (scaleVar :: rest))
    (hp : PlainQuats (coreDef (scaleVar :: rest))) {k : ℝ} (hk : 0 < k)
    {np np' : NoiseParams ℝ (coreDef (scaleVar :: rest))} (hn : UnitNoise k np np') (ρ : ℝ)
    (fixedBias : Bool) :
    UnitInvariant k np np' (scaleCalcWith ρ fixedBias) (scaleCalcWith (k * ρ) fixedBias)
      Reading.InUnits := by
  intro env calls hc
  have hK := trivial_inv (readingKernel np (scaleCalcWith ρ fixedBias)) Reading.InUnits
  obtain ⟨os', rfl⟩ := hK.lift_apis calls (fun o hoo => by
    have := hc o hoo
    cases o with
    | init t s => exact ⟨trivial, trivial⟩
    | imu t u => trivial
    | ext t u e => exact fun _ _ => trivial
    | meas m => exact this)
  have h1 := apis_new_map hK.hom 0 (Shiftable.zero Set.univ) env os' (fun _ _ => trivial)
  have h2 := apis_new_map (unitHom ho hp hn hk ρ fixedBias) 0 (Shiftable.zero Set.univ)
    env os' (fun _ _ => trivial)
  rw [Env.shift_zero] at h1 h2
  have hl : (os'.map (hK.hom.api 0)).map (Api.unit k) =
      os'.map ((unitHom ho hp hn hk ρ fixedBias).api 0) := by
    rw [List.map_map]
    refine List.map_congr_left fun o _ => ?_
    cases o with
    | init t s => simp [KHom.api, KernelInv.hom, unitHom, Api.unit, KHom.st]
    | imu t u => simp [KHom.api, Api.unit]
    | ext t u e => cases e <;> simp [KHom.api, KernelInv.hom, unitHom, Api.unit]
    | meas m => simp [KHom.api, KernelInv.hom, unitHom, Api.unit, KHom.meas]
  have hev : ∀ e, Event.unit k (hK.hom.event 0 e) = (unitHom ho hp hn hk ρ fixedBias).event 0 e := by
    intro e
    cases e <;> simp [KHom.event, KernelInv.hom, unitHom, Event.unit]
  rw [hl, h2]
  generalize Core.apis env hK.restrict (Core.new hK.restrict) os' = u at h1 ⊢
  generalize Core.apis env (readingKernel np (scaleCalcWith ρ fixedBias))
    (Core.new (readingKernel np (scaleCalcWith ρ fixedBias))) (os'.map (hK.hom.api 0)) = v at h1 ⊢
  cases u with
  | error e => cases v with
    | error e' => exact h1.symm
    | ok c => cases h1
  | ok c => cases v with
    | error e' => cases h1
    | ok c' =>
      have : c'.out = c.out.map (hK.hom.event 0) := by simpa [Except.map] using h1
      simp only [Except.map, this, List.map_map]
      congr 1
      refine List.map_congr_left fun e _ => ?_
      exact (hev e).symm

/-- **C121 for the shipped constant.**  If the published values of a run do not depend on what replaces
a negative scale, the filter as it is, run in the other unit, publishes the same in that unit. -/
theorem C121_shipped_partial (ho : Ordered (scaleVar :: rest))
    (hp : PlainQuats (coreDef (scaleVar :: rest))) {k : ℝ} (hk : 0 < k)
    {np np' : NoiseParams ℝ (coreDef (scaleVar :: rest))} (hn : UnitNoise k np np')
    (fixedBias : Bool) (env : Env)
    (calls : List (Api (V3 ℝ) (V3 ℝ) (Option (Values (coreDef (scaleVar :: rest))))
      (Option (ErrMat ℝ (coreDef (scaleVar :: rest)))) Reading ExtState))
    (hc : ∀ o ∈ calls, o.Reads Reading.InUnits)
    (hr : ∀ ρ, (Core.apis env (readingKernel np (scaleCalcWith ρ fixedBias))
        (Core.new (readingKernel np (scaleCalcWith ρ fixedBias))) calls).map Core.out =
      (Core.apis env (readingKernel np (scaleCalc fixedBias))
        (Core.new (readingKernel np (scaleCalc fixedBias))) calls).map Core.out) :
    (Core.apis env (readingKernel np' (scaleCalc fixedBias))
        (Core.new (readingKernel np' (scaleCalc fixedBias))) (calls.map (Api.unit k))).map Core.out =
      (Core.apis env (readingKernel np (scaleCalc fixedBias))
        (Core.new (readingKernel np (scaleCalc fixedBias))) calls).map
        fun c => c.out.map (Event.unit k) := by
  have h := C121_unit_partial ho hp hk hn (0.1 / k) fixedBias env calls hc
  rw [mul_div_cancel₀ _ hk.ne', ← scaleCalc_eq] at h
  have hcomp : ∀ w : Except UB (Core (V3 ℝ) (V3 ℝ) (Option (Values (coreDef (scaleVar :: rest))))
      (Option (ErrMat ℝ (coreDef (scaleVar :: rest)))) Reading (Tracker ℝ)),
      w.map (fun c => c.out.map (Event.unit k)) = (w.map Core.out).map (List.map (Event.unit k)) := by
    intro w
    cases w <;> rfl
  rw [h, hcomp, hcomp, hr]

/-! ### The shipped filters -/

/-- Process noise in the other unit. -/
def UnitQ (k : ℝ) (s s' : Vars ℝ (coreDef (scaleVar :: rest))) : Prop :=
  ∀ i r c, (s' i).Q r c = (if i.val = 5 then k else 1) * (s i).Q r c * (if i.val = 5 then k else 1)

theorem unitQ_scale (k : ℝ) (s : Vars ℝ (coreDef (scaleVar :: rest))) (dt σ : ℝ) :
    UnitQ k (setQBlock s iL dt σ) (setQBlock (unitVars k s) iL dt (k * σ)) := by
  intro i r c
  unfold setQBlock
  by_cases h : i = iL
  · subst h
    rw [Function.update_self, Function.update_self, if_pos rfl]
    simp only [diagonal_apply]
    split
    · ring
    · simp
  · have h5 : ¬ i.val = 5 := fun e => h (Fin.ext e)
    rw [Function.update_of_ne h, Function.update_of_ne h, if_neg h5, unitVars_other k s h, one_mul,
      mul_one]

theorem UnitQ.other {k : ℝ} {s s' : Vars ℝ (coreDef (scaleVar :: rest))} (h : UnitQ k s s')
    {i : Fin (coreDef (scaleVar :: rest)).length} (hi : i.val ≠ 5) (dt σ : ℝ) :
    UnitQ k (setQBlock s i dt σ) (setQBlock s' i dt σ) := by
  intro j r c
  unfold setQBlock
  by_cases hj : j = i
  · subst hj
    rw [Function.update_self, Function.update_self, if_neg hi, one_mul, mul_one]
  · rw [Function.update_of_ne hj, Function.update_of_ne hj]
    exact h j r c

theorem poseNoise_unit (a b g c : ℝ) (n : AuxNoise ℝ) (k : ℝ) :
    UnitNoise k (noiseOf a b g c (poseQAux n)) (noiseOf a b g c (poseQAux { n with scale := k * n.scale })) :=
  ⟨rfl, rfl, rfl, rfl, fun s dt i _ => ((((unitQ_scale k s dt n.scale).other (by decide) dt n.q_wv).other
    (by decide) dt n.p_wv).other (by decide) dt n.q_ic).other (by decide) dt n.p_ic i⟩

theorem posePressureNoise_unit (a b g c : ℝ) (n : AuxNoise ℝ) (k : ℝ) :
    UnitNoise k (noiseOf a b g c (posePressureQAux n))
      (noiseOf a b g c (posePressureQAux { n with scale := k * n.scale })) :=
  ⟨rfl, rfl, rfl, rfl, fun s dt i _ => ((((unitQ_scale k s dt n.scale).other (by decide) dt n.q_wv).other
    (by decide) dt n.q_ic).other (by decide) dt n.p_ic).other (by decide) dt n.bias_p i⟩

theorem positionPoseNoise_unit (a b g c : ℝ) (n : AuxNoise ℝ) (k : ℝ) :
    UnitNoise k (noiseOf a b g c (positionPoseQAux n))
      (noiseOf a b g c (positionPoseQAux { n with scale := k * n.scale })) :=
  ⟨rfl, rfl, rfl, rfl, fun s dt i _ => ((((unitQ_scale k s dt n.scale).other (by decide) dt n.q_wv).other
    (by decide) dt n.p_wv).other (by decide) dt n.q_ic).other (by decide) dt n.p_ic i⟩

/-- **C121 for the three shipped filters with a scale**: the parameter for the process noise of the
scale is given in the other unit. -/
theorem C121_filters_partial (a b g c : ℝ) (n : AuxNoise ℝ) {k : ℝ} (hk : 0 < k) (ρ : ℝ) (fixedBias : Bool) :
    UnitInvariant k (noiseOf a b g c (poseQAux n))
        (noiseOf a b g c (poseQAux { n with scale := k * n.scale })) (scaleCalcWith ρ fixedBias)
        (scaleCalcWith (k * ρ) fixedBias) Reading.InUnits ∧
      UnitInvariant k (noiseOf a b g c (posePressureQAux n))
        (noiseOf a b g c (posePressureQAux { n with scale := k * n.scale })) (scaleCalcWith ρ fixedBias)
        (scaleCalcWith (k * ρ) fixedBias) Reading.InUnits ∧
      UnitInvariant k (noiseOf a b g c (positionPoseQAux n))
        (noiseOf a b g c (positionPoseQAux { n with scale := k * n.scale })) (scaleCalcWith ρ fixedBias)
        (scaleCalcWith (k * ρ) fixedBias) Reading.InUnits :=
  ⟨C121_unit_partial poseDef_ok.1 poseDef_ok.2 hk (poseNoise_unit a b g c n k) ρ fixedBias,
    C121_unit_partial posePressureDef_ok.1 posePressureDef_ok.2.quats hk (posePressureNoise_unit a b g c n k)
      ρ fixedBias,
    C121_unit_partial (show Ordered positionPoseAux by unfold Ordered; decide) (by unfold PlainQuats; decide) hk
      (positionPoseNoise_unit a b g c n k) ρ fixedBias⟩

/-- Calls that meet the hypotheses: poses of a camera at a known origin, with and without outlier test,
a pressure and a position. -/
example (u : Input (V3 ℝ) (V3 ℝ)) (z : V3 ℝ) (R : Matrix (Fin 7) (Fin 7) ℝ)
    (v : Values (coreDef posePressureAux)) :
    ∀ o ∈ ([.init 1 ⟨u, some v, some 1⟩, .imu 2 u, .ext 3 u none,
      .meas ⟨3, 0, .pose poseIx 128 false 0 ⟨z, Quat.one, R⟩⟩,
      .meas ⟨3, 0, .pose poseIx 129 true 6 ⟨2 • z, Quat.one, R⟩⟩,
      .meas ⟨3, 1, .pressure 10 false 0 3 2⟩] :
        List (Api (V3 ℝ) (V3 ℝ) (Option (Values (coreDef posePressureAux)))
        (Option (ErrMat ℝ (coreDef posePressureAux))) Reading ExtState)), o.Reads Reading.InUnits := by
  simp only [List.mem_cons, List.not_mem_nil, or_false]
  rintro o (rfl | rfl | rfl | rfl | rfl | rfl)
  all_goals first | trivial | exact ⟨rfl, by decide⟩ | (change (10 : Nat) ≠ 5; decide)

/-! ### Violations -/

/-- The state of the pose filter one metre from the origin with the scale 1, in the other unit. -/
noncomputable def camAt (k : ℝ) : Values (coreDef poseAux) :=
  values (setQ (setV (setP (toVars (unitVals k (values (scaleState 1)))) ![1, 0, 0]) 0) Quat.one)

theorem camAt_view (k : ℝ) : poseView poseIx (toVars (camAt k)) =
    some ⟨![1, 0, 0], Quat.one, k * 1, Quat.one, 0, Quat.one, 0⟩ := rfl

theorem camAt_unit (k : ℝ) : UnitQuats (toVars (camAt k)) := by
  have h : ∀ i : Fin (coreDef poseAux).length, ∀ q, quatOf _ ((toVars (camAt k)) i).val = some q →
      q = Quat.one := by
    intro i q hq
    fin_cases i <;> first | exact (Option.some.inj hq).symm | cases hq
  intro i q hq
  rw [h i q hq]
  exact Quat.normSq_one

theorem camAt_col (k : ℝ) (fixed : Nat) (hL : fixed.testBit 5 = false) (hq : fixed.testBit 6 = false) :
    ∃ H, poseH poseIx fixed (toVars (camAt k)) = some H ∧
      (∀ r, H r ⟨15, by decide⟩ = (Pi.single 0 1 : Fin 7 → ℝ) r) ∧
      (fixed.testBit 7 = false → ∀ r, H r ⟨19, by decide⟩ = (Pi.single 0 (-1) : Fin 7 → ℝ) r) := by
  obtain ⟨H, hH, hm⟩ := poseH_mulVec poseIx fixed _ _ poseDef_ok.1 (camAt_view k) poseIx_distinct
  have col : ∀ j r, H r j = (H *ᵥ Pi.single j 1) r := fun j r => by rw [mulVec_single_one]; rfl
  refine ⟨H, hH, fun r => ?_, fun h7 r => ?_⟩
  · rw [col, hm]
    have z : ∀ l ∈ [0, 2, 6, 7, 8, 9], segOf (D := coreDef poseAux) (Pi.single ⟨15, by decide⟩ (1 : ℝ)) l 3 = 0 := by
      intro l hl
      funext i
      simp only [List.mem_cons, List.not_mem_nil, or_false] at hl
      rcases hl with rfl | rfl | rfl | rfl | rfl | rfl <;> fin_cases i <;> rfl
    have o : segOf (D := coreDef poseAux) (Pi.single ⟨15, by decide⟩ (1 : ℝ)) 5 1 = fun _ => 1 := by
      funext i; fin_cases i; rfl
    have o' : segOf (D := coreDef poseAux) (Pi.single ⟨15, by decide⟩ (1 : ℝ)) poseIx.L 1 = fun _ => 1 := o
    have hL' : fixed.testBit poseIx.L = false := hL
    simp only [z 0 (by decide), z 2 (by decide), z poseIx.qwv (by decide), z poseIx.pwv (by decide),
      z poseIx.qic (by decide), z poseIx.pic (by decide), o', hL', mulVec_zero]
    fin_cases r <;> simp [pad, mulVec, dotProduct, Pi.single_apply, one_toRot]
  · rw [col, hm]
    have z : ∀ l ∈ [0, 2, 6, 8, 9], segOf (D := coreDef poseAux) (Pi.single ⟨19, by decide⟩ (1 : ℝ)) l 3 = 0 := by
      intro l hl
      funext i
      simp only [List.mem_cons, List.not_mem_nil, or_false] at hl
      rcases hl with rfl | rfl | rfl | rfl | rfl <;> fin_cases i <;> rfl
    have z5 : segOf (D := coreDef poseAux) (Pi.single ⟨19, by decide⟩ (1 : ℝ)) 5 1 = 0 := by
      funext i; fin_cases i; rfl
    have o : segOf (D := coreDef poseAux) (Pi.single ⟨19, by decide⟩ (1 : ℝ)) 7 3 = ![1, 0, 0] := by
      funext i; fin_cases i <;> rfl
    have z5' : segOf (D := coreDef poseAux) (Pi.single ⟨19, by decide⟩ (1 : ℝ)) poseIx.L 1 = 0 := z5
    have o' : segOf (D := coreDef poseAux) (Pi.single ⟨19, by decide⟩ (1 : ℝ)) poseIx.pwv 3 = ![1, 0, 0] := o
    have h7' : fixed.testBit poseIx.pwv = false := h7
    simp only [z 0 (by decide), z 2 (by decide), z poseIx.qwv (by decide), z poseIx.qic (by decide),
      z poseIx.pic (by decide), z5', o', h7', mulVec_zero]
    fin_cases r <;> simp [pad, mulVec, dotProduct, Pi.single_apply, Fin.sum_univ_three]

theorem camAt_res (k c : ℝ) : ∃ r, poseRes poseIx ![c, 0, 0] Quat.one (toVars (camAt k)) = some r ∧
    r 0 = c - k := by
  obtain ⟨y, hy⟩ := Option.isSome_iff_exists.1 one_yaw
  have hp : (PoseView.mk ![1, 0, 0] Quat.one (k * 1) Quat.one 0 Quat.one 0 : PoseView ℝ).predAtt =
    Quat.one := by simp [PoseView.predAtt, Quat.mul_one']
  refine ⟨rows7 (![c, 0, 0] - PoseView.predPos ⟨![1, 0, 0], Quat.one, k * 1, Quat.one, 0, Quat.one, 0⟩) 0 y,
    ?_, ?_⟩
  · unfold poseRes
    rw [camAt_view]
    simp only [Option.bind_some, PoseView.residual, hp, one_att, hy, Option.bind_eq_bind]
  · simp [rows7, PoseView.predPos, Quat.conj, Quat.one, Quat.toRot, mulVec, dotProduct,
      Fin.sum_univ_three]

/-- A run of the pose filter: initialisation with one uncertain number, an external state, a pose. -/
noncomputable def camRun (j : Fin (total errLen (coreDef poseAux))) (fixed : Nat) (c : ℝ) :
    List (Api (V3 ℝ) (V3 ℝ) (Option (Values (coreDef poseAux))) (Option (ErrMat ℝ (coreDef poseAux)))
      Reading ExtState) :=
  [.init 1 ⟨⟨0, 0⟩, some (values (scaleState 1)), some (diagonal (Pi.single j 1))⟩,
    .ext 2 ⟨0, 0⟩ (some ⟨![1, 0, 0], 0, Quat.one⟩),
    .meas ⟨2, 0, .pose poseIx fixed false 0 ⟨![c, 0, 0], Quat.one, diagonal fun _ => 1⟩⟩]

theorem unitCov_single {n : Nat} (k : ℝ) (j : Fin n) (a : ℝ) :
    unitCov k (diagonal (Pi.single j a)) = diagonal (Pi.single j (unitFac k j * a * unitFac k j)) := by
  ext r c
  simp only [unitCov, of_apply, diagonal_apply]
  by_cases h : r = c
  · subst h
    by_cases hj : r = j
    · subst hj; simp
    · simp [hj]
  · simp [h]

theorem poseUnit_single (k c : ℝ) : PoseMeas.unit k ⟨![c, 0, 0], Quat.one, diagonal fun _ => 1⟩ =
    ⟨![k * c, 0, 0], Quat.one, diagonal fun i => poseFac k i * poseFac k i⟩ := by
  unfold PoseMeas.unit
  simp only [PoseMeas.mk.injEq, true_and]
  refine ⟨?_, ?_⟩
  · funext i; fin_cases i <;> simp
  · ext i j
    simp only [of_apply, diagonal_apply]
    by_cases h : i = j
    · subst h; simp
    · simp [h]

theorem readingKernel_update {aux : List VarDesc} (np : NoiseParams ℝ (coreDef aux))
    {uc : UserCalc (coreDef aux)} {tr : Tracker ℝ} {m : Reading} {x : Values (coreDef aux)}
    {P : ErrMat ℝ (coreDef aux)} {u : Upd (Values (coreDef aux)) (ErrMat ℝ (coreDef aux)) (Tracker ℝ)}
    (h : sensorUpdate uc tr m.meas x P = some u) :
    (readingKernel np uc).update tr m (some x) (some P) = ⟨u.tr, some u.x, some u.P, u.applied, u.fuzzy⟩ := by
  simp [readingKernel, sensorKernel, h]

/-- What such a run publishes last, in either unit: the corrected state, before the scale is checked. -/
theorem camRun_out (np : NoiseParams ℝ (coreDef poseAux)) (env : Env) (k σ : ℝ) (hk : 0 < k)
    (j : Fin (total errLen (coreDef poseAux))) (fixed : Nat) (c h : ℝ)
    (H : Matrix (Fin 7) (Fin (total errLen (coreDef poseAux))) ℝ)
    (hH : poseH poseIx fixed (toVars (camAt k)) = some H)
    (hc : ∀ r, H r j = (Pi.single 0 h : Fin 7 → ℝ) r) :
    ∃ (s : Vars ℝ (coreDef poseAux)) (P' : Option (ErrMat ℝ (coreDef poseAux))) (l : _),
      (Core.apis env (readingKernel (aux := poseAux) np (scaleCalcWith σ false))
        (Core.new (readingKernel (aux := poseAux) np (scaleCalcWith σ false)))
        ((camRun j fixed c).map (Api.unit k))).map Core.out = .ok (l ++ [.afterUpdate 2
          (some (values ((scaleCalcWith σ false : UserCalc (coreDef poseAux)).sanity s s 0))) P']) ∧
      l.length = 2 ∧
      ∀ i n w, getVec (toVars (camAt k)) i n = some w → getVec s i n =
        some (w + segOf (Pi.single j (unitFac k j * 1 * unitFac k j * h * (k * c - k) /
          (k * k + unitFac k j * 1 * unitFac k j * h * h))) i n) := by
  obtain ⟨r, hr, hr0⟩ := camAt_res k (k * c)
  obtain ⟨u, s, hu, hread, hx⟩ := pose_single fixed (camAt k) (camAt_unit k) ![k * c, 0, 0] Quat.one
    (fun i => poseFac k i * poseFac k i) (fun i => mul_pos (poseFac_pos hk i) (poseFac_pos hk i)) H hH r hr
    j 0 (unitFac k j * 1 * unitFac k j) h (by rw [mul_one]; exact mul_self_nonneg _) hc σ
  have o := init_ext_meas_out (readingKernel (aux := poseAux) np (scaleCalcWith σ false)) env
    ⟨⟨0, 0⟩, some (unitVals k (values (scaleState 1))), some (unitCov k (diagonal (Pi.single j 1)))⟩
    ⟨0, 0⟩ ⟨![1, 0, 0], 0, Quat.one⟩
    (.pose poseIx fixed false 0 (PoseMeas.unit k ⟨![c, 0, 0], Quat.one, diagonal fun _ => 1⟩))
    (by simp [readingKernel, sensorKernel, filterKernel, sqNorm3]) (fun _ => rfl)
  have hup : (readingKernel (aux := poseAux) np (scaleCalcWith σ false)).update
      (readingKernel (aux := poseAux) np (scaleCalcWith σ false)).tr0
      (.pose poseIx fixed false 0 (PoseMeas.unit k ⟨![c, 0, 0], Quat.one, diagonal fun _ => 1⟩))
      ((readingKernel (aux := poseAux) np (scaleCalcWith σ false)).extProp ⟨![1, 0, 0], 0, Quat.one⟩
        (some (unitVals k (values (scaleState 1))))) (some (unitCov k (diagonal (Pi.single j 1)))) =
      ⟨u.tr, some u.x, some u.P, u.applied, u.fuzzy⟩ := by
    rw [poseUnit_single, unitCov_single]
    exact readingKernel_update np hu
  rw [hr0] at hread
  have o' := o
  rw [hup, hx] at o'
  exact ⟨s, some u.P, [_, _], o', rfl, hread⟩

theorem unitVals_one (x : Values (coreDef (scaleVar :: rest))) : unitVals 1 x = x := by
  funext i
  unfold unitVals
  by_cases h : i = iL
  · subst h
    refine (Function.update_self _ _ _).trans ?_
    exact funext fun a => one_mul ((x iL : Fin 1 → ℝ) a)
  · exact Function.update_of_ne h _ _

/-- The unit itself. -/
theorem unit_one (o : Api (V3 ℝ) (V3 ℝ) (Option (Values (coreDef (scaleVar :: rest))))
    (Option (ErrMat ℝ (coreDef (scaleVar :: rest)))) Reading ExtState) : Api.unit 1 o = o := by
  have h1 : (unitVals 1 : Values (coreDef (scaleVar :: rest)) → _) = id := funext unitVals_one
  have h2 : (unitCov 1 : ErrMat ℝ (coreDef (scaleVar :: rest)) → _) = id := by
    funext P
    ext r c
    have : ∀ i : Fin (total errLen (coreDef (scaleVar :: rest))), unitFac 1 i = 1 := by
      intro i; unfold unitFac; split <;> rfl
    simp only [unitCov, of_apply, this, one_mul, mul_one, id]
  have h3 : ∀ z : PoseMeas ℝ, z.unit 1 = z := by
    intro z
    unfold PoseMeas.unit
    have : ∀ i, poseFac 1 i = 1 := by intro i; fin_cases i <;> rfl
    simp only [this, one_smul, one_mul, mul_one]
    rfl
  cases o with
  | init t s => simp only [Api.unit, h1, h2, Option.map_id, id]
  | imu t u => rfl
  | ext t u e => rfl
  | meas m =>
    obtain ⟨t, n, b⟩ := m
    cases b <;> simp only [Api.unit, Reading.unit, h3]

theorem camRun_one (j : Fin (total errLen (coreDef poseAux))) (fixed : Nat) (c : ℝ) :
    (camRun j fixed c).map (Api.unit 1) = camRun j fixed c := by
  rw [show (Api.unit 1 : Api (V3 ℝ) (V3 ℝ) (Option (Values (coreDef poseAux)))
    (Option (ErrMat ℝ (coreDef poseAux))) Reading ExtState → _) = id from funext fun o => unit_one o]
  exact List.map_id _

/-- Non-vacuity of `C121_shipped_partial`: a run of the pose filter in which a pose raises the scale from
1 to 3/2; what would replace a negative scale plays no role. -/
example (np : NoiseParams ℝ (coreDef poseAux)) (env : Env) (ρ : ℝ) :
    (Core.apis env (readingKernel (aux := poseAux) np (scaleCalcWith ρ false))
        (Core.new (readingKernel (aux := poseAux) np (scaleCalcWith ρ false)))
        (camRun ⟨15, by decide⟩ 128 2)).map Core.out =
      (Core.apis env (readingKernel (aux := poseAux) np (scaleCalc false))
        (Core.new (readingKernel (aux := poseAux) np (scaleCalc false)))
        (camRun ⟨15, by decide⟩ 128 2)).map Core.out := by
  obtain ⟨H, hH, hc, -⟩ := camAt_col 1 128 (by decide) (by decide)
  obtain ⟨r, hr, hr0⟩ := camAt_res 1 2
  obtain ⟨u, hu⟩ := pose_single_calm 128 (camAt 1) (camAt_unit 1) ![2, 0, 0] Quat.one (fun _ => 1)
    (fun _ => one_pos) H hH r hr ⟨15, by decide⟩ 0 1 1 zero_le_one hc (fun _ => 1 * 1) rfl (by
      rw [hr0]
      change (0 : ℝ) ≤ 1 * 1 + 1 * 1 * (2 - 1) / (1 + 1 * 1 * 1)
      norm_num)
  have key : ∀ σ, (Core.apis env (readingKernel (aux := poseAux) np (scaleCalcWith σ false))
      (Core.new (readingKernel (aux := poseAux) np (scaleCalcWith σ false)))
      (camRun ⟨15, by decide⟩ 128 2)).map Core.out =
      .ok [.initial 1 (some (values (scaleState 1))) (some (diagonal (Pi.single ⟨15, by decide⟩ 1))),
        .afterPropagation 2 (some (camAt 1)) (some (diagonal (Pi.single ⟨15, by decide⟩ 1))),
        .afterUpdate 2 (some u.x) (some u.P)] := by
    intro σ
    have o := init_ext_meas_out (readingKernel (aux := poseAux) np (scaleCalcWith σ false)) env
      ⟨⟨0, 0⟩, some (values (scaleState 1)), some (diagonal (Pi.single ⟨15, by decide⟩ 1))⟩
      ⟨0, 0⟩ ⟨![1, 0, 0], 0, Quat.one⟩
      (.pose poseIx 128 false 0 ⟨![2, 0, 0], Quat.one, diagonal fun _ => 1⟩)
      (by simp [readingKernel, sensorKernel, filterKernel, sqNorm3]) (fun _ => rfl)
    have ex : (readingKernel (aux := poseAux) np (scaleCalcWith σ false)).extProp ⟨![1, 0, 0], 0, Quat.one⟩
        (some (values (scaleState 1))) = some (camAt 1) := by
      have e1 := unitVals_one (rest := poseAux.tail) (values (scaleState 1))
      change some (values (setQ (setV (setP (toVars (values (scaleState 1))) _) _) _)) = some (values (setQ (setV (setP (toVars (unitVals 1 (values (scaleState 1)))) _) _) _))
      exact congrArg (fun x : Values (coreDef poseAux) => some (values (setQ (setV (setP (toVars x) ![1, 0, 0]) 0)
        Quat.one))) e1.symm
    have hup := readingKernel_update (aux := poseAux) np (hu σ)
    rw [ex] at o
    refine Eq.trans o ?_
    exact congrArg (fun w : Upd _ _ _ => Except.ok [_, _, Event.afterUpdate 2 w.x w.P]) hup
  exact (key ρ).trans ((key 0.1).symm.trans (by rw [← scaleCalc_eq]))

theorem camRun_reads (j : Fin (total errLen (coreDef poseAux))) (fixed : Nat) (c : ℝ) {Im : Reading → Prop}
    (h : Im (.pose poseIx fixed false 0 ⟨![c, 0, 0], Quat.one, diagonal fun _ => 1⟩)) :
    ∀ o ∈ camRun j fixed c, o.Reads Im := by
  simp only [camRun, List.mem_cons, List.not_mem_nil, or_false]
  rintro o (rfl | rfl | rfl)
  · trivial
  · trivial
  · exact h

/-- If the unit did not matter, the last publications would correspond. -/
theorem camRun_last {np np' : NoiseParams ℝ (coreDef poseAux)} {ρ ρ' : ℝ} {Im : Reading → Prop}
    (inv : UnitInvariant 2 np np' (scaleCalcWith ρ false) (scaleCalcWith ρ' false) Im)
    (j : Fin (total errLen (coreDef poseAux))) (fixed : Nat) (c h : ℝ)
    (hIm : Im (.pose poseIx fixed false 0 ⟨![c, 0, 0], Quat.one, diagonal fun _ => 1⟩))
    (hcol : ∀ k, ∃ H, poseH poseIx fixed (toVars (camAt k)) = some H ∧
      ∀ r, H r j = (Pi.single 0 h : Fin 7 → ℝ) r) :
    ∃ s s' : Vars ℝ (coreDef poseAux),
      values ((scaleCalcWith ρ' false : UserCalc (coreDef poseAux)).sanity s' s' 0) =
        unitVals 2 (values ((scaleCalcWith ρ false : UserCalc (coreDef poseAux)).sanity s s 0)) ∧
      (∀ i n w, getVec (toVars (camAt 1)) i n = some w → getVec s i n =
        some (w + segOf (Pi.single j (h * (c - 1) / (1 + h * h))) i n)) ∧
      ∀ i n w, getVec (toVars (camAt 2)) i n = some w → getVec s' i n =
        some (w + segOf (Pi.single j (unitFac 2 j * unitFac 2 j * h * (2 * c - 2) /
          (4 + unitFac 2 j * unitFac 2 j * h * h))) i n) := by
  obtain ⟨H1, hH1, hc1⟩ := hcol 1
  obtain ⟨H2, hH2, hc2⟩ := hcol 2
  obtain ⟨s, P1, l1, o1, e1, r1⟩ := camRun_out np ⟨.std, .std⟩ 1 ρ one_pos j fixed c h H1 hH1 hc1
  obtain ⟨s', P2, l2, o2, e2, r2⟩ := camRun_out np' ⟨.std, .std⟩ 2 ρ' two_pos j fixed c h H2 hH2 hc2
  have key := inv ⟨.std, .std⟩ (camRun j fixed c) (camRun_reads j fixed c hIm)
  have f1 : unitFac 1 j = 1 := by unfold unitFac; split <;> rfl
  refine ⟨s, s', ?_, fun i n w hw => ?_, fun i n w hw => ?_⟩
  · have hcomp : ∀ w : Except UB (Core (V3 ℝ) (V3 ℝ) (Option (Values (coreDef poseAux)))
        (Option (ErrMat ℝ (coreDef poseAux))) Reading (Tracker ℝ)),
        w.map (fun c => c.out.map (Event.unit 2)) = (w.map Core.out).map (List.map (Event.unit 2)) := by
      intro w
      cases w <;> rfl
    have key' := (o2.symm.trans key).trans ((hcomp _).trans (congrArg (Except.map _) ((congrArg (fun l => Except.map Core.out (Core.apis ⟨.std, .std⟩
      (readingKernel (aux := poseAux) np (scaleCalcWith ρ false))
      (Core.new (readingKernel (aux := poseAux) np (scaleCalcWith ρ false))) l))
      (camRun_one j fixed c).symm).trans o1)))
    have hl := (Except.ok.inj key').trans (List.map_append (f := Event.unit 2))
    have := (List.append_inj hl (by rw [e2]; exact ((List.length_map _).trans e1).symm)).2
    have h0 := (List.cons.inj this).1
    exact Option.some.inj (Event.afterUpdate.inj h0).2.1
  · rw [r1 i n w hw, f1]
    norm_num
  · rw [r2 i n w hw]
    norm_num

theorem sanity_other (σ : ℝ) (s : Vars ℝ (coreDef (scaleVar :: rest)))
    {i : Fin (coreDef (scaleVar :: rest)).length} (hi : i ≠ iL) :
    (scaleCalcWith σ false).sanity s s 0 i = s i := by
  simp only [scaleCalcWith]
  split
  · exact Function.update_of_ne hi _ _
  · rfl

theorem sanity_negative (σ : ℝ) (s : Vars ℝ (coreDef (scaleVar :: rest)))
    (h : ((s iL).val : Fin 1 → ℝ) 0 < 0) :
    ((scaleCalcWith σ false).sanity s s 0 iL).val = (fun _ => σ : Fin 1 → ℝ) := by
  simp only [scaleCalcWith]
  rw [if_pos h]
  rw [Function.update_self]

/-- **C121 is violated when the origin of the camera frame is estimated.**  One metre from the origin,
with an uncertain `p_wv`, a pose moves `p_wv` by one metre; with all lengths of the camera in half
metres it moves `p_wv` by 80 cm.  `p_wv` is a length in metres, but its block of the measurement matrix
lacks the factor `L` (see C44). -/
theorem C121_origin_violated (np np' : NoiseParams ℝ (coreDef poseAux)) (ρ ρ' : ℝ) :
    ¬ UnitInvariant 2 np np' (scaleCalcWith ρ false) (scaleCalcWith ρ' false) Reading.OfScale := by
  intro inv
  obtain ⟨s, s', e, r, r'⟩ := camRun_last inv ⟨19, by decide⟩ 0 3 (-1) rfl
    (fun k => by
      obtain ⟨H, hH, -, h⟩ := camAt_col k 0 (by decide) (by decide)
      exact ⟨H, hH, h (by decide)⟩)
  have san : ∀ (σ : ℝ) (s : Vars ℝ (coreDef poseAux)),
      getVec (toVars (values ((scaleCalcWith σ false : UserCalc (coreDef poseAux)).sanity s s 0))) 7 3 =
        getVec s 7 3 := by
    intro σ s
    have h := sanity_other σ s (i := ⟨7, by decide⟩) (by decide)
    have h' : (((scaleCalcWith σ false : UserCalc (coreDef poseAux)).sanity s s 0 ⟨7, by decide⟩).val : Fin 3 → ℝ) =
      (s ⟨7, by decide⟩).val := congrArg StateVar.val h
    exact congrArg some h'
  have u : ∀ x : Values (coreDef poseAux), getVec (toVars (unitVals 2 x)) 7 3 = getVec (toVars x) 7 3 :=
    fun x => by rfl
  have h := congrArg (fun x => getVec (toVars x) 7 3) e
  have h' : getVec s' 7 3 = getVec s 7 3 := (san ρ' s').symm.trans (h.trans ((u _).trans (san ρ s)))
  rw [r 7 3 0 rfl, r' 7 3 0 rfl] at h'
  have h0 := congrFun (Option.some.inj h') 0
  have f : unitFac 2 (⟨19, by decide⟩ : Fin (total errLen (coreDef poseAux))) = 1 := rfl
  rw [f] at h0
  have g : ∀ a : ℝ, ((0 : Fin 3 → ℝ) + segOf (D := coreDef poseAux) (Pi.single ⟨19, by decide⟩ a) 7 3) 0 = a := by
    intro a
    rw [Pi.add_apply, Pi.zero_apply, zero_add]
    rfl
  rw [g, g] at h0
  norm_num at h0

/-- **C121 is violated by a reading that makes the scale negative.**  The scale is replaced by 0.1
whatever the unit is. -/
theorem C121_negative_violated (np np' : NoiseParams ℝ (coreDef poseAux)) :
    ¬ UnitInvariant 2 np np' (scaleCalc false) (scaleCalc false) Reading.InUnits := by
  intro inv
  have e1 : (scaleCalc false : UserCalc (coreDef poseAux)) = scaleCalcWith 0.1 false := scaleCalc_eq false
  have inv' : UnitInvariant 2 np np' (scaleCalcWith 0.1 false) (scaleCalcWith 0.1 false) Reading.InUnits := by
    have e2 := e1
    rw [← scaleCalc_eq]
    exact inv
  obtain ⟨s, s', e, r, r'⟩ := camRun_last inv' ⟨15, by decide⟩ 128 (-3) 1 ⟨rfl, by decide⟩
    (fun k => by
      obtain ⟨H, hH, h, -⟩ := camAt_col k 128 (by decide) (by decide)
      exact ⟨H, hH, h⟩)
  have san : ∀ (s : Vars ℝ (coreDef poseAux)) (w : Fin 1 → ℝ), getVec s 5 1 = some w → w 0 < 0 →
      getVec (toVars (values ((scaleCalcWith 0.1 false : UserCalc (coreDef poseAux)).sanity s s 0))) 5 1 =
        some fun _ => 0.1 := by
    intro s w hw hneg
    have hs : (s ⟨5, by decide⟩).val = w := Option.some.inj hw
    exact congrArg (fun a : Fin 1 → ℝ => some a) (sanity_negative 0.1 s (by
      change ((s ⟨5, by decide⟩).val : Fin 1 → ℝ) 0 < 0
      rw [hs]
      exact hneg))
  have u : ∀ x : Values (coreDef poseAux), getVec (toVars (unitVals 2 x)) 5 1 =
      (getVec (toVars x) 5 1).map (unitVal 2) := fun x => by rfl
  have g : ∀ a : ℝ, segOf (D := coreDef poseAux) (Pi.single ⟨15, by decide⟩ a) 5 1 0 = a := fun a => rfl
  have f : unitFac 2 (⟨15, by decide⟩ : Fin (total errLen (coreDef poseAux))) = 2 := rfl
  have h1 := san s _ (r 5 1 (fun _ => 1 * 1) rfl) (by rw [Pi.add_apply, g]; norm_num)
  have h2 := san s' _ (r' 5 1 (fun _ => 2 * 1) rfl) (by rw [Pi.add_apply, g, f]; norm_num)
  have h := congrArg (fun x => getVec (toVars x) 5 1) e
  have h' := h2.symm.trans (h.trans ((u _).trans (congrArg (Option.map (unitVal 2)) h1)))
  have h0 := congrFun (Option.some.inj h') 0
  simp only [unitVal] at h0
  norm_num at h0

end MSF
