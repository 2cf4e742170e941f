import Verif.Lemmas.RunNumbers
import Verif.Lemmas.StillRun

/-!
# C101: every run keeps numbers and valid covariances

Runs as in C83: any calls of the public functions of the core in any order, with the numerical kernel
of a filter with shipped absolute sensors.  `none` stands for NaN.
-/

namespace MSF

open Matrix EKFState Core Spec

variable {aux : List VarDesc}

/-- A covariance in the buffer or published so far. -/
def Core.ShownCov (c : ReadingCore aux) (P : ErrMat ℝ (coreDef aux)) : Prop :=
  (∃ n ∈ c.states.nodes, n.val.P = some P) ∨ ∃ e ∈ c.out, e.cov = some P

theorem sensorUpdate_psd {uc : UserCalc (coreDef aux)} (ho : Ordered aux) {tr : Tracker ℝ}
    {m : SensorMeas (coreDef aux)} {x : Values (coreDef aux)} {P : ErrMat ℝ (coreDef aux)}
    {u : Upd (Values (coreDef aux)) (ErrMat ℝ (coreDef aux)) (Tracker ℝ)}
    (hR : m.R.PosSemidef) (hP : P.PosSemidef) (h : sensorUpdate uc tr m x P = some u) :
    u.P.PosSemidef := by
  obtain ⟨P1, H, r, h1, -, -, h2 | ⟨c, P', t', vars, fz, h2, -, rfl⟩⟩ := sensorUpdate_cases h
  · rw [h2.2]
    exact clearFixed_psd ho _ _ P P1 hP h1
  · exact calculateCorrection_psd (clearFixed_psd ho _ _ P P1 hP h1) hR h2

/-- **C101, partial: valid covariances.**  In every run of a filter with shipped absolute sensors that
is initialised with unit quaternions and a positive semidefinite covariance, every buffered or
published covariance is symmetric positive semidefinite: through predictions of any length, updates,
rejected measurements, fixed states, late measurements and repropagation.  Missing: noise of the gyro
and of the biases of the IMU, where the claim is false (`C101_gyro_noise_violated`), and relative
measurements (C34). -/
theorem C101_psd_partial (ho : Ordered aux) (np : NoiseParams ℝ (coreDef aux))
    (uc : UserCalc (coreDef aux)) (hp : PlainQuats (coreDef aux)) (ha : ∀ d ∈ aux, d.isAux)
    (huc : ∀ a b c, UnitQuats a → UnitQuats (uc.sanity a b c))
    (hg : np.gyr = 0 ∧ np.gyrBias = 0) (hb : np.accBias = 0)
    (haux : ∀ s dt i, ((coreDef aux).get i).isAux → (np.qAux s dt i).Q.PosSemidef)
    (env : Env) (os : List (ReadingApi aux))
    (hi : ∀ t s, Api.init t s ∈ os → (∀ v, s.x = some v → UnitQuats (toVars v)) ∧
      ∀ P, s.P = some P → P.PosSemidef)
    (he : ∀ t u e, Api.ext t u (some e) ∈ os → e.q.normSq = 1)
    (hm : ∀ m, Api.meas m ∈ os → (m.body.meas (aux := aux)).R.PosSemidef) (c : ReadingCore aux)
    (hc : Core.apis env (readingKernel np uc) (Core.new (readingKernel np uc)) os = .ok c)
    (P : ErrMat ℝ (coreDef aux)) (hP : c.ShownCov P) : P.PosSemidef := by
  have hK : KernelInv (readingKernel np uc) (Sane fun v => UnitQuats (toVars v))
      (Sane fun P => P.PosSemidef) (fun m => (m.meas (aux := aux)).R.PosSemidef)
      (fun e => e.q.normSq = 1) :=
    readingKernel_inv np uc _ _ _ _ (fun s new s' h e => (propagate_keeps ha h e (le_refl 5)).2)
      (fun x e h1 h2 => ext_unit e h1 h2)
      (fun dt P u x r hP hx e => by
        obtain ⟨r', h1, h2⟩ := predict_psd ho np hg hb haux dt u hP hx
        obtain rfl := Option.some.inj (h1.symm.trans e)
        exact h2)
      (fun m tr x P u hR h hP e => ⟨by
        obtain ⟨P1, H, r, -, -, -, h1 | ⟨c, P', t', vars, fz, -, hc, rfl⟩⟩ := sensorUpdate_cases e
        · rw [h1.2]; exact h
        · have := applyCorrection_unit ho hp h huc hc
          exact this, sensorUpdate_psd ho hR hP e⟩)
      PosSemidef.zero
  have key := hK.run env os (fun o hoo => by
    cases o with
    | init t s => exact hi t s hoo
    | imu t u => trivial
    | ext t u e =>
      intro a ha
      subst ha
      exact he t u a hoo
    | meas m => exact hm m hoo) c hc
  rcases hP with ⟨n, hn, e⟩ | ⟨e, hn, e'⟩
  · exact (key.1 n hn).2 P e
  · exact (key.2 e hn).2 P e'

/-- A position reading of a sensor whose offset is the vector at position `pip` of the state, with
positive definite noise. -/
def Reading.IsPosition (aux : List VarDesc) (m : Reading) : Prop :=
  ∃ (pip fixed : Nat) (en : Bool) (thr : ℝ) (z : V3 ℝ) (R : M33 ℝ) (h : pip < (coreDef aux).length),
    m = .position pip fixed en thr z R ∧ ((coreDef aux)[pip]).kind = .vec 3 ∧ R.PosDef

theorem getVec_some {D : List VarDesc} (s : Vars ℝ D) {i n : Nat} (hi : i < D.length)
    (hk : D[i].kind = .vec n) : ∃ l, getVec s i n = some l := by
  unfold getVec
  rw [dif_pos hi]
  have : ∀ (k : Kind) (v : Val ℝ k), k = .vec n → ∃ l, vecOf n k v = some l := by
    rintro k v rfl
    exact ⟨v, by simp [vecOf]⟩
  exact this _ _ hk

theorem position_defined (ho : Ordered aux) {m : Reading} (hm : m.IsPosition aux)
    (s : Vars ℝ (coreDef aux)) : (∃ H, (m.meas (aux := aux)).H s = some H) ∧
      (∃ r, (m.meas (aux := aux)).r s = some r) ∧
      (∀ i ∈ (m.meas (aux := aux)).cleared, i < (coreDef aux).length) ∧
      (m.meas (aux := aux)).R.PosDef := by
  obtain ⟨pip, fixed, en, thr, z, R, h, rfl, hk, hR⟩ := hm
  have hix := indexingErrors_eq_zero.2 ho
  obtain ⟨l, hl⟩ := getVec_some s h hk
  have h0 : 0 < (coreDef aux).length := by simp [coreDef, coreDescs]
  have h2 : 2 < (coreDef aux).length := by simp [coreDef, coreDescs]
  have e3 : errLen (coreDef aux)[pip] = 3 := by rw [errLen, hk]; rfl
  refine ⟨?_, ?_, ?_, hR⟩
  · change ∃ H, positionH pip fixed s = some H
    simp only [positionH, hl, Option.bind_eq_bind, Option.bind_some]
    rw [putBlock_eq hix _ 0 0 h0 _ 0 (show 0 + 3 ≤ 3 by decide) (by decide), Option.bind_some,
      putBlock_eq hix _ 0 2 h2 _ 0 (show 0 + 3 ≤ 3 by decide) (by decide), Option.bind_some,
      putBlock_eq hix _ 0 pip h _ 0 (by rw [e3]) (by decide)]
    exact ⟨_, rfl⟩
  · change ∃ r, positionResidual pip z s = some r
    simp only [positionResidual, sensorPos, hl, Option.bind_eq_bind, Option.bind_some]
    exact ⟨_, rfl⟩
  · intro i hi
    rw [List.mem_singleton.1 hi]
    exact h

theorem sensorUpdate_rejected {uc : UserCalc (coreDef aux)} {tr : Tracker ℝ}
    {m : SensorMeas (coreDef aux)} {x : Values (coreDef aux)} {P P1 : ErrMat ℝ (coreDef aux)} {H r}
    (h1 : clearFixed m.fixed m.cleared P = some P1) (hH : m.H (toVars x) = some H)
    (hr : m.r (toVars x) = some r)
    (hc : calculateCorrection m.enable m.thr P1 H r m.R = some none) :
    sensorUpdate uc tr m x P = some ⟨tr, x, P1, false, false⟩ := by
  unfold sensorUpdate measUpdate
  simp only [Option.bind_eq_bind, h1, Option.bind_some, hH, hr, hc]

/-- **C101, partial: numbers.**  A filter without non-drifting states (the position filter) that is
fed with positions never turns into NaN: in every run, every buffered and every published state has
a mean and a covariance that are numbers.  Missing: the noises excluded in `C101_psd_partial`, and the
sensors that can fail, where the claim is false (`C101_half_turn_violated`,
`C101_origin_violated`). -/
theorem C101_numbers_partial (ho : Ordered aux) (hd : NoDrift aux) (np : NoiseParams ℝ (coreDef aux))
    (fb : Bool) (hp : PlainQuats (coreDef aux)) (ha : ∀ d ∈ aux, d.isAux)
    (hg : np.gyr = 0 ∧ np.gyrBias = 0) (hb : np.accBias = 0)
    (haux : ∀ s dt i, ((coreDef aux).get i).isAux → (np.qAux s dt i).Q.PosSemidef)
    (env : Env) (os : List (ReadingApi aux))
    (hi : ∀ t s, Api.init t s ∈ os → (∃ v, s.x = some v ∧ UnitQuats (toVars v)) ∧
      ∃ P, s.P = some P ∧ P.PosSemidef)
    (he : ∀ t u e, Api.ext t u (some e) ∈ os → e.q.normSq = 1)
    (hm : ∀ m, Api.meas m ∈ os → m.body.IsPosition aux) (c : ReadingCore aux)
    (hc : Core.apis env (readingKernel np (plainCalc fb)) (Core.new (readingKernel np (plainCalc fb)))
      os = .ok c) :
    (∀ n ∈ c.states.nodes, n.val.x ≠ none ∧ n.val.P ≠ none) ∧
      ∀ e ∈ c.out, e.mean ≠ none ∧ e.cov ≠ none := by
  have hK : KernelInv (readingKernel np (plainCalc fb))
      (fun x => ∃ v, x = some v ∧ UnitQuats (toVars v))
      (fun P => ∃ M, P = some M ∧ M.PosSemidef) (fun m => m.IsPosition aux)
      (fun e => e.q.normSq = 1) := by
    refine ⟨?_, ?_, ?_, ?_, ⟨0, rfl, PosSemidef.zero⟩⟩
    · rintro dt u _ u' ⟨v, rfl, hv⟩
      obtain ⟨s, qn, hs, -⟩ := propagateState_spec (mkState (toVars v) u 0 0)
        (mkState (noInit _) u' (dt : ℝ) 0) (hv iq _ rfl)
      refine ⟨values s.vars, ?_, ?_⟩
      · change (propagateState (mkState (toVars v) u 0 0) (mkState (noInit _) u' (dt : ℝ) 0)).bind
          (fun s => some (values s.vars)) = _
        rw [hs]; rfl
      · exact (propagate_keeps (s := mkState (toVars v) u 0 0) ha hv hs (le_refl 5)).2
    · rintro e _ h1 ⟨v, rfl, hv⟩
      exact ⟨_, rfl, ext_unit e h1 hv⟩
    · rintro dt _ u _ ⟨P, rfl, hP⟩ ⟨v, rfl, hv⟩
      obtain ⟨r, hr, h2⟩ := predict_psd ho np hg hb haux (dt : ℝ) u hP hv
      refine ⟨r.2.1.P, ?_, h2⟩
      change (predictProcessCovariance np (mkState (noInit _) ⟨0, 0⟩ 0 P)
        (mkState (toVars v) u (dt : ℝ) 0) 0).bind (fun r => some r.2.1.P) = _
      rw [hr]; rfl
    · rintro tr m _ _ hm' ⟨v, rfl, hv⟩ ⟨P, rfl, hP⟩
      obtain ⟨⟨H, hH⟩, ⟨r, hr⟩, hcl, hR⟩ := position_defined ho hm' (toVars v)
      obtain ⟨P1, hP1, -⟩ := clearFixed_spec2 ho m.meas.fixed _ hcl P
      have hP1s := clearFixed_psd ho _ _ P P1 hP hP1
      have hsome : ∃ u, sensorUpdate (plainCalc fb) tr m.meas v P = some u := by
        obtain ⟨o, hoo⟩ := Option.isSome_iff_exists.1
          (C28_never_fails P1 hP1s H m.meas.R hR m.meas.enable m.meas.thr r)
        cases o with
        | none =>
          exact ⟨_, sensorUpdate_rejected hP1 hH hr hoo⟩
        | some cp =>
          obtain ⟨s1, h1, -⟩ := C36_correct (toVars v)
            (if fb then zeroBias cp.1 else cp.1) ho hp hv
          have h2 : applyCorrection (plainCalc fb) tr (toVars v) cp.1 = some (tr, s1, false) := by
            rw [applyCorrection_plain hd, h1]
            rfl
          exact ⟨_, sensorUpdate_applied hP1 hH hr hoo h2⟩
      obtain ⟨u, hu⟩ := hsome
      have : (readingKernel np (plainCalc fb)).update tr m (some v) (some P) =
          match sensorUpdate (plainCalc fb) tr m.meas v P with
          | some u => ⟨u.tr, some u.x, some u.P, u.applied, u.fuzzy⟩
          | none => ⟨tr, none, none, true, false⟩ := rfl
      rw [this, hu]
      refine ⟨⟨u.x, rfl, ?_⟩, u.P, rfl, sensorUpdate_psd ho hR.posSemidef hP hu⟩
      obtain ⟨P2, H2, r2, -, -, -, h1 | ⟨c, P', t', vars, fz, -, hc, rfl⟩⟩ := sensorUpdate_cases hu
      · rw [h1.2]; exact hv
      · have := applyCorrection_unit ho hp hv (fun a b c h => h) hc
        exact this
  have key := hK.run env os (fun o hoo => by
    cases o with
    | init t s => exact hi t s hoo
    | imu t u => trivial
    | ext t u e =>
      intro a ha
      subst ha
      exact he t u a hoo
    | meas m => exact hm m hoo) c hc
  refine ⟨fun n hn => ?_, fun e hn => ?_⟩
  · obtain ⟨⟨v, h1, -⟩, P, h2, -⟩ := key.1 n hn
    rw [h1, h2]; exact ⟨by simp, by simp⟩
  · obtain ⟨⟨v, h1, -⟩, P, h2, -⟩ := key.2 e hn
    rw [h1, h2]; exact ⟨by simp, by simp⟩

/-- **C101 is violated with gyro noise.**  A filter at rest, initialised with a zero covariance: the
covariance that is published with the first IMU reading is not symmetric.  See C29. -/
theorem C101_gyro_noise_violated (env : Env) (uc : UserCalc (coreDef [])) :
    ∃ (np : NoiseParams ℝ (coreDef [])) (os : List (ReadingApi [])) (c : ReadingCore []),
      (∀ t s, Api.init t s ∈ os → (∀ v, s.x = some v → UnitQuats (toVars v)) ∧
        ∀ P, s.P = some P → P.PosSemidef) ∧
      0 < np.gyr ∧ np.gyrBias = 0 ∧ np.acc = 0 ∧ np.accBias = 0 ∧
      Core.apis env (readingKernel np uc) (Core.new (readingKernel np uc)) os = .ok c ∧
      ∃ P, c.ShownCov P ∧ Pᵀ ≠ P := by
  have hT : (((1 / 100 : ℚ) : ℝ)) = 1 / 100 := by norm_num
  let np := plainNoise 0 0 (1 / 100) 0
  let v0 : Values (coreDef []) := restValues _
  let u : Input (V3 ℝ) (V3 ℝ) := ⟨![0, 0, 981 / 100], 0⟩
  obtain ⟨c, hc, n, hn, hx, hP⟩ := init_imu (readingKernel np uc) env ⟨u, some v0, some 0⟩ u
    (by simp [readingKernel, sensorKernel, filterKernel, sqNorm3, u]; norm_num)
    (fun _ => rfl)
  obtain ⟨v1, hv1, hq, -, -, hr⟩ := filter_prop_still np uc (1 / 100) u u v0 Quat.normSq_one rfl rfl
  have hv1' : (readingKernel np uc).prop (1 / 100) u (some v0) u = some v1 := hv1
  obtain ⟨Qd, e, -⟩ := predict_apply (indexingErrors_eq_zero.2 ordered_core) np
    (mkState (noInit _) ⟨0, 0⟩ 0 0) (mkState (toVars v1) u ((1 / 100 : ℚ) : ℝ) 0) 0
    (by rw [hT]; norm_num [mkState])
  have hb := fun b b' => core_noise ordered_core np _ _ 0 (Live.fresh _ rfl rfl)
    (by change (0 : ℝ) < ((1 / 100 : ℚ) : ℝ); rw [hT]; norm_num) e b b'
  have hbw : b_w (toVars v1) = 0 := hr ⟨3, by decide⟩ (by decide)
  have hba : b_a (toVars v1) = 0 := hr ⟨4, by decide⟩ (by decide)
  have hq1 : q (toVars v1) = Quat.one := hq
  have hb' : ∀ b b', coreBlock Qd b b' = CalcQ.qBlock (CalcQ.mkIn (1 / 100) Quat.one 0
      ![0, 0, 981 / 100] (fun _ => 0) (fun _ => 0) (fun _ => 1 / 100) (fun _ => 0)) b b' := by
    intro b b'
    refine (hb b b').trans ?_
    change CalcQ.qBlock (CalcQ.mkIn (((1 / 100 : ℚ) : ℝ) - 0) (q (toVars v1)) (0 - b_w (toVars v1))
      (![0, 0, 981 / 100] - b_a (toVars v1)) (fun _ => 0) (fun _ => 0) (fun _ => 1 / 100)
      (fun _ => 0)) b b' = _
    rw [hbw, hba, hq1, hT, sub_zero, sub_zero, sub_zero]
  refine ⟨np, _, c, ?_, by norm_num [np, plainNoise], rfl, rfl, rfl, hc, Qd, .inl ⟨n, hn, ?_⟩,
    fun hs => ?_⟩
  · intro t s h
    simp only [List.mem_cons, List.not_mem_nil, or_false, reduceCtorEq, Api.init.injEq] at h
    rw [h.2]
    refine ⟨fun v hv => ?_, fun P hP => ?_⟩
    · rw [← Option.some.inj hv]
      exact restValues_unit _
    · rw [← Option.some.inj hP]; exact PosSemidef.zero
  · rw [hP]
    change (readingKernel np uc).predP (1 / 100) (some 0) u ((readingKernel np uc).prop (1 / 100) u
      (some v0) u) = _
    rw [hv1']
    change (predictProcessCovariance np (mkState (noInit _) ⟨0, 0⟩ 0 0)
        (mkState (toVars v1) u (((1 / 100 : ℚ)) : ℝ) 0) 0).bind (fun r => some r.2.1.P) = _
    rw [e]
    simp [mkState]
  · have := coreBlock_symm hs 1 2 1 0
    rw [hb', hb', CalcQ.qBlock_1_2, CalcQ.qBlock_2_1] at this
    simp only [of_apply, cons_val] at this
    revert this
    unfold_tmp
    simp [Quat.one]
    try norm_num

/-- **C101 is violated for poses.**  Whatever the noise parameters, the initial state and covariance:
if the filter does not rotate and receives a pose that is half a turn away from its estimate, the
run goes on and the newest state is NaN.  (The residual divides by the real part of the attitude
error, pose_measurement.h:319, and is not checked.) -/
theorem C101_half_turn_violated (np : NoiseParams ℝ (coreDef poseAux))
    (uc : UserCalc (coreDef poseAux)) (ix : PoseIdx) (s1 s2 : Nat → List ℚ → Bool)
    (v : Values (coreDef poseAux)) (hv : (q (toVars v)).normSq = 1) (hw : b_w (toVars v) = 0)
    (hix : 5 ≤ ix.L ∧ 5 ≤ ix.qic ∧ 5 ≤ ix.pic ∧ 5 ≤ ix.qwv ∧ 5 ≤ ix.pwv)
    (pv : PoseView ℝ) (hpv : poseView ix (toVars v) = some pv)
    (P : Option (ErrMat ℝ (coreDef poseAux))) (zp : V3 ℝ) (R : Matrix (Fin 7) (Fin 7) ℝ) :
    let K := fedKernel np uc (poseFeed ix)
    ∃ c', Core.calls ⟨.gnu s1, .gnu s2⟩ K ((Core.new K).init K 1 ⟨⟨![0, 0, 10], 0⟩, some v, P⟩)
      (stillPoseRun ⟨zp, pv.predAtt.mul ⟨0, 1, 0, 0⟩, R⟩) = .ok c' ∧
      ∃ n, c'.states.nodes.getLast? = some n ∧ n.key = 103 / 100 ∧ n.val.x = none := by
  intro K
  set z : PoseMeas ℝ := ⟨zp, pv.predAtt.mul ⟨0, 1, 0, 0⟩, R⟩ with hz
  set s : St (V3 ℝ) (V3 ℝ) (Option (Values (coreDef poseAux)))
    (Option (ErrMat ℝ (coreDef poseAux))) := ⟨⟨![0, 0, 10], 0⟩, some v, P⟩ with hs
  obtain ⟨c', e, -⟩ := C09_times_any_numerics K (fedKernel_allApplied np uc fun _ => rfl)
    (fun m => !(poseFeed ix m).enable) s1 s2 (Core.new K) 1 (by norm_num)
    s _ (stillPoseRun_ok np uc ix z)
  have hq := C40_no_early_alarm np uc (poseFeed ix) ⟨.gnu s1, .gnu s2⟩ (Core.new K) rfl 1
    s (stillPoseRun z) (by simp [stillPoseRun, measOps])
  obtain ⟨old, kept, h1, h2, h3, -⟩ := C09_without_fuzzy_states shipped_checkCompiles.1 np uc
    (poseFeed ix) (poseFeed_plain ix) s1 s2 (Core.new K) 1 (by norm_num)
    s _ (stillPoseRun_ok np uc ix z) c' e hq
  refine ⟨c', e, ?_⟩
  have hlast : (batch (uncheckedKernel np uc (poseFeed ix)) s.x s.P
      ((startLog 1 s.u (Core.new K).lastAmImu).run K.spike (stillPoseRun z))).getLast? =
      (c'.states.nodes.map (fun n => (n.key, n.val))).getLast? := by
    rw [h1, h2, List.getLast?_append]
    cases hk : kept.getLast? with
    | none => exact absurd (List.getLast?_eq_none_iff.1 hk) h3
    | some a => rfl
  have hL : (startLog 1 s.u (Core.new K).lastAmImu).run K.spike (stillPoseRun z) = _ :=
    stillPoseRun_log np uc ix z
  rw [hL] at hlast
  have ht : ∀ z : PoseMeas ℝ, times (⟨[(1, (⟨![0, 0, 10], 0⟩ : Input (V3 ℝ) (V3 ℝ))), (101/100, ⟨![0, 0, 10], 0⟩), (102/100, ⟨![0, 0, 10], 0⟩),
        (103/100, ⟨![0, 0, 10], 0⟩)], [⟨103/100, 0, z⟩], [], ![0, 0, 10]⟩ : Log (V3 ℝ) (V3 ℝ) (PoseMeas ℝ)) =
      [1, 101/100, 102/100, 103/100] := by
    intro z
    change (([1, 101/100, 102/100, 103/100] ++ [target [1, 101/100, 102/100, 103/100] (103/100)]).dedup.insertionSort (· ≤ ·) : List ℚ) = _
    decide +kernel
  have hm : ∀ t : ℚ, measAt [1, 101/100, 102/100, 103/100] [⟨103/100, 0, z⟩] t =
      if 103/100 = t then some z else none := by
    intro t
    have : target [1, 101/100, 102/100, 103/100] (103/100) = 103/100 := by decide +kernel
    simp [measAt, List.find?, this]
    split <;> simp_all
  unfold batch at hlast
  rw [ht] at hlast
  have hw0 : ∀ t, (inputAt [(1, (⟨![0, 0, 10], 0⟩ : Input (V3 ℝ) (V3 ℝ))),
      (101/100, ⟨![0, 0, 10], 0⟩), (51/50, ⟨![0, 0, 10], 0⟩), (103/100, ⟨![0, 0, 10], 0⟩)]
      t).w = 0 := by
    intro t
    simp only [inputAt, inputFrom, between]
    split_ifs <;> simp
  simp only [Log.stamps, List.map, forward, hm] at hlast
  norm_num [Spec.correct] at hlast
  obtain ⟨n, hn, hk, hnv⟩ := hlast
  refine ⟨n, hn, hk, ?_⟩
  have hx := congrArg St.x hnv
  revert hw0
  generalize inputAt [(1, (⟨![0, 0, 10], 0⟩ : Input (V3 ℝ) (V3 ℝ))),
      (101/100, ⟨![0, 0, 10], 0⟩), (51/50, ⟨![0, 0, 10], 0⟩), (103/100, ⟨![0, 0, 10], 0⟩)] = I at hx
  intro hw0
  clear hnv
  have step : ∀ (a b : ℚ) (x : Values (coreDef poseAux)), (q (toVars x)).normSq = 1 →
      b_w (toVars x) = 0 → ∃ x', (uncheckedKernel np uc (poseFeed ix)).prop (1 / 100) (I a) (some x)
        (I b) = some x' ∧ q (toVars x') = q (toVars x) ∧
        ∀ i, ((coreDef poseAux).get i).stype ≠ .coreProp → x' i = x i := by
    intro a b x h1 h2
    obtain ⟨x', e1, e2, -, -, e3⟩ := filter_prop_still np uc (1 / 100) (I a) (I b) x h1
      ((hw0 a).trans h2.symm) ((hw0 b).trans h2.symm)
    exact ⟨x', e1, e2, e3⟩
  obtain ⟨x1, a1, a2, a3⟩ := step 1 (101/100) v hv hw
  obtain ⟨x2, b1, b2, b3⟩ := step (101/100) (51/50) x1 (by rw [a2]; exact hv)
    ((a3 ⟨3, by decide⟩ (by decide)).trans hw)
  obtain ⟨x3, c1, c2, c3⟩ := step (51/50) (103/100) x2 (by rw [b2, a2]; exact hv)
    (((b3 ⟨3, by decide⟩ (by decide)).trans (a3 ⟨3, by decide⟩ (by decide))).trans hw)
  have hsx : s.x = some v := rfl
  rw [hsx, a1, b1, c1] at hx
  rw [hx]
  refine unchecked_no_residual np uc _ (poseFeed ix z) x3 _ ?_
  have haux : ∀ i : Fin (coreDef poseAux).length, 5 ≤ i.val →
      ((coreDef poseAux).get i).stype ≠ .coreProp := by decide
  have hrest : ∀ i : Fin (coreDef poseAux).length, 5 ≤ i.val → toVars x3 i = toVars v i :=
    fun i hi => congrArg (fun a => (⟨a, 0, false⟩ : StateVar ℝ _))
      ((c3 i (haux i hi)).trans ((b3 i (haux i hi)).trans (a3 i (haux i hi))))
  have hgv : ∀ i n, 5 ≤ i → getVec (toVars x3) i n = getVec (toVars v) i n := by
    intro i n hi
    unfold getVec
    split
    · rw [hrest _ hi]
    · rfl
  have hgq : ∀ i, 5 ≤ i → getQuat (toVars x3) i = getQuat (toVars v) i := by
    intro i hi
    unfold getQuat
    split
    · rw [hrest _ hi]
    · rfl
  have hview : poseView ix (toVars x3) = some { pv with p := p (toVars x3) } := by
    unfold poseView at hpv ⊢
    rw [hgv _ _ hix.1, hgq _ hix.2.1, hgv _ _ hix.2.2.1, hgq _ hix.2.2.2.1, hgv _ _ hix.2.2.2.2,
      c2, b2, a2]
    simp only [Option.bind_eq_bind, Option.bind_eq_some_iff] at hpv ⊢
    obtain ⟨L, h1, qic, h2, pic, h3, qwv, h4, pwv, h5, h6⟩ := hpv
    refine ⟨L, h1, qic, h2, pic, h3, qwv, h4, pwv, h5, ?_⟩
    rw [← Option.some.inj h6]
  change (poseView ix (toVars x3)).bind (fun w => w.residual z.z_p z.z_q) = none
  rw [hview, Option.bind_some]
  unfold PoseView.residual
  have := predAtt_half_turn { pv with p := p (toVars x3) }
  rw [show z.z_q = ({ pv with p := p (toVars x3) } : PoseView ℝ).predAtt.mul ⟨0, 1, 0, 0⟩ from rfl,
    this]
  rfl

theorem readingKernel_fails {np : NoiseParams ℝ (coreDef aux)} {uc : UserCalc (coreDef aux)}
    {tr : Tracker ℝ} {rd : Reading} {x : Values (coreDef aux)} {P : ErrMat ℝ (coreDef aux)}
    (h : sensorUpdate uc tr rd.meas x P = none) :
    ((readingKernel np uc).update tr rd (some x) (some P)).x = none := by
  have : (readingKernel np uc).update tr rd (some x) (some P) =
      match sensorUpdate uc tr rd.meas x P with
      | some u => ⟨u.tr, some u.x, some u.P, u.applied, u.fuzzy⟩
      | none => ⟨tr, none, none, true, false⟩ := rfl
  rw [this, h]

/-- **C101 is violated for distances.**  With the estimate at the origin of the instrument and any
covariance, a distance reading makes the state NaN. -/
theorem C101_origin_violated (np : NoiseParams ℝ (coreDef positionAux))
    (uc : UserCalc (coreDef positionAux)) (tr : Tracker ℝ) (fixed : Nat) (en : Bool) (thr z n : ℝ)
    (P : ErrMat ℝ (coreDef positionAux)) :
    ((readingKernel np uc).update tr (.distance 5 fixed en thr z n)
      (some (restValues (coreDef positionAux))) (some P)).x = none := by
  have hH : (Reading.meas (.distance 5 fixed en thr z n)).H
      (toVars (restValues (coreDef positionAux))) = none := by
    change distanceH 5 _ = none
    have hp : EKFState.p (toVars (restValues (coreDef positionAux))) = 0 := rfl
    have hl : getVec (toVars (restValues (coreDef positionAux))) 5 3 = some 0 := rfl
    unfold distanceH
    rw [hl]
    simp [hp]
  have h : sensorUpdate uc tr (Reading.meas (.distance 5 fixed en thr z n))
      (restValues (coreDef positionAux)) P = none := by
    unfold sensorUpdate measUpdate
    simp only [Option.bind_eq_bind, hH, Option.bind_none]
    cases clearFixed _ _ P <;> rfl
  exact readingKernel_fails h

/-! ### Non-vacuity -/

/-- A position sensor at the centre of the IMU. -/
noncomputable def posReading (z : V3 ℝ) : Reading := .position 5 0 false 100 z 1

/-- Three IMU readings with rotation, and one late position. -/
noncomputable def posRun (z : V3 ℝ) : List (Op (V3 ℝ) (V3 ℝ) (V3 ℝ)) :=
  [.imu (101/100) ⟨![0, 0, 10], 0⟩, .imu (102/100) ⟨![0, 1, 10], ![1, 0, 0]⟩,
   .imu (103/100) ⟨![0, 0, 9], ![0, 0, 1]⟩, .meas ⟨1025/1000, 0, z⟩]

/-- Accelerometer noise only. -/
noncomputable def accNoise (aux : List VarDesc) : NoiseParams ℝ (coreDef aux) :=
  ⟨1 / 10, 0, 0, 0, fun s _ i => { s i with Q := 0 }⟩

/-- The run is possible: three predictions, a late position, an update and a repropagation. -/
theorem posRun_possible (z : V3 ℝ) (s1 s2 : Nat → List ℚ → Bool) :
    ∃ c : ReadingCore positionAux, Core.apis ⟨.gnu s1, .gnu s2⟩
      (readingKernel (accNoise positionAux) (plainCalc false))
      (Core.new (readingKernel (accNoise positionAux) (plainCalc false)))
      (.init 1 ⟨⟨![0, 0, 10], 0⟩, some (restValues _), some 1⟩ ::
        ((posRun z).map (Op.feed posReading)).map Op.toApi) = .ok c ∧
      c.states.nodes.length = 5 := by
  set K := (readingKernel (accNoise positionAux) (plainCalc false)).feed posReading with hK
  have hsp : K.spike ![0, 0, 10] = false ∧ K.spike ![0, 1, 10] = false ∧
      K.spike ![0, 0, 9] = false := by
    refine ⟨?_, ?_, ?_⟩ <;>
      simp [hK, Kernel.feed, readingKernel, sensorKernel, filterKernel, sqNorm3] <;> norm_num
  have hok : (startLog 1 ⟨![0, 0, 10], 0⟩ 0).okRun K.spike (fun _ => true) (posRun z) := by
    obtain ⟨h1, h2, h3⟩ := hsp
    simp [posRun, Log.okRun, Log.ok, startLog, Log.step, Log.addImu, h1, h2, h3, Log.newest,
      Log.stamps, Log.fresh, Log.start, Log.pop]
    norm_num [Log.deliver, Log.stamps, Log.start, Log.newest, abs_lt, lt_abs]
  have hap : K.AllApplied := fedKernel_allApplied (accNoise positionAux) (plainCalc false)
    (f := fun z => (posReading z).meas) fun _ => rfl
  obtain ⟨c', e, old, kept, h1, h2, -, h4⟩ := C09_times_any_numerics K hap (fun _ => true) s1 s2
    (Core.new K) 1 (by norm_num) ⟨⟨![0, 0, 10], 0⟩, some (restValues _), some 1⟩ _ hok
  refine ⟨_, feed_run _ posReading _ _ _ _ c' e, ?_⟩
  have hL : (startLog 1 ⟨![0, 0, 10], 0⟩ (Core.new K).lastAmImu).run K.spike (posRun z) =
      ⟨[(1, ⟨![0, 0, 10], 0⟩), (101/100, ⟨![0, 0, 10], 0⟩), (102/100, ⟨![0, 1, 10], ![1, 0, 0]⟩),
        (103/100, ⟨![0, 0, 9], ![0, 0, 1]⟩)], [⟨1025/1000, 0, z⟩], [], ![0, 1, 10]⟩ := by
    obtain ⟨h1, h2, h3⟩ := hsp
    simp [posRun, Log.run, startLog, Log.step, Log.addImu, h1, h2, h3, Log.pop, Log.lastAcc,
      Log.deliver, Log.newest, Log.start, Log.stamps]
    norm_num
  have ht : times (⟨[(1, ⟨![0, 0, 10], 0⟩), (101/100, ⟨![0, 0, 10], 0⟩),
      (102/100, ⟨![0, 1, 10], ![1, 0, 0]⟩), (103/100, ⟨![0, 0, 9], ![0, 0, 1]⟩)],
      [⟨1025/1000, 0, z⟩], [], ![0, 1, 10]⟩ : Log (V3 ℝ) (V3 ℝ) (V3 ℝ)) =
      [1, 101/100, 102/100, 1025/1000, 103/100] := by
    change (([1, 101/100, 102/100, 103/100] ++
      [target [1, 101/100, 102/100, 103/100] (1025/1000)]).dedup.insertionSort (· ≤ ·) : List ℚ) = _
    decide +kernel
  have hold : old = [] := by
    refine List.eq_nil_iff_forall_not_mem.2 fun e he => ?_
    have h5 := h4 e he
    have h6 : e ∈ old ++ kept := List.mem_append_left _ he
    rw [← h1, hL, ht] at h6
    rw [hL] at h5
    simp [Log.newest, Log.stamps] at h5 h6
    rcases h6 with rfl | rfl | rfl | rfl | rfl <;> norm_num at h5
  rw [hold, hL, ht] at h1
  have h7 := congrArg List.length (h2.trans h1.symm)
  simpa [KHom.core, Buf.shift] using h7

/-- Non-vacuity: the theorems apply to this run. -/
example (z : V3 ℝ) (s1 s2 : Nat → List ℚ → Bool) : ∃ c : ReadingCore positionAux,
    c.states.nodes.length = 5 ∧
    (∀ n ∈ c.states.nodes, ∃ P, n.val.P = some P ∧ P.PosSemidef) ∧
    ∀ n ∈ c.states.nodes, n.val.x ≠ none ∧ n.val.P ≠ none := by
  obtain ⟨c, hc, hl⟩ := posRun_possible z s1 s2
  have hg : (accNoise positionAux).gyr = 0 ∧ (accNoise positionAux).gyrBias = 0 := ⟨rfl, rfl⟩
  have haux : ∀ s dt i, ((coreDef positionAux).get i).isAux →
      ((accNoise positionAux).qAux s dt i).Q.PosSemidef := fun _ _ _ _ => PosSemidef.zero
  have hm : ∀ m, Api.meas m ∈ (Api.init 1 ⟨⟨![0, 0, 10], 0⟩, some (restValues _), some 1⟩ ::
        ((posRun z).map (Op.feed posReading)).map Op.toApi : List (ReadingApi positionAux)) →
      m.body = posReading z := by
    intro m hm
    simp [posRun, Op.feed, Op.toApi] at hm
    rw [hm]
  have he : ∀ t u e, Api.ext t u (some e) ∈
      (Api.init 1 ⟨⟨![0, 0, 10], 0⟩, some (restValues _), some 1⟩ ::
        ((posRun z).map (Op.feed posReading)).map Op.toApi : List (ReadingApi positionAux)) →
      e.q.normSq = 1 := by
    intro t u e h
    simp [posRun, Op.feed, Op.toApi] at h
  have hi : ∀ t s, Api.init t s ∈
      (Api.init 1 ⟨⟨![0, 0, 10], 0⟩, some (restValues _), some 1⟩ ::
        ((posRun z).map (Op.feed posReading)).map Op.toApi : List (ReadingApi positionAux)) →
      s.x = some (restValues _) ∧ s.P = some 1 := by
    intro t s h
    simp [posRun, Op.feed, Op.toApi] at h
    rw [h.2]
    exact ⟨rfl, rfl⟩
  have hnum := C101_numbers_partial positionDef_ok.1 noDrift_position (accNoise positionAux) false
    positionDef_ok.2.quats (by decide) hg rfl haux _ _
    (fun t s h => ⟨⟨_, (hi t s h).1, restValues_unit _⟩, _, (hi t s h).2, PosSemidef.one⟩) he
    (fun m h => ⟨5, 0, false, 100, z, 1, by decide, hm m h, rfl, PosDef.one⟩) c hc
  refine ⟨c, hl, fun n hn => ?_, hnum.1⟩
  obtain ⟨P, hP⟩ := Option.ne_none_iff_exists'.1 (hnum.1 n hn).2
  refine ⟨P, hP, C101_psd_partial positionDef_ok.1 (accNoise positionAux) (plainCalc false)
    positionDef_ok.2.quats (by decide) (fun _ _ _ h => h) hg rfl haux _ _
    (fun t s h => ⟨fun v hv => ?_, fun P hP => ?_⟩) he (fun m h => ?_) c hc P
    (.inl ⟨n, hn, hP⟩)⟩
  · rw [(hi t s h).1] at hv
    rw [← Option.some.inj hv]; exact restValues_unit _
  · rw [(hi t s h).2] at hP
    rw [← Option.some.inj hP]; exact PosSemidef.one
  · rw [hm m h]; exact PosSemidef.one

end MSF
