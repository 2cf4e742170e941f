import Verif.Lemmas.Agree
import Verif.Props.RunNumbers

/-!
# C102: a measurement that agrees with the estimate does not move it
-/

namespace MSF

open Matrix EKFState Spec

variable {aux : List VarDesc} {M : Type}

/-- **C102, partial.**  Two runs of the same filter with the same IMU readings, one with measurements
and one without.  If every measurement that counts is within 1 ms of an IMU reading and has residual
zero at the state predicted from the IMU readings alone, both runs end with the same newest state
(or the first is NaN, see C101).  This holds for late measurements and repropagation as well.
Missing: measurements between IMU readings, where the claim is false
(`C102_between_violated`). -/
theorem C102_agreeing_partial (hD : CheckCompiles (coreDef aux)) (ho : Ordered aux)
    (hp : PlainVars (coreDef aux)) (ha : ∀ d ∈ aux, d.isAux)
    (np : NoiseParams ℝ (coreDef aux)) (uc : UserCalc (coreDef aux)) (huc : uc.augment 0 = 0)
    (f : M → SensorMeas (coreDef aux)) (hf : PlainFeed f) (s1 s2 : Nat → List ℚ → Bool)
    (c : Core (V3 ℝ) (V3 ℝ) (Option (Values (coreDef aux))) (Option (ErrMat ℝ (coreDef aux))) M
      (Tracker ℝ)) (t : ℚ) (ht : 0 < t)
    (s : St (V3 ℝ) (V3 ℝ) (Option (Values (coreDef aux))) (Option (ErrMat ℝ (coreDef aux))))
    (hs : ∀ v, s.x = some v → UnitQuats (toVars v)) (ops : List (Op (V3 ℝ) (V3 ℝ) M))
    (hok : (startLog t s.u c.lastAmImu).okRun (fedKernel np uc f).spike (fun m => !(f m).enable) ops)
    (hnear : ∀ m ∈ ((startLog t s.u c.lastAmImu).run (fedKernel np uc f).spike ops).hist,
      ∃ k ∈ ((startLog (M := M) t s.u c.lastAmImu).run (fedKernel np uc f).spike ops).stamps,
        |k - m.time| ≤ 1 / 1000)
    (hagree : ∀ m ∈ ((startLog t s.u c.lastAmImu).run (fedKernel np uc f).spike ops).hist,
      ∀ e ∈ batch (fedKernel np uc f) s.x s.P
        ((startLog t s.u c.lastAmImu).run (fedKernel np uc f).spike (imuOnly ops)),
      e.1 = target ((startLog (M := M) t s.u c.lastAmImu).run (fedKernel np uc f).spike ops).stamps
        m.time → ∀ v, e.2.x = some v → (f m.body).r (toVars v) = some 0 ∧
          values (uc.sanity (toVars v) (toVars v) 0) = v)
    (c1 c2 : Core (V3 ℝ) (V3 ℝ) (Option (Values (coreDef aux))) (Option (ErrMat ℝ (coreDef aux))) M
      (Tracker ℝ))
    (h1 : Core.calls ⟨.gnu s1, .gnu s2⟩ (fedKernel np uc f) (c.init (fedKernel np uc f) t s) ops =
      .ok c1)
    (hq : Core.QuietRun ⟨.gnu s1, .gnu s2⟩ (fedKernel np uc f) (c.init (fedKernel np uc f) t s) ops)
    (h2 : Core.calls ⟨.gnu s1, .gnu s2⟩ (fedKernel np uc f) (c.init (fedKernel np uc f) t s)
      (imuOnly ops) = .ok c2) :
    ∃ n1 n2, c1.states.nodes.getLast? = some n1 ∧ c2.states.nodes.getLast? = some n2 ∧
      n1.key = n2.key ∧ n1.val.u = n2.val.u ∧ (n1.val.x = none ∨ n1.val.x = n2.val.x) := by
  set K := fedKernel np uc f with hK
  set U := uncheckedKernel np uc f with hU
  have hfz : c.fuzzy = false := hq [] (c.init K t s) List.nil_prefix rfl
  have hL : (startLog t s.u c.lastAmImu).run K.spike (imuOnly ops) =
      ((startLog (M := M) t s.u c.lastAmImu).run K.spike ops).bare :=
    run_imuOnly K.spike ops (startLog t s.u c.lastAmImu)
  have hok2 : (startLog t s.u c.lastAmImu).okRun K.spike (fun m => !(f m).enable) (imuOnly ops) :=
    okRun_imuOnly K.spike _ ops (startLog t s.u c.lastAmImu) hok
  have hq2 := C40_no_early_alarm np uc f ⟨.gnu s1, .gnu s2⟩ c hfz t s (imuOnly ops)
    (by rw [measOps_imuOnly]; exact Nat.zero_le _)
  obtain ⟨o1, k1, a1, a2, a3, -⟩ := C09_without_fuzzy_states hD np uc f hf s1 s2 c t ht s ops hok c1
    h1 hq
  obtain ⟨o2, k2, b1, b2, b3, -⟩ := C09_without_fuzzy_states hD np uc f hf s1 s2 c t ht s _ hok2 c2
    h2 hq2
  rw [← hK, hL] at b1
  rw [hL] at hagree
  have hbare := batch_bare (K := K) (K' := U) rfl rfl s.x s.P
    ((startLog (M := M) t s.u c.lastAmImu).run K.spike ops)
  rw [hbare] at hagree
  have hunit := batch_inv (K := U) (J := fun x => ∀ v, x = some v → UnitQuats (toVars v))
    (fun dt u x u' hx v h => filter_prop_unit ha np uc dt u x u' hx v h) s.x s.P hs
    ((startLog (M := M) t s.u c.lastAmImu).run K.spike ops)
  have hrel := batch_rel (K := U) (R := fun x y => x = none ∨ x = y) (fun x => .inr rfl)
    (by
      rintro dt u x y u' (rfl | rfl)
      · exact .inl rfl
      · exact .inr rfl) s.x s.P ((startLog (M := M) t s.u c.lastAmImu).run K.spike ops) hnear
    (by
      intro m hm e he het x P hx
      cases hex : e.2.x with
      | none =>
        rw [hex] at hx
        have : x = none := by rcases hx with h | h <;> exact h
        rw [this]
        exact .inl rfl
      | some v =>
        rw [hex] at hx
        obtain ⟨g1, g2⟩ := hagree m hm e he het v hex
        exact unchecked_zero np ho hp huc _ (hunit e he v hex) g2 g1 x hx P)
  have hne : batch U s.x s.P ((startLog (M := M) t s.u c.lastAmImu).run K.spike ops) ≠ [] := by
    rw [a1]
    simp [a3]
  obtain ⟨e1, e2, g1, g2, g3⟩ := forall₂_getLast? hrel hne
  have hlast : ∀ {o k : List (ℚ × St (V3 ℝ) (V3 ℝ) (Option (Values (coreDef aux)))
      (Option (ErrMat ℝ (coreDef aux))))} {e}, k ≠ [] → (o ++ k).getLast? = some e →
      k.getLast? = some e := by
    intro o k e hk h
    rw [List.getLast?_append] at h
    cases hk' : k.getLast? with
    | none => exact absurd (List.getLast?_eq_none_iff.1 hk') hk
    | some a => rw [hk'] at h; simpa using h
  rw [a1] at g1
  rw [← hU] at b1
  rw [b1] at g2
  have g1' := hlast a3 g1
  have g2' := hlast b3 g2
  rw [← a2, List.getLast?_map] at g1'
  rw [← b2, List.getLast?_map] at g2'
  obtain ⟨n1, hn1, rfl⟩ := Option.map_eq_some_iff.1 g1'
  obtain ⟨n2, hn2, rfl⟩ := Option.map_eq_some_iff.1 g2'
  exact ⟨n1, n2, hn1, hn2, g3⟩

/-! ### Runs of the position filter -/

/-- The position sensor of `posReading`, as handler settings. -/
noncomputable def posFeed (z : V3 ℝ) : SensorMeas (coreDef positionAux) := (posReading z).meas

/-- Three IMU readings, the last with more thrust, and a position stamped `τ`. -/
noncomputable def thrustRun (τ : ℚ) (z : V3 ℝ) : List (Op (V3 ℝ) (V3 ℝ) (V3 ℝ)) :=
  [.imu (101/100) ⟨![0, 0, 10], 0⟩, .imu (102/100) ⟨![0, 0, 10], 0⟩,
   .imu (103/100) ⟨![0, 0, 12], 0⟩, .meas ⟨τ, 0, z⟩]

/-- The filter of the runs: accelerometer noise, all biases estimated. -/
noncomputable abbrev thrustKernel :=
  fedKernel (accNoise positionAux) (plainCalc false) posFeed

/-- At rest with unit covariance. -/
noncomputable abbrev restSt (aux : List VarDesc) : St (V3 ℝ) (V3 ℝ)
    (Option (Values (coreDef aux))) (Option (ErrMat ℝ (coreDef aux))) :=
  ⟨⟨![0, 0, 10], 0⟩, some (restValues _), some 1⟩

theorem thrust_spike : thrustKernel.spike ![0, 0, 10] = false ∧
    thrustKernel.spike ![0, 0, 12] = false := by
  constructor <;>
    simp [fedKernel, sensorKernel, filterKernel, sqNorm3] <;> norm_num

theorem thrustRun_log (τ : ℚ) (h1 : 102 / 100 < τ) (h2 : τ ≤ 103 / 100) (z : V3 ℝ) :
    (startLog 1 ⟨![0, 0, 10], 0⟩ 0).run thrustKernel.spike (thrustRun τ z) =
      ⟨[(1, ⟨![0, 0, 10], 0⟩), (101/100, ⟨![0, 0, 10], 0⟩), (102/100, ⟨![0, 0, 10], 0⟩),
        (103/100, ⟨![0, 0, 12], 0⟩)], [⟨τ, 0, z⟩], [], ![0, 0, 10]⟩ := by
  obtain ⟨e1, e2⟩ := thrust_spike
  have h3 : ¬ 103 / 100 < τ := not_lt.2 h2
  have h4 : ¬ τ < 1 := by linarith
  simp [thrustRun, Log.run, startLog, Log.step, Log.addImu, e1, e2, Log.pop, Log.lastAcc, Log.deliver,
    Log.newest, Log.start, Log.stamps, h3, h4]

theorem thrustRun_ok (τ : ℚ) (h1 : 102 / 100 < τ) (h2 : τ ≤ 103 / 100) (z : V3 ℝ) :
    (startLog 1 ⟨![0, 0, 10], 0⟩ 0).okRun thrustKernel.spike (fun m => !(posFeed m).enable)
      (thrustRun τ z) := by
  obtain ⟨e1, e2⟩ := thrust_spike
  have h4 : ∀ z, (posFeed z).enable = false := fun _ => rfl
  simp [thrustRun, Log.okRun, Log.ok, startLog, Log.step, Log.addImu, e1, e2, h4, Log.newest,
    Log.stamps, Log.fresh, Log.start, Log.pop]
  norm_num
  intro _ _
  linarith

/-- The run is possible, raises no alarm, and its states are numbers. -/
theorem thrustRun_possible (τ : ℚ) (h1 : 102 / 100 < τ) (h2 : τ ≤ 103 / 100) (z : V3 ℝ)
    (s1 s2 : Nat → List ℚ → Bool) :
    ∃ c, Core.calls ⟨.gnu s1, .gnu s2⟩ thrustKernel
      ((Core.new thrustKernel).init thrustKernel 1 (restSt _)) (thrustRun τ z) = .ok c ∧
      Core.QuietRun ⟨.gnu s1, .gnu s2⟩ thrustKernel
        ((Core.new thrustKernel).init thrustKernel 1 (restSt _)) (thrustRun τ z) ∧
      ∀ n ∈ c.states.nodes, n.val.x ≠ none := by
  obtain ⟨c', e, -⟩ := C09_times_any_numerics thrustKernel (fedKernel_allApplied _ _ fun _ => rfl)
    (fun m => !(posFeed m).enable) s1 s2 (Core.new thrustKernel) 1 (by norm_num) (restSt _) _
    (thrustRun_ok τ h1 h2 z)
  refine ⟨c', e, C40_no_early_alarm _ _ posFeed ⟨.gnu s1, .gnu s2⟩ (Core.new thrustKernel) rfl 1
    (restSt _) (thrustRun τ z) (by simp [thrustRun, measOps]), fun n hn => ?_⟩
  have hr := feed_run (readingKernel (accNoise positionAux) (plainCalc false)) posReading
    ⟨.gnu s1, .gnu s2⟩ 1 (restSt _) (thrustRun τ z) c' e
  have hnum := C101_numbers_partial positionDef_ok.1 noDrift_position (accNoise positionAux) false
    positionDef_ok.2.quats (by decide) ⟨rfl, rfl⟩ rfl (fun _ _ _ _ => PosSemidef.zero) _ _
    (fun t s h => by
      simp [thrustRun, Op.feed, Op.toApi] at h
      rw [h.2]
      exact ⟨⟨_, rfl, restValues_unit _⟩, _, rfl, PosSemidef.one⟩)
    (fun t u e h => by simp [thrustRun, Op.feed, Op.toApi] at h)
    (fun m h => ⟨5, 0, false, 100, z, 1, by decide, by
      simp [thrustRun, Op.feed, Op.toApi] at h
      rw [h]; rfl, rfl, PosDef.one⟩) _ hr
  have hmem : n.shift (feedHom (readingKernel (accNoise positionAux) (plainCalc false))
      posReading).st 0 ∈ ((feedHom (readingKernel (accNoise positionAux) (plainCalc false))
        posReading).core 0 c').states.nodes := List.mem_map_of_mem hn
  exact (hnum.1 _ hmem).1

/-- One prediction of the position filter without rotation, aux states at rest. -/
def AtRestAux (v : Values (coreDef positionAux)) : Prop :=
  q (toVars v) = Quat.one ∧ ∀ i, ((coreDef positionAux).get i).stype ≠ .coreProp →
    v i = restValues _ i

theorem thrust_step (dt : ℚ) (a a' : V3 ℝ) (v : Values (coreDef positionAux)) (hv : AtRestAux v) :
    ∃ v', thrustKernel.prop dt ⟨a, 0⟩ (some v) ⟨a', 0⟩ = some v' ∧ AtRestAux v' ∧
      EKFState.v (toVars v') = EKFState.v (toVars v) + (dt : ℝ) •
        ((2 : ℝ)⁻¹ • (a' + a) - gravity) ∧
      p (toVars v') = p (toVars v) + (dt : ℝ) •
        ((2 : ℝ)⁻¹ • (EKFState.v (toVars v') + EKFState.v (toVars v))) := by
  have hw : b_w (toVars v) = 0 := hv.2 ⟨3, by decide⟩ (by decide)
  have hb : b_a (toVars v) = 0 := hv.2 ⟨4, by decide⟩ (by decide)
  obtain ⟨v', h1, h2, h3, h4, h5⟩ := filter_prop_still (accNoise positionAux) (plainCalc false) dt
    ⟨a, 0⟩ ⟨a', 0⟩ v (by rw [hv.1]; exact Quat.normSq_one) hw.symm hw.symm
  refine ⟨v', h1, ⟨h2.trans hv.1, fun i hi => (h5 i hi).trans (hv.2 i hi)⟩, ?_, h4⟩
  rw [h3, hb, hv.1]
  simp [one_toRot]

/-- A position measurement of the IMU position has no residual. -/
theorem posFeed_residual (v : Values (coreDef positionAux)) (hv : AtRestAux v) :
    (posFeed (p (toVars v))).r (toVars v) = some 0 := by
  have hp : getVec (toVars v) 5 3 = some 0 :=
    congrArg some (hv.2 ⟨5, by decide⟩ (by decide) : v ⟨5, by decide⟩ = (0 : V3 ℝ))
  change (sensorPos 5 (toVars v)).bind (fun x => some (p (toVars v) - x)) = some 0
  have : sensorPos 5 (toVars v) = some (p (toVars v)) := by
    unfold sensorPos
    rw [hp]
    simp
  rw [this]
  simp

/-- The IMU readings of the runs. -/
noncomputable def thrustImu : List (ℚ × Input (V3 ℝ) (V3 ℝ)) :=
  [(1, ⟨![0, 0, 10], 0⟩), (101/100, ⟨![0, 0, 10], 0⟩), (102/100, ⟨![0, 0, 10], 0⟩),
    (103/100, ⟨![0, 0, 12], 0⟩)]

theorem thrustImu_at : inputAt thrustImu 1 = ⟨![0, 0, 10], 0⟩ ∧
    inputAt thrustImu (101/100) = ⟨![0, 0, 10], 0⟩ ∧ inputAt thrustImu (102/100) = ⟨![0, 0, 10], 0⟩ ∧
    inputAt thrustImu (1025/1000) = ⟨![0, 0, 11], 0⟩ ∧
    inputAt thrustImu (103/100) = ⟨![0, 0, 12], 0⟩ := by
  refine ⟨?_, ?_, ?_, ?_, ?_⟩ <;>
    norm_num [thrustImu, inputAt, inputFrom, between, Rat.smul_def]

theorem thrustRun_times (z : V3 ℝ) :
    times (⟨thrustImu, [⟨1025/1000, 0, z⟩], [], ![0, 0, 10]⟩ : Log (V3 ℝ) (V3 ℝ) (V3 ℝ)) =
      [1, 101/100, 102/100, 1025/1000, 103/100] ∧
    times (⟨thrustImu, [⟨103/100, 0, z⟩], [], ![0, 0, 10]⟩ : Log (V3 ℝ) (V3 ℝ) (V3 ℝ)) =
      [1, 101/100, 102/100, 103/100] ∧
    times (⟨thrustImu, [], [], ![0, 0, 10]⟩ : Log (V3 ℝ) (V3 ℝ) (V3 ℝ)) =
      [1, 101/100, 102/100, 103/100] := by
  refine ⟨?_, ?_, ?_⟩
  · change (([1, 101/100, 102/100, 103/100] ++
      [target [1, 101/100, 102/100, 103/100] (1025/1000)]).dedup.insertionSort (· ≤ ·) : List ℚ) = _
    decide +kernel
  · change (([1, 101/100, 102/100, 103/100] ++
      [target [1, 101/100, 102/100, 103/100] (103/100)]).dedup.insertionSort (· ≤ ·) : List ℚ) = _
    decide +kernel
  · change (([1, 101/100, 102/100, 103/100] ++ ([] : List ℚ)).dedup.insertionSort (· ≤ ·) : List ℚ) = _
    decide +kernel

/-- **C102 is violated between IMU readings.**  A position stamped halfway between the last two IMU
readings and equal to the position predicted for that time: the newest position still differs from
the one of the run without the measurement, because the inserted state changes the integration. -/
theorem C102_between_violated (s1 s2 : Nat → List ℚ → Bool) :
    ∃ z c1 c2 n n1 n2 v v1 v2,
      Core.calls ⟨.gnu s1, .gnu s2⟩ thrustKernel
        ((Core.new thrustKernel).init thrustKernel 1 (restSt _)) (thrustRun (1025/1000) z) = .ok c1 ∧
      Core.QuietRun ⟨.gnu s1, .gnu s2⟩ thrustKernel
        ((Core.new thrustKernel).init thrustKernel 1 (restSt _)) (thrustRun (1025/1000) z) ∧
      Core.calls ⟨.gnu s1, .gnu s2⟩ thrustKernel
        ((Core.new thrustKernel).init thrustKernel 1 (restSt _))
        (imuOnly (thrustRun (1025/1000) z)) = .ok c2 ∧
      (n ∈ c2.states.nodes ∧ n.key = 102/100 ∧
        thrustKernel.prop (1025/1000 - n.key) n.val.u n.val.x ⟨![0, 0, 11], 0⟩ = some v ∧
        (posFeed z).r (toVars v) = some 0) ∧
      c1.states.nodes.getLast? = some n1 ∧ c2.states.nodes.getLast? = some n2 ∧
      n1.key = 103/100 ∧ n2.key = 103/100 ∧ n1.val.x = some v1 ∧ n2.val.x = some v2 ∧
      p (toVars v1) - p (toVars v2) = ![0, 0, -1/80000] := by
  have hrest : AtRestAux (restValues _) := ⟨rfl, fun _ _ => rfl⟩
  obtain ⟨x1, a1, ha, -⟩ := thrust_step (1/100) ![0, 0, 10] ![0, 0, 10] _ hrest
  obtain ⟨x2, b1, hb, -⟩ := thrust_step (1/100) ![0, 0, 10] ![0, 0, 10] x1 ha
  obtain ⟨xm, m1, hm, m2, m3⟩ := thrust_step (5/1000) ![0, 0, 10] ![0, 0, 11] x2 hb
  obtain ⟨x3, d1, hd, d2, d3⟩ := thrust_step (5/1000) ![0, 0, 11] ![0, 0, 12] xm hm
  obtain ⟨x4, e1, he, e2, e3⟩ := thrust_step (1/100) ![0, 0, 10] ![0, 0, 12] x2 hb
  set z := p (toVars xm) with hz
  obtain ⟨c1, h1, hq1, hn1⟩ := thrustRun_possible (1025/1000) (by norm_num) (by norm_num) z s1 s2
  have hok := thrustRun_ok (1025/1000) (by norm_num) (by norm_num) z
  have hok2 := okRun_imuOnly thrustKernel.spike _ _ _ hok
  obtain ⟨c2, h2, -⟩ := C09_times_any_numerics thrustKernel (fedKernel_allApplied _ _ fun _ => rfl)
    (fun m => !(posFeed m).enable) s1 s2 (Core.new thrustKernel) 1 (by norm_num) (restSt _) _ hok2
  have hq2 := C40_no_early_alarm (accNoise positionAux) (plainCalc false) posFeed
    ⟨.gnu s1, .gnu s2⟩ (Core.new thrustKernel) rfl 1 (restSt _) (imuOnly (thrustRun (1025/1000) z)) (by rw [measOps_imuOnly]; exact Nat.zero_le _)
  obtain ⟨o1, k1, r1, r2, r3, -⟩ := C09_without_fuzzy_states shipped_checkCompiles.2.2.2
    (accNoise positionAux) (plainCalc false) posFeed (fun _ => .inl rfl) s1 s2 (Core.new thrustKernel) 1
    (by norm_num) (restSt _) _ hok c1 h1 hq1
  obtain ⟨o2, k2, t1, t2, t3, t4⟩ := C09_without_fuzzy_states shipped_checkCompiles.2.2.2
    (accNoise positionAux) (plainCalc false) posFeed (fun _ => .inl rfl) s1 s2 (Core.new thrustKernel) 1
    (by norm_num) (restSt _) _ hok2 c2 h2 hq2
  have hlast : ∀ {o k : List (ℚ × St (V3 ℝ) (V3 ℝ) (Option (Values (coreDef positionAux)))
      (Option (ErrMat ℝ (coreDef positionAux))))}, k ≠ [] → (o ++ k).getLast? = k.getLast? := by
    intro o k hk
    rw [List.getLast?_append]
    cases hk' : k.getLast? with
    | none => exact absurd (List.getLast?_eq_none_iff.1 hk') hk
    | some a => rfl
  have hL := thrustRun_log (1025/1000) (by norm_num) (by norm_num) z
  have hL2 : (startLog 1 ⟨![0, 0, 10], 0⟩ 0).run thrustKernel.spike
      (imuOnly (thrustRun (1025/1000) z)) = _ := run_imuOnly _ _ (startLog 1 ⟨![0, 0, 10], 0⟩ 0)
  rw [hL] at hL2
  change batch (uncheckedKernel (accNoise positionAux) (plainCalc false) posFeed) _ _
    ((startLog 1 ⟨![0, 0, 10], 0⟩ 0).run thrustKernel.spike _) = _ at r1 t1
  rw [hL] at r1
  rw [hL2] at t1
  change batch _ _ _ ⟨thrustImu, _, _, _⟩ = _ at r1
  change batch _ _ _ ⟨thrustImu, [], [], ![0, 0, 10]⟩ = _ at t1
  obtain ⟨i1, i2, i3, i4, i5⟩ := thrustImu_at
  have hmeas : ∀ t : ℚ, measAt [1, 101/100, 102/100, 103/100] [⟨1025/1000, 0, z⟩] t =
      if 1025/1000 = t then some z else none := by
    intro t
    have : target [1, 101/100, 102/100, 103/100] (1025/1000) = 1025/1000 := by decide +kernel
    simp [measAt, List.find?, this]
    split <;> simp_all
  have hst : Log.stamps (⟨thrustImu, [⟨1025/1000, 0, z⟩], [], ![0, 0, 10]⟩ :
    Log (V3 ℝ) (V3 ℝ) (V3 ℝ)) = [1, 101/100, 102/100, 103/100] := rfl
  unfold batch at r1 t1
  rw [(thrustRun_times z).1] at r1
  rw [(thrustRun_times z).2.2] at t1
  have q1 := hmeas 1
  have q2 := hmeas (101/100)
  have q3 := hmeas (102/100)
  have q4 := hmeas (1025/1000)
  have q5 := hmeas (103/100)
  rw [if_neg (by norm_num)] at q1 q2 q3 q5
  rw [if_pos rfl] at q4
  set U := uncheckedKernel (accNoise positionAux) (plainCalc false) posFeed with hU
  have f1 : U.prop (101/100 - 1) ⟨![0, 0, 10], 0⟩ (some (restValues _)) ⟨![0, 0, 10], 0⟩ =
      some x1 := by
    rw [show (101/100 - 1 : ℚ) = 1/100 by norm_num]; exact a1
  have f2 : U.prop (102/100 - 101/100) ⟨![0, 0, 10], 0⟩ (some x1) ⟨![0, 0, 10], 0⟩ =
      some x2 := by
    rw [show (102/100 - 101/100 : ℚ) = 1/100 by norm_num]; exact b1
  have f3 : U.prop (1025/1000 - 102/100) ⟨![0, 0, 10], 0⟩ (some x2) ⟨![0, 0, 11], 0⟩ =
      some xm := by
    rw [show (1025/1000 - 102/100 : ℚ) = 5/1000 by norm_num]; exact m1
  have f4 : U.prop (103/100 - 1025/1000) ⟨![0, 0, 11], 0⟩ (some xm) ⟨![0, 0, 12], 0⟩ =
      some x3 := by
    rw [show (103/100 - 1025/1000 : ℚ) = 5/1000 by norm_num]; exact d1
  have f5 : U.prop (103/100 - 102/100) ⟨![0, 0, 10], 0⟩ (some x2) ⟨![0, 0, 12], 0⟩ =
      some x4 := by
    rw [show (103/100 - 102/100 : ℚ) = 1/100 by norm_num]; exact e1
  simp only [forward, i1, i2, i3, i4, i5, hst, q1, q2, q3, q4, q5, Spec.correct, f1, f2, f3, f5,
    show ∀ t : ℚ, ∀ ks : List ℚ, measAt (M := V3 ℝ) ks [] t = none from fun _ _ => rfl] at r1 t1
  have g1 := congrArg List.getLast? r1
  have g2 := congrArg List.getLast? t1
  rw [hlast r3, ← r2, List.getLast?_map] at g1
  rw [hlast t3, ← t2, List.getLast?_map] at g2
  simp only [List.getLast?_cons_cons, List.getLast?_singleton] at g1 g2
  obtain ⟨n1, hn1', w1⟩ := Option.map_eq_some_iff.1 g1.symm
  obtain ⟨n2, hn2', w2⟩ := Option.map_eq_some_iff.1 g2.symm
  have kx1 := congrArg Prod.fst w1
  have kx2 := congrArg Prod.fst w2
  have vx1 := congrArg (fun e => e.2.x) w1
  have vx2 := congrArg (fun e => e.2.x) w2
  simp only at kx1 kx2 vx1 vx2
  have unit : ∀ (dt : ℚ) (x : Values (coreDef positionAux)) (a a' : V3 ℝ)
      (y : Values (coreDef positionAux)), UnitQuats (toVars x) →
      thrustKernel.prop dt ⟨a, 0⟩ (some x) ⟨a', 0⟩ = some y → UnitQuats (toVars y) :=
    fun dt x a a' y hx h => filter_prop_unit (by decide) (accNoise positionAux) (plainCalc false) dt
      ⟨a, 0⟩ (some x) ⟨a', 0⟩ (fun v hv => by rw [← Option.some.inj hv]; exact hx) y h
  have hx3 : n1.val.x = some x3 := by
    have hne := hn1 n1 (List.mem_of_getLast? hn1')
    revert vx1
    generalize U.predP (1025/1000 - 102/100) _ _ _ = P0
    intro vx1
    rcases unchecked_zero (accNoise positionAux) (uc := plainCalc false) positionDef_ok.1
      positionDef_ok.2 rfl U.tr0 (m := posFeed z) (x := xm)
      (unit _ x2 _ _ xm (unit _ x1 _ _ x2 (unit _ _ _ _ x1 (restValues_unit _) a1) b1) m1) rfl
      (posFeed_residual xm hm) (some xm) (.inr rfl) P0 with h | h
    · exfalso
      have h' : (U.update U.tr0 z (some xm) P0).x = none := h
      rw [h'] at vx1
      exact hne vx1
    · have h' : (U.update U.tr0 z (some xm) P0).x = some xm := h
      rw [h', f4] at vx1
      exact vx1
  obtain ⟨P2, hmem⟩ : ∃ P, ((102/100 : ℚ), (⟨⟨![0, 0, 10], 0⟩, some x2, P⟩ : St (V3 ℝ) (V3 ℝ)
      (Option (Values (coreDef positionAux))) (Option (ErrMat ℝ (coreDef positionAux))))) ∈
      o2 ++ k2 := by
    rw [← t1]
    exact ⟨_, List.mem_cons_of_mem _ (List.mem_cons_of_mem _ List.mem_cons_self)⟩
  rcases List.mem_append.1 hmem with h | h
  · exfalso
    have := t4 _ h
    change _ < Log.newest ((startLog 1 ⟨![0, 0, 10], 0⟩ 0).run thrustKernel.spike _) - 60 at this
    rw [hL2] at this
    norm_num [Log.newest, Log.stamps, Log.bare] at this
  rw [← t2] at h
  obtain ⟨n, hn, hnx⟩ := List.mem_map.1 h
  refine ⟨z, c1, c2, n, n1, n2, xm, x3, x4, h1, hq1, h2, ⟨hn, congrArg Prod.fst hnx, ?_,
    posFeed_residual xm hm⟩, hn1', hn2', kx1, kx2, hx3, vx2, ?_⟩
  · have w3 : n.val.u = _ := congrArg (fun e => e.2.u) hnx
    have w4 : n.val.x = _ := congrArg (fun e => e.2.x) hnx
    have w5 : n.key = _ := congrArg Prod.fst hnx
    rw [w3, w4, w5]
    exact f3
  · rw [d3, m3, e3, d2, m2, e2]
    ext j
    fin_cases j <;> norm_num [gravity] <;> ring

/-- Non-vacuity of `C102_agreeing_partial`: a run with a position that agrees. -/
example (s1 s2 : Nat → List ℚ → Bool) : ∃ z c1 c2 n1 n2,
    Core.calls ⟨.gnu s1, .gnu s2⟩ thrustKernel
      ((Core.new thrustKernel).init thrustKernel 1 (restSt _)) (thrustRun (103/100) z) = .ok c1 ∧
    Core.calls ⟨.gnu s1, .gnu s2⟩ thrustKernel
      ((Core.new thrustKernel).init thrustKernel 1 (restSt _)) (imuOnly (thrustRun (103/100) z)) =
      .ok c2 ∧
    c1.states.nodes.getLast? = some n1 ∧ c2.states.nodes.getLast? = some n2 ∧
    n1.val.x ≠ none ∧ n1.val.x = n2.val.x := by
  have hrest : AtRestAux (restValues _) := ⟨rfl, fun _ _ => rfl⟩
  obtain ⟨x1, a1, ha, -⟩ := thrust_step (1/100) ![0, 0, 10] ![0, 0, 10] _ hrest
  obtain ⟨x2, b1, hb, -⟩ := thrust_step (1/100) ![0, 0, 10] ![0, 0, 10] x1 ha
  obtain ⟨x4, e1, he, -⟩ := thrust_step (1/100) ![0, 0, 10] ![0, 0, 12] x2 hb
  set z := p (toVars x4) with hz
  obtain ⟨c1, h1, hq1, hn1⟩ := thrustRun_possible (103/100) (by norm_num) (by norm_num) z s1 s2
  have hok := thrustRun_ok (103/100) (by norm_num) (by norm_num) z
  have hok2 := okRun_imuOnly thrustKernel.spike _ _ _ hok
  obtain ⟨c2, h2, -⟩ := C09_times_any_numerics thrustKernel (fedKernel_allApplied _ _ fun _ => rfl)
    (fun m => !(posFeed m).enable) s1 s2 (Core.new thrustKernel) 1 (by norm_num) (restSt _) _ hok2
  have hL := thrustRun_log (103/100) (by norm_num) (by norm_num) z
  have hL2 : (startLog 1 ⟨![0, 0, 10], 0⟩ 0).run thrustKernel.spike
      (imuOnly (thrustRun (103/100) z)) = _ := run_imuOnly _ _ (startLog 1 ⟨![0, 0, 10], 0⟩ 0)
  rw [hL] at hL2
  have f1 : thrustKernel.prop (101/100 - 1) ⟨![0, 0, 10], 0⟩ (some (restValues _))
      ⟨![0, 0, 10], 0⟩ = some x1 := by
    rw [show (101/100 - 1 : ℚ) = 1/100 by norm_num]; exact a1
  have f2 : thrustKernel.prop (102/100 - 101/100) ⟨![0, 0, 10], 0⟩ (some x1) ⟨![0, 0, 10], 0⟩ =
      some x2 := by
    rw [show (102/100 - 101/100 : ℚ) = 1/100 by norm_num]; exact b1
  have f5 : thrustKernel.prop (103/100 - 102/100) ⟨![0, 0, 10], 0⟩ (some x2) ⟨![0, 0, 12], 0⟩ =
      some x4 := by
    rw [show (103/100 - 102/100 : ℚ) = 1/100 by norm_num]; exact e1
  obtain ⟨n1, n2, g1, g2, -, -, g3⟩ := C102_agreeing_partial shipped_checkCompiles.2.2.2
    positionDef_ok.1 positionDef_ok.2 (by decide) (accNoise positionAux) (plainCalc false) rfl posFeed
    (fun _ => .inl rfl) s1 s2 (Core.new thrustKernel) 1 (by norm_num) (restSt _)
    (fun v hv => by rw [← Option.some.inj hv]; exact restValues_unit _) (thrustRun (103/100) z) hok
    (fun m hm => by
      change m ∈ ((startLog 1 ⟨![0, 0, 10], 0⟩ 0).run thrustKernel.spike _).hist at hm
      rw [hL] at hm
      rw [List.mem_singleton.1 hm]
      change ∃ k ∈ ((startLog 1 ⟨![0, 0, 10], 0⟩ 0).run thrustKernel.spike _).stamps, _
      rw [hL]
      exact ⟨103/100, by simp [Log.stamps], by norm_num⟩)
    (fun m hm e hmem het v hv => by
      change m ∈ ((startLog 1 ⟨![0, 0, 10], 0⟩ 0).run thrustKernel.spike _).hist at hm
      change e ∈ batch thrustKernel _ _ ((startLog 1 ⟨![0, 0, 10], 0⟩ 0).run thrustKernel.spike _)
        at hmem
      change e.1 = target ((startLog 1 ⟨![0, 0, 10], 0⟩ 0).run thrustKernel.spike _).stamps _ at het
      rw [hL] at hm het
      rw [List.mem_singleton.1 hm] at het ⊢
      have : target [1, 101/100, 102/100, 103/100] (103/100) = 103/100 := by decide +kernel
      have het' : e.1 = 103/100 := het.trans this
      rw [hL2] at hmem
      change e ∈ batch thrustKernel _ _ ⟨thrustImu, [], [], ![0, 0, 10]⟩ at hmem
      obtain ⟨i1, i2, i3, i4, i5⟩ := thrustImu_at
      unfold batch at hmem
      rw [(thrustRun_times z).2.2] at hmem
      simp only [forward, i1, i2, i3, i5, Spec.correct, f1, f2, f5, show ∀ t : ℚ, ∀ ks : List ℚ,
        measAt (M := V3 ℝ) ks [] t = none from fun _ _ => rfl, List.mem_cons,
        List.not_mem_nil, or_false] at hmem
      rcases hmem with rfl | rfl | rfl | rfl
      · norm_num at het'
      · norm_num at het'
      · norm_num at het'
      · rw [← Option.some.inj hv]
        exact ⟨posFeed_residual x4 he, rfl⟩) c1 c2 h1 hq1 h2
  refine ⟨z, c1, c2, n1, n2, h1, h2, g1, g2, hn1 n1 (List.mem_of_getLast? g1), ?_⟩
  rcases g3 with h | h
  · exact absurd h (hn1 n1 (List.mem_of_getLast? g1))
  · exact h

end MSF
