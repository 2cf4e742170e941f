import Verif.Lemmas.Unchecked
import Verif.Props.Batch

/-!
# C09, C10, C11, C12, C20, C40 and C74 for every shipped filter

The pose filters check after every update whether the attitude drifts ("fuzzy tracking"), and undo
part of the update if it does.  Their result then depends on the order in which measurements arrive
(`C74_arrival_order_violated`).  Here:

* which calls succeed, which times are buffered, which measurements wait: independent of the check and
  of all numbers (C12, C20);
* as long as `isfuzzyState_` is never set, the filter is the batch filter without the check (C09, C10,
  C11, C74);
* the check cannot set it before the thirtieth update (C40).
-/

namespace MSF
open Spec

section
variable {A W X C M T E : Type}
variable [AddCommGroup A] [Module ℚ A] [AddCommGroup W] [Module ℚ W]

/-- **C20, any numerics (partial).** If no measurement is rejected, no admissible run reaches undefined
behaviour, whatever the numerical functions compute.  Missing: gated measurements. -/
theorem C20_any_numerics_partial (K : Kernel A W X C M T E) (hK : K.AllApplied) (sure : M → Bool)
    (s1 s2 : Nat → List ℚ → Bool) (c : Core A W X C M T) (t : ℚ) (ht : 0 < t) (s : St A W X C)
    (ops : List (Op A W M)) (hok : (startLog t s.u c.lastAmImu).okRun K.spike sure ops) (e : UB) :
    Core.calls ⟨.gnu s1, .gnu s2⟩ K (c.init K t s) ops ≠ .error e := by
  intro he
  have h := Core.skeleton_calls hK ⟨.gnu s1, .gnu s2⟩ (c.init K t s) ops
  rw [he, Core.skeleton_init] at h
  exact C20_no_undefined_behaviour_partial K.skeleton K.skeleton_regular sure (K.skeleton_sure sure)
    s1 s2 ((skeletonHom hK).core 0 c) t ht ⟨s.u, (), ()⟩ ops hok e h

/-- **C09, any numerics.** If no measurement is rejected, the buffered states have the times and the
inputs of the batch filter, whatever the numerical functions compute. -/
theorem C09_times_any_numerics (K : Kernel A W X C M T E) (hK : K.AllApplied) (sure : M → Bool)
    (s1 s2 : Nat → List ℚ → Bool) (c : Core A W X C M T) (t : ℚ) (ht : 0 < t) (s : St A W X C)
    (ops : List (Op A W M)) (hok : (startLog t s.u c.lastAmImu).okRun K.spike sure ops) :
    ∃ c', Core.calls ⟨.gnu s1, .gnu s2⟩ K (c.init K t s) ops = .ok c' ∧
      ∃ old kept, (times ((startLog t s.u c.lastAmImu).run K.spike ops)).map
          (fun k => (k, inputAt ((startLog t s.u c.lastAmImu).run K.spike ops).imu k)) = old ++ kept ∧
        c'.states.nodes.map (fun n => (n.key, n.val.u)) = kept ∧ kept ≠ [] ∧
        ∀ e ∈ old, e.1 < ((startLog (M := M) t s.u c.lastAmImu).run K.spike ops).newest - 60 := by
  have hb : ∀ (L : Log A W M), (batch K.skeleton () () L).map (fun e => (e.1, e.2.u)) =
      (times L).map (fun k => (k, inputAt L.imu k)) := by
    intro L
    have hfwd : ∀ (f : ℚ → Input A W) (g : ℚ → Option M) (ts : List ℚ) (p),
        (forward K.skeleton f g p ts).map (fun e => (e.1, e.2.u)) = ts.map (fun k => (k, f k)) := by
      intro f g ts
      induction ts with
      | nil => intro p; rfl
      | cons k ts ih =>
        intro p
        unfold forward
        simp only [List.map_cons, ih]
    unfold batch
    cases times L with
    | nil => rfl
    | cons k ks => simp only [List.map_cons, hfwd]
  obtain ⟨c2, e2, old, kept, h1, h2, h3, h4⟩ := C09_delayed_equals_batch K.skeleton
    K.skeleton_regular sure (K.skeleton_sure sure) s1 s2 ((skeletonHom hK).core 0 c) t ht
    ⟨s.u, (), ()⟩ ops hok
  have h := Core.skeleton_calls hK ⟨.gnu s1, .gnu s2⟩ (c.init K t s) ops
  rw [Core.skeleton_init, e2] at h
  cases hc : Core.calls ⟨.gnu s1, .gnu s2⟩ K (c.init K t s) ops with
  | error e => rw [hc] at h; cases h
  | ok c' =>
    rw [hc] at h
    have hc2 : c2 = (skeletonHom hK).core 0 c' := Except.ok.inj h
    refine ⟨c', rfl, old.map (fun e => (e.1, e.2.u)), kept.map (fun e => (e.1, e.2.u)), ?_, ?_, ?_, ?_⟩
    · rw [← List.map_append, ← h1]
      exact (hb _).symm
    · rw [← h2, hc2]
      simp [KHom.core, KHom.st, Buf.shift, Node.shift]
    · simpa using h3
    · intro e he
      obtain ⟨e', he', rfl⟩ := List.mem_map.1 he
      exact h4 e' he'

/-- **C12, any numerics.** If no measurement is rejected, none is lost, whatever the numerical functions
compute. -/
theorem C12_any_numerics (K : Kernel A W X C M T E) (hK : K.AllApplied) (sure : M → Bool)
    (s1 s2 : Nat → List ℚ → Bool) (c : Core A W X C M T) (t : ℚ) (ht : 0 < t) (s : St A W X C)
    (ops ops2 : List (Op A W M))
    (hok : (startLog t s.u c.lastAmImu).okRun K.spike sure (ops ++ ops2)) :
    ∃ c1 c2, Core.calls ⟨.gnu s1, .gnu s2⟩ K (c.init K t s) ops = .ok c1 ∧
      Core.calls ⟨.gnu s1, .gnu s2⟩ K (c.init K t s) (ops ++ ops2) = .ok c2 ∧
      (((startLog t s.u c.lastAmImu).run K.spike ops).hist ++ c1.queue).Perm
        ((startLog t s.u c.lastAmImu).counted K.spike ops) ∧
      ∀ q1 m q2, c1.queue = q1 ++ m :: q2 → (∀ r ∈ imuOps ops2, m.time ≤ r.1) →
        q1.length < (imuOps ops2).length →
        m ∈ ((startLog t s.u c.lastAmImu).run K.spike (ops ++ ops2)).hist := by
  obtain ⟨d1, d2, e1, e2, h1, h2⟩ := C12_future_measurements_wait K.skeleton K.skeleton_regular sure
    (K.skeleton_sure sure) s1 s2 ((skeletonHom hK).core 0 c) t ht ⟨s.u, (), ()⟩ ops ops2 hok
  have g1 := Core.skeleton_calls hK ⟨.gnu s1, .gnu s2⟩ (c.init K t s) ops
  have g2 := Core.skeleton_calls hK ⟨.gnu s1, .gnu s2⟩ (c.init K t s) (ops ++ ops2)
  rw [Core.skeleton_init, e1] at g1
  rw [Core.skeleton_init, e2] at g2
  cases hc1 : Core.calls ⟨.gnu s1, .gnu s2⟩ K (c.init K t s) ops with
  | error e => rw [hc1] at g1; cases g1
  | ok c1 =>
    cases hc2 : Core.calls ⟨.gnu s1, .gnu s2⟩ K (c.init K t s) (ops ++ ops2) with
    | error e => rw [hc2] at g2; cases g2
    | ok c2 =>
      rw [hc1] at g1
      have hq : d1.queue = c1.queue := by
        have hm : ∀ m, (skeletonHom hK).meas 0 m = m := fun m => by
          unfold KHom.meas
          rw [add_zero]
          rfl
        rw [Except.ok.inj g1]
        change c1.queue.map ((skeletonHom hK).meas 0) = _
        rw [List.map_congr_left fun m _ => hm m, List.map_id']
      rw [hq] at h1 h2
      exact ⟨c1, c2, rfl, rfl, h1, h2⟩

end

variable {aux : List VarDesc} {M : Type}

/-- **C40, start.** The fuzzy check raises no alarm in runs with up to six measurements, in whatever
order they arrive and however often they are applied again. -/
theorem C40_no_early_alarm (np : NoiseParams ℝ (coreDef aux)) (uc : UserCalc (coreDef aux))
    (f : M → SensorMeas (coreDef aux)) (env : Env)
    (c : Core (V3 ℝ) (V3 ℝ) (Option (Values (coreDef aux))) (Option (ErrMat ℝ (coreDef aux))) M
      (Tracker ℝ)) (hc : c.fuzzy = false) (t : ℚ)
    (s : St (V3 ℝ) (V3 ℝ) (Option (Values (coreDef aux))) (Option (ErrMat ℝ (coreDef aux))))
    (ops : List (Op (V3 ℝ) (V3 ℝ) M)) (hn : (measOps ops).length ≤ 6) :
    Core.QuietRun env (fedKernel np uc f) (c.init (fedKernel np uc f) t s) ops :=
  Core.quietRun_of_few (fedKernel_warm np uc f) env c t s hc ops
    ((Nat.mul_le_mul hn (Nat.add_le_add_right hn 3)).trans (by decide))

section quiet
variable (hD : CheckCompiles (coreDef aux)) (np : NoiseParams ℝ (coreDef aux))
  (uc : UserCalc (coreDef aux)) (f : M → SensorMeas (coreDef aux)) (hf : PlainFeed f)
  (s1 s2 : Nat → List ℚ → Bool)
  (c : Core (V3 ℝ) (V3 ℝ) (Option (Values (coreDef aux))) (Option (ErrMat ℝ (coreDef aux))) M
    (Tracker ℝ)) (t : ℚ) (ht : 0 < t)
  (s : St (V3 ℝ) (V3 ℝ) (Option (Values (coreDef aux))) (Option (ErrMat ℝ (coreDef aux))))
  (ops : List (Op (V3 ℝ) (V3 ℝ) M))
  (hok : (startLog t s.u c.lastAmImu).okRun (fedKernel np uc f).spike (fun m => !(f m).enable) ops)

include hD

theorem quiet_run (env : Env) (ops : List (Op (V3 ℝ) (V3 ℝ) M))
    (c' : Core (V3 ℝ) (V3 ℝ) (Option (Values (coreDef aux))) (Option (ErrMat ℝ (coreDef aux))) M
      (Tracker ℝ))
    (hrun : Core.calls env (fedKernel np uc f) (c.init (fedKernel np uc f) t s) ops = .ok c')
    (hq : Core.QuietRun env (fedKernel np uc f) (c.init (fedKernel np uc f) t s) ops) :
    Core.calls env (uncheckedKernel np uc f) (c.init (uncheckedKernel np uc f) t s) ops = .ok c' :=
  (Core.quiet_calls (fedKernel_quiet hD np uc f) env ops (fedKernel_quiet hD np uc f).tr0 hq c' hrun
    trivial).1

include hf ht hok

/-- **C09 without fuzzy states.** Every shipped filter: if the run never sets `isfuzzyState_`, the
buffered states are those of the batch filter without the fuzzy check. -/
theorem C09_without_fuzzy_states
    (c' : Core (V3 ℝ) (V3 ℝ) (Option (Values (coreDef aux))) (Option (ErrMat ℝ (coreDef aux))) M
      (Tracker ℝ))
    (hrun : Core.calls ⟨.gnu s1, .gnu s2⟩ (fedKernel np uc f) (c.init (fedKernel np uc f) t s) ops =
      .ok c')
    (hq : Core.QuietRun ⟨.gnu s1, .gnu s2⟩ (fedKernel np uc f) (c.init (fedKernel np uc f) t s) ops) :
    ∃ old kept, batch (uncheckedKernel np uc f) s.x s.P
        ((startLog t s.u c.lastAmImu).run (fedKernel np uc f).spike ops) = old ++ kept ∧
      c'.states.nodes.map (fun n => (n.key, n.val)) = kept ∧ kept ≠ [] ∧
      ∀ e ∈ old, e.1 < ((startLog (M := M) t s.u c.lastAmImu).run (fedKernel np uc f).spike
        ops).newest - 60 := by
  obtain ⟨c2, e2, h⟩ := C09_delayed_equals_batch (uncheckedKernel np uc f)
    (unchecked_regular np uc hf) _ (unchecked_sure np uc f) s1 s2 c t ht s ops hok
  have e1 := quiet_run hD np uc f c t s _ ops c' hrun hq
  cases e1.symm.trans e2
  exact h

/-- **C10 without fuzzy states.** Each buffered state is the propagation of its predecessor, corrected
by the measurement assigned to its time. -/
theorem C10_without_fuzzy_states
    (c' : Core (V3 ℝ) (V3 ℝ) (Option (Values (coreDef aux))) (Option (ErrMat ℝ (coreDef aux))) M
      (Tracker ℝ))
    (hrun : Core.calls ⟨.gnu s1, .gnu s2⟩ (fedKernel np uc f) (c.init (fedKernel np uc f) t s) ops =
      .ok c')
    (hq : Core.QuietRun ⟨.gnu s1, .gnu s2⟩ (fedKernel np uc f) (c.init (fedKernel np uc f) t s) ops)
    (pre post : List (Node (St (V3 ℝ) (V3 ℝ) (Option (Values (coreDef aux)))
      (Option (ErrMat ℝ (coreDef aux))))))
    (a b : Node (St (V3 ℝ) (V3 ℝ) (Option (Values (coreDef aux)))
      (Option (ErrMat ℝ (coreDef aux)))))
    (hab : c'.states.nodes = pre ++ a :: b :: post) :
    let K := uncheckedKernel np uc f
    let L := (startLog (M := M) t s.u c.lastAmImu).run K.spike ops
    let x := K.prop (b.key - a.key) a.val.u a.val.x b.val.u
    let P := K.predP (b.key - a.key) a.val.P b.val.u x
    (b.val.x, b.val.P) =
      match L.hist.find? (fun m => target L.stamps m.time = b.key) with
      | none => (x, P)
      | some m => ((K.update K.tr0 m.body x P).x, (K.update K.tr0 m.body x P).P) :=
  C10_consistent_trajectory (uncheckedKernel np uc f) (unchecked_regular np uc hf) _
    (unchecked_sure np uc f) s1 s2 c t ht s ops hok c'
    (quiet_run hD np uc f c t s _ ops c' hrun hq) pre post a b hab

/-- **C11 without fuzzy states.** Everything published is the newest state of the batch filter at that
moment. -/
theorem C11_without_fuzzy_states
    (c' : Core (V3 ℝ) (V3 ℝ) (Option (Values (coreDef aux))) (Option (ErrMat ℝ (coreDef aux))) M
      (Tracker ℝ))
    (hrun : Core.calls ⟨.gnu s1, .gnu s2⟩ (fedKernel np uc f) (c.init (fedKernel np uc f) t s) ops =
      .ok c')
    (hq : Core.QuietRun ⟨.gnu s1, .gnu s2⟩ (fedKernel np uc f) (c.init (fedKernel np uc f) t s) ops) :
    c'.out = c.out ++ .initial t s.x s.P ::
        eventsRun (uncheckedKernel np uc f) s.x s.P (startLog t s.u c.lastAmImu) ops ∧
      ∃ n, c'.states.nodes.getLast? = some n ∧ c'.tP = n.key := by
  obtain ⟨c2, e2, h⟩ := C11_published_is_current (uncheckedKernel np uc f)
    (unchecked_regular np uc hf) _ (unchecked_sure np uc f) s1 s2 c t ht s ops hok
  have e1 := quiet_run hD np uc f c t s _ ops c' hrun hq
  cases e1.symm.trans e2
  exact h

/-- **C74 without fuzzy states (partial).** Two runs with the same IMU readings and the same
measurements in different orders, neither of which ever sets `isfuzzyState_`, end with the same newest
state.  Full claim: false by `C74_arrival_order_violated`. -/
theorem C74_without_fuzzy_states_partial (s1' s2' : Nat → List ℚ → Bool)
    (ops' : List (Op (V3 ℝ) (V3 ℝ) M))
    (hok' : (startLog t s.u c.lastAmImu).okRun (fedKernel np uc f).spike (fun m => !(f m).enable)
      ops')
    (himu : imuOps ops = imuOps ops')
    (hmeas : ((startLog t s.u c.lastAmImu).counted (fedKernel np uc f).spike ops).Perm
      ((startLog t s.u c.lastAmImu).counted (fedKernel np uc f).spike ops'))
    (hw : ((startLog t s.u c.lastAmImu).run (fedKernel np uc f).spike ops).queue = [])
    (hw' : ((startLog t s.u c.lastAmImu).run (fedKernel np uc f).spike ops').queue = [])
    (c1 c2 : Core (V3 ℝ) (V3 ℝ) (Option (Values (coreDef aux))) (Option (ErrMat ℝ (coreDef aux))) M
      (Tracker ℝ))
    (hrun1 : Core.calls ⟨.gnu s1, .gnu s2⟩ (fedKernel np uc f) (c.init (fedKernel np uc f) t s)
      ops = .ok c1)
    (hrun2 : Core.calls ⟨.gnu s1', .gnu s2'⟩ (fedKernel np uc f) (c.init (fedKernel np uc f) t s)
      ops' = .ok c2)
    (hq1 : Core.QuietRun ⟨.gnu s1, .gnu s2⟩ (fedKernel np uc f) (c.init (fedKernel np uc f) t s) ops)
    (hq2 : Core.QuietRun ⟨.gnu s1', .gnu s2'⟩ (fedKernel np uc f) (c.init (fedKernel np uc f) t s)
      ops') :
    (c1.states.nodes.map (fun n => (n.key, n.val))).getLast? =
      (c2.states.nodes.map (fun n => (n.key, n.val))).getLast? := by
  obtain ⟨d1, d2, e1, e2, h, -⟩ := C09_arrival_order (uncheckedKernel np uc f)
    (unchecked_regular np uc hf) _ (unchecked_sure np uc f) s1 s2 s1' s2' c t ht s ops ops' hok hok'
    himu hmeas hw hw'
  cases (quiet_run hD np uc f c t s _ ops c1 hrun1 hq1).symm.trans e1
  cases (quiet_run hD np uc f c t s _ ops' c2 hrun2 hq2).symm.trans e2
  exact h

end quiet

/-- The state definitions of the shipped filters meet `CheckCompiles`. -/
theorem shipped_checkCompiles : CheckCompiles (coreDef poseAux) ∧
    CheckCompiles (coreDef posePressureAux) ∧ CheckCompiles (coreDef positionPoseAux) ∧
    CheckCompiles (coreDef positionAux) :=
  ⟨.inr ⟨⟨6, by decide⟩, by decide⟩, .inr ⟨⟨6, by decide⟩, by decide⟩,
    .inr ⟨⟨6, by decide⟩, by decide⟩, .inl (by decide)⟩

/-- The pose sensor with all states free and without outlier test, as handler settings. -/
noncomputable def poseFeed (ix : PoseIdx) (z : PoseMeas ℝ) : SensorMeas (coreDef poseAux) :=
  (Reading.pose ix 0 false 100 z).meas

theorem poseFeed_plain (ix : PoseIdx) : PlainFeed (poseFeed ix) := fun _ => .inl rfl

/-- Four IMU readings and two poses; the later pose first if `swap`. -/
noncomputable def poseRun (z1 z2 : PoseMeas ℝ) (swap : Bool) :
    List (Op (V3 ℝ) (V3 ℝ) (PoseMeas ℝ)) :=
  [.imu (101/100) ⟨![0, 0, 10], 0⟩, .imu (102/100) ⟨![0, 1, 10], 0⟩,
   .imu (103/100) ⟨![0, 0, 9], ![0, 0, 1]⟩, .imu (104/100) ⟨![0, 0, 9], ![0, 0, 1]⟩] ++
  if swap then [.meas ⟨1035/1000, 0, z2⟩, .meas ⟨1025/1000, 0, z1⟩]
  else [.meas ⟨1025/1000, 0, z1⟩, .meas ⟨1035/1000, 0, z2⟩]

theorem poseRun_spike (np : NoiseParams ℝ (coreDef poseAux)) (uc : UserCalc (coreDef poseAux))
    (ix : PoseIdx) : (fedKernel np uc (poseFeed ix)).spike ![0, 0, 10] = false ∧
      (fedKernel np uc (poseFeed ix)).spike ![0, 1, 10] = false ∧
      (fedKernel np uc (poseFeed ix)).spike ![0, 0, 9] = false := by
  refine ⟨?_, ?_, ?_⟩ <;> simp [fedKernel, sensorKernel, filterKernel, sqNorm3] <;> norm_num

theorem poseRun_ok (np : NoiseParams ℝ (coreDef poseAux)) (uc : UserCalc (coreDef poseAux))
    (ix : PoseIdx) (z1 z2 : PoseMeas ℝ) (swap : Bool) :
    (startLog 1 ⟨![0, 0, 10], 0⟩ 0).okRun (fedKernel np uc (poseFeed ix)).spike
      (fun m => !(poseFeed ix m).enable) (poseRun z1 z2 swap) := by
  obtain ⟨h1, h2, h3⟩ := poseRun_spike np uc ix
  have h4 : ∀ z, (poseFeed ix z).enable = false := fun _ => rfl
  cases swap <;>
  simp [poseRun, Log.okRun, Log.ok, startLog, Log.step, Log.addImu, h1, h2, h3, h4, Log.newest,
    Log.stamps, Log.fresh, Log.start, Log.pop] <;>
  norm_num [Log.deliver, Log.stamps, Log.start, Log.newest, abs_lt, lt_abs]

/-- Non-vacuity: all hypotheses of the theorems above are met by the pose filter, for all poses and
initial states. -/
example (np : NoiseParams ℝ (coreDef poseAux)) (uc : UserCalc (coreDef poseAux)) (ix : PoseIdx)
    (z1 z2 : PoseMeas ℝ) (swap : Bool) (x : Option (Values (coreDef poseAux)))
    (P : Option (ErrMat ℝ (coreDef poseAux))) (s1 s2 : Nat → List ℚ → Bool) :
    let K := fedKernel np uc (poseFeed ix)
    let c := (Core.new K).init K 1 ⟨⟨![0, 0, 10], 0⟩, x, P⟩
    ∃ c', Core.calls ⟨.gnu s1, .gnu s2⟩ K c (poseRun z1 z2 swap) = .ok c' ∧
      Core.QuietRun ⟨.gnu s1, .gnu s2⟩ K c (poseRun z1 z2 swap) ∧
      ∃ old kept, batch (uncheckedKernel np uc (poseFeed ix)) x P
        ((startLog 1 ⟨![0, 0, 10], 0⟩ 0).run K.spike (poseRun z1 z2 swap)) = old ++ kept ∧
      c'.states.nodes.map (fun n => (n.key, n.val)) = kept := by
  intro K c
  obtain ⟨c', e, -⟩ := C09_times_any_numerics K (fedKernel_allApplied np uc fun _ => rfl)
    (fun m => !(poseFeed ix m).enable) s1 s2 (Core.new K) 1 (by norm_num)
    ⟨⟨![0, 0, 10], 0⟩, x, P⟩ _ (poseRun_ok np uc ix z1 z2 swap)
  have hq := C40_no_early_alarm np uc (poseFeed ix) ⟨.gnu s1, .gnu s2⟩ (Core.new K) rfl 1
    ⟨⟨![0, 0, 10], 0⟩, x, P⟩ (poseRun z1 z2 swap) (by cases swap <;> simp [poseRun, measOps])
  obtain ⟨old, kept, h1, h2, -⟩ := C09_without_fuzzy_states shipped_checkCompiles.1 np uc
    (poseFeed ix) (poseFeed_plain ix) s1 s2 (Core.new K) 1 (by norm_num)
    ⟨⟨![0, 0, 10], 0⟩, x, P⟩ _ (poseRun_ok np uc ix z1 z2 swap) c' e hq
  exact ⟨c', e, hq, old, kept, h1, h2⟩

/-- The two runs have the same IMU readings. -/
example (z1 z2 : PoseMeas ℝ) : imuOps (poseRun z1 z2 false) = imuOps (poseRun z1 z2 true) := rfl

/-- They have the same measurements, and in the end none is waiting. -/
example (np : NoiseParams ℝ (coreDef poseAux)) (uc : UserCalc (coreDef poseAux)) (ix : PoseIdx)
    (z1 z2 : PoseMeas ℝ) :
    ((startLog 1 ⟨![0, 0, 10], 0⟩ 0).counted (fedKernel np uc (poseFeed ix)).spike
      (poseRun z1 z2 false)).Perm
    ((startLog 1 ⟨![0, 0, 10], 0⟩ 0).counted (fedKernel np uc (poseFeed ix)).spike
      (poseRun z1 z2 true)) ∧
    ∀ swap, ((startLog 1 ⟨![0, 0, 10], 0⟩ 0).run (fedKernel np uc (poseFeed ix)).spike
      (poseRun z1 z2 swap)).queue = [] := by
  obtain ⟨h1, h2, h3⟩ := poseRun_spike np uc ix
  constructor
  · have h : ∀ swap, (startLog 1 ⟨![0, 0, 10], 0⟩ 0).counted (fedKernel np uc (poseFeed ix)).spike
        (poseRun z1 z2 swap) = if swap then [⟨1035/1000, 0, z2⟩, ⟨1025/1000, 0, z1⟩]
          else [⟨1025/1000, 0, z1⟩, ⟨1035/1000, 0, z2⟩] := by
      intro swap
      cases swap <;>
      simp [poseRun, Log.counted, startLog, Log.step, Log.addImu, Log.start, Log.pop, Log.stamps,
        Log.newest, Log.deliver, h1, h2, h3] <;>
      norm_num
    rw [h, h]
    exact List.Perm.swap _ _ _
  · intro swap
    cases swap <;>
    simp [poseRun, Log.run, startLog, Log.step, Log.addImu, Log.start, Log.pop, Log.stamps,
        Log.newest, Log.deliver, h1, h2, h3] <;>
    norm_num

end MSF
