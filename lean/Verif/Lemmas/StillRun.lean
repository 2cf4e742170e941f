import Verif.Props.Propagation
import Verif.Props.PoseFilters
import Verif.Props.Runs

/-! Concrete runs of the filters with IMU readings that show no rotation. -/

namespace MSF

open Matrix EKFState Spec

variable {aux : List VarDesc} {M : Type}

/-- One prediction of the kernel without rotation. -/
theorem filter_prop_still (np : NoiseParams ℝ (coreDef aux)) (uc : UserCalc (coreDef aux)) (dt : ℚ)
    (u u' : Input (V3 ℝ) (V3 ℝ)) (v : Values (coreDef aux)) (hq : (q (toVars v)).normSq = 1)
    (h1 : u.w = b_w (toVars v)) (h2 : u'.w = b_w (toVars v)) :
    ∃ v', (filterKernel np uc).prop dt u (some v) u' = some v' ∧ q (toVars v') = q (toVars v) ∧
      EKFState.v (toVars v') = EKFState.v (toVars v) + (dt : ℝ) •
        ((2 : ℝ)⁻¹ • ((q (toVars v)).toRot *ᵥ (u'.a - b_a (toVars v)) +
          (q (toVars v)).toRot *ᵥ (u.a - b_a (toVars v))) - gravity) ∧
      p (toVars v') = p (toVars v) + (dt : ℝ) •
        ((2 : ℝ)⁻¹ • (EKFState.v (toVars v') + EKFState.v (toVars v))) ∧
      ∀ i, ((coreDef aux).get i).stype ≠ .coreProp → v' i = v i := by
  obtain ⟨s, qn, hs, hqn, hqu, hsq, hsv, hsp, hrest, -⟩ :=
    propagateState_spec (mkState (toVars v) u 0 0) (mkState (noInit _) u' (dt : ℝ) 0) hq
  have e1 : u'.w - b_w (toVars v) = 0 := by rw [h2, sub_self]
  have e2 : u.w - b_w (toVars v) = 0 := by rw [h1, sub_self]
  change (Quat.ofCoeffs ((quatInt (u'.w - b_w (toVars v)) (u.w - b_w (toVars v))
    ((dt : ℝ) - 0)).mulVec (q (toVars v)).coeffs)).normalize = some qn at hqn
  rw [e1, e2, quatInt_zero, Matrix.one_mulVec] at hqn
  have e3 : Quat.ofCoeffs (q (toVars v)).coeffs = q (toVars v) := rfl
  have e4 : qn = q (toVars v) := by
    rw [e3, Quat.normalize_unit hq] at hqn
    exact (Option.some.inj hqn).symm
  refine ⟨values s.vars, ?_, hsq.trans e4, ?_, ?_, fun i hi => ?_⟩
  · change (propagateState (mkState (toVars v) u 0 0) (mkState (noInit _) u' (dt : ℝ) 0)).bind
      (fun s => some (values s.vars)) = _
    rw [hs]; rfl
  · have := hsv
    rw [e4] at this
    change EKFState.v s.vars = _
    simpa [mkState] using this
  · change p s.vars = p (toVars v) + (dt : ℝ) •
      ((2 : ℝ)⁻¹ • (EKFState.v s.vars + EKFState.v (toVars v)))
    simpa [mkState] using hsp
  · exact congrArg StateVar.val (hrest i hi)

section
variable {A W X C M T E : Type}
variable [AddCommGroup A] [Module ℚ A] [AddCommGroup W] [Module ℚ W]

/-- Initialisation and one IMU reading 10 ms later, any kernel. -/
theorem init_imu (K : Kernel A W X C M T E) (env : Env) (s : St A W X C) (u : Input A W)
    (hs : K.spike u.a = false) (hn : ∀ x, K.numPos x = true) :
    ∃ c, Core.apis env K (Core.new K) [.init 1 s, .imu (101 / 100) u] = .ok c ∧
      ∃ n ∈ c.states.nodes, n.val.x = K.prop (1 / 100) s.u s.x u ∧
        n.val.P = K.predP (1 / 100) s.P u (K.prop (1 / 100) s.u s.x u) := by
  refine ⟨_, by
    simp [Core.apis, Core.api, Core.init, Core.new, Core.processIMU, Core.imuPropagate,
      Buf.insert, Buf.clear, Buf.find, insertNode, Buf.deref, Node.iter, invalidTime, hs,
      Core.propagatePOneStep, Buf.iterAtValue, Buf.incr, Buf.upperBound, Buf.toIter, Core.predictCov,
      hn, Buf.modify, Buf.size, pure, bind, Except.pure, Except.bind, Except.map]
    norm_num
    rw [if_neg (by rintro ⟨⟩)]
    simp only [List.find?]
    norm_num
    rfl, ?_⟩
  refine ⟨_, List.mem_cons_of_mem _ (List.mem_singleton.2 rfl), ?_, ?_⟩ <;> simp
end

theorem restValues_unit (D : List VarDesc) : UnitQuats (toVars (restValues D)) := by
  intro i q hq
  have key : ∀ k : Kind, quatOf k (match k with | .vec _ => fun _ => (0 : ℝ) | .quat => Quat.one) =
      some q → q.normSq = 1 := by
    rintro (_ | _) h
    · cases h
    · rw [← Option.some.inj h]; exact Quat.normSq_one
  exact key _ hq

/-- Three IMU readings without rotation and one pose. -/
noncomputable def stillPoseRun (z : PoseMeas ℝ) : List (Op (V3 ℝ) (V3 ℝ) (PoseMeas ℝ)) :=
  [.imu (101/100) ⟨![0, 0, 10], 0⟩, .imu (102/100) ⟨![0, 0, 10], 0⟩,
   .imu (103/100) ⟨![0, 0, 10], 0⟩, .meas ⟨103/100, 0, z⟩]

theorem stillPoseRun_ok (np : NoiseParams ℝ (coreDef poseAux)) (uc : UserCalc (coreDef poseAux))
    (ix : PoseIdx) (z : PoseMeas ℝ) :
    (startLog 1 ⟨![0, 0, 10], 0⟩ 0).okRun (fedKernel np uc (poseFeed ix)).spike
      (fun m => !(poseFeed ix m).enable) (stillPoseRun z) := by
  have h1 := (poseRun_spike np uc ix).1
  have h4 : ∀ z, (poseFeed ix z).enable = false := fun _ => rfl
  simp [stillPoseRun, Log.okRun, Log.ok, startLog, Log.step, Log.addImu, h1, h4, Log.newest,
    Log.stamps, Log.fresh, Log.start, Log.pop]
  norm_num [Log.deliver, Log.stamps, Log.start, Log.newest, abs_lt, lt_abs]

theorem stillPoseRun_log (np : NoiseParams ℝ (coreDef poseAux)) (uc : UserCalc (coreDef poseAux))
    (ix : PoseIdx) (z : PoseMeas ℝ) :
    (startLog 1 ⟨![0, 0, 10], 0⟩ 0).run (fedKernel np uc (poseFeed ix)).spike (stillPoseRun z) =
      ⟨[(1, ⟨![0, 0, 10], 0⟩), (101/100, ⟨![0, 0, 10], 0⟩), (102/100, ⟨![0, 0, 10], 0⟩),
        (103/100, ⟨![0, 0, 10], 0⟩)], [⟨103/100, 0, z⟩], [], ![0, 0, 10]⟩ := by
  have h1 := (poseRun_spike np uc ix).1
  simp [stillPoseRun, Log.run, startLog, Log.step, Log.addImu, h1, Log.pop, Log.lastAcc, Log.deliver,
    Log.newest, Log.start, Log.stamps]
  norm_num

/-- A reading without residual leaves no state. -/
theorem unchecked_no_residual {aux : List VarDesc} (np : NoiseParams ℝ (coreDef aux))
    (uc : UserCalc (coreDef aux)) (tr : Tracker ℝ) (m : SensorMeas (coreDef aux))
    (x : Values (coreDef aux)) (P : Option (ErrMat ℝ (coreDef aux))) (h : m.r (toVars x) = none) :
    (unchecked np uc tr m (some x) P).x = none := by
  cases P with
  | none => rfl
  | some P =>
    have : uncheckedUpdate uc m x P = none := by
      unfold uncheckedUpdate
      simp only [Option.bind_eq_bind, h]
      cases clearFixed m.fixed m.cleared P with
      | none => rfl
      | some P =>
        simp only [Option.bind_some]
        cases m.H (toVars x) <;> rfl
    simp only [unchecked, this]

theorem predAtt_half_turn (pv : PoseView ℝ) : attResidual (pv.predAtt.conj.mul
    (pv.predAtt.mul ⟨0, 1, 0, 0⟩)) = none := by
  rw [attResidual, if_pos]
  simp [Quat.mul, Quat.conj]
  ring

/-- A kernel whose sensors deliver readings of another type. -/
def Kernel.feed {A W X C M M' T E : Type} (K : Kernel A W X C M T E) (g : M' → M) :
    Kernel A W X C M' T E :=
  { K with update := fun tr m x P => K.update tr (g m) x P }

def feedHom {A W X C M M' T E : Type} (K : Kernel A W X C M T E) (g : M' → M) :
    KHom (K.feed g) K where
  x := id
  c := id
  m _ := g
  t := id
  e := id
  prop _ _ _ _ := rfl
  extProp _ _ := rfl
  predP _ _ _ _ := rfl
  update _ _ _ _ _ := rfl
  P0 := rfl
  tr0 := rfl
  spike _ := rfl
  numX _ := rfl
  numPos _ := rfl

/-- The call with the readings translated. -/
def Op.feed {A W M M' : Type} (g : M' → M) : Op A W M' → Op A W M
  | .imu t u => .imu t u
  | .meas m => .meas ⟨m.time, m.sensor, g m.body⟩

section
variable {A W X C M M' T E : Type} [AddCommGroup A] [Module ℚ A] [AddCommGroup W] [Module ℚ W]

/-- Runs with translated readings. -/
theorem feed_run (K : Kernel A W X C M T E) (g : M' → M) (env : Env) (t : ℚ) (s : St A W X C)
    (ops : List (Op A W M')) (c' : Core A W X C M' T)
    (h : Core.calls env (K.feed g) ((Core.new (K.feed g)).init (K.feed g) t s) ops = .ok c') :
    Core.apis env K (Core.new K) (.init t s :: (ops.map (Op.feed g)).map Op.toApi) =
      .ok ((feedHom K g).core 0 c') := by
  have e := Core.map_apis (feedHom K g) 0 env (Shiftable.zero Set.univ)
    (Api.init t s :: ops.map Op.toApi) (Core.new (K.feed g)) (Core.timesIn_univ _) (fun _ _ => trivial)
  rw [Env.shift_zero] at e
  have h1 : Core.apis env (K.feed g) (Core.new (K.feed g)) (Api.init t s :: ops.map Op.toApi) =
      .ok c' := by
    rw [← h, Core.calls_eq_apis]
    rfl
  rw [h1] at e
  have h2 : (Api.init t s :: ops.map Op.toApi).map ((feedHom K g).api 0) =
      .init t s :: (ops.map (Op.feed g)).map Op.toApi := by
    simp only [List.map_cons, List.map_map]
    congr 1
    · simp [KHom.api, feedHom, KHom.st]
    · refine List.map_congr_left fun o _ => ?_
      cases o with
      | imu t u => simp [Op.toApi, KHom.api, Op.feed]
      | meas m => simp [Op.toApi, KHom.api, KHom.meas, feedHom, Op.feed]
  rw [h2] at e
  have h3 : (feedHom K g).core 0 (Core.new (K.feed g)) = Core.new K := by
    simp [Core.new, KHom.core, feedHom, Buf.shift, Iter.shift, Kernel.feed]
  rw [h3] at e
  exact e

end
end MSF
