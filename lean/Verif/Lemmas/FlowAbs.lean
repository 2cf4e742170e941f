import Verif.Lemmas.RelMap

/-! With absolute measurements only, the core with relative measurements is the core. -/

namespace MSF
variable {A W X C F M T E : Type}

/-- The core whose `Apply` reads and writes one state. -/
def Kernel.absFlow (K : Kernel A W X C M T E) : Flow A W X C M T E :=
  { K with predict := Core.predictCov K, apply := fun _ c m s => .ok (Core.applyMeas K c m s) }

namespace Flow

theorem abs_propagatePOneStep (K : Kernel A W X C M T E) (c : Core A W X C M T) :
    propagatePOneStep K.absFlow c = Core.propagatePOneStep K c := rfl

theorem abs_propPLoop (K : Kernel A W X C M T E) (t : ℚ) (fuel : Nat) (c : Core A W X C M T)
    (it itMinus : Iter) : propPLoop K.absFlow t fuel c it itMinus = Core.propPLoop K t fuel c it itMinus := by
  induction fuel generalizing c it itMinus with
  | zero => rfl
  | succ fuel ih =>
    simp only [propPLoop, Core.propPLoop, ih]
    rfl

theorem abs_propPToState (K : Kernel A W X C M T E) (c : Core A W X C M T) (t : ℚ) :
    propPToState K.absFlow c t = Core.propPToState K c t := by
  simp only [propPToState, Core.propPToState, abs_propPLoop]

variable [AddCommGroup A] [Module ℚ A] [AddCommGroup W] [Module ℚ W]

theorem abs_getClosestState (env : Env) (K : Kernel A W X C M T E) (c : Core A W X C M T) (t : ℚ) :
    getClosestState env K.absFlow c t = Core.getClosestState env K c t := by
  simp only [getClosestState, Core.getClosestState, abs_propPToState]
  rfl

theorem abs_measLoop (env : Env) (K : Kernel A W X C M T E) (fuel : Nat) (c : Core A W X C M T) (it : Iter)
    (b : Bool) : measLoop env K.absFlow fuel c it b = Core.measLoop env K fuel c it b := by
  induction fuel generalizing c it b with
  | zero => rfl
  | succ fuel ih =>
    simp only [measLoop, Core.measLoop, ih, abs_getClosestState]
    rfl

theorem abs_finishMeas (K : Kernel A W X C M T E) (c : Core A W X C M T) :
    finishMeas K.absFlow c = Core.finishMeas K c := by
  simp only [finishMeas, Core.finishMeas, abs_propPToState]
  rfl

theorem abs_addMeasurement (env : Env) (K : Kernel A W X C M T E) (c : Core A W X C M T) (m : Meas M) :
    addMeasurement env K.absFlow c m = Core.addMeasurement env K c m := by
  simp only [addMeasurement, Core.addMeasurement, abs_measLoop, abs_finishMeas]

theorem abs_handlePending (env : Env) (K : Kernel A W X C M T E) (c : Core A W X C M T) :
    handlePending env K.absFlow c = Core.handlePending env K c := by
  simp only [handlePending, Core.handlePending, abs_addMeasurement]
  rfl

theorem abs_api (env : Env) (K : Kernel A W X C M T E) (c : Core A W X C M T) (o : Api A W X C M E) :
    api env K.absFlow c o = Core.api env K c o := by
  cases o with
  | init t s => rfl
  | imu t u =>
    simp only [api, Core.api, processIMU, Core.processIMU, imuPropagate, Core.imuPropagate,
      abs_propagatePOneStep, abs_handlePending]
    rfl
  | ext t u e =>
    simp only [api, Core.api, processExternal, Core.processExternal,
      abs_propagatePOneStep, abs_handlePending]
    rfl
  | meas m => exact abs_addMeasurement env K c m

theorem abs_apis (env : Env) (K : Kernel A W X C M T E) (os : List (Api A W X C M E))
    (c : Core A W X C M T) : apis env K.absFlow c os = Core.apis env K c os := by
  induction os generalizing c with
  | nil => rfl
  | cons o os ih => simp only [apis, Core.apis, abs_api, ih]

end Flow

variable [AddCommGroup A] [Module ℚ A] [AddCommGroup W] [Module ℚ W]

/-- Forgetting `Fd`, as a morphism of kernels. -/
def RelKernel.forgetK (R : RelKernel A W X C F M T E) : KHom R.pair R.toKernel where
  x := id
  c := Prod.fst
  m _ := id
  t := id
  e := id
  prop _ _ _ _ := rfl
  extProp _ _ := rfl
  predP _ _ _ _ := rfl
  update _ _ _ _ _ := rfl
  P0 := rfl
  tr0 := rfl
  spike _ := rfl
  numX _ := rfl
  numPos _ := rfl

/-- With absolute measurements `Fd` has no influence. -/
def RelKernel.forget (R : RelKernel A W X C F M T E) :
    FHom (fun m => R.isRel m.body = false) R.flow R.toKernel.absFlow where
  toKHom := R.forgetK
  keeps := R.flow_keeps
  predict c o n := by
    change Core.predictCov R.toKernel (R.forgetK.core 0 c) (o.shift R.forgetK.st 0) (n.shift R.forgetK.st 0) =
      R.forgetK.core 0 (R.predict c o n)
    unfold Core.predictCov RelKernel.predict
    simp only [Node.shift_key, Node.shift_val, add_sub_add_right_eq_sub]
    split
    · rfl
    · simp only [KHom.core, Core.mk.injEq, and_true]
      rw [← Buf.shift_modify R.forgetK.st 0 _ _ (f' := fun s =>
          { s with P := R.predP (n.key - o.key) (R.forgetK.st o.val).P s.u s.x }),
        ← Buf.shift_modify R.forgetK.st 0 c.states _ (f' := id)]
      · have e : ∀ (b : Buf (St A W X C)) (k : ℚ), b.modify k id = b := by
          intro b k
          obtain ⟨l, i⟩ := b
          simp only [Buf.modify, Buf.mk.injEq, and_true]
          conv_rhs => rw [← List.map_id l]
          refine List.map_congr_left fun m _ => ?_
          split <;> rfl
        rw [e]
      · intro v
        rfl
      · intro v
        rfl
  apply env c m s hc hm := by
    have hr : R.isRel m.val.body = false := (hc.keyed m hm).2
    change _ = (RelKernel.apply R env c m.val s).map (R.forgetK.core 0)
    unfold RelKernel.apply
    rw [if_pos hr]
    exact congrArg Except.ok (Core.map_applyMeas R.forgetK 0 c m.val s)

/-- Runs with absolute measurements only are runs of the core. -/
theorem RelKernel.run_absolute (R : RelKernel A W X C F M T E) (env : Env)
    (os : List (Api A W X (C × F) M E)) (ho : ∀ m, Api.meas m ∈ os → R.isRel m.body = false) :
    Core.apis env R.toKernel (Core.new R.toKernel) (os.map (R.forgetK.api 0)) =
      (R.run env os).map (R.forgetK.core 0) := by
  rw [← Flow.abs_apis]
  refine Flow.map_run R.forget env os ?_
  intro o h
  cases o with
  | meas m => exact ho m h
  | _ => trivial

/-- An absolute reading. -/
def Reading.absolute (r : Reading) : RelReading := ⟨r, false⟩

/-- Absolute readings are treated as in `readingKernel`. -/
noncomputable def absoluteHom {aux : List VarDesc} (np : NoiseParams ℝ (coreDef aux))
    (uc : UserCalc (coreDef aux)) : KHom (readingKernel np uc) (relKernel np uc).toKernel where
  x := id
  c := id
  m _ := Reading.absolute
  t := id
  e := id
  prop _ _ _ _ := rfl
  extProp _ _ := rfl
  predP _ _ _ _ := rfl
  update _ _ _ _ _ := rfl
  P0 := rfl
  tr0 := rfl
  spike _ := rfl
  numX _ := rfl
  numPos _ := rfl

end MSF
