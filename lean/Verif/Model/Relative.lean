import Verif.Model.FilterKernel

/-!
# Runs with relative measurements

`Verif.Model.Core` models runs whose measurements are absolute: `Apply` reads and writes one state.
A relative pose measurement (pose_measurement.h:342-457) asks the core for the previous measurement of
its sensor, for the state at that measurement and for the product of the transitions `Fd` of the states
in between, which `PredictProcessCovariance` has left in them.  Here a state of the buffer therefore
holds the pair of `P` and `Fd`, and the functions of the core that predict the covariance or apply a
measurement take these two operations as parameters (`Flow`).

Line numbers refer to msf_core_inl.h unless another file is named.
-/

namespace MSF

open Matrix

/-- The core with `predict` for `PredictProcessCovariance` (L443-543) and `apply` for the virtual
`MSF_MeasurementBase::Apply`, which is given the core. -/
structure Flow (A W X C M T E : Type) extends Kernel A W X C M T E where
  predict : Core A W X C M T → Node (St A W X C) → Node (St A W X C) → Core A W X C M T
  apply : Env → Core A W X C M T → Meas M → Node (St A W X C) → Except UB (Core A W X C M T)

namespace Flow

variable {A W X C M T E : Type}

/-- `MSF_Core::PropagatePOneStep`, L393-422. -/
def propagatePOneStep (f : Flow A W X C M T E) (c : Core A W X C M T) :
    Except UB (Core A W X C M T) := do
  let it := c.states.iterAtValue c.tP
  let next ← c.states.incr it
  if next = .fin then return c
  let o ← c.states.deref it
  let n ← c.states.deref next
  let c := f.predict c o n
  if f.numPos n.val.x then return c
  else return { c with predMade := false, inited := false }

/-- The loop of `PropPToState`, L838-841. -/
def propPLoop (f : Flow A W X C M T E) (t : ℚ) :
    Nat → Core A W X C M T → Iter → Iter → Except UB (Core A W X C M T)
  | 0, _, _, _ => .error .fuel
  | fuel + 1, c, it, itMinus =>
    if it = .fin then .ok c
    else do
      let n ← c.states.deref it
      if n.key ≤ t then
        let m ← c.states.deref itMinus
        let c := f.predict c m n
        let it ← c.states.incr it
        let itMinus ← c.states.incr itMinus
        propPLoop f t fuel c it itMinus
      else return c

/-- `MSF_Core::PropPToState`, L831-842. -/
def propPToState (f : Flow A W X C M T E) (c : Core A W X C M T) (t : ℚ) :
    Except UB (Core A W X C M T) := do
  let itMinus := c.states.iterAtValue c.tP
  let it ← c.states.incr itMinus
  propPLoop f t (c.states.size + 1) c it itMinus

variable [AddCommGroup A] [Module ℚ A] [AddCommGroup W] [Module ℚ W]

/-- `MSF_Core::GetClosestState`, L747-828. -/
def getClosestState (env : Env) (f : Flow A W X C M T E) (c : Core A W X C M T) (t : ℚ) :
    Except UB (Core A W X C M T × Option (Node (St A W X C))) := do
  let it ← c.states.iterClosest env.ps t
  let n ← c.states.deref it
  if n.key = invalidTime ∨ |n.key - t| > 1 / 10 then return (c, none)
  let (c, it) := Core.interpolate f.toKernel c n t
  let n ← c.states.deref it
  let c ← propPToState f c n.key
  let n ← c.states.deref it
  if f.numX n.val.x then
    if c.janitor > 100 then
      let c ← Core.cleanUp env { c with janitor := 0 }
      return (c, some n)
    else return ({ c with janitor := c.janitor + 1 }, some n)
  else return (c, none)

/-- Measurement loop of `AddMeasurement`, L643-702. -/
def measLoop (env : Env) (f : Flow A W X C M T E) :
    Nat → Core A W X C M T → Iter → Bool → Except UB (Core A W X C M T × Bool × Bool)
  | 0, _, _, _ => .error .fuel
  | fuel + 1, c, it, applied =>
    if it = .fin then .ok (c, applied, false)
    else do
      let m ← c.meas.deref it
      if m.key ≤ 0 then
        measLoop env f fuel c (← c.meas.incr it) applied
      else
        let (c, st) ← getClosestState env f c m.key
        match st with
        | none => measLoop env f fuel c (← c.meas.incr it) applied
        | some s =>
          if s.key ≤ 0 then measLoop env f fuel c (← c.meas.incr it) applied
          else
            let m ← c.meas.deref it
            let c ← f.apply env c m.val s
            let itNext ← c.meas.incr it
            let (c, aborted) ← Core.repropagate f.toKernel c s.key itNext
            if aborted then return (c, true, true)
            measLoop env f fuel c itNext true

/-- Lines 704-714 of `AddMeasurement`. -/
def finishMeas (f : Flow A W X C M T E) (c : Core A W X C M T) :
    Except UB (Core A W X C M T) := do
  let c ← propPToState f c (timeOf c.states.last)
  match c.states.last with
  | none => return c
  | some n => return { c with out := c.out ++ [.afterUpdate n.key n.val.x n.val.P] }

/-- `MSF_Core::AddMeasurement`, L604-715. -/
def addMeasurement (env : Env) (f : Flow A W X C M T E) (c : Core A W X C M T) (m : Meas M) :
    Except UB (Core A W X C M T) := do
  if c.inited = false ∨ c.predMade = false then return c
  if m.time > timeOf c.states.last then return { c with queue := c.queue ++ [m] }
  if m.time < timeOf c.states.first then return c
  let (mb, it) := c.meas.insert m.time m
  let (c, applied, aborted) ←
    measLoop env f (mb.size + 1) { c with meas := mb, fuzzy := false } it false
  if aborted = true ∨ applied = false then return c
  finishMeas f c

/-- `MSF_Core::HandlePendingMeasurements`, L312-319. -/
def handlePending (env : Env) (f : Flow A W X C M T E) (c : Core A W X C M T) :
    Except UB (Core A W X C M T) :=
  match c.queue with
  | [] => .ok c
  | m :: q => addMeasurement env f { c with queue := q } m

/-- Lines 185-205 of `ProcessIMU`. -/
def imuPropagate (env : Env) (f : Flow A W X C M T E) (c : Core A W X C M T)
    (last : Node (St A W X C)) (t : ℚ) (u : Input A W) : Except UB (Core A W X C M T) := do
  let s : St A W X C := ⟨u, f.prop (t - last.key) last.val.u last.val.x u, f.P0⟩
  let wasThere := (c.states.find t).isSome
  let (b, it) := c.states.insert t s
  let c ← propagatePOneStep f { c with states := b, itImu := it }
  let cur ← if wasThere then .ok s else (c.states.deref it).map Node.val
  let c := { c with out := c.out ++ [.afterPropagation t cur.x cur.P] }
  let c := if c.states.size > 3 then { c with predMade := true } else c
  if c.predMade then handlePending env f c else return c

/-- `MSF_Core::ProcessIMU`, L98-207. -/
def processIMU (env : Env) (f : Flow A W X C M T E) (c : Core A W X C M T) (t : ℚ) (u : Input A W) :
    Except UB (Core A W X C M T) := do
  if c.inited = false then return c
  let it ← if c.itImu = .fin then c.states.iterClosestBefore env.ps t else pure c.itImu
  let c := { c with itImu := it }
  let last ← c.states.deref it
  if last.key = invalidTime then return c
  if t - last.key < -(1 / 100) ∧ c.predMade = true then
    return { c with inited := false, predMade := false }
  let spiky := f.spike u.a
  let u : Input A W := if spiky then { u with a := c.lastAmImu } else u
  let c := if spiky then c else { c with lastAmImu := last.val.u.a }
  if c.predMade = false ∧ |t - last.key| > 1 / 10 then
    return { c with states := (c.states.updateTime last.key t).1, tP := t }
  imuPropagate env f c last t u

/-- `MSF_Core::ProcessExternallyPropagatedState`, L210-309. -/
def processExternal (env : Env) (f : Flow A W X C M T E) (c : Core A W X C M T) (t : ℚ)
    (u : Input A W) (ext : Option E) : Except UB (Core A W X C M T) := do
  if c.inited = false then return c
  match c.states.last with
  | none => return c
  | some last =>
    if last.key = invalidTime then return c
    let u : Input A W := if f.spike u.a then { u with a := c.lastAmExt } else u
    let c := { c with lastAmExt := u.a }
    if c.predMade = false ∧ |t - last.key| > 5 then
      return { c with states := (c.states.updateTime last.key t).1 }
    let x := match ext with
      | some e => f.extProp e last.val.x
      | none => f.prop (t - last.key) last.val.u last.val.x u
    let (c, P) :=
      if c.predMade = false then
        ({ c with tP := t, states := c.states.clear, meas := c.meas.clear, queue := [] }, last.val.P)
      else (c, f.P0)
    let s : St A W X C := ⟨u, x, P⟩
    let wasThere := (c.states.find t).isSome
    let (b, it) := c.states.insert t s
    let c ← propagatePOneStep f { c with states := b }
    let c := { c with predMade := true }
    let cur ← if wasThere then .ok s else (c.states.deref it).map Node.val
    handlePending env f { c with out := c.out ++ [.afterPropagation t cur.x cur.P] }

/-- Any call of the public interface that changes the filter. -/
def api (env : Env) (f : Flow A W X C M T E) (c : Core A W X C M T) :
    Api A W X C M E → Except UB (Core A W X C M T)
  | .init t s => .ok (Core.init f.toKernel c t s)
  | .imu t u => processIMU env f c t u
  | .ext t u e => processExternal env f c t u e
  | .meas m => addMeasurement env f c m

/-- A sequence of such calls. -/
def apis (env : Env) (f : Flow A W X C M T E) :
    Core A W X C M T → List (Api A W X C M E) → Except UB (Core A W X C M T)
  | c, [] => .ok c
  | c, o :: os => do apis env f (← api env f c o) os

end Flow

/-- The numerical operations of a filter with relative measurements; `F` is the type of `Fd`.
* `fd dt uNew xNew` — the matrix `Fd` that `PredictProcessCovariance` stores in the older state
  (L487-518); `fd0` is the one of a new state object, `mulF` the product.
* `isRel` — `!isabsolute_` of a pose measurement (pose_measurement.h:287).
* `cast` — the `dynamic_pointer_cast` to the type of the measurement (pose_measurement.h:355-357).
* `clear` — what `CalculateH` does to the covariance of the state it is given
  (pose_measurement.h:212-222).
* `relUpdate tr prev cur xOld POld F xNew PNew` — the residual, `CalculateAndApplyCorrectionRelative`
  and `ApplyCorrection`. -/
structure RelKernel (A W X C F M T E : Type) extends Kernel A W X C M T E where
  fd : ℚ → Input A W → X → F
  fd0 : F
  mulF : F → F → F
  isRel : M → Bool
  cast : M → Bool
  clear : M → C → C
  relUpdate : T → M → M → X → C → F → X → C → Upd X C T

namespace RelKernel

variable {A W X C F M T E : Type}

/-- The operations on states that hold `P` and `Fd`.  A measurement update and a prediction of `P` leave
`Fd` of the state alone (`predP` is not used here, see `predict`). -/
def pair (R : RelKernel A W X C F M T E) : Kernel A W X (C × F) M T E where
  prop := R.prop
  extProp := R.extProp
  predP dt P u x := (R.predP dt P.1 u x, R.fd0)
  update tr m x P :=
    let r := R.update tr m x P.1
    ⟨r.tr, r.x, (r.P, P.2), r.applied, r.fuzzy⟩
  P0 := (R.P0, R.fd0)
  tr0 := R.tr0
  spike := R.spike
  numX := R.numX
  numPos := R.numPos

/-- `MSF_Core::PredictProcessCovariance`, L443-543: writes `Fd` of the older and `P` of the newer state. -/
def predict (R : RelKernel A W X C F M T E) (c : Core A W X (C × F) M T)
    (old new : Node (St A W X (C × F))) : Core A W X (C × F) M T :=
  if new.key - old.key ≤ 0 then c
  else
    let dt := new.key - old.key
    let states := c.states.modify old.key fun s => { s with P := (s.P.1, R.fd dt new.val.u new.val.x) }
    { c with
      states := states.modify new.key fun s => { s with P := (R.predP dt old.val.P.1 s.u s.x, s.P.2) }
      tP := new.key }

/-- A state object as it is now: its node in the buffer, or the given one if it has been erased. -/
def current (c : Core A W X C M T) (n : Node (St A W X C)) : Node (St A W X C) :=
  match c.states.deref n.iter with
  | .ok n' => n'
  | .error _ => n

/-- Changes a state object through its pointer; visible in the buffer unless it has been erased. -/
def write (c : Core A W X C M T) (n : Node (St A W X C)) (g : St A W X C → St A W X C) :
    Core A W X C M T :=
  match c.states.deref n.iter with
  | .ok _ => { c with states := c.states.modify n.key g }
  | .error _ => c

/-- The loop of `GetAccumulatedStateTransitionStochasticCloning`, L424-441. -/
def accumulate (R : RelKernel A W X C F M T E) (c : Core A W X (C × F) M T) (stop : Iter) :
    Nat → Iter → F → Except UB F
  | 0, _, _ => .error .fuel
  | fuel + 1, it, acc =>
    if it = stop then .ok acc
    else do
      let n ← c.states.deref it
      accumulate R c stop fuel (← c.states.incr it) (R.mulF acc n.val.P.2)

/-- The relative branch of `Apply` from the valid previous state `old` on, pose_measurement.h:369-457
with msf_measurement_inl.h:128-198: `CalculateH` clears cross covariances in both states, then the
newer one is corrected.  The objects are changed also if they have been erased from the buffer; if both
are the same object, clearing twice is clearing once (`Reading.clearP_idem`). -/
def relApply (R : RelKernel A W X C F M T E) (c : Core A W X (C × F) M T) (prev m : Meas M)
    (old s : Node (St A W X (C × F))) : Except UB (Core A W X (C × F) M T) := do
  let o := current c old
  let n := current c s
  let c := write c old fun v => { v with P := (R.clear m.body v.P.1, v.P.2) }
  let c := write c s fun v => { v with P := (R.clear m.body v.P.1, v.P.2) }
  let F ← accumulate R c (c.states.iterAtValue n.key) (c.states.size + 1)
    (c.states.iterAtValue o.key) R.fd0
  let r := R.relUpdate c.tracker prev.body m.body o.val.x (R.clear m.body o.val.P.1) F n.val.x
    (R.clear m.body n.val.P.1)
  let c := write c s fun v => { v with x := r.x, P := (r.P, v.P.2) }
  return { c with
    tracker := r.tr
    fuzzy := c.fuzzy || r.fuzzy
    tP := if r.applied then n.key else c.tP }

variable [AddCommGroup A] [Module ℚ A] [AddCommGroup W] [Module ℚ W]

/-- `GetClosestState` as the relative branch calls it; it applies no measurement. -/
def closest (R : RelKernel A W X C F M T E) (env : Env) (c : Core A W X (C × F) M T) (t : ℚ) :
    Except UB (Core A W X (C × F) M T × Option (Node (St A W X (C × F)))) :=
  Flow.getClosestState env
    ({ toKernel := R.pair, predict := R.predict, apply := fun _ c _ _ => .ok c } :
      Flow A W X (C × F) M T E) c t

/-- `PoseMeasurement::Apply`, pose_measurement.h:284-457.  `none` from the core stands for the object
`invalid`, whose time is `INVALID_TIME`. -/
def apply (R : RelKernel A W X C F M T E) (env : Env) (c : Core A W X (C × F) M T) (m : Meas M)
    (s : Node (St A W X (C × F))) : Except UB (Core A W X (C × F) M T) :=
  if R.isRel m.body = false then .ok (Core.applyMeas R.pair c m s)
  else do
    match ← Core.getPreviousMeasurement env c m.time m.sensor with
    | none => return c
    | some prev =>
      if prev.key = invalidTime then return c
      if R.cast prev.val.body = false then return c
      match ← R.closest env c prev.key with
      | (c, none) => return c
      | (c, some old) =>
        if old.key = invalidTime then return c
        relApply R c prev.val m old s

/-- The core of a filter with relative measurements. -/
def flow (R : RelKernel A W X C F M T E) : Flow A W X (C × F) M T E :=
  { R.pair with predict := R.predict, apply := R.apply }

/-- A sequence of calls on a new core. -/
def run (R : RelKernel A W X C F M T E) (env : Env) (calls : List (Api A W X (C × F) M E)) :
    Except UB (Core A W X (C × F) M T) :=
  R.flow.apis env (Core.new R.pair) calls

end RelKernel

/-! ### The shipped filters -/

/-- A reading of a shipped sensor, and whether the sensor is relative (`isabsolute_ = false`; parameters
`pose_absolute_measurements`, `position_absolute_measurements`, `absolute_measurements`). -/
structure RelReading where
  reading : Reading
  relative : Bool

/-- Pose readings. -/
def Reading.isPose : Reading → Bool
  | .pose .. => true
  | _ => false

/-- Readings to which no absolute update is applied.  A relative position, angle or distance makes
`Apply` print a warning and do nothing (position_measurement.h:190-197, spherical_measurement.h:315-323
and :517-525); for a relative pose `relUpdate` is used instead.  Pressure measurements do not look at
`isabsolute_` (pressure_measurement.h:72-114). -/
def RelReading.ignored (m : RelReading) : Bool :=
  m.relative && match m.reading with
    | .pressure .. => false
    | _ => true

/-- The covariance after `CalculateH`, pose_measurement.h:212-222. -/
noncomputable def Reading.clearP {aux : List VarDesc} (m : Reading) (P : Option (ErrMat ℝ (coreDef aux))) :
    Option (ErrMat ℝ (coreDef aux)) :=
  P.bind fun P => clearFixed (Reading.meas (aux := aux) m).fixed (Reading.meas (aux := aux) m).cleared P

/-- The relative pose update with the previous measurement `prev`, the older state `xo`, its covariance
`Po` and the accumulated transition `F`, pose_measurement.h:369-457 and msf_measurement_inl.h:128-198,
after the cross covariances have been cleared. -/
noncomputable def relPoseUpdate {aux : List VarDesc} (uc : UserCalc (coreDef aux)) (tr : Tracker ℝ)
    (ix : PoseIdx) (fixed : Nat) (prev z : PoseMeas ℝ) (xo : Values (coreDef aux))
    (Po F : ErrMat ℝ (coreDef aux)) (x : Values (coreDef aux)) (P : ErrMat ℝ (coreDef aux)) :
    Option (Upd (Values (coreDef aux)) (ErrMat ℝ (coreDef aux)) (Tracker ℝ)) := do
  let Hold ← poseH ix fixed (toVars xo)
  let Hold := -Hold
  let Hnew ← poseH ix fixed (toVars x)
  let vold ← poseView ix (toVars xo)
  let vnew ← poseView ix (toVars x)
  let r ← PoseView.relResidual vold vnew (prev.z_p, prev.z_q) (z.z_p, z.z_q)
  let (c, P') ← calculateCorrectionRelative Po P F Hold Hnew r z.R_
  let (t', vars, fz) ← applyCorrection uc tr (toVars x) c
  some ⟨t', values vars, P', true, fz⟩

/-- `relPoseUpdate` on readings; `none` stands for NaN as in `filterKernel`. -/
noncomputable def relReadingUpdate {aux : List VarDesc} (uc : UserCalc (coreDef aux)) (tr : Tracker ℝ)
    (prev cur : RelReading) (xo : Option (Values (coreDef aux))) (Po F : Option (ErrMat ℝ (coreDef aux)))
    (x : Option (Values (coreDef aux))) (P : Option (ErrMat ℝ (coreDef aux))) :
    Upd (Option (Values (coreDef aux))) (Option (ErrMat ℝ (coreDef aux))) (Tracker ℝ) :=
  match prev.reading, cur.reading with
  | .pose _ _ _ _ zp, .pose ix fixed _ _ z =>
    match (do relPoseUpdate uc tr ix fixed zp z (← xo) (← Po) (← F) (← x) (← P)) with
    | some u => ⟨u.tr, some u.x, some u.P, u.applied, u.fuzzy⟩
    | none => ⟨tr, none, none, true, false⟩
  | _, _ => ⟨tr, x, P, false, false⟩

open EKFState in
/-- The kernel of a filter fed with absolute and relative readings.  `Fd` is computed by
`PredictProcessCovariance` from the newer state. -/
noncomputable def relKernel {aux : List VarDesc} (np : NoiseParams ℝ (coreDef aux))
    (uc : UserCalc (coreDef aux)) :
    RelKernel (V3 ℝ) (V3 ℝ) (Option (Values (coreDef aux))) (Option (ErrMat ℝ (coreDef aux)))
      (Option (ErrMat ℝ (coreDef aux))) RelReading (Tracker ℝ) ExtState :=
  let K := readingKernel np uc
  { prop := K.prop
    extProp := K.extProp
    predP := K.predP
    update := fun tr m x P => if m.ignored then ⟨tr, x, P, false, false⟩ else K.update tr m.reading x P
    P0 := K.P0
    tr0 := K.tr0
    spike := K.spike
    numX := K.numX
    numPos := K.numPos
    fd := fun dt uNew xNew => do
      let x ← xNew
      let (o, _, _) ← predictProcessCovariance np (mkState (noInit _) ⟨0, 0⟩ 0 0)
        (mkState (toVars x) uNew (dt : ℝ) 0) 0
      some o.Fd
    fd0 := some 1
    mulF := fun a b => do some ((← a) * (← b))
    isRel := fun m => m.relative && m.reading.isPose
    cast := fun m => m.reading.isPose
    clear := fun m => m.reading.clearP
    relUpdate := relReadingUpdate uc }

end MSF
