import Verif.Model.SortedContainer
import Mathlib.Algebra.Module.Defs
import Mathlib.Algebra.Field.Rat

/-!
# Model of the control flow of `MSF_Core`
(msf_core/include/msf_core/implementation/msf_core_inl.h, class declaration in msf_core.h)

The numerical parts (state propagation, covariance prediction, measurement update) are a
parameter, the `Kernel`; their real-valued definitions are modelled in the other `Model` files.
Everything else is modelled statement by statement, in the order in which the C++ code executes.
Functions that can run into undefined behaviour return `Except UB`.

Line numbers below refer to msf_core_inl.h unless another file is named.
-/

namespace MSF

/-- System inputs stored in a state: `a_m`, `w_m` (msf_state.h:143-144). -/
structure Input (A W : Type) where
  a : A
  w : W
  deriving DecidableEq, Repr

/-- A state object `GenericState_T` (msf_state.h:78-161) without its time, which is the key of its
buffer node.  `x` stands for `statevars`, `P` for the covariance.  `Fd`, `Qd` are functions of
the neighbouring states and live inside `Kernel.predP`; they are only read by relative updates,
which are modelled in `Model/Relative.lean`. -/
structure St (A W X C : Type) where
  u : Input A W
  x : X
  P : C
  deriving DecidableEq, Repr

/-- Result of applying a measurement to a state (`MSF_MeasurementBase::Apply` calling back into
`MSF_Core::ApplyCorrection`): new fuzzy tracker, mean and covariance; `applied` tells whether
`ApplyCorrection` was reached (it is not when the outlier test rejects); `fuzzy` is the return
value of `CheckFuzzyTracking::Check`. -/
structure Upd (X C T : Type) where
  tr : T
  x : X
  P : C
  applied : Bool
  fuzzy : Bool
  deriving DecidableEq, Repr

/-- The numerical kernel of the filter.
* `prop dt uOld xOld uNew` — `PropagateState` (L329-390): reads inputs and mean of the old state
  and the inputs of the new one.
* `extProp e xLast` — `ProcessExternallyPropagatedState` L269-277: takes p, v, q from the message
  and the non-propagated states from the last state.
* `predP dt POld uNew xNew` — `PredictProcessCovariance` (L446-538) for `dt > 0`.
* `update` — absolute measurement update for measurement body `M`.
* `P0` — covariance of a freshly constructed state object (`P.setZero()`, msf_state.h:157).
* `tr0` — fuzzy tracker after `Reset`.
* `spike` — `a_m.norm() > 50` (L147, L248).
* `numX` — `CheckStateForNumeric` (msf_state_inl.h:228-240); `numPos` — the check of the position
  only (L408-411). -/
structure Kernel (A W X C M T E : Type) where
  prop : ℚ → Input A W → X → Input A W → X
  extProp : E → X → X
  predP : ℚ → C → Input A W → X → C
  update : T → M → X → C → Upd X C T
  P0 : C
  tr0 : T
  spike : A → Bool
  numX : X → Bool
  numPos : X → Bool

/-- A measurement object (msf_measurement.h:33-83): its body and sensor id.  The time is the key of
its node in the measurement buffer. -/
structure Meas (M : Type) where
  time : ℚ
  sensor : Int
  body : M
  deriving DecidableEq, Repr

/-- A call on an initialised filter: `ProcessIMU` or `AddMeasurement`. -/
inductive Op (A W M : Type) where
  | imu (t : ℚ) (u : Input A W)
  | meas (m : Meas M)

/-- Calls of the public interface: `Init`, `ProcessIMU`, `ProcessExternallyPropagatedState`,
`AddMeasurement`. -/
inductive Api (A W X C M E : Type) where
  | init (t : ℚ) (s : St A W X C)
  | imu (t : ℚ) (u : Input A W)
  | ext (t : ℚ) (u : Input A W) (e : Option E)
  | meas (m : Meas M)

/-- What the core publishes through its sensor manager. -/
inductive Event (X C : Type) where
  | initial (t : ℚ) (x : X) (P : C)
  | afterPropagation (t : ℚ) (x : X) (P : C)
  | afterUpdate (t : ℚ) (x : X) (P : C)
  deriving DecidableEq, Repr

/-- Members of `MSF_Core` (msf_core.h:189-216) together with the function-local statics
`last_am` (L145 and L246) and `janitorRun` (L821).  `out` logs what has been published. -/
structure Core (A W X C M T : Type) where
  states : Buf (St A W X C)
  meas : Buf (Meas M)
  queue : List (Meas M)
  tP : ℚ
  itImu : Iter
  inited : Bool
  predMade : Bool
  fuzzy : Bool
  tracker : T
  lastAmImu : A
  lastAmExt : A
  janitor : Nat
  out : List (Event X C)

/-- The two `std::map` implementations in use (state and measurement buffer). -/
structure Env where
  ps : Plat
  pm : Plat

section
variable {A W X C M T E : Type}

/-- Linear interpolation of an input between the states at `tl` and `tr`, L787-794. -/
def lerp {A : Type} [AddCommGroup A] [Module ℚ A] (tl tr : ℚ) (al ar : A) (t : ℚ) : A :=
  al + ((t - tl) / (tr - tl)) • (ar - al)

/-- Interpolation of both inputs. -/
def lerpInput [AddCommGroup A] [Module ℚ A] [AddCommGroup W] [Module ℚ W]
    (tl tr : ℚ) (ul ur : Input A W) (t : ℚ) : Input A W :=
  ⟨lerp tl tr ul.a ur.a t, lerp tl tr ul.w ur.w t⟩

namespace Core

/-- `MSF_Core::MSF_Core`, L40-51. -/
def new [Zero A] (K : Kernel A W X C M T E) : Core A W X C M T :=
  { states := {}, meas := {}, queue := [], tP := 0, itImu := .fin, inited := false,
    predMade := false, fuzzy := false, tracker := K.tr0, lastAmImu := 0, lastAmExt := 0,
    janitor := 0, out := [] }

/-- `MSF_Core::PredictProcessCovariance`, L443-543, on two buffered states. -/
def predictCov (K : Kernel A W X C M T E) (c : Core A W X C M T)
    (old new : Node (St A W X C)) : Core A W X C M T :=
  if new.key - old.key ≤ 0 then c
  else
    { c with
      states := c.states.modify new.key
        (fun s => { s with P := K.predP (new.key - old.key) old.val.P s.u s.x })
      tP := new.key }

/-- `MSF_Core::PropagatePOneStep`, L393-422. -/
def propagatePOneStep (K : Kernel A W X C M T E) (c : Core A W X C M T) :
    Except UB (Core A W X C M T) := do
  let it := c.states.iterAtValue c.tP
  let next ← c.states.incr it
  if next = .fin then return c
  let o ← c.states.deref it
  let n ← c.states.deref next
  let c := predictCov K c o n
  if K.numPos n.val.x then return c
  else return { c with predMade := false, inited := false }

/-- The loop of `PropPToState`, L838-841.  `fuel` bounds the number of iterations. -/
def propPLoop (K : Kernel A W X C M T E) (t : ℚ) :
    Nat → Core A W X C M T → Iter → Iter → Except UB (Core A W X C M T)
  | 0, _, _, _ => .error .fuel
  | fuel + 1, c, it, itMinus =>
    if it = .fin then .ok c
    else do
      let n ← c.states.deref it
      if n.key ≤ t then
        let m ← c.states.deref itMinus
        let c := predictCov K c m n
        let it ← c.states.incr it
        let itMinus ← c.states.incr itMinus
        propPLoop K t fuel c it itMinus
      else return c

/-- `MSF_Core::PropPToState`, L831-842, for a state with time `t`. -/
def propPToState (K : Kernel A W X C M T E) (c : Core A W X C M T) (t : ℚ) :
    Except UB (Core A W X C M T) := do
  let itMinus := c.states.iterAtValue c.tP
  let it ← c.states.incr itMinus
  propPLoop K t (c.states.size + 1) c it itMinus

/-- `MSF_Core::CleanUpBuffers`, L322-326. -/
def cleanUp (env : Env) (c : Core A W X C M T) : Except UB (Core A W X C M T) := do
  let s ← c.states.clearOlderThan env.ps 60
  let m ← c.meas.clearOlderThan env.pm 60
  return { c with states := s, meas := m }

/-- Lines 769-811 of `GetClosestState`: if the closest state `n` is more than 1 ms away, insert an
interpolated state at `t`.  Returns the node that is used from here on. -/
def interpolate [AddCommGroup A] [Module ℚ A] [AddCommGroup W] [Module ℚ W]
    (K : Kernel A W X C M T E) (c : Core A W X C M T) (n : Node (St A W X C)) (t : ℚ) :
    Core A W X C M T × Iter :=
  if |n.key - t| > 1 / 1000 then
    match c.states.closestBefore t, c.states.closestAfter t with
    | some l, some r =>
      if l.key ≠ invalidTime ∧ r.key ≠ invalidTime ∧ K.numX l.val.x = true ∧
          K.numX r.val.x = true ∧ l.key ≠ r.key then
        let u := lerpInput l.key r.key l.val.u r.val.u t
        let s : St A W X C := ⟨u, K.prop (t - l.key) l.val.u l.val.x u, K.P0⟩
        let (b, it) := c.states.insert t s
        ({ c with states := b, tP := if c.tP > l.key then l.key else c.tP }, it)
      else (c, n.iter)
    | _, _ => (c, n.iter)
  else (c, n.iter)

/-- `MSF_Core::GetClosestState`, L747-828.  `none` is the object `invalid`. -/
def getClosestState [AddCommGroup A] [Module ℚ A] [AddCommGroup W] [Module ℚ W]
    (env : Env) (K : Kernel A W X C M T E) (c : Core A W X C M T) (t : ℚ) :
    Except UB (Core A W X C M T × Option (Node (St A W X C))) := do
  let it ← c.states.iterClosest env.ps t
  let n ← c.states.deref it
  if n.key = invalidTime ∨ |n.key - t| > 1 / 10 then return (c, none)
  let (c, it) := interpolate K c n t
  let n ← c.states.deref it
  let c ← propPToState K c n.key
  let n ← c.states.deref it
  if K.numX n.val.x then
    if c.janitor > 100 then
      let c ← cleanUp env { c with janitor := 0 }
      return (c, some n)
    else return ({ c with janitor := c.janitor + 1 }, some n)
  else return (c, none)

/-- Re-propagation loop of `AddMeasurement`, L686-699.  The test `it_curr->second ==
it_next->second` (L690) compares distinct objects and is never true.  The second component
reports the early `return` of L696-697. -/
def propLoop (K : Kernel A W X C M T E) :
    Nat → Core A W X C M T → Iter → Iter → Iter → Except UB (Core A W X C M T × Bool)
  | 0, _, _, _, _ => .error .fuel
  | fuel + 1, c, cur, next, stop =>
    if cur = stop ∨ next = stop then .ok (c, false)
    else do
      let a ← c.states.deref cur
      let b ← c.states.deref next
      if a.key = invalidTime ∨ b.key = invalidTime then return (c, false)
      if c.inited = false ∨ c.predMade = false then return (c, true)
      let c := { c with
        states := c.states.modify b.key
          (fun s => { s with x := K.prop (b.key - a.key) a.val.u a.val.x s.u }) }
      let cur ← c.states.incr cur
      let next ← c.states.incr next
      propLoop K fuel c cur next stop

/-- `it_meas->second->Apply(state, *this)` (L660).  The state object is changed through its pointer:
this is visible in the buffer as long as its node has not been erased. -/
def applyMeas (K : Kernel A W X C M T E) (c : Core A W X C M T) (m : Meas M)
    (s : Node (St A W X C)) : Core A W X C M T :=
  let r := K.update c.tracker m.body s.val.x s.val.P
  let states := match c.states.deref s.iter with
    | .ok _ => c.states.modify s.key (fun v => { v with x := r.x, P := r.P })
    | .error _ => c.states
  { c with
    states := states
    tracker := r.tr
    fuzzy := c.fuzzy || r.fuzzy
    tP := if r.applied then s.key else c.tP }

/-- Lines 664-700 of `AddMeasurement`: propagate from the corrected state to the state after the next
measurement, or to the newest state. -/
def repropagate (K : Kernel A W X C M T E) (c : Core A W X C M T) (sKey : ℚ) (itNext : Iter) :
    Except UB (Core A W X C M T × Bool) := do
  let cur := c.states.iterAtValue sKey
  let stop ← match itNext with
    | .fin => (pure .fin : Except UB Iter)
    | .at k i => do
      let nm ← c.meas.deref (.at k i)
      let e := c.states.iterClosestAfter nm.key
      if e ≠ .fin then c.states.incr e else pure e
  let next ← c.states.incr cur
  propLoop K (c.states.size + 1) c cur next stop

/-- Measurement loop of `AddMeasurement`, L643-702.  The result is the core, `appliedOne`, and whether
the function returned from inside the loop. -/
def measLoop [AddCommGroup A] [Module ℚ A] [AddCommGroup W] [Module ℚ W]
    (env : Env) (K : Kernel A W X C M T E) :
    Nat → Core A W X C M T → Iter → Bool → Except UB (Core A W X C M T × Bool × Bool)
  | 0, _, _, _ => .error .fuel
  | fuel + 1, c, it, applied =>
    if it = .fin then .ok (c, applied, false)
    else do
      let m ← c.meas.deref it
      if m.key ≤ 0 then
        measLoop env K fuel c (← c.meas.incr it) applied
      else
        let (c, st) ← getClosestState env K c m.key
        match st with
        | none => measLoop env K fuel c (← c.meas.incr it) applied
        | some s =>
          if s.key ≤ 0 then measLoop env K fuel c (← c.meas.incr it) applied
          else
            let m ← c.meas.deref it
            let c := applyMeas K c m.val s
            let itNext ← c.meas.incr it
            let (c, aborted) ← repropagate K c s.key itNext
            if aborted then return (c, true, true)
            measLoop env K fuel c itNext true

/-- Lines 704-714 of `AddMeasurement`. -/
def finishMeas (K : Kernel A W X C M T E) (c : Core A W X C M T) :
    Except UB (Core A W X C M T) := do
  let c ← propPToState K c (timeOf c.states.last)
  match c.states.last with
  | none => return c
  | some n => return { c with out := c.out ++ [.afterUpdate n.key n.val.x n.val.P] }

/-- `MSF_Core::AddMeasurement`, L604-715. -/
def addMeasurement [AddCommGroup A] [Module ℚ A] [AddCommGroup W] [Module ℚ W]
    (env : Env) (K : Kernel A W X C M T E) (c : Core A W X C M T) (m : Meas M) :
    Except UB (Core A W X C M T) := do
  if c.inited = false ∨ c.predMade = false then return c
  if m.time > timeOf c.states.last then return { c with queue := c.queue ++ [m] }
  if m.time < timeOf c.states.first then return c
  let (mb, it) := c.meas.insert m.time m
  let (c, applied, aborted) ←
    measLoop env K (mb.size + 1) { c with meas := mb, fuzzy := false } it false
  if aborted = true ∨ applied = false then return c
  finishMeas K c

/-- `MSF_Core::HandlePendingMeasurements`, L312-319. -/
def handlePending [AddCommGroup A] [Module ℚ A] [AddCommGroup W] [Module ℚ W]
    (env : Env) (K : Kernel A W X C M T E) (c : Core A W X C M T) :
    Except UB (Core A W X C M T) :=
  match c.queue with
  | [] => .ok c
  | m :: q => addMeasurement env K { c with queue := q } m

/-- Lines 185-205 of `ProcessIMU`: propagate, insert, propagate the covariance one step, publish, and
re-try one pending measurement. -/
def imuPropagate [AddCommGroup A] [Module ℚ A] [AddCommGroup W] [Module ℚ W]
    (env : Env) (K : Kernel A W X C M T E) (c : Core A W X C M T)
    (last : Node (St A W X C)) (t : ℚ) (u : Input A W) : Except UB (Core A W X C M T) := do
  let s : St A W X C := ⟨u, K.prop (t - last.key) last.val.u last.val.x u, K.P0⟩
  let wasThere := (c.states.find t).isSome
  let (b, it) := c.states.insert t s
  let c ← propagatePOneStep K { c with states := b, itImu := it }
  -- L195 publishes `currentState`, which is the buffered object unless the insertion was refused
  let cur ← if wasThere then .ok s else (c.states.deref it).map Node.val
  let c := { c with out := c.out ++ [.afterPropagation t cur.x cur.P] }
  let c := if c.states.size > 3 then { c with predMade := true } else c
  if c.predMade then handlePending env K c else return c

/-- `MSF_Core::ProcessIMU`, L98-207. -/
def processIMU [AddCommGroup A] [Module ℚ A] [AddCommGroup W] [Module ℚ W]
    (env : Env) (K : Kernel A W X C M T E) (c : Core A W X C M T) (t : ℚ) (u : Input A W) :
    Except UB (Core A W X C M T) := do
  if c.inited = false then return c
  let it ← if c.itImu = .fin then c.states.iterClosestBefore env.ps t else pure c.itImu
  let c := { c with itImu := it }
  let last ← c.states.deref it
  if last.key = invalidTime then return c
  if t - last.key < -(1 / 100) ∧ c.predMade = true then
    return { c with inited := false, predMade := false }
  let spiky := K.spike u.a
  let u : Input A W := if spiky then { u with a := c.lastAmImu } else u
  let c := if spiky then c else { c with lastAmImu := last.val.u.a }
  if c.predMade = false ∧ |t - last.key| > 1 / 10 then
    return { c with states := (c.states.updateTime last.key t).1, tP := t }
  imuPropagate env K c last t u

/-- `MSF_Core::ProcessExternallyPropagatedState`, L210-309.  `ext = some e` when
`is_already_propagated` holds; the numeric check of L264 looks at a freshly reset state and is
true. -/
def processExternal [AddCommGroup A] [Module ℚ A] [AddCommGroup W] [Module ℚ W]
    (env : Env) (K : Kernel A W X C M T E) (c : Core A W X C M T) (t : ℚ) (u : Input A W)
    (ext : Option E) : Except UB (Core A W X C M T) := do
  if c.inited = false then return c
  match c.states.last with
  | none => return c
  | some last =>
    if last.key = invalidTime then return c
    let u : Input A W := if K.spike u.a then { u with a := c.lastAmExt } else u
    let c := { c with lastAmExt := u.a }
    if c.predMade = false ∧ |t - last.key| > 5 then
      return { c with states := (c.states.updateTime last.key t).1 }
    let x := match ext with
      | some e => K.extProp e last.val.x
      | none => K.prop (t - last.key) last.val.u last.val.x u
    let (c, P) :=
      if c.predMade = false then
        ({ c with tP := t, states := c.states.clear, meas := c.meas.clear, queue := [] }, last.val.P)
      else (c, K.P0)
    let s : St A W X C := ⟨u, x, P⟩
    let wasThere := (c.states.find t).isSome
    let (b, it) := c.states.insert t s
    let c ← propagatePOneStep K { c with states := b }
    let c := { c with predMade := true }
    let cur ← if wasThere then .ok s else (c.states.deref it).map Node.val
    handlePending env K { c with out := c.out ++ [.afterPropagation t cur.x cur.P] }

/-- `MSF_Core::Init`, L546-601, with an init measurement that yields the state `s` at time `t`
(`MSF_InitMeasurement::Apply`, msf_measurement_inl.h:200-228, applied to a reset state; its
contents are modelled in `Model/Managers.lean`).  The `assert(state->time != 0)` of L577 is compiled
out in Release builds. -/
def init (K : Kernel A W X C M T E) (c : Core A W X C M T) (t : ℚ) (s : St A W X C) :
    Core A W X C M T :=
  let (b, it) := c.states.clear.insert t s
  { c with
    inited := true
    predMade := false
    meas := c.meas.clear
    states := b
    tracker := K.tr0
    queue := []
    out := c.out ++ [.initial t s.x s.P]
    itImu := it
    tP := t }

/-- Backward search of `GetPreviousMeasurement`, L730-733. -/
def prevLoop (env : Env) (c : Core A W X C M T) (t : ℚ) (sensor : Int) (bb : Iter) :
    Nat → Iter → Except UB Iter
  | 0, _ => .error .fuel
  | fuel + 1, it =>
    if it = bb then .ok it
    else do
      let n ← c.meas.deref it
      if n.key ≠ t ∧ n.val.sensor ≠ sensor then
        prevLoop env c t sensor bb fuel (← c.meas.decr env.pm it)
      else return it

/-- `MSF_Core::GetPreviousMeasurement`, L718-739. -/
def getPreviousMeasurement (env : Env) (c : Core A W X C M T) (t : ℚ) (sensor : Int) :
    Except UB (Option (Node (Meas M))) := do
  let it := c.meas.iterAtValue t
  let n ← c.meas.deref it
  if n.key ≠ t then return none
  let it ← c.meas.decr env.pm it
  let bb ← c.meas.iterBeforeBegin env.pm
  let it ← prevLoop env c t sensor bb (c.meas.size + 1) it
  if it = bb then return none
  return some (← c.meas.deref it)

/-- A caller that makes IMU and measurement calls one after the other. -/
def call [AddCommGroup A] [Module ℚ A] [AddCommGroup W] [Module ℚ W]
    (env : Env) (K : Kernel A W X C M T E) (c : Core A W X C M T) :
    Op A W M → Except UB (Core A W X C M T)
  | .imu t u => processIMU env K c t u
  | .meas m => addMeasurement env K c m

/-- A sequence of such calls (the code takes no lock; callers are assumed to be serialised). -/
def calls [AddCommGroup A] [Module ℚ A] [AddCommGroup W] [Module ℚ W]
    (env : Env) (K : Kernel A W X C M T E) :
    Core A W X C M T → List (Op A W M) → Except UB (Core A W X C M T)
  | c, [] => .ok c
  | c, o :: os => do calls env K (← call env K c o) os

/-- Any call of the public interface that changes the filter. -/
def api [AddCommGroup A] [Module ℚ A] [AddCommGroup W] [Module ℚ W]
    (env : Env) (K : Kernel A W X C M T E) (c : Core A W X C M T) :
    Api A W X C M E → Except UB (Core A W X C M T)
  | .init t s => .ok (init K c t s)
  | .imu t u => processIMU env K c t u
  | .ext t u e => processExternal env K c t u e
  | .meas m => addMeasurement env K c m

/-- A sequence of such calls. -/
def apis [AddCommGroup A] [Module ℚ A] [AddCommGroup W] [Module ℚ W]
    (env : Env) (K : Kernel A W X C M T E) :
    Core A W X C M T → List (Api A W X C M E) → Except UB (Core A W X C M T)
  | c, [] => .ok c
  | c, o :: os => do apis env K (← api env K c o) os

end Core
end
end MSF
