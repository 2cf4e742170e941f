import Verif.Model.Core
import Verif.Model.Propagate
import Verif.Model.Predict
import Verif.Model.Sensors
import Verif.Model.Managers

/-!
# The numerical kernel of the shipped filters

The control flow of the core (`Verif.Model.Core`) is modelled over an abstract `Kernel`.  Here the
kernel is filled with the modelled numerics: `PropagateState`, `PredictProcessCovariance` and the
absolute measurement update.  Times are rational numbers as in the model of the core, all other
numbers are real.

The mean is the tuple of values of the state variables; the noise blocks `Q` inside the state
variables are scratch space of `PredictProcessCovariance`, which sets them before it reads them.
`none` stands for a state or covariance that contains NaN (a quaternion that cannot be normalized,
a singular innovation covariance).  The checks `CheckForNumeric`, which only look for NaN, are taken
to pass.
-/

namespace MSF

open Matrix

/-- The values of the state variables. -/
abbrev Values (D : List VarDesc) := (i : Fin D.length) → Val ℝ (D.get i).kind

/-- The values held by a state object. -/
def values {D : List VarDesc} (s : Vars ℝ D) : Values D := fun i => (s i).val

/-- State variables with the given values, as the constructor leaves the rest (msf_state.h:66-69). -/
def toVars {D : List VarDesc} (x : Values D) : Vars ℝ D := fun i => ⟨x i, 0, false⟩

/-- A new state object (msf_state.h:146-161) with given variables, inputs and time. -/
noncomputable def mkState {D : List VarDesc} (vars : Vars ℝ D) (u : Input (V3 ℝ) (V3 ℝ)) (t : ℝ)
    (P : ErrMat ℝ D) : EKFState ℝ D :=
  { vars := vars, w_m := u.w, a_m := u.a, time := t, P := P, Fd := 1, Qd := 0 }

/-- What an absolute measurement of the shipped sensors consists of: Jacobian and residual as
functions of the state, noise and outlier gate.  No state is fixed, so the covariance is not
changed before the update. -/
structure AbsMeas (D : List VarDesc) where
  dim : Nat
  H : Vars ℝ D → Option (Matrix (Fin dim) (Fin (total errLen D)) ℝ)
  r : Vars ℝ D → Option (Fin dim → ℝ)
  R : Matrix (Fin dim) (Fin dim) ℝ
  enable : Bool
  thr : ℝ

/-- `PositionMeasurement` with `p_ip` at position `pip`, position_measurement.h:150-198. -/
noncomputable def positionMeas {aux : List VarDesc} (pip : Nat) (enable : Bool) (thr : ℝ) (z : V3 ℝ)
    (R_ : M33 ℝ) : AbsMeas (coreDef aux) :=
  ⟨3, positionH pip 0, positionResidual pip z, R_, enable, thr⟩

/-- `AngleMeasurement`, spherical_measurement.h:252-323. -/
noncomputable def angleMeas {aux : List VarDesc} (pip : Nat) (enable : Bool) (thr : ℝ)
    (z : Fin 2 → ℝ) (n_za : ℝ) : AbsMeas (coreDef aux) :=
  ⟨2, angleH pip, angleResidual pip z, Matrix.diagonal fun _ => n_za * n_za, enable, thr⟩

/-- `DistanceMeasurement`, spherical_measurement.h:468-524. -/
noncomputable def distanceMeas {aux : List VarDesc} (pip : Nat) (enable : Bool) (thr : ℝ)
    (z n_zd : ℝ) : AbsMeas (coreDef aux) :=
  ⟨1, distanceH pip, distanceResidual pip z, Matrix.diagonal fun _ => n_zd * n_zd, enable, thr⟩

/-- `Apply` of a measurement up to the end of `ApplyCorrection`, msf_measurement_inl.h:34-126:
tracker, values, covariance, whether the correction was applied, whether it was fuzzy. -/
noncomputable def measUpdate {aux : List VarDesc} (uc : UserCalc (coreDef aux)) (tr : Tracker ℝ)
    (m : AbsMeas (coreDef aux)) (x : Values (coreDef aux)) (P : ErrMat ℝ (coreDef aux)) :
    Option (Upd (Values (coreDef aux)) (ErrMat ℝ (coreDef aux)) (Tracker ℝ)) := do
  let H ← m.H (toVars x)
  let r ← m.r (toVars x)
  match ← calculateCorrection m.enable m.thr P H r m.R with
  | none => some ⟨tr, x, P, false, false⟩
  | some (c, P') =>
    let (t', vars, fz) ← applyCorrection uc tr (toVars x) c
    some ⟨t', values vars, P', true, fz⟩

/-- The externally propagated part of a state: position, velocity, attitude. -/
structure ExtState where
  p : V3 ℝ
  v : V3 ℝ
  q : Quat ℝ

open Classical EKFState in
/-- The kernel of a filter with auxiliary states `aux`, process noise `np` and manager hooks `uc`.
The tracker after `Reset` (msf_checkFuzzyTracking.h:36-50) is `⟨1, 0⟩`. -/
noncomputable def filterKernel {aux : List VarDesc} (np : NoiseParams ℝ (coreDef aux))
    (uc : UserCalc (coreDef aux)) :
    Kernel (V3 ℝ) (V3 ℝ) (Option (Values (coreDef aux))) (Option (ErrMat ℝ (coreDef aux)))
      (AbsMeas (coreDef aux)) (Tracker ℝ) ExtState where
  prop dt uOld xOld uNew := do
    let x ← xOld
    let s ← propagateState (mkState (toVars x) uOld 0 0) (mkState (noInit _) uNew (dt : ℝ) 0)
    some (values s.vars)
  extProp e xLast := xLast.map fun x => values (setQ (setV (setP (toVars x) e.p) e.v) e.q)
  predP dt POld uNew xNew := do
    let P ← POld
    let x ← xNew
    let (_, s, _) ← predictProcessCovariance np (mkState (noInit _) ⟨0, 0⟩ 0 P)
      (mkState (toVars x) uNew (dt : ℝ) 0) 0
    some s.P
  update tr m x P :=
    match x, P with
    | some x, some P =>
      match measUpdate uc tr m x P with
      | some u => ⟨u.tr, some u.x, some u.P, u.applied, u.fuzzy⟩
      | none => ⟨tr, none, none, true, false⟩
    | _, _ => ⟨tr, none, none, true, false⟩
  P0 := some 0
  tr0 := ⟨1, fun _ _ => 0⟩
  spike a := decide (50 * 50 < sqNorm3 a)
  numX _ := true
  numPos _ := true

/-- A measurement of a sensor with fixed states: before the correction is computed, the cross
covariance of every variable of `cleared` whose bit is set in `fixed` is cleared. -/
structure SensorMeas (D : List VarDesc) extends AbsMeas D where
  fixed : Nat
  cleared : List Nat

/-- `Apply` of such a measurement.  The cleared covariance stays when the outlier test rejects. -/
noncomputable def sensorUpdate {aux : List VarDesc} (uc : UserCalc (coreDef aux)) (tr : Tracker ℝ)
    (m : SensorMeas (coreDef aux)) (x : Values (coreDef aux)) (P : ErrMat ℝ (coreDef aux)) :
    Option (Upd (Values (coreDef aux)) (ErrMat ℝ (coreDef aux)) (Tracker ℝ)) := do
  let P ← clearFixed m.fixed m.cleared P
  measUpdate uc tr m.toAbsMeas x P

/-- An absolute reading of a shipped sensor together with the settings of its handler: the positions
of the variables, the fixed states, the outlier gate, the measured value and its noise. -/
inductive Reading where
  | position (pip fixed : Nat) (enable : Bool) (thr : ℝ) (z : V3 ℝ) (R_ : M33 ℝ)
  | pose (ix : PoseIdx) (fixed : Nat) (enable : Bool) (thr : ℝ) (z : PoseMeas ℝ)
  | pressure (bp : Nat) (enable : Bool) (thr : ℝ) (z n_zp : ℝ)
  | angle (pip fixed : Nat) (enable : Bool) (thr : ℝ) (z : Fin 2 → ℝ) (n_za : ℝ)
  | distance (pip fixed : Nat) (enable : Bool) (thr : ℝ) (z n_zd : ℝ)

/-- What `Apply` computes from a reading: position_measurement.h:150-198, pose_measurement.h:284-341,
pressure_measurement.h:72-114, spherical_measurement.h:252-323 and :468-524. -/
noncomputable def Reading.meas {aux : List VarDesc} : Reading → SensorMeas (coreDef aux)
  | .position pip fixed enable thr z R_ =>
    ⟨⟨3, positionH pip fixed, positionResidual pip z, R_, enable, thr⟩, fixed, [pip]⟩
  | .pose ix fixed enable thr z =>
    ⟨⟨7, poseH ix fixed, fun s => do (← poseView ix s).residual z.z_p z.z_q, z.R_, enable, thr⟩,
      fixed, ix.clearOrder⟩
  | .pressure bp enable thr z n_zp =>
    ⟨⟨1, fun _ => pressureH bp, pressureResidual bp z, Matrix.diagonal fun _ => n_zp * n_zp, enable,
      thr⟩, 0, []⟩
  | .angle pip fixed enable thr z n => ⟨angleMeas pip enable thr z n, fixed, [pip]⟩
  | .distance pip fixed enable thr z n => ⟨distanceMeas pip enable thr z n, fixed, [pip]⟩

/-- The kernel of a filter whose sensors may fix states. -/
noncomputable def sensorKernel {aux : List VarDesc} (np : NoiseParams ℝ (coreDef aux))
    (uc : UserCalc (coreDef aux)) :
    Kernel (V3 ℝ) (V3 ℝ) (Option (Values (coreDef aux))) (Option (ErrMat ℝ (coreDef aux)))
      (SensorMeas (coreDef aux)) (Tracker ℝ) ExtState :=
  let K := filterKernel np uc
  { prop := K.prop
    extProp := K.extProp
    predP := K.predP
    update := fun tr m x P =>
      match x, P with
      | some x, some P =>
        match sensorUpdate uc tr m x P with
        | some u => ⟨u.tr, some u.x, some u.P, u.applied, u.fuzzy⟩
        | none => ⟨tr, none, none, true, false⟩
      | _, _ => ⟨tr, none, none, true, false⟩
    P0 := K.P0
    tr0 := K.tr0
    spike := K.spike
    numX := K.numX
    numPos := K.numPos }

/-- The kernel of a filter that is fed with readings of the shipped sensors. -/
noncomputable def readingKernel {aux : List VarDesc} (np : NoiseParams ℝ (coreDef aux))
    (uc : UserCalc (coreDef aux)) :
    Kernel (V3 ℝ) (V3 ℝ) (Option (Values (coreDef aux))) (Option (ErrMat ℝ (coreDef aux)))
      Reading (Tracker ℝ) ExtState :=
  let K := sensorKernel np uc
  { prop := K.prop
    extProp := K.extProp
    predP := K.predP
    update := fun tr m => K.update tr m.meas
    P0 := K.P0
    tr0 := K.tr0
    spike := K.spike
    numX := K.numX
    numPos := K.numPos }

end MSF
