import Verif.Model.Covariance
import Mathlib.Analysis.SpecialFunctions.Trigonometric.Arctan
import Mathlib.Analysis.SpecialFunctions.Trigonometric.Inverse

/-!
# Measurements of the shipped sensors
(msf_updates/include/msf_updates/{pose,position,pressure}_sensor_handler/*_measurement.h and
spherical_position_sensor/spherical_measurement.h)

Everything is generic in the auxiliary states; the positions of the variables in the state
definition are parameters, as the template arguments of `PoseMeasurement`.  A variable of the wrong
type or a block outside the matrix is `none` (compile error or Eigen assertion).  A division by
zero inside a residual or a Jacobian (the C++ code continues with NaN or infinity) is `none` too.
`CheckForNumeric` only logs and is left out.
-/

namespace MSF

open Matrix

section
variable {R : Type} {D : List VarDesc}

/-- A variable used as a vector of length `n`. -/
def vecOf (n : Nat) : (k : Kind) → Val R k → Option (Fin n → R)
  | .vec m, x => if h : m = n then some fun i => x (i.cast h.symm) else none
  | .quat, _ => none

/-- `Get<i>()` used as a vector of length `n`, msf_state_inl.h:55-67. -/
def getVec (s : Vars R D) (i n : Nat) : Option (Fin n → R) :=
  if h : i < D.length then vecOf n _ (s ⟨i, h⟩).val else none

/-- `Get<i>()` used as a quaternion. -/
def getQuat (s : Vars R D) (i : Nat) : Option (Quat R) :=
  if h : i < D.length then quatOf _ (s ⟨i, h⟩).val else none

/-- `H.block<a, b>(row, kIdxstartcorr + off) = B` for the variable at position `i`. -/
def putBlock {m a b : Nat} (H : Matrix (Fin m) (Fin (total errLen D)) R) (row i : Nat)
    (B : Matrix (Fin a) (Fin b) R) (off : Nat := 0) :
    Option (Matrix (Fin m) (Fin (total errLen D)) R) := do
  let st ← startIndexInCorrection D i
  if 0 ≤ st ∧ st.toNat + off + b ≤ total errLen D ∧ row + a ≤ m then
    some (setBlock H row (st.toNat + off) B)
  else none

/-- `if (fixedstates_ & 1 << i) state_in->ClearCrossCov<i>();` for the listed variables. -/
def clearFixed [Zero R] (fixed : Nat) (is : List Nat) (P : ErrMat R D) : Option (ErrMat R D) :=
  is.foldlM (fun P i => if fixed.testBit i then clearCrossCov P i else some P) P

end

/-! ### Pose measurement -/

/-- The template arguments of `PoseMeasurement`, pose_measurement.h:38-45. -/
structure PoseIdx where
  L : Nat
  qic : Nat
  pic : Nat
  qwv : Nat
  pwv : Nat

/-- The state variables that a pose measurement reads. -/
structure PoseView (R : Type) where
  p : V3 R
  q : Quat R
  L : R
  qic : Quat R
  pic : V3 R
  qwv : Quat R
  pwv : V3 R

section
variable {R : Type}

/-- The calls of `Get<..>()`. -/
def poseView {aux : List VarDesc} (ix : PoseIdx) (s : Vars R (coreDef aux)) :
    Option (PoseView R) := do
  let L ← getVec s ix.L 1
  let qic ← getQuat s ix.qic
  let pic ← getVec s ix.pic 3
  let qwv ← getQuat s ix.qwv
  let pwv ← getVec s ix.pwv 3
  some ⟨EKFState.p s, EKFState.q s, L 0, qic, pic, qwv, pwv⟩

/-- Predicted position, pose_measurement.h:307-312: the rotation matrices are those of the
conjugates, used transposed. -/
def PoseView.predPos [CommRing R] (v : PoseView R) : V3 R :=
  let Cwv := v.qwv.conj.toRot
  let Cq := v.q.conj.toRot
  v.L • (Cwvᵀ *ᵥ (-v.pwv + v.p + Cqᵀ *ᵥ v.pic))

/-- Predicted attitude, pose_measurement.h:316-318. -/
def PoseView.predAtt [CommRing R] (v : PoseView R) : Quat R := (v.qwv.mul v.q).mul v.qic

/-- `q_err.vec() / q_err.w() * 2`, pose_measurement.h:319. -/
def attResidual [Field R] [DecidableEq R] (e : Quat R) : Option (V3 R) :=
  if e.w = 0 then none else some fun i => e.vec i / e.w * 2

/-- The vision world yaw, pose_measurement.h:320-324. -/
def yawResidual [Field R] [DecidableEq R] (e : Quat R) : Option R :=
  if 1 - 2 * (e.y * e.y + e.z * e.z) = 0 then none
  else some (-2 * (e.w * e.z + e.x * e.y) / (1 - 2 * (e.y * e.y + e.z * e.z)))

/-- Seven rows: position, attitude, yaw. -/
def rows7 (a b : V3 R) (c : R) : Fin 7 → R := ![a 0, a 1, a 2, b 0, b 1, b 2, c]

/-- The residual of an absolute pose measurement, pose_measurement.h:298-324. -/
def PoseView.residual [Field R] [DecidableEq R] (v : PoseView R) (z_p : V3 R) (z_q : Quat R) :
    Option (Fin 7 → R) := do
  let a ← attResidual (v.predAtt.conj.mul z_q)
  let y ← yawResidual v.qwv
  some (rows7 (z_p - v.predPos) a y)

/-- `PoseMeasurement::CalculateH` without the change of `P`, pose_measurement.h:157-275.
`fixed` is `fixedstates_`. -/
def poseH [CommRing R] {aux : List VarDesc} (ix : PoseIdx) (fixed : Nat)
    (s : Vars R (coreDef aux)) :
    Option (Matrix (Fin 7) (Fin (total errLen (coreDef aux))) R) := do
  let v ← poseView ix s
  let Cwv := v.qwv.toRot
  let Cq := v.q.toRot
  let Cci := v.qic.conj.toRot
  let vecold := v.L • (-v.pwv + v.p + Cq *ᵥ v.pic)
  let scalefix := fixed.testBit ix.L
  let calibposfix := fixed.testBit ix.pic
  let calibattfix := fixed.testBit ix.qic
  let driftwvattfix := fixed.testBit ix.qwv
  let driftwvposfix := fixed.testBit ix.pwv
  let H := 0
  let H ← putBlock H 0 0 (v.L • Cwv)
  let H ← putBlock H 0 2 (v.L • (-Cwv * Cq * skew v.pic))
  let H ← putBlock H 0 ix.L (if scalefix then 0 else
    Matrix.of fun i (_ : Fin 1) => ((Cwv * Cq) *ᵥ v.pic + Cwv *ᵥ (-v.pwv + v.p)) i)
  let H ← putBlock H 0 ix.qwv (if driftwvattfix then 0 else -Cwv * skew vecold)
  let H ← putBlock H 0 ix.pic (if calibposfix then 0 else v.L • (Cwv * Cq))
  let H ← putBlock H 0 ix.pwv (if driftwvposfix then 0 else (-1 : M33 R))
  let H ← putBlock H 3 2 Cci
  let H ← putBlock H 3 ix.qwv (if driftwvattfix then 0 else Cci * Cqᵀ)
  putBlock H 3 ix.qic (if calibattfix then 0 else (1 : M33 R))

/-- Data members `z_p_`, `z_q_`, `R_` of a pose measurement. -/
structure PoseMeas (R : Type) where
  z_p : V3 R
  z_q : Quat R
  R_ : Matrix (Fin 7) (Fin 7) R

/-- Data members set by the constructor, pose_measurement.h:137-152. -/
structure PoseCfg (R : Type) where
  n_zp : R
  n_zq : R
  worldSensor : Bool
  fixedCovariance : Bool

/-- `PoseMeasurement::MakeFromSensorReadingImpl`, pose_measurement.h:50-113, without distorter and
without the warning about the determinant.  `R_` is zero before (msf_measurement.h:131).
The covariance of the message is read as a column-major matrix. -/
def makePose [Field R] (cfg : PoseCfg R) (pos : V3 R) (att : Quat R) (cov : Fin 36 → R) :
    PoseMeas R :=
  if cfg.fixedCovariance then
    let zp := cfg.n_zp * cfg.n_zp
    let zq := cfg.n_zq * cfg.n_zq
    ⟨pos, att, Matrix.diagonal ![zp, zp, zp, zq, zq, zq, 1 / 1000000]⟩
  else
    let R0 : Matrix (Fin 7) (Fin 7) R := setBlock 0 0 0 (ofArray6 cov)
    let R1 := setBlock R0 0 3 (0 : M33 R)
    let R2 := setBlock R1 3 0 (0 : M33 R)
    let R3 := setBlock R2 6 6 (Matrix.of fun (_ _ : Fin 1) => (1 / 1000000 : R))
    if cfg.worldSensor then ⟨pos, att, R3⟩
    else
      let Czq := att.toRot
      let C : Matrix (Fin 6) (Fin 6) R := setBlock (setBlock 0 0 0 Czq) 3 3 Czq
      let R6 := getBlock R3 0 0 6 6 (by decide) (by decide)
      ⟨-Czqᵀ *ᵥ pos, att.conj, setBlock R3 0 0 (Cᵀ * R6 * C)⟩

/-- The order in which `CalculateH` clears cross covariances, pose_measurement.h:212-222. -/
def PoseIdx.clearOrder (ix : PoseIdx) : List Nat := [ix.L, ix.pic, ix.qic, ix.qwv, ix.pwv]

/-- The residual of a relative pose measurement, pose_measurement.h:395-432. -/
def PoseView.relResidual [Field R] [DecidableEq R] (old new : PoseView R)
    (prev z : V3 R × Quat R) : Option (Fin 7 → R) := do
  let diffprobpos := new.predPos - old.predPos
  let diffmeaspos := z.1 - prev.1
  let diffprobatt := new.predAtt.conj.mul old.predAtt
  let diffmeasatt := z.2.conj.mul prev.2
  let a ← attResidual (diffprobatt.conj.mul diffmeasatt)
  let y ← yawResidual new.qwv
  some (rows7 (diffmeaspos - diffprobpos) a y)

end

/-- The absolute branch of `PoseMeasurement::Apply`, pose_measurement.h:284-341. -/
noncomputable def poseApply {aux : List VarDesc} (uc : UserCalc (coreDef aux)) (t : Tracker ℝ)
    (ix : PoseIdx) (fixed : Nat) (enable : Bool) (thr : ℝ) (z : PoseMeas ℝ)
    (s : EKFState ℝ (coreDef aux)) : Option (Tracker ℝ × EKFState ℝ (coreDef aux) × Bool) := do
  let P ← clearFixed fixed ix.clearOrder s.P
  let s := { s with P := P }
  let H ← poseH ix fixed s.vars
  let v ← poseView ix s.vars
  let r ← v.residual z.z_p z.z_q
  updateState uc t s enable thr H r z.R_

/-- The relative branch of `PoseMeasurement::Apply` with a valid previous measurement `prev` of the
same type, the state `old` closest to it and the states `between`, pose_measurement.h:342-457. -/
noncomputable def poseApplyRelative {aux : List VarDesc} (uc : UserCalc (coreDef aux))
    (t : Tracker ℝ) (ix : PoseIdx) (fixed : Nat) (prev z : PoseMeas ℝ)
    (old : EKFState ℝ (coreDef aux)) (between : List (EKFState ℝ (coreDef aux)))
    (new : EKFState ℝ (coreDef aux)) :
    Option (Tracker ℝ × EKFState ℝ (coreDef aux) × Bool) := do
  let Pold ← clearFixed fixed ix.clearOrder old.P
  let old := { old with P := Pold }
  let Hold ← poseH ix fixed old.vars
  let Hold := -Hold
  let Pnew ← clearFixed fixed ix.clearOrder new.P
  let new := { new with P := Pnew }
  let Hnew ← poseH ix fixed new.vars
  let vold ← poseView ix old.vars
  let vnew ← poseView ix new.vars
  let r ← PoseView.relResidual vold vnew (prev.z_p, prev.z_q) (z.z_p, z.z_q)
  updateStateRelative uc t old new between Hold Hnew r z.R_

/-! ### Position measurement -/

section
variable {R : Type} [CommRing R] {aux : List VarDesc}

/-- Predicted position of the sensor, position_measurement.h:169-172 and
spherical_measurement.h:264-270. -/
def sensorPos (pip : Nat) (s : Vars R (coreDef aux)) : Option (V3 R) := do
  let l ← getVec s pip 3
  some (EKFState.p s + (EKFState.q s).conj.toRotᵀ *ᵥ l)

/-- The residual of a position measurement, position_measurement.h:165-172.  `pip` is the position
of `p_ip` in the state definition. -/
def positionResidual (pip : Nat) (z : V3 R) (s : Vars R (coreDef aux)) : Option (V3 R) := do
  let x ← sensorPos pip s
  some (z - x)

/-- `PositionMeasurement::CalculateH` without the change of `P`, position_measurement.h:101-145. -/
def positionH (pip : Nat) (fixed : Nat) (s : Vars R (coreDef aux)) :
    Option (Matrix (Fin 3) (Fin (total errLen (coreDef aux))) R) := do
  let l ← getVec s pip 3
  let Cq := (EKFState.q s).conj.toRot
  let H := 0
  let H ← putBlock H 0 0 (1 : M33 R)
  let H ← putBlock H 0 2 (-Cqᵀ * skew l)
  putBlock H 0 pip (if fixed.testBit pip then 0 else Cqᵀ)

/-- Column-major position of a 3x3 matrix. -/
def ofArray9 (a : Fin 9 → R) : M33 R := Matrix.of fun r c => a ⟨c * 3 + r, by omega⟩

/-- `PositionMeasurement::MakeFromSensorReadingImpl`, position_measurement.h:44-74: the covariance
`R_`; the position is taken over as it is. -/
def positionCov (fixedCovariance : Bool) (n_zp : R) (cov : Fin 9 → R) : M33 R :=
  if fixedCovariance then Matrix.diagonal fun _ => n_zp * n_zp else ofArray9 cov

end

/-- `PositionMeasurement::Apply`, position_measurement.h:150-198. -/
noncomputable def positionApply {aux : List VarDesc} (uc : UserCalc (coreDef aux)) (t : Tracker ℝ)
    (pip : Nat) (fixed : Nat) (absolute enable : Bool) (thr : ℝ) (z : V3 ℝ) (R_ : M33 ℝ)
    (s : EKFState ℝ (coreDef aux)) : Option (Tracker ℝ × EKFState ℝ (coreDef aux) × Bool) :=
  if absolute then do
    let P ← clearFixed fixed [pip] s.P
    let s := { s with P := P }
    let H ← positionH pip fixed s.vars
    let r ← positionResidual pip z s.vars
    updateState uc t s enable thr H r R_
  else some (t, s, false)

/-! ### Pressure measurement -/

section
variable {R : Type} [CommRing R] {aux : List VarDesc}

/-- The residual of a pressure measurement, pressure_measurement.h:107-110. -/
def pressureResidual (bp : Nat) (z : R) (s : Vars R (coreDef aux)) : Option (Fin 1 → R) := do
  let b ← getVec s bp 1
  some fun _ => z + b 0 - EKFState.p s 2

/-- The Jacobian of a pressure measurement, pressure_measurement.h:101-105. -/
def pressureH (bp : Nat) : Option (Matrix (Fin 1) (Fin (total errLen (coreDef aux))) R) := do
  let H := 0
  let H ← putBlock H 0 0 (1 : Matrix (Fin 1) (Fin 1) R) 2
  putBlock H 0 bp (-1 : Matrix (Fin 1) (Fin 1) R)

end

/-- `PressureMeasurement::Apply`, pressure_measurement.h:72-114, for a valid state;
`R_ = n_zp²` (pressure_measurement.h:49-51). -/
noncomputable def pressureApply {aux : List VarDesc} (uc : UserCalc (coreDef aux)) (t : Tracker ℝ)
    (bp : Nat) (enable : Bool) (thr : ℝ) (z n_zp : ℝ)
    (s : EKFState ℝ (coreDef aux)) : Option (Tracker ℝ × EKFState ℝ (coreDef aux) × Bool) := do
  let H ← pressureH bp
  let r ← pressureResidual bp z s.vars
  updateState uc t s enable thr H r (Matrix.diagonal fun _ => n_zp * n_zp)

/-! ### Spherical measurements -/

open Classical in
/-- `atan(y / x)`, spherical_measurement.h:275.  Division by zero follows IEEE arithmetic for a
positive zero; `0 / 0` is `none`. -/
noncomputable def atanQuot (y x : ℝ) : Option ℝ :=
  if x = 0 then
    if y = 0 then none else if 0 < y then some (Real.pi / 2) else some (-(Real.pi / 2))
  else some (Real.arctan (y / x))

open Classical in
/-- `phi_old` with the corrections of the quadrant, spherical_measurement.h:275-282. -/
noncomputable def azimuth (x y : ℝ) : Option ℝ := do
  let φ ← atanQuot y x
  let φ := if x < 0 ∧ y < 0 then φ - Real.pi else φ
  some (if x < 0 ∧ y > 0 then φ + Real.pi else φ)

/-- `radius_old`, spherical_measurement.h:271-273 and :488-490. -/
noncomputable def radius (c : V3 ℝ) : ℝ := Real.sqrt (c 0 * c 0 + c 1 * c 1 + c 2 * c 2)

open Classical in
/-- `theta_old`, spherical_measurement.h:274. -/
noncomputable def inclination (c : V3 ℝ) : Option ℝ :=
  if radius c = 0 then none else some (Real.arccos (c 2 / radius c))

open Classical in
/-- The wrapping of the azimuth residual, spherical_measurement.h:287-292. -/
noncomputable def wrapOnce (r : ℝ) : ℝ :=
  let r := if r < -Real.pi then r + 2 * Real.pi else r
  if r > Real.pi then r - 2 * Real.pi else r

/-- The residual of an angle measurement, spherical_measurement.h:264-292. -/
noncomputable def angleResidual {aux : List VarDesc} (pip : Nat) (z : Fin 2 → ℝ)
    (s : Vars ℝ (coreDef aux)) : Option (Fin 2 → ℝ) := do
  let c ← sensorPos pip s
  let θ ← inclination c
  let φ ← azimuth (c 0) (c 1)
  some ![z 0 - θ, wrapOnce (z 1 - φ)]

/-- The residual of a distance measurement, spherical_measurement.h:481-494. -/
noncomputable def distanceResidual {aux : List VarDesc} (pip : Nat) (z : ℝ)
    (s : Vars ℝ (coreDef aux)) : Option (Fin 1 → ℝ) := do
  let c ← sensorPos pip s
  some fun _ => z - radius c

/-- `dz_dp` of an angle measurement, spherical_measurement.h:127-138. -/
noncomputable def angleHp (p : V3 ℝ) : Matrix (Fin 2) (Fin 3) ℝ :=
  let ρ2 := p 0 * p 0 + p 1 * p 1
  let r2 := p 0 * p 0 + p 1 * p 1 + p 2 * p 2
  !![(p 0 * p 2 * 1 / Real.sqrt ρ2) / r2, (p 1 * p 2 * 1 / Real.sqrt ρ2) / r2, -Real.sqrt ρ2 / r2;
     -p 1 / ρ2, p 0 / ρ2, 0]

/-- `dz_dq` of an angle measurement, spherical_measurement.h:139-195. -/
noncomputable def angleHq (C : M33 ℝ) (p l : V3 ℝ) : Matrix (Fin 2) (Fin 3) ℝ :=
  let ρ2 := p 0 * p 0 + p 1 * p 1
  let r2 := p 0 * p 0 + p 1 * p 1 + p 2 * p 2
  let r3 := r2 * Real.sqrt r2
  let f := 1 / Real.sqrt (1 / r2) * 1 / Real.sqrt ρ2 * 1 / r3
  let g := -1 / Real.sqrt (-(p 2 * p 2) / r2 + 1) * 1 / r3
  !![f * (C 2 1 * l 2 * (p 0 * p 0) - C 2 2 * l 1 * (p 0 * p 0) + C 2 1 * l 2 * (p 1 * p 1)
        - C 2 2 * l 1 * (p 1 * p 1) - C 0 1 * l 2 * p 0 * p 2 + C 0 2 * l 1 * p 0 * p 2
        - C 1 1 * l 2 * p 1 * p 2 + C 1 2 * l 1 * p 1 * p 2),
     g * (C 2 0 * l 2 * (p 0 * p 0) - C 2 2 * l 0 * (p 0 * p 0) + C 2 0 * l 2 * (p 1 * p 1)
        - C 2 2 * l 0 * (p 1 * p 1) - C 0 0 * l 2 * p 0 * p 2 + C 0 2 * l 0 * p 0 * p 2
        - C 1 0 * l 2 * p 1 * p 2 + C 1 2 * l 0 * p 1 * p 2),
     f * (C 2 0 * l 1 * (p 0 * p 0) - C 2 1 * l 0 * (p 0 * p 0) + C 2 0 * l 1 * (p 1 * p 1)
        - C 2 1 * l 0 * (p 1 * p 1) - C 0 0 * l 1 * p 0 * p 2 + C 0 1 * l 0 * p 0 * p 2
        - C 1 0 * l 1 * p 1 * p 2 + C 1 1 * l 0 * p 1 * p 2);
     (p 1 * (C 0 1 * l 2 - C 0 2 * l 1) - p 0 * (C 1 1 * l 2 - C 1 2 * l 1)) / ρ2,
     -(p 1 * (C 0 0 * l 2 - C 0 2 * l 0) - p 0 * (C 1 0 * l 2 - C 1 2 * l 0)) / ρ2,
     (p 1 * (C 0 0 * l 1 - C 0 1 * l 0) - p 0 * (C 1 0 * l 1 - C 1 1 * l 0)) / ρ2]

/-- `dz_dp_ip` of an angle measurement, spherical_measurement.h:196-241. -/
noncomputable def angleHpip (C : M33 ℝ) (p : V3 ℝ) : Matrix (Fin 2) (Fin 3) ℝ :=
  let ρ2 := p 0 * p 0 + p 1 * p 1
  let r2 := p 0 * p 0 + p 1 * p 1 + p 2 * p 2
  let g := -1 / Real.sqrt (-(p 2 * p 2) / r2 + 1) * 1 / (r2 * Real.sqrt r2)
  Matrix.of ![fun j => g * (C 2 j * (p 0 * p 0) + C 2 j * (p 1 * p 1) - C 0 j * p 0 * p 2
        - C 1 j * p 1 * p 2),
     fun j => -(C 0 j * p 1 - C 1 j * p 0) / ρ2]

open Classical in
/-- `AngleMeasurement::CalculateH` without the change of `P`, spherical_measurement.h:96-246.  The
block of `p_ip` is written whether or not `p_ip` is fixed. -/
noncomputable def angleH {aux : List VarDesc} (pip : Nat) (s : Vars ℝ (coreDef aux)) :
    Option (Matrix (Fin 2) (Fin (total errLen (coreDef aux))) ℝ) := do
  let l ← getVec s pip 3
  let C := (EKFState.q s).conj.toRot
  let p := EKFState.p s
  if p 0 * p 0 + p 1 * p 1 = 0 then none
  else
    let H := 0
    let H ← putBlock H 0 0 (angleHp p)
    let H ← putBlock H 0 2 (angleHq C p l)
    putBlock H 0 pip (angleHpip C p)

/-- `dz_dp` of a distance measurement, spherical_measurement.h:415-421. -/
noncomputable def distanceHp (p : V3 ℝ) : Matrix (Fin 1) (Fin 3) ℝ :=
  Matrix.of fun _ i => p i * 1 / Real.sqrt (p 0 * p 0 + p 1 * p 1 + p 2 * p 2)

/-- `dz_dq` of a distance measurement, spherical_measurement.h:422-449. -/
noncomputable def distanceHq (C : M33 ℝ) (p l : V3 ℝ) : Matrix (Fin 1) (Fin 3) ℝ :=
  let r := Real.sqrt (p 0 * p 0 + p 1 * p 1 + p 2 * p 2)
  Matrix.of fun _ => ![
      (p 0 * (C 0 1 * l 2 * 2 - C 0 2 * l 1 * 2) + p 1 * (C 1 1 * l 2 * 2 - C 1 2 * l 1 * 2)
        + p 2 * (C 2 1 * l 2 * 2 - C 2 2 * l 1 * 2)) * 1 / r * (-1 / 2),
      (p 0 * (C 0 0 * l 2 * 2 - C 0 2 * l 0 * 2) + p 1 * (C 1 0 * l 2 * 2 - C 1 2 * l 0 * 2)
        + p 2 * (C 2 0 * l 2 * 2 - C 2 2 * l 0 * 2)) * 1 / r * (1 / 2),
      (p 0 * (C 0 0 * l 1 * 2 - C 0 1 * l 0 * 2) + p 1 * (C 1 0 * l 1 * 2 - C 1 1 * l 0 * 2)
        + p 2 * (C 2 0 * l 1 * 2 - C 2 1 * l 0 * 2)) * 1 / r * (-1 / 2)]

/-- `dz_dp_ip` of a distance measurement, spherical_measurement.h:450-459. -/
noncomputable def distanceHpip (C : M33 ℝ) (p : V3 ℝ) : Matrix (Fin 1) (Fin 3) ℝ :=
  Matrix.of fun _ i => (C 0 i * p 0 + C 1 i * p 1 + C 2 i * p 2) * 1 /
    Real.sqrt (p 0 * p 0 + p 1 * p 1 + p 2 * p 2)

open Classical in
/-- `DistanceMeasurement::CalculateH` without the change of `P`, spherical_measurement.h:382-463.
The block of `p_ip` is written whether or not `p_ip` is fixed. -/
noncomputable def distanceH {aux : List VarDesc} (pip : Nat) (s : Vars ℝ (coreDef aux)) :
    Option (Matrix (Fin 1) (Fin (total errLen (coreDef aux))) ℝ) := do
  let l ← getVec s pip 3
  let C := (EKFState.q s).conj.toRot
  let p := EKFState.p s
  if p 0 * p 0 + p 1 * p 1 + p 2 * p 2 = 0 then none
  else
    let H := 0
    let H ← putBlock H 0 0 (distanceHp p)
    let H ← putBlock H 0 2 (distanceHq C p l)
    putBlock H 0 pip (distanceHpip C p)

/-- `AngleMeasurement::Apply`, spherical_measurement.h:252-323; `R_ = n_za² I` (:57-66). -/
noncomputable def angleApply {aux : List VarDesc} (uc : UserCalc (coreDef aux)) (t : Tracker ℝ)
    (pip : Nat) (fixed : Nat) (absolute enable : Bool) (thr : ℝ) (z : Fin 2 → ℝ) (n_za : ℝ)
    (s : EKFState ℝ (coreDef aux)) : Option (Tracker ℝ × EKFState ℝ (coreDef aux) × Bool) :=
  if absolute then do
    let P ← clearFixed fixed [pip] s.P
    let s := { s with P := P }
    let H ← angleH pip s.vars
    let r ← angleResidual pip z s.vars
    updateState uc t s enable thr H r (Matrix.diagonal fun _ => n_za * n_za)
  else some (t, s, false)

/-- `DistanceMeasurement::Apply`, spherical_measurement.h:468-524; `R_ = n_zd²` (:347-353). -/
noncomputable def distanceApply {aux : List VarDesc} (uc : UserCalc (coreDef aux)) (t : Tracker ℝ)
    (pip : Nat) (fixed : Nat) (absolute enable : Bool) (thr : ℝ) (z n_zd : ℝ)
    (s : EKFState ℝ (coreDef aux)) : Option (Tracker ℝ × EKFState ℝ (coreDef aux) × Bool) :=
  if absolute then do
    let P ← clearFixed fixed [pip] s.P
    let s := { s with P := P }
    let H ← distanceH pip s.vars
    let r ← distanceResidual pip z s.vars
    updateState uc t s enable thr H r (Matrix.diagonal fun _ => n_zd * n_zd)
  else some (t, s, false)

end MSF
