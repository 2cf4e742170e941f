import Verif.Model.Update

/-!
# Covariance access (implementation/msf_state_inl.h:336-497) and the complete update of a state
(`CalculateAndApplyCorrection`, msf_measurement_inl.h:34-126)
-/

namespace MSF

open Matrix

/-- Position in the data of a column-major `Eigen::Map` of a 6x6 matrix. -/
def colMajor6 (r c : Fin 6) : Fin 36 := ⟨c * 6 + r, by omega⟩

section
variable {R : Type} {D : List VarDesc}

/-- Start index of the variable at position `i` with its range check: `P.block<3,3>(start, ..)`
needs `start + 3` not larger than the matrix. -/
def start3 (D : List VarDesc) (i : Nat) : Option { s : Nat // s + 3 ≤ total errLen D } := do
  let s ← startIndexInCorrection D i
  if h : 0 ≤ s ∧ s.toNat + 3 ≤ total errLen D then some ⟨s.toNat, h.2⟩ else none

/-- The four block assignments shared by `GetPoseCovariance` and `GetVelocityAttitudeCovariance`. -/
def fourBlocks (P : ErrMat R D) (a b : { s : Nat // s + 3 ≤ total errLen D })
    (M : Matrix (Fin 6) (Fin 6) R) : Matrix (Fin 6) (Fin 6) R :=
  let M := setBlock M 0 0 (getBlock P a a 3 3 a.2 a.2)
  let M := setBlock M 3 0 (getBlock P b a 3 3 b.2 a.2)
  let M := setBlock M 0 3 (getBlock P a b 3 3 a.2 b.2)
  setBlock M 3 3 (getBlock P b b 3 3 b.2 b.2)

/-- The matrix seen through the map of an array, and the array after writing a matrix. -/
def ofArray6 (a : Fin 36 → R) : Matrix (Fin 6) (Fin 6) R := Matrix.of fun r c => a (colMajor6 r c)
def toArray6 (M : Matrix (Fin 6) (Fin 6) R) : Fin 36 → R :=
  fun k => M ⟨k % 6, by omega⟩ ⟨k / 6, by omega⟩

/-- `GetPoseCovariance`, msf_state_inl.h:340-366.  `p` and `q` are the positions of the two
variables in the state definition; `cov` is the previous content of the message. -/
def getPoseCovariance (p q : Nat) (P : ErrMat R D) (cov : Fin 36 → R) : Option (Fin 36 → R) := do
  let a ← start3 D p
  let b ← start3 D q
  some (toArray6 (fourBlocks P a b (ofArray6 cov)))

/-- `GetVelocityAttitudeCovariance`, msf_state_inl.h:368-393.  `cov` is the previous content. -/
def getVelocityAttitudeCovariance (v q : Nat) (P : ErrMat R D) (cov : Matrix (Fin 6) (Fin 6) R) :
    Option (Matrix (Fin 6) (Fin 6) R) := do
  let a ← start3 D v
  let b ← start3 D q
  some (fourBlocks P a b cov)

/-- `GetTwistCovarianceInImuFrame`, msf_state_inl.h:395-435, for states that start with the core
states: the two diagonal blocks are written, the others keep the previous content of the message.
The uninitialised local matrix is `junk`. -/
def getTwistCovariance [CommRing R] {aux : List VarDesc} (s : Vars R (coreDef aux))
    (P : ErrMat R (coreDef aux)) (noiseGyr : V3 R) (junk : Matrix (Fin 6) (Fin 6) R)
    (cov : Fin 36 → R) : Option (Fin 36 → R) := do
  let b ← start3 (coreDef aux) 3
  let Rm := (EKFState.q s).toRot
  let vI := Rmᵀ *ᵥ EKFState.v s
  let c ← getVelocityAttitudeCovariance 1 2 P junk
  let J : Matrix (Fin 3) (Fin 6) R := setBlock (setBlock 0 0 0 Rmᵀ) 0 3 (skew vI)
  let covV := J * c * Jᵀ
  let noise : M33 R := Matrix.diagonal fun i => noiseGyr i * noiseGyr i
  let M := setBlock (ofArray6 cov) 0 0 covV
  some (toArray6 (setBlock M 3 3 (getBlock P b b 3 3 b.2 b.2 + noise)))

/-- Number of core error states, `nCoreErrorStatesAtCompileTime`. -/
def nCore (D : List VarDesc) : Nat := total coreErrLen D

/-- Rows `r0 .. r1-1`, columns `c0 .. c1-1` in row-major order; `none` for an access outside. -/
def rowMajor {n : Nat} (P : Matrix (Fin n) (Fin n) R) (r0 r1 c0 c1 : Nat) : Option (List R) :=
  (List.range' r0 (r1 - r0)).foldlM (fun acc r => (List.range' c0 (c1 - c0)).foldlM (fun acc c =>
    if h : r < n ∧ c < n then some (acc ++ [P ⟨r, h.1⟩ ⟨c, h.2⟩]) else none) acc) []

/-- `GetCoreCovariance`, msf_state_inl.h:437-451: rows, columns, data. -/
def getCoreCovariance (P : ErrMat R D) : Option (Nat × Nat × List R) :=
  (rowMajor P 0 (nCore D) 0 (nCore D)).map fun l => (nCore D, nCore D, l)

/-- `GetAuxCovariance`, msf_state_inl.h:453-470. -/
def getAuxCovariance (P : ErrMat R D) : Option (Nat × Nat × List R) :=
  let n := total errLen D
  (rowMajor P (nCore D) n (nCore D) n).map fun l => (n - nCore D, n - nCore D, l)

/-- `GetCoreAuxCovariance`, msf_state_inl.h:472-491. -/
def getCoreAuxCovariance (P : ErrMat R D) : Option (Nat × Nat × List R) :=
  let n := total errLen D
  (rowMajor P 0 (nCore D) (nCore D) n).map fun l => (nCore D, n - nCore D, l)

end

/-- `CalculateAndApplyCorrection`, msf_measurement_inl.h:34-78 and :80-126, on the state object,
for a filter with `initialized_ && predictionMade_`.  The result is the fuzzy tracker, the state
and whether the correction was classified as fuzzy.  A rejected measurement returns before
anything is written. -/
noncomputable def updateState {aux : List VarDesc} {m : Type} [Fintype m] [DecidableEq m]
    (uc : UserCalc (coreDef aux)) (t : Tracker ℝ) (s : EKFState ℝ (coreDef aux)) (enable : Bool)
    (thr : ℝ) (H : Matrix m (Fin (total errLen (coreDef aux))) ℝ) (r : m → ℝ) (R : Matrix m m ℝ) :
    Option (Tracker ℝ × EKFState ℝ (coreDef aux) × Bool) := do
  match ← calculateCorrection enable thr s.P H r R with
  | none => some (t, s, false)
  | some (c, P') =>
    let s1 := { s with P := P' }
    let (t', vars, fz) ← applyCorrection uc t s1.vars c
    some (t', { s1 with vars := vars }, fz)

/-- `CalculateAndApplyCorrectionRelative`, msf_measurement_inl.h:128-198, on the newer state. -/
noncomputable def updateStateRelative {aux : List VarDesc} {m : Type} [Fintype m] [DecidableEq m]
    (uc : UserCalc (coreDef aux)) (t : Tracker ℝ) (old new : EKFState ℝ (coreDef aux))
    (between : List (EKFState ℝ (coreDef aux)))
    (Hold Hnew : Matrix m (Fin (total errLen (coreDef aux))) ℝ) (r : m → ℝ) (R : Matrix m m ℝ) :
    Option (Tracker ℝ × EKFState ℝ (coreDef aux) × Bool) := do
  let F := accumulateF ((old :: between).map EKFState.Fd)
  let (c, P') ← calculateCorrectionRelative old.P new.P F Hold Hnew r R
  let s1 := { new with P := P' }
  let (t', vars, fz) ← applyCorrection uc t s1.vars c
  some (t', { s1 with vars := vars }, fz)

end MSF
