import Verif.Model.Propagate
import Verif.Model.Fuzzy
import Mathlib.LinearAlgebra.Matrix.NonsingularInverse
import Mathlib.Data.Matrix.Block
import Mathlib.Data.Matrix.ColumnRowPartitioned

/-!
# Model of the measurement update
(implementation/msf_measurement_inl.h and `MSF_Core::ApplyCorrection`, msf_core_inl.h:844-910)

`double` is modelled by `ℝ`.  Inverting a singular innovation covariance (Eigen returns infinities
or NaN) is the distinct outcome `none`.
-/

namespace MSF

open Matrix

/-! ### In-place symmetrisation -/

/-- One coefficient of `P = 0.5 * (P + P.transpose())`.  The right-hand side is a lazy
coefficient-wise Eigen expression that reads the matrix being written (aliasing). -/
def symStep {k : Nat} {R : Type} [Field R] (P : Matrix (Fin k) (Fin k) R)
    (c : Fin k × Fin k) : Matrix (Fin k) (Fin k) R :=
  Matrix.of fun r s => if (r, s) = c then (1 / 2 : R) * (P c.1 c.2 + P c.2 c.1) else P r s

/-- The coefficients of a column-major matrix in storage order, as (row, column). -/
def colMajorCells (k : Nat) : List (Fin k × Fin k) :=
  (List.finRange k).flatMap fun c => (List.finRange k).map fun r => (r, c)

/-- `P = 0.5 * (P + P.transpose())`, msf_measurement_inl.h:76, :124 and :195: Eigen assigns the
coefficients one after the other in storage order (transposed operands exclude vectorisation) and
does not copy the right-hand side first. -/
def symInPlace {k : Nat} {R : Type} [Field R] (P : Matrix (Fin k) (Fin k) R) :
    Matrix (Fin k) (Fin k) R :=
  (colMajorCells k).foldl symStep P

section
variable {k : Nat} {m : Type} [Fintype m] [DecidableEq m]

/-- `S = H P Hᵀ + R`, msf_measurement_inl.h:54 and :102. -/
def innovCov (P : Matrix (Fin k) (Fin k) ℝ) (H : Matrix m (Fin k) ℝ) (R : Matrix m m ℝ) : Matrix m m ℝ :=
  H * P * Hᵀ + R

/-- `K = P Hᵀ S⁻¹`, msf_measurement_inl.h:56 and :104. -/
noncomputable def gain (P : Matrix (Fin k) (Fin k) ℝ) (H : Matrix m (Fin k) ℝ) (R : Matrix m m ℝ) :
    Matrix (Fin k) m ℝ := P * Hᵀ * (innovCov P H R)⁻¹

/-- The covariance update with a given gain, msf_measurement_inl.h:71-76 and :119-124. -/
noncomputable def josephUpdate (P : Matrix (Fin k) (Fin k) ℝ) (H : Matrix m (Fin k) ℝ) (R : Matrix m m ℝ)
    (K : Matrix (Fin k) m ℝ) : Matrix (Fin k) (Fin k) ℝ :=
  let KH := 1 - K * H
  let P' := KH * P * KHᵀ + K * R * Kᵀ
  symInPlace P'

/-- `rᵀ S⁻¹ r`, msf_measurement_inl.h:60-61. -/
noncomputable def mahSquared (P : Matrix (Fin k) (Fin k) ℝ) (H : Matrix m (Fin k) ℝ) (R : Matrix m m ℝ)
    (r : m → ℝ) : ℝ := r ⬝ᵥ ((innovCov P H R)⁻¹ *ᵥ r)

/-- The test `sqrt(mah_dist_squared) > mah_threshold_`, msf_measurement_inl.h:64.  The square root
of a negative number is NaN and not greater than anything. -/
def mahRejects (d2 thr : ℝ) : Prop := 0 ≤ d2 ∧ thr < Real.sqrt d2

open Classical in
/-- `CalculateAndApplyCorrection` up to the call of `ApplyCorrection`, msf_measurement_inl.h:34-78
(fixed size) and :80-126 (dynamic size).
Outer `none`: singular `S`.  `some none`: rejected as outlier, nothing is changed.
`some (some (correction, P))`: correction vector and new covariance. -/
noncomputable def calculateCorrection (enable : Bool) (thr : ℝ) (P : Matrix (Fin k) (Fin k) ℝ)
    (H : Matrix m (Fin k) ℝ) (r : m → ℝ) (R : Matrix m m ℝ) :
    Option (Option ((Fin k → ℝ) × Matrix (Fin k) (Fin k) ℝ)) :=
  if (innovCov P H R).det = 0 then none
  else
    if enable = true ∧ mahRejects (mahSquared P H R r) thr then some none
    else
      let K := gain P H R
      some (some (K *ᵥ r, josephUpdate P H R K))

/-! ### Relative updates -/

/-- `F = I; for (it = old; it != new; ++it) F = F * it->Fd`, msf_core_inl.h:424-441. -/
def accumulateF (Fds : List (Matrix (Fin k) (Fin k) ℝ)) : Matrix (Fin k) (Fin k) ℝ :=
  Fds.foldl (fun F Fd => F * Fd) 1

/-- `P_SC`, msf_measurement_inl.h:148-158. -/
def clonedCov (Pold Pnew F : Matrix (Fin k) (Fin k) ℝ) : Matrix (Fin k ⊕ Fin k) (Fin k ⊕ Fin k) ℝ :=
  fromBlocks Pold (Pold * Fᵀ) (F * Pold) Pnew

/-- `H_SC`, msf_measurement_inl.h:160-171. -/
def clonedH (Hold Hnew : Matrix m (Fin k) ℝ) : Matrix m (Fin k ⊕ Fin k) ℝ := fromCols Hold Hnew

/-- `S_SC`, msf_measurement_inl.h:173-174. -/
def relInnovCov (Pold Pnew F : Matrix (Fin k) (Fin k) ℝ) (Hold Hnew : Matrix m (Fin k) ℝ) (R : Matrix m m ℝ) :
    Matrix m m ℝ :=
  clonedH Hold Hnew * clonedCov Pold Pnew F * (clonedH Hold Hnew)ᵀ + R

/-- The lower block of `K_SC`, msf_measurement_inl.h:176-186. -/
noncomputable def relGain (Pold Pnew F : Matrix (Fin k) (Fin k) ℝ) (Hold Hnew : Matrix m (Fin k) ℝ)
    (R : Matrix m m ℝ) : Matrix (Fin k) m ℝ :=
  let KSC := clonedCov Pold Pnew F * (clonedH Hold Hnew)ᵀ *
    (relInnovCov Pold Pnew F Hold Hnew R)⁻¹
  KSC.toRows₂

open Classical in
/-- `CalculateAndApplyCorrectionRelative` up to the call of `ApplyCorrection`,
msf_measurement_inl.h:128-198.  There is no outlier test. -/
noncomputable def calculateCorrectionRelative (Pold Pnew F : Matrix (Fin k) (Fin k) ℝ)
    (Hold Hnew : Matrix m (Fin k) ℝ) (r : m → ℝ) (R : Matrix m m ℝ) :
    Option ((Fin k → ℝ) × Matrix (Fin k) (Fin k) ℝ) :=
  if (relInnovCov Pold Pnew F Hold Hnew R).det = 0 then none
  else
    let K := relGain Pold Pnew F Hold Hnew R
    let P := Pnew - K * relInnovCov Pold Pnew F Hold Hnew R * Kᵀ
    some (K *ᵥ r, symInPlace P)

end

/-! ### ApplyCorrection -/

/-- The user-provided parts (`StateVisitor`, msf_sensormanager.h:97-122): `augment` is
`AugmentCorrectionVector`, `sanity new old correction` is the state after
`SanityCheckCorrection`; `fixedBias` is `GetParamFixedBias()`. -/
structure UserCalc (D : List VarDesc) where
  augment : (Fin (total errLen D) → ℝ) → (Fin (total errLen D) → ℝ)
  sanity : Vars ℝ D → Vars ℝ D → (Fin (total errLen D) → ℝ) → Vars ℝ D
  fixedBias : Bool

/-- Zeroing of the bias part of the correction, msf_core_inl.h:856-888.  The indices 12 and 9 are
enforced by `static_assert`. -/
def zeroBias {R : Type} [Zero R] {n : Nat} (c : Fin n → R) : Fin n → R :=
  let c := fun i : Fin n => if 12 ≤ i.val ∧ i.val < 12 + 3 then 0 else c i
  fun i => if 9 ≤ i.val ∧ i.val < 9 + 3 then 0 else c i

/-- `MSF_Core::ApplyCorrection`, msf_core_inl.h:844-910, for a filter with
`initialized_ && predictionMade_`: tracker, state variables and result of the fuzzy check. -/
noncomputable def applyCorrection {aux : List VarDesc} (uc : UserCalc (coreDef aux))
    (t : Tracker ℝ) (s : Vars ℝ (coreDef aux)) (c : Fin (total errLen (coreDef aux)) → ℝ)
    (thres : ℝ := 0.1) : Option (Tracker ℝ × Vars ℝ (coreDef aux) × Bool) := do
  let c := uc.augment c
  let c := if uc.fixedBias then zeroBias c else c
  let s' ← correct s c
  let s' := uc.sanity s' s c
  fuzzyCheck' t s' s thres

end MSF
