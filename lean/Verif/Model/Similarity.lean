import Verif.Model.Covariance

/-!
# Covariance messages and the average similarity transform
(msf_core/include/msf_core/similaritytransform.h, msf_core/src/similaritytransform.cc)

`geometry_msgs::PoseWithCovariance::covariance` is an array of 36 numbers.  The two solvers of Eigen
are parameters of the model; what is assumed of them is stated with each theorem.
-/

namespace MSF

open Matrix

section
variable {R : Type}

/-- Block positions that fit a 6x6 matrix; other values violate an assertion of Eigen. -/
def blockPos6 (s : Int) : Option { n : Nat // n + 3 ≤ 6 } :=
  if h : 0 ≤ s ∧ s.toNat + 3 ≤ 6 then some ⟨s.toNat, h.2⟩ else none

/-- `GeometryMsgsCovBlockToEigen`, similaritytransform.h:65-70. -/
def covBlockToEigen (gcov : Fin 36 → R) (startRow startCol : Int) : Option (M33 R) := do
  let r ← blockPos6 startRow
  let c ← blockPos6 startCol
  some (getBlock (ofArray6 gcov) r c 3 3 r.2 c.2)

/-- `EigenCovBlockToGeometryMsgs`, similaritytransform.h:83-95; returns the new array.  `ecov` is a
matrix that does not share memory with the array. -/
def eigenCovBlock (gcov : Fin 36 → R) (ecov : M33 R) (startRow startCol : Int) :
    Option (Fin 36 → R) := do
  let r ← blockPos6 startRow
  let c ← blockPos6 startCol
  let M := setBlock (ofArray6 gcov) r c ecov
  let M := if startRow ≠ startCol then setBlock M c r ecovᵀ else M
  some (toArray6 M)

end

/-- `Quaternion * Vector3` (`_transformVector` of Eigen): with `u = vec()`,
`v + w (2 u × v) + u × (2 u × v)`. -/
def Quat.rotate {R : Type} [CommRing R] (q : Quat R) (v : V3 R) : V3 R :=
  let uv : V3 R := ![q.y * v 2 - q.z * v 1, q.z * v 0 - q.x * v 2, q.x * v 1 - q.y * v 0]
  let uv := uv + uv
  let c : V3 R := ![q.y * uv 2 - q.z * uv 1, q.z * uv 0 - q.x * uv 2, q.x * uv 1 - q.y * uv 0]
  v + q.w • uv + c

/-- The part of `geometry_msgs::PoseWithCovariance` that `From6DoF` reads. -/
structure Pose where
  position : V3 ℝ
  orientation : Quat ℝ

/-- What `JacobiSVD<Matrix4>` with full U and V returns. -/
structure SVD where
  U : M44 ℝ
  S : Fin 4 → ℝ
  V : M44 ℝ

/-- The two solvers: `SelfAdjointEigenSolver<Matrix4>(M).eigenvectors().col(3)` and
`JacobiSVD<Matrix4>(A)`. -/
structure Solvers where
  lastEigenvector : M44 ℝ → Fin 4 → ℝ
  svd : M44 ℝ → SVD

namespace Sim

/-- `q1.inverse() * q2`, similaritytransform.cc:51-55. -/
noncomputable def relRot (m : Pose × Pose) : Quat ℝ := m.1.orientation.inverse.mul m.2.orientation

/-- The outer sum `M`, similaritytransform.cc:40 and 56. -/
noncomputable def outerSum (ms : List (Pose × Pose)) : M44 ℝ :=
  ms.foldl (fun M m => M + vecMulVec (relRot m).coeffs (relRot m).coeffs) 0

/-- The matrix `A`, similaritytransform.cc:62-63; row `3 i + k` is the pair `(i, k)`. -/
noncomputable def matA (ms : List (Pose × Pose)) : Matrix (Fin ms.length × Fin 3) (Fin 4) ℝ :=
  Matrix.of fun ik c =>
    if h : c.val < 3 then ((1 : M33 ℝ) ik.2 ⟨c, h⟩) * (-1)
    else ((ms.get ik.1).1.orientation.inverse.rotate (ms.get ik.1).2.position) ik.2

/-- The vector `b`, similaritytransform.cc:64. -/
noncomputable def vecB (ms : List (Pose × Pose)) : Fin ms.length × Fin 3 → ℝ :=
  fun ik => ((ms.get ik.1).1.orientation.inverse.rotate (ms.get ik.1).1.position) ik.2

/-- `S_hat`, similaritytransform.cc:80-85, for singular values that are not divided by when 0. -/
noncomputable def invS (S : Fin 4 → ℝ) (eps : ℝ) : Fin 4 → ℝ :=
  fun i => if S i < eps then 0 else 1 / S i

/-- Result of `Compute`; `notFinite`: a division by zero in `S_hat` (possible for `eps ≤ 0`). -/
inductive Result
  | failed
  | notFinite
  | ok (pose : Pose) (scale : ℝ)

/-- The condition number written by `Compute`, similaritytransform.cc:86-87, when there are at least two
pairs; `none`: a division by zero.  (The singular values are sorted, so a quotient 0/0 needs `A = 0`.) -/
noncomputable def cond (so : Solvers) (ms : List (Pose × Pose)) : Option ℝ :=
  let d := so.svd ((matA ms)ᵀ * matA ms)
  if d.S 3 = 0 then none else some (d.S 0 / d.S 3)

/-- `Compute`, similaritytransform.cc:33-97.  The condition number is `cond`; the covariance
of `pose` is not written. -/
noncomputable def compute (so : Solvers) (ms : List (Pose × Pose)) (eps : ℝ) : Result :=
  if ms.length < 2 then .failed
  else
    let d := so.svd ((matA ms)ᵀ * matA ms)
    if ∃ i, ¬ d.S i < eps ∧ d.S i = 0 then .notFinite
    else
      let x := (d.V * diagonal (invS d.S eps) * d.Uᵀ) *ᵥ ((matA ms)ᵀ *ᵥ vecB ms)
      .ok ⟨![x 0, x 1, x 2], Quat.ofCoeffs (so.lastEigenvector (outerSum ms))⟩ (x 3)

end Sim

end MSF
