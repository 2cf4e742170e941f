import Mathlib.Data.Matrix.Mul
import Mathlib.LinearAlgebra.Matrix.Notation
import Mathlib.Analysis.Real.Sqrt

/-!
# Quaternions and small matrices (msf_core/include/msf_core/eigen_utils.h, Eigen::Quaternion)

Real numbers stand for `double`; rounding, infinities and NaN are not modelled.  Everything that
needs no square root is generic in the scalar type, so that it can be evaluated on `ℚ`.
Vectors are functions `Fin n → R`, matrices are Mathlib matrices.
-/

namespace MSF

/-- `Eigen::Quaternion<R>`. -/
@[ext] structure Quat (R : Type) where
  w : R
  x : R
  y : R
  z : R
  deriving DecidableEq

/-- 3-vectors and 3×3 matrices (`Vector3`, `Matrix3`, msf_types.h). -/
abbrev V3 (R : Type) := Fin 3 → R
abbrev M33 (R : Type) := Matrix (Fin 3) (Fin 3) R
abbrev M44 (R : Type) := Matrix (Fin 4) (Fin 4) R

namespace Quat
variable {R : Type}

/-- `Quaternion::coeffs()`: order x, y, z, w. -/
def coeffs (q : Quat R) : Fin 4 → R := ![q.x, q.y, q.z, q.w]

/-- Assignment to `coeffs()`. -/
def ofCoeffs (c : Fin 4 → R) : Quat R := ⟨c 3, c 0, c 1, c 2⟩

/-- `Quaternion::vec()`. -/
def vec (q : Quat R) : V3 R := ![q.x, q.y, q.z]

section Ring
variable [CommRing R]

/-- `Quaternion::setIdentity()`. -/
def one : Quat R := ⟨1, 0, 0, 0⟩

/-- `operator*` of Eigen (Hamilton product). -/
def mul (a b : Quat R) : Quat R :=
  ⟨a.w * b.w - a.x * b.x - a.y * b.y - a.z * b.z,
   a.w * b.x + a.x * b.w + a.y * b.z - a.z * b.y,
   a.w * b.y + a.y * b.w + a.z * b.x - a.x * b.z,
   a.w * b.z + a.z * b.w + a.x * b.y - a.y * b.x⟩

/-- `Quaternion::conjugate()`. -/
def conj (q : Quat R) : Quat R := ⟨q.w, -q.x, -q.y, -q.z⟩

/-- `Quaternion::squaredNorm()`. -/
def normSq (q : Quat R) : R := q.w * q.w + q.x * q.x + q.y * q.y + q.z * q.z

/-- `Quaternion::toRotationMatrix()` with Eigen's formulas. -/
def toRot (q : Quat R) : M33 R :=
  let tx := 2 * q.x
  let ty := 2 * q.y
  let tz := 2 * q.z
  let twx := tx * q.w
  let twy := ty * q.w
  let twz := tz * q.w
  let txx := tx * q.x
  let txy := ty * q.x
  let txz := tz * q.x
  let tyy := ty * q.y
  let tyz := tz * q.y
  let tzz := tz * q.z
  !![1 - (tyy + tzz), txy - twz, txz + twy;
     txy + twz, 1 - (txx + tzz), tyz - twx;
     txz - twy, tyz + twx, 1 - (txx + tyy)]

end Ring

/-- `Quaternion::inverse()`: conjugate divided by the squared norm; Eigen returns the zero
quaternion when the squared norm is not positive. -/
def inverse [Field R] [LinearOrder R] (q : Quat R) : Quat R :=
  if 0 < q.normSq then
    ⟨q.w / q.normSq, -q.x / q.normSq, -q.y / q.normSq, -q.z / q.normSq⟩
  else ⟨0, 0, 0, 0⟩

/-- `Quaternion::normalize()`.  `none` if the norm is zero (Eigen 3.2 divides by it and stores NaN;
later versions leave the zero quaternion). -/
noncomputable def normalize (q : Quat ℝ) : Option (Quat ℝ) :=
  let n := Real.sqrt q.normSq
  if n = 0 then none else some ⟨q.w / n, q.x / n, q.y / n, q.z / n⟩

end Quat

section
variable {R : Type}

/-- `Vector::squaredNorm()` for 3-vectors. -/
def sqNorm3 [CommRing R] (v : V3 R) : R := v 0 * v 0 + v 1 * v 1 + v 2 * v 2

/-- `Skew`, eigen_utils.h:29-35. -/
def skew [CommRing R] (v : V3 R) : M33 R :=
  !![0, -v 2, v 1;
     v 2, 0, -v 0;
     -v 1, v 0, 0]

/-- `OmegaMatJPL`, eigen_utils.h:44-52. -/
def omegaJPL [CommRing R] (v : V3 R) : M44 R :=
  !![0, v 2, -v 1, v 0;
     -v 2, 0, v 0, v 1;
     v 1, -v 0, 0, v 2;
     -v 0, -v 1, -v 2, 0]

/-- `OmegaMatHamilton`, eigen_utils.h:61-68. -/
def omegaHamilton [CommRing R] (v : V3 R) : M44 R :=
  !![0, -v 2, v 1, v 0;
     v 2, 0, -v 0, v 1;
     -v 1, v 0, 0, v 2;
     -v 0, -v 1, -v 2, 0]

/-- `XiMat`, eigen_utils.h:79-90: `w I + Skew(x,y,z)` over the row `-(x,y,z)`. -/
def xiMat [CommRing R] (c : Fin 4 → R) : Matrix (Fin 4) (Fin 3) R :=
  !![c 3, -c 2, c 1;
     c 2, c 3, -c 0;
     -c 1, c 0, c 3;
     -c 0, -c 1, -c 2]

/-- `QuaternionFromSmallAngle`, eigen_utils.h:93-110. -/
noncomputable def quatFromSmallAngle (θ : V3 ℝ) : Quat ℝ :=
  let q2 := sqNorm3 θ / 4
  if q2 < 1 then
    ⟨Real.sqrt (1 - q2), θ 0 * 0.5, θ 1 * 0.5, θ 2 * 0.5⟩
  else
    let w := 1 / Real.sqrt (1 + q2)
    let f := w * 0.5
    ⟨w, θ 0 * f, θ 1 * f, θ 2 * f⟩

end

end MSF
