import Verif.Model.Quat
import Mathlib.Data.Matrix.Block

/-!
# What covariance prediction should compute

Continuous-time error dynamics of the inertial core (position, velocity, attitude, gyro bias,
accelerometer bias) and the third-order expansion of the covariance the white noises accumulate in
one step.  Nothing here refers to the model of the code.

Error states form five blocks of three; a 15x15 matrix is a 5x5 matrix of 3x3 matrices.
-/

namespace MSF

open Matrix

/-- 15x15 matrices in blocks of 3x3, in the order p, v, q, b_w, b_a. -/
abbrev BM (R : Type) := Matrix (Fin 5) (Fin 5) (M33 R)

section
variable {R : Type} [Field R]

/-- Transpose of a block matrix. -/
def bT (F : BM R) : BM R := Matrix.of fun i j => (F j i)ᵀ

/-- Error dynamics for attitude `C`, body rate `w` and specific force `a`:
`δp' = δv`, `δv' = -C [a]× δθ - C δb_a`, `δθ' = -[w]× δθ - δb_w`. -/
def errDyn (C : M33 R) (w a : V3 R) : BM R :=
  !![0, 1, 0, 0, 0;
     0, 0, -(C * skew a), 0, -C;
     0, 0, -skew w, -1, 0;
     0, 0, 0, 0, 0;
     0, 0, 0, 0, 0]

/-- Spectral density of the driving noise: accelerometer noise enters the velocity in the world
frame, gyro noise the attitude, the bias noises the biases. -/
def noiseDensity (C : M33 R) (na nba nw nbw : V3 R) : BM R :=
  diagonal ![0, C * diagonal (fun i => na i ^ 2) * Cᵀ, diagonal (fun i => nw i ^ 2),
    diagonal (fun i => nbw i ^ 2), diagonal (fun i => nba i ^ 2)]

/-- Third-order expansion in `dt` of the solution of `Q' = F Q + Q Fᵀ + G`, `Q(0) = 0`. -/
def lyap3 (F G : BM R) (dt : R) : BM R :=
  dt • G + (dt ^ 2 / 2) • (F * G + G * bT F) +
    (dt ^ 3 / 6) • (F * F * G + (2 : R) • (F * G * bT F) + G * bT F * bT F)

/-- Second-order expansion of the transition matrix `exp (F dt)`. -/
def trans2 (F : BM R) (dt : R) : BM R := 1 + dt • F + (dt ^ 2 / 2) • (F * F)

/-- Third-order expansion of `exp (F dt)`. -/
def trans3 (F : BM R) (dt : R) : BM R := trans2 F dt + (dt ^ 3 / 6) • (F * F * F)

end

end MSF
