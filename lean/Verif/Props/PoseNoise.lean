import Verif.Props.PoseSensor
import Verif.Lemmas.Sensors

/-!
# C118: the noise of a converted pose

The error of a pose message is a displacement of the position and a small rotation of the attitude.
The error of the stored measurement is what the residual of the filter measures.
-/

namespace MSF

open Matrix

/-! ### Statement -/

/-- Where the small rotation of the attitude acts: in the axes of the rotated frame (right) or in the
fixed axes (left). -/
inductive ErrSide
  | right
  | left

/-- An attitude with the small rotation `θ`. -/
noncomputable def ErrSide.turn (side : ErrSide) (q : Quat ℝ) (θ : V3 ℝ) : Quat ℝ :=
  match side with
  | .right => q.mul (quatFromSmallAngle θ)
  | .left => (quatFromSmallAngle θ).mul q

/-- Six numbers from two triples. -/
def join6 (a b : V3 ℝ) : Fin 6 → ℝ := ![a 0, a 1, a 2, b 0, b 1, b 2]

/-- Twice the vector part over the scalar part, as in the residual of the filter. -/
noncomputable def errAngle (e : Quat ℝ) : V3 ℝ := fun i => e.vec i / e.w * 2

/-- The error of the measurement `m'` if `m` is the true one: the residual of the filter whose
prediction is `m`. -/
noncomputable def poseError (m m' : PoseMeas ℝ) : Fin 6 → ℝ :=
  join6 (m'.z_p - m.z_p) (errAngle (m.z_q.conj.mul m'.z_q))

/-- `J` maps errors of the message to errors of the stored measurement, to first order. -/
def NoiseMap (cfg : PoseCfg ℝ) (side : ErrSide) (pos : V3 ℝ) (att : Quat ℝ) (cov : Fin 36 → ℝ)
    (J : Matrix (Fin 6) (Fin 6) ℝ) : Prop :=
  ∀ δp δθ : V3 ℝ, HasDerivAt (fun ε : ℝ => poseError (makePose cfg pos att cov)
    (makePose cfg (pos + ε • δp) (side.turn att (ε • δθ)) cov)) (J *ᵥ join6 δp δθ) 0

/-- The covariance of the errors of a message: the configured one or that of the message. -/
def statedCov (cfg : PoseCfg ℝ) (cov : Fin 36 → ℝ) : Matrix (Fin 6) (Fin 6) ℝ :=
  if cfg.fixedCovariance then
    diag6 (Matrix.diagonal fun _ => cfg.n_zp * cfg.n_zp) (Matrix.diagonal fun _ => cfg.n_zq * cfg.n_zq)
  else rowMajor6 cov

/-- The stored noise is the covariance of the error of the stored measurement. -/
def NoiseExact (cfg : PoseCfg ℝ) (side : ErrSide) (pos : V3 ℝ) (att : Quat ℝ) (cov : Fin 36 → ℝ) :
    Prop :=
  ∃ J, NoiseMap cfg side pos att cov J ∧
    (makePose cfg pos att cov).R_.submatrix (Fin.castLE (by decide)) (Fin.castLE (by decide)) =
      J * statedCov cfg cov * Jᵀ

/-! ### Blocks -/

/-- Six numbers as two triples. -/
def split6 : Fin 6 ≃ Fin 3 ⊕ Fin 3 := (finSumFinEquiv : Fin 3 ⊕ Fin 3 ≃ Fin 6).symm

/-- A 6x6 matrix from four blocks. -/
def block6 (A B C D : M33 ℝ) : Matrix (Fin 6) (Fin 6) ℝ :=
  (Matrix.fromBlocks A B C D).submatrix split6 split6

theorem diag6_eq_block6 (A B : M33 ℝ) : diag6 A B = block6 A 0 0 B := by
  ext i j
  fin_cases i <;> fin_cases j <;> rfl

theorem block6_transpose (A B C D : M33 ℝ) : (block6 A B C D)ᵀ = block6 Aᵀ Cᵀ Bᵀ Dᵀ := by
  rw [block6, Matrix.transpose_submatrix, Matrix.fromBlocks_transpose]
  rfl

theorem block6_mul (A B C D A' B' C' D' : M33 ℝ) :
    block6 A B C D * block6 A' B' C' D' =
      block6 (A * A' + B * C') (A * B' + B * D') (C * A' + D * C') (C * B' + D * D') := by
  rw [block6, block6, Matrix.submatrix_mul_equiv, Matrix.fromBlocks_multiply]
  rfl

theorem block6_mulVec (A B C D : M33 ℝ) (a b : V3 ℝ) :
    block6 A B C D *ᵥ join6 a b = join6 (A *ᵥ a + B *ᵥ b) (C *ᵥ a + D *ᵥ b) := by
  have e : ∀ a b : V3 ℝ, join6 a b = Sum.elim a b ∘ split6 := by
    intro a b
    funext i
    fin_cases i <;> rfl
  rw [block6, e, e, Matrix.submatrix_mulVec_equiv, Matrix.fromBlocks_mulVec]
  simp [Function.comp_assoc]

theorem block6_inj {A B C D A' B' C' D' : M33 ℝ} (h : block6 A B C D = block6 A' B' C' D') :
    A = A' ∧ B = B' ∧ C = C' ∧ D = D' := by
  have e := fun i j => congrFun (congrFun h i) j
  refine ⟨?_, ?_, ?_, ?_⟩
  · ext i j
    have := e (lo3 i) (lo3 j)
    fin_cases i <;> fin_cases j <;> exact this
  · ext i j
    have := e (lo3 i) (hi3 j)
    fin_cases i <;> fin_cases j <;> exact this
  · ext i j
    have := e (hi3 i) (lo3 j)
    fin_cases i <;> fin_cases j <;> exact this
  · ext i j
    have := e (hi3 i) (hi3 j)
    fin_cases i <;> fin_cases j <;> exact this

/-- The correlation of position and attitude errors in a message. -/
def covCross {R : Type} (cov : Fin 36 → R) : M33 R := (rowMajor6 cov).submatrix lo3 hi3

theorem rowMajor6_blocks (cov : Fin 36 → ℝ) (hs : (rowMajor6 cov).IsSymm) :
    rowMajor6 cov = block6 (covPos cov) (covCross cov) (covCross cov)ᵀ (covAtt cov) := by
  ext i j
  have e := fun i j => congrFun (congrFun hs i) j
  fin_cases i <;> fin_cases j <;> first | rfl | exact e _ _

theorem covPos_symm {cov : Fin 36 → ℝ} (hs : (rowMajor6 cov).IsSymm) : (covPos cov)ᵀ = covPos cov := by
  rw [covPos, Matrix.transpose_submatrix, hs]

theorem covAtt_symm {cov : Fin 36 → ℝ} (hs : (rowMajor6 cov).IsSymm) : (covAtt cov)ᵀ = covAtt cov := by
  rw [covAtt, Matrix.transpose_submatrix, hs]

theorem diag7_top (A B : M33 ℝ) (c : ℝ) :
    (diag7 A B c).submatrix (Fin.castLE (by decide : 6 ≤ 7)) (Fin.castLE (by decide : 6 ≤ 7)) =
      block6 A 0 0 B := by
  ext i j
  fin_cases i <;> fin_cases j <;> rfl

/-! ### The first order maps -/

theorem join6_deriv {a b : ℝ → V3 ℝ} {a' b' : V3 ℝ} {t : ℝ} (ha : HasDerivAt a a' t)
    (hb : HasDerivAt b b' t) : HasDerivAt (fun ε => join6 (a ε) (b ε)) (join6 a' b') t := by
  rw [hasDerivAt_pi] at ha hb ⊢
  intro i
  fin_cases i
  · exact ha 0
  · exact ha 1
  · exact ha 2
  · exact hb 0
  · exact hb 1
  · exact hb 2

theorem errAngle_deriv {e : ℝ → Quat ℝ} {e' : Quat ℝ} (h : QDeriv e e' 0) (h0 : e 0 = Quat.one) :
    HasDerivAt (fun ε => errAngle (e ε)) (fun i => 2 * e'.vec i) 0 := by
  rw [hasDerivAt_pi]
  have hw : (e 0).w ≠ 0 := by rw [h0]; exact one_ne_zero
  intro i
  fin_cases i
  · refine ((h.x.div h.w hw).mul_const 2).congr_deriv ?_
    rw [h0]; simp [Quat.one, Quat.vec]; ring
  · refine ((h.y.div h.w hw).mul_const 2).congr_deriv ?_
    rw [h0]; simp [Quat.one, Quat.vec]; ring
  · refine ((h.z.div h.w hw).mul_const 2).congr_deriv ?_
    rw [h0]; simp [Quat.one, Quat.vec]; ring

/-- The small rotation quaternion to first order, `(0, θ/2)`. -/
noncomputable def halfVec (θ : V3 ℝ) : Quat ℝ := ⟨0, θ 0 / 2, θ 1 / 2, θ 2 / 2⟩

theorem zero_smul_angle (θ : V3 ℝ) : quatFromSmallAngle ((0 : ℝ) • θ) = Quat.one := by
  rw [zero_smul, quatFromSmallAngle_zero]

theorem QDeriv.congr_deriv {a : ℝ → Quat ℝ} {a' b : Quat ℝ} {t : ℝ} (h : QDeriv a a' t)
    (e : a' = b) : QDeriv a b t := e ▸ h

theorem QDeriv.const_mul {b : ℝ → Quat ℝ} {b' : Quat ℝ} {t : ℝ} (a : Quat ℝ) (hb : QDeriv b b' t) :
    QDeriv (fun ε => a.mul (b ε)) (a.mul b') t :=
  ((QDeriv.const a t).mul hb).congr_deriv (by simp [qadd, Quat.mul])

theorem QDeriv.mul_const {a : ℝ → Quat ℝ} {a' : Quat ℝ} {t : ℝ} (ha : QDeriv a a' t) (b : Quat ℝ) :
    QDeriv (fun ε => (a ε).mul b) (a'.mul b) t :=
  (ha.mul (QDeriv.const b t)).congr_deriv (by simp [qadd, Quat.mul])

theorem conjugate_vec {q : Quat ℝ} (hq : q.normSq = 1) (θ : V3 ℝ) (i : Fin 3) :
    2 * ((q.mul (halfVec θ)).mul q.conj).vec i = (q.toRot *ᵥ θ) i := by
  have hw : q.w * q.w = 1 - q.x * q.x - q.y * q.y - q.z * q.z := by
    have := hq; unfold Quat.normSq at this; linarith
  fin_cases i <;>
    simp [halfVec, Quat.mul, Quat.conj, Quat.vec, Quat.toRot, Matrix.mulVec, dotProduct,
      Fin.sum_univ_three]
  · linear_combination (θ 0) * hw
  · linear_combination (θ 1) * hw
  · linear_combination (θ 2) * hw

theorem turn_zero (side : ErrSide) (q : Quat ℝ) (θ : V3 ℝ) : side.turn q ((0 : ℝ) • θ) = q := by
  cases side with
  | right => rw [ErrSide.turn, zero_smul_angle, Quat.mul_one']
  | left => rw [ErrSide.turn, zero_smul_angle, Quat.one_mul']

theorem turn_zero' (side : ErrSide) (q : Quat ℝ) : side.turn q 0 = q := by
  have := turn_zero side q 0
  rwa [zero_smul] at this

/-- The attitude with an error to first order. -/
theorem turn_deriv (side : ErrSide) (q : Quat ℝ) (θ : V3 ℝ) :
    QDeriv (fun ε : ℝ => side.turn q (ε • θ))
      (match side with | .right => q.mul (halfVec θ) | .left => (halfVec θ).mul q) 0 := by
  cases side with
  | right => exact (smallAngle_deriv θ).const_mul q
  | left => exact (smallAngle_deriv θ).mul_const q

theorem turn_rot_deriv (side : ErrSide) {q : Quat ℝ} (hq : q.normSq = 1) (θ : V3 ℝ) :
    MatDeriv (fun ε : ℝ => (side.turn q (ε • θ)).toRot)
      (match side with | .right => q.toRot * skew θ | .left => skew θ * q.toRot) 0 := by
  cases side with
  | right => exact rot_deriv q hq θ
  | left =>
    have e : (fun ε : ℝ => (ErrSide.left.turn q (ε • θ)).toRot) =
        fun ε : ℝ => (quatFromSmallAngle (ε • θ)).toRot * q.toRot := by
      funext ε
      exact toRot_mul _ q (quatFromSmallAngle_unit _) hq
    rw [e]
    intro i j
    simp only [Matrix.mul_apply]
    exact HasDerivAt.fun_sum fun l _ => (smallRot_deriv θ i l).mul_const (q.toRot l j)

/-- The first order map of a measurement that is stored as received. -/
noncomputable def plainMap (side : ErrSide) (att : Quat ℝ) : Matrix (Fin 6) (Fin 6) ℝ :=
  match side with
  | .right => block6 1 0 0 1
  | .left => block6 1 0 0 att.toRotᵀ

/-- The first order map of a measurement that is inverted. -/
noncomputable def inverseMap (side : ErrSide) (pos : V3 ℝ) (att : Quat ℝ) : Matrix (Fin 6) (Fin 6) ℝ :=
  match side with
  | .right => block6 (-att.toRotᵀ) (-skew (att.toRotᵀ *ᵥ pos)) 0 (-att.toRot)
  | .left => block6 (-att.toRotᵀ) (-(att.toRotᵀ * skew pos)) 0 (-1)

theorem two_halfVec (θ : V3 ℝ) : (fun i => 2 * (halfVec θ).vec i) = θ := by
  funext i
  fin_cases i <;> simp [halfVec, Quat.vec] <;> ring

theorem two_halfVec_conj (θ : V3 ℝ) : (fun i => 2 * (halfVec θ).conj.vec i) = -θ := by
  funext i
  fin_cases i <;> simp [halfVec, Quat.vec, Quat.conj] <;> ring

theorem plain_error_deriv (side : ErrSide) {pos : V3 ℝ} {att : Quat ℝ} (hq : att.normSq = 1)
    (R R' : ℝ → Matrix (Fin 7) (Fin 7) ℝ) (δp δθ : V3 ℝ) :
    HasDerivAt (fun ε : ℝ => poseError ⟨pos, att, R ε⟩
      ⟨pos + ε • δp, side.turn att (ε • δθ), R' ε⟩) (plainMap side att *ᵥ join6 δp δθ) 0 := by
  have hp : HasDerivAt (fun ε : ℝ => pos + ε • δp - pos) δp 0 := (line_deriv pos δp).sub_const pos
  have hE := (turn_deriv side att δθ).const_mul att.conj
  have h0 : att.conj.mul (side.turn att ((0 : ℝ) • δθ)) = Quat.one := by
    rw [turn_zero, Quat.conj_mul_self, hq]; rfl
  have ha := errAngle_deriv hE h0
  refine (join6_deriv hp ha).congr_deriv ?_
  cases side with
  | right =>
    rw [plainMap, block6_mulVec]
    simp only [Matrix.one_mulVec, Matrix.zero_mulVec, add_zero, zero_add]
    rw [← Quat.mul_assoc', Quat.conj_mul_self, hq]
    change join6 δp (fun i => 2 * (Quat.one.mul (halfVec δθ)).vec i) = _
    rw [Quat.one_mul', two_halfVec]
  | left =>
    rw [plainMap, block6_mulVec]
    simp only [Matrix.one_mulVec, Matrix.zero_mulVec, add_zero, zero_add]
    congr 1
    funext i
    have hq' : att.conj.normSq = 1 := by rw [← hq]; simp [Quat.conj, Quat.normSq]
    have := conjugate_vec hq' δθ i
    rw [Quat.conj_conj, toRot_conj, Quat.mul_assoc'] at this
    exact this

theorem inverse_error_deriv (side : ErrSide) {pos : V3 ℝ} {att : Quat ℝ} (hq : att.normSq = 1)
    (R R' : ℝ → Matrix (Fin 7) (Fin 7) ℝ) (δp δθ : V3 ℝ) :
    HasDerivAt (fun ε : ℝ => poseError ⟨-att.toRotᵀ *ᵥ pos, att.conj, R ε⟩
      ⟨-(side.turn att (ε • δθ)).toRotᵀ *ᵥ (pos + ε • δp), (side.turn att (ε • δθ)).conj, R' ε⟩)
      (inverseMap side pos att *ᵥ join6 δp δθ) 0 := by
  have hR := turn_rot_deriv side hq δθ
  have hRt : MatDeriv (fun ε : ℝ => -(side.turn att (ε • δθ)).toRotᵀ)
      (-(match side with | .right => att.toRot * skew δθ | .left => skew δθ * att.toRot)ᵀ) 0 :=
    fun i j => (hR j i).neg
  have hp := (hasDerivAt_mulVec hRt (line_deriv pos δp)).sub_const (-att.toRotᵀ *ᵥ pos)
  have hE := (turn_deriv side att δθ).conj.const_mul att.conj.conj
  have h0 : att.conj.conj.mul (side.turn att ((0 : ℝ) • δθ)).conj = Quat.one := by
    rw [turn_zero, Quat.conj_conj, Quat.mul_conj_self, hq]; rfl
  have ha := errAngle_deriv hE h0
  refine (join6_deriv hp ha).congr_deriv ?_
  have st : ∀ v : V3 ℝ, (skew v)ᵀ = -skew v := by
    intro v
    ext i j
    fin_cases i <;> fin_cases j <;> simp [skew]
  simp only [turn_zero', zero_smul, add_zero]
  cases side with
  | right =>
    rw [inverseMap, block6_mulVec]
    congr 1
    · simp only [Matrix.transpose_mul, st, Matrix.neg_mul, neg_neg]
      rw [← Matrix.mulVec_mulVec, skew_comm δθ, Matrix.neg_mulVec _ (skew _), add_comm]
    · funext i
      have := conjugate_vec hq (-δθ) i
      rw [Matrix.mulVec_neg] at this
      simp only [Matrix.zero_mulVec, zero_add, Matrix.neg_mulVec]
      rw [← this, Quat.conj_conj, Quat.conj_mul, Quat.mul_assoc']
      have : (halfVec δθ).conj = halfVec (-δθ) := by simp [halfVec, Quat.conj, neg_div]
      rw [this]
  | left =>
    rw [inverseMap, block6_mulVec]
    congr 1
    · simp only [Matrix.transpose_mul, st, Matrix.mul_neg, neg_neg]
      rw [← Matrix.mulVec_mulVec, skew_comm δθ, Matrix.neg_mulVec _ (_ * _), ← Matrix.mulVec_mulVec,
        Matrix.mulVec_neg, add_comm]
    · simp only [Matrix.zero_mulVec, zero_add, Matrix.neg_mulVec, Matrix.one_mulVec]
      rw [← two_halfVec_conj]
      funext i
      rw [Quat.conj_conj, Quat.conj_mul, ← Quat.mul_assoc', Quat.mul_conj_self, hq]
      change 2 * (Quat.one.mul (halfVec δθ).conj).vec i = _
      rw [Quat.one_mul']

/-! ### C118 -/

theorem noiseMap_world (cfg : PoseCfg ℝ) (side : ErrSide) (pos : V3 ℝ) {att : Quat ℝ}
    (cov : Fin 36 → ℝ) (hq : att.normSq = 1)
    (h : cfg.fixedCovariance = true ∨ cfg.worldSensor = true) :
    NoiseMap cfg side pos att cov (plainMap side att) := by
  intro δp δθ
  cases hf : cfg.fixedCovariance with
  | true =>
    simp only [makePose_noise_fixed _ _ _ _ hf]
    exact plain_error_deriv side hq (fun _ => _) (fun _ => _) δp δθ
  | false =>
    have hw : cfg.worldSensor = true := by simpa [hf] using h
    simp only [makePose_noise_world _ _ _ _ hf hw]
    exact plain_error_deriv side hq (fun _ => _) (fun _ => _) δp δθ

theorem noiseMap_inverse (cfg : PoseCfg ℝ) (side : ErrSide) (pos : V3 ℝ) {att : Quat ℝ}
    (cov : Fin 36 → ℝ) (hq : att.normSq = 1) (hf : cfg.fixedCovariance = false)
    (hw : cfg.worldSensor = false) : NoiseMap cfg side pos att cov (inverseMap side pos att) := by
  intro δp δθ
  simp only [makePose_noise_sensor _ _ _ _ hf hw]
  exact inverse_error_deriv side hq (fun _ => _) (fun _ => _) δp δθ

/-- There is only one such map. -/
theorem NoiseMap.unique {cfg : PoseCfg ℝ} {side : ErrSide} {pos : V3 ℝ} {att : Quat ℝ}
    {cov : Fin 36 → ℝ} {J J' : Matrix (Fin 6) (Fin 6) ℝ} (h : NoiseMap cfg side pos att cov J)
    (h' : NoiseMap cfg side pos att cov J') : J = J' := by
  ext i j
  have e : ∀ x : Fin 6 → ℝ, x = join6 ![x 0, x 1, x 2] ![x 3, x 4, x 5] := by
    intro x; funext i; fin_cases i <;> rfl
  have := (h _ _).unique (h' ![(Pi.single j 1 : Fin 6 → ℝ) 0, (Pi.single j 1 : Fin 6 → ℝ) 1,
    (Pi.single j 1 : Fin 6 → ℝ) 2] ![(Pi.single j 1 : Fin 6 → ℝ) 3, (Pi.single j 1 : Fin 6 → ℝ) 4,
    (Pi.single j 1 : Fin 6 → ℝ) 5])
  rw [← e (Pi.single j 1), Matrix.mulVec_single_one, Matrix.mulVec_single_one] at this
  exact congrFun this i

/-- The error of a measurement is the residual that the filter forms for it when its prediction is the
true pose. -/
theorem C118_error_is_residual (v : PoseView ℝ) (m m' : PoseMeas ℝ) (hp : v.predPos = m.z_p)
    (hq : v.predAtt = m.z_q) {r : Fin 7 → ℝ} (h : v.residual m'.z_p m'.z_q = some r) (i : Fin 6) :
    r (Fin.castLE (by decide) i) = poseError m m' i := by
  unfold PoseView.residual at h
  rw [hp, hq] at h
  simp only [Option.bind_eq_bind, Option.bind_eq_some_iff, Option.some.injEq] at h
  obtain ⟨a, ha, c, -, rfl⟩ := h
  unfold attResidual at ha
  split at ha
  · cases ha
  · obtain rfl := Option.some.inj ha
    fin_cases i <;> rfl

/-- **C118, partial: poses stored as received.**  If the errors of position and attitude are
uncorrelated, the stored noise is the covariance of the error of the stored pose: for attitude errors
in the axes of the sensor, and in any axes if the attitude is equally uncertain in all directions.
Missing: correlated errors (`C118_correlated_violated`). -/
theorem C118_world_partial (cfg : PoseCfg ℝ) (side : ErrSide) (pos : V3 ℝ) (att : Quat ℝ)
    (cov : Fin 36 → ℝ) (hq : att.normSq = 1) (hw : cfg.fixedCovariance = true ∨ cfg.worldSensor = true)
    (hs : (rowMajor6 cov).IsSymm) (hx : covCross cov = 0)
    (hi : side = .left → cfg.fixedCovariance = true ∨ ∃ σ : ℝ, covAtt cov = σ • (1 : M33 ℝ)) :
    NoiseExact cfg side pos att cov := by
  refine ⟨_, noiseMap_world cfg side pos cov hq hw, ?_⟩
  have ht : att.toRotᵀ * att.toRot = 1 := rot_transpose_mul hq
  cases hf : cfg.fixedCovariance with
  | true =>
    rw [makePose_noise_fixed _ _ _ _ hf, diag7_top, statedCov, if_pos hf, diag6_eq_block6]
    have e : (Matrix.diagonal fun _ => cfg.n_zq * cfg.n_zq : M33 ℝ) = (cfg.n_zq * cfg.n_zq) • (1 : M33 ℝ) := by
      rw [Matrix.smul_one_eq_diagonal]
    cases side with
    | right => simp [plainMap, block6_mul, block6_transpose]
    | left => simp [plainMap, block6_mul, block6_transpose, e, ht]
  | false =>
    have hw' : cfg.worldSensor = true := by simpa [hf] using hw
    rw [makePose_noise_world _ _ _ _ hf hw', diag7_top, statedCov, if_neg (by simp [hf]),
      rowMajor6_blocks cov hs, hx, covPos_symm hs, covAtt_symm hs]
    cases side with
    | right => simp [plainMap, block6_mul, block6_transpose]
    | left =>
      obtain ⟨σ, hσ⟩ : ∃ σ : ℝ, covAtt cov = σ • (1 : M33 ℝ) := by simpa [hf] using hi rfl
      simp [plainMap, block6_mul, block6_transpose, hσ, ht]

/-- **C118, partial: inverted poses.**  If the attitude of the message is exact, or its errors are
equally large in all directions and the position of the message is zero, the stored noise is the
covariance of the error of the stored pose.  Missing: every other position
(`C118_lever_arm_violated`) and attitude noise that depends on the direction
(`C118_attitude_violated`). -/
theorem C118_inverse_partial (cfg : PoseCfg ℝ) (side : ErrSide) (pos : V3 ℝ) (att : Quat ℝ)
    (cov : Fin 36 → ℝ) (hq : att.normSq = 1) (hf : cfg.fixedCovariance = false)
    (hw : cfg.worldSensor = false) (hs : (rowMajor6 cov).IsSymm) (hx : covCross cov = 0)
    (hi : covAtt cov = 0 ∨ pos = 0 ∧ ∃ σ : ℝ, covAtt cov = σ • (1 : M33 ℝ)) :
    NoiseExact cfg side pos att cov := by
  refine ⟨_, noiseMap_inverse cfg side pos cov hq hf hw, ?_⟩
  have ht : att.toRotᵀ * att.toRot = 1 := rot_transpose_mul hq
  have ht' : att.toRot * att.toRotᵀ = 1 := rot_mul_transpose hq
  have s0 : skew (0 : V3 ℝ) = 0 := by
    ext i j; fin_cases i <;> fin_cases j <;> simp [skew]
  rw [makePose_noise_sensor _ _ _ _ hf hw, diag7_top, statedCov, if_neg (by simp [hf]),
    rowMajor6_blocks cov hs, hx, covPos_symm hs, covAtt_symm hs]
  rcases hi with h0 | ⟨rfl, σ, hσ⟩
  · cases side <;> simp [inverseMap, block6_mul, block6_transpose, h0]
  · cases side <;> simp [inverseMap, block6_mul, block6_transpose, hσ, ht, ht', s0]

/-- **C118 is violated by correlated errors.**  Whenever a pose is stored as received and its errors
of position and attitude are correlated, the noise is not the covariance of the error. -/
theorem C118_correlated_violated (cfg : PoseCfg ℝ) (side : ErrSide) (pos : V3 ℝ) (att : Quat ℝ)
    (cov : Fin 36 → ℝ) (hq : att.normSq = 1) (hf : cfg.fixedCovariance = false)
    (hw : cfg.worldSensor = true) (hs : (rowMajor6 cov).IsSymm) (hx : covCross cov ≠ 0) :
    ¬ NoiseExact cfg side pos att cov := by
  rintro ⟨J, hJ, h⟩
  rw [hJ.unique (noiseMap_world cfg side pos cov hq (.inr hw)), makePose_noise_world _ _ _ _ hf hw,
    diag7_top, statedCov, if_neg (by simp [hf]), rowMajor6_blocks cov hs] at h
  cases side with
  | right =>
    simp only [plainMap, block6_mul, block6_transpose] at h
    have := (block6_inj h).2.1
    simp at this
    exact hx this.symm
  | left =>
    simp only [plainMap, block6_mul, block6_transpose] at h
    have := (block6_inj h).2.1
    simp at this
    refine hx ?_
    have e := congrArg (· * att.toRotᵀ) this
    simp only [Matrix.mul_assoc, rot_mul_transpose hq] at e
    simpa using e.symm

/-- **C118 is violated by the lever arm.**  Whenever a pose other than the origin is inverted and its
attitude is uncertain, equally in all directions, the noise is not the covariance of the error: the
error of the attitude moves the stored position. -/
theorem C118_lever_arm_violated (cfg : PoseCfg ℝ) (side : ErrSide) (pos : V3 ℝ) (att : Quat ℝ)
    (cov : Fin 36 → ℝ) (hq : att.normSq = 1) (hf : cfg.fixedCovariance = false)
    (hw : cfg.worldSensor = false) (hs : (rowMajor6 cov).IsSymm) (hx : covCross cov = 0)
    {σ : ℝ} (hσ : covAtt cov = σ • (1 : M33 ℝ)) (h0 : σ ≠ 0) (hp : pos ≠ 0) :
    ¬ NoiseExact cfg side pos att cov := by
  rintro ⟨J, hJ, h⟩
  have ht' : att.toRot * att.toRotᵀ = 1 := rot_mul_transpose hq
  have sk : ∀ v : V3 ℝ, skew v = 0 → v = 0 := by
    intro v hv
    have e := fun i j => congrFun (congrFun hv i) j
    funext i
    fin_cases i
    · simpa [skew] using e 2 1
    · simpa [skew] using e 0 2
    · simpa [skew] using e 1 0
  rw [hJ.unique (noiseMap_inverse cfg side pos cov hq hf hw), makePose_noise_sensor _ _ _ _ hf hw,
    diag7_top, statedCov, if_neg (by simp [hf]), rowMajor6_blocks cov hs, hx, hσ] at h
  cases side with
  | right =>
    simp only [inverseMap, block6_mul, block6_transpose] at h
    have h2 := (block6_inj h).2.1
    have h2' : skew (att.toRotᵀ *ᵥ pos) * att.toRotᵀ = 0 := by simpa [h0] using h2.symm
    have e := congrArg (· * att.toRot) h2'
    simp only [Matrix.mul_assoc, rot_transpose_mul hq] at e
    have e2 := sk _ (by simpa using e)
    have e3 := congrArg (att.toRot *ᵥ ·) e2
    simp only [Matrix.mulVec_mulVec, ht'] at e3
    exact hp (by simpa using e3)
  | left =>
    simp only [inverseMap, block6_mul, block6_transpose] at h
    have h2 := (block6_inj h).2.1
    have h2' : att.toRotᵀ * skew pos = 0 := by simpa [h0] using h2.symm
    have e := congrArg (att.toRot * ·) h2'
    simp only [← Matrix.mul_assoc, ht'] at e
    exact hp (sk _ (by simpa using e))

/-- The attitude of the examples: a third of a turn about the diagonal. -/
noncomputable def thirdTurn : Quat ℝ := ⟨1 / 2, 1 / 2, 1 / 2, 1 / 2⟩

theorem thirdTurn_unit : thirdTurn.normSq = 1 := by norm_num [thirdTurn, Quat.normSq]

theorem thirdTurn_rot : thirdTurn.toRot = !![0, 0, 1; 1, 0, 0; 0, 1, 0] := by
  ext i j
  fin_cases i <;> fin_cases j <;> norm_num [thirdTurn, Quat.toRot]

/-- A covariance in a message. -/
def covMsg (A B C : M33 ℝ) : Fin 36 → ℝ := toArray6 (block6 A B Bᵀ C)

theorem covMsg_eq (A B C : M33 ℝ) (hA : Aᵀ = A) (hC : Cᵀ = C) :
    rowMajor6 (covMsg A B C) = block6 A B Bᵀ C := by
  rw [covMsg, rowMajor6_toArray6, block6_transpose, hA, hC, Matrix.transpose_transpose]

theorem covMsg_blocks (A B C : M33 ℝ) (hA : Aᵀ = A) (hC : Cᵀ = C) :
    (rowMajor6 (covMsg A B C)).IsSymm ∧ covPos (covMsg A B C) = A ∧ covCross (covMsg A B C) = B ∧
      covAtt (covMsg A B C) = C := by
  have e := covMsg_eq A B C hA hC
  have hs : (rowMajor6 (covMsg A B C)).IsSymm := by
    rw [e, Matrix.IsSymm, block6_transpose, hA, hC, Matrix.transpose_transpose]
  have h := rowMajor6_blocks _ hs
  rw [e] at h
  obtain ⟨h1, h2, -, h4⟩ := block6_inj h
  exact ⟨hs, h1.symm, h2.symm, h4.symm⟩

/-- **C118 is violated by attitude noise that depends on the direction.**  An attitude known up to a
rotation about the x axis, at the origin: whichever axes the error is meant in, the noise of the
inverted pose is about a third axis. -/
theorem C118_attitude_violated (side : ErrSide) :
    ¬ NoiseExact ⟨1, 1, false, false⟩ side 0 thirdTurn
      (covMsg 0 0 !![1, 0, 0; 0, 0, 0; 0, 0, 0]) := by
  obtain ⟨hs, hp, hx, ha⟩ := covMsg_blocks 0 0 (!![1, 0, 0; 0, 0, 0; 0, 0, 0] : M33 ℝ) (by simp)
    (by ext i j; fin_cases i <;> fin_cases j <;> rfl)
  rintro ⟨J, hJ, h⟩
  rw [hJ.unique (noiseMap_inverse _ side 0 _ thirdTurn_unit rfl rfl), makePose_noise_sensor _ _ _ _ rfl rfl,
    diag7_top, statedCov, if_neg (by simp), rowMajor6_blocks _ hs, hx, ha, hp] at h
  cases side with
  | right =>
    simp only [inverseMap, block6_mul, block6_transpose, thirdTurn_rot] at h
    have := congrFun (congrFun (block6_inj h).2.2.2 2) 2
    simp [Matrix.mul_apply, Matrix.vecMul, dotProduct, Fin.sum_univ_three] at this
  | left =>
    simp only [inverseMap, block6_mul, block6_transpose, thirdTurn_rot] at h
    have := congrFun (congrFun (block6_inj h).2.2.2 2) 2
    simp [Matrix.mul_apply, Matrix.vecMul, dotProduct, Fin.sum_univ_three] at this

/-- Messages that meet the hypotheses: an inverted pose with an exact attitude, one with an uncertain
attitude away from the origin, and one with correlated errors. -/
example :
    NoiseExact ⟨1, 1, false, false⟩ .left ![1, 2, 3] thirdTurn
      (covMsg (Matrix.diagonal ![1, 2, 3]) 0 0) ∧
    ¬ NoiseExact ⟨1, 1, false, false⟩ .left ![1, 2, 3] thirdTurn
      (covMsg (Matrix.diagonal ![1, 2, 3]) 0 ((2 : ℝ) • 1)) ∧
    NoiseExact ⟨1, 1, true, false⟩ .right ![1, 2, 3] thirdTurn
      (covMsg (Matrix.diagonal ![1, 2, 3]) 0 (Matrix.diagonal ![1, 2, 3])) ∧
    ¬ NoiseExact ⟨1, 1, true, false⟩ .right ![1, 2, 3] thirdTurn
      (covMsg (Matrix.diagonal ![1, 2, 3]) ((1 / 2 : ℝ) • 1) (Matrix.diagonal ![1, 2, 3])) := by
  refine ⟨?_, ?_, ?_, ?_⟩
  · obtain ⟨hs, -, hx, ha⟩ := covMsg_blocks (Matrix.diagonal ![(1 : ℝ), 2, 3]) 0 0 (by simp) (by simp)
    exact C118_inverse_partial _ _ _ _ _ thirdTurn_unit rfl rfl hs hx (.inl ha)
  · obtain ⟨hs, -, hx, ha⟩ := covMsg_blocks (Matrix.diagonal ![(1 : ℝ), 2, 3]) 0 ((2 : ℝ) • 1) (by simp)
      (by simp)
    exact C118_lever_arm_violated _ _ _ _ _ thirdTurn_unit rfl rfl hs hx ha (by norm_num)
      (fun h => by simpa using congrFun h 0)
  · obtain ⟨hs, -, hx, ha⟩ := covMsg_blocks (Matrix.diagonal ![(1 : ℝ), 2, 3]) 0
      (Matrix.diagonal ![(1 : ℝ), 2, 3]) (by simp) (by simp)
    exact C118_world_partial _ _ _ _ _ thirdTurn_unit (.inr rfl) hs hx (fun h => by cases h)
  · obtain ⟨hs, -, hx, ha⟩ := covMsg_blocks (Matrix.diagonal ![(1 : ℝ), 2, 3]) ((1 / 2 : ℝ) • 1)
      (Matrix.diagonal ![(1 : ℝ), 2, 3]) (by simp) (by simp)
    refine C118_correlated_violated _ _ _ _ _ thirdTurn_unit rfl rfl hs ?_
    rw [hx]
    intro h
    have := congrFun (congrFun h 0) 0
    simp at this

end MSF
