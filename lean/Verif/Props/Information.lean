import Verif.Props.Covariance
import Verif.Props.FilterKernel
import Verif.Props.Jacobian
import Verif.Lemmas.Unchecked
import Verif.Props.PoseFilters

/-!
# C111: updates are least squares
-/

namespace MSF

open Matrix

section
variable {k : Nat} {m : Type} [Fintype m] [DecidableEq m]

theorem information_form {P : Matrix (Fin k) (Fin k) ℝ} (hP : P.PosDef) (H : Matrix m (Fin k) ℝ)
    {R : Matrix m m ℝ} (hR : R.PosDef) :
    (1 - gain P H R * H) * P * (P⁻¹ + Hᵀ * R⁻¹ * H) = 1 ∧
      (1 - gain P H R * H) * P * (Hᵀ * R⁻¹) = gain P H R := by
  have hS : (innovCov P H R).PosDef := hR.posSemidef_add (psd_congr hP.posSemidef H)
  have hSu := (Matrix.isUnit_iff_isUnit_det _).1 hS.isUnit
  have hRu := (Matrix.isUnit_iff_isUnit_det _).1 hR.isUnit
  have hPu := (Matrix.isUnit_iff_isUnit_det _).1 hP.isUnit
  have hKS : gain P H R * innovCov P H R = P * Hᵀ := by
    rw [gain, Matrix.mul_assoc, nonsing_inv_mul _ hSu, Matrix.mul_one]
  have hKR : (1 - gain P H R * H) * P * Hᵀ = gain P H R * R := by
    rw [Matrix.sub_mul, Matrix.sub_mul, Matrix.one_mul, ← hKS]
    rw [innovCov, Matrix.mul_add, Matrix.mul_assoc (gain P H R) H P, Matrix.mul_assoc (gain P H R) (H * P)]
    abel
  have h2 : (1 - gain P H R * H) * P * (Hᵀ * R⁻¹) = gain P H R := by
    rw [← Matrix.mul_assoc, hKR, Matrix.mul_assoc, mul_nonsing_inv _ hRu, Matrix.mul_one]
  refine ⟨?_, h2⟩
  rw [Matrix.mul_add, Matrix.mul_assoc _ P, mul_nonsing_inv _ hPu, Matrix.mul_one, ← Matrix.mul_assoc, h2,
    sub_add_cancel]

/-- The squared distance of the deviation `δ` from the prior and of the residual `r` from what `δ` explains,
each weighted with the inverse of its covariance. -/
noncomputable def cost (P : Matrix (Fin k) (Fin k) ℝ) (H : Matrix m (Fin k) ℝ) (R : Matrix m m ℝ) (r : m → ℝ)
    (δ : Fin k → ℝ) : ℝ :=
  δ ⬝ᵥ (P⁻¹ *ᵥ δ) + (r - H *ᵥ δ) ⬝ᵥ (R⁻¹ *ᵥ (r - H *ᵥ δ))

theorem inv_symm {n : Type} [Fintype n] [DecidableEq n] {A : Matrix n n ℝ} (h : A.PosDef) : (A⁻¹)ᵀ = A⁻¹ := by
  rw [transpose_nonsing_inv, psd_transpose_eq h.posSemidef]

theorem symm_dot {n : Type} [Fintype n] {A : Matrix n n ℝ} (h : Aᵀ = A) (x y : n → ℝ) :
    x ⬝ᵥ (A *ᵥ y) = y ⬝ᵥ (A *ᵥ x) := by
  rw [dotProduct_mulVec, ← mulVec_transpose, h, dotProduct_comm]

omit [DecidableEq m] in
/-- Completing the square. -/
theorem cost_square {Pi : Matrix (Fin k) (Fin k) ℝ} (hPi : Piᵀ = Pi) {H : Matrix m (Fin k) ℝ} {Ri : Matrix m m ℝ}
    (hRi : Riᵀ = Ri) (r : m → ℝ) (c δ : Fin k → ℝ) (hc : (Pi + Hᵀ * Ri * H) *ᵥ c = (Hᵀ * Ri) *ᵥ r) :
    δ ⬝ᵥ (Pi *ᵥ δ) + (r - H *ᵥ δ) ⬝ᵥ (Ri *ᵥ (r - H *ᵥ δ)) =
      c ⬝ᵥ (Pi *ᵥ c) + (r - H *ᵥ c) ⬝ᵥ (Ri *ᵥ (r - H *ᵥ c)) +
        (δ - c) ⬝ᵥ ((Pi + Hᵀ * Ri * H) *ᵥ (δ - c)) := by
  obtain ⟨e, rfl⟩ : ∃ e, δ = c + e := ⟨δ - c, by abel⟩
  have h1 : ∀ x y : Fin k → ℝ, x ⬝ᵥ ((Hᵀ * Ri * H) *ᵥ y) = (H *ᵥ x) ⬝ᵥ (Ri *ᵥ (H *ᵥ y)) := by
    intro x y
    rw [← mulVec_mulVec, ← mulVec_mulVec, dotProduct_mulVec x, ← mulVec_transpose, transpose_transpose]
  have h2 : ∀ x : Fin k → ℝ, x ⬝ᵥ ((Hᵀ * Ri) *ᵥ r) = (H *ᵥ x) ⬝ᵥ (Ri *ᵥ r) := by
    intro x
    rw [← mulVec_mulVec, dotProduct_mulVec x, ← mulVec_transpose, transpose_transpose]
  have hc' := congrArg (fun v => e ⬝ᵥ v) hc
  simp only [add_mulVec, dotProduct_add, h1, h2] at hc'
  have s1 := symm_dot hPi c e
  have s2 := symm_dot hRi (H *ᵥ c) (H *ᵥ e)
  have s3 := symm_dot hRi r (H *ᵥ e)
  have s4 := symm_dot hRi r (H *ᵥ c)
  simp only [add_sub_cancel_left, add_mulVec, mulVec_add, mulVec_sub, dotProduct_add, add_dotProduct,
    sub_dotProduct, dotProduct_sub, h1]
  linarith

theorem correction_square {P : Matrix (Fin k) (Fin k) ℝ} (hP : P.PosDef) {H : Matrix m (Fin k) ℝ}
    {R : Matrix m m ℝ} (hR : R.PosDef) {en : Bool} {thr : ℝ} {r : m → ℝ} {c : Fin k → ℝ}
    {P' : Matrix (Fin k) (Fin k) ℝ} (h : calculateCorrection en thr P H r R = some (some (c, P'))) :
    P'.PosDef ∧ P'⁻¹ = P⁻¹ + Hᵀ * R⁻¹ * H ∧
      ∀ δ, cost P H R r δ = cost P H R r c + (δ - c) ⬝ᵥ (P'⁻¹ *ᵥ (δ - c)) := by
  have hS : (innovCov P H R).PosDef := hR.posSemidef_add (psd_congr hP.posSemidef H)
  have hSu := (Matrix.isUnit_iff_isUnit_det _).1 hS.isUnit
  have hj := (C30_update_decreases P hP.posSemidef H R hR.posSemidef hSu).1
  obtain ⟨i1, i2⟩ := information_form hP H hR
  have hL : (P⁻¹ + Hᵀ * R⁻¹ * H).PosDef := by
    refine hP.inv.add_posSemidef ?_
    have := psd_congr hR.inv.posSemidef Hᵀ
    rwa [transpose_transpose] at this
  simp only [calculateCorrection, if_neg hSu.ne_zero] at h
  split at h
  · cases h
  · simp only [Option.some.injEq, Prod.mk.injEq] at h
    obtain ⟨rfl, rfl⟩ := h
    rw [hj]
    have hLu := (Matrix.isUnit_iff_isUnit_det _).1 hL.isUnit
    have hinv : (P⁻¹ + Hᵀ * R⁻¹ * H)⁻¹ = (1 - gain P H R * H) * P := inv_eq_left_inv i1
    rw [← hinv, nonsing_inv_nonsing_inv _ hLu]
    refine ⟨hL.inv, rfl, fun δ => ?_⟩
    have hc : (P⁻¹ + Hᵀ * R⁻¹ * H) *ᵥ (gain P H R *ᵥ r) = (Hᵀ * R⁻¹) *ᵥ r := by
      rw [mulVec_mulVec, ← i2, ← hinv, ← Matrix.mul_assoc, mul_nonsing_inv _ hLu, Matrix.one_mul]
    exact cost_square (inv_symm hP) (inv_symm hR) r _ δ hc

/-- **C111, one update.**  With positive definite prior and noise an update that is not rejected adds the
information `Hᵀ R⁻¹ H`, and the correction is the one deviation from the estimate that fits prior and
measurement best. -/
theorem C111_least_squares (P : Matrix (Fin k) (Fin k) ℝ) (hP : P.PosDef) (H : Matrix m (Fin k) ℝ)
    (R : Matrix m m ℝ) (hR : R.PosDef) (en : Bool) (thr : ℝ) (r : m → ℝ) (c : Fin k → ℝ)
    (P' : Matrix (Fin k) (Fin k) ℝ) (h : calculateCorrection en thr P H r R = some (some (c, P'))) :
    P'⁻¹ = P⁻¹ + Hᵀ * R⁻¹ * H ∧ P' * P'⁻¹ = 1 ∧ ∀ δ, δ ≠ c → cost P H R r c < cost P H R r δ := by
  obtain ⟨h1, h2, h3⟩ := correction_square hP hR h
  refine ⟨h2, mul_nonsing_inv _ ((Matrix.isUnit_iff_isUnit_det _).1 h1.isUnit), fun δ hne => ?_⟩
  have := h1.inv.dotProduct_mulVec_pos (sub_ne_zero.2 hne)
  rw [star_trivial] at this
  rw [h3 δ]
  linarith

end

/-- A measurement `z` of the quantity `H x` with noise covariance `R`. -/
structure LinMeas (k : Nat) where
  n : Nat
  H : Matrix (Fin n) (Fin k) ℝ
  z : Fin n → ℝ
  R : Matrix (Fin n) (Fin n) ℝ

/-- Update of an estimate `x` that is corrected by addition. -/
noncomputable def LinMeas.update {k : Nat} (s : (Fin k → ℝ) × Matrix (Fin k) (Fin k) ℝ) (o : LinMeas k) :
    Option ((Fin k → ℝ) × Matrix (Fin k) (Fin k) ℝ) := do
  match ← calculateCorrection false 0 s.2 o.H (o.z - o.H *ᵥ s.1) o.R with
  | none => some s
  | some (c, P) => some (s.1 + c, P)

/-- The weighted squared errors of the prior and of all measurements. -/
noncomputable def batchCost {k : Nat} (x0 : Fin k → ℝ) (P0 : Matrix (Fin k) (Fin k) ℝ) (os : List (LinMeas k))
    (x : Fin k → ℝ) : ℝ :=
  (x - x0) ⬝ᵥ (P0⁻¹ *ᵥ (x - x0)) +
    (os.map fun o => (o.z - o.H *ᵥ x) ⬝ᵥ (o.R⁻¹ *ᵥ (o.z - o.H *ᵥ x))).sum

theorem batch_aux {k : Nat} : ∀ (os : List (LinMeas k)) (x0 : Fin k → ℝ) (P0 : Matrix (Fin k) (Fin k) ℝ),
    P0.PosDef → (∀ o ∈ os, o.R.PosDef) → ∃ x P, os.foldlM LinMeas.update (x0, P0) = some (x, P) ∧ P.PosDef ∧
      P⁻¹ = P0⁻¹ + (os.map fun o => o.Hᵀ * o.R⁻¹ * o.H).sum ∧
      ∃ a, ∀ y, batchCost x0 P0 os y = a + (y - x) ⬝ᵥ (P⁻¹ *ᵥ (y - x)) := by
  intro os
  induction os with
  | nil =>
    intro x0 P0 hP _
    exact ⟨x0, P0, rfl, hP, by simp, 0, fun y => by simp [batchCost]⟩
  | cons o os ih =>
    intro x0 P0 hP hR
    have hRo := hR o List.mem_cons_self
    obtain ⟨cp, hcp⟩ : ∃ cp, calculateCorrection false 0 P0 o.H (o.z - o.H *ᵥ x0) o.R = some (some cp) := by
      have hs := C28_never_fails P0 hP.posSemidef o.H o.R hRo false 0 (o.z - o.H *ᵥ x0)
      unfold calculateCorrection at hs ⊢
      split
      · rename_i h0
        rw [if_pos h0] at hs
        cases hs
      · rw [if_neg (by simp)]
        exact ⟨_, rfl⟩
    obtain ⟨c, P1⟩ := cp
    obtain ⟨h1, h2, h3⟩ := correction_square hP hRo hcp
    obtain ⟨x, P, e, hPd, hinv, a, ha⟩ := ih (x0 + c) P1 h1 fun o ho => hR o (List.mem_cons_of_mem _ ho)
    refine ⟨x, P, ?_, hPd, ?_, a + cost P0 o.H o.R (o.z - o.H *ᵥ x0) c, fun y => ?_⟩
    · rw [List.foldlM_cons]
      have : LinMeas.update (x0, P0) o = some (x0 + c, P1) := by
        unfold LinMeas.update
        simp only [hcp, Option.bind_eq_bind, Option.bind_some]
      rw [this]
      exact e
    · rw [hinv, h2, List.map_cons, List.sum_cons, add_assoc]
    · have e1 := ha y
      have e2 := h3 (y - x0)
      unfold cost at e2 ⊢
      unfold batchCost at e1 ⊢
      have e3 : o.z - o.H *ᵥ x0 - o.H *ᵥ (y - x0) = o.z - o.H *ᵥ y := by rw [mulVec_sub]; abel
      have e4 : y - x0 - c = y - (x0 + c) := by abel
      rw [e3, e4] at e2
      rw [List.map_cons, List.sum_cons]
      linarith

/-- **C111, any number of updates.**  Measurements that are processed one after the other, each with the update
of the filter, give the batch result: the estimate is the only one that minimises the weighted squared errors
of the prior and all measurements, and the information is the sum of all. -/
theorem C111_sequence_is_batch {k : Nat} (os : List (LinMeas k)) (x0 : Fin k → ℝ) (P0 : Matrix (Fin k) (Fin k) ℝ)
    (hP : P0.PosDef) (hR : ∀ o ∈ os, o.R.PosDef) :
    ∃ x P, os.foldlM LinMeas.update (x0, P0) = some (x, P) ∧
      P⁻¹ = P0⁻¹ + (os.map fun o => o.Hᵀ * o.R⁻¹ * o.H).sum ∧
      ∀ y, y ≠ x → batchCost x0 P0 os x < batchCost x0 P0 os y := by
  obtain ⟨x, P, e, h1, h2, a, h3⟩ := batch_aux os x0 P0 hP hR
  refine ⟨x, P, e, h2, fun y hne => ?_⟩
  have := h1.inv.dotProduct_mulVec_pos (sub_ne_zero.2 hne)
  rw [star_trivial] at this
  rw [h3 y, h3 x, sub_self, zero_dotProduct]
  linarith

/-- **C111, order.**  The order in which measurements are processed does not matter. -/
theorem C111_order {k : Nat} (os os' : List (LinMeas k)) (hp : os.Perm os') (x0 : Fin k → ℝ)
    (P0 : Matrix (Fin k) (Fin k) ℝ) (hP : P0.PosDef) (hR : ∀ o ∈ os, o.R.PosDef) :
    os.foldlM LinMeas.update (x0, P0) = os'.foldlM LinMeas.update (x0, P0) := by
  obtain ⟨x, P, e, h1, h2, a, h3⟩ := batch_aux os x0 P0 hP hR
  obtain ⟨x', P', e', h1', h2', a', h3'⟩ := batch_aux os' x0 P0 hP fun o ho => hR o (hp.mem_iff.2 ho)
  have hPP : P⁻¹ = P'⁻¹ := by rw [h2, h2', (hp.map _).sum_eq]
  have hc : ∀ y, batchCost x0 P0 os y = batchCost x0 P0 os' y := fun y => by
    unfold batchCost
    rw [(hp.map _).sum_eq]
  have hx : x = x' := by
    by_contra hne
    have i1 := h1.inv.dotProduct_mulVec_pos (sub_ne_zero.2 hne)
    have i2 := h1.inv.dotProduct_mulVec_pos (sub_ne_zero.2 (Ne.symm hne))
    rw [star_trivial] at i1 i2
    have j1 := h3 x
    have j2 := h3 x'
    have j3 := h3' x
    have j4 := h3' x'
    rw [hc, sub_self, zero_dotProduct] at j1
    rw [hc] at j2
    rw [← hPP] at j3
    rw [sub_self, zero_dotProduct] at j4
    linarith
  have hP' : P = P' := by
    have := congrArg (fun A => A⁻¹) hPP
    simpa only [nonsing_inv_nonsing_inv _ ((Matrix.isUnit_iff_isUnit_det _).1 h1.isUnit),
      nonsing_inv_nonsing_inv _ ((Matrix.isUnit_iff_isUnit_det _).1 h1'.isUnit)] using this
  rw [e, e', hx, hP']

/-- Non-vacuity: two measurements of different size of a state with two entries. -/
example : (1 : Matrix (Fin 2) (Fin 2) ℝ).PosDef ∧
    ∀ o ∈ ([⟨1, !![1, 0], ![3], 1⟩, ⟨2, 1, ![1, 2], 1⟩] : List (LinMeas 2)), o.R.PosDef := by
  refine ⟨PosDef.one, ?_⟩
  intro o ho
  simp only [List.mem_cons, List.not_mem_nil, or_false] at ho
  rcases ho with rfl | rfl <;> exact PosDef.one

/-! ### Pressure readings -/

section
variable {aux : List VarDesc}

/-- Hooks of a manager that do not step in. -/
structure NoHooks (uc : UserCalc (coreDef aux)) : Prop where
  augment : ∀ c, uc.augment c = c
  sanity : ∀ s' s c, uc.sanity s' s c = s'
  bias : uc.fixedBias = false

/-- Pressure readings, value and standard deviation each, that are processed one after the other at the same
instant by a handler without outlier test; `none` if an update fails or is called fuzzy. -/
noncomputable def pressureUpdates (uc : UserCalc (coreDef aux)) (bp : Nat) (zs : List (ℝ × ℝ))
    (s : Tracker ℝ × Values (coreDef aux) × ErrMat ℝ (coreDef aux)) :
    Option (Tracker ℝ × Values (coreDef aux) × ErrMat ℝ (coreDef aux)) :=
  zs.foldlM (fun s z => do
    let u ← sensorUpdate uc s.1 (Reading.pressure bp false 0 z.1 z.2).meas s.2.1 s.2.2
    if u.fuzzy then none else some (u.tr, u.x, u.P)) s

/-- The vectors of the state `y` are those of `x` moved by the entries of `d`. -/
def MovedBy (d : Fin (total errLen (coreDef aux)) → ℝ) (x y : Values (coreDef aux)) : Prop :=
  ∀ i n u, getVec (toVars x) i n = some u → getVec (toVars y) i n = some (u + segOf d i n)

theorem segOf_add {D : List VarDesc} (c d : Fin (total errLen D) → ℝ) (i n : Nat) :
    segOf (c + d) i n = segOf c i n + segOf d i n := by
  funext j
  simp only [segOf, segD, Pi.add_apply]
  split <;> simp

theorem getVec_toVars_values {D : List VarDesc} (s : Vars ℝ D) (i n : Nat) :
    getVec (toVars (values s)) i n = getVec s i n := rfl

theorem fuzzyCheck'_calm {D : List VarDesc} {t t' : Tracker ℝ} {a b s : Vars ℝ D} {thr : ℝ}
    (h : fuzzyCheck' t a b thr = some (t', s, false)) : s = a := by
  unfold fuzzyCheck' at h
  split at h
  · simp only [Option.some.injEq, Prod.mk.injEq] at h
    exact h.2.1.symm
  · simp only [fuzzyCheck, Option.bind_eq_bind, Option.bind_eq_some_iff] at h
    obtain ⟨i, -, q, -, h⟩ := h
    split at h
    · split at h
      · simp [pure] at h
      · simp only [Option.bind_eq_some_iff, pure, Option.some.injEq, Prod.mk.injEq] at h
        obtain ⟨_, _, _, e, _⟩ := h
        exact e.symm
    · simp only [Option.bind_eq_some_iff, pure, Option.some.injEq, Prod.mk.injEq] at h
      obtain ⟨_, _, _, e, _⟩ := h
      exact e.symm

/-- A pressure reading as a measurement of the deviation from `x`. -/
noncomputable def pressureLin (x : Values (coreDef aux)) (b : Fin 1 → ℝ)
    (H : Matrix (Fin 1) (Fin (total errLen (coreDef aux))) ℝ) (z : ℝ × ℝ) :
    LinMeas (total errLen (coreDef aux)) :=
  ⟨1, H, fun _ => z.1 + b 0 - EKFState.p (toVars x) 2, Matrix.diagonal fun _ => z.2 * z.2⟩

theorem pressureUpdates_sim (uc : UserCalc (coreDef aux)) (huc : NoHooks uc) (bp : Nat)
    (hn : ∀ i (hi : i < (coreDef aux).length), (coreDef aux)[i].name = i) (hp : PlainVars (coreDef aux))
    (x0 : Values (coreDef aux)) (b : Fin 1 → ℝ) (hb : getVec (toVars x0) bp 1 = some b)
    (H : Matrix (Fin 1) (Fin (total errLen (coreDef aux))) ℝ) (hH : pressureH bp = some H)
    (hm : ∀ δ, H *ᵥ δ = fun _ => segOf δ 0 3 2 - segOf δ bp 1 0) :
    ∀ (zs : List (ℝ × ℝ)) (d : Fin (total errLen (coreDef aux)) → ℝ) (tr tr' : Tracker ℝ)
      (x x' : Values (coreDef aux)) (P P' : ErrMat ℝ (coreDef aux)), UnitQuats (toVars x) → MovedBy d x0 x →
      pressureUpdates uc bp zs (tr, x, P) = some (tr', x', P') →
      ∃ d', MovedBy d' x0 x' ∧ (zs.map (pressureLin x0 b H)).foldlM LinMeas.update (d, P) = some (d', P') := by
  intro zs
  induction zs with
  | nil =>
    intro d tr tr' x x' P P' hu hd h
    simp only [pressureUpdates, List.foldlM_nil, pure, Option.some.injEq, Prod.mk.injEq] at h
    obtain ⟨-, rfl, rfl⟩ := h
    exact ⟨d, hd, rfl⟩
  | cons z zs ih =>
    intro d tr tr' x x' P P' hu hd h
    unfold pressureUpdates at h
    rw [List.foldlM_cons, Option.bind_eq_bind, Option.bind_eq_some_iff] at h
    obtain ⟨s1, h1, h2⟩ := h
    simp only [Option.bind_eq_bind, Option.bind_eq_some_iff] at h1
    obtain ⟨u, hu1, hf⟩ := h1
    split at hf
    · cases hf
    rename_i hfz
    obtain rfl := Option.some.inj hf
    have hr : pressureResidual bp z.1 (toVars x) =
        some ((pressureLin x0 b H z).z - (pressureLin x0 b H z).H *ᵥ d) := by
      have e1 := hd _ _ _ hb
      have e2 := hd _ _ _ (getVec_p (toVars x0))
      rw [getVec_p, Option.some.injEq] at e2
      simp only [pressureResidual, e1, e2, Option.bind_eq_bind, Option.bind_some]
      congr 1
      funext j
      change z.1 + (b 0 + segOf d bp 1 0) - (EKFState.p (toVars x0) 2 + segOf d 0 3 2) =
        (z.1 + b 0 - EKFState.p (toVars x0) 2) - (H *ᵥ d) j
      rw [hm]
      ring
    have hu2 : (do
        match ← calculateCorrection false 0 P H ((pressureLin x0 b H z).z - (pressureLin x0 b H z).H *ᵥ d)
          (Matrix.diagonal fun _ => z.2 * z.2) with
        | none => some (⟨tr, x, P, false, false⟩ : Upd _ _ _)
        | some (c, P') =>
          let (t', vars, fz) ← applyCorrection uc tr (toVars x) c
          some ⟨t', values vars, P', true, fz⟩) = some u := by
      have : (Reading.pressure bp false 0 z.1 z.2).meas (aux := aux) =
        ⟨⟨1, fun _ => pressureH bp, pressureResidual bp z.1, Matrix.diagonal fun _ => z.2 * z.2, false,
          0⟩, 0, []⟩ := rfl
      rw [this] at hu1
      unfold sensorUpdate measUpdate at hu1
      simp only [clearFixed_zero, hH, hr, Option.bind_eq_bind, Option.bind_some] at hu1
      exact hu1
    rw [Option.bind_eq_bind, Option.bind_eq_some_iff] at hu2
    obtain ⟨o, ho, hu2⟩ := hu2
    cases o with
    | none =>
      exfalso
      unfold calculateCorrection at ho
      split at ho
      · cases ho
      · rw [if_neg (by simp)] at ho
        cases ho
    | some cp =>
      obtain ⟨c, P1⟩ := cp
      simp only [Option.bind_eq_bind, Option.bind_eq_some_iff] at hu2
      obtain ⟨⟨t1, v1, fz⟩, ha, hu2⟩ := hu2
      obtain rfl := Option.some.inj hu2
      simp only [applyCorrection, huc.augment, huc.sanity, huc.bias, Option.bind_eq_bind,
        Option.bind_eq_some_iff] at ha
      obtain ⟨s', hs', ha⟩ := ha
      obtain rfl : fz = false := by simpa using hfz
      obtain rfl := fuzzyCheck'_calm ha
      have hs'' : correct (toVars x) c = some v1 := hs'
      obtain ⟨s2, e2, hv, -⟩ := correct_reads (toVars x) c hn hp hu
      rw [hs''] at e2
      obtain rfl := Option.some.inj e2
      obtain ⟨d', hd', e'⟩ := ih (d + c) t1 tr' (values v1) x' P1 P'
        (C33_corrected_unit (toVars x) v1 c hn hp.quats hu hs'') (fun i n u hi => by
          rw [getVec_toVars_values, hv _ _ _ (hd _ _ _ hi), segOf_add, add_assoc]) h2
      refine ⟨d', hd', ?_⟩
      rw [List.map_cons, List.foldlM_cons]
      have : LinMeas.update (d, P) (pressureLin x0 b H z) = some (d + c, P1) := by
        have ho' : calculateCorrection false 0 P (pressureLin x0 b H z).H
          ((pressureLin x0 b H z).z - (pressureLin x0 b H z).H *ᵥ d) (pressureLin x0 b H z).R = _ := ho
        unfold LinMeas.update
        simp only [ho', Option.bind_eq_bind, Option.bind_some]
      rw [this]
      exact e'

/-- **C111, pressure readings.**  Pressure readings of one instant move the vectors of the state (position,
velocity, biases, calibration) by the deviation that minimises the weighted squared errors of the prior and of all
readings. -/
theorem C111_pressure (uc : UserCalc (coreDef aux)) (huc : NoHooks uc) (bp : Nat)
    (hn : ∀ i (hi : i < (coreDef aux).length), (coreDef aux)[i].name = i) (hp : PlainVars (coreDef aux))
    (zs : List (ℝ × ℝ)) (hz : ∀ z ∈ zs, z.2 ≠ 0) (tr tr' : Tracker ℝ) (x x' : Values (coreDef aux))
    (P P' : ErrMat ℝ (coreDef aux)) (b : Fin 1 → ℝ) (hb : getVec (toVars x) bp 1 = some b)
    (hu : UnitQuats (toVars x)) (hP : P.PosDef)
    (h : pressureUpdates uc bp zs (tr, x, P) = some (tr', x', P')) :
    ∃ d, MovedBy d x x' ∧ ∀ δ, δ ≠ d →
      d ⬝ᵥ (P⁻¹ *ᵥ d) + (zs.map fun z => (z.1 - ((EKFState.p (toVars x) 2 + segOf d 0 3 2) -
        (b 0 + segOf d bp 1 0))) ^ 2 / z.2 ^ 2).sum <
      δ ⬝ᵥ (P⁻¹ *ᵥ δ) + (zs.map fun z => (z.1 - ((EKFState.p (toVars x) 2 + segOf δ 0 3 2) -
        (b 0 + segOf δ bp 1 0))) ^ 2 / z.2 ^ 2).sum := by
  obtain ⟨H, hH, hm⟩ := pressureH_mulVec bp (toVars x) b hn hb
  obtain ⟨d, hd, e⟩ := pressureUpdates_sim uc huc bp hn hp x b hb H hH hm zs 0 tr tr' x x' P P' hu
    (fun i n u hi => by
      have : segOf (0 : Fin (total errLen (coreDef aux)) → ℝ) i n = 0 := by
        funext j; simp [segOf, segD]
      rw [hi, this, add_zero]) h
  have hR : ∀ o ∈ zs.map (pressureLin x b H), o.R.PosDef := by
    intro o ho
    obtain ⟨z, hzm, rfl⟩ := List.mem_map.1 ho
    exact PosDef.diagonal fun _ => mul_self_pos.2 (hz z hzm)
  obtain ⟨d', P'', e', -, hmin⟩ := C111_sequence_is_batch (zs.map (pressureLin x b H)) 0 P hP hR
  rw [e, Option.some.injEq, Prod.mk.injEq] at e'
  obtain ⟨rfl, rfl⟩ := e'
  have hc : ∀ δ, batchCost 0 P (zs.map (pressureLin x b H)) δ =
      δ ⬝ᵥ (P⁻¹ *ᵥ δ) + (zs.map fun z => (z.1 - ((EKFState.p (toVars x) 2 + segOf δ 0 3 2) -
        (b 0 + segOf δ bp 1 0))) ^ 2 / z.2 ^ 2).sum := by
    intro δ
    unfold batchCost
    rw [sub_zero, List.map_map]
    congr 2
    refine List.map_congr_left fun z hzm => ?_
    have h0 := hz z hzm
    have key : ∀ w : Fin 1 → ℝ, w ⬝ᵥ ((Matrix.diagonal fun _ : Fin 1 => z.2 * z.2)⁻¹ *ᵥ w) =
        w 0 ^ 2 / z.2 ^ 2 := by
      intro w
      have hi : (Matrix.diagonal fun _ : Fin 1 => z.2 * z.2)⁻¹ = Matrix.diagonal fun _ => (z.2 * z.2)⁻¹ := by
        refine inv_eq_left_inv ?_
        rw [Matrix.diagonal_mul_diagonal, ← Matrix.diagonal_one]
        congr 1
        funext _
        exact inv_mul_cancel₀ (mul_self_ne_zero.2 h0)
      rw [hi]
      simp only [dotProduct, Finset.univ_unique, Finset.sum_singleton, Matrix.mulVec_diagonal]
      change w 0 * ((z.2 * z.2)⁻¹ * w 0) = _
      field_simp
    refine (key ((fun _ : Fin 1 => z.1 + b 0 - EKFState.p (toVars x) 2) - H *ᵥ δ)).trans ?_
    rw [hm, Pi.sub_apply]
    congr 2
    ring
  refine ⟨d, hd, fun δ hne => ?_⟩
  rw [← hc, ← hc]
  exact hmin δ hne

/-- **C111, order of pressure readings.**  In whichever order the pressure readings of one instant are processed,
the resulting covariance and all vectors of the state are the same. -/
theorem C111_pressure_order (uc : UserCalc (coreDef aux)) (huc : NoHooks uc) (bp : Nat)
    (hn : ∀ i (hi : i < (coreDef aux).length), (coreDef aux)[i].name = i) (hp : PlainVars (coreDef aux))
    (zs zs' : List (ℝ × ℝ)) (hperm : zs.Perm zs') (hz : ∀ z ∈ zs, z.2 ≠ 0) (tr t1 t2 : Tracker ℝ)
    (x x1 x2 : Values (coreDef aux)) (P P1 P2 : ErrMat ℝ (coreDef aux)) (b : Fin 1 → ℝ)
    (hb : getVec (toVars x) bp 1 = some b) (hu : UnitQuats (toVars x)) (hP : P.PosDef)
    (h1 : pressureUpdates uc bp zs (tr, x, P) = some (t1, x1, P1))
    (h2 : pressureUpdates uc bp zs' (tr, x, P) = some (t2, x2, P2)) :
    P1 = P2 ∧ ∀ i n u, getVec (toVars x) i n = some u → getVec (toVars x1) i n = getVec (toVars x2) i n := by
  obtain ⟨H, hH, hm⟩ := pressureH_mulVec bp (toVars x) b hn hb
  have h0 : MovedBy 0 x x := fun i n u hi => by
    have : segOf (0 : Fin (total errLen (coreDef aux)) → ℝ) i n = 0 := by
      funext j; simp [segOf, segD]
    rw [hi, this, add_zero]
  obtain ⟨d1, hd1, e1⟩ := pressureUpdates_sim uc huc bp hn hp x b hb H hH hm zs 0 tr t1 x x1 P P1 hu h0 h1
  obtain ⟨d2, hd2, e2⟩ := pressureUpdates_sim uc huc bp hn hp x b hb H hH hm zs' 0 tr t2 x x2 P P2 hu h0 h2
  have hR : ∀ o ∈ zs.map (pressureLin x b H), o.R.PosDef := by
    intro o ho
    obtain ⟨z, hzm, rfl⟩ := List.mem_map.1 ho
    exact PosDef.diagonal fun _ => mul_self_pos.2 (hz z hzm)
  rw [C111_order _ _ (hperm.map (pressureLin x b H)) 0 P hP hR, e2, Option.some.injEq, Prod.mk.injEq] at e1
  obtain ⟨rfl, rfl⟩ := e1
  exact ⟨rfl, fun i n u hi => by rw [hd1 i n u hi, hd2 i n u hi]⟩

/-- The first updates after the start succeed and are not called fuzzy. -/
theorem pressureUpdates_defined (hD : CheckCompiles (coreDef aux)) (uc : UserCalc (coreDef aux)) (huc : NoHooks uc)
    (bp : Nat) (hn : ∀ i (hi : i < (coreDef aux).length), (coreDef aux)[i].name = i) (hp : PlainVars (coreDef aux)) :
    ∀ (zs : List (ℝ × ℝ)) (tr : Tracker ℝ) (x : Values (coreDef aux)) (P : ErrMat ℝ (coreDef aux)) (b : Fin 1 → ℝ),
      (∀ z ∈ zs, z.2 ≠ 0) → tr.timer + zs.length ≤ nBuff + 1 → getVec (toVars x) bp 1 = some b →
      UnitQuats (toVars x) → P.PosDef → ∃ r, pressureUpdates uc bp zs (tr, x, P) = some r := by
  intro zs
  induction zs with
  | nil => exact fun tr x P b _ _ _ _ _ => ⟨_, rfl⟩
  | cons z zs ih =>
    intro tr x P b hz ht hb hu hP
    obtain ⟨H, hH, hm⟩ := pressureH_mulVec bp (toVars x) b hn hb
    have hR : (Matrix.diagonal fun _ : Fin 1 => z.2 * z.2).PosDef :=
      PosDef.diagonal fun _ => mul_self_pos.2 (hz z List.mem_cons_self)
    have hr : pressureResidual bp z.1 (toVars x) = some fun _ => z.1 + b 0 - EKFState.p (toVars x) 2 := by
      simp only [pressureResidual, hb, Option.bind_eq_bind, Option.bind_some]
    have hs := C28_never_fails P hP.posSemidef H _ hR false 0 (fun _ => z.1 + b 0 - EKFState.p (toVars x) 2)
    obtain ⟨cp, hcp⟩ : ∃ cp, calculateCorrection false 0 P H (fun _ => z.1 + b 0 - EKFState.p (toVars x) 2)
        (Matrix.diagonal fun _ : Fin 1 => z.2 * z.2) = some (some cp) := by
      unfold calculateCorrection at hs ⊢
      split
      · rename_i h0
        rw [if_pos h0] at hs
        cases hs
      · rw [if_neg (by simp)]
        exact ⟨_, rfl⟩
    obtain ⟨c, P1⟩ := cp
    obtain ⟨s1, e1, hv, -⟩ := correct_reads (toVars x) c hn hp hu
    have hlen : tr.timer ≤ nBuff := by
      rw [List.length_cons] at ht
      omega
    obtain ⟨t1, hf, ht1⟩ : ∃ t1, fuzzyCheck' tr s1 (toVars x) 0.1 = some (t1, s1, false) ∧
        t1.timer ≤ tr.timer + 1 := by
      by_cases h1 : indexOfBestNonTemporalDriftingState (coreDef aux) = some (-1)
      · exact ⟨tr, by rw [fuzzyCheck', if_pos h1], by omega⟩
      · obtain ⟨i, hi, hk⟩ := hD.resolve_left h1
        obtain ⟨q, hq⟩ := quatOf_kind hk (s1 i).val
        have e : tr.timer - 1 < nBuff := by unfold nBuff at hlen ⊢; omega
        unfold fuzzyCheck' fuzzyCheck
        simp only [if_neg h1, hi, hq, Option.bind_eq_bind, Option.bind_some, if_neg (Nat.not_lt.2 hlen), gt_iff_lt,
          Tracker.writeRow, dif_pos e]
        exact ⟨_, rfl, le_rfl⟩
    have ha : applyCorrection uc tr (toVars x) c = some (t1, s1, false) := by
      have e1' : correct (toVars x) (if false = true then zeroBias c else c) = some s1 := e1
      simp only [applyCorrection, huc.augment, huc.sanity, huc.bias, Option.bind_eq_bind, e1', Option.bind_some, hf]
    have hup : sensorUpdate uc tr (Reading.pressure bp false 0 z.1 z.2).meas x P =
        some ⟨t1, values s1, P1, true, false⟩ := by
      have : (Reading.pressure bp false 0 z.1 z.2).meas (aux := aux) =
        ⟨⟨1, fun _ => pressureH bp, pressureResidual bp z.1, Matrix.diagonal fun _ => z.2 * z.2, false,
          0⟩, 0, []⟩ := rfl
      rw [this]
      unfold sensorUpdate measUpdate
      simp only [clearFixed_zero, hH, hr, hcp, ha, Option.bind_eq_bind, Option.bind_some]
    obtain ⟨r, hr'⟩ := ih t1 (values s1) P1 _ (fun w hw => hz w (List.mem_cons_of_mem _ hw))
      (by rw [List.length_cons] at ht; omega)
      ((getVec_toVars_values s1 bp 1).trans (hv _ _ _ hb)) (C33_corrected_unit (toVars x) s1 c hn hp.quats hu e1)
      (correction_square hP hR hcp).1
    refine ⟨r, ?_⟩
    unfold pressureUpdates at hr' ⊢
    rw [List.foldlM_cons, hup]
    exact hr'

end

/-- Non-vacuity: any number up to thirty of pressure readings after the start of a filter with pose and pressure
sensor. -/
example (zs : List (ℝ × ℝ)) (hz : ∀ z ∈ zs, z.2 ≠ 0) (hl : zs.length ≤ 30) :
    ∃ (uc : UserCalc (coreDef posePressureAux)) (x : Values (coreDef posePressureAux)) (b : Fin 1 → ℝ),
      NoHooks uc ∧ (∀ i (hi : i < (coreDef posePressureAux).length), (coreDef posePressureAux)[i].name = i) ∧
      PlainVars (coreDef posePressureAux) ∧ getVec (toVars x) 10 1 = some b ∧ UnitQuats (toVars x) ∧
      ∃ r, pressureUpdates uc 10 zs (⟨1, fun _ _ => 0⟩, x, 1) = some r := by
  refine ⟨⟨id, fun s _ _ => s, false⟩, values (blankState posePressureAux 0 0 0).vars, _, ⟨fun _ => rfl, fun _ _ _ => rfl, rfl⟩,
    posePressureDef_ok.1, posePressureDef_ok.2, rfl, blank_unitQuats posePressureAux 0 0 0,
    pressureUpdates_defined shipped_checkCompiles.2.1 _ ⟨fun _ => rfl, fun _ _ _ => rfl, rfl⟩ 10
      posePressureDef_ok.1 posePressureDef_ok.2 zs _ _ 1 _ hz ?_ rfl (blank_unitQuats posePressureAux 0 0 0) PosDef.one⟩
  change 1 + zs.length ≤ 30 + 1
  omega

end MSF
