import Verif.Lemmas.LengthUnit
import Verif.Lemmas.KernelInv

/-! Changing the unit of length of the camera frame: fixed states, measurements, whole runs. -/

namespace MSF

open Matrix EKFState Core

variable {rest : List VarDesc}

/-! ### Fixed states -/

theorem clearCrossCov_unit (ho : Ordered (scaleVar :: rest)) (k : ℝ)
    (P : ErrMat ℝ (coreDef (scaleVar :: rest))) (i : Nat) :
    clearCrossCov (unitCov k P) i = (clearCrossCov P i).map (unitCov k) := by
  classical
  by_cases hl : i < (coreDef (scaleVar :: rest)).length
  · obtain ⟨P1, e1, a1, a2, a3, -⟩ := C38_clear_cross_cov P ⟨i, hl⟩ ho
    obtain ⟨P2, e2, b1, b2, b3, -⟩ := C38_clear_cross_cov (unitCov k P) ⟨i, hl⟩ ho
    change clearCrossCov _ i = _ at e1 e2
    rw [e1, e2, Option.map_some, Option.some.injEq]
    ext r c
    change _ = unitFac k r * P1 r c * unitFac k c
    by_cases hr : Owns (coreDef (scaleVar :: rest)) ⟨i, hl⟩ r <;>
      by_cases hc : Owns (coreDef (scaleVar :: rest)) ⟨i, hl⟩ c
    · rw [b1 r c hr hc, a1 r c hr hc]; rfl
    · rw [(b3 r c hr hc).1, (a3 r c hr hc).1, mul_zero, zero_mul]
    · rw [(b3 c r hc hr).2, (a3 c r hc hr).2, mul_zero, zero_mul]
    · rw [b2 r c hr hc, a2 r c hr hc]; rfl
  · have e : (coreDef (scaleVar :: rest))[i]? = none := List.getElem?_eq_none (by omega)
    simp only [clearCrossCov, e, Option.bind_eq_bind, Option.bind_none, Option.map_none]

theorem clearFixed_unit (ho : Ordered (scaleVar :: rest)) (k : ℝ) (fixed : Nat) (is : List Nat) :
    ∀ P : ErrMat ℝ (coreDef (scaleVar :: rest)),
      clearFixed fixed is (unitCov k P) = (clearFixed fixed is P).map (unitCov k) := by
  induction is with
  | nil => intro P; rfl
  | cons i is ih =>
    intro P
    unfold clearFixed at ih ⊢
    simp only [List.foldlM_cons, Option.bind_eq_bind]
    by_cases hb : fixed.testBit i
    · simp only [hb, if_true]
      rw [clearCrossCov_unit ho k P i]
      cases clearCrossCov P i with
      | none => rfl
      | some P1 => exact ih P1
    · simp only [hb]
      exact ih P

/-! ### Jacobians -/

/-- A Jacobian in the other unit. -/
def URel {m n : Nat} (k : ℝ) (σ : Fin m → ℝ) (M M' : Matrix (Fin m) (Fin n) ℝ) : Prop :=
  ∀ r c, M' r c * unitFac k c = σ r * M r c

theorem URel.zero {m n : Nat} (k : ℝ) (σ : Fin m → ℝ) :
    URel k σ (0 : Matrix (Fin m) (Fin n) ℝ) 0 := fun r c => by simp

theorem URel.mul {m n : Nat} {k : ℝ} {σ : Fin m → ℝ} {M M' : Matrix (Fin m) (Fin n) ℝ}
    (h : URel k σ M M') : M' * diagonal (unitFac k) = diagonal σ * M := by
  ext r c
  rw [mul_diagonal, diagonal_mul]
  exact h r c

theorem rel_bind {α α' β β' : Type} {R : α → α' → Prop} {S : β → β' → Prop} {a : Option α}
    {a' : Option α'} (h : Option.Rel R a a') {f : α → Option β} {f' : α' → Option β'}
    (hf : ∀ x y, R x y → Option.Rel S (f x) (f' y)) : Option.Rel S (a.bind f) (a'.bind f') := by
  cases h with
  | none => exact .none
  | some h => exact hf _ _ h

theorem putBlock_other (ho : Ordered (scaleVar :: rest)) {k : ℝ} {m a b : Nat} {σ : Fin m → ℝ}
    {M M' : Matrix (Fin m) (Fin (total errLen (coreDef (scaleVar :: rest)))) ℝ} (hM : URel k σ M M')
    (row : Nat) {i : Nat} (hi : i < (coreDef (scaleVar :: rest)).length) (h5 : i ≠ 5) (off : Nat)
    (hb : off + b ≤ errLen (coreDef (scaleVar :: rest))[i]) (hrow : row + a ≤ m)
    {B B' : Matrix (Fin a) (Fin b) ℝ}
    (hB : ∀ r c, B' r c = σ ⟨row + r.val, by omega⟩ * B r c) :
    Option.Rel (URel k σ) (putBlock M row i B off) (putBlock M' row i B' off) := by
  have hix := indexingErrors_eq_zero.2 ho
  rw [putBlock_eq hix _ row i hi _ off hb hrow, putBlock_eq hix _ row i hi _ off hb hrow]
  refine .some fun r c => ?_
  simp only [setBlock, of_apply]
  split
  · rename_i h
    rw [unitFac_ne k c (seg_ne hi h5 (by omega) (by omega)), mul_one, hB]
    congr 2
    exact Fin.ext (by simp only; omega)
  · exact hM r c

theorem putBlock_L (ho : Ordered (scaleVar :: rest)) {k : ℝ} {m a : Nat} {σ : Fin m → ℝ}
    {M M' : Matrix (Fin m) (Fin (total errLen (coreDef (scaleVar :: rest)))) ℝ} (hM : URel k σ M M')
    (row : Nat) (hrow : row + a ≤ m) {B B' : Matrix (Fin a) (Fin 1) ℝ}
    (hB : ∀ r c, B' r c * k = σ ⟨row + r.val, by omega⟩ * B r c) :
    Option.Rel (URel k σ) (putBlock M row 5 B) (putBlock M' row 5 B') := by
  have hix := indexingErrors_eq_zero.2 ho
  have hi : 5 < (coreDef (scaleVar :: rest)).length := by simp [coreDef, coreDescs]
  rw [putBlock_eq hix _ row 5 hi _ 0 (le_refl 1) hrow, putBlock_eq hix _ row 5 hi _ 0 (le_refl 1) hrow,
    offL]
  refine .some fun r c => ?_
  simp only [setBlock, of_apply]
  split
  · rename_i h
    have : unitFac k c = k := if_pos (by omega)
    rw [this, hB]
    congr 2
    exact Fin.ext (by simp only; omega)
  · exact hM r c

theorem getVec_unit (k : ℝ) (s : Vars ℝ (coreDef (scaleVar :: rest))) {i n : Nat}
    (h : i ≠ 5 ∨ n ≠ 1) : getVec (unitVars k s) i n = getVec s i n := by
  unfold getVec
  by_cases hl : i < (coreDef (scaleVar :: rest)).length
  · rw [dif_pos hl, dif_pos hl]
    by_cases h5 : i = 5
    · subst h5
      have hn : n ≠ 1 := by tauto
      have e : ∀ x : Val ℝ (.vec 1), vecOf n (.vec 1) x = none := fun x => dif_neg fun h => hn h.symm
      exact (e _).trans (e _).symm
    · rw [unitVars_other k s (i := ⟨i, hl⟩) fun e => h5 (congrArg Fin.val e)]
  · rw [dif_neg hl, dif_neg hl]

theorem getVec_L (k : ℝ) (s : Vars ℝ (coreDef (scaleVar :: rest))) :
    getVec (unitVars k s) 5 1 = some (unitVal k (s iL).val) ∧ getVec s 5 1 = some (s iL).val := by
  have hl : 5 < (coreDef (scaleVar :: rest)).length := by simp [coreDef, coreDescs]
  have e : ∀ s : Vars ℝ (coreDef (scaleVar :: rest)), getVec s 5 1 = some (s iL).val := by
    intro s
    unfold getVec
    rw [dif_pos hl]
    rfl
  refine ⟨?_, e s⟩
  rw [e, unitVars_L]
  rfl

theorem getQuat_unit' (k : ℝ) (s : Vars ℝ (coreDef (scaleVar :: rest))) (i : Nat) :
    getQuat (unitVars k s) i = getQuat s i := by
  unfold getQuat
  by_cases hl : i < (coreDef (scaleVar :: rest)).length
  · rw [dif_pos hl, dif_pos hl]
    by_cases h5 : i = 5
    · subst h5
      rfl
    · rw [unitVars_other k s (i := ⟨i, hl⟩) fun e => h5 (congrArg Fin.val e)]
  · rw [dif_neg hl, dif_neg hl]

theorem poseView_unit (k : ℝ) (ix : PoseIdx) (hL : ix.L = 5)
    (s : Vars ℝ (coreDef (scaleVar :: rest))) :
    poseView ix (unitVars k s) = (poseView ix s).map fun v => { v with L := k * v.L } := by
  unfold poseView
  rw [hL, (getVec_L k s).1, (getVec_L k s).2, getQuat_unit', getQuat_unit',
    getVec_unit k s (.inr (by decide)), getVec_unit k s (.inr (by decide)), p_unitVars, q_unitVars]
  simp only [Option.bind_eq_bind, Option.bind_some]
  cases getQuat s ix.qic <;> cases getVec s ix.pic 3 <;> cases getQuat s ix.qwv <;>
    cases getVec s ix.pwv 3 <;> rfl

/-- The variables that a pose measurement reads have the right types. -/
theorem poseView_kinds {ix : PoseIdx} {s : Vars ℝ (coreDef (scaleVar :: rest))} {v : PoseView ℝ}
    (h : poseView ix s = some v) : ∀ i ∈ [ix.qic, ix.pic, ix.qwv, ix.pwv],
      ∃ hi : i < (coreDef (scaleVar :: rest)).length, i ≠ 5 ∧
        errLen (coreDef (scaleVar :: rest))[i] = 3 := by
  have hv : ∀ {i : Nat} {x : V3 ℝ}, getVec s i 3 = some x →
      ∃ hi : i < (coreDef (scaleVar :: rest)).length, i ≠ 5 ∧
        errLen (coreDef (scaleVar :: rest))[i] = 3 := by
    intro i x h
    obtain ⟨hi, hk⟩ := getVec_kind s h
    refine ⟨hi, ?_, ?_⟩
    · rintro rfl
      have : Kind.vec 1 = .vec 3 := hk
      cases this
    · change ((coreDef (scaleVar :: rest)).get ⟨i, hi⟩).kind.errLen = 3
      rw [hk]; rfl
  have hq : ∀ {i : Nat} {x : Quat ℝ}, getQuat s i = some x →
      ∃ hi : i < (coreDef (scaleVar :: rest)).length, i ≠ 5 ∧
        errLen (coreDef (scaleVar :: rest))[i] = 3 := by
    intro i x h
    obtain ⟨hi, hk⟩ := getQuat_kind s h
    refine ⟨hi, ?_, ?_⟩
    · rintro rfl
      have : Kind.vec 1 = .quat := hk
      cases this
    · change ((coreDef (scaleVar :: rest)).get ⟨i, hi⟩).kind.errLen = 3
      rw [hk]; rfl
  unfold poseView at h
  simp only [Option.bind_eq_bind] at h
  obtain ⟨L, -, h⟩ := Option.bind_eq_some_iff.1 h
  obtain ⟨qic, h1, h⟩ := Option.bind_eq_some_iff.1 h
  obtain ⟨pic, h2, h⟩ := Option.bind_eq_some_iff.1 h
  obtain ⟨qwv, h3, h⟩ := Option.bind_eq_some_iff.1 h
  obtain ⟨pwv, h4, h⟩ := Option.bind_eq_some_iff.1 h
  simp only [List.mem_cons, List.not_mem_nil, or_false]
  rintro i (rfl | rfl | rfl | rfl)
  · exact hq h1
  · exact hv h2
  · exact hq h3
  · exact hv h4

theorem poseFac_pos {k : ℝ} (hk : 0 < k) (i : Fin 7) : 0 < poseFac k i := by
  fin_cases i <;> simp [poseFac, hk]

theorem poseFac_low (k : ℝ) (r : Fin 3) : poseFac k ⟨0 + r.val, by omega⟩ = k := by
  fin_cases r <;> rfl

theorem poseFac_high (k : ℝ) (r : Fin 3) : poseFac k ⟨3 + r.val, by omega⟩ = 1 := by
  fin_cases r <;> rfl

theorem skew_smul' (k : ℝ) (w : V3 ℝ) : skew (k • w) = k • skew w := by
  ext i j
  fin_cases i <;> fin_cases j <;> simp [skew]

/-- The Jacobian of a pose measurement with fixed `p_wv`. -/
theorem poseH_unit (ho : Ordered (scaleVar :: rest)) (k : ℝ) (ix : PoseIdx) (hL : ix.L = 5)
    (fixed : Nat) (hf : fixed.testBit ix.pwv = true) (s : Vars ℝ (coreDef (scaleVar :: rest))) :
    Option.Rel (URel k (poseFac k)) (poseH ix fixed s) (poseH ix fixed (unitVars k s)) := by
  unfold poseH
  rw [poseView_unit k ix hL]
  cases hv : poseView ix s with
  | none => exact .none
  | some v =>
    have kd := poseView_kinds hv
    have h0 : 0 < (coreDef (scaleVar :: rest)).length := by simp [coreDef, coreDescs]
    have h2 : 2 < (coreDef (scaleVar :: rest)).length := by simp [coreDef, coreDescs]
    simp only [Option.map_some, Option.bind_eq_bind, Option.bind_some, hL, hf, if_true]
    have low : ∀ {B B' : M33 ℝ}, B' = k • B →
        ∀ r c, B' r c = poseFac k ⟨0 + r.val, by omega⟩ * B r c := by
      rintro B B' rfl r c
      rw [poseFac_low]; rfl
    have high : ∀ {B B' : M33 ℝ}, B' = B →
        ∀ r c, B' r c = poseFac k ⟨3 + r.val, by omega⟩ * B r c := by
      rintro B B' rfl r c
      rw [poseFac_high, one_mul]
    refine rel_bind (putBlock_other ho (URel.zero k _) 0 h0 (by decide) 0 (le_refl 3) (by decide)
      (low (by rw [smul_smul]))) fun H H' hH => ?_
    refine rel_bind (putBlock_other ho hH 0 h2 (by decide) 0 (le_refl 3) (by decide)
      (low (by rw [smul_smul]))) fun H H' hH => ?_
    refine rel_bind (putBlock_L ho hH 0 (by decide) fun r c => ?_) fun H H' hH => ?_
    · rw [poseFac_low]
      exact mul_comm _ _
    obtain ⟨i1, j1, e1⟩ := kd ix.qwv (by simp)
    obtain ⟨i2, j2, e2⟩ := kd ix.pic (by simp)
    obtain ⟨i3, j3, e3⟩ := kd ix.pwv (by simp)
    obtain ⟨i4, j4, e4⟩ := kd ix.qic (by simp)
    refine rel_bind (putBlock_other ho hH 0 i1 j1 0 (by omega) (by decide) (low ?_))
      fun H H' hH => ?_
    · split
      · rw [smul_zero]
      · rw [mul_smul, skew_smul', Matrix.mul_smul]
    refine rel_bind (putBlock_other ho hH 0 i2 j2 0 (by omega) (by decide) (low ?_))
      fun H H' hH => ?_
    · split
      · rw [smul_zero]
      · rw [smul_smul]
    refine rel_bind (putBlock_other ho hH 0 i3 j3 0 (by omega) (by decide) (low (by rw [smul_zero])))
      fun H H' hH => ?_
    refine rel_bind (putBlock_other ho hH 3 h2 (by decide) 0 (le_refl 3) (by decide) (high rfl))
      fun H H' hH => ?_
    refine rel_bind (putBlock_other ho hH 3 i1 j1 0 (by omega) (by decide) (high rfl))
      fun H H' hH => ?_
    exact putBlock_other ho hH 3 i4 j4 0 (by omega) (by decide) (high rfl)

theorem getVec3_kind {s : Vars ℝ (coreDef (scaleVar :: rest))} {i : Nat} {x : V3 ℝ}
    (h : getVec s i 3 = some x) : ∃ hi : i < (coreDef (scaleVar :: rest)).length, i ≠ 5 ∧
      errLen (coreDef (scaleVar :: rest))[i] = 3 := by
  obtain ⟨hi, hk⟩ := getVec_kind s h
  refine ⟨hi, ?_, ?_⟩
  · rintro rfl
    have : Kind.vec 1 = .vec 3 := hk
    cases this
  · change ((coreDef (scaleVar :: rest)).get ⟨i, hi⟩).kind.errLen = 3
    rw [hk]; rfl

/-- Jacobians with blocks for position, attitude and one more variable other than the scale. -/
theorem three_unit (ho : Ordered (scaleVar :: rest)) (k : ℝ) {a : Nat} {i : Nat}
    (hi : i < (coreDef (scaleVar :: rest)).length) (h5 : i ≠ 5)
    (h3 : errLen (coreDef (scaleVar :: rest))[i] = 3) (B C D : Matrix (Fin a) (Fin 3) ℝ) :
    Option.Rel (URel k fun _ => 1)
      ((putBlock (0 : Matrix (Fin a) (Fin (total errLen (coreDef (scaleVar :: rest)))) ℝ) 0 0 B).bind
        fun H => (putBlock H 0 2 C).bind fun H => putBlock H 0 i D)
      ((putBlock (0 : Matrix (Fin a) (Fin (total errLen (coreDef (scaleVar :: rest)))) ℝ) 0 0 B).bind
        fun H => (putBlock H 0 2 C).bind fun H => putBlock H 0 i D) := by
  have h0 : 0 < (coreDef (scaleVar :: rest)).length := by simp [coreDef, coreDescs]
  have h2 : 2 < (coreDef (scaleVar :: rest)).length := by simp [coreDef, coreDescs]
  refine rel_bind (putBlock_other ho (URel.zero k fun _ => 1) 0 h0 (by decide) 0 (le_refl 3) (by omega)
    fun r c => (one_mul _).symm) fun H H' hH => ?_
  refine rel_bind (putBlock_other ho hH 0 h2 (by decide) 0 (le_refl 3) (by omega)
    fun r c => (one_mul _).symm) fun H H' hH => ?_
  exact putBlock_other ho hH 0 hi h5 0 (by omega) (by omega) fun r c => (one_mul _).symm

theorem positionH_unit (ho : Ordered (scaleVar :: rest)) (k : ℝ) (pip fixed : Nat)
    (s : Vars ℝ (coreDef (scaleVar :: rest))) :
    Option.Rel (URel k fun _ => 1) (positionH pip fixed s) (positionH pip fixed (unitVars k s)) := by
  unfold positionH
  rw [getVec_unit k s (.inr (by decide)), q_unitVars]
  cases hv : getVec s pip 3 with
  | none => exact .none
  | some l =>
    obtain ⟨hi, h5, h3⟩ := getVec3_kind hv
    exact three_unit ho k hi h5 h3 _ _ _

theorem angleH_unit (ho : Ordered (scaleVar :: rest)) (k : ℝ) (pip : Nat)
    (s : Vars ℝ (coreDef (scaleVar :: rest))) :
    Option.Rel (URel k fun _ => 1) (angleH pip s) (angleH pip (unitVars k s)) := by
  unfold angleH
  rw [getVec_unit k s (.inr (by decide)), q_unitVars, p_unitVars]
  cases hv : getVec s pip 3 with
  | none => exact .none
  | some l =>
    obtain ⟨hi, h5, h3⟩ := getVec3_kind hv
    simp only [Option.bind_eq_bind, Option.bind_some]
    split
    · exact .none
    · exact three_unit ho k hi h5 h3 _ _ _

theorem distanceH_unit (ho : Ordered (scaleVar :: rest)) (k : ℝ) (pip : Nat)
    (s : Vars ℝ (coreDef (scaleVar :: rest))) :
    Option.Rel (URel k fun _ => 1) (distanceH pip s) (distanceH pip (unitVars k s)) := by
  unfold distanceH
  rw [getVec_unit k s (.inr (by decide)), q_unitVars, p_unitVars]
  cases hv : getVec s pip 3 with
  | none => exact .none
  | some l =>
    obtain ⟨hi, h5, h3⟩ := getVec3_kind hv
    simp only [Option.bind_eq_bind, Option.bind_some]
    split
    · exact .none
    · exact three_unit ho k hi h5 h3 _ _ _

theorem pressureH_unit (ho : Ordered (scaleVar :: rest)) (k : ℝ) {bp : Nat} (h5 : bp ≠ 5)
    {s : Vars ℝ (coreDef (scaleVar :: rest))} {x : Fin 1 → ℝ} (hx : getVec s bp 1 = some x) :
    Option.Rel (URel k fun _ => 1)
      (pressureH bp : Option (Matrix (Fin 1) (Fin (total errLen (coreDef (scaleVar :: rest)))) ℝ))
      (pressureH bp) := by
  obtain ⟨hi, hk⟩ := getVec_kind s hx
  have h0 : 0 < (coreDef (scaleVar :: rest)).length := by simp [coreDef, coreDescs]
  have e1 : errLen (coreDef (scaleVar :: rest))[bp] = 1 := by
    change ((coreDef (scaleVar :: rest)).get ⟨bp, hi⟩).kind.errLen = 1
    rw [hk]; rfl
  unfold pressureH
  refine rel_bind (putBlock_other ho (URel.zero k fun _ => 1) 0 h0 (by decide) 2 (le_refl 3) (by decide)
    fun r c => (one_mul _).symm) fun H H' hH => ?_
  exact putBlock_other ho hH 0 hi h5 0 (by omega) (by decide) fun r c => (one_mul _).symm

/-! ### Measurements -/

/-- An update in the other unit, from what becomes of Jacobian and residual. -/
theorem sensorUpdate_unit (ho : Ordered (scaleVar :: rest))
    (hp : PlainQuats (coreDef (scaleVar :: rest))) {k : ℝ} (hk : 0 < k) (ρ : ℝ) (fb : Bool)
    (tr : Tracker ℝ) (n : Nat)
    (H H' : Vars ℝ (coreDef (scaleVar :: rest)) →
      Option (Matrix (Fin n) (Fin (total errLen (coreDef (scaleVar :: rest)))) ℝ))
    (r r' : Vars ℝ (coreDef (scaleVar :: rest)) → Option (Fin n → ℝ)) (R_ R' : Matrix (Fin n) (Fin n) ℝ)
    (en : Bool) (thr : ℝ) (fixed : Nat) (cl : List Nat) {σ : Fin n → ℝ} (hσ : ∀ i, 0 < σ i)
    (x : Values (coreDef (scaleVar :: rest))) (P : ErrMat ℝ (coreDef (scaleVar :: rest)))
    (hR : R' = diagonal σ * R_ * diagonal σ)
    (hH : ∀ y, r (toVars x) = some y →
      Option.Rel (URel k σ) (H (toVars x)) (H' (unitVars k (toVars x))))
    (hr : r' (unitVars k (toVars x)) = (r (toVars x)).map (diagonal σ *ᵥ ·)) :
    sensorUpdate (scaleCalcWith (k * ρ) fb) tr ⟨⟨n, H', r', R', en, thr⟩, fixed, cl⟩ (unitVals k x)
        (unitCov k P) =
      (sensorUpdate (scaleCalcWith ρ fb) tr ⟨⟨n, H, r, R_, en, thr⟩, fixed, cl⟩ x P).map
        fun u => ⟨u.tr, unitVals k u.x, unitCov k u.P, u.applied, u.fuzzy⟩ := by
  unfold sensorUpdate
  simp only [Option.bind_eq_bind]
  rw [clearFixed_unit ho]
  cases clearFixed fixed cl P with
  | none => rfl
  | some P1 =>
    simp only [Option.map_some, Option.bind_some]
    unfold measUpdate
    simp only [Option.bind_eq_bind, toVars_unitVals, hr]
    cases hy : r (toVars x) with
    | none =>
      cases H (toVars x) <;> cases H' (unitVars k (toVars x)) <;> rfl
    | some y =>
      have hH := hH y hy
      cases h1 : H (toVars x) with
      | none =>
        cases h2 : H' (unitVars k (toVars x)) with
        | none => rfl
        | some h' => rw [h1, h2] at hH; cases hH
      | some h =>
        cases h2 : H' (unitVars k (toVars x)) with
        | none => rw [h1, h2] at hH; cases hH
        | some h' =>
          rw [h1, h2] at hH
          cases hH with
          | some hH =>
            simp only [Option.map_some, Option.bind_some]
            rw [hR, unitCov_eq, calculateCorrection_units (unitFac_pos hk) hσ en thr P1 hH.mul y R_]
            cases calculateCorrection en thr P1 h y R_ with
            | none => rfl
            | some o =>
              cases o with
              | none =>
                simp only [Option.map_some, Option.map_none, Option.bind_some, unitCov_eq]
              | some cP =>
                simp only [Option.map_some, Option.bind_some]
                have ec : diagonal (unitFac k) *ᵥ cP.1 = fun j => unitFac k j * cP.1 j := by
                  funext j
                  exact mulVec_diagonal _ _ _
                rw [ec, applyCorrection_unit' ho hp hk ρ fb tr]
                cases applyCorrection (scaleCalcWith ρ fb) tr (toVars x) cP.1 with
                | none => rfl
                | some w =>
                  simp only [Option.map_some, Option.bind_some, unitVals_values, unitCov_eq]

theorem one_pos' {n : Nat} (i : Fin n) : (0 : ℝ) < (fun _ : Fin n => (1 : ℝ)) i := one_pos

theorem diag_one_mulVec {n : Nat} (o : Option (Fin n → ℝ)) :
    o = o.map (diagonal (fun _ : Fin n => (1 : ℝ)) *ᵥ ·) := by
  cases o with
  | none => rfl
  | some y =>
    have : diagonal (fun _ : Fin n => (1 : ℝ)) = 1 := diagonal_one
    rw [Option.map_some, this, one_mulVec]

theorem diag_one_mul {n : Nat} (R : Matrix (Fin n) (Fin n) ℝ) :
    R = diagonal (fun _ : Fin n => (1 : ℝ)) * R * diagonal (fun _ : Fin n => (1 : ℝ)) := by
  have : diagonal (fun _ : Fin n => (1 : ℝ)) = 1 := diagonal_one
  rw [this, Matrix.one_mul, Matrix.mul_one]

theorem residual_unit (k : ℝ) (v : PoseView ℝ) (z : PoseMeas ℝ) :
    PoseView.residual { v with L := k * v.L } (z.unit k).z_p (z.unit k).z_q =
      (v.residual z.z_p z.z_q).map (diagonal (poseFac k) *ᵥ ·) := by
  have ep : PoseView.predPos { v with L := k * v.L } = k • v.predPos := by
    unfold PoseView.predPos
    exact mul_smul _ _ _
  unfold PoseView.residual
  rw [ep]
  change (attResidual (v.predAtt.conj.mul z.z_q)).bind _ = ((attResidual (v.predAtt.conj.mul z.z_q)).bind _).map _
  cases attResidual (v.predAtt.conj.mul z.z_q) with
  | none => rfl
  | some a =>
    simp only [Option.bind_some, Option.bind_eq_bind]
    cases yawResidual v.qwv with
    | none => rfl
    | some y =>
      simp only [Option.bind_some, Option.map_some, Option.some.injEq]
      funext i
      rw [mulVec_diagonal]
      simp only [PoseMeas.unit]
      fin_cases i <;> simp [rows7, poseFac, mul_sub]

theorem reading_unit (ho : Ordered (scaleVar :: rest)) (hp : PlainQuats (coreDef (scaleVar :: rest)))
    {k : ℝ} (hk : 0 < k) (ρ : ℝ) (fb : Bool) (tr : Tracker ℝ) (m : Reading) (hm : m.InUnits)
    (x : Values (coreDef (scaleVar :: rest))) (P : ErrMat ℝ (coreDef (scaleVar :: rest))) :
    sensorUpdate (scaleCalcWith (k * ρ) fb) tr (m.unit k).meas (unitVals k x) (unitCov k P) =
      (sensorUpdate (scaleCalcWith ρ fb) tr m.meas x P).map
        fun u => ⟨u.tr, unitVals k u.x, unitCov k u.P, u.applied, u.fuzzy⟩ := by
  have esp : ∀ pip, sensorPos pip (unitVars k (toVars x)) = sensorPos pip (toVars x) := by
    intro pip
    unfold sensorPos
    rw [getVec_unit k _ (.inr (by decide)), p_unitVars, q_unitVars]
  cases m with
  | position pip fixed en thr z R_ =>
    refine sensorUpdate_unit ho hp hk ρ fb tr 3 _ _ _ _ _ _ en thr fixed [pip] one_pos' x P
      (diag_one_mul _) (fun _ _ => positionH_unit ho k pip fixed _) ?_
    unfold positionResidual
    rw [esp]
    exact diag_one_mulVec _
  | pose ix fixed en thr z =>
    refine sensorUpdate_unit ho hp hk ρ fb tr 7 _ _ _ _ _ _ en thr fixed ix.clearOrder
      (poseFac_pos hk) x P ?_ (fun _ _ => poseH_unit ho k ix hm.1 fixed hm.2 _) ?_
    · ext i j
      rw [mul_diagonal, diagonal_mul]
      rfl
    · rw [poseView_unit k ix hm.1]
      cases poseView ix (toVars x) with
      | none => rfl
      | some v =>
        simp only [Option.map_some, Option.bind_eq_bind, Option.bind_some]
        exact residual_unit k v z
  | pressure bp en thr z n =>
    refine sensorUpdate_unit ho hp hk ρ fb tr 1 _ _ _ _ _ _ en thr 0 [] one_pos' x P
      (diag_one_mul _) (fun y hy => ?_) ?_
    · unfold pressureResidual at hy
      obtain ⟨b, hb, -⟩ := Option.bind_eq_some_iff.1 hy
      exact pressureH_unit ho k hm hb
    · unfold pressureResidual
      rw [getVec_unit k _ (.inl hm), p_unitVars]
      exact diag_one_mulVec _
  | angle pip fixed en thr z n =>
    refine sensorUpdate_unit ho hp hk ρ fb tr 2 _ _ _ _ _ _ en thr fixed [pip] one_pos' x P
      (diag_one_mul _) (fun _ _ => angleH_unit ho k pip _) ?_
    unfold angleResidual
    rw [esp]
    exact diag_one_mulVec _
  | distance pip fixed en thr z n =>
    refine sensorUpdate_unit ho hp hk ρ fb tr 1 _ _ _ _ _ _ en thr fixed [pip] one_pos' x P
      (diag_one_mul _) (fun _ _ => distanceH_unit ho k pip _) ?_
    unfold distanceResidual
    rw [esp]
    exact diag_one_mulVec _

/-! ### Whole runs -/

theorem trivial_inv {A W X C M T E : Type} (K : Kernel A W X C M T E) (Im : M → Prop) :
    KernelInv K (fun _ => True) (fun _ => True) Im (fun _ => True) :=
  ⟨fun _ _ _ _ _ => trivial, fun _ _ _ _ => trivial, fun _ _ _ _ _ _ => trivial,
    fun _ _ _ _ _ _ _ => ⟨trivial, trivial⟩, trivial⟩

noncomputable def unitHom (ho : Ordered (scaleVar :: rest))
    (hp : PlainQuats (coreDef (scaleVar :: rest)))
    {np np' : NoiseParams ℝ (coreDef (scaleVar :: rest))} {k : ℝ} (hn : UnitNoise k np np')
    (hk : 0 < k) (ρ : ℝ) (fb : Bool) :
    KHom (trivial_inv (readingKernel np (scaleCalcWith ρ fb)) Reading.InUnits).restrict
      (readingKernel np' (scaleCalcWith (k * ρ) fb)) where
  x x := x.1.map (unitVals k)
  c P := P.1.map (unitCov k)
  m _ m := m.1.unit k
  t := id
  e e := e.1
  prop dt u s u' := by
    obtain ⟨s, hs⟩ := s
    cases s with
    | none => rfl
    | some x =>
      have key := propagate_unit k (mkState (toVars x) u 0 0) (mkState (noInit _) u' (dt : ℝ) 0)
      simp only [readingKernel, sensorKernel, filterKernel, KernelInv.restrict, Option.map_some,
        Option.bind_eq_bind, Option.bind_some, toVars_unitVals]
      rw [show mkState (unitVars k (toVars x)) u 0 0 =
        { mkState (toVars x) u 0 0 with vars := unitVars k (mkState (toVars x) u 0 0).vars } from rfl,
        key]
      cases propagateState (mkState (toVars x) u 0 0) (mkState (noInit _) u' (dt : ℝ) 0) with
      | none => rfl
      | some s =>
        simp only [Option.map_some, Option.bind_some, unitVals_values]
  extProp e s := by
    obtain ⟨s, hs⟩ := s
    cases s with
    | none => rfl
    | some x =>
      simp only [readingKernel, sensorKernel, filterKernel, KernelInv.restrict, Option.map_some,
        Option.some.injEq, toVars_unitVals, unitVals_values]
      congr 1
      refine unitVars_ext (fun i hi => ?_) ?_
      · by_cases h0 : i = ip
        · subst h0; rw [set3_p, set3_p, unitVars_other k _ hi]
        by_cases h1 : i = iv
        · subst h1; rw [set3_v, set3_v, unitVars_other k _ hi]
        by_cases h2 : i = iq
        · subst h2; rw [set3_q, set3_q, unitVars_other k _ hi]
        rw [set3_other _ _ _ _ _ h0 h1 h2, set3_other _ _ _ _ _ h0 h1 h2, unitVars_other k _ hi]
      · rw [set3_other _ _ _ _ _ (ne_iL (by simp)).symm (ne_iL (by simp)).symm (ne_iL (by simp)).symm,
          set3_other _ _ _ _ _ (ne_iL (by simp)).symm (ne_iL (by simp)).symm (ne_iL (by simp)).symm,
          unitVars_L]
  predP dt P u s := by
    obtain ⟨s, hs'⟩ := s
    obtain ⟨P, hP⟩ := P
    cases P with
    | none => rfl
    | some P =>
      cases s with
      | none => rfl
      | some x =>
        have key := predict_unit ho hn (dt : ℝ) P u (toVars x)
        simp only [readingKernel, sensorKernel, filterKernel, KernelInv.restrict, Option.map_some,
          Option.bind_eq_bind, Option.bind_some, toVars_unitVals]
        generalize predictProcessCovariance np' (mkState (noInit _) ⟨0, 0⟩ 0 (unitCov k P))
          (mkState (unitVars k (toVars x)) u (dt : ℝ) 0) 0 = a at key ⊢
        generalize predictProcessCovariance np (mkState (noInit _) ⟨0, 0⟩ 0 P)
          (mkState (toVars x) u (dt : ℝ) 0) 0 = b at key ⊢
        cases a <;> cases b
        · rfl
        · cases key
        · cases key
        · simpa using key
  update _ tr m s P := by
    obtain ⟨s, hs'⟩ := s
    obtain ⟨P, hP⟩ := P
    cases s with
    | none => rfl
    | some x =>
      cases P with
      | none => rfl
      | some P =>
        have key := reading_unit ho hp hk ρ fb tr m.1 m.2 x P
        simp only [readingKernel, sensorKernel, KernelInv.restrict, Option.map_some, id, key]
        cases sensorUpdate (scaleCalcWith ρ fb) tr m.1.meas x P <;> rfl
  P0 := by
    change some 0 = some (unitCov k 0)
    rw [unitCov_zero]
  tr0 := rfl
  spike _ := rfl
  numX x := by
    obtain ⟨x, h⟩ := x
    cases x <;> rfl
  numPos x := by
    obtain ⟨x, h⟩ := x
    cases x <;> rfl

end MSF
