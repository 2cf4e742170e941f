import Verif.Lemmas.Yaw2
import Verif.Props.Jacobian
import Verif.Spec.TurnPose

/-! Rotating the world frame of the pose filter: the measurement matrix, the corrections. -/

namespace MSF

open Matrix EKFState

/-! ### Rotations of one block -/

theorem rotAt_mulVec {n : Nat} (b : Nat) (hb : b + 3 ≤ n) (R : M33 ℝ) (c : Fin n → ℝ) (k : Fin n) :
    ((setBlock 1 b b R : Matrix (Fin n) (Fin n) ℝ) *ᵥ c) k =
      if h : b ≤ k.val ∧ k.val < b + 3 then (R *ᵥ segD c b 3) ⟨k - b, by omega⟩ else c k := by
  by_cases h : b ≤ k.val ∧ k.val < b + 3
  · rw [dif_pos h]
    let f : Fin 3 → Fin n := fun j => ⟨b + j, by omega⟩
    have hf : Function.Injective f := by
      intro i j e
      have := congrArg Fin.val e
      simp only [f] at this
      exact Fin.ext (by omega)
    have e : ∑ j : Fin 3, (setBlock 1 b b R : Matrix (Fin n) (Fin n) ℝ) k (f j) * c (f j) =
        ∑ j : Fin n, (setBlock 1 b b R : Matrix (Fin n) (Fin n) ℝ) k j * c j := by
      refine Fintype.sum_of_injective f hf _ _ (fun j hj => ?_) fun _ => rfl
      have hj' : ¬ (b ≤ j.val ∧ j.val < b + 3) := by
        intro hh
        exact hj ⟨⟨j - b, by omega⟩, Fin.ext (by simp only [f]; omega)⟩
      simp only [setBlock, of_apply]
      rw [dif_neg (by omega), one_apply_ne (by rintro rfl; exact hj' h), zero_mul]
    simp only [mulVec, dotProduct]
    rw [← e]
    refine Finset.sum_congr rfl fun j _ => ?_
    simp only [setBlock, of_apply, segD, f]
    rw [dif_pos (by omega), dif_pos (by omega)]
    congr 2
    exact Fin.ext (by simp)
  · rw [dif_neg h]
    have e : ((setBlock 1 b b R : Matrix (Fin n) (Fin n) ℝ) *ᵥ c) k =
        ((1 : Matrix (Fin n) (Fin n) ℝ) *ᵥ c) k := by
      simp only [mulVec, dotProduct, setBlock, of_apply]
      refine Finset.sum_congr rfl fun j _ => ?_
      rw [dif_neg (by omega)]
    rw [e, one_mulVec]

theorem rotAt_transpose {n : Nat} (b : Nat) (R : M33 ℝ) :
    (setBlock 1 b b R : Matrix (Fin n) (Fin n) ℝ)ᵀ = setBlock 1 b b Rᵀ := by
  ext r c
  simp only [setBlock, of_apply, transpose_apply]
  by_cases h : (b ≤ r.val ∧ r.val < b + 3) ∧ (b ≤ c.val ∧ c.val < b + 3)
  · rw [dif_pos h, dif_pos ⟨h.2, h.1⟩]
  · rw [dif_neg h, dif_neg (by omega), one_apply, one_apply]
    simp only [eq_comm]

theorem rotAt_mul {n : Nat} (b : Nat) (hb : b + 3 ≤ n) (R R' : M33 ℝ) :
    (setBlock 1 b b R : Matrix (Fin n) (Fin n) ℝ) * setBlock 1 b b R' = setBlock 1 b b (R * R') := by
  refine ext_of_mulVec_single fun k => ?_
  generalize (Pi.single k 1 : Fin n → ℝ) = c
  rw [← mulVec_mulVec]
  funext i
  rw [rotAt_mulVec b hb, rotAt_mulVec b hb (R * R')]
  by_cases h : b ≤ i.val ∧ i.val < b + 3
  · rw [dif_pos h, dif_pos h, ← mulVec_mulVec]
    congr 1
    have : segD ((setBlock 1 b b R' : Matrix (Fin n) (Fin n) ℝ) *ᵥ c) b 3 = R' *ᵥ segD c b 3 := by
      funext j
      rw [segD, dif_pos (by omega), rotAt_mulVec b hb, dif_pos (by simp only; omega)]
      congr 1
      exact Fin.ext (by simp)
    rw [this]
  · rw [dif_neg h, dif_neg h, rotAt_mulVec b hb, dif_neg h]

theorem rotAt_one {n : Nat} (b : Nat) : (setBlock 1 b b (1 : M33 ℝ) : Matrix (Fin n) (Fin n) ℝ) = 1 := by
  ext r c
  simp only [setBlock, of_apply]
  split
  · rename_i h
    by_cases e : r = c
    · subst e; simp
    · rw [one_apply_ne e, one_apply_ne]
      intro e'
      have := congrArg Fin.val e'
      simp only at this
      exact e (Fin.ext (by omega))
  · rfl

theorem rotAt_orth {n : Nat} (b : Nat) (hb : b + 3 ≤ n) {R : M33 ℝ} (h : R * Rᵀ = 1) :
    (setBlock 1 b b R : Matrix (Fin n) (Fin n) ℝ) * (setBlock 1 b b R : Matrix (Fin n) (Fin n) ℝ)ᵀ = 1 := by
  rw [rotAt_transpose, rotAt_mul b hb, h, rotAt_one]

theorem rotAt_diag {n : Nat} (b : Nat) (R : M33 ℝ) (d : Fin n → ℝ)
    (h : ∀ k l : Fin n, b ≤ k.val → k.val < b + 3 → b ≤ l.val → l.val < b + 3 → d k = d l) :
    (setBlock 1 b b R : Matrix (Fin n) (Fin n) ℝ) * diagonal d = diagonal d * setBlock 1 b b R := by
  ext r c
  rw [mul_diagonal, diagonal_mul]
  simp only [setBlock, of_apply]
  split
  · rename_i hh
    rw [h r c hh.1.1 hh.1.2 hh.2.1 hh.2.2, mul_comm]
  · by_cases e : r = c
    · subst e; ring
    · rw [one_apply_ne e]; ring

/-! ### The rotation of the errors of the pose filter -/

theorem turnErr_orth {R : M33 ℝ} (h : R * Rᵀ = 1) : turnErr R * (turnErr R)ᵀ = 1 := by
  have h1 := rotErr_orth (aux := poseAux) h
  have h2 := rotAt_orth (n := total errLen (coreDef poseAux)) 16 (by decide) h
  have h3 := rotAt_orth (n := total errLen (coreDef poseAux)) 19 (by decide) h
  unfold turnErr
  generalize (rotErr R : ErrMat ℝ (coreDef poseAux)) = A at *
  generalize (setBlock 1 16 16 R : ErrMat ℝ (coreDef poseAux)) = B at *
  generalize (setBlock 1 19 19 R : ErrMat ℝ (coreDef poseAux)) = C at *
  calc A * B * C * (A * B * C)ᵀ = A * (B * (C * Cᵀ) * Bᵀ) * Aᵀ := by
        simp only [transpose_mul, Matrix.mul_assoc]
    _ = 1 := by rw [h3, Matrix.mul_one, h2, Matrix.mul_one, h1]

theorem turnErr_apply (R : M33 ℝ) (c : Fin (total errLen (coreDef poseAux)) → ℝ) :
    turnErr R *ᵥ c = rotErr R *ᵥ ((setBlock 1 16 16 R : ErrMat ℝ (coreDef poseAux)) *ᵥ
      ((setBlock 1 19 19 R : ErrMat ℝ (coreDef poseAux)) *ᵥ c)) := by
  rw [turnErr, mulVec_mulVec, mulVec_mulVec, Matrix.mul_assoc]

/-- The entries of the other variables stay. -/
theorem turnErr_other (R : M33 ℝ) (c : Fin (total errLen (coreDef poseAux)) → ℝ)
    (k : Fin (total errLen (coreDef poseAux))) (h0 : 6 ≤ k.val) (h : k.val < 16 ∨ 22 ≤ k.val) :
    (turnErr R *ᵥ c) k = c k := by
  rw [turnErr_apply, rotErr_mulVec_aux _ _ _ h0, rotAt_mulVec 16 (by decide), dif_neg (by omega),
    rotAt_mulVec 19 (by decide), dif_neg (by omega)]

theorem turnErr_high (R : M33 ℝ) (c : Fin (total errLen (coreDef poseAux)) → ℝ) (i : Nat)
    (hi : i = 6 ∨ i = 7) : segOf (turnErr R *ᵥ c) i 3 = R *ᵥ segOf c i 3 := by
  have h28 : total errLen (coreDef poseAux) = 28 := by decide
  rcases hi with rfl | rfl
  · have o : offset errLen (coreDef poseAux) 6 = 16 := by decide
    funext j
    rw [segOf, segOf, o, segD, dif_pos (by omega), turnErr_apply, rotErr_mulVec_aux _ _ _ (by simp only; omega),
      rotAt_mulVec 16 (by decide), dif_pos (by simp only; omega)]
    have e : segD ((setBlock 1 19 19 R : ErrMat ℝ (coreDef poseAux)) *ᵥ c) 16 3 = segD c 16 3 := by
      funext j
      rw [segD, dif_pos (by omega), rotAt_mulVec 19 (by decide), dif_neg (by simp only; omega), segD,
        dif_pos (by omega)]
    rw [e]
    congr 1
    exact Fin.ext (by simp)
  · have o : offset errLen (coreDef poseAux) 7 = 19 := by decide
    funext j
    rw [segOf, segOf, o, segD, dif_pos (by omega), turnErr_apply, rotErr_mulVec_aux _ _ _ (by simp only; omega),
      rotAt_mulVec 16 (by decide), dif_neg (by simp only; omega), rotAt_mulVec 19 (by decide),
      dif_pos (by simp only; omega)]
    congr 1
    exact Fin.ext (by simp)

theorem turnErr_low (R : M33 ℝ) (c : Fin (total errLen (coreDef poseAux)) → ℝ) (i : Nat)
    (hi : i = 0 ∨ i = 1) : segOf (turnErr R *ᵥ c) i 3 = R *ᵥ segOf c i 3 := by
  have h28 : total errLen (coreDef poseAux) = 28 := by decide
  set d := (setBlock 1 16 16 R : ErrMat ℝ (coreDef poseAux)) *ᵥ
      ((setBlock 1 19 19 R : ErrMat ℝ (coreDef poseAux)) *ᵥ c) with hd
  have hdc : ∀ k : Fin (total errLen (coreDef poseAux)), k.val < 16 → d k = c k := by
    intro k hk
    rw [hd, rotAt_mulVec 16 (by decide), dif_neg (by omega), rotAt_mulVec 19 (by decide), dif_neg (by omega)]
  have key : ∀ b : Fin 5, b = 0 ∨ b = 1 → coreSeg (turnErr R *ᵥ c) b = R *ᵥ coreSeg c b := by
    intro b hb
    rw [turnErr_apply, ← hd, rotErr_mulVec_core _ _ _ hb]
    congr 1
    funext j
    exact hdc _ (by simp only; omega)
  have hs : ∀ (x : Fin (total errLen (coreDef poseAux)) → ℝ) (b : Fin 5), b = 0 ∨ b = 1 →
      segOf (D := coreDef poseAux) x b.val 3 = coreSeg x b := by
    intro x b hb
    funext j
    rcases hb with rfl | rfl <;> fin_cases j <;> rfl
  rcases hi with rfl | rfl
  · have := key 0 (.inl rfl)
    rwa [← hs _ 0 (.inl rfl), ← hs _ 0 (.inl rfl)] at this
  · have := key 1 (.inr rfl)
    rwa [← hs _ 1 (.inr rfl), ← hs _ 1 (.inr rfl)] at this

theorem turnErr_same (R : M33 ℝ) (c : Fin (total errLen (coreDef poseAux)) → ℝ) (i n : Nat)
    (hi : (i = 2 ∨ i = 3 ∨ i = 4 ∨ i = 8 ∨ i = 9) ∧ n = 3 ∨ i = 5 ∧ n = 1) :
    segOf (turnErr R *ᵥ c) i n = segOf c i n := by
  have h28 : total errLen (coreDef poseAux) = 28 := by decide
  funext j
  have o2 : offset errLen (coreDef poseAux) 2 = 6 := by decide
  have o3 : offset errLen (coreDef poseAux) 3 = 9 := by decide
  have o4 : offset errLen (coreDef poseAux) 4 = 12 := by decide
  have o5 : offset errLen (coreDef poseAux) 5 = 15 := by decide
  have o8 : offset errLen (coreDef poseAux) 8 = 22 := by decide
  have o9 : offset errLen (coreDef poseAux) 9 = 25 := by decide
  have hj := j.2
  simp only [segOf, segD]
  split
  · refine turnErr_other R c _ ?_ ?_
    · rcases hi with ⟨rfl | rfl | rfl | rfl | rfl, hn⟩ | ⟨rfl, hn⟩ <;> simp only <;> omega
    · rcases hi with ⟨rfl | rfl | rfl | rfl | rfl, hn⟩ | ⟨rfl, hn⟩ <;> simp only <;> omega
  · rfl

/-! ### Quaternions -/

theorem toRot_cross {g : Quat ℝ} (hg : g.normSq = 1) (u d : V3 ℝ) :
    skew (g.toRot *ᵥ u) *ᵥ (g.toRot *ᵥ d) = g.toRot *ᵥ (skew u *ᵥ d) := by
  have h : ∀ y : V3 ℝ, g.toRot *ᵥ y =
      !![g.w ^ 2 + g.x ^ 2 - g.y ^ 2 - g.z ^ 2, 2 * (g.x * g.y - g.w * g.z), 2 * (g.x * g.z + g.w * g.y);
        2 * (g.x * g.y + g.w * g.z), g.w ^ 2 - g.x ^ 2 + g.y ^ 2 - g.z ^ 2, 2 * (g.y * g.z - g.w * g.x);
        2 * (g.x * g.z - g.w * g.y), 2 * (g.y * g.z + g.w * g.x), g.w ^ 2 - g.x ^ 2 - g.y ^ 2 + g.z ^ 2] *ᵥ y := by
    intro y
    congr 1
    rw [Quat.normSq] at hg
    ext i j
    fin_cases i <;> fin_cases j <;> simp [Quat.toRot] <;> first | ring1 | linear_combination hg | linear_combination -hg
  rw [h, h, h]
  rw [Quat.normSq] at hg
  obtain ⟨w, x, y, z⟩ := g
  simp only at hg ⊢
  have e : ∀ a b : ℝ, a = (w * w + x * x + y * y + z * z) * b → a = b := by
    intro a b hh
    rw [hh, show w * w + x * x + y * y + z * z = 1 by linear_combination hg, one_mul]
  funext i
  fin_cases i <;> simp [skew, mulVec, dotProduct, Fin.sum_univ_three] <;> apply e <;> ring

theorem quatFromSmallAngle_rot {g : Quat ℝ} (hg : g.normSq = 1) (θ : V3 ℝ) :
    quatFromSmallAngle (g.toRot *ᵥ θ) = (g.mul (quatFromSmallAngle θ)).mul g.conj := by
  have key : ∀ w f : ℝ, (g.mul ⟨w, θ 0 * f, θ 1 * f, θ 2 * f⟩).mul g.conj =
      ⟨w, (g.toRot *ᵥ θ) 0 * f, (g.toRot *ᵥ θ) 1 * f, (g.toRot *ᵥ θ) 2 * f⟩ := by
    intro w f
    rw [Quat.normSq] at hg
    have e0 : (g.toRot *ᵥ θ) 0 = (1 - (2 * g.y * g.y + 2 * g.z * g.z)) * θ 0 +
        (2 * g.y * g.x - 2 * g.z * g.w) * θ 1 + (2 * g.z * g.x + 2 * g.y * g.w) * θ 2 := by
      simp [Quat.toRot, mulVec, dotProduct, Fin.sum_univ_three]
    have e1 : (g.toRot *ᵥ θ) 1 = (2 * g.y * g.x + 2 * g.z * g.w) * θ 0 +
        (1 - (2 * g.x * g.x + 2 * g.z * g.z)) * θ 1 + (2 * g.z * g.y - 2 * g.x * g.w) * θ 2 := by
      simp [Quat.toRot, mulVec, dotProduct, Fin.sum_univ_three]
    have e2 : (g.toRot *ᵥ θ) 2 = (2 * g.z * g.x - 2 * g.y * g.w) * θ 0 +
        (2 * g.z * g.y + 2 * g.x * g.w) * θ 1 + (1 - (2 * g.x * g.x + 2 * g.y * g.y)) * θ 2 := by
      simp [Quat.toRot, mulVec, dotProduct, Fin.sum_univ_three]
    rw [e0, e1, e2]
    simp only [Quat.mul, Quat.conj, Quat.mk.injEq]
    refine ⟨?_, ?_, ?_, ?_⟩
    · linear_combination w * hg
    · linear_combination (θ 0 * f) * hg
    · linear_combination (θ 1 * f) * hg
    · linear_combination (θ 2 * f) * hg
  have u : ∀ θ : V3 ℝ, quatFromSmallAngle θ = if sqNorm3 θ / 4 < 1 then
      ⟨Real.sqrt (1 - sqNorm3 θ / 4), θ 0 * 0.5, θ 1 * 0.5, θ 2 * 0.5⟩ else
      ⟨1 / Real.sqrt (1 + sqNorm3 θ / 4), θ 0 * (1 / Real.sqrt (1 + sqNorm3 θ / 4) * 0.5),
        θ 1 * (1 / Real.sqrt (1 + sqNorm3 θ / 4) * 0.5), θ 2 * (1 / Real.sqrt (1 + sqNorm3 θ / 4) * 0.5)⟩ :=
    fun _ => rfl
  have hs : sqNorm3 (g.toRot *ᵥ θ) = sqNorm3 θ := by
    have e : g.toRot = g.conj.toRotᵀ := by rw [toRot_conj, transpose_transpose]
    rw [e]
    exact sqNorm3_rot (by rw [Quat.normSq_conj, hg]) θ
  rw [u, u, hs]
  split <;> rw [key]

theorem conj_cancel {g : Quat ℝ} (hg : g.normSq = 1) (a b : Quat ℝ) :
    (a.mul g.conj).mul (g.mul b) = a.mul b := by
  rw [Quat.mul_assoc', ← Quat.mul_assoc' g.conj, Quat.conj_mul_self, hg]
  congr 1
  simp [Quat.mul]

/-! ### The state -/

/-- What the measurement reads, in the rotated frame. -/
noncomputable def PoseView.turn (g : Quat ℝ) (v : PoseView ℝ) : PoseView ℝ :=
  { v with p := g.toRot *ᵥ v.p, q := g.mul v.q, qwv := v.qwv.mul g.conj, pwv := g.toRot *ᵥ v.pwv }

/-- What the measurement reads. -/
noncomputable def viewOf (s : Vars ℝ (coreDef poseAux)) : PoseView ℝ :=
  ⟨p s, q s, ((s ⟨5, by decide⟩).val : Fin 1 → ℝ) 0, (s ⟨8, by decide⟩).val, (s ⟨9, by decide⟩).val,
    (s ⟨6, by decide⟩).val, (s ⟨7, by decide⟩).val⟩

theorem poseView_eq (s : Vars ℝ (coreDef poseAux)) : poseView poseIx s = some (viewOf s) := rfl

theorem turnVars_6 (g : Quat ℝ) (s : Vars ℝ (coreDef poseAux)) : turnVars g s ⟨6, by decide⟩ =
    { s ⟨6, by decide⟩ with val := (Quat.mul (s ⟨6, by decide⟩).val g.conj : Quat ℝ) } := rfl

theorem turnVars_7 (g : Quat ℝ) (s : Vars ℝ (coreDef poseAux)) : turnVars g s ⟨7, by decide⟩ =
    { s ⟨7, by decide⟩ with val := (g.toRot *ᵥ (s ⟨7, by decide⟩).val : V3 ℝ) } := rfl

theorem turnVars_low (g : Quat ℝ) (s : Vars ℝ (coreDef poseAux)) (i : Fin (coreDef poseAux).length)
    (h6 : i.val ≠ 6) (h7 : i.val ≠ 7) : turnVars g s i = rotVars g s i := by
  unfold turnVars
  rw [Function.update_of_ne (fun e => h7 (congrArg Fin.val e)),
    Function.update_of_ne (fun e => h6 (congrArg Fin.val e))]

theorem turnVars_other (g : Quat ℝ) (s : Vars ℝ (coreDef poseAux)) (i : Fin (coreDef poseAux).length)
    (h : 3 ≤ i.val) (h6 : i.val ≠ 6) (h7 : i.val ≠ 7) : turnVars g s i = s i := by
  rw [turnVars_low g s i h6 h7]
  refine other_rotVars g s i ?_ ?_ ?_ <;> rintro rfl
  · exact absurd (show (3 : Nat) ≤ 0 from h) (by decide)
  · exact absurd (show (3 : Nat) ≤ 1 from h) (by decide)
  · exact absurd (show (3 : Nat) ≤ 2 from h) (by decide)

theorem p_turnVars (g : Quat ℝ) (s : Vars ℝ (coreDef poseAux)) : p (turnVars g s) = g.toRot *ᵥ p s :=
  (congrArg StateVar.val (turnVars_low g s ip (by decide) (by decide))).trans (p_rotVars g s)

theorem v_turnVars (g : Quat ℝ) (s : Vars ℝ (coreDef poseAux)) : v (turnVars g s) = g.toRot *ᵥ v s :=
  (congrArg StateVar.val (turnVars_low g s iv (by decide) (by decide))).trans (v_rotVars g s)

theorem q_turnVars (g : Quat ℝ) (s : Vars ℝ (coreDef poseAux)) : q (turnVars g s) = g.mul (q s) :=
  (congrArg StateVar.val (turnVars_low g s iq (by decide) (by decide))).trans (q_rotVars g s)

theorem viewOf_turn (g : Quat ℝ) (s : Vars ℝ (coreDef poseAux)) :
    viewOf (turnVars g s) = (viewOf s).turn g := by
  unfold viewOf PoseView.turn
  rw [p_turnVars, q_turnVars, turnVars_6, turnVars_7, turnVars_other g s ⟨5, by decide⟩ (by decide) (by decide) (by decide),
    turnVars_other g s ⟨8, by decide⟩ (by decide) (by decide) (by decide),
    turnVars_other g s ⟨9, by decide⟩ (by decide) (by decide) (by decide)]

theorem turnVars_unit {g : Quat ℝ} (hg : g.normSq = 1) {s : Vars ℝ (coreDef poseAux)} (h : UnitQuats s) :
    UnitQuats (turnVars g s) := by
  intro i q' hq
  by_cases h6 : i.val = 6
  · obtain rfl : i = ⟨6, by decide⟩ := Fin.ext h6
    have e : some (Quat.mul (s ⟨6, by decide⟩).val g.conj) = some q' := hq
    rw [← Option.some.inj e]
    exact (Quat.normSq_mul _ _).trans (by rw [Quat.normSq_conj, hg, mul_one]; exact h ⟨6, by decide⟩ _ rfl)
  by_cases h7 : i.val = 7
  · obtain rfl : i = ⟨7, by decide⟩ := Fin.ext h7
    have e : (none : Option (Quat ℝ)) = some q' := hq
    cases e
  · rw [turnVars_low g s i h6 h7] at hq
    exact rotVars_unit hg h i q' hq

/-! ### Residual and measurement matrix -/

theorem PoseView.turn_predPos {g : Quat ℝ} (hg : g.normSq = 1) (v : PoseView ℝ) (hq : v.q.normSq = 1)
    (hw : v.qwv.normSq = 1) : (v.turn g).predPos = v.predPos := by
  have e1 : (v.qwv.mul g.conj).toRot = v.qwv.toRot * g.toRotᵀ := by
    rw [toRot_mul _ _ hw (by rw [Quat.normSq_conj, hg]), toRot_conj]
  have e2 : (g.mul v.q).toRot = g.toRot * v.q.toRot := toRot_mul _ _ hg hq
  have ho : g.toRotᵀ * g.toRot = 1 := mul_eq_one_comm.1 (toRot_orthogonal g hg)
  simp only [PoseView.predPos, PoseView.turn, toRot_conj, transpose_transpose, e1, e2]
  congr 1
  rw [← mulVec_mulVec, ← mulVec_mulVec, ← mulVec_neg, ← mulVec_add, ← mulVec_add, mulVec_mulVec _ g.toRotᵀ, ho,
    one_mulVec]

theorem PoseView.turn_predAtt {g : Quat ℝ} (hg : g.normSq = 1) (v : PoseView ℝ) :
    (v.turn g).predAtt = v.predAtt := by
  simp only [PoseView.predAtt, PoseView.turn]
  rw [conj_cancel hg]

theorem rows7_other (a b : V3 ℝ) (c c' : ℝ) (i : Fin 7) (hi : i ≠ 6) : rows7 a b c' i = rows7 a b c i := by
  fin_cases i <;> simp [rows7] at hi ⊢

/-- The residual in the rotated frame differs in the yaw row only. -/
theorem residual_turn {g : Quat ℝ} (hg : g.normSq = 1) (v : PoseView ℝ) (hq : v.q.normSq = 1)
    (hw : v.qwv.normSq = 1) (z_p : V3 ℝ) (z_q : Quat ℝ) {r r' : Fin 7 → ℝ}
    (h : v.residual z_p z_q = some r) (h' : (v.turn g).residual z_p z_q = some r') (i : Fin 7)
    (hi : i ≠ 6) : r' i = r i := by
  unfold PoseView.residual at h h'
  rw [PoseView.turn_predPos hg v hq hw, PoseView.turn_predAtt hg v] at h'
  simp only [Option.bind_eq_bind] at h h'
  obtain ⟨a, ha, h⟩ := Option.bind_eq_some_iff.1 h
  obtain ⟨a', ha', h'⟩ := Option.bind_eq_some_iff.1 h'
  obtain ⟨y, -, h⟩ := Option.bind_eq_some_iff.1 h
  obtain ⟨y', -, h'⟩ := Option.bind_eq_some_iff.1 h'
  obtain rfl := Option.some.inj (ha.symm.trans ha')
  rw [← Option.some.inj h, ← Option.some.inj h']
  exact rows7_other _ _ _ _ _ hi

theorem poseH_turn {g : Quat ℝ} (hg : g.normSq = 1) (fixed : Nat) (hf : fixed.testBit 7 = true)
    (s : Vars ℝ (coreDef poseAux)) (hu : UnitQuats s) :
    ∃ H H', poseH poseIx fixed s = some H ∧ poseH poseIx fixed (turnVars g s) = some H' ∧
      H' * turnErr g.toRot = H ∧ ∀ c, H 6 c = 0 := by
  obtain ⟨H, eH, hm⟩ := poseH_mulVec poseIx fixed s _ poseDef_ok.1 (poseView_eq s) poseIx_distinct
  obtain ⟨H', eH', hm'⟩ := poseH_mulVec poseIx fixed (turnVars g s) _ poseDef_ok.1
    (poseView_eq (turnVars g s)) poseIx_distinct
  have hq : (viewOf s).q.normSq = 1 := hu iq _ rfl
  have hw : (viewOf s).qwv.normSq = 1 := hu ⟨6, by decide⟩ _ rfl
  refine ⟨H, H', eH, eH', ?_, fun c => ?_⟩
  · refine ext_of_mulVec_single fun k => ?_
    generalize (Pi.single k 1 : Fin (total errLen (coreDef poseAux)) → ℝ) = δ
    rw [← mulVec_mulVec, hm, hm', viewOf_turn]
    simp only [poseIx] at *
    rw [turnErr_low _ _ 0 (.inl rfl), turnErr_high _ _ 6 (.inl rfl), turnErr_high _ _ 7 (.inr rfl),
      turnErr_same _ _ 2 3 (by decide), turnErr_same _ _ 5 1 (by decide), turnErr_same _ _ 8 3 (by decide),
      turnErr_same _ _ 9 3 (by decide)]
    clear hm hm' eH eH'
    generalize viewOf s = v at hq hw ⊢
    have e1 : (v.qwv.mul g.conj).toRot = v.qwv.toRot * g.toRotᵀ := by
      rw [toRot_mul _ _ hw (by rw [Quat.normSq_conj, hg]), toRot_conj]
    have e2 : (g.mul v.q).toRot = g.toRot * v.q.toRot := toRot_mul _ _ hg hq
    have ho : g.toRotᵀ * g.toRot = 1 := mul_eq_one_comm.1 (toRot_orthogonal g hg)
    have e12 : v.qwv.toRot * g.toRotᵀ * (g.toRot * v.q.toRot) = v.qwv.toRot * v.q.toRot := by
      rw [Matrix.mul_assoc, ← Matrix.mul_assoc g.toRotᵀ, ho, Matrix.one_mul]
    simp only [PoseView.turn, e1, e2, hf, if_true, zero_mulVec]
    have a0 : (v.L • (v.qwv.toRot * g.toRotᵀ)) *ᵥ (g.toRot *ᵥ segOf δ 0 3) =
        (v.L • v.qwv.toRot) *ᵥ segOf δ 0 3 := by
      rw [mulVec_mulVec, Matrix.smul_mul, Matrix.mul_assoc, ho, Matrix.mul_one]
    have a2 : -(v.qwv.toRot * g.toRotᵀ) * (g.toRot * v.q.toRot) * skew v.pic =
        -v.qwv.toRot * v.q.toRot * skew v.pic := by
      have : -(v.qwv.toRot * g.toRotᵀ) * (g.toRot * v.q.toRot) = -v.qwv.toRot * v.q.toRot := by
        rw [Matrix.neg_mul, e12, Matrix.neg_mul]
      rw [this]
    have a5 : (v.qwv.toRot * g.toRotᵀ) *ᵥ (-(g.toRot *ᵥ v.pwv) + g.toRot *ᵥ v.p) =
        v.qwv.toRot *ᵥ (-v.pwv + v.p) := by
      rw [← mulVec_neg, ← mulVec_add, mulVec_mulVec, Matrix.mul_assoc, ho, Matrix.mul_one]
    have a6 : (-(v.qwv.toRot * g.toRotᵀ) * skew (v.L • (-(g.toRot *ᵥ v.pwv) + g.toRot *ᵥ v.p +
        (g.toRot * v.q.toRot) *ᵥ v.pic))) *ᵥ (g.toRot *ᵥ segOf δ 6 3) =
        (-v.qwv.toRot * skew (v.L • (-v.pwv + v.p + v.q.toRot *ᵥ v.pic))) *ᵥ segOf δ 6 3 := by
      have hu' : v.L • (-(g.toRot *ᵥ v.pwv) + g.toRot *ᵥ v.p + (g.toRot * v.q.toRot) *ᵥ v.pic) =
          g.toRot *ᵥ (v.L • (-v.pwv + v.p + v.q.toRot *ᵥ v.pic)) := by
        simp only [mulVec_add, mulVec_neg, mulVec_smul, mulVec_mulVec]
      rw [hu']
      generalize v.L • (-v.pwv + v.p + v.q.toRot *ᵥ v.pic) = u
      calc (-(v.qwv.toRot * g.toRotᵀ) * skew (g.toRot *ᵥ u)) *ᵥ (g.toRot *ᵥ segOf δ 6 3)
          = -(v.qwv.toRot * g.toRotᵀ) *ᵥ (skew (g.toRot *ᵥ u) *ᵥ (g.toRot *ᵥ segOf δ 6 3)) :=
            (mulVec_mulVec _ _ _).symm
        _ = -(v.qwv.toRot * g.toRotᵀ) *ᵥ (g.toRot *ᵥ (skew u *ᵥ segOf δ 6 3)) := by rw [toRot_cross hg]
        _ = (-v.qwv.toRot * skew u) *ᵥ segOf δ 6 3 := by
            rw [mulVec_mulVec, Matrix.neg_mul, Matrix.mul_assoc, ho, Matrix.mul_one, mulVec_mulVec]
    have a6' : (v.qic.conj.toRot * (g.toRot * v.q.toRot)ᵀ) *ᵥ (g.toRot *ᵥ segOf δ 6 3) =
        (v.qic.conj.toRot * v.q.toRotᵀ) *ᵥ segOf δ 6 3 := by
      rw [mulVec_mulVec, transpose_mul, Matrix.mul_assoc, Matrix.mul_assoc, ho, Matrix.mul_one]
    have ite6 : ∀ (A B : M33 ℝ) (x y : V3 ℝ), A *ᵥ x = B *ᵥ y →
        (if fixed.testBit 6 = true then 0 else A) *ᵥ x = (if fixed.testBit 6 = true then 0 else B) *ᵥ y := by
      intro A B x y h
      split
      · rw [zero_mulVec, zero_mulVec]
      · exact h
    rw [a0, a2, a5, e12, ite6 _ _ _ _ a6, ite6 _ _ _ _ a6']
    rfl
  · have e := congrFun (hm (Pi.single c 1)) 6
    rw [mulVec_single_one] at e
    rw [show H 6 c = H.col c 6 from rfl, e]
    have p0 : ∀ u : V3 ℝ, (pad 0 u : Fin 7 → ℝ) 6 = 0 := fun u => pad_zero_apply u 6
    have p3 : ∀ u : V3 ℝ, (pad 3 u : Fin 7 → ℝ) 6 = 0 := fun u => pad_three_apply u 6
    simp only [Pi.add_apply, p0, p3, add_zero]

/-! ### Fixed states -/

theorem turnErr_diag (R : M33 ℝ) (d : Fin (total errLen (coreDef poseAux)) → ℝ)
    (h : ∀ k : Fin (total errLen (coreDef poseAux)), k.val < 6 → d k = d ⟨0, by decide⟩)
    (h6 : ∀ k l : Fin (total errLen (coreDef poseAux)), 16 ≤ k.val → k.val < 16 + 3 → 16 ≤ l.val →
      l.val < 16 + 3 → d k = d l)
    (h7 : ∀ k l : Fin (total errLen (coreDef poseAux)), 19 ≤ k.val → k.val < 19 + 3 → 19 ≤ l.val →
      l.val < 19 + 3 → d k = d l) :
    turnErr R * diagonal d = diagonal d * turnErr R := by
  have e1 := rotErr_diag R d h
  have e2 := rotAt_diag 16 R d h6
  have e3 := rotAt_diag 19 R d h7
  unfold turnErr
  rw [Matrix.mul_assoc, e3, ← Matrix.mul_assoc, Matrix.mul_assoc (rotErr R), e2, ← Matrix.mul_assoc, e1,
    Matrix.mul_assoc, Matrix.mul_assoc, Matrix.mul_assoc]

theorem clearCrossCov_turn (R : M33 ℝ) (P : ErrMat ℝ (coreDef poseAux)) (i : Nat) (hi : 5 ≤ i)
    (hl : i < (coreDef poseAux).length) :
    clearCrossCov (turnErr R * P * (turnErr R)ᵀ) i =
      (clearCrossCov P i).map fun P => turnErr R * P * (turnErr R)ᵀ := by
  classical
  have hix := indexingErrors_eq_zero.2 poseDef_ok.1
  obtain ⟨P1, e1, a1, a2, a3, -⟩ := C38_clear_cross_cov P ⟨i, hl⟩ poseDef_ok.1
  obtain ⟨P2, e2, b1, b2, b3, -⟩ := C38_clear_cross_cov (turnErr R * P * (turnErr R)ᵀ) ⟨i, hl⟩ poseDef_ok.1
  change clearCrossCov _ i = _ at e1 e2
  rw [e1, e2, Option.map_some, Option.some.injEq, clear_sum a1 a2 a3, clear_sum b1 b2 b3]
  have hc : i = 5 ∨ i = 6 ∨ i = 7 ∨ i = 8 ∨ i = 9 := by
    have : (coreDef poseAux).length = 10 := by decide
    omega
  have hown : ∀ k : Fin (total errLen (coreDef poseAux)), Owns (coreDef poseAux) ⟨i, hl⟩ k ↔
      (i = 5 ∧ k.val = 15) ∨ (i = 6 ∧ 16 ≤ k.val ∧ k.val < 19) ∨ (i = 7 ∧ 19 ≤ k.val ∧ k.val < 22) ∨
      (i = 8 ∧ 22 ≤ k.val ∧ k.val < 25) ∨ (i = 9 ∧ 25 ≤ k.val ∧ k.val < 28) := by
    intro k
    rw [owns_iff hix]
    rcases hc with rfl | rfl | rfl | rfl | rfl
    · change (15 ≤ k.val ∧ k.val < 15 + 1) ↔ _; omega
    · change (16 ≤ k.val ∧ k.val < 16 + 3) ↔ _; omega
    · change (19 ≤ k.val ∧ k.val < 19 + 3) ↔ _; omega
    · change (22 ≤ k.val ∧ k.val < 22 + 3) ↔ _; omega
    · change (25 ≤ k.val ∧ k.val < 25 + 3) ↔ _; omega
  have same : ∀ k l : Fin (total errLen (coreDef poseAux)),
      (Owns (coreDef poseAux) ⟨i, hl⟩ k ↔ Owns (coreDef poseAux) ⟨i, hl⟩ l) → ∀ a b : ℝ,
      (if Owns (coreDef poseAux) ⟨i, hl⟩ k then a else b) = if Owns (coreDef poseAux) ⟨i, hl⟩ l then a else b := by
    intro k l h a b
    by_cases hk : Owns (coreDef poseAux) ⟨i, hl⟩ k
    · rw [if_pos hk, if_pos (h.1 hk)]
    · rw [if_neg hk, if_neg (fun hh => hk (h.2 hh))]
  have c := fun a b : ℝ => turnErr_diag R (fun k => if Owns (coreDef poseAux) ⟨i, hl⟩ k then a else b)
    (fun k hk => same _ _ (by rw [hown, hown]; simp only; omega) a b)
    (fun k l h1 h2 h3 h4 => same _ _ (by rw [hown, hown]; omega) a b)
    (fun k l h1 h2 h3 h4 => same _ _ (by rw [hown, hown]; omega) a b)
  exact (congr_sum (c 1 0) (c 0 1) (diagonal_transpose _) (diagonal_transpose _) P).symm

theorem clearFixed_turn (R : M33 ℝ) (fixed : Nat) (is : List Nat)
    (hi : ∀ i ∈ is, 5 ≤ i ∧ i < (coreDef poseAux).length) : ∀ P : ErrMat ℝ (coreDef poseAux),
    clearFixed fixed is (turnErr R * P * (turnErr R)ᵀ) =
      (clearFixed fixed is P).map fun P => turnErr R * P * (turnErr R)ᵀ := by
  induction is with
  | nil => intro P; rfl
  | cons i is ih =>
    intro P
    have ih := ih fun j hj => hi j (List.mem_cons_of_mem _ hj)
    unfold clearFixed at ih ⊢
    simp only [List.foldlM_cons, Option.bind_eq_bind]
    by_cases hb : fixed.testBit i
    · simp only [hb, if_true]
      have hii := hi i (List.mem_cons_self ..)
      rw [clearCrossCov_turn R P i hii.1 hii.2]
      cases clearCrossCov P i with
      | none => rfl
      | some P1 => exact ih P1
    · simp only [hb]
      exact ih P

/-! ### Corrections -/

theorem turnVars_keeps (g : Quat ℝ) (s : Vars ℝ (coreDef poseAux)) (i : Fin (coreDef poseAux).length) :
    (turnVars g s i).Q = (s i).Q ∧ (turnVars g s i).hasReset = (s i).hasReset := by
  by_cases h6 : i.val = 6
  · obtain rfl : i = ⟨6, by decide⟩ := Fin.ext h6
    exact ⟨rfl, rfl⟩
  by_cases h7 : i.val = 7
  · obtain rfl : i = ⟨7, by decide⟩ := Fin.ext h7
    exact ⟨rfl, rfl⟩
  rw [turnVars_low g s i h6 h7]
  by_cases h0 : i = ip
  · subst h0; rw [rotVars, set3_p]; exact ⟨rfl, rfl⟩
  by_cases h1 : i = iv
  · subst h1; rw [rotVars, set3_v]; exact ⟨rfl, rfl⟩
  by_cases h2 : i = iq
  · subst h2; rw [rotVars, set3_q]; exact ⟨rfl, rfl⟩
  rw [other_rotVars g s i h0 h1 h2]
  exact ⟨rfl, rfl⟩

/-- `q_wv`. -/
noncomputable def qwvOf (s : Vars ℝ (coreDef poseAux)) : Quat ℝ := (s ⟨6, by decide⟩).val

/-- `p_wv`. -/
noncomputable def pwvOf (s : Vars ℝ (coreDef poseAux)) : V3 ℝ := (s ⟨7, by decide⟩).val

theorem correct_turn {g : Quat ℝ} (hg : g.normSq = 1) (s : Vars ℝ (coreDef poseAux)) (hu : UnitQuats s)
    (c : Fin (total errLen (coreDef poseAux)) → ℝ) :
    correct (turnVars g s) (turnErr g.toRot *ᵥ c) = (correct s c).map (turnVars g) := by
  obtain ⟨s1, e1, h1⟩ := C36_correct s c poseDef_ok.1 poseDef_ok.2 hu
  obtain ⟨s2, e2, h2⟩ := C36_correct (turnVars g s) (turnErr g.toRot *ᵥ c) poseDef_ok.1 poseDef_ok.2
    (turnVars_unit hg hu)
  obtain ⟨s1', e1', a1, b1⟩ := correct_reads s c poseDef_ok.1 posePlain hu
  obtain ⟨s2', e2', a2, b2⟩ := correct_reads (turnVars g s) (turnErr g.toRot *ᵥ c) poseDef_ok.1
    posePlain (turnVars_unit hg hu)
  obtain rfl := Option.some.inj (e1.symm.trans e1')
  obtain rfl := Option.some.inj (e2.symm.trans e2')
  rw [e1, e2, Option.map_some, Option.some.injEq]
  have vals : ∀ i, (s2 i).val = (turnVars g s1 i).val := by
    have v0 : p s2 = g.toRot *ᵥ p s1 := by
      have x1 : p s1 = p s + segOf c 0 3 := Option.some.inj (a1 0 3 _ rfl)
      have x2 : p s2 = p (turnVars g s) + segOf (turnErr g.toRot *ᵥ c) 0 3 := Option.some.inj (a2 0 3 _ rfl)
      rw [x1, x2, p_turnVars, turnErr_low _ _ 0 (.inl rfl), mulVec_add]
    have v1 : v s2 = g.toRot *ᵥ v s1 := by
      have x1 : v s1 = v s + segOf c 1 3 := Option.some.inj (a1 1 3 _ rfl)
      have x2 : v s2 = v (turnVars g s) + segOf (turnErr g.toRot *ᵥ c) 1 3 := Option.some.inj (a2 1 3 _ rfl)
      rw [x1, x2, v_turnVars, turnErr_low _ _ 1 (.inr rfl), mulVec_add]
    have v2 : q s2 = g.mul (q s1) := by
      have x1 : q s1 = (q s).mul (quatFromSmallAngle (segOf c 2 3)) := Option.some.inj (b1 2 _ rfl)
      have x2 : q s2 = (q (turnVars g s)).mul (quatFromSmallAngle (segOf (turnErr g.toRot *ᵥ c) 2 3)) :=
        Option.some.inj (b2 2 _ rfl)
      rw [x1, x2, q_turnVars, turnErr_same _ _ 2 3 (by decide), Quat.mul_assoc']
    have vec3 : ∀ (i : Nat) (hi : i < (coreDef poseAux).length) (x x' : V3 ℝ), i = 3 ∨ i = 4 ∨ i = 9 →
        getVec s i 3 = some x → getVec (turnVars g s) i 3 = some x → getVec s2 i 3 = getVec s1 i 3 := by
      intro i hi x x' hc hx hx'
      rw [a1 i 3 x hx, a2 i 3 x hx', turnErr_same _ _ i 3 (by omega)]
    have oth := fun (i : Nat) (hi : i < (coreDef poseAux).length) (h : 3 ≤ i) (h6 : i ≠ 6) (h7 : i ≠ 7)
      (s : Vars ℝ (coreDef poseAux)) => turnVars_other g s ⟨i, hi⟩ h h6 h7
    have v3 : (s2 ⟨3, by decide⟩).val = (s1 ⟨3, by decide⟩).val :=
      Option.some.inj (vec3 3 (by decide) _ 0 (by decide) rfl
        (congrArg (fun x : StateVar ℝ (.vec 3) => some x.val) (oth 3 (by decide) (by decide) (by decide) (by decide) s)))
    have v4 : (s2 ⟨4, by decide⟩).val = (s1 ⟨4, by decide⟩).val :=
      Option.some.inj (vec3 4 (by decide) _ 0 (by decide) rfl
        (congrArg (fun x : StateVar ℝ (.vec 3) => some x.val) (oth 4 (by decide) (by decide) (by decide) (by decide) s)))
    have v9 : (s2 ⟨9, by decide⟩).val = (s1 ⟨9, by decide⟩).val :=
      Option.some.inj (vec3 9 (by decide) _ 0 (by decide) rfl
        (congrArg (fun x : StateVar ℝ (.vec 3) => some x.val) (oth 9 (by decide) (by decide) (by decide) (by decide) s)))
    have v5 : (s2 ⟨5, by decide⟩).val = (s1 ⟨5, by decide⟩).val := by
      have x1 := a1 5 1 _ rfl
      have x2 := a2 5 1 _ (congrArg (fun x : StateVar ℝ (.vec 1) => some x.val)
        (oth 5 (by decide) (by decide) (by decide) (by decide) s))
      rw [turnErr_same _ _ 5 1 (by decide)] at x2
      exact Option.some.inj (x2.trans x1.symm)
    have v8 : (s2 ⟨8, by decide⟩).val = (s1 ⟨8, by decide⟩).val := by
      have x1 := b1 8 _ rfl
      have x2 := b2 8 _ (congrArg (fun x : StateVar ℝ .quat => some x.val)
        (oth 8 (by decide) (by decide) (by decide) (by decide) s))
      rw [turnErr_same _ _ 8 3 (by decide)] at x2
      exact Option.some.inj (x2.trans x1.symm)
    have v6 : qwvOf s2 = (qwvOf s1).mul g.conj := by
      have x1 : qwvOf s1 = (qwvOf s).mul (quatFromSmallAngle (segOf c 6 3)) := Option.some.inj (b1 6 _ rfl)
      have x2 : qwvOf s2 = ((qwvOf s).mul g.conj).mul
          (quatFromSmallAngle (segOf (turnErr g.toRot *ᵥ c) 6 3)) := Option.some.inj (b2 6 _ rfl)
      rw [x2, x1, turnErr_high _ _ 6 (.inl rfl), quatFromSmallAngle_rot hg, ← Quat.mul_assoc', conj_cancel hg]
    have v7 : pwvOf s2 = g.toRot *ᵥ pwvOf s1 := by
      have x1 : pwvOf s1 = pwvOf s + segOf c 7 3 := Option.some.inj (a1 7 3 _ rfl)
      have x2 : pwvOf s2 = g.toRot *ᵥ pwvOf s + segOf (turnErr g.toRot *ᵥ c) 7 3 :=
        Option.some.inj (a2 7 3 _ rfl)
      rw [x2, x1, turnErr_high _ _ 7 (.inr rfl), ← mulVec_add]
    intro i
    have hl : (coreDef poseAux).length = 10 := by decide
    obtain ⟨n, hn⟩ := i
    have hc : n = 0 ∨ n = 1 ∨ n = 2 ∨ n = 3 ∨ n = 4 ∨ n = 5 ∨ n = 6 ∨ n = 7 ∨ n = 8 ∨ n = 9 := by omega
    rcases hc with rfl | rfl | rfl | rfl | rfl | rfl | rfl | rfl | rfl | rfl
    · exact v0.trans (p_turnVars g s1).symm
    · exact v1.trans (v_turnVars g s1).symm
    · exact v2.trans (q_turnVars g s1).symm
    · rw [oth 3 hn (by decide) (by decide) (by decide) s1]; exact v3
    · rw [oth 4 hn (by decide) (by decide) (by decide) s1]; exact v4
    · rw [oth 5 hn (by decide) (by decide) (by decide) s1]; exact v5
    · exact v6
    · exact v7
    · rw [oth 8 hn (by decide) (by decide) (by decide) s1]; exact v8
    · rw [oth 9 hn (by decide) (by decide) (by decide) s1]; exact v9
  funext i
  have k1 := turnVars_keeps g s i
  have k2 := turnVars_keeps g s1 i
  exact stateVar_ext (vals i) ((h2 i).2.1.trans (k1.1.trans ((h1 i).2.1.symm.trans k2.1.symm)))
    ((h2 i).2.2.trans (k1.2.trans ((h1 i).2.2.symm.trans k2.2.symm)))

theorem zeroBias_turn (R : M33 ℝ) (c : Fin (total errLen (coreDef poseAux)) → ℝ) :
    zeroBias (turnErr R *ᵥ c) = turnErr R *ᵥ zeroBias c := by
  have e : ∀ c : Fin (total errLen (coreDef poseAux)) → ℝ, zeroBias c =
      diagonal (fun k : Fin (total errLen (coreDef poseAux)) => if 9 ≤ k.val ∧ k.val < 15 then (0 : ℝ) else 1) *ᵥ c := by
    intro c
    funext k
    rw [mulVec_diagonal]
    simp only [zeroBias]
    by_cases h1 : 9 ≤ k.val ∧ k.val < 9 + 3
    · rw [if_pos h1, if_pos (by omega), zero_mul]
    · rw [if_neg h1]
      by_cases h2 : 12 ≤ k.val ∧ k.val < 12 + 3
      · rw [if_pos h2, if_pos (by omega), zero_mul]
      · rw [if_neg h2, if_neg (by omega), one_mul]
  rw [e, e, mulVec_mulVec, mulVec_mulVec, turnErr_diag]
  · intro k hk
    rw [if_neg (by omega), if_neg (by simp)]
  · intro k l h1 h2 h3 h4
    rw [if_neg (by omega), if_neg (by omega)]
  · intro k l h1 h2 h3 h4
    rw [if_neg (by omega), if_neg (by omega)]

theorem scaleSanity_turn (g : Quat ℝ) (s : Vars ℝ (coreDef poseAux)) :
    scaleSanity (turnVars g s) = turnVars g (scaleSanity s) := by
  have h5 : ∀ s : Vars ℝ (coreDef poseAux), turnVars g s ⟨5, by decide⟩ = s ⟨5, by decide⟩ := fun s =>
    turnVars_other g s ⟨5, by decide⟩ (by decide) (by decide) (by decide)
  have e : ∀ s : Vars ℝ (coreDef poseAux), scaleSanity s = if ((s ⟨5, by decide⟩).val : Fin 1 → ℝ) 0 < 0 then
      Function.update s ⟨5, by decide⟩ { s ⟨5, by decide⟩ with val := (fun _ => 0.1 : Fin 1 → ℝ) } else s :=
    fun _ => rfl
  rw [e, e, h5]
  split
  · funext i
    by_cases hi : i = ⟨5, by decide⟩
    · subst hi
      rw [Function.update_self, h5, Function.update_self]
    · rw [Function.update_of_ne hi]
      by_cases h6 : i = ⟨6, by decide⟩
      · subst h6
        rw [turnVars_6, turnVars_6, Function.update_of_ne hi]
      by_cases h7 : i = ⟨7, by decide⟩
      · subst h7
        rw [turnVars_7, turnVars_7, Function.update_of_ne hi]
      have g6 : i.val ≠ 6 := fun h => h6 (Fin.ext h)
      have g7 : i.val ≠ 7 := fun h => h7 (Fin.ext h)
      by_cases h3 : 3 ≤ i.val
      · rw [turnVars_other g _ i h3 g6 g7, turnVars_other g _ i h3 g6 g7, Function.update_of_ne hi]
      rw [turnVars_low g _ i g6 g7, turnVars_low g _ i g6 g7]
      have hc : i = ip ∨ i = iv ∨ i = iq := by
        have : i.val = 0 ∨ i.val = 1 ∨ i.val = 2 := by omega
        rcases this with h | h | h
        · exact .inl (Fin.ext h)
        · exact .inr (.inl (Fin.ext h))
        · exact .inr (.inr (Fin.ext h))
      have keep : ∀ j : Fin (coreDef poseAux).length, j ≠ ⟨5, by decide⟩ →
          Function.update s ⟨5, by decide⟩ { s ⟨5, by decide⟩ with val := (fun _ => 0.1 : Fin 1 → ℝ) } j = s j :=
        fun j hj => Function.update_of_ne hj _ _
      rcases hc with rfl | rfl | rfl
      · rw [rotVars, rotVars, set3_p, set3_p, p, p, keep ip hi]
      · rw [rotVars, rotVars, set3_v, set3_v, v, v, keep iv hi]
      · rw [rotVars, rotVars, set3_q, set3_q, q, q, keep iq hi]
  · rfl

/-- Without an alarm the check does not change the values. -/
theorem fuzzyCheck_quiet {D : List VarDesc} {t t' : Tracker ℝ} {d b s' : Vars ℝ D} {th : ℝ}
    (h : fuzzyCheck' t d b th = some (t', s', false)) : s' = d := by
  unfold fuzzyCheck' at h
  split at h
  · cases h; rfl
  · unfold fuzzyCheck at h
    simp only [Option.bind_eq_bind] at h
    obtain ⟨i, -, h⟩ := Option.bind_eq_some_iff.1 h
    obtain ⟨q, -, h⟩ := Option.bind_eq_some_iff.1 h
    split at h
    · split at h
      · cases h
      · obtain ⟨b, -, h⟩ := Option.bind_eq_some_iff.1 h
        cases h; rfl
    · obtain ⟨b, -, h⟩ := Option.bind_eq_some_iff.1 h
      cases h; rfl

theorem applyCorrection_quiet {fb : Bool} {t t' : Tracker ℝ} {s s' : Vars ℝ (coreDef poseAux)}
    {c : Fin (total errLen (coreDef poseAux)) → ℝ}
    (h : applyCorrection (scaleCalc fb) t s c = some (t', s', false)) :
    ∃ s1 : Vars ℝ (coreDef poseAux), correct s (if fb then zeroBias c else c) = some s1 ∧
      s' = scaleSanity s1 := by
  change ((correct s (if fb then zeroBias c else c)).bind fun s1 =>
    fuzzyCheck' t (scaleSanity s1) s 0.1) = _ at h
  obtain ⟨s1, e1, h⟩ := Option.bind_eq_some_iff.1 h
  exact ⟨s1, e1, fuzzyCheck_quiet h⟩

/-- A row without entries that is not correlated with the others has no influence. -/
theorem gain_row_zero {k m : Nat} (P : Matrix (Fin k) (Fin k) ℝ) (H : Matrix (Fin m) (Fin k) ℝ)
    (R : Matrix (Fin m) (Fin m) ℝ) (a : Fin m) (hH : ∀ c, H a c = 0) (hR : ∀ i, i ≠ a → R i a = 0)
    (hdet : (innovCov P H R).det ≠ 0) (i : Fin k) : gain P H R i a = 0 := by
  have hcol : ∀ j, j ≠ a → innovCov P H R j a = 0 := by
    intro j hj
    simp [innovCov, Matrix.add_apply, Matrix.mul_apply, transpose_apply, hH, hR j hj]
  have hinv : (innovCov P H R)⁻¹ * innovCov P H R = 1 := nonsing_inv_mul _ (isUnit_iff_ne_zero.2 hdet)
  have prod : ∀ j, (innovCov P H R)⁻¹ j a * innovCov P H R a a = if j = a then 1 else 0 := by
    intro j
    have e := congrFun (congrFun hinv j) a
    rw [Matrix.mul_apply, Finset.sum_eq_single a (fun b _ hb => by rw [hcol b hb, mul_zero])
      (fun h => absurd (Finset.mem_univ a) h), one_apply] at e
    exact e
  have haa : innovCov P H R a a ≠ 0 := by
    intro h
    have := prod a
    rw [h, mul_zero, if_pos rfl] at this
    exact zero_ne_one this
  have hz : ∀ j, j ≠ a → (innovCov P H R)⁻¹ j a = 0 := by
    intro j hj
    have := prod j
    rw [if_neg hj] at this
    exact (mul_eq_zero.1 this).resolve_right haa
  rw [gain, Matrix.mul_apply]
  refine Finset.sum_eq_zero fun j _ => ?_
  by_cases hj : j = a
  · subst hj
    have : (P * Hᵀ) i j = 0 := by simp [Matrix.mul_apply, transpose_apply, hH]
    rw [this, zero_mul]
  · rw [hz j hj, mul_zero]

end MSF
