import Mathlib.Data.List.FinRange
import Verif.Lemmas.Gps
import Verif.Props.Similarity

/-!
# C125, C126: the condition number of the similarity transform; order of the pairs
-/

namespace MSF

open Matrix

/-! ### C125 -/

/-- The singular values returned by `JacobiSVD` are sorted, largest first. -/
def Solvers.Sorted (so : Solvers) : Prop :=
  ∀ A : M44 ℝ, A.PosSemidef → ∀ i j : Fin 4, i ≤ j → (so.svd A).S j ≤ (so.svd A).S i

/-- A displacement and a scale that explain the pairs best. -/
def BestFit (ms : List (Pose × Pose)) (t : V3 ℝ) (s : ℝ) : Prop :=
  ∀ t' s', simCost ms t s ≤ simCost ms t' s'

/-- A rotation that explains the pairs best. -/
def BestRotation (ms : List (Pose × Pose)) (q : Quat ℝ) : Prop :=
  q.normSq = 1 ∧ ∀ q' : Quat ℝ, q'.normSq = 1 → simScore ms q' ≤ simScore ms q

theorem cost_split {m : Type} [Fintype m] (A : Matrix m (Fin 4) ℝ) (b : m → ℝ)
    (x y : Fin 4 → ℝ) (hx : (Aᵀ * A) *ᵥ x = Aᵀ *ᵥ b) :
    (A *ᵥ y - b) ⬝ᵥ (A *ᵥ y - b) =
      (A *ᵥ x - b) ⬝ᵥ (A *ᵥ x - b) + (A *ᵥ (y - x)) ⬝ᵥ (A *ᵥ (y - x)) := by
  have e : A *ᵥ y - b = (A *ᵥ x - b) + A *ᵥ (y - x) := by rw [Matrix.mulVec_sub]; abel
  have horth : A *ᵥ (y - x) ⬝ᵥ (A *ᵥ x - b) = 0 := by
    have : Aᵀ *ᵥ (A *ᵥ x - b) = 0 := by
      rw [Matrix.mulVec_sub, Matrix.mulVec_mulVec, hx, sub_self]
    rw [dotProduct_comm, Matrix.dotProduct_mulVec, ← Matrix.mulVec_transpose, this, zero_dotProduct]
  rw [e, add_dotProduct, dotProduct_add, dotProduct_add, horth, dotProduct_comm (A *ᵥ x - b) (A *ᵥ (y - x)), horth]
  ring

theorem gram_zero {m : Type} [Fintype m] (A : Matrix m (Fin 4) ℝ) (z : Fin 4 → ℝ)
    (h : (Aᵀ * A) *ᵥ z = 0) : A *ᵥ z = 0 := by
  rw [← dotProduct_self_eq_zero, dotProduct_mulVec, ← mulVec_transpose, mulVec_mulVec, h, zero_dotProduct]

/-- The last singular value vanishes exactly for matrices with a kernel. -/
theorem last_singular {so : Solvers} (hso : so.Correct) (hs : so.Sorted) {m : Type} [Fintype m]
    (A : Matrix m (Fin 4) ℝ) : (so.svd (Aᵀ * A)).S 3 = 0 ↔ ∃ z, z ≠ 0 ∧ A *ᵥ z = 0 := by
  have hd := hso.svd _ (gram_psd A)
  have hsort := hs _ (gram_psd A)
  set d := so.svd (Aᵀ * A)
  have hU : d.U.det * d.U.det = 1 := by
    have := congrArg det hd.orthU
    rwa [det_mul, det_transpose, det_one] at this
  have hV : d.V.det * d.V.det = 1 := by
    have := congrArg det hd.orthV
    rwa [det_mul, det_transpose, det_one] at this
  have hdet : (Aᵀ * A).det = d.U.det * (d.S 0 * d.S 1 * d.S 2 * d.S 3) * d.V.det := by
    rw [hd.eq, det_mul, det_mul, det_diagonal, det_transpose, Fin.prod_univ_four]
  have h1 : d.S 3 = 0 ↔ (Aᵀ * A).det = 0 := by
    constructor
    · intro h
      rw [hdet, h]; ring
    · intro h
      by_contra h3
      have hp : 0 < d.S 3 := lt_of_le_of_ne (hd.nonneg 3) (Ne.symm h3)
      have h0 := lt_of_lt_of_le hp (hsort 0 3 (by decide))
      have h1 := lt_of_lt_of_le hp (hsort 1 3 (by decide))
      have h2 := lt_of_lt_of_le hp (hsort 2 3 (by decide))
      rw [hdet] at h
      have hu : d.U.det ≠ 0 := fun h => by rw [h] at hU; simp at hU
      have hv : d.V.det ≠ 0 := fun h => by rw [h] at hV; simp at hV
      have : d.U.det * (d.S 0 * d.S 1 * d.S 2 * d.S 3) * d.V.det ≠ 0 :=
        mul_ne_zero (mul_ne_zero hu (by positivity)) hv
      exact this h
  rw [h1, ← exists_mulVec_eq_zero_iff]
  constructor
  · rintro ⟨z, hz, h⟩
    exact ⟨z, hz, gram_zero A z h⟩
  · rintro ⟨z, hz, h⟩
    exact ⟨z, hz, by rw [← mulVec_mulVec, h, mulVec_zero]⟩

theorem vec4_eta (x : Fin 4 → ℝ) : (![x 0, x 1, x 2, x 3] : Fin 4 → ℝ) = x := by
  funext i; fin_cases i <;> rfl

/-- **C125 (partial).**  With at least two pairs: the condition number is finite if and only if the pairs
determine displacement and scale (the best fit is unique), which is the case if and only if in two pairs the
second positions, seen in the attitude of the first pose, differ.  If it is finite it is at least one.
Missing: the rotation, see `C125_violated`. -/
theorem C125_condition_partial (so : Solvers) (hso : so.Correct) (hs : so.Sorted) (ms : List (Pose × Pose))
    (hlen : 2 ≤ ms.length) (h1 : ∀ m ∈ ms, m.1.orientation.normSq = 1) :
    ((Sim.cond so ms).isSome ↔
      ∀ t s t' s', BestFit ms t s → BestFit ms t' s' → t = t' ∧ s = s') ∧
    ((Sim.cond so ms).isSome ↔ ∃ m ∈ ms, ∃ m' ∈ ms,
      m.1.orientation.toRotᵀ *ᵥ m.2.position ≠ m'.1.orientation.toRotᵀ *ᵥ m'.2.position) ∧
    ∀ c, Sim.cond so ms = some c → 1 ≤ c := by
  have hl := last_singular hso hs (Sim.matA ms)
  have hcond : (Sim.cond so ms).isSome ↔ ¬ ∃ z, z ≠ 0 ∧ Sim.matA ms *ᵥ z = 0 := by
    rw [← hl, Sim.cond]
    split <;> simp_all
  have hcost : ∀ t s, simCost ms t s =
      (Sim.matA ms *ᵥ ![t 0, t 1, t 2, s] - Sim.vecB ms) ⬝ᵥ
        (Sim.matA ms *ᵥ ![t 0, t 1, t 2, s] - Sim.vecB ms) := by
    intro t s
    rw [cost_eq ms h1]
    congr 1
    funext i; fin_cases i <;> rfl
  have hrow : ∀ z i k, (Sim.matA ms *ᵥ z) (i, k) =
      z 3 * ((ms.get i).1.orientation.toRotᵀ *ᵥ (ms.get i).2.position) k - ![z 0, z 1, z 2] k := by
    intro z i k
    have hu := h1 (ms.get i) (List.get_mem ms i)
    simp only [Matrix.mulVec, dotProduct, Fin.sum_univ_four, Sim.matA,
      Matrix.of_apply, inverse_unit hu, rotate_eq, toRot_conj, Fin.sum_univ_three]
    fin_cases k <;> simp [Matrix.one_apply] <;> ring
  refine ⟨?_, ?_, ?_⟩
  · rw [hcond]
    obtain ⟨x, hx⟩ := normal_eq_solvable (Sim.matA ms) (Sim.vecB ms)
    have hbest : BestFit ms ![x 0, x 1, x 2] (x 3) := by
      intro t' s'
      rw [hcost, hcost]
      have := normal_eq_optimal _ _ _ ![t' 0, t' 1, t' 2, s'] hx
      rwa [← vec4_eta x] at this
    constructor
    · intro hk
      have key : ∀ t s, BestFit ms t s → (![t 0, t 1, t 2, s] : Fin 4 → ℝ) = x := by
        intro t s hb
        by_contra hne
        have h := hb ![x 0, x 1, x 2] (x 3)
        rw [hcost, hcost] at h
        have e := cost_split (Sim.matA ms) (Sim.vecB ms) x ![t 0, t 1, t 2, s] hx
        have e2 : (![![x 0, x 1, x 2] 0, ![x 0, x 1, x 2] 1, ![x 0, x 1, x 2] 2, x 3] : Fin 4 → ℝ) = x := vec4_eta x
        rw [e, e2] at h
        refine hk ⟨![t 0, t 1, t 2, s] - x, sub_ne_zero.2 hne, ?_⟩
        rw [← dotProduct_self_eq_zero]
        refine le_antisymm (by linarith) ?_
        rw [dotProduct]
        exact Finset.sum_nonneg fun i _ => mul_self_nonneg _
      intro t s t' s' h h'
      have e := (key t s h).trans (key t' s' h').symm
      refine ⟨?_, congrFun e 3⟩
      funext i
      fin_cases i
      · exact congrFun e 0
      · exact congrFun e 1
      · exact congrFun e 2
    · rintro hun ⟨z, hz, hz0⟩
      have hb2 : BestFit ms ![x 0 + z 0, x 1 + z 1, x 2 + z 2] (x 3 + z 3) := by
        intro t' s'
        refine le_trans (le_of_eq ?_) (hbest t' s')
        rw [hcost, hcost]
        have e : (![![x 0 + z 0, x 1 + z 1, x 2 + z 2] 0, ![x 0 + z 0, x 1 + z 1, x 2 + z 2] 1,
            ![x 0 + z 0, x 1 + z 1, x 2 + z 2] 2, x 3 + z 3] : Fin 4 → ℝ) = x + z := vec4_eta (x + z)
        have e2 : (![![x 0, x 1, x 2] 0, ![x 0, x 1, x 2] 1, ![x 0, x 1, x 2] 2, x 3] : Fin 4 → ℝ) = x := vec4_eta x
        rw [e, e2, mulVec_add, hz0, add_zero]
      obtain ⟨e1, e2⟩ := hun _ _ _ _ hbest hb2
      refine hz (funext fun i => ?_)
      fin_cases i
      · have := congrFun e1 0; simpa using this
      · have := congrFun e1 1; simpa using this
      · have := congrFun e1 2; simpa using this
      · simpa using e2
  · rw [hcond]
    constructor
    · intro hk
      by_contra hall
      push Not at hall
      have h0 : 0 < ms.length := by omega
      set w := (ms.get ⟨0, h0⟩).1.orientation.toRotᵀ *ᵥ (ms.get ⟨0, h0⟩).2.position with hw
      refine hk ⟨![w 0, w 1, w 2, 1], fun h => ?_, ?_⟩
      · have := congrFun h 3
        simp at this
      · funext ⟨i, k⟩
        rw [hrow, hall _ (List.get_mem ms i) _ (List.get_mem ms ⟨0, h0⟩), ← hw]
        fin_cases k <;> simp
    · rintro ⟨m, hm, m', hm', hne⟩ ⟨z, hz, hz0⟩
      obtain ⟨i, rfl⟩ := List.get_of_mem hm
      obtain ⟨i', rfl⟩ := List.get_of_mem hm'
      have e : ∀ k, z 3 * (((ms.get i).1.orientation.toRotᵀ *ᵥ (ms.get i).2.position) k -
          ((ms.get i').1.orientation.toRotᵀ *ᵥ (ms.get i').2.position) k) = 0 := by
        intro k
        have a := hrow z i k
        have b := hrow z i' k
        rw [hz0] at a b
        have a' : (0 : ℝ) = _ := a
        have b' : (0 : ℝ) = _ := b
        linarith
      have h3 : z 3 = 0 := by
        by_contra h3
        refine hne (funext fun k => ?_)
        have := (mul_eq_zero.1 (e k)).resolve_left h3
        linarith
      have hk : ∀ k, (![z 0, z 1, z 2] : V3 ℝ) k = 0 := by
        intro k
        have a := hrow z i k
        rw [hz0, h3] at a
        have a' : (0 : ℝ) = _ := a
        linarith
      refine hz (funext fun j => ?_)
      fin_cases j
      · exact hk 0
      · exact hk 1
      · exact hk 2
      · exact h3
  · intro c hc
    have hd := hso.svd _ (gram_psd (Sim.matA ms))
    have hsort := hs _ (gram_psd (Sim.matA ms)) 0 3 (by decide)
    unfold Sim.cond at hc
    simp only at hc
    split at hc
    · cases hc
    · rename_i h3
      rw [← Option.some.inj hc, le_div_iff₀ (lt_of_le_of_ne (hd.nonneg 3) (Ne.symm h3)), one_mul]
      exact hsort

/-- Correct solvers with sorted singular values exist. -/
theorem sorted_solvers_exist : ∃ so : Solvers, so.Correct ∧ so.Sorted := by
  obtain ⟨so, hso⟩ := correct_solvers_exist
  refine ⟨⟨so.lastEigenvector, fun A =>
    ⟨(so.svd A).U.submatrix id (Tuple.sort fun i => -(so.svd A).S i),
      fun i => (so.svd A).S (Tuple.sort (fun i => -(so.svd A).S i) i),
      (so.svd A).V.submatrix id (Tuple.sort fun i => -(so.svd A).S i)⟩⟩, ⟨hso.eig, fun A hA => ?_⟩, fun A hA i j hij => ?_⟩
  · have hd := hso.svd A hA
    set σ := Tuple.sort fun i => -(so.svd A).S i
    refine ⟨?_, ?_, ?_, fun i => hd.nonneg _⟩
    · refine hd.eq.trans ?_
      ext r c
      rw [Matrix.mul_apply, Matrix.mul_apply]
      simp only [mul_diagonal, transpose_apply, submatrix_apply, id]
      exact (Equiv.sum_comp σ fun k => (so.svd A).U r k * (so.svd A).S k * (so.svd A).V c k).symm
    · ext r c
      have := congrFun (congrFun hd.orthU (σ r)) (σ c)
      simp only [Matrix.mul_apply, transpose_apply, submatrix_apply, id, one_apply] at this ⊢
      rw [this]
      simp
    · ext r c
      have := congrFun (congrFun hd.orthV (σ r)) (σ c)
      simp only [Matrix.mul_apply, transpose_apply, submatrix_apply, id, one_apply] at this ⊢
      rw [this]
      simp
  · have := Tuple.monotone_sort (fun i => -(so.svd A).S i) hij
    simp only [Function.comp] at this
    show (so.svd A).S _ ≤ (so.svd A).S _
    linarith

/-- The full claim: a finite condition number means that also the rotation is determined, up to the sign of
the quaternion. -/
def ConditionClaim : Prop :=
  ∀ so : Solvers, so.Correct → so.Sorted → ∀ ms : List (Pose × Pose), 2 ≤ ms.length →
    (∀ m ∈ ms, m.1.orientation.normSq = 1 ∧ m.2.orientation.normSq = 1) → (Sim.cond so ms).isSome →
    ∀ q q', BestRotation ms q → BestRotation ms q' → q.coeffs = q'.coeffs ∨ q.coeffs = -q'.coeffs

/-- Two pairs whose relative rotations differ by a half turn. -/
noncomputable def halfTurnPairs : List (Pose × Pose) :=
  [(⟨0, Quat.one⟩, ⟨0, Quat.one⟩), (⟨0, Quat.one⟩, ⟨![1, 0, 0], ⟨0, 1, 0, 0⟩⟩)]

theorem halfTurn_score (v : Quat ℝ) : simScore halfTurnPairs v = v.w ^ 2 + v.x ^ 2 := by
  simp [simScore, halfTurnPairs, Quat.mul, Quat.conj, Quat.one, Quat.coeffs, dotProduct, Fin.sum_univ_four]

theorem halfTurn_best (v : Quat ℝ) (h : v.w ^ 2 + v.x ^ 2 = 1) (h' : v.normSq = 1) :
    BestRotation halfTurnPairs v := by
  refine ⟨h', fun q hq => ?_⟩
  rw [halfTurn_score, halfTurn_score, h]
  simp only [Quat.normSq] at hq
  nlinarith [sq_nonneg q.y, sq_nonneg q.z]

/-- **C125 is violated for the rotation.**  Two pairs with relative rotations a half turn apart: the condition
number is finite, and both rotations fit equally well. -/
theorem C125_violated : ¬ ConditionClaim := by
  intro h
  obtain ⟨so, hso, hs⟩ := sorted_solvers_exist
  have hu : ∀ m ∈ halfTurnPairs, m.1.orientation.normSq = 1 ∧ m.2.orientation.normSq = 1 := by
    simp [halfTurnPairs, Quat.normSq, Quat.one]
  have hc := (C125_condition_partial so hso hs halfTurnPairs (by simp [halfTurnPairs])
    fun m hm => (hu m hm).1).2.1.2 ⟨_, List.mem_cons_self, _, List.mem_cons_of_mem _ List.mem_cons_self, fun e => by
      have := congrFun e 0
      simp [Quat.toRot, Quat.one, mulVec, dotProduct, Fin.sum_univ_three] at this⟩
  rcases h so hso hs halfTurnPairs (by simp [halfTurnPairs]) hu hc Quat.one ⟨0, 1, 0, 0⟩
    (halfTurn_best _ (by simp [Quat.one]) (by simp [Quat.one, Quat.normSq]))
    (halfTurn_best _ (by simp) (by simp [Quat.normSq])) with e | e
  · have := congrFun e 0
    simp [Quat.coeffs, Quat.one] at this
  · have := congrFun e 0
    simp [Quat.coeffs, Quat.one] at this

/-- Non-vacuity of `C125_condition_partial`: a vehicle that only turns on the spot about the origin of the
second frame does not determine the scale. -/
example : ∃ so : Solvers, so.Correct ∧ so.Sorted ∧
    Sim.cond so [(⟨![1, 2, 3], Quat.one⟩, ⟨0, Quat.one⟩), (⟨![1, 2, 3], ⟨0, 1, 0, 0⟩⟩, ⟨0, Quat.one⟩)] = none := by
  obtain ⟨so, hso, hs⟩ := sorted_solvers_exist
  refine ⟨so, hso, hs, ?_⟩
  have h := (C125_condition_partial so hso hs
    [(⟨![1, 2, 3], Quat.one⟩, ⟨0, Quat.one⟩), (⟨![1, 2, 3], ⟨0, 1, 0, 0⟩⟩, ⟨0, Quat.one⟩)] (by simp)
    (by simp [Quat.normSq, Quat.one])).2.1
  rw [← Option.not_isSome_iff_eq_none, h]
  simp

/-! ### C126 -/

theorem outerSum_apply (ms : List (Pose × Pose)) (M : M44 ℝ) (a b : Fin 4) :
    (ms.foldl (fun M m => M + vecMulVec (Sim.relRot m).coeffs (Sim.relRot m).coeffs) M) a b =
      M a b + (ms.map fun m => (Sim.relRot m).coeffs a * (Sim.relRot m).coeffs b).sum := by
  induction ms generalizing M with
  | nil => simp
  | cons m ms ih =>
    rw [List.foldl_cons, ih, List.map_cons, List.sum_cons, Matrix.add_apply, vecMulVec_apply, add_assoc]

/-- One row of the matrix `A`. -/
noncomputable def rowA (m : Pose × Pose) (k : Fin 3) (c : Fin 4) : ℝ :=
  if h : c.val < 3 then ((1 : M33 ℝ) k ⟨c, h⟩) * (-1) else (m.1.orientation.inverse.rotate m.2.position) k

theorem gramA_apply (ms : List (Pose × Pose)) (a b : Fin 4) :
    ((Sim.matA ms)ᵀ * Sim.matA ms) a b = (ms.map fun m => ∑ k, rowA m k a * rowA m k b).sum := by
  rw [Matrix.mul_apply, Fintype.sum_prod_type, ← sum_get]
  rfl

theorem gramB_apply (ms : List (Pose × Pose)) (a : Fin 4) :
    ((Sim.matA ms)ᵀ *ᵥ Sim.vecB ms) a =
      (ms.map fun m => ∑ k, rowA m k a * (m.1.orientation.inverse.rotate m.1.position) k).sum := by
  rw [Matrix.mulVec, dotProduct, Fintype.sum_prod_type, ← sum_get]
  rfl

/-- **C126.**  The order in which the pairs were added does not matter: position, rotation, scale, success and
condition number are the same (for the same solvers, whatever they return). -/
theorem C126_order (so : Solvers) (ms ms' : List (Pose × Pose)) (h : ms.Perm ms') (eps : ℝ) :
    Sim.compute so ms eps = Sim.compute so ms' eps ∧ Sim.cond so ms = Sim.cond so ms' := by
  have hA : (Sim.matA ms)ᵀ * Sim.matA ms = (Sim.matA ms')ᵀ * Sim.matA ms' := by
    ext a b
    rw [gramA_apply, gramA_apply]
    exact (h.map _).sum_eq
  have hb : (Sim.matA ms)ᵀ *ᵥ Sim.vecB ms = (Sim.matA ms')ᵀ *ᵥ Sim.vecB ms' := by
    ext a
    rw [gramB_apply, gramB_apply]
    exact (h.map _).sum_eq
  have hM : Sim.outerSum ms = Sim.outerSum ms' := by
    ext a b
    rw [Sim.outerSum, Sim.outerSum, outerSum_apply, outerSum_apply, (h.map _).sum_eq]
  constructor
  · simp only [Sim.compute, hA, hb, hM, h.length_eq]
  · simp only [Sim.cond, hA]

/-- The pair of poses as seen from a world frame turned by `g`. -/
noncomputable def turnPair (g : Quat ℝ) (m : Pose × Pose) : Pose × Pose :=
  (⟨g.toRot *ᵥ m.1.position, g.mul m.1.orientation⟩, ⟨g.toRot *ᵥ m.2.position, g.mul m.2.orientation⟩)

theorem turn_relRot {g : Quat ℝ} (hg : g.normSq = 1) (m : Pose × Pose) (h1 : m.1.orientation.normSq = 1) :
    Sim.relRot (turnPair g m) = Sim.relRot m := by
  have h2 : (g.mul m.1.orientation).normSq = 1 := by rw [Quat.normSq_mul, hg, h1, one_mul]
  simp only [Sim.relRot, turnPair, inverse_unit h1, inverse_unit h2, Quat.conj_mul]
  have e : g.conj.mul g = Quat.one := by rw [Quat.conj_mul_self, hg]; rfl
  rw [Quat.mul_assoc', ← Quat.mul_assoc' g.conj, e, Quat.one_mul']

theorem turn_rotate {g q : Quat ℝ} (hg : g.normSq = 1) (hq : q.normSq = 1) (v : V3 ℝ) :
    (g.mul q).inverse.rotate (g.toRot *ᵥ v) = q.inverse.rotate v := by
  have h2 : (g.mul q).normSq = 1 := by rw [Quat.normSq_mul, hg, hq, one_mul]
  rw [rotate_eq, rotate_eq, inverse_unit hq, inverse_unit h2, toRot_conj, toRot_conj, toRot_mul _ _ hg hq,
    transpose_mul, mulVec_mulVec, Matrix.mul_assoc, rot_transpose_mul hg, Matrix.mul_one]

/-- **C126, world frame.**  Turning the world frame of all poses does not change the result. -/
theorem C126_frame (so : Solvers) (ms : List (Pose × Pose)) (h1 : ∀ m ∈ ms, m.1.orientation.normSq = 1)
    (g : Quat ℝ) (hg : g.normSq = 1) (eps : ℝ) :
    Sim.compute so (ms.map (turnPair g)) eps = Sim.compute so ms eps ∧
      Sim.cond so (ms.map (turnPair g)) = Sim.cond so ms := by
  have hrow : ∀ m ∈ ms, ∀ k c, rowA (turnPair g m) k c = rowA m k c := by
    intro m hm k c
    unfold rowA
    split
    · rfl
    · exact congrFun (turn_rotate hg (h1 m hm) _) k
  have hA : (Sim.matA (ms.map (turnPair g)))ᵀ * Sim.matA (ms.map (turnPair g)) =
      (Sim.matA ms)ᵀ * Sim.matA ms := by
    ext a b
    rw [gramA_apply, gramA_apply, List.map_map]
    refine congrArg List.sum (List.map_congr_left fun m hm => ?_)
    simp only [Function.comp, hrow m hm]
  have hb : (Sim.matA (ms.map (turnPair g)))ᵀ *ᵥ Sim.vecB (ms.map (turnPair g)) =
      (Sim.matA ms)ᵀ *ᵥ Sim.vecB ms := by
    ext a
    rw [gramB_apply, gramB_apply, List.map_map]
    refine congrArg List.sum (List.map_congr_left fun m hm => ?_)
    simp only [Function.comp, hrow m hm]
    refine Finset.sum_congr rfl fun k _ => ?_
    rw [show (turnPair g m).1.orientation.inverse.rotate (turnPair g m).1.position =
      m.1.orientation.inverse.rotate m.1.position from turn_rotate hg (h1 m hm) _]
  have hM : Sim.outerSum (ms.map (turnPair g)) = Sim.outerSum ms := by
    ext a b
    rw [Sim.outerSum, Sim.outerSum, outerSum_apply, outerSum_apply, List.map_map]
    refine congrArg (_ + ·) (congrArg List.sum (List.map_congr_left fun m hm => ?_))
    simp only [Function.comp, turn_relRot hg m (h1 m hm)]
  constructor
  · simp only [Sim.compute, hA, hb, hM, List.length_map]
  · simp only [Sim.cond, hA]

/-- Non-vacuity of C126: two pairs exchanged, and seen from a frame turned by a half turn. -/
example (so : Solvers) (eps : ℝ) :
    Sim.compute so (halfTurnPairs.reverse.map (turnPair ⟨0, 0, 0, 1⟩)) eps = Sim.compute so halfTurnPairs eps :=
  ((C126_frame so _ (by simp [halfTurnPairs, Quat.normSq, Quat.one]) _ (by simp [Quat.normSq]) eps).1).trans
    (C126_order so _ _ (List.reverse_perm _) eps).1

end MSF
