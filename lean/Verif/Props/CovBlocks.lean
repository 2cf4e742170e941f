import Verif.Props.Covariance

/-!
# Properties of covariance blocks: C38, C39, C57, C58
-/

namespace MSF

open Matrix

/-! ### Decoupling -/

section
variable {D : List VarDesc}

/-- Index `k` of the error state belongs to variable `i`: the variable's range in the layout of
C35. -/
def Owns (D : List VarDesc) (i : Fin D.length) (k : Fin (total errLen D)) : Prop :=
  ∃ st : Nat, startIndex errLen D (D.get i) = some (st : Int) ∧ st ≤ k ∧ k < st + errLen (D.get i)

theorem owns_iff (h : indexingErrors D = 0) (i : Fin D.length) (k : Fin (total errLen D)) :
    Owns D i k ↔ offset errLen D i ≤ k ∧ k < offset errLen D i + errLen (D.get i) := by
  have hs : startIndex errLen D (D.get i) = some (offset errLen D i : Int) :=
    startIndex_get errLen h i i.2
  constructor
  · rintro ⟨st, h1, h2⟩
    rw [hs, Option.some.injEq] at h1
    have : offset errLen D i = st := by exact_mod_cast h1
    rw [this]
    exact h2
  · intro h2
    exact ⟨_, hs, h2⟩

/-- **C38, clearing.**  For every accepted state definition, variable and covariance: the
variable's own block and everything that does not involve the variable are kept, all cross terms
become zero, and positive semidefiniteness is kept. -/
theorem C38_clear_cross_cov (P : ErrMat ℝ D) (i : Fin D.length)
    (h : ∀ i (hi : i < D.length), D[i].name = i) :
    ∃ P', clearCrossCov P i = some P' ∧
      (∀ r c, Owns D i r → Owns D i c → P' r c = P r c) ∧
      (∀ r c, ¬ Owns D i r → ¬ Owns D i c → P' r c = P r c) ∧
      (∀ r c, Owns D i r → ¬ Owns D i c → P' r c = 0 ∧ P' c r = 0) ∧
      (P.PosSemidef → P'.PosSemidef) := by
  classical
  have hi := indexingErrors_eq_zero.2 h
  have hs : startIndex errLen D (D.get i) = some (offset errLen D i : Int) :=
    startIndex_get errLen hi i i.2
  have hle : offset errLen D i + errLen (D.get i) ≤ total errLen D := offset_add_len_le errLen i i.2
  have hget : D[i.val]? = some (D.get i) := List.getElem?_eq_getElem i.2
  let o := offset errLen D i
  let P' : ErrMat ℝ D := Matrix.of fun r c =>
    if Owns D i r ∧ Owns D i c then P r c
    else if Owns D i r ∨ Owns D i c then 0 else P r c
  have hP' : clearCrossCov P i = some P' := by
    simp only [clearCrossCov, hget, Option.bind_eq_bind, Option.bind_some, hs]
    have hcond : (0 : Int) ≤ (offset errLen D i : Int) ∧
        (offset errLen D i : Int).toNat + errLen (D.get i) ≤ total errLen D :=
      ⟨by omega, by simpa using hle⟩
    rw [dif_pos hcond, Option.some.injEq]
    ext r c
    have hr := r.2
    have hc := c.2
    simp only [P', setBlock, getBlock, Matrix.of_apply, owns_iff hi, Int.toNat_natCast,
      Matrix.zero_apply]
    by_cases h1 : offset errLen D i ≤ r ∧ r < offset errLen D i + errLen (D.get i) <;>
      by_cases h2 : offset errLen D i ≤ c ∧ c < offset errLen D i + errLen (D.get i)
    · rw [dif_pos ⟨h1, h2⟩, if_pos ⟨h1, h2⟩]
      congr 1 <;> exact Fin.ext (by simp; omega)
    · rw [dif_neg (fun hh => h2 hh.2), if_neg (fun hh => h2 hh.2), if_pos (Or.inl h1),
        dif_neg (fun hh => h2 hh.2), dif_pos ⟨h1, by omega⟩]
    · rw [dif_neg (fun hh => h1 hh.1), if_neg (fun hh => h1 hh.1), if_pos (Or.inr h2),
        dif_pos ⟨by omega, h2⟩]
    · rw [dif_neg (fun hh => h1 hh.1), if_neg (fun hh => h1 hh.1),
        if_neg (fun hh => hh.elim h1 h2), dif_neg (fun hh => h2 hh.2), dif_neg (fun hh => h1 hh.1)]
  refine ⟨P', hP', ?_, ?_, ?_, ?_⟩
  · intro r c hr hc; simp only [P', Matrix.of_apply, if_pos (And.intro hr hc)]
  · intro r c hr hc
    simp only [P', Matrix.of_apply]
    rw [if_neg (fun hh => hr hh.1), if_neg (fun hh => hh.elim hr hc)]
  · intro r c hr hc
    simp only [P', Matrix.of_apply]
    rw [if_neg (fun hh => hc hh.2), if_pos (Or.inl hr), if_neg (fun hh => hc hh.1),
      if_pos (Or.inr hr)]
    exact ⟨rfl, rfl⟩
  · intro hP
    let E : ErrMat ℝ D := diagonal fun k => if Owns D i k then 1 else 0
    let N : ErrMat ℝ D := diagonal fun k => if Owns D i k then 0 else 1
    have e : P' = E * P * Eᵀ + N * P * Nᵀ := by
      ext r c
      simp only [E, N, diagonal_transpose, Matrix.add_apply, mul_diagonal, diagonal_mul, P',
        Matrix.of_apply]
      by_cases h1 : Owns D i r <;> by_cases h2 : Owns D i c <;> simp [h1, h2]
    rw [e]
    exact (psd_congr hP E).add (psd_congr hP N)

/-- **C38, no influence.**  If the cross terms of a variable are zero and the measurement does not
depend on it (zero columns), the update gives the variable zero correction and changes neither its
covariance block nor its zero cross terms. -/
theorem C38_decoupled_update {m : Type} [Fintype m] [DecidableEq m] (P : ErrMat ℝ D)
    (hP : P.PosSemidef) (i : Fin D.length)
    (hz : ∀ r c, Owns D i r → ¬ Owns D i c → P r c = 0)
    (H : Matrix m (Fin (total errLen D)) ℝ) (hH : ∀ a k, Owns D i k → H a k = 0) (r : m → ℝ)
    (R : Matrix m m ℝ) (hR : R.PosSemidef) (en : Bool) (thr : ℝ)
    (c : Fin (total errLen D) → ℝ) (P' : ErrMat ℝ D)
    (h : calculateCorrection en thr P H r R = some (some (c, P'))) (k : Fin (total errLen D))
    (hk : Owns D i k) : c k = 0 ∧ ∀ j, P' k j = P k j ∧ P' j k = P j k := by
  classical
  have hPH : ∀ a, ∑ l, P k l * H a l = 0 := by
    intro a
    refine Finset.sum_eq_zero fun l _ => ?_
    by_cases hl : Owns D i l
    · rw [hH a l hl, mul_zero]
    · rw [hz k l hk hl, zero_mul]
  have hKk : ∀ a, gain P H R k a = 0 := by
    intro a
    rw [gain, Matrix.mul_apply]
    refine Finset.sum_eq_zero fun b _ => ?_
    rw [Matrix.mul_apply]
    simp only [transpose_apply]
    rw [hPH b, zero_mul]
  simp only [calculateCorrection] at h
  split at h
  · cases h
  split at h
  · cases h
  simp only [Option.some.injEq, Prod.mk.injEq] at h
  have hj := joseph_psd hP hR H (gain P H R)
  have hjs := psd_transpose_eq hj
  rw [josephUpdate, symInPlace_of_symm _ hjs] at h
  have hrow : ∀ j, P' k j = P k j := by
    intro j
    rw [← h.2, joseph_expand P (psd_transpose_eq hP)]
    simp only [Matrix.add_apply, Matrix.sub_apply]
    have e1 : (gain P H R * (H * P)) k j = 0 := by
      rw [Matrix.mul_apply]
      exact Finset.sum_eq_zero fun a _ => by rw [hKk a, zero_mul]
    have e2 : ((H * P)ᵀ * (gain P H R)ᵀ) k j = 0 := by
      rw [Matrix.mul_apply]
      refine Finset.sum_eq_zero fun a _ => ?_
      have : (H * P)ᵀ k a = 0 := by
        rw [transpose_apply, Matrix.mul_apply]
        rw [← hPH a]
        refine Finset.sum_congr rfl fun l _ => ?_
        have : P l k = P k l := congrFun (congrFun (psd_transpose_eq hP) k) l
        rw [this, mul_comm]
      rw [this, zero_mul]
    have e3 : (gain P H R * (H * P * Hᵀ + R) * (gain P H R)ᵀ) k j = 0 := by
      rw [Matrix.mul_assoc, Matrix.mul_apply]
      exact Finset.sum_eq_zero fun a _ => by rw [hKk a, zero_mul]
    rw [e1, e2, e3]
    ring
  have hsym : ∀ j, P' j k = P' k j := by
    intro j
    rw [← h.2]
    exact congrFun (congrFun hjs k) j
  refine ⟨?_, fun j => ⟨hrow j, ?_⟩⟩
  · rw [← h.1]
    simp only [mulVec, dotProduct]
    exact Finset.sum_eq_zero fun a _ => by rw [hKk a, zero_mul]
  · rw [hsym, hrow]
    exact congrFun (congrFun (psd_transpose_eq hP) j) k

/-- **C38.**  Both together: clear the cross terms, then update with zero columns. -/
theorem C38_fixed_state_decoupled {m : Type} [Fintype m] [DecidableEq m] (P : ErrMat ℝ D)
    (hP : P.PosSemidef) (i : Fin D.length) (h : ∀ i (hi : i < D.length), D[i].name = i)
    (H : Matrix m (Fin (total errLen D)) ℝ) (hH : ∀ a k, Owns D i k → H a k = 0) (r : m → ℝ)
    (R : Matrix m m ℝ) (hR : R.PosSemidef) (en : Bool) (thr : ℝ) :
    ∃ P₁, clearCrossCov P i = some P₁ ∧ ∀ c P',
      calculateCorrection en thr P₁ H r R = some (some (c, P')) →
      ∀ k, Owns D i k → c k = 0 ∧
        (∀ j, Owns D i j → P' k j = P k j) ∧ (∀ j, ¬ Owns D i j → P' k j = 0 ∧ P' j k = 0) := by
  obtain ⟨P₁, h1, hown, -, hcross, hpsd⟩ := C38_clear_cross_cov P i h
  refine ⟨P₁, h1, fun c P' hc k hk => ?_⟩
  obtain ⟨e1, e2⟩ := C38_decoupled_update P₁ (hpsd hP) i (fun r c hr hc => (hcross r c hr hc).1) H
    hH r R hR en thr c P' hc k hk
  refine ⟨e1, fun j hj => by rw [(e2 j).1, hown k j hk hj], fun j hj => ?_⟩
  rw [(e2 j).1, (e2 j).2]
  exact hcross k j hk hj

/-- C38 for the scale of the pose filter (variable 5, error state index 15). -/
example : Owns (coreDef poseAux) ⟨5, by decide⟩ ⟨15, by decide⟩ ∧
    ¬ Owns (coreDef poseAux) ⟨5, by decide⟩ ⟨16, by decide⟩ ∧
    (∀ i (hi : i < (coreDef poseAux).length), (coreDef poseAux)[i].name = i) := by
  have hi := indexingErrors_eq_zero.2 poseDef_ok.1
  refine ⟨?_, ?_, poseDef_ok.1⟩
  · rw [owns_iff hi]; decide
  · rw [owns_iff hi]; decide

/-! ### Pose covariance -/

/-- The claim C39: entry `6 r + c` of the message (row-major) is the covariance of components `r`
and `c` of (position, attitude), i.e. of error states 0-2 and 6-8. -/
def poseCovRowMajor : Prop :=
  ∀ (aux : List VarDesc) (P : ErrMat ℝ (coreDef aux)) (cov cov' : Fin 36 → ℝ),
    getPoseCovariance 0 2 P cov = some cov' →
    ∀ r c : Fin 6, ∀ (i j : Fin (total errLen (coreDef aux))),
      i.val = (if r.val < 3 then r.val else r.val + 3) →
      j.val = (if c.val < 3 then c.val else c.val + 3) →
      cov' ⟨6 * r + c, by omega⟩ = P i j

end

theorem start3_get {D : List VarDesc} (hi : indexingErrors D = 0) (i : Nat) (h : i < D.length)
    (hk : errLen D[i] = 3) : ∃ a, start3 D i = some a ∧ a.val = offset errLen D i := by
  have hs : startIndexInCorrection D i = some (offset errLen D i : Int) := by
    rw [startIndexInCorrection, List.getElem?_eq_getElem h]
    exact startIndex_get errLen hi i h
  have hle := offset_add_len_le (D := D) errLen i h
  refine ⟨⟨offset errLen D i, by omega⟩, ?_, rfl⟩
  simp only [start3, hs, Option.bind_eq_bind, Option.bind_some]
  rw [dif_pos ⟨by omega, by simp; omega⟩]
  rfl

theorem fourBlocks_apply {R : Type} {D : List VarDesc} (P : ErrMat R D)
    (a b : { s : Nat // s + 3 ≤ total errLen D }) (M : Matrix (Fin 6) (Fin 6) R) (r c : Fin 6) :
    fourBlocks P a b M r c =
      P ⟨if r.val < 3 then a + r else b + (r - 3), by have := a.2; have := b.2; split <;> omega⟩
        ⟨if c.val < 3 then a + c else b + (c - 3), by have := a.2; have := b.2; split <;> omega⟩ := by
  simp only [fourBlocks, setBlock, getBlock, Matrix.of_apply]
  by_cases h1 : r.val < 3 <;> by_cases h2 : c.val < 3
  · rw [dif_neg (by omega), dif_neg (by omega), dif_neg (by omega), dif_pos (by omega)]
    congr 1 <;> exact Fin.ext (by simp [h1, h2])
  · rw [dif_neg (by omega), dif_pos (by omega)]
    congr 1 <;> exact Fin.ext (by simp [h1, h2])
  · rw [dif_neg (by omega), dif_neg (by omega), dif_pos (by omega)]
    congr 1 <;> exact Fin.ext (by simp [h1, h2])
  · rw [dif_pos (by omega)]
    congr 1 <;> exact Fin.ext (by simp [h1, h2])

/-- **C39, what is written.**  For every state definition starting with the core states the call
succeeds, overwrites all 36 entries, and entry `6 c + r` is the covariance of components `r`
and `c`: the block in column-major order. -/
theorem C39_column_major {R : Type} (aux : List VarDesc)
    (h : ∀ i (hi : i < (coreDef aux).length), (coreDef aux)[i].name = i)
    (P : ErrMat R (coreDef aux)) (cov : Fin 36 → R) :
    ∃ cov', getPoseCovariance 0 2 P cov = some cov' ∧
      ∀ r c : Fin 6, ∀ (i j : Fin (total errLen (coreDef aux))),
        i.val = (if r.val < 3 then r.val else r.val + 3) →
        j.val = (if c.val < 3 then c.val else c.val + 3) →
        cov' ⟨6 * c + r, by omega⟩ = P i j := by
  have hi := indexingErrors_eq_zero.2 h
  obtain ⟨a, h0, ha⟩ := start3_get hi 0 (by simp [coreDef, coreDescs]) rfl
  obtain ⟨b, h2, hb⟩ := start3_get hi 2 (by simp [coreDef, coreDescs]) rfl
  have o0 : offset errLen (coreDef aux) 0 = 0 := rfl
  have o2 : offset errLen (coreDef aux) 2 = 6 := by
    show total errLen ((coreDescs ++ aux).take 2) = 6
    rw [List.take_append_of_le_length (by decide)]; rfl
  refine ⟨toArray6 (fourBlocks P a b (ofArray6 cov)), by
    simp only [getPoseCovariance, h0, h2, Option.bind_eq_bind, Option.bind_some], ?_⟩
  intro r c i j hr hc
  simp only [toArray6]
  rw [fourBlocks_apply]
  have e1 : (6 * c.val + r.val) % 6 = r := by omega
  have e2 : (6 * c.val + r.val) / 6 = c := by omega
  congr 1
  · refine Fin.ext ?_
    simp only [e1, ha, hb, o0, o2]
    rw [hr]
    split <;> omega
  · refine Fin.ext ?_
    simp only [e2, ha, hb, o0, o2]
    rw [hc]
    split <;> omega

/-- **C39, the part that holds.**  For a symmetric covariance the message is the block in
row-major order. -/
theorem C39_pose_covariance_partial {R : Type} (aux : List VarDesc)
    (h : ∀ i (hi : i < (coreDef aux).length), (coreDef aux)[i].name = i)
    (P : ErrMat R (coreDef aux)) (hP : Pᵀ = P) (cov : Fin 36 → R) :
    ∃ cov', getPoseCovariance 0 2 P cov = some cov' ∧
      ∀ r c : Fin 6, ∀ (i j : Fin (total errLen (coreDef aux))),
        i.val = (if r.val < 3 then r.val else r.val + 3) →
        j.val = (if c.val < 3 then c.val else c.val + 3) →
        cov' ⟨6 * r + c, by omega⟩ = P i j := by
  obtain ⟨cov', h1, h2⟩ := C39_column_major aux h P cov
  refine ⟨cov', h1, fun r c i j hr hc => ?_⟩
  rw [h2 c r j i hc hr]
  exact congrFun (congrFun hP i) j

/-- **C39 is violated** for a covariance that is not symmetric: the map over the message is
column-major while the message is row-major. -/
theorem C39_violated : ¬ poseCovRowMajor := by
  intro h
  let P : ErrMat ℝ (coreDef []) := Matrix.of fun i j => if i.val = 0 ∧ j.val = 1 then 1 else 0
  obtain ⟨cov', h1, h2⟩ := C39_column_major [] (by decide) P 0
  have a := h [] P 0 cov' h1 0 1 ⟨0, by decide⟩ ⟨1, by decide⟩ rfl rfl
  have b := h2 1 0 ⟨1, by decide⟩ ⟨0, by decide⟩ rfl rfl
  have e : (⟨6 * (0 : Fin 6).val + (1 : Fin 6).val, by decide⟩ : Fin 36) = 1 := rfl
  simp only [P, Matrix.of_apply] at a b
  norm_num at a b
  rw [a] at b
  norm_num at b

/-! ### Covariance messages -/

theorem rowMajor_inner {R : Type} {n : Nat} (P : Matrix (Fin n) (Fin n) R) (r c0 w : Nat)
    (hr : r < n) (hc : c0 + w ≤ n) (acc : List R) :
    (List.range' c0 w).foldlM (fun acc c =>
      if h : r < n ∧ c < n then some (acc ++ [P ⟨r, h.1⟩ ⟨c, h.2⟩]) else none) acc =
    some (acc ++ List.ofFn fun j : Fin w => P ⟨r, hr⟩ ⟨c0 + j, by omega⟩) := by
  induction w with
  | zero => simp
  | succ w ih =>
    rw [List.range'_concat, List.foldlM_append, ih (by omega)]
    simp only [Option.bind_eq_bind, Option.bind_some, List.foldlM_cons, List.foldlM_nil, one_mul]
    rw [dif_pos ⟨hr, by omega⟩, List.ofFn_succ']
    simp

theorem rowMajor_spec {R : Type} {n : Nat} (P : Matrix (Fin n) (Fin n) R) (r0 r1 c0 c1 : Nat)
    (hr : r1 ≤ n) (hc : c1 ≤ n) :
    ∃ l, rowMajor P r0 r1 c0 c1 = some l ∧ l.length = (r1 - r0) * (c1 - c0) ∧
      ∀ i j (hi : i < r1 - r0) (hj : j < c1 - c0),
        l[i * (c1 - c0) + j]? = some (P ⟨r0 + i, by omega⟩ ⟨c0 + j, by omega⟩) := by
  have key : ∀ k, k ≤ r1 - r0 → ∃ l, (List.range' r0 k).foldlM (fun acc r =>
      (List.range' c0 (c1 - c0)).foldlM (fun acc c =>
        if h : r < n ∧ c < n then some (acc ++ [P ⟨r, h.1⟩ ⟨c, h.2⟩]) else none) acc) [] = some l ∧
      l.length = k * (c1 - c0) ∧ ∀ i j (hi : i < k) (hk : k ≤ r1 - r0) (hj : j < c1 - c0),
        l[i * (c1 - c0) + j]? = some (P ⟨r0 + i, by omega⟩ ⟨c0 + j, by omega⟩) := by
    intro k
    induction k with
    | zero => intro _; exact ⟨[], rfl, by simp, fun i j hi => absurd hi (by omega)⟩
    | succ k ih =>
      intro hk
      obtain ⟨l, h1, h2, h3⟩ := ih (by omega)
      have hin := rowMajor_inner P (r0 + k) c0 (c1 - c0) (by omega)
      by_cases hw : c1 - c0 = 0
      · refine ⟨l, ?_, by rw [h2, hw]; simp, fun i j _ _ hj => absurd hj (by omega)⟩
        rw [List.range'_concat, List.foldlM_append, h1]
        simp only [Option.bind_eq_bind, Option.bind_some, List.foldlM_cons, List.foldlM_nil, hw]
        rfl
      · have hin := hin (by omega) l
        refine ⟨l ++ List.ofFn fun j : Fin (c1 - c0) => P ⟨r0 + k, by omega⟩ ⟨c0 + j, by omega⟩,
          ?_, ?_, ?_⟩
        · rw [List.range'_concat, List.foldlM_append, h1]
          simp only [Option.bind_eq_bind, Option.bind_some, List.foldlM_cons, List.foldlM_nil,
            one_mul]
          rw [hin]
          rfl
        · rw [List.length_append, h2, List.length_ofFn, Nat.succ_mul]
        · intro i j hi _ hj
          by_cases hik : i < k
          · rw [List.getElem?_append_left, h3 i j hik (by omega) hj]
            rw [h2]
            calc i * (c1 - c0) + j < i * (c1 - c0) + (c1 - c0) := by omega
              _ = (i + 1) * (c1 - c0) := by rw [Nat.succ_mul]
              _ ≤ k * (c1 - c0) := Nat.mul_le_mul_right _ hik
          · have : i = k := by omega
            subst this
            rw [List.getElem?_append_right (by rw [h2]; omega), h2, Nat.add_sub_cancel_left,
              List.getElem?_ofFn, dif_pos hj]
  obtain ⟨l, h1, h2, h3⟩ := key (r1 - r0) le_rfl
  exact ⟨l, h1, h2, fun i j hi hj => h3 i j hi le_rfl hj⟩

theorem coreErrLen_le (d : VarDesc) : coreErrLen d ≤ errLen d := by
  obtain ⟨k, n, s, o⟩ := d
  cases k <;> cases s <;> simp [coreErrLen, errLen, Kind.errLen]

theorem nCore_le (D : List VarDesc) : nCore D ≤ total errLen D := by
  unfold nCore total
  induction D with
  | nil => simp
  | cons d l ih =>
    have := coreErrLen_le d
    simp only [List.map_cons, List.sum_cons]
    omega

/-- **C57.**  The three covariance messages never access the matrix out of range, have the
announced numbers of rows and columns, and contain the core, auxiliary and core-auxiliary part of
the covariance in row-major order. -/
theorem C57_covariance_messages {R : Type} {D : List VarDesc} (P : ErrMat R D) :
    ∃ core aux cross,
      getCoreCovariance P = some (nCore D, nCore D, core) ∧
      getAuxCovariance P = some (total errLen D - nCore D, total errLen D - nCore D, aux) ∧
      getCoreAuxCovariance P = some (nCore D, total errLen D - nCore D, cross) ∧
      core.length = nCore D * nCore D ∧
      aux.length = (total errLen D - nCore D) * (total errLen D - nCore D) ∧
      cross.length = nCore D * (total errLen D - nCore D) ∧
      (∀ i j (hi : i < nCore D) (hj : j < nCore D), core[i * nCore D + j]? =
        some (P ⟨i, hi.trans_le (nCore_le D)⟩ ⟨j, hj.trans_le (nCore_le D)⟩)) ∧
      (∀ i j (hi : i < total errLen D - nCore D) (hj : j < total errLen D - nCore D),
        aux[i * (total errLen D - nCore D) + j]? =
          some (P ⟨nCore D + i, by omega⟩ ⟨nCore D + j, by omega⟩)) ∧
      (∀ i j (hi : i < nCore D) (hj : j < total errLen D - nCore D),
        cross[i * (total errLen D - nCore D) + j]? =
          some (P ⟨i, hi.trans_le (nCore_le D)⟩ ⟨nCore D + j, by omega⟩)) := by
  obtain ⟨a, a1, a2, a3⟩ := rowMajor_spec P 0 (nCore D) 0 (nCore D) (nCore_le D) (nCore_le D)
  obtain ⟨b, b1, b2, b3⟩ := rowMajor_spec P (nCore D) (total errLen D) (nCore D) (total errLen D)
    le_rfl le_rfl
  obtain ⟨c, c1, c2, c3⟩ := rowMajor_spec P 0 (nCore D) (nCore D) (total errLen D) (nCore_le D)
    le_rfl
  refine ⟨a, b, c, ?_, ?_, ?_, by simpa using a2, b2, by simpa using c2, ?_, b3, ?_⟩
  · simp [getCoreCovariance, a1]
  · simp [getAuxCovariance, b1]
  · simp [getCoreAuxCovariance, c1]
  · intro i j hi hj
    have := a3 i j hi hj
    simpa using this
  · intro i j hi hj
    have := c3 i j hi hj
    simpa using this

/-- **C57, completeness.**  The three messages together determine a symmetric covariance. -/
theorem C57_messages_determine {R : Type} {D : List VarDesc} (P P' : ErrMat R D)
    (hP : Pᵀ = P) (hP' : P'ᵀ = P') (h1 : getCoreCovariance P = getCoreCovariance P')
    (h2 : getAuxCovariance P = getAuxCovariance P')
    (h3 : getCoreAuxCovariance P = getCoreAuxCovariance P') : P = P' := by
  obtain ⟨a, b, c, a1, b1, c1, -, -, -, a3, b3, c3⟩ := C57_covariance_messages P
  obtain ⟨a', b', c', a1', b1', c1', -, -, -, a3', b3', c3'⟩ := C57_covariance_messages P'
  have ea : a = a' := by
    rw [a1, a1'] at h1
    simpa using h1
  have eb : b = b' := by
    rw [b1, b1'] at h2
    simpa using h2
  have ec : c = c' := by
    rw [c1, c1'] at h3
    simpa using h3
  subst ea eb ec
  have hupper : ∀ (i j : Fin (total errLen D)), i.val < nCore D → P i j = P' i j := by
    intro i j hi
    by_cases hj : j.val < nCore D
    · exact Option.some.inj ((a3 i j hi hj).symm.trans (a3' i j hi hj))
    · have e := Option.some.inj ((c3 i (j - nCore D) hi (by omega)).symm.trans
        (c3' i (j - nCore D) hi (by omega)))
      have ej : (⟨nCore D + (j - nCore D), by omega⟩ : Fin (total errLen D)) = j :=
        Fin.ext (by simp; omega)
      rw [ej] at e
      exact e
  ext i j
  by_cases hi : i.val < nCore D
  · exact hupper i j hi
  · by_cases hj : j.val < nCore D
    · have e1 : P i j = P j i := congrFun (congrFun hP.symm i) j
      have e2 : P' i j = P' j i := congrFun (congrFun hP'.symm i) j
      rw [e1, e2]
      exact hupper j i hj
    · have e := Option.some.inj ((b3 (i - nCore D) (j - nCore D) (by omega) (by omega)).symm.trans
        (b3' (i - nCore D) (j - nCore D) (by omega) (by omega)))
      have ei : (⟨nCore D + (i - nCore D), by omega⟩ : Fin (total errLen D)) = i :=
        Fin.ext (by simp; omega)
      have ej : (⟨nCore D + (j - nCore D), by omega⟩ : Fin (total errLen D)) = j :=
        Fin.ext (by simp; omega)
      rw [ei, ej] at e
      exact e

/-- Sizes for the pose filter. -/
example : nCore (coreDef poseAux) = 15 ∧ total errLen (coreDef poseAux) = 28 := by decide

/-! ### Twist covariance -/

/-- Components 0-2 and 3-5 of a six-dimensional vector. -/
abbrev lo3 (i : Fin 3) : Fin 6 := Fin.castAdd 3 i
abbrev hi3 (i : Fin 3) : Fin 6 := Fin.natAdd 3 i

/-- The twist covariance message, seen as a matrix (it is read in row-major order). -/
def rowMajor6 {R : Type} (a : Fin 36 → R) : Matrix (Fin 6) (Fin 6) R :=
  Matrix.of fun r c => a ⟨6 * r + c, by omega⟩

theorem rowMajor6_toArray6 {R : Type} (M : Matrix (Fin 6) (Fin 6) R) :
    rowMajor6 (toArray6 M) = Mᵀ := by
  ext r c
  simp only [rowMajor6, toArray6, Matrix.of_apply, transpose_apply]
  congr 1 <;> exact Fin.ext (by simp only; omega)

theorem ofArray6_apply {R : Type} (a : Fin 36 → R) (r c : Fin 6) :
    ofArray6 a r c = rowMajor6 a c r := by
  simp only [ofArray6, rowMajor6, colMajor6, Matrix.of_apply, mul_comm]

/-- The Jacobian of the velocity in the IMU frame `Rᵀ v` with respect to (velocity error, attitude
error), the attitude error acting on the right: `[Rᵀ, [Rᵀ v]×]`. -/
def twistJac (Rm : M33 ℝ) (v : V3 ℝ) : Matrix (Fin 3) (Fin 3 ⊕ Fin 3) ℝ :=
  fromCols Rmᵀ (skew (Rmᵀ *ᵥ v))

/-- The joint covariance of two three-dimensional variables with start indices `a` and `b`. -/
def jointCov {n : Nat} (P : Matrix (Fin n) (Fin n) ℝ) (a b : Nat) (ha : a + 3 ≤ n)
    (hb : b + 3 ≤ n) : Matrix (Fin 3 ⊕ Fin 3) (Fin 3 ⊕ Fin 3) ℝ :=
  P.submatrix (Sum.elim (fun i => ⟨a + i, by omega⟩) fun i => ⟨b + i, by omega⟩)
    (Sum.elim (fun i => ⟨a + i, by omega⟩) fun i => ⟨b + i, by omega⟩)

/-- **C58.**  The call succeeds.  The velocity block is `J Σ Jᵀ` with the joint covariance of
velocity (start 3) and attitude (start 6), the angular velocity block is the sum of the bias
covariance (start 9) and the gyro noise, both positive semidefinite; the off-diagonal blocks keep
what the message contained before the call. -/
theorem C58_twist_covariance (aux : List VarDesc)
    (h : ∀ i (hi : i < (coreDef aux).length), (coreDef aux)[i].name = i)
    (hn : 15 ≤ total errLen (coreDef aux))
    (s : Vars ℝ (coreDef aux)) (P : ErrMat ℝ (coreDef aux)) (hP : P.PosSemidef) (ng : V3 ℝ)
    (junk : Matrix (Fin 6) (Fin 6) ℝ) (cov : Fin 36 → ℝ) :
    ∃ cov', getTwistCovariance s P ng junk cov = some cov' ∧
      (rowMajor6 cov').submatrix (lo3) (lo3) =
        twistJac (EKFState.q s).toRot (EKFState.v s) *
          jointCov P 3 6 (by omega) (by omega) *
          (twistJac (EKFState.q s).toRot (EKFState.v s))ᵀ ∧
      (rowMajor6 cov').submatrix (hi3) (hi3) =
        P.submatrix (fun i : Fin 3 => ⟨9 + i, by omega⟩) (fun i : Fin 3 => ⟨9 + i, by omega⟩) +
          diagonal (fun i => ng i ^ 2) ∧
      ((rowMajor6 cov').submatrix (lo3) (lo3)).PosSemidef ∧
      ((rowMajor6 cov').submatrix (hi3) (hi3)).PosSemidef ∧
      (∀ r c : Fin 3, rowMajor6 cov' (lo3 r) (hi3 c) =
        rowMajor6 cov (lo3 r) (hi3 c)) ∧
      (∀ r c : Fin 3, rowMajor6 cov' (hi3 r) (lo3 c) =
        rowMajor6 cov (hi3 r) (lo3 c)) := by
  have hi := indexingErrors_eq_zero.2 h
  obtain ⟨a, h1, ha⟩ := start3_get hi 1 (by simp [coreDef, coreDescs]) rfl
  obtain ⟨b, h2, hb⟩ := start3_get hi 2 (by simp [coreDef, coreDescs]) rfl
  obtain ⟨w, h3, hw⟩ := start3_get hi 3 (by simp [coreDef, coreDescs]) rfl
  have o1 : offset errLen (coreDef aux) 1 = 3 := by
    show total errLen ((coreDescs ++ aux).take 1) = 3
    rw [List.take_append_of_le_length (by decide)]; rfl
  have o2 : offset errLen (coreDef aux) 2 = 6 := by
    show total errLen ((coreDescs ++ aux).take 2) = 6
    rw [List.take_append_of_le_length (by decide)]; rfl
  rw [o1] at ha
  rw [o2] at hb
  rw [(bias_offsets aux).1] at hw
  set Rm := (EKFState.q s).toRot with hRm
  set v := EKFState.v s with hv
  let C := fourBlocks P a b junk
  let J : Matrix (Fin 3) (Fin 6) ℝ := setBlock (setBlock 0 0 0 Rmᵀ) 0 3 (skew (Rmᵀ *ᵥ v))
  let A := J * C * Jᵀ
  let B := getBlock P w w 3 3 w.2 w.2 + (Matrix.diagonal fun i => ng i * ng i : M33 ℝ)
  have hA : A = twistJac Rm v * jointCov P 3 6 (by omega) (by omega) * (twistJac Rm v)ᵀ := by
    obtain ⟨e, hel, her⟩ : ∃ e : Fin 3 ⊕ Fin 3 ≃ Fin 6, (∀ c, e (.inl c) = lo3 c) ∧
        ∀ c, e (.inr c) = hi3 c := ⟨finSumFinEquiv, fun _ => rfl, fun _ => rfl⟩
    have hJ : J.submatrix id e = twistJac Rm v := by
      ext r c
      rcases c with c | c
      · simp [J, setBlock, twistJac, hel]
      · simp [J, setBlock, twistJac, her]
    have hC : C.submatrix e e = jointCov P 3 6 (by omega) (by omega) := by
      ext r c
      simp only [submatrix_apply, C, fourBlocks_apply, jointCov]
      rcases r with r | r <;> rcases c with c | c <;> congr 1 <;>
        refine Fin.ext ?_ <;> simp [hel, her, ha, hb]
    rw [← hJ, ← hC, transpose_submatrix, submatrix_mul_equiv, submatrix_mul_equiv]
    simp [A]
  have hB : B = P.submatrix (fun i : Fin 3 => ⟨9 + i, by omega⟩)
      (fun i : Fin 3 => ⟨9 + i, by omega⟩) + diagonal (fun i => ng i ^ 2) := by
    ext r c
    simp only [B, Matrix.add_apply, getBlock, Matrix.of_apply, submatrix_apply, hw, sq]
  have hJs : (jointCov P 3 6 (by omega) (by omega)).PosSemidef := hP.submatrix _
  have hAp : A.PosSemidef := hA ▸ psd_congr hJs _
  have hBp : B.PosSemidef := by
    rw [hB]
    exact (hP.submatrix _).add (PosSemidef.diagonal fun i => sq_nonneg _)
  let M := setBlock (setBlock (ofArray6 cov) 0 0 A) 3 3 B
  have hM1 : (rowMajor6 (toArray6 M)).submatrix (lo3) (lo3) = A := by
    rw [rowMajor6_toArray6, ← psd_transpose_eq hAp]
    ext r c
    simp [M, setBlock]
  have hM2 : (rowMajor6 (toArray6 M)).submatrix (hi3) (hi3) = B := by
    rw [rowMajor6_toArray6, ← psd_transpose_eq hBp]
    ext r c
    simp [M, setBlock]
  refine ⟨toArray6 M, ?_, hM1.trans hA, hM2.trans hB, hM1.symm ▸ hAp, hM2.symm ▸ hBp, ?_, ?_⟩
  · simp only [getTwistCovariance, getVelocityAttitudeCovariance, h1, h2, h3, Option.bind_eq_bind,
      Option.bind_some]
    rfl
  · intro r c
    rw [rowMajor6_toArray6, ← ofArray6_apply]
    simp [M, setBlock]
  · intro r c
    rw [rowMajor6_toArray6, ← ofArray6_apply]
    simp [M, setBlock]

/-- The hypotheses hold for the pose filter with unit covariance. -/
example : (∀ i (hi : i < (coreDef poseAux).length), (coreDef poseAux)[i].name = i) ∧
    15 ≤ total errLen (coreDef poseAux) ∧ (1 : ErrMat ℝ (coreDef poseAux)).PosSemidef :=
  ⟨poseDef_ok.1, by decide, PosSemidef.one⟩

end MSF
