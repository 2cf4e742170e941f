import Verif.Lemmas.Predict

/-!
# The entries of `Fd` and `Qd` after a prediction
-/

namespace MSF

open Matrix CalcQ

/-! ### Entries assigned by `CalcQCore` -/

section
variable {R : Type} [Field R]

omit [Field R] in
theorem foldl_applyWrite {n : Nat} (s : Blk → Nat) (hs : ∀ b, s b = 3 * b.idx.val)
    (ws : List (Write R)) (Q : Matrix (Fin n) (Fin n) R) (r c : Fin n) :
    ws.foldl (applyWrite s) Q r c =
      ((ws.reverse.find? fun w => decide (r.val = 3 * w.r.idx.val + w.i ∧
        c.val = 3 * w.c.idx.val + w.j)).map Write.val).getD (Q r c) := by
  induction ws generalizing Q with
  | nil => rfl
  | cons w ws ih =>
    rw [List.foldl_cons, ih, List.reverse_cons, List.find?_append]
    cases hf : List.find? (fun w => decide (r.val = 3 * w.r.idx.val + w.i ∧
        c.val = 3 * w.c.idx.val + w.j)) ws.reverse with
    | some w' => simp
    | none =>
      by_cases h : r.val = 3 * w.r.idx.val + w.i ∧ c.val = 3 * w.c.idx.val + w.j
      · simp [applyWrite, hs, h]
      · rw [List.find?_cons_of_neg (by simpa using h)]
        simp only [List.find?_nil, Option.or_none, Option.map_none, Option.getD_none, applyWrite,
          of_apply, hs]
        rw [if_neg h]

theorem coreOffset (aux : List VarDesc) (k : Fin 5) :
    offset errLen (coreDef aux) k = 3 * k.val := by
  match k with
  | 0 => rfl
  | 1 => rfl
  | 2 => rfl
  | 3 => rfl
  | 4 => rfl

theorem coreStarts_eq (aux : List VarDesc) (hi : indexingErrors (coreDef aux) = 0) :
    ∃ s, coreStarts (coreDef aux) = some s ∧ ∀ b, (s b).val = 3 * b.idx.val := by
  have hl : ∀ k : Nat, k < 5 → k < (coreDef aux).length := by
    intro k hk
    simp [coreDef, coreDescs]
    omega
  obtain ⟨p, hp, hp'⟩ := start3_get hi 0 (hl 0 (by omega)) rfl
  obtain ⟨v, hv, hv'⟩ := start3_get hi 1 (hl 1 (by omega)) rfl
  obtain ⟨q, hq, hq'⟩ := start3_get hi 2 (hl 2 (by omega)) rfl
  obtain ⟨bw, hbw, hbw'⟩ := start3_get hi 3 (hl 3 (by omega)) rfl
  obtain ⟨ba, hba, hba'⟩ := start3_get hi 4 (hl 4 (by omega)) rfl
  refine ⟨_, by simp only [coreStarts, hp, hv, hq, hbw, hba, Option.bind_eq_bind,
    Option.bind_some]; rfl, ?_⟩
  intro b
  cases b
  · exact hp'
  · exact hv'
  · exact hq'
  · exact hbw'
  · exact hba'

/-- The entries of `Qd` after `CalcQCore`. -/
theorem calcQCore_apply (aux : List VarDesc) (hi : indexingErrors (coreDef aux) = 0)
    (i : In R) (Q : ErrMat R (coreDef aux)) :
    ∃ Q', calcQCore i Q = some Q' ∧ ∀ r c, Q' r c = (lookup i r c).getD (Q r c) := by
  obtain ⟨s, hs, hs'⟩ := coreStarts_eq aux hi
  refine ⟨(writes i).foldl (applyWrite fun b => (s b).val) Q, ?_, ?_⟩
  · simp only [calcQCore, hs, Option.bind_eq_bind, Option.bind_some]
  · intro r c
    rw [foldl_applyWrite _ hs']
    rfl

/-- Which entries are assigned does not depend on the input. -/
theorem lookup_isSome (i i' : In R) (r c : Nat) : (lookup i r c).isSome = (lookup i' r c).isSome := by
  have key : ∀ (l l' : List (Write R)),
      l.map (fun w => (w.r, w.i, w.c, w.j)) = l'.map (fun w => (w.r, w.i, w.c, w.j)) →
      (l.find? fun w => decide (r = 3 * w.r.idx.val + w.i ∧ c = 3 * w.c.idx.val + w.j)).isSome =
      (l'.find? fun w => decide (r = 3 * w.r.idx.val + w.i ∧ c = 3 * w.c.idx.val + w.j)).isSome := by
    intro l
    induction l with
    | nil => intro l' h; cases l' with
      | nil => rfl
      | cons w l' => simp at h
    | cons w l ih =>
      intro l' h
      cases l' with
      | nil => simp at h
      | cons w' l' =>
        simp only [List.map_cons, List.cons.injEq, Prod.mk.injEq] at h
        obtain ⟨⟨h1, h2, h3, h4⟩, h5⟩ := h
        rw [List.find?_cons, List.find?_cons, h1, h2, h3, h4]
        split
        · rfl
        · exact ih l' h5
  rw [lookup, lookup, Option.isSome_map, Option.isSome_map]
  refine key _ _ ?_
  rw [List.map_reverse, List.map_reverse]
  rfl

/-- Entries outside the core block are not assigned. -/
theorem lookup_core (i : In R) (r c : Nat) (h : (lookup i r c).isSome) : r < 15 ∧ c < 15 := by
  rw [lookup, Option.isSome_map, List.find?_isSome] at h
  obtain ⟨w, -, hw⟩ := h
  rw [decide_eq_true_eq] at hw
  have h1 := w.r.idx.2
  have h2 := w.c.idx.2
  have h3 := w.i.2
  have h4 := w.j.2
  omega
end

/-! ### Noise of the auxiliary states -/

section
variable {R : Type} {D : List VarDesc}

/-- Variables whose `Q` block is copied to `Qd`. -/
def VarDesc.isAux (d : VarDesc) : Prop := d.stype ≠ .coreProp ∧ d.stype ≠ .coreNoProp

instance (d : VarDesc) : Decidable d.isAux := by unfold VarDesc.isAux; infer_instance

/-- Error index `k` lies in the range of variable `i`. -/
def InVar (D : List VarDesc) (i : Fin D.length) (k : Fin (total errLen D)) : Prop :=
  offset errLen D i ≤ k ∧ k < offset errLen D i + (D.get i).kind.errLen

instance (i : Fin D.length) (k : Fin (total errLen D)) : Decidable (InVar D i k) := by
  unfold InVar; infer_instance

theorem inVar_unique {i j : Fin D.length} {k : Fin (total errLen D)} (h : InVar D i k)
    (h' : InVar D j k) : i = j :=
  Fin.ext (owner_unique errLen k i.2 j.2 h.1 h.2 h'.1 h'.2)

theorem exists_inVar (k : Fin (total errLen D)) : ∃ i, InVar D i k := by
  obtain ⟨i, h, h1, h2⟩ := exists_owner (D := D) errLen k k.2
  exact ⟨⟨i, h⟩, h1, h2⟩

theorem copyQBlock_eq (hi : indexingErrors D = 0) (s : Vars R D) (Q : ErrMat R D)
    (i : Fin D.length) :
    copyQBlock s Q i = some (if (D.get i).isAux then
      setBlock Q (offset errLen D i) (offset errLen D i) (s i).Q else Q) := by
  have hs : startIndex errLen D (D.get i) = some (offset errLen D i : Int) :=
    startIndex_get errLen hi i i.2
  have hle : offset errLen D i + (D.get i).kind.errLen ≤ total errLen D :=
    offset_add_len_le errLen i i.2
  unfold copyQBlock
  split
  · rename_i h
    rw [if_neg fun h' => h'.1 h]
  · rename_i h
    rw [if_neg fun h' => h'.2 h]
  · rename_i h1 h2
    rw [if_pos ⟨h1, h2⟩]
    simp only [hs, Option.bind_eq_bind, Option.bind_some]
    rw [if_pos ⟨by omega, by simpa using hle⟩]
    rfl

/-- The entries after copying: the blocks of the listed auxiliary variables are replaced. -/
theorem copyQ_fold (hi : indexingErrors D = 0) (s : Vars R D) (l : List (Fin D.length))
    (Q : ErrMat R D) :
    ∃ Q', l.foldlM (copyQBlock s) Q = some Q' ∧ ∀ r c,
      (∀ i ∈ l, (D.get i).isAux → ∀ (hr : InVar D i r) (hc : InVar D i c),
        Q' r c = (s i).Q ⟨r - offset errLen D i, by have := hr.1; have := hr.2; omega⟩
          ⟨c - offset errLen D i, by have := hc.1; have := hc.2; omega⟩) ∧
      ((∀ i ∈ l, (D.get i).isAux → ¬ (InVar D i r ∧ InVar D i c)) → Q' r c = Q r c) := by
  induction l generalizing Q with
  | nil => exact ⟨Q, rfl, fun r c => ⟨fun i h => by simp at h, fun _ => rfl⟩⟩
  | cons i l ih =>
    obtain ⟨Q', hQ', h⟩ := ih (if (D.get i).isAux then
      setBlock Q (offset errLen D i) (offset errLen D i) (s i).Q else Q)
    refine ⟨Q', ?_, fun r c => ⟨?_, ?_⟩⟩
    · rw [List.foldlM_cons, copyQBlock_eq hi]
      exact hQ'
    · intro j hj hja hr hc
      by_cases hjl : j ∈ l
      · exact (h r c).1 j hjl hja hr hc
      · have hji : j = i := by simpa [hjl] using hj
        subst hji
        rw [(h r c).2 ?_, if_pos hja, setBlock, of_apply, dif_pos ⟨hr, hc⟩]
        intro k hk hka hkk
        rw [inVar_unique hkk.1 hr] at hk
        exact hjl hk
    · intro hno
      rw [(h r c).2 fun j hj => hno j (List.mem_cons_of_mem _ hj)]
      by_cases ha : (D.get i).isAux
      · rw [if_pos ha, setBlock, of_apply, dif_neg]
        exact hno i List.mem_cons_self ha
      · rw [if_neg ha]

theorem copyQBlocks_apply (hi : indexingErrors D = 0) (s : Vars R D) (Q : ErrMat R D) :
    ∃ Q', copyQBlocks s Q = some Q' ∧ ∀ r c,
      (∀ i, (D.get i).isAux → ∀ (hr : InVar D i r) (hc : InVar D i c),
        Q' r c = (s i).Q ⟨r - offset errLen D i, by have := hr.1; have := hr.2; omega⟩
          ⟨c - offset errLen D i, by have := hc.1; have := hc.2; omega⟩) ∧
      ((∀ i, (D.get i).isAux → ¬ (InVar D i r ∧ InVar D i c)) → Q' r c = Q r c) := by
  obtain ⟨Q', h, h'⟩ := copyQ_fold hi s (List.finRange D.length) Q
  exact ⟨Q', h, fun r c => ⟨fun i => (h' r c).1 i (List.mem_finRange i),
    fun hno => (h' r c).2 fun i _ => hno i⟩⟩

/-- Core variables are not auxiliary and occupy the first fifteen indices. -/
theorem aux_inVar_ge {aux : List VarDesc} (i : Fin (coreDef aux).length)
    (h : ((coreDef aux).get i).isAux) (k : Fin (total errLen (coreDef aux)))
    (hk : InVar (coreDef aux) i k) : 15 ≤ k.val := by
  have h5 : 5 ≤ i.val := by
    by_contra hlt
    have : ∀ j : Fin 5, ¬ ((coreDef aux)[j.val]'(by simp [coreDef, coreDescs]; omega)).isAux := by
      intro j
      match j with
      | 0 => exact fun h => h.1 rfl
      | 1 => exact fun h => h.1 rfl
      | 2 => exact fun h => h.1 rfl
      | 3 => exact fun h => h.2 rfl
      | 4 => exact fun h => h.2 rfl
    exact this ⟨i, by omega⟩ h
  have : offset errLen (coreDef aux) 5 = 15 := rfl
  have h2 := offset_mono (D := coreDef aux) errLen h5
  have := hk.1
  omega

/-- `E B Eᵀ` for the embedding `f`. -/
theorem embed_psd {m : Type} [Fintype m] [DecidableEq m] {n : Nat} (f : m → Fin n)
    (hf : Function.Injective f) (B : Matrix m m ℝ) (hB : B.PosSemidef) :
    ∃ M : Matrix (Fin n) (Fin n) ℝ, M.PosSemidef ∧ (∀ j k, M (f j) (f k) = B j k) ∧
      (∀ r c, r ∉ Set.range f ∨ c ∉ Set.range f → M r c = 0) := by
  let E : Matrix (Fin n) m ℝ := Matrix.of fun r j => if f j = r then 1 else 0
  refine ⟨E * B * Eᵀ, psd_congr hB E, ?_, ?_⟩
  · intro j k
    simp [E, mul_apply, hf.eq_iff]
  · intro r c h
    rw [mul_apply]
    refine Finset.sum_eq_zero fun x _ => ?_
    rw [transpose_apply]
    rcases h with h | h
    · rw [mul_apply, Finset.sum_eq_zero, zero_mul]
      intro y _
      have : ¬ f y = r := fun e => h ⟨y, e⟩
      simp [E, this]
    · have : ¬ f x = c := fun e => h ⟨x, e⟩
      simp [E, this]

end

/-! ### The transition matrix -/

section
variable {R : Type} [Field R]

omit [Field R] in
/-- Whether `setBlock` assigns an entry does not depend on the block, and what it assigns does not
depend on the matrix. -/
theorem setBlock_cases {n a b : Nat} (i j : Nat) (r c : Fin n) :
    (∀ (M : Matrix (Fin n) (Fin n) R) (B : Matrix (Fin a) (Fin b) R), setBlock M i j B r c = M r c) ∨
    (∀ (M N : Matrix (Fin n) (Fin n) R) (B : Matrix (Fin a) (Fin b) R),
      setBlock M i j B r c = setBlock N i j B r c) := by
  by_cases h : (i ≤ r.val ∧ r.val < i + a) ∧ (j ≤ c.val ∧ c.val < j + b)
  · exact Or.inr fun M N B => by simp only [setBlock, of_apply, dif_pos h]
  · exact Or.inl fun M B => by simp only [setBlock, of_apply, dif_neg h]

omit [Field R] in
theorem setBlock_congr {n a b : Nat} (i j : Nat) (r c : Fin n) (M N : Matrix (Fin n) (Fin n) R)
    (B : Matrix (Fin a) (Fin b) R) (h : M r c = N r c) :
    setBlock M i j B r c = setBlock N i j B r c := by
  simp only [setBlock, of_apply, h]

/-- A second assignment of the blocks of `Fd` overwrites the first. -/
theorem setFd_setFd {n : Nat} (s : Blk → Nat) (Fd : Matrix (Fin n) (Fin n) R) (C C' : M33 R)
    (w w' a a' : V3 R) (dt dt' : R) :
    setFd s (setFd s Fd C w a dt) C' w' a' dt' = setFd s Fd C' w' a' dt' := by
  have key : ∀ (r c : Fin n) (l : List (Nat × Nat)),
      (∀ (M : Matrix (Fin n) (Fin n) R) (B : List (M33 R)),
        ((l.zip B).foldl (fun M p => setBlock M p.1.1 p.1.2 p.2) M) r c = M r c) ∨
      (∀ (M N : Matrix (Fin n) (Fin n) R) (B : List (M33 R)), B.length = l.length →
        ((l.zip B).foldl (fun M p => setBlock M p.1.1 p.1.2 p.2) M) r c =
        ((l.zip B).foldl (fun M p => setBlock M p.1.1 p.1.2 p.2) N) r c) := by
    intro r c l
    have cong : ∀ (l : List ((Nat × Nat) × M33 R)) (M N : Matrix (Fin n) (Fin n) R),
        M r c = N r c → l.foldl (fun M p => setBlock M p.1.1 p.1.2 p.2) M r c =
          l.foldl (fun M p => setBlock M p.1.1 p.1.2 p.2) N r c := by
      intro l
      induction l with
      | nil => exact fun M N h => h
      | cons p l ih => exact fun M N h => ih _ _ (setBlock_congr _ _ _ _ _ _ _ h)
    induction l with
    | nil => exact Or.inl fun M B => rfl
    | cons p l ih =>
      rcases setBlock_cases (R := R) (a := 3) (b := 3) p.1 p.2 r c with h | h
      · rcases ih with ih | ih
        · refine Or.inl fun M B => ?_
          cases B with
          | nil => rfl
          | cons b B => simp only [List.zip_cons_cons, List.foldl_cons, ih, h]
        · refine Or.inr fun M N B hB => ?_
          cases B with
          | nil => simp at hB
          | cons b B => exact ih _ _ _ (by simpa using hB)
      · refine Or.inr fun M N B hB => ?_
        cases B with
        | nil => simp at hB
        | cons b B => exact cong (l.zip B) _ _ (h M N b)
  let l : List (Nat × Nat) := [(s .p, s .v), (s .p, s .q), (s .p, s .b_w), (s .p, s .b_a),
    (s .v, s .q), (s .v, s .b_w), (s .v, s .b_a), (s .q, s .q), (s .q, s .b_w)]
  let B : M33 R → V3 R → V3 R → R → List (M33 R) := fun C w a dt =>
    let f := fdBlocks C w a dt
    [dt • (1 : M33 R), f.A, f.B, (dt * dt * (1 / 2)) • (-C), f.C, f.D, dt • (-C), f.E, f.F]
  have e : ∀ (M : Matrix (Fin n) (Fin n) R) C w a dt,
      setFd s M C w a dt = (l.zip (B C w a dt)).foldl (fun M p => setBlock M p.1.1 p.1.2 p.2) M :=
    fun M C w a dt => rfl
  ext r c
  rw [e, e, e]
  rcases key r c l with h | h
  · rw [h, h, h]
  · exact h _ _ _ rfl

theorem core_le_total (aux : List VarDesc) : 15 ≤ total errLen (coreDef aux) := by
  simp [coreDef, coreDescs, total, errLen, Kind.errLen]
  omega

/-- A 3x3 block of the core part of a matrix on the error state. -/
def coreBlock {aux : List VarDesc} (M : ErrMat R (coreDef aux)) (b b' : Fin 5) : M33 R :=
  Matrix.of fun i j => M ⟨3 * b + i, by have := core_le_total aux; omega⟩
    ⟨3 * b' + j, by have := core_le_total aux; omega⟩

omit [Field R] in
theorem coreBlock_setBlock {aux : List VarDesc} (M : ErrMat R (coreDef aux)) (a a' b b' : Fin 5)
    (B : M33 R) : coreBlock (setBlock M (3 * a) (3 * a') B) b b' =
      if b = a ∧ b' = a' then B else coreBlock M b b' := by
  ext i j
  have hi := i.2
  have hj := j.2
  by_cases h : b = a ∧ b' = a'
  · rw [if_pos h]
    obtain ⟨rfl, rfl⟩ := h
    simp only [coreBlock, setBlock, of_apply]
    rw [dif_pos ⟨⟨by omega, by omega⟩, ⟨by omega, by omega⟩⟩]
    congr 1 <;> exact Fin.ext (by simp)
  · simp only [coreBlock, setBlock, of_apply, if_neg h]
    rw [dif_neg]
    rintro ⟨⟨h1, h2⟩, h3, h4⟩
    exact h ⟨Fin.ext (by omega), Fin.ext (by omega)⟩

/-- The core blocks of `Fd`. -/
theorem coreBlock_setFd {aux : List VarDesc} (s : Blk → Nat) (hs : ∀ b, s b = 3 * b.idx.val)
    (Fd : ErrMat R (coreDef aux)) (C : M33 R) (w a : V3 R) (dt : R) (b b' : Fin 5) :
    coreBlock (setFd s Fd C w a dt) b b' =
      if b = 2 ∧ b' = 3 then (fdBlocks C w a dt).F else
      if b = 2 ∧ b' = 2 then (fdBlocks C w a dt).E else
      if b = 1 ∧ b' = 4 then dt • (-C) else
      if b = 1 ∧ b' = 3 then (fdBlocks C w a dt).D else
      if b = 1 ∧ b' = 2 then (fdBlocks C w a dt).C else
      if b = 0 ∧ b' = 4 then (dt * dt * (1 / 2)) • (-C) else
      if b = 0 ∧ b' = 3 then (fdBlocks C w a dt).B else
      if b = 0 ∧ b' = 2 then (fdBlocks C w a dt).A else
      if b = 0 ∧ b' = 1 then dt • (1 : M33 R) else coreBlock Fd b b' := by
  have hp : s .p = 3 * (0 : Fin 5).val := hs _
  have hv : s .v = 3 * (1 : Fin 5).val := hs _
  have hq : s .q = 3 * (2 : Fin 5).val := hs _
  have hbw : s .b_w = 3 * (3 : Fin 5).val := hs _
  have hba : s .b_a = 3 * (4 : Fin 5).val := hs _
  simp only [setFd, hp, hv, hq, hbw, hba, coreBlock_setBlock]

/-- Outside the core `Fd` is not changed. -/
theorem setFd_outside {n : Nat} (s : Blk → Nat) (hs : ∀ b, s b = 3 * b.idx.val)
    (Fd : Matrix (Fin n) (Fin n) R) (C : M33 R) (w a : V3 R) (dt : R) (r c : Fin n)
    (h : 15 ≤ r.val ∨ 15 ≤ c.val) : setFd s Fd C w a dt r c = Fd r c := by
  have key : ∀ (M : Matrix (Fin n) (Fin n) R) (b b' : Blk) (B : M33 R),
      setBlock M (s b) (s b') B r c = M r c := by
    intro M b b' B
    simp only [setBlock, of_apply]
    rw [dif_neg]
    rintro ⟨⟨-, h2⟩, -, h4⟩
    rw [hs] at h2 h4
    have := b.idx.2
    have := b'.idx.2
    omega
  simp only [setFd, key]

/-! ### The whole prediction -/

/-- What a prediction over a positive time does. -/
theorem predict_apply [LinearOrder R] {aux : List VarDesc} (hi : indexingErrors (coreDef aux) = 0)
    (np : NoiseParams R (coreDef aux)) (old new : EKFState R (coreDef aux)) (timeP : R)
    (hdt : ¬ new.time - old.time ≤ 0) :
    ∃ Qd, predictProcessCovariance np old new timeP =
      some ({ old with
        Fd := setFd (fun b => 3 * b.idx.val) old.Fd (EKFState.q new.vars).toRot
          (new.w_m - EKFState.b_w new.vars) (new.a_m - EKFState.b_a new.vars) (new.time - old.time)
        Qd := Qd },
        { new with
          vars := np.qAux new.vars (new.time - old.time)
          P := setFd (fun b => 3 * b.idx.val) old.Fd (EKFState.q new.vars).toRot
            (new.w_m - EKFState.b_w new.vars) (new.a_m - EKFState.b_a new.vars)
            (new.time - old.time) * old.P *
            (setFd (fun b => 3 * b.idx.val) old.Fd (EKFState.q new.vars).toRot
              (new.w_m - EKFState.b_w new.vars) (new.a_m - EKFState.b_a new.vars)
              (new.time - old.time))ᵀ + Qd }, new.time) ∧
      ∀ r c,
        (∀ i, ((coreDef aux).get i).isAux → ∀ (hr : InVar (coreDef aux) i r)
          (hc : InVar (coreDef aux) i c), Qd r c =
            (np.qAux new.vars (new.time - old.time) i).Q
              ⟨r - offset errLen (coreDef aux) i, by have := hr.1; have := hr.2; omega⟩
              ⟨c - offset errLen (coreDef aux) i, by have := hc.1; have := hc.2; omega⟩) ∧
        ((∀ i, ((coreDef aux).get i).isAux →
            ¬ (InVar (coreDef aux) i r ∧ InVar (coreDef aux) i c)) →
          Qd r c = (lookup (mkIn (new.time - old.time) (EKFState.q new.vars)
            (new.w_m - EKFState.b_w new.vars) (new.a_m - EKFState.b_a new.vars)
            (fun _ => np.acc) (fun _ => np.accBias) (fun _ => np.gyr) (fun _ => np.gyrBias))
            r c).getD (old.Qd r c)) := by
  obtain ⟨s, hs, hs'⟩ := coreStarts_eq aux hi
  obtain ⟨Q1, h1, h1'⟩ := calcQCore_apply aux hi (mkIn (new.time - old.time)
    (EKFState.q new.vars) (new.w_m - EKFState.b_w new.vars) (new.a_m - EKFState.b_a new.vars)
    (fun _ => np.acc) (fun _ => np.accBias) (fun _ => np.gyr) (fun _ => np.gyrBias)) old.Qd
  obtain ⟨Q2, h2, h2'⟩ := copyQBlocks_apply hi (np.qAux new.vars (new.time - old.time)) Q1
  have hsf : (fun b => (s b).val) = fun b => 3 * b.idx.val := funext hs'
  refine ⟨Q2, ?_, fun r c => ⟨(h2' r c).1, fun hno => ?_⟩⟩
  · simp only [predictProcessCovariance, if_neg hdt, hs, h1, h2, Option.bind_eq_bind,
      Option.bind_some, hsf]
  · rw [(h2' r c).2 hno, h1']

end
end MSF
