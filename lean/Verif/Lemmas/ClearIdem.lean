import Verif.Model.Relative

/-! Clearing cross covariances twice is clearing them once. -/

namespace MSF
variable {D : List VarDesc}

/-- Sets the entries selected by `m` to zero. -/
def maskWith {k : Nat} (m : Fin k → Fin k → Bool) (P : Matrix (Fin k) (Fin k) ℝ) :
    Matrix (Fin k) (Fin k) ℝ := Matrix.of fun r c => if m r c then 0 else P r c

/-- `f` sets certain entries to zero, or fails always. -/
def Masks {k : Nat} (f : Matrix (Fin k) (Fin k) ℝ → Option (Matrix (Fin k) (Fin k) ℝ)) : Prop :=
  (∀ P, f P = none) ∨ ∃ m : Fin k → Fin k → Bool, ∀ P, f P = some (maskWith m P)

theorem maskWith_maskWith {k : Nat} (m n : Fin k → Fin k → Bool) (P : Matrix (Fin k) (Fin k) ℝ) :
    maskWith n (maskWith m P) = maskWith (fun r c => m r c || n r c) P := by
  ext r c
  simp only [maskWith, Matrix.of_apply]
  by_cases h1 : m r c <;> by_cases h2 : n r c <;> simp [h1, h2]

theorem Masks.comp {k : Nat} {f g : Matrix (Fin k) (Fin k) ℝ → Option (Matrix (Fin k) (Fin k) ℝ)}
    (hf : Masks f) (hg : Masks g) : Masks fun P => f P >>= g := by
  rcases hf with hf | ⟨m, hf⟩
  · exact .inl fun P => by simp [hf]
  · rcases hg with hg | ⟨n, hg⟩
    · exact .inl fun P => by simp [hf, hg]
    · exact .inr ⟨fun r c => m r c || n r c, fun P => by simp [hf, hg, maskWith_maskWith]⟩

theorem Masks.idem {k : Nat} {f : Matrix (Fin k) (Fin k) ℝ → Option (Matrix (Fin k) (Fin k) ℝ)}
    (hf : Masks f) (P : Matrix (Fin k) (Fin k) ℝ) : (f P >>= f) = f P := by
  rcases hf with hf | ⟨m, hf⟩
  · simp [hf]
  · simp [hf, maskWith_maskWith]

theorem maskWith_false {k : Nat} (P : Matrix (Fin k) (Fin k) ℝ) : maskWith (fun _ _ => false) P = P := by
  ext r c
  simp [maskWith]

theorem clearCrossCov_masks (i : Nat) : Masks fun P : ErrMat ℝ D => clearCrossCov P i := by
  unfold clearCrossCov
  cases D[i]? with
  | none => exact .inl fun _ => rfl
  | some d =>
    cases hs : startIndex errLen D d with
    | none => exact .inl fun P => by simp [hs]
    | some start =>
      by_cases h : 0 ≤ start ∧ start.toNat + errLen d ≤ total errLen D
      · obtain ⟨s, rfl⟩ := Int.eq_ofNat_of_zero_le h.1
        refine .inr ⟨fun r c => xor (decide (s ≤ r.val ∧ r.val < s + errLen d))
          (decide (s ≤ c.val ∧ c.val < s + errLen d)), fun P => ?_⟩
        simp only [Option.bind_eq_bind, Option.bind_some, hs, dif_pos h]
        congr 1
        ext r c
        simp only [maskWith, setBlock, getBlock, Matrix.of_apply, Matrix.zero_apply, Nat.zero_le, true_and,
          Int.toNat_natCast, Nat.zero_add]
        have hr := r.isLt
        have hc := c.isLt
        by_cases h1 : s ≤ r.val ∧ r.val < s + errLen d <;>
          by_cases h2 : s ≤ c.val ∧ c.val < s + errLen d <;>
          simp [h1, h2]
      · exact .inl fun P => by simp [hs, h]

theorem clearFixed_masks (fixed : Nat) (is : List Nat) : Masks fun P : ErrMat ℝ D => clearFixed fixed is P := by
  unfold clearFixed
  induction is with
  | nil => exact .inr ⟨fun _ _ => false, fun P => congrArg some (maskWith_false P).symm⟩
  | cons i is ih =>
    refine Masks.comp (f := fun P : ErrMat ℝ D => if fixed.testBit i then clearCrossCov P i else some P) ?_ ih
    cases fixed.testBit i with
    | true => exact clearCrossCov_masks i
    | false => exact .inr ⟨fun _ _ => false, fun P => congrArg some (maskWith_false P).symm⟩

/-- `CalculateH` for the older and the newer state, if they are the same object. -/
theorem Reading.clearP_idem {aux : List VarDesc} (m : Reading) (P : Option (ErrMat ℝ (coreDef aux))) :
    m.clearP (m.clearP P) = m.clearP P := by
  cases P with
  | none => rfl
  | some P => exact (clearFixed_masks _ _).idem P

end MSF
