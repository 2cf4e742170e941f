import Verif.Props.CovBlocks
import Verif.Props.Jacobian
import Verif.Props.Propagation
import Verif.Props.InitMotion

/-!
# Helper lemmas for fixed states (C78)
-/

namespace MSF

open Matrix

section
variable {D : List VarDesc}

/-- The value of variable `i` read from `s'` is the one read from `s`. -/
def Keeps (i : Nat) (s s' : Vars ℝ D) : Prop :=
  (∀ n u, getVec s i n = some u → getVec s' i n = some u) ∧
  ∀ u, getQuat s i = some u → getQuat s' i = some u

theorem Keeps.rfl' {i : Nat} (s : Vars ℝ D) : Keeps i s s := ⟨fun _ _ h => h, fun _ h => h⟩

theorem Keeps.trans {i : Nat} {a b c : Vars ℝ D} (h : Keeps i a b) (h' : Keeps i b c) :
    Keeps i a c :=
  ⟨fun n u e => h'.1 n u (h.1 n u e), fun u e => h'.2 u (h.2 u e)⟩

theorem Keeps.of_eq {i : Nat} {s s' : Vars ℝ D} (h : ∀ hi : i < D.length, s' ⟨i, hi⟩ = s ⟨i, hi⟩) :
    Keeps i s s' := by
  constructor
  · intro n u e
    unfold getVec at e ⊢
    split at e
    · rename_i hi
      rw [dif_pos hi, h hi]; exact e
    · cases e
  · intro u e
    unfold getQuat at e ⊢
    split at e
    · rename_i hi
      rw [dif_pos hi, h hi]; exact e
    · cases e

theorem Owns.disjoint (h : indexingErrors D = 0) {i j : Fin D.length} (hij : i ≠ j)
    {k : Fin (total errLen D)} (hi : Owns D i k) (hj : Owns D j k) : False := by
  rw [owns_iff h] at hi hj
  have s1 := offset_succ (D := D) errLen i i.2
  have s2 := offset_succ (D := D) errLen j j.2
  have e1 : errLen (D.get i) = errLen D[i.val] := rfl
  have e2 : errLen (D.get j) = errLen D[j.val] := rfl
  rcases Nat.lt_or_gt_of_ne (fun e => hij (Fin.ext e)) with hlt | hlt
  · have := offset_mono (D := D) errLen (show i.val + 1 ≤ j.val from hlt)
    omega
  · have := offset_mono (D := D) errLen (show j.val + 1 ≤ i.val from hlt)
    omega

/-- The segment of one variable of a vector that is zero there. -/
theorem segOf_eq_zero (h : indexingErrors D = 0) (i : Fin D.length) (n : Nat)
    (hn : n = errLen (D.get i)) (c : Fin (total errLen D) → ℝ) (hc : ∀ k, Owns D i k → c k = 0) :
    segOf c i n = 0 := by
  funext j
  have hj := j.2
  simp only [segOf, segD]
  split
  · rename_i hlt
    exact hc _ ((owns_iff h i _).2 ⟨by simp, by simp only; omega⟩)
  · rfl

/-- The segment of a unit vector outside the variable it belongs to. -/
theorem segOf_single (h : indexingErrors D = 0) (i j : Fin D.length) (hij : j ≠ i) (n : Nat)
    (hn : n = errLen (D.get j)) (k : Fin (total errLen D)) (hk : Owns D i k) :
    segOf (Pi.single k 1 : Fin (total errLen D) → ℝ) j n = 0 := by
  refine segOf_eq_zero h j n hn _ fun l hl => ?_
  rw [Pi.single_apply, if_neg]
  rintro rfl
  exact Owns.disjoint h hij hl hk

/-- What clearing the cross covariances of the fixed variables does to the covariance. -/
theorem clearFixed_spec2 (h : ∀ i (hi : i < D.length), D[i].name = i) (fixed : Nat)
    (is : List Nat) (hl : ∀ i ∈ is, i < D.length) :
    ∀ P : ErrMat ℝ D, ∃ P', clearFixed fixed is P = some P' ∧
      (∀ r c, P' r c = P r c ∨ P' r c = 0) ∧
      ∀ i (hi : i < D.length), i ∈ is → fixed.testBit i = true →
        ∀ r c, Owns D ⟨i, hi⟩ r → ¬ Owns D ⟨i, hi⟩ c → P' r c = 0 ∧ P' c r = 0 := by
  induction is with
  | nil =>
    intro P
    exact ⟨P, rfl, fun _ _ => Or.inl rfl, fun _ _ hm => by simp at hm⟩
  | cons a l ih =>
    intro P
    have hstep : ∃ P1 : ErrMat ℝ D, (if fixed.testBit a = true then clearCrossCov P a else some P) = some P1 ∧
        (∀ r c, P1 r c = P r c ∨ P1 r c = 0) ∧
        (fixed.testBit a = true → ∀ (hi : a < D.length) r c, Owns D ⟨a, hi⟩ r → ¬ Owns D ⟨a, hi⟩ c →
          P1 r c = 0 ∧ P1 c r = 0) := by
      by_cases hf : fixed.testBit a = true
      · obtain ⟨P1, e, h1, h2, h3, -⟩ := C38_clear_cross_cov P ⟨a, hl a (by simp)⟩ h
        refine ⟨P1, by rw [if_pos hf]; exact e, fun r c => ?_, fun _ hi r c hr hc => h3 r c hr hc⟩
        by_cases hr : Owns D ⟨a, hl a (by simp)⟩ r <;> by_cases hc : Owns D ⟨a, hl a (by simp)⟩ c
        · exact Or.inl (h1 r c hr hc)
        · exact Or.inr (h3 r c hr hc).1
        · exact Or.inr (h3 c r hc hr).2
        · exact Or.inl (h2 r c hr hc)
      · exact ⟨P, if_neg hf, fun _ _ => Or.inl rfl, fun hh => absurd hh hf⟩
    obtain ⟨P1, e1, hv1, hz1⟩ := hstep
    obtain ⟨P2, e2, hv2, hz2⟩ := ih (fun i hi => hl i (by simp [hi])) P1
    refine ⟨P2, ?_, fun r c => ?_, fun i hi hm hf r c hr hc => ?_⟩
    · unfold clearFixed at e2 ⊢
      rw [List.foldlM_cons, e1]
      exact e2
    · rcases hv2 r c with e | e
      · rw [e]; exact hv1 r c
      · exact Or.inr e
    · by_cases hml : i ∈ l
      · exact hz2 i hi hml hf r c hr hc
      · have : i = a := by simpa [hml] using hm
        subst this
        obtain ⟨z1, z2⟩ := hz1 hf hi r c hr hc
        constructor
        · rcases hv2 r c with e | e
          · rw [e]; exact z1
          · exact e
        · rcases hv2 c r with e | e
          · rw [e]; exact z2
          · exact e

theorem clearFixed_spec (h : ∀ i (hi : i < D.length), D[i].name = i) (fixed : Nat)
    (is : List Nat) (hl : ∀ i ∈ is, i < D.length) :
    ∀ P : ErrMat ℝ D, ∃ P', clearFixed fixed is P = some P' ∧
      (∀ r c, P' r c = P r c ∨ P' r c = 0) ∧
      ∀ i (hi : i < D.length), i ∈ is → fixed.testBit i = true →
        ∀ r c, Owns D ⟨i, hi⟩ r → ¬ Owns D ⟨i, hi⟩ c → P' r c = 0 := by
  intro P
  obtain ⟨P', e, h1, h2⟩ := clearFixed_spec2 h fixed is hl P
  exact ⟨P', e, h1, fun i hi hm hf r c hr hc => (h2 i hi hm hf r c hr hc).1⟩

/-- A variable without cross terms that the measurement does not see is not corrected.  The
covariance need not be symmetric. -/
theorem correction_zero {m : Type} [Fintype m] [DecidableEq m] (P : ErrMat ℝ D) (i : Fin D.length)
    (hz : ∀ r c, Owns D i r → ¬ Owns D i c → P r c = 0)
    (H : Matrix m (Fin (total errLen D)) ℝ) (hH : ∀ a k, Owns D i k → H a k = 0) (r : m → ℝ)
    (R : Matrix m m ℝ) (en : Bool) (thr : ℝ) (c : Fin (total errLen D) → ℝ) (P' : ErrMat ℝ D)
    (h : calculateCorrection en thr P H r R = some (some (c, P'))) (k : Fin (total errLen D))
    (hk : Owns D i k) : c k = 0 := by
  classical
  have hK : ∀ a, gain P H R k a = 0 := by
    intro a
    rw [gain, Matrix.mul_apply]
    refine Finset.sum_eq_zero fun b _ => ?_
    rw [Matrix.mul_apply, Finset.sum_eq_zero, zero_mul]
    intro l _
    rw [transpose_apply]
    by_cases hl : Owns D i l
    · rw [hH b l hl, mul_zero]
    · rw [hz k l hk hl, zero_mul]
  simp only [calculateCorrection] at h
  split at h
  · cases h
  split at h
  · cases h
  simp only [Option.some.injEq, Prod.mk.injEq] at h
  rw [← h.1]
  simp only [mulVec, dotProduct]
  exact Finset.sum_eq_zero fun a _ => by rw [hK a, zero_mul]

theorem accumulateF_row {k : Nat} (l : List (Matrix (Fin k) (Fin k) ℝ)) (a : Fin k)
    (h : ∀ F ∈ l, ∀ b, F a b = (1 : Matrix (Fin k) (Fin k) ℝ) a b) (b : Fin k) :
    accumulateF l a b = (1 : Matrix (Fin k) (Fin k) ℝ) a b := by
  unfold accumulateF
  have key : ∀ (l : List (Matrix (Fin k) (Fin k) ℝ)) (G : Matrix (Fin k) (Fin k) ℝ),
      (∀ b, G a b = (1 : Matrix (Fin k) (Fin k) ℝ) a b) →
      (∀ F ∈ l, ∀ b, F a b = (1 : Matrix (Fin k) (Fin k) ℝ) a b) →
      ∀ b, l.foldl (fun F Fd => F * Fd) G a b = (1 : Matrix (Fin k) (Fin k) ℝ) a b := by
    intro l
    induction l with
    | nil => intro G hG _; exact hG
    | cons F l ih =>
      intro G hG hl
      rw [List.foldl_cons]
      refine ih _ (fun b => ?_) fun F hF => hl F (by simp [hF])
      rw [Matrix.mul_apply]
      simp only [hG, ← Matrix.mul_apply, Matrix.one_mul]
      exact hl F (by simp) b
  exact key l 1 (fun _ => rfl) h b

/-- The same for a relative update, if the transition keeps the variable. -/
theorem correction_zero_relative {m : Type} [Fintype m] [DecidableEq m] (Po Pn F : ErrMat ℝ D)
    (i : Fin D.length) (ho : ∀ r c, Owns D i r → ¬ Owns D i c → Po r c = 0)
    (hn : ∀ r c, Owns D i r → ¬ Owns D i c → Pn r c = 0)
    (hF : ∀ r c, Owns D i r → F r c = (1 : ErrMat ℝ D) r c)
    (Ho Hn : Matrix m (Fin (total errLen D)) ℝ) (hHo : ∀ a k, Owns D i k → Ho a k = 0)
    (hHn : ∀ a k, Owns D i k → Hn a k = 0) (r : m → ℝ)
    (R : Matrix m m ℝ) (c : Fin (total errLen D) → ℝ) (P' : ErrMat ℝ D)
    (h : calculateCorrectionRelative Po Pn F Ho Hn r R = some (c, P')) (k : Fin (total errLen D))
    (hk : Owns D i k) : c k = 0 := by
  classical
  have hFP : ∀ l, (F * Po) k l = Po k l := by
    intro l
    rw [Matrix.mul_apply]
    simp only [hF k _ hk, ← Matrix.mul_apply, Matrix.one_mul]
  have hsum : ∀ (Q : ErrMat ℝ D) (Hm : Matrix m (Fin (total errLen D)) ℝ),
      (∀ l, ¬ Owns D i l → Q k l = 0) → (∀ a l, Owns D i l → Hm a l = 0) → ∀ b,
      ∑ l, Q k l * Hm b l = 0 := by
    intro Q Hm hQ hHm b
    refine Finset.sum_eq_zero fun l _ => ?_
    by_cases hl : Owns D i l
    · rw [hHm b l hl, mul_zero]
    · rw [hQ l hl, zero_mul]
  have hK : ∀ a, relGain Po Pn F Ho Hn R k a = 0 := by
    intro a
    simp only [relGain, toRows₂_apply]
    rw [Matrix.mul_apply]
    refine Finset.sum_eq_zero fun b _ => ?_
    rw [Matrix.mul_apply, Fintype.sum_sum_type]
    simp only [clonedCov, clonedH, fromBlocks_apply₂₁, fromBlocks_apply₂₂, transpose_apply,
      fromCols_apply_inl, fromCols_apply_inr, hFP]
    rw [hsum Po Ho (fun l hl => ho k l hk hl) hHo b, hsum Pn Hn (fun l hl => hn k l hk hl) hHn b,
      add_zero, zero_mul]
  simp only [calculateCorrectionRelative] at h
  split at h
  · cases h
  simp only [Option.some.injEq, Prod.mk.injEq] at h
  rw [← h.1]
  simp only [mulVec, dotProduct]
  exact Finset.sum_eq_zero fun a _ => by rw [hK a, zero_mul]

/-- A correction that is zero at a variable does not change its value. -/
theorem correct_keeps (s s' : Vars ℝ D) (c : Fin (total errLen D) → ℝ)
    (h : ∀ i (hi : i < D.length), D[i].name = i) (hp : PlainVars D) (hu : UnitQuats s)
    (i : Fin D.length) (hc : ∀ k, Owns D i k → c k = 0) (e : correct s c = some s') :
    Keeps i s s' := by
  have hi := indexingErrors_eq_zero.2 h
  obtain ⟨s1, e1, hv, hq⟩ := correct_reads s c h hp hu
  rw [e, Option.some.injEq] at e1
  subst e1
  constructor
  · intro n u hr
    obtain ⟨hl, hk⟩ := getVec_kind s hr
    rw [hv i n u hr, segOf_eq_zero hi i n _ c hc, add_zero]
    rw [errLen]
    have hk' : (D.get i).kind = .vec n := hk
    rw [hk']; rfl
  · intro u hr
    obtain ⟨hl, hk⟩ := getQuat_kind s hr
    rw [hq i u hr, segOf_eq_zero hi i 3 _ c hc, quatFromSmallAngle_zero, Quat.mul_one']
    rw [errLen]
    have hk' : (D.get i).kind = .quat := hk
    rw [hk']; rfl

end

/-- What is needed of the hooks of a manager to keep variable `i`. -/
structure UserCalc.Keeping {D : List VarDesc} (uc : UserCalc D) (ok : Vars ℝ D → Prop) (i : Nat) :
    Prop where
  augment : uc.augment = id
  sanity : ∀ a b c, ok b → Keeps i b a → Keeps i b (uc.sanity a b c)
  unit : ∀ a b c, UnitQuats a → UnitQuats (uc.sanity a b c)

theorem applyCorrection_keeps {aux : List VarDesc} {uc : UserCalc (coreDef aux)}
    {ok : Vars ℝ (coreDef aux) → Prop} {t t' : Tracker ℝ} {s s' : Vars ℝ (coreDef aux)}
    {c : Fin (total errLen (coreDef aux)) → ℝ} {fz : Bool}
    (h : ∀ i (hi : i < (coreDef aux).length), (coreDef aux)[i].name = i)
    (hp : PlainVars (coreDef aux)) (hu : UnitQuats s) (hok : ok s) (i : Fin (coreDef aux).length)
    (huc : uc.Keeping ok i) (hc : ∀ k, Owns (coreDef aux) i k → c k = 0)
    (e : applyCorrection uc t s c = some (t', s', fz)) : Keeps i s s' ∧ UnitQuats s' := by
  simp only [applyCorrection, Option.bind_eq_bind] at e
  obtain ⟨s1, hs1, e⟩ := Option.bind_eq_some_iff.1 e
  have hz : ∀ k, Owns (coreDef aux) i k →
      (if uc.fixedBias then zeroBias (uc.augment c) else uc.augment c) k = 0 := by
    intro k hk
    rw [huc.augment]
    split
    · simp only [zeroBias, id]
      split
      · rfl
      · split
        · rfl
        · exact hc k hk
    · exact hc k hk
  have hk1 := correct_keeps s s1 _ h hp hu i hz hs1
  have hu1 := C33_corrected_unit s s1 _ h hp.quats hu hs1
  have hk2 := huc.sanity s1 s (if uc.fixedBias then zeroBias (uc.augment c) else uc.augment c) hok
    hk1
  have hu2 := huc.unit s1 s (if uc.fixedBias then zeroBias (uc.augment c) else uc.augment c) hu1
  rcases fuzzyCheck'_vars _ _ _ _ _ _ _ e with rfl | rfl
  · exact ⟨hk2, hu2⟩
  · refine ⟨?_, fun j q hq => ?_⟩
    · by_cases hst : ((coreDef aux).get i).stype = .coreProp
      · exact hk2.trans (Keeps.of_eq fun _ => if_pos hst)
      · exact Keeps.of_eq fun _ => if_neg hst
    · by_cases hst : ((coreDef aux).get j).stype = .coreProp
      · have ej : copyNonPropagationStates s (uc.sanity s1 s
            (if uc.fixedBias then zeroBias (uc.augment c) else uc.augment c)) j = _ := if_pos hst
        rw [ej] at hq
        exact hu2 j q hq
      · have ej : copyNonPropagationStates s (uc.sanity s1 s
            (if uc.fixedBias then zeroBias (uc.augment c) else uc.augment c)) j = _ := if_neg hst
        rw [ej] at hq
        exact hu j q hq

end MSF
