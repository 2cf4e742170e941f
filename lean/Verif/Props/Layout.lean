import Verif.Model.Managers
import Verif.Lemmas.Layout
import Verif.Lemmas.Propagate
import Verif.Model.Update
import Verif.Props.Propagation

/-!
# Properties of the state layout and of state corrections (C32, C33, C35 – C37)
-/

namespace MSF

variable {D : List VarDesc}

/-- A state definition is accepted by the compiler exactly if every variable's enumerator equals
its position in the list (for any length function). -/
theorem C35_compiles_iff (len : VarDesc → Nat) :
    (countStates len D).isSome ↔ ∀ i (h : i < D.length), D[i].name = i := by
  rw [← indexingErrors_eq_zero, countStates]
  split <;> rename_i h <;> simp [h]

/-- **C35.**  For every accepted state definition and every length function (length in the state,
in the error state, …): each variable has a start index, the first one is 0, each next one begins
where the previous one ends, the last one ends at the reported total, and every index below the
total belongs to exactly one variable. -/
theorem C35_partition (len : VarDesc → Nat) (n : Nat) (h : countStates len D = some n) :
    ∃ st : Fin D.length → Nat,
      (∀ i, startIndex len D (D.get i) = some (st i : Int)) ∧
      (∀ i, i.val = 0 → st i = 0) ∧
      (∀ i j, j.val = i.val + 1 → st j = st i + len (D.get i)) ∧
      (∀ i, i.val + 1 = D.length → st i + len (D.get i) = n) ∧
      (∀ k, k < n → ∃! i, st i ≤ k ∧ k < st i + len (D.get i)) ∧
      (∀ i, st i + len (D.get i) ≤ n) := by
  have hi : indexingErrors D = 0 := by
    by_contra hne
    rw [countStates, if_neg hne] at h
    cases h
  rw [countStates_eq len hi, Option.some.injEq] at h
  subst h
  refine ⟨fun i => offset len D i, fun i => startIndex_get len hi i i.2, ?_, ?_, ?_, ?_, ?_⟩
  · intro i h0
    show offset len D i = 0
    rw [h0]; rfl
  · intro i j hj
    show offset len D j = _
    rw [hj, offset_succ len i i.2]
    rfl
  · intro i hl
    show offset len D i + len D[i.val] = _
    rw [← offset_succ len i i.2, hl, offset_length]
  · intro k hk
    obtain ⟨i, hi, h1, h2⟩ := exists_owner len k hk
    refine ⟨⟨i, hi⟩, ⟨h1, h2⟩, ?_⟩
    rintro ⟨j, hj⟩ ⟨h3, h4⟩
    exact Fin.ext (owner_unique len k hj hi h3 h4 h1 h2)
  · intro i
    exact offset_add_len_le len i i.2

/-- The pose filter: 28 error states and 31 states; the scale starts at error index 15. -/
example : countStates errLen (coreDef poseAux) = some 28 ∧
    countStates stateLen (coreDef poseAux) = some 31 ∧
    startIndexInCorrection (coreDef poseAux) 5 = some 15 := by decide

/-- An empty definition and one with a wrong enumerator. -/
example : countStates errLen [] = some 0 ∧
    countStates errLen [⟨.vec 2, 0, .aux, 0⟩, ⟨.quat, 0, .aux, 0⟩] = none := by decide

/-- **C35, core states.**  Every definition that starts with the core states p, v, q, b_w, b_a and
is accepted by the compiler passes the ordering assertions. -/
theorem C35_core_ordering (aux : List VarDesc)
    (h : ∀ i (hi : i < (coreDef aux).length), (coreDef aux)[i].name = i) :
    coreOrderingOk (coreDef aux) 0 1 2 3 4 = true := by
  have hi := indexingErrors_eq_zero.2 h
  have key : ∀ j (hj : j < 5), startIndexInCorrection (coreDef aux) j
      = some (total errLen (coreDescs.take j) : Int) := by
    intro j hj
    have hl : j < (coreDef aux).length := by simp [coreDef, coreDescs]; omega
    rw [startIndexInCorrection, List.getElem?_eq_getElem hl]
    show startIndex errLen (coreDef aux) (coreDef aux)[j] = _
    rw [startIndex_get errLen hi j hl, offset, coreDef, List.take_append_of_le_length
      (by simp [coreDescs]; omega)]
  have h0 := key 0 (by omega)
  have h1 := key 1 (by omega)
  have h2 := key 2 (by omega)
  have h3 := key 3 (by omega)
  have h4 := key 4 (by omega)
  rw [coreOrderingOk, decide_eq_true_eq, h0, h1, h2, h3, h4]
  decide

/-! ### Corrections -/

/-- The entries of the correction that belong to the variable at position `i`: those from the sum
of the lengths of all variables before it. -/
def ownSegment (c : Fin (total errLen D) → ℝ) (i : Fin D.length) (n : Nat)
    (hn : errLen (D.get i) = n) (j : Fin n) : ℝ :=
  c ⟨((D.take i).map errLen).sum + j, by
    have := offset_add_len_le (D := D) errLen i i.2
    have h2 : errLen D[i.val] = n := hn
    have h3 : offset errLen D i = ((D.take i).map errLen).sum := rfl
    have := j.2
    omega⟩

/-- `new` is `old` corrected by the variable's own part of the correction. -/
def CorrectedVal (c : Fin (total errLen D) → ℝ) (i : Fin D.length) :
    (k : Kind) → (D.get i).kind = k → Val ℝ k → Val ℝ k → Prop
  | .vec n, hk, old, new =>
    ∀ j : Fin n, new j =
      if (D.get i).multiplicative then old j * ownSegment c i n (by rw [errLen, hk]; rfl) j
      else old j + ownSegment c i n (by rw [errLen, hk]; rfl) j
  | .quat, hk, old, new =>
    new = old.mul (quatFromSmallAngle (ownSegment c i 3 (by rw [errLen, hk]; rfl)))

/-- The quaternion variables of a state are unit quaternions. -/
def UnitQuats (s : Vars ℝ D) : Prop := ∀ i q, quatOf _ (s i).val = some q → q.normSq = 1

/-- Quaternion variables carry no options. -/
def PlainQuats (D : List VarDesc) : Prop := ∀ d ∈ D, d.kind = .quat → d.options = 0

theorem correctVal_eq (c : Fin (total errLen D) → ℝ) (h : indexingErrors D = 0) (i : Fin D.length)
    (hp : (D.get i).kind = .quat → (D.get i).options = 0) :
    ∀ (k : Kind) (hk : (D.get i).kind = k) (x : Val ℝ k),
      (∀ q, quatOf k x = some q → q.normSq = 1) →
      ∃ y, correctVal c (D.get i) k x = some y ∧ CorrectedVal c i k hk x y ∧
        (∀ q, quatOf k y = some q → q.normSq = 1) := by
  intro k hk x hu
  have hle := offset_add_len_le (D := D) errLen i i.2
  have hst : startIndex errLen D (D.get i) = some (offset errLen D i : Int) :=
    startIndex_get errLen h i i.2
  cases k with
  | vec n =>
    have hn : errLen (D.get i) = n := by rw [errLen, hk]; rfl
    have hseg := segment_some c (offset errLen D i) n (by
      have h2 : errLen D[i.val] = n := hn
      omega)
    have e : correctVal c (D.get i) (.vec n) x =
        if (D.get i).multiplicative then
          some fun j => x j * ownSegment c i n hn j
        else some fun j => x j + ownSegment c i n hn j := by
      simp only [correctVal, correctVec, hst, Option.bind_eq_bind, Option.bind_some, hseg]
      rfl
    rw [e]
    by_cases hm : (D.get i).multiplicative
    · rw [if_pos hm]
      refine ⟨_, rfl, fun j => by rw [if_pos hm], fun q hq => ?_⟩
      cases hq
    · rw [if_neg hm]
      refine ⟨_, rfl, fun j => by rw [if_neg hm], fun q hq => ?_⟩
      cases hq
  | quat =>
    have hn : errLen (D.get i) = 3 := by rw [errLen, hk]; rfl
    have ho := hp hk
    have hd : { D.get i with options := 0 } = D.get i := by rw [← ho]
    have hm : (D.get i).multiplicative = false := by
      rw [VarDesc.multiplicative, ho]; rfl
    have hseg := segment_some c (offset errLen D i) 3 (by
      have h2 : errLen D[i.val] = 3 := hn
      omega)
    have hunit : (Quat.mul x (quatFromSmallAngle (ownSegment c i 3 hn))).normSq = 1 := by
      rw [Quat.normSq_mul, hu x rfl, quatFromSmallAngle_unit, one_mul]
    refine ⟨Quat.mul x (quatFromSmallAngle (ownSegment c i 3 hn)), ?_, rfl, ?_⟩
    · simp only [correctVal, correctQuat, hd, hst, Option.bind_eq_bind, Option.bind_some, hseg, hm]
      exact Quat.normalize_unit hunit
    · intro q hq
      rw [← Option.some.inj hq]
      exact hunit

/-- **C36.**  For every accepted state definition and every correction vector, correcting a state
with unit quaternions succeeds; every variable changes by exactly its own part of the correction
vector (added, multiplied element-wise, or multiplied from the right as a small rotation), and
noise blocks and reset flags are kept. -/
theorem C36_correct (s : Vars ℝ D) (c : Fin (total errLen D) → ℝ)
    (h : ∀ i (hi : i < D.length), D[i].name = i) (hp : PlainQuats D) (hu : UnitQuats s) :
    ∃ s', correct s c = some s' ∧
      ∀ i, CorrectedVal c i (D.get i).kind rfl (s i).val (s' i).val ∧
        (s' i).Q = (s i).Q ∧ (s' i).hasReset = (s i).hasReset := by
  have hi := indexingErrors_eq_zero.2 h
  have hex := fun i => correctVal_eq c hi i (hp _ (List.get_mem D i)) (D.get i).kind rfl
    (s i).val (hu i)
  choose y hy hc _ using hex
  refine ⟨fun i => { s i with val := y i }, ?_, fun i => ⟨hc i, rfl, rfl⟩⟩
  apply allSome_of
  intro i
  rw [hy i]
  rfl

/-- **C33.**  The small-angle quaternion has unit norm for every angle vector (both branches) and
is the identity at zero. -/
theorem C33_small_angle_unit (θ : V3 ℝ) :
    (quatFromSmallAngle θ).normSq = 1 ∧ quatFromSmallAngle 0 = Quat.one := by
  refine ⟨quatFromSmallAngle_unit θ, ?_⟩
  simp [quatFromSmallAngle, sqNorm3, Quat.one]

/-- **C33, direction.**  The rotation axis is the angle vector: the vector part is a non-negative
multiple of it and the scalar part is not negative. -/
theorem C33_small_angle_axis (θ : V3 ℝ) :
    ∃ f : ℝ, 0 < f ∧ (quatFromSmallAngle θ).vec = f • θ ∧ 0 ≤ (quatFromSmallAngle θ).w := by
  simp only [quatFromSmallAngle]
  split
  · refine ⟨0.5, by norm_num, ?_, Real.sqrt_nonneg _⟩
    funext i
    fin_cases i <;> simp [Quat.vec, mul_comm]
  · have hs : 0 < Real.sqrt (1 + sqNorm3 θ / 4) :=
      Real.sqrt_pos.2 (by have := sqNorm3_nonneg θ; positivity)
    refine ⟨1 / Real.sqrt (1 + sqNorm3 θ / 4) * 0.5, by positivity, ?_, by positivity⟩
    funext i
    fin_cases i <;> simp [Quat.vec, mul_comm]

/-- Both branches occur. -/
example : quatFromSmallAngle ![4, 0, 0] = ⟨1 / Real.sqrt 5, 4 * (1 / Real.sqrt 5 * 0.5), 0, 0⟩ ∧
    quatFromSmallAngle ![6 / 5, 0, 0] = ⟨4 / 5, 6 / 5 * 0.5, 0, 0⟩ := by
  constructor
  · have h : sqNorm3 (![4, 0, 0] : V3 ℝ) / 4 = 4 := by simp [sqNorm3]
    simp only [quatFromSmallAngle, h]
    norm_num
    rfl
  · have h : sqNorm3 (![6 / 5, 0, 0] : V3 ℝ) / 4 = 9 / 25 := by simp [sqNorm3]; norm_num
    have h2 : Real.sqrt (1 - 9 / 25) = 4 / 5 := by
      rw [show (1 - 9 / 25 : ℝ) = (4 / 5) ^ 2 by norm_num]
      exact Real.sqrt_sq (by norm_num)
    simp only [quatFromSmallAngle, h, h2]
    norm_num
    rfl

/-- **C33, all states.**  Correcting a state with unit quaternions by any correction yields a state
with unit quaternions, for every accepted state definition. -/
theorem C33_corrected_unit (s s' : Vars ℝ D) (c : Fin (total errLen D) → ℝ)
    (h : ∀ i (hi : i < D.length), D[i].name = i) (hp : PlainQuats D) (hu : UnitQuats s)
    (hs : correct s c = some s') : UnitQuats s' := by
  have hi := indexingErrors_eq_zero.2 h
  intro i q hq
  obtain ⟨y, hy, -, hq'⟩ := correctVal_eq c hi i (hp _ (List.get_mem D i)) (D.get i).kind rfl
    (s i).val (hu i)
  have := allSome_eq_some hs i
  rw [hy] at this
  have e : (s' i).val = y := by rw [← Option.some.inj this]
  exact hq' q (by rw [← e]; exact hq)

theorem blank_unitQuats (aux : List VarDesc) (t : ℝ) (a w : V3 ℝ) :
    UnitQuats (blankState aux t a w).vars := by
  intro i q hq
  have key : ∀ k : Kind, ∀ q, quatOf k (Val.reset (R := ℝ) k) = some q → q.normSq = 1 := by
    intro k q hq
    cases k with
    | vec n => cases hq
    | quat =>
      rw [← Option.some.inj hq]
      exact Quat.normSq_one
  exact key _ _ hq

theorem poseDef_ok : (∀ i (hi : i < (coreDef poseAux).length), (coreDef poseAux)[i].name = i) ∧
    PlainQuats (coreDef poseAux) := by
  constructor
  · decide
  · unfold PlainQuats; decide

/-- The hypotheses of C36 and C33 hold for the pose filter; correction `(1, 2, …, 28)`. -/
example : ∃ s', correct (blankState poseAux 0 0 0).vars (fun i => (i.val + 1 : ℝ)) = some s' ∧
    UnitQuats s' ∧ EKFState.p s' = ![1, 2, 3] := by
  obtain ⟨s', hs, hc⟩ := C36_correct (blankState poseAux 0 0 0).vars (fun i => (i.val + 1 : ℝ))
    poseDef_ok.1 poseDef_ok.2 (blank_unitQuats _ _ _ _)
  refine ⟨s', hs, C33_corrected_unit _ _ _ poseDef_ok.1 poseDef_ok.2 (blank_unitQuats _ _ _ _) hs,
    ?_⟩
  have h0 := (hc EKFState.ip).1
  funext j
  have := h0 j
  have e : EKFState.p s' j = (s' EKFState.ip).val j := rfl
  rw [e, this]
  have hm : ((coreDef poseAux).get EKFState.ip).multiplicative = false := by decide
  rw [hm]
  show (0 : ℝ) + (((0 + j.val : ℕ) : ℝ) + 1) = _
  fin_cases j <;> norm_num

/-- A multiplicative vector state is multiplied, not added. -/
example : ∃ s', correct (D := [⟨.vec 1, 0, .aux, 1⟩]) (fun _ => ⟨Val.reset _, 0, false⟩)
    (fun _ => 3) = some s' ∧ ∀ i, CorrectedVal (D := [⟨.vec 1, 0, .aux, 1⟩]) (fun _ => 3) i _ rfl
      (Val.reset _) (s' i).val := by
  obtain ⟨s', hs, hc⟩ := C36_correct (D := [⟨.vec 1, 0, .aux, 1⟩])
    (fun _ => ⟨Val.reset _, 0, false⟩) (fun _ => 3) (by decide) (by unfold PlainQuats; decide)
    (by
      intro i q hq
      have hi : i = 0 := Fin.ext (by have := i.2; simp at this; simp)
      subst hi
      cases hq)
  exact ⟨s', hs, fun i => (hc i).1⟩

/-! ### Fixed biases -/

theorem correct_zero_segment (s m : Vars ℝ D) (c : Fin (total errLen D) → ℝ)
    (hi : indexingErrors D = 0) (h : correct s c = some m) (i : Fin D.length) (n : Nat)
    (hk : (D.get i).kind = .vec n) (hm : (D.get i).multiplicative = false)
    (hz : ∀ k : Fin (total errLen D), offset errLen D i ≤ k → k < offset errLen D i + n → c k = 0) :
    m i = s i := by
  have hst : startIndex errLen D (D.get i) = some (offset errLen D i : Int) :=
    startIndex_get errLen hi i i.2
  have hle := offset_add_len_le (D := D) errLen i i.2
  have hlen : errLen D[i.val] = n := by
    have : errLen (D.get i) = n := by rw [errLen, hk]; rfl
    exact this
  have key : ∀ (k : Kind), (k = .vec n) → ∀ x : Val ℝ k, correctVal c (D.get i) k x = some x := by
    rintro _ rfl x
    have hseg := segment_some c (offset errLen D i) n (by omega)
    simp only [correctVal, correctVec, hst, Option.bind_eq_bind, Option.bind_some, hseg, hm,
      Bool.false_eq_true, if_false, Option.some.injEq]
    funext j
    rw [hz _ (by simp) (by simp), add_zero]
  have := allSome_eq_some h i
  rw [key _ hk] at this
  exact (Option.some.inj this).symm

theorem bias_offsets (aux : List VarDesc) :
    offset errLen (coreDef aux) 3 = 9 ∧ offset errLen (coreDef aux) 4 = 12 := by
  constructor
  · show total errLen ((coreDescs ++ aux).take 3) = 9
    rw [List.take_append_of_le_length (by decide)]; rfl
  · show total errLen ((coreDescs ++ aux).take 4) = 12
    rw [List.take_append_of_le_length (by decide)]; rfl

theorem fuzzyCheck'_vars {aux : List VarDesc} (t t' : Tracker ℝ)
    (a b s' : Vars ℝ (coreDef aux)) (thres : ℝ) (fz : Bool)
    (h : fuzzyCheck' t a b thres = some (t', s', fz)) :
    s' = a ∨ s' = copyNonPropagationStates b a := by
  simp only [fuzzyCheck'] at h
  split at h
  · simp only [Option.some.injEq, Prod.mk.injEq] at h
    exact Or.inl h.2.1.symm
  · simp only [fuzzyCheck, Option.bind_eq_bind] at h
    rw [Option.bind_eq_some_iff] at h
    obtain ⟨i, -, h⟩ := h
    rw [Option.bind_eq_some_iff] at h
    obtain ⟨q, -, h⟩ := h
    split at h
    · split at h
      · simp only [Option.pure_def, Option.some.injEq, Prod.mk.injEq] at h
        exact Or.inr h.2.1.symm
      · rw [Option.bind_eq_some_iff] at h
        obtain ⟨r, -, h⟩ := h
        simp only [Option.pure_def, Option.some.injEq, Prod.mk.injEq] at h
        exact Or.inl h.2.1.symm
    · rw [Option.bind_eq_some_iff] at h
      obtain ⟨r, -, h⟩ := h
      simp only [Option.pure_def, Option.some.injEq, Prod.mk.injEq] at h
      exact Or.inl h.2.1.symm

/-- **C32.**  With the fixed-bias option on, whatever the correction, the user's augmentation, the
tracker and the state: if the user's sanity check leaves the biases alone, so does
`ApplyCorrection`. -/
theorem C32_biases_fixed {aux : List VarDesc} (uc : UserCalc (coreDef aux)) (t t' : Tracker ℝ)
    (s s' : Vars ℝ (coreDef aux)) (c : Fin (total errLen (coreDef aux)) → ℝ) (thres : ℝ)
    (fz : Bool) (hn : ∀ i (hi : i < (coreDef aux).length), (coreDef aux)[i].name = i)
    (hfix : uc.fixedBias = true)
    (hsan : ∀ a b c, EKFState.b_w (uc.sanity a b c) = EKFState.b_w a ∧
      EKFState.b_a (uc.sanity a b c) = EKFState.b_a a)
    (h : applyCorrection uc t s c thres = some (t', s', fz)) :
    EKFState.b_w s' = EKFState.b_w s ∧ EKFState.b_a s' = EKFState.b_a s := by
  have hi := indexingErrors_eq_zero.2 hn
  simp only [applyCorrection, hfix, if_true, Option.bind_eq_bind] at h
  rw [Option.bind_eq_some_iff] at h
  obtain ⟨m, hm, h⟩ := h
  obtain ⟨o9, o12⟩ := bias_offsets aux
  have hw : m EKFState.ibw = s EKFState.ibw := by
    refine correct_zero_segment s m _ hi hm EKFState.ibw 3 rfl (Nat.zero_testBit 0) ?_
    intro k h1 h2
    have e : offset errLen (coreDef aux) (EKFState.ibw (aux := aux)) = 9 := o9
    rw [e] at h1 h2
    simp only [zeroBias]
    rw [if_pos ⟨h1, h2⟩]
  have ha : m EKFState.iba = s EKFState.iba := by
    refine correct_zero_segment s m _ hi hm EKFState.iba 3 rfl (Nat.zero_testBit 0) ?_
    intro k h1 h2
    have e : offset errLen (coreDef aux) (EKFState.iba (aux := aux)) = 12 := o12
    rw [e] at h1 h2
    simp only [zeroBias]
    rw [if_neg (by omega), if_pos ⟨h1, h2⟩]
  obtain ⟨e1, e2⟩ := hsan m s (zeroBias (uc.augment c))
  have e1' : EKFState.b_w (uc.sanity m s (zeroBias (uc.augment c))) = EKFState.b_w s := by
    rw [e1, EKFState.b_w, hw]; rfl
  have e2' : EKFState.b_a (uc.sanity m s (zeroBias (uc.augment c))) = EKFState.b_a s := by
    rw [e2, EKFState.b_a, ha]; rfl
  rcases fuzzyCheck'_vars _ _ _ _ _ _ _ h with e | e
  · rw [e]; exact ⟨e1', e2'⟩
  · rw [e]; exact ⟨rfl, rfl⟩

/-- The sanity checks of all shipped managers meet the hypothesis of C32: the identity (position,
spherical) trivially, the scale check by this theorem. -/
theorem C32_shipped_sanity {rest : List VarDesc}
    (a : Vars ℝ (coreDef (⟨.vec 1, 5, .aux, 0⟩ :: rest))) :
    EKFState.b_w (scaleSanity a) = EKFState.b_w a ∧
      EKFState.b_a (scaleSanity a) = EKFState.b_a a := by
  simp only [scaleSanity]
  split
  · exact ⟨congrArg StateVar.val (Function.update_of_ne (by simp [Fin.ext_iff]) _ _),
      congrArg StateVar.val (Function.update_of_ne (by simp [Fin.ext_iff]) _ _)⟩
  · exact ⟨rfl, rfl⟩

/-- C32 on the pose filter with the scale check and a correction that would move everything; the
correction is applied. -/
example : ∃ t' s' fz, applyCorrection
      (aux := poseAux) ⟨id, fun a _ _ => scaleSanity a, true⟩ Tracker.reset
      (blankState poseAux 0 0 0).vars (fun i => (i.val + 1 : ℝ)) = some (t', s', fz) ∧
      EKFState.b_w s' = 0 ∧ EKFState.b_a s' = 0 := by
  have hex : ∃ r, applyCorrection
      (aux := poseAux) ⟨id, fun a _ _ => scaleSanity a, true⟩ Tracker.reset
      (blankState poseAux 0 0 0).vars (fun i => (i.val + 1 : ℝ)) = some r := by
    obtain ⟨s', hs, -⟩ := C36_correct (blankState poseAux 0 0 0).vars
      (zeroBias fun i => (i.val + 1 : ℝ))
      poseDef_ok.1 poseDef_ok.2 (blank_unitQuats _ _ _ _)
    simp only [applyCorrection, id, if_true, hs, Option.bind_eq_bind, Option.bind_some]
    have hne : ¬ indexOfBestNonTemporalDriftingState (coreDef poseAux) = some (-1) := by decide
    have hb : bestIndex (coreDef poseAux) = some ⟨6, by decide⟩ := by decide
    simp only [fuzzyCheck', if_neg hne, fuzzyCheck, hb]
    exact ⟨_, rfl⟩
  obtain ⟨⟨t', s', fz⟩, h⟩ := hex
  obtain ⟨h1, h2⟩ := C32_biases_fixed _ _ _ _ _ _ _ _ poseDef_ok.1 rfl
    (fun a _ _ => C32_shipped_sanity a) h
  exact ⟨t', s', fz, h, h1, h2⟩

/-! ### State arrays -/

/-- **C37, full state.**  For every accepted state definition the full-state message lists the
values of all variables in order, quaternions as w, x, y, z. -/
theorem C37_full_state {R : Type} [Zero R] (s : Vars R D)
    (h : ∀ i (hi : i < D.length), D[i].name = i) :
    toFullStateMsg s =
      some ((List.finRange D.length).flatMap fun i => Val.toList _ (s i).val) :=
  toFullStateMsg_eq s (indexingErrors_eq_zero.2 h)

/-- **C37, length.**  The message has as many entries as the state definition has states. -/
theorem C37_full_length {R : Type} [Zero R] (s : Vars R D) (a : List R)
    (h : toFullStateMsg s = some a) : countStates stateLen D = some a.length := by
  have hi : indexingErrors D = 0 := by
    by_contra hne
    simp [toFullStateMsg, countStates, hne] at h
  rw [toFullStateMsg_eq s hi, Option.some.injEq] at h
  rw [countStates_eq _ hi, ← h, flatVals_length]

theorem flatMap_determines {R : Type} (s s' : Vars R D) : ∀ l : List (Fin D.length),
    (l.flatMap fun i => Val.toList _ (s i).val) = (l.flatMap fun i => Val.toList _ (s' i).val) →
      ∀ i ∈ l, (s i).val = (s' i).val := by
  intro l
  induction l with
  | nil => intro _ i hi; cases hi
  | cons x l ih =>
    intro h i hi
    rw [List.flatMap_cons, List.flatMap_cons] at h
    have hl := List.append_inj h (by rw [Val.toList_length, Val.toList_length])
    rcases List.mem_cons.1 hi with rfl | hi
    · exact Val.toList_injective _ hl.1
    · exact ih hl.2 i hi

/-- **C37, injectivity.**  Two states with the same message have the same values. -/
theorem C37_full_determines {R : Type} [Zero R] (s s' : Vars R D) (a : List R)
    (h : toFullStateMsg s = some a) (h' : toFullStateMsg s' = some a) (i : Fin D.length) :
    (s i).val = (s' i).val := by
  have hi : indexingErrors D = 0 := by
    by_contra hne
    simp [toFullStateMsg, countStates, hne] at h
  rw [toFullStateMsg_eq s hi] at h
  rw [toFullStateMsg_eq s' hi] at h'
  exact flatMap_determines s s' _ (Option.some.inj (h.trans h'.symm)) i (List.mem_finRange i)

/-- The message of a two-variable state: a quaternion and a scalar. -/
example : toFullStateMsg (R := Int) (D := [⟨.quat, 0, .aux, 0⟩, ⟨.vec 1, 1, .aux, 0⟩])
    (fun i => match i with
      | ⟨0, _⟩ => ⟨(⟨1, 2, 3, 4⟩ : Quat Int), 0, false⟩
      | ⟨1, _⟩ => ⟨(fun _ => 5 : Fin 1 → Int), 0, false⟩) = some [1, 2, 3, 4, 5] := by
  decide

/-- A core state (either kind). -/
def VarDesc.isCore (d : VarDesc) : Bool :=
  match d.stype with
  | .coreProp | .coreNoProp => true
  | .aux | .auxNonDrift => false

/-- **C37, core state.**  If the core states come first (the first `m` variables are exactly the
core states), the core-state message lists exactly their values, in order; its length is the
number of core states of the definition. -/
theorem C37_core_state {R : Type} [Zero R] (s : Vars R D) (m : Nat) (hm : m ≤ D.length)
    (h : ∀ i (hi : i < D.length), D[i].name = i)
    (hc : ∀ i (hi : i < D.length), D[i].isCore = true ↔ i < m) :
    ∃ a, toCoreStateMsg s = some a ∧ countStates coreStateLen D = some a.length ∧
      a = ((List.finRange D.length).take m).flatMap fun i => Val.toList _ (s i).val := by
  have hi := indexingErrors_eq_zero.2 h
  have hlen : ∀ k, k ≤ D.length → offset coreStateLen D k = offset stateLen D (min k m) := by
    intro k
    induction k with
    | zero => intro _; simp [offset_zero]
    | succ k ih =>
      intro hk
      have hcore := hc k (by omega)
      rw [offset_succ coreStateLen k (by omega), ih (by omega)]
      by_cases hkm : k < m
      · have : D[k].isCore = true := hcore.2 hkm
        rw [show min (k + 1) m = k + 1 by omega, show min k m = k by omega,
          offset_succ stateLen k (by omega)]
        congr 1
        revert this
        cases hst : D[k].stype <;> cases hkd : D[k].kind <;>
          simp [VarDesc.isCore, coreStateLen, stateLen, Kind.stateLen, hst, hkd]
      · have : ¬ D[k].isCore = true := fun e => hkm (hcore.1 e)
        rw [show min (k + 1) m = m by omega, show min k m = m by omega]
        revert this
        cases hst : D[k].stype <;> simp [VarDesc.isCore, coreStateLen, hst]
  have htot : total coreStateLen D = offset stateLen D m := by
    rw [← offset_length coreStateLen, hlen _ le_rfl, min_eq_right hm]
  have key : ∀ k, k ≤ D.length →
      ((List.finRange D.length).take k).foldlM (coreToArray s)
        (List.replicate (offset stateLen D m) 0) =
      some ((((List.finRange D.length).take (min k m)).flatMap fun i => Val.toList _ (s i).val) ++
        List.replicate (offset stateLen D m - offset stateLen D (min k m)) 0) := by
    intro k
    induction k with
    | zero => intro _; simp [offset_zero]
    | succ k ih =>
      intro hk
      have hk' : k < (List.finRange D.length).length := by simpa using hk
      rw [← List.take_append_getElem hk', List.foldlM_append, ih (by omega)]
      have hg : (List.finRange D.length)[k] = ⟨k, by omega⟩ := by simp
      rw [hg]
      simp only [List.foldlM_cons, List.foldlM_nil, Option.bind_eq_bind, Option.bind_some]
      by_cases hkm : k < m
      · have hcore : D[k].isCore = true := (hc k (by omega)).2 hkm
        rw [show min (k + 1) m = k + 1 by omega, show min k m = k by omega]
        have hst : startIndex stateLen D (D.get ⟨k, by omega⟩)
            = some (offset stateLen D k : Int) := startIndex_get stateLen hi k (by omega)
        have hstep : ∀ a, coreToArray s a ⟨k, by omega⟩ =
            writeAt a (offset stateLen D k : Int) (Val.toList _ (s ⟨k, by omega⟩).val) := by
          intro a
          have : (D.get ⟨k, by omega⟩).isCore = true := hcore
          revert this
          cases hty : (D.get ⟨k, by omega⟩).stype <;>
            simp [VarDesc.isCore, coreToArray, hty, hst, -List.get_eq_getElem]
        rw [hstep]
        have hle : offset stateLen D k + stateLen D[k] ≤ offset stateLen D m := by
          rw [← offset_succ stateLen k (by omega)]
          exact offset_mono stateLen (by omega)
        have hsplit : List.replicate (offset stateLen D m - offset stateLen D k) (0 : R) =
            List.replicate (stateLen D[k]) 0 ++
              List.replicate (offset stateLen D m - offset stateLen D (k + 1)) 0 := by
          rw [← List.replicate_add, offset_succ stateLen k (by omega)]
          congr 1
          omega
        rw [hsplit, ← List.append_assoc]
        have hw := writeAt_eq
          (((List.finRange D.length).take k).flatMap fun i => Val.toList _ (s i).val)
          (List.replicate (stateLen D[k]) 0) (Val.toList _ (s ⟨k, by omega⟩).val)
          (List.replicate (offset stateLen D m - offset stateLen D (k + 1)) 0)
          (by rw [Val.toList_length, List.length_replicate]; rfl)
        rw [flatVals_take_length s k (by omega)] at hw
        rw [hw]
        rw [Option.bind_some, ← List.take_append_getElem hk', List.flatMap_append, hg]
        simp
      · have hcore : ¬ D[k].isCore = true := fun e => hkm ((hc k (by omega)).1 e)
        rw [show min (k + 1) m = m by omega, show min k m = m by omega]
        have hstep : ∀ a, coreToArray s a ⟨k, by omega⟩ = some a := by
          intro a
          have : ¬ (D.get ⟨k, by omega⟩).isCore = true := hcore
          revert this
          cases hty : (D.get ⟨k, by omega⟩).stype <;>
            simp [VarDesc.isCore, coreToArray, hty, -List.get_eq_getElem]
        rw [hstep]
        rfl
  have hk := key D.length le_rfl
  rw [List.take_of_length_le (by simp), min_eq_right hm] at hk
  refine ⟨_, ?_, ?_, rfl⟩
  · rw [toCoreStateMsg, countStates_eq _ hi, htot]
    simp only [Option.bind_eq_bind, Option.bind_some]
    rw [hk]
    simp
  · rw [countStates_eq _ hi, htot, flatVals_take_length s m hm]

/-- **C37, core injectivity.**  The core-state message determines every core state. -/
theorem C37_core_determines {R : Type} [Zero R] (s s' : Vars R D) (m : Nat) (hm : m ≤ D.length)
    (h : ∀ i (hi : i < D.length), D[i].name = i)
    (hc : ∀ i (hi : i < D.length), D[i].isCore = true ↔ i < m)
    (he : toCoreStateMsg s = toCoreStateMsg s') (i : Fin D.length)
    (hi : (D.get i).isCore = true) : (s i).val = (s' i).val := by
  obtain ⟨a, ha, -, ea⟩ := C37_core_state s m hm h hc
  obtain ⟨b, hb, -, eb⟩ := C37_core_state s' m hm h hc
  rw [ha, hb, Option.some.injEq, ea, eb] at he
  refine flatMap_determines s s' _ he i ?_
  have him : i.val < m := (hc i i.2).1 hi
  rw [List.mem_iff_getElem]
  exact ⟨i, by simp; omega, by simp⟩

/-- The pose filter meets the hypotheses of the core-state theorem with five core states. -/
example : (∀ i (hi : i < (coreDef poseAux).length), (coreDef poseAux)[i].name = i) ∧
    (∀ i (hi : i < (coreDef poseAux).length), (coreDef poseAux)[i].isCore = true ↔ i < 5) ∧
    countStates coreStateLen (coreDef poseAux) = some 16 := by
  refine ⟨poseDef_ok.1, ?_, by decide⟩
  decide

/-- **C37 needs the ordering.**  For an accepted state definition with a core state after an
auxiliary state the core-state message is written outside the array. -/
theorem C37_core_not_first_violated :
    ∃ (D : List VarDesc) (s : Vars ℚ D), (∀ i (hi : i < D.length), D[i].name = i) ∧
      countStates coreStateLen D = some 1 ∧ toCoreStateMsg s = none := by
  refine ⟨[⟨.vec 2, 0, .aux, 0⟩, ⟨.vec 1, 1, .coreProp, 0⟩], fun i => ?_, by decide, by decide,
    ?_⟩
  · exact match i with
      | ⟨0, _⟩ => ⟨(fun _ => 1 : Fin 2 → ℚ), 0, false⟩
      | ⟨1, _⟩ => ⟨(fun _ => 2 : Fin 1 → ℚ), 0, false⟩
  · decide +kernel

end MSF
