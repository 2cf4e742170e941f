import Verif.Model.Update
import Verif.Props.Layout
import Mathlib.Tactic.FieldSimp

/-!
# Properties of the fuzzy-tracking detector: C40, C41, C42, C62
-/

namespace MSF

open Tracker

/-! ### Window -/

section
variable {R : Type} [Field R] [LinearOrder R] {D : List VarDesc}

/-- What can happen to a detector. -/
inductive FuzzyOp (R : Type) (D : List VarDesc)
  | reset
  | check (delay buff : Vars R D) (thres : R)

/-- A sequence of operations: the detector and the attitudes accepted since the last reset, oldest
first. -/
def runFuzzy (i : Fin D.length) : List (FuzzyOp R D) → Tracker R → List (Quat R) →
    Option (Tracker R × List (Quat R))
  | [], t, acc => some (t, acc)
  | .reset :: ops, _, _ => runFuzzy i ops Tracker.reset []
  | .check delay buff thres :: ops, t, acc =>
    match fuzzyCheck t delay buff thres, quatOf _ (delay i).val with
    | some (t', _, fuzzy), some q => runFuzzy i ops t' (if fuzzy then acc else acc ++ [q])
    | _, _ => none

/-- The detector holds the last accepted attitudes. -/
def WindowInv (t : Tracker R) (acc : List (Quat R)) : Prop :=
  t.timer = (if acc.length ≤ 30 then acc.length + 1 else 31 + acc.length % 30) ∧
  ∀ j (hj : j < acc.length), acc.length ≤ j + 30 →
    t.qbuff ⟨j % 30, Nat.mod_lt _ (by decide)⟩ = acc[j].coeffs

omit [LinearOrder R] in
theorem windowInv_reset : WindowInv (Tracker.reset : Tracker R) [] :=
  ⟨rfl, fun j hj => by simp at hj⟩

omit [Field R] [LinearOrder R] in
theorem quatOf_isSome {i : Fin D.length} (hi : (D.get i).kind = .quat) (s : Vars R D) :
    ∃ q, quatOf _ (s i).val = some q := by
  generalize (s i).val = v
  revert v
  generalize (D.get i).kind = k at hi
  subst hi
  intro v
  exact ⟨v, rfl⟩

omit [Field R] [LinearOrder R] in
theorem writeRow_some (t : Tracker R) {row : Nat} (h : row < 30) (q : Quat R) :
    t.writeRow row q = some (Function.update t.qbuff ⟨row, h⟩ q.coeffs) := by
  unfold writeRow
  rw [dif_pos (show row < nBuff from h)]

omit [Field R] [LinearOrder R] in
/-- Appending to the window. -/
theorem windowInv_append {t : Tracker R} {acc : List (Quat R)} (h : WindowInv t acc) (q : Quat R)
    (timer row : Nat) (hrow : row = acc.length % 30)
    (ht : timer = if acc.length + 1 ≤ 30 then acc.length + 2 else 31 + (acc.length + 1) % 30)
    (hr : row < 30) :
    WindowInv ⟨timer, Function.update t.qbuff ⟨row, hr⟩ q.coeffs⟩ (acc ++ [q]) := by
  refine ⟨by simpa using ht, fun j hj hle => ?_⟩
  rw [List.length_append, List.length_singleton] at hj hle
  by_cases hjl : j = acc.length
  · subst hjl
    simp only [List.getElem_append_right (le_refl _), Nat.sub_self, List.getElem_singleton]
    subst hrow
    exact Function.update_self ..
  · have hj' : j < acc.length := by omega
    rw [List.getElem_append_left hj', ← h.2 j hj' (by omega)]
    refine Function.update_of_ne ?_ _ _
    intro e
    have := congrArg Fin.val e
    simp only at this
    omega

/-- One check keeps the invariant and does not fail. -/
theorem fuzzyCheck_inv {i : Fin D.length} (hb : bestIndex D = some i)
    (hi : (D.get i).kind = .quat) {t : Tracker R} {acc : List (Quat R)} (h : WindowInv t acc)
    (delay buff : Vars R D) (thres : R) :
    ∃ t' s' fuzzy q, fuzzyCheck t delay buff thres = some (t', s', fuzzy) ∧
      quatOf _ (delay i).val = some q ∧ WindowInv t' (if fuzzy then acc else acc ++ [q]) := by
  obtain ⟨q, hq⟩ := quatOf_isSome hi delay
  have ht := h.1
  simp only [fuzzyCheck, hb, Option.bind_eq_bind, Option.bind_some, hq]
  by_cases hgt : t.timer > nBuff
  · rw [if_pos hgt]
    have hgt' : 30 < t.timer := hgt
    by_cases he : exceeds (q.conj.mul t.medianQuat) thres = true
    · rw [if_pos he]
      exact ⟨t, _, true, q, rfl, rfl, h⟩
    · rw [if_neg he, writeRow_some t (row := t.timer - nBuff - 1)
        (by change t.timer - 30 - 1 < 30; split at ht <;> omega)]
      refine ⟨_, _, false, q, rfl, rfl, ?_⟩
      exact windowInv_append h q _ _ (by change t.timer - 30 - 1 = _; split at ht <;> omega)
        (by change t.timer % 30 + 30 + 1 = _; split at ht <;> split <;> omega) _
  · rw [if_neg hgt]
    have hgt' : t.timer ≤ 30 := not_lt.1 hgt
    rw [writeRow_some t (row := t.timer - 1) (by omega)]
    refine ⟨_, _, false, q, rfl, rfl, ?_⟩
    exact windowInv_append h q _ _ (by split at ht <;> omega)
      (by split at ht <;> split <;> omega) _

/-- **C40.**  For every state definition whose best non-drifting state is a quaternion and every
sequence of checks and resets of any length: no write goes out of range, and afterwards row `j % 30`
of the buffer holds the `j`-th accepted attitude since the last reset, for each of the last thirty.
-/
theorem C40_window {i : Fin D.length} (hb : bestIndex D = some i) (hi : (D.get i).kind = .quat)
    (ops : List (FuzzyOp R D)) :
    ∃ t acc, runFuzzy i ops Tracker.reset [] = some (t, acc) ∧
      (1 ≤ t.timer ∧ t.timer ≤ 60) ∧
      ∀ j (hj : j < acc.length), acc.length ≤ j + 30 →
        t.qbuff ⟨j % 30, Nat.mod_lt _ (by decide)⟩ = acc[j].coeffs := by
  have key : ∀ (ops : List (FuzzyOp R D)) t acc, WindowInv t acc →
      ∃ t' acc', runFuzzy i ops t acc = some (t', acc') ∧ WindowInv t' acc' := by
    intro ops
    induction ops with
    | nil => exact fun t acc h => ⟨t, acc, rfl, h⟩
    | cons op ops ih =>
      intro t acc h
      cases op with
      | reset => exact ih _ _ windowInv_reset
      | check delay buff thres =>
        obtain ⟨t', s', fuzzy, q, h1, h2, h3⟩ := fuzzyCheck_inv hb hi h delay buff thres
        obtain ⟨t'', acc'', h4, h5⟩ := ih _ _ h3
        refine ⟨t'', acc'', ?_, h5⟩
        rw [runFuzzy, h1, h2]
        exact h4
  obtain ⟨t, acc, h1, h2⟩ := key ops _ _ windowInv_reset
  refine ⟨t, acc, h1, ?_, h2.2⟩
  have := h2.1
  split at this <;> omega

/-- **C40, a full window.**  After at least thirty acceptances the buffer rows are, in some
rotation, exactly the last thirty accepted attitudes. -/
theorem C40_full_window {i : Fin D.length} (hb : bestIndex D = some i)
    (hi : (D.get i).kind = .quat) (ops : List (FuzzyOp R D)) (t : Tracker R)
    (acc : List (Quat R)) (h : runFuzzy i ops Tracker.reset [] = some (t, acc))
    (hn : 30 ≤ acc.length) (r : Fin 30) :
    ∃ k, ∃ hk : k < 30, (acc.length - 1 - k) % 30 = r ∧
      t.qbuff r = (acc[acc.length - 1 - k]'(by omega)).coeffs := by
  obtain ⟨t', acc', h1, -, h3⟩ := C40_window (R := R) hb hi ops
  rw [h, Option.some.injEq, Prod.mk.injEq] at h1
  obtain ⟨rfl, rfl⟩ := h1
  have hr := r.2
  refine ⟨(acc.length + 29 - r) % 30, by omega, by omega, ?_⟩
  rw [← h3 _ (by omega) (by omega)]
  congr 1
  exact Fin.ext (by simp only; omega)

/-! ### Effect of a detection -/

/-- **C41.**  A check reports fuzzy tracking only with a full window and when the new attitude
differs from the median by more than the threshold; then the window is unchanged and every state
variable that is not propagated has its value from before the correction, the propagated ones keep
the corrected value.  Otherwise the state is unchanged. -/
theorem C41_check {i : Fin D.length} (hb : bestIndex D = some i) (t t' : Tracker R)
    (delay buff s' : Vars R D) (thres : R) (fuzzy : Bool)
    (h : fuzzyCheck t delay buff thres = some (t', s', fuzzy)) :
    (fuzzy = true → 30 < t.timer ∧ t' = t ∧
      (∃ q, quatOf _ (delay i).val = some q ∧
        exceeds (q.conj.mul t.medianQuat) thres = true) ∧
      (∀ k, (D.get k).stype ≠ .coreProp → s' k = buff k) ∧
      (∀ k, (D.get k).stype = .coreProp → s' k = delay k)) ∧
    (fuzzy = false → s' = delay) := by
  simp only [fuzzyCheck, hb, Option.bind_eq_bind, Option.bind_some] at h
  cases hq : quatOf _ (delay i).val with
  | none => rw [hq] at h; cases h
  | some q =>
    rw [hq, Option.bind_some] at h
    by_cases hgt : t.timer > nBuff
    · rw [if_pos hgt] at h
      by_cases he : exceeds (q.conj.mul t.medianQuat) thres = true
      · rw [if_pos he] at h
        simp only [pure, Option.some.injEq, Prod.mk.injEq] at h
        obtain ⟨rfl, rfl, rfl⟩ := h
        refine ⟨fun _ => ⟨hgt, rfl, ⟨q, rfl, he⟩, fun k hk => ?_, fun k hk => ?_⟩,
          fun h => Bool.noConfusion h⟩
        · simp only [copyNonPropagationStates, if_neg hk]
        · simp only [copyNonPropagationStates, if_pos hk]
      · rw [if_neg he] at h
        cases hw : t.writeRow (t.timer - nBuff - 1) q with
        | none => rw [hw] at h; cases h
        | some b =>
          rw [hw, Option.bind_some] at h
          simp only [pure, Option.some.injEq, Prod.mk.injEq] at h
          obtain ⟨-, rfl, rfl⟩ := h
          exact ⟨fun h => Bool.noConfusion h, fun _ => rfl⟩
    · rw [if_neg hgt] at h
      cases hw : t.writeRow (t.timer - 1) q with
      | none => rw [hw] at h; cases h
      | some b =>
        rw [hw, Option.bind_some] at h
        simp only [pure, Option.some.injEq, Prod.mk.injEq] at h
        obtain ⟨-, rfl, rfl⟩ := h
        exact ⟨fun h => Bool.noConfusion h, fun _ => rfl⟩

end

/-- **C41, through `ApplyCorrection`.**  If applying a correction ends in a detection, every state
variable that is not propagated has the value from before the correction, whatever the user's
augmentation and sanity check do, and the detector is unchanged. -/
theorem C41_apply_correction {aux : List VarDesc} (uc : UserCalc (coreDef aux)) (t t' : Tracker ℝ)
    (s s' : Vars ℝ (coreDef aux)) (c : Fin (total errLen (coreDef aux)) → ℝ) (thres : ℝ)
    (h : applyCorrection uc t s c thres = some (t', s', true)) :
    t' = t ∧ ∀ k, ((coreDef aux).get k).stype ≠ .coreProp → s' k = s k := by
  simp only [applyCorrection, Option.bind_eq_bind] at h
  cases hc : correct s (if uc.fixedBias = true then zeroBias (uc.augment c) else uc.augment c) with
  | none => rw [hc] at h; cases h
  | some s1 =>
    rw [hc, Option.bind_some] at h
    unfold fuzzyCheck' at h
    split at h
    · cases h
    · cases hb : bestIndex (coreDef aux) with
      | none => simp [fuzzyCheck, hb] at h
      | some i =>
        have := (C41_check hb t t' _ _ s' thres true h).1 rfl
        exact ⟨this.2.1, this.2.2.2.1⟩

/-- Without a detection `ApplyCorrection` is the correction followed by the user's sanity check. -/
theorem applyCorrection_undetected {aux : List VarDesc} (uc : UserCalc (coreDef aux)) (t t' : Tracker ℝ)
    (s s' : Vars ℝ (coreDef aux)) (c : Fin (total errLen (coreDef aux)) → ℝ) (thres : ℝ)
    (hfix : uc.fixedBias = false)
    (h : applyCorrection uc t s c thres = some (t', s', false)) :
    ∃ s1, correct s (uc.augment c) = some s1 ∧ s' = uc.sanity s1 s (uc.augment c) := by
  simp only [applyCorrection, hfix, Bool.false_eq_true, if_false, Option.bind_eq_bind] at h
  cases hc : correct s (uc.augment c) with
  | none => rw [hc] at h; cases h
  | some s1 =>
    rw [hc, Option.bind_some] at h
    refine ⟨s1, rfl, ?_⟩
    unfold fuzzyCheck' at h
    split at h
    · cases h; rfl
    · cases hb : bestIndex (coreDef aux) with
      | none => simp [fuzzyCheck, hb] at h
      | some i => exact (C41_check hb t t' _ _ s' thres false h).2 rfl

/-- **C36, through `ApplyCorrection`.**  For a filter whose biases are not fixed and whose user code
leaves correction and state alone (position and spherical filters), an applied correction changes
every variable, the biases included, by exactly its own part of the correction vector. -/
theorem C36_apply_correction {aux : List VarDesc} (uc : UserCalc (coreDef aux)) (t t' : Tracker ℝ)
    (s s' : Vars ℝ (coreDef aux)) (c : Fin (total errLen (coreDef aux)) → ℝ) (thres : ℝ)
    (hn : ∀ i (hi : i < (coreDef aux).length), (coreDef aux)[i].name = i)
    (hp : PlainQuats (coreDef aux)) (hu : UnitQuats s) (hfix : uc.fixedBias = false)
    (haug : ∀ c, uc.augment c = c) (hsan : ∀ a b c, uc.sanity a b c = a)
    (h : applyCorrection uc t s c thres = some (t', s', false)) :
    ∀ i, CorrectedVal c i ((coreDef aux).get i).kind rfl (s i).val (s' i).val ∧
      (s' i).Q = (s i).Q ∧ (s' i).hasReset = (s i).hasReset := by
  obtain ⟨s1, h1, h2⟩ := applyCorrection_undetected uc t t' s s' c thres hfix h
  rw [haug] at h1 h2
  rw [hsan] at h2
  obtain ⟨s2, h3, h4⟩ := C36_correct s c hn hp hu
  obtain rfl : s1 = s2 := Option.some.inj (h1.symm.trans h3)
  subst h2
  exact h4

/-- **C36, pose filters.**  With the scale check of the pose managers every variable except the
scale still changes by its own part of the correction, and the scale by its own part or, if that
makes it negative, to 0.1. -/
theorem C36_apply_correction_pose {rest : List VarDesc} (uc : UserCalc (coreDef (⟨.vec 1, 5, .aux, 0⟩ :: rest)))
    (t t' : Tracker ℝ) (s s' : Vars ℝ (coreDef (⟨.vec 1, 5, .aux, 0⟩ :: rest)))
    (c : Fin (total errLen (coreDef (⟨.vec 1, 5, .aux, 0⟩ :: rest))) → ℝ) (thres : ℝ)
    (hn : ∀ i (hi : i < (coreDef (⟨.vec 1, 5, .aux, 0⟩ :: rest)).length),
      (coreDef (⟨.vec 1, 5, .aux, 0⟩ :: rest))[i].name = i)
    (hp : PlainQuats (coreDef (⟨.vec 1, 5, .aux, 0⟩ :: rest))) (hu : UnitQuats s)
    (hfix : uc.fixedBias = false)
    (haug : ∀ c, uc.augment c = c) (hsan : ∀ a b c, uc.sanity a b c = scaleSanity a)
    (h : applyCorrection uc t s c thres = some (t', s', false)) :
    (∀ i, i.val ≠ 5 → CorrectedVal c i _ rfl (s i).val (s' i).val) ∧
      ∃ y : Fin 1 → ℝ,
        CorrectedVal c ⟨5, by simp [coreDef, coreDescs]⟩ (.vec 1) rfl
          (s ⟨5, by simp [coreDef, coreDescs]⟩).val y ∧
        (s' ⟨5, by simp [coreDef, coreDescs]⟩).val = if y 0 < 0 then fun _ => 0.1 else y := by
  obtain ⟨s1, h1, h2⟩ := applyCorrection_undetected uc t t' s s' c thres hfix h
  rw [haug] at h1 h2
  rw [hsan] at h2
  obtain ⟨s2, h3, h4⟩ := C36_correct s c hn hp hu
  obtain rfl : s1 = s2 := Option.some.inj (h1.symm.trans h3)
  subst h2
  simp only [scaleSanity]
  refine ⟨fun i hi => ?_, (s1 ⟨5, by simp [coreDef, coreDescs]⟩).val, (h4 _).1, ?_⟩
  · split
    · rw [Function.update_of_ne (by simpa [Fin.ext_iff] using hi)]
      exact (h4 i).1
    · exact (h4 i).1
  · by_cases hl : ((s1 ⟨5, by simp [coreDef, coreDescs]⟩).val : Fin 1 → ℝ) 0 < 0
    · rw [if_pos hl, Function.update_self]
      exact (if_pos hl).symm
    · rw [if_neg hl]
      exact (if_neg hl).symm

/-- C36 on the pose filter: a correction of everything moves the gyro bias, which the fixed-bias
option would have kept. -/
example : ∃ t' s', applyCorrection
      (aux := poseAux) ⟨id, fun a _ _ => scaleSanity a, false⟩ Tracker.reset
      (blankState poseAux 0 0 0).vars (fun i => (i.val + 1 : ℝ)) = some (t', s', false) ∧
      EKFState.b_w s' = ![10, 11, 12] ∧ EKFState.b_a s' = ![13, 14, 15] := by
  have hex : ∃ t' s', applyCorrection
      (aux := poseAux) ⟨id, fun a _ _ => scaleSanity a, false⟩ Tracker.reset
      (blankState poseAux 0 0 0).vars (fun i => (i.val + 1 : ℝ)) = some (t', s', false) := by
    obtain ⟨s', hs, -⟩ := C36_correct (blankState poseAux 0 0 0).vars (fun i => (i.val + 1 : ℝ))
      poseDef_ok.1 poseDef_ok.2 (blank_unitQuats _ _ _ _)
    simp only [applyCorrection, id, Bool.false_eq_true, if_false, hs, Option.bind_eq_bind,
      Option.bind_some]
    have hne : ¬ indexOfBestNonTemporalDriftingState (coreDef poseAux) = some (-1) := by decide
    have hb : bestIndex (coreDef poseAux) = some ⟨6, by decide⟩ := by decide
    simp only [fuzzyCheck', if_neg hne, fuzzyCheck, hb]
    exact ⟨_, _, rfl⟩
  obtain ⟨t', s', h⟩ := hex
  obtain ⟨h1, -⟩ := C36_apply_correction_pose _ _ _ _ _ _ _ poseDef_ok.1 poseDef_ok.2
    (blank_unitQuats _ _ _ _) rfl (fun _ => rfl) (fun _ _ _ => rfl) h
  refine ⟨t', s', h, ?_, ?_⟩
  · have := h1 EKFState.ibw (by decide)
    funext j
    refine (this j).trans ?_
    rw [if_neg (by decide)]
    simp only [ownSegment]
    fin_cases j <;> simp [offset, coreDef, coreDescs, errLen, EKFState.ibw, blankState, Val.reset, Kind.errLen] <;>
      norm_num
  · have := h1 EKFState.iba (by decide)
    funext j
    refine (this j).trans ?_
    rw [if_neg (by decide)]
    simp only [ownSegment]
    fin_cases j <;> simp [offset, coreDef, coreDescs, errLen, EKFState.iba, blankState, Val.reset, Kind.errLen] <;>
      norm_num

/-! ### Median -/

section
variable {R : Type} [LinearOrder R] [Zero R]

omit [LinearOrder R] [Zero R] in
theorem countP_le_of_behind (p : R → Bool) (l : List R) (k : Nat)
    (h : ∀ i (hi : i < l.length), k ≤ i → p l[i] = false) : l.countP p ≤ k := by
  rw [← List.take_append_drop k l, List.countP_append]
  have h0 : (l.drop k).countP p = 0 := by
    rw [List.countP_eq_zero]
    intro a ha
    obtain ⟨j, hj, rfl⟩ := List.getElem_of_mem ha
    rw [List.getElem_drop, h _ _ (by omega)]
    simp
  have h1 : (l.take k).countP p ≤ (l.take k).length := List.countP_le_length
  rw [List.length_take] at h1
  omega

omit [LinearOrder R] [Zero R] in
theorem lt_countP_of_before (p : R → Bool) (l : List R) (k : Nat) (hk : k < l.length)
    (h : ∀ i (hi : i < l.length), i ≤ k → p l[i] = true) : k < l.countP p := by
  rw [← List.take_append_drop (k + 1) l, List.countP_append]
  have h1 : (l.take (k + 1)).countP p = (l.take (k + 1)).length := by
    rw [List.countP_eq_length]
    intro a ha
    obtain ⟨j, hj, rfl⟩ := List.getElem_of_mem ha
    rw [List.length_take] at hj
    rw [List.getElem_take, h _ _ (by omega)]
  rw [h1, List.length_take]
  omega

omit [Zero R] in
theorem nth_eq_sorted {data m : List R} {k : Nat} (h : NthElement data k m) (hk : k < m.length) :
    (data.insertionSort (· ≤ ·))[k]? = some m[k] := by
  have hperm : (data.insertionSort (· ≤ ·)).Perm m :=
    (List.perm_insertionSort (· ≤ ·) data).trans h.perm.symm
  have hsort : (data.insertionSort (· ≤ ·)).Pairwise (· ≤ ·) :=
    List.pairwise_insertionSort (· ≤ ·) data
  generalize data.insertionSort (· ≤ ·) = s at hperm hsort
  have hks : k < s.length := by rw [hperm.length_eq]; exact hk
  rw [List.getElem?_eq_getElem hks, Option.some.injEq]
  have hmono : ∀ i j (hi : i < s.length) (hj : j < s.length), i ≤ j → s[i] ≤ s[j] := by
    intro i j hi hj hij
    rcases hij.lt_or_eq with hlt | rfl
    · exact List.pairwise_iff_getElem.1 hsort i j hi hj hlt
    · exact le_refl _
  apply le_antisymm
  · by_contra hlt
    rw [not_le] at hlt
    have h1 := countP_le_of_behind (fun y => decide (y ≤ m[k])) s k fun i hi hki => by
      have := hmono k i hks hi hki
      simpa using lt_of_lt_of_le hlt this
    have h2 := lt_countP_of_before (fun y => decide (y ≤ m[k])) m k hk fun i hi hik => by
      simpa using h.before i hi hk hik
    rw [hperm.countP_eq] at h1
    omega
  · by_contra hlt
    rw [not_le] at hlt
    have h1 := lt_countP_of_before (fun y => decide (y < m[k])) s k hks fun i hi hik => by
      have := hmono i k hi hks hik
      simpa using lt_of_le_of_lt this hlt
    have h2 := countP_le_of_behind (fun y => decide (y < m[k])) m k fun i hi hki => by
      simpa using h.behind i hi hk hki
    rw [hperm.countP_eq] at h1
    omega

/-- **C42.**  For every data vector: whatever `nth_element` does within its specification, the
result is the element of rank `⌊n/2⌋` of the sorted data. -/
theorem C42_median (data : List R) (x : R) (h : MedianResult data x) (hd : data ≠ []) :
    (data.insertionSort (· ≤ ·))[data.length / 2]? = some x ∧ getMedian data = x := by
  have hl : 0 < data.length := List.length_pos_iff.2 hd
  rw [MedianResult, if_neg (by omega)] at h
  obtain ⟨m, hm, hx⟩ := h
  have hk : data.length / 2 < m.length := by rw [hm.perm.length_eq]; omega
  rw [List.getElem?_eq_getElem hk] at hx
  have := nth_eq_sorted hm hk
  rw [hx] at this
  exact ⟨this, by rw [getMedian, this]⟩

/-- A result exists: the specification of `nth_element` can be met. -/
theorem C42_median_exists (data : List R) : MedianResult data (getMedian data) := by
  by_cases hd : data.length = 0
  · rw [MedianResult, if_pos hd]
    have : data = [] := List.length_eq_zero_iff.1 hd
    subst this
    rfl
  · rw [MedianResult, if_neg hd]
    have hlen : (data.insertionSort (· ≤ ·)).length = data.length :=
      (List.perm_insertionSort (· ≤ ·) data).length_eq
    have hsort : (data.insertionSort (· ≤ ·)).Pairwise (· ≤ ·) :=
      List.pairwise_insertionSort (· ≤ ·) data
    have hmono : ∀ i j (hi : i < (data.insertionSort (· ≤ ·)).length)
        (hj : j < (data.insertionSort (· ≤ ·)).length), i ≤ j →
        (data.insertionSort (· ≤ ·))[i] ≤ (data.insertionSort (· ≤ ·))[j] := by
      intro i j hi hj hij
      rcases hij.lt_or_eq with hlt | rfl
      · exact List.pairwise_iff_getElem.1 hsort i j hi hj hlt
      · exact le_refl _
    refine ⟨data.insertionSort (· ≤ ·), ⟨List.perm_insertionSort _ _,
      fun i hi hk hik => hmono _ _ hi hk hik, fun i hi hk hki => hmono _ _ hk hi hki⟩, ?_⟩
    have hk : data.length / 2 < (data.insertionSort (· ≤ ·)).length := by rw [hlen]; omega
    rw [getMedian, List.getElem?_eq_getElem hk]

/-- **C42, order independence.**  Reordering the data does not change the result. -/
theorem C42_order_independent (data data' : List R) (hp : data.Perm data') (x x' : R)
    (h : MedianResult data x) (h' : MedianResult data' x') : x = x' := by
  by_cases hd : data = []
  · subst hd
    have : data' = [] := hp.nil_eq.symm
    subst this
    simp only [MedianResult, List.length_nil, if_true] at h h'
    rw [h, h']
  · have hd' : data' ≠ [] := fun e => hd (by subst e; exact hp.eq_nil)
    have hl : data.length ≠ 0 := fun e => hd (List.length_eq_zero_iff.1 e)
    -- a result for `data` is one for `data'`
    have : MedianResult data' x := by
      rw [MedianResult, if_neg hl] at h
      obtain ⟨m, hm, hx⟩ := h
      rw [MedianResult, if_neg (by rw [← hp.length_eq]; exact hl), ← hp.length_eq]
      exact ⟨m, ⟨hm.perm.trans hp, hm.before, hm.behind⟩, hx⟩
    rw [← (C42_median data' x this hd').2, ← (C42_median data' x' h' hd').2]

/-- **C42, rank.**  At most `⌊n/2⌋` elements are smaller and at most `n - ⌊n/2⌋ - 1` are larger. -/
theorem C42_rank (data : List R) (x : R) (h : MedianResult data x) (hd : data ≠ []) :
    x ∈ data ∧ data.countP (fun y => decide (y < x)) ≤ data.length / 2 ∧
      data.length / 2 < data.countP (fun y => decide (y ≤ x)) := by
  have hl : 0 < data.length := List.length_pos_iff.2 hd
  rw [MedianResult, if_neg (by omega)] at h
  obtain ⟨m, hm, hx⟩ := h
  have hk : data.length / 2 < m.length := by rw [hm.perm.length_eq]; omega
  rw [List.getElem?_eq_getElem hk, Option.some.injEq] at hx
  subst hx
  refine ⟨hm.perm.mem_iff.1 (List.getElem_mem _), ?_, ?_⟩
  · rw [← hm.perm.countP_eq]
    exact countP_le_of_behind _ m _ fun i hi hki => by simpa using hm.behind i hi hk hki
  · rw [← hm.perm.countP_eq]
    exact lt_countP_of_before _ m _ hk fun i hi hik => by simpa using hm.before i hi hk hik

end

example : MedianResult [(3 : ℚ), 1, 2, 7] 3 := by
  have : getMedian [(3 : ℚ), 1, 2, 7] = 3 := by decide +kernel
  rw [← this]
  exact C42_median_exists _

/-! ### Signs of quaternions -/

/-- Position of `q_wv` in the pose filter. -/
def poseIq : Fin (coreDef poseAux).length := ⟨6, by decide⟩

theorem poseBest : bestIndex (coreDef poseAux) = some poseIq ∧
    ((coreDef poseAux).get poseIq).kind = .quat := by
  constructor
  · decide +kernel
  · rfl

/-- State variables of the pose filter with `q_wv` set. -/
def poseVars (q : Quat ℚ) : Vars ℚ (coreDef poseAux) :=
  Function.update (fun _ => ⟨Val.reset _, 0, false⟩) poseIq ⟨q, 0, false⟩

example : ∃ t acc, runFuzzy poseIq [.check (poseVars ⟨1, 2, 3, 4⟩) (poseVars Quat.one) (1 / 10)]
    (Tracker.reset : Tracker ℚ) [] = some (t, acc) ∧ (1 ≤ t.timer ∧ t.timer ≤ 60) ∧
      ∀ j (hj : j < acc.length), acc.length ≤ j + 30 →
        t.qbuff ⟨j % 30, Nat.mod_lt _ (by decide)⟩ = acc[j].coeffs :=
  C40_window poseBest.1 poseBest.2 _

/-- The median of equal values. -/
theorem getMedian_const {R : Type} [LinearOrder R] [Zero R] (data : List R) (hd : data ≠ []) (x : R)
    (h : ∀ y ∈ data, y = x) : getMedian data = x :=
  h _ (C42_rank data _ (C42_median_exists data) hd).1

/-- **C62, partial.**  If all attitudes in the window are the same unit quaternion `q`, an attitude
`q` or `-q` is not reported, for every non-negative threshold.  Missing: windows that hold both `q`
and `-q`, see `C62_violated`. -/
theorem C62_steady_not_fuzzy_partial {D : List VarDesc} {i : Fin D.length}
    (hb : bestIndex D = some i) (t t' : Tracker ℝ) (delay buff s' : Vars ℝ D) (thres : ℝ)
    (ht : 0 ≤ thres) (q : Quat ℝ) (hq : q.normSq = 1) (hw : ∀ r, t.qbuff r = q.coeffs)
    (hd : quatOf _ (delay i).val = some q ∨
      quatOf _ (delay i).val = some ⟨-q.w, -q.x, -q.y, -q.z⟩) (fuzzy : Bool)
    (h : fuzzyCheck t delay buff thres = some (t', s', fuzzy)) : fuzzy = false := by
  by_contra hf
  have hf : fuzzy = true := by simpa using hf
  subst hf
  obtain ⟨-, -, ⟨q', hq', he⟩, -⟩ := (C41_check hb t t' delay buff s' thres true h).1 rfl
  have hm : t.medianQuat = q := by
    have hcol : ∀ j, getMedian (List.ofFn fun r => t.qbuff r j) = q.coeffs j := by
      intro j
      refine getMedian_const _ ?_ _ ?_
      · intro h0
        have := congrArg List.length h0
        rw [List.length_ofFn] at this
        cases this
      · intro y hy
        rw [List.mem_ofFn] at hy
        obtain ⟨r, rfl⟩ := hy
        rw [hw]
    simp only [Tracker.medianQuat, hcol]
    simp [Quat.coeffs]
  rw [hm] at he
  simp only [Quat.normSq] at hq
  have key : ∀ s : ℝ, s = 1 ∨ s = -1 → ∀ e : Quat ℝ, e = ⟨s, 0, 0, 0⟩ →
      Tracker.exceeds e thres = false := by
    rintro s hs e rfl
    have : s ≠ 0 := by rcases hs with rfl | rfl <;> norm_num
    simp [Tracker.exceeds, this, ht]
  have : Tracker.exceeds (q'.conj.mul q) thres = false := by
    rcases hd with hd | hd
    · rw [hq', Option.some.injEq] at hd
      subst hd
      refine key 1 (Or.inl rfl) _ ?_
      simp only [Quat.conj, Quat.mul, Quat.mk.injEq]
      refine ⟨by linarith, by ring, by ring, by ring⟩
    · rw [hq', Option.some.injEq] at hd
      subst hd
      refine key (-1) (Or.inr rfl) _ ?_
      simp only [Quat.conj, Quat.mul, Quat.mk.injEq]
      refine ⟨by linarith, by ring, by ring, by ring⟩
  rw [this] at he
  cases he

/-- **C62 is violated.**  Thirty-one checks of one and the same rotation, given by `q` and `-q` in
turn, end in a detection with the default threshold: the component-wise median mixes signs. -/
theorem C62_violated :
    let q : Quat ℚ := ⟨3 / 5, -4 / 5, 0, 0⟩
    let q' : Quat ℚ := ⟨-3 / 5, 4 / 5, 0, 0⟩
    let op := fun x => FuzzyOp.check (poseVars x) (poseVars x) (1 / 10)
    q.toRot = q'.toRot ∧ q.normSq = 1 ∧
    ∃ t acc, runFuzzy poseIq (List.replicate 15 [op q, op q']).flatten Tracker.reset [] = some (t, acc) ∧
      (fuzzyCheck t (poseVars q) (poseVars q) (1 / 10)).map (fun r => r.2.2) = some true := by
  refine ⟨by decide +kernel, by decide +kernel, ?_⟩
  have key : ((runFuzzy poseIq (List.replicate 15 [FuzzyOp.check (poseVars ⟨3 / 5, -4 / 5, 0, 0⟩)
      (poseVars ⟨3 / 5, -4 / 5, 0, 0⟩) (1 / 10), FuzzyOp.check (poseVars ⟨-3 / 5, 4 / 5, 0, 0⟩)
      (poseVars ⟨-3 / 5, 4 / 5, 0, 0⟩) (1 / 10)]).flatten (Tracker.reset : Tracker ℚ) []).bind
      fun r => (fuzzyCheck r.1 (poseVars ⟨3 / 5, -4 / 5, 0, 0⟩) (poseVars ⟨3 / 5, -4 / 5, 0, 0⟩)
        (1 / 10)).map (fun r => r.2.2)) = some true := by decide +kernel
  cases h : runFuzzy poseIq (List.replicate 15 [FuzzyOp.check (poseVars ⟨3 / 5, -4 / 5, 0, 0⟩)
      (poseVars ⟨3 / 5, -4 / 5, 0, 0⟩) (1 / 10), FuzzyOp.check (poseVars ⟨-3 / 5, 4 / 5, 0, 0⟩)
      (poseVars ⟨-3 / 5, 4 / 5, 0, 0⟩) (1 / 10)]).flatten (Tracker.reset : Tracker ℚ) [] with
  | none => rw [h] at key; cases key
  | some r =>
    rw [h] at key
    exact ⟨r.1, r.2, rfl, key⟩

end MSF
