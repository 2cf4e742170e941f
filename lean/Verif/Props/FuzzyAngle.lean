import Verif.Props.Fuzzy
import Mathlib.Analysis.SpecialFunctions.Trigonometric.Bounds

/-!
# C84: when the fuzzy check raises the alarm
-/

namespace MSF
open Real

/-- `l` times the quaternion of the rotation by `a` about the axis `n`. -/
noncomputable def turn (l a : ℝ) (n : Fin 3 → ℝ) : Quat ℝ :=
  ⟨l * cos (a / 2), l * (sin (a / 2) * n 0), l * (sin (a / 2) * n 1), l * (sin (a / 2) * n 2)⟩

/-- Largest component of the axis. -/
noncomputable def axisMax (n : Fin 3 → ℝ) : ℝ := max (max |n 0| |n 1|) |n 2|

theorem maxAbs3 (x y z : ℝ) : max (max (max x y) z) (-(min (min x y) z)) = max (max |x| |y|) |z| := by
  simp only [abs_eq_max_neg, ← max_neg_neg]
  ac_rfl

theorem maxAbs3_mul (k x y z : ℝ) :
    max (max |k * x| |k * y|) |k * z| = |k| * max (max |x| |y|) |z| := by
  rw [abs_mul, abs_mul, abs_mul, ← mul_max_of_nonneg _ _ (abs_nonneg k),
    ← mul_max_of_nonneg _ _ (abs_nonneg k)]

theorem exceeds_turn {l a : ℝ} (hl : l ≠ 0) (h0 : 0 ≤ a) (h1 : a < π) (n : Fin 3 → ℝ) (thres : ℝ) :
    Tracker.exceeds (turn l a n) thres = true ↔ thres < 2 * tan (a / 2) * axisMax n := by
  have hc : 0 < cos (a / 2) := cos_pos_of_mem_Ioo ⟨by linarith, by linarith⟩
  have hs : 0 ≤ sin (a / 2) := sin_nonneg_of_nonneg_of_le_pi (by linarith) (by linarith)
  have hw : l * cos (a / 2) ≠ 0 := mul_ne_zero hl hc.ne'
  unfold Tracker.exceeds turn
  simp only [hw, if_false, decide_eq_true_eq, maxAbs3]
  rw [maxAbs3_mul, maxAbs3_mul, abs_mul, abs_of_pos hc, abs_of_nonneg hs]
  have hl' : |l| ≠ 0 := abs_ne_zero.2 hl
  have e : |l| * (sin (a / 2) * max (max |n 0| |n 1|) |n 2|) / (|l| * cos (a / 2)) * 2 =
      2 * tan (a / 2) * axisMax n := by
    rw [tan_eq_sin_div_cos]
    unfold axisMax
    field_simp
  rw [e]

theorem axisMax_le_one {n : Fin 3 → ℝ} (hn : n 0 ^ 2 + n 1 ^ 2 + n 2 ^ 2 = 1) : axisMax n ≤ 1 := by
  unfold axisMax
  refine max_le (max_le ?_ ?_) ?_ <;> refine abs_le_one_iff_mul_self_le_one.2 ?_ <;>
    nlinarith [sq_nonneg (n 0), sq_nonneg (n 1), sq_nonneg (n 2)]

theorem one_le_axisMax {n : Fin 3 → ℝ} (hn : n 0 ^ 2 + n 1 ^ 2 + n 2 ^ 2 = 1) :
    1 ≤ √3 * axisMax n := by
  have hb : 0 ≤ axisMax n := (abs_nonneg (n 2)).trans (le_max_right _ _)
  have key : ∀ i, n i ^ 2 ≤ axisMax n ^ 2 := by
    intro i
    rw [← sq_abs]
    refine pow_le_pow_left₀ (abs_nonneg _) ?_ 2
    unfold axisMax
    fin_cases i
    · exact (le_max_left _ _).trans (le_max_left _ _)
    · exact (le_max_right _ _).trans (le_max_left _ _)
    · exact le_max_right _ _
  have h3 : (1 : ℝ) ^ 2 ≤ (√3 * axisMax n) ^ 2 := by
    rw [mul_pow, sq_sqrt (by norm_num)]
    linarith [key 0, key 1, key 2]
  exact abs_le_of_sq_le_sq' h3 (by positivity) |>.2

variable {D : List VarDesc} {i : Fin D.length}

/-- **C84.** Let the window be full, and let its median be, up to length and sign, the new attitude
turned by the angle `a` about the axis `n`.  The check raises the alarm exactly if
`2 tan (a / 2)` times the largest component of `n` exceeds the threshold. -/
theorem C84_alarm_iff (hb : bestIndex D = some i) (t t' : Tracker ℝ) (delay buff s' : Vars ℝ D)
    (thres : ℝ) (fz : Bool) (h : fuzzyCheck t delay buff thres = some (t', s', fz))
    (hfull : nBuff < t.timer) (q : Quat ℝ) (hq : quatOf _ (delay i).val = some q)
    (l a : ℝ) (n : Fin 3 → ℝ) (hl : l ≠ 0) (h0 : 0 ≤ a) (h1 : a < π)
    (hm : q.conj.mul t.medianQuat = turn l a n) :
    fz = true ↔ thres < 2 * tan (a / 2) * axisMax n := by
  rw [← exceeds_turn hl h0 h1 n thres, ← hm]
  unfold fuzzyCheck at h
  simp only [hb, hq, Option.bind_eq_bind, Option.bind_some, gt_iff_lt, if_pos hfull] at h
  split at h
  · rename_i he
    cases h
    exact ⟨fun _ => he, fun _ => rfl⟩
  · rename_i he
    obtain ⟨w, -, h⟩ := Option.bind_eq_some_iff.1 h
    cases h
    exact ⟨fun hh => (Bool.false_ne_true hh).elim, fun hh => (he hh).elim⟩

/-- **C84, bounds.** For a unit axis: no alarm while `2 tan (a / 2)` is at most the threshold, an
alarm when the angle is more than `√3` thresholds. -/
theorem C84_alarm_bounds (hb : bestIndex D = some i) (t t' : Tracker ℝ) (delay buff s' : Vars ℝ D)
    (thres : ℝ) (fz : Bool) (h : fuzzyCheck t delay buff thres = some (t', s', fz))
    (hfull : nBuff < t.timer) (q : Quat ℝ) (hq : quatOf _ (delay i).val = some q)
    (l a : ℝ) (n : Fin 3 → ℝ) (hl : l ≠ 0) (h0 : 0 ≤ a) (h1 : a < π)
    (hn : n 0 ^ 2 + n 1 ^ 2 + n 2 ^ 2 = 1)
    (hm : q.conj.mul t.medianQuat = turn l a n) :
    (2 * tan (a / 2) ≤ thres → fz = false) ∧ (√3 * thres < a → fz = true) := by
  have key := C84_alarm_iff hb t t' delay buff s' thres fz h hfull q hq l a n hl h0 h1 hm
  have ht : a / 2 ≤ tan (a / 2) := by
    rcases h0.eq_or_lt with rfl | hp
    · simp
    · exact (lt_tan (by linarith) (by linarith)).le
  have h3 := one_le_axisMax hn
  constructor
  · intro hle
    rw [← Bool.not_eq_true, key, not_lt]
    refine le_trans ?_ hle
    exact mul_le_of_le_one_right (by linarith) (axisMax_le_one hn)
  · intro hlt
    rw [key]
    have hs : 0 < √(3 : ℝ) := sqrt_pos.2 (by norm_num)
    have h4 : √3 * thres < √3 * (2 * tan (a / 2) * axisMax n) := by
      refine hlt.trans_le ?_
      have : a * 1 ≤ (2 * tan (a / 2)) * (√3 * axisMax n) :=
        mul_le_mul (by linarith) h3 zero_le_one (by linarith)
      linarith
    exact lt_of_mul_lt_mul_left h4 hs.le

/-- Median of a window whose rows are all equal. -/
theorem medianQuat_const (k : Nat) (q : Quat ℝ) :
    Tracker.medianQuat ⟨k, fun _ => q.coeffs⟩ = q := by
  have hcol : ∀ j, getMedian (List.ofFn fun _ : Fin nBuff => q.coeffs j) = q.coeffs j := by
    intro j
    refine getMedian_const _ ?_ _ ?_
    · intro h0
      have := congrArg List.length h0
      rw [List.length_ofFn] at this
      cases this
    · intro y hy
      rw [List.mem_ofFn] at hy
      obtain ⟨r, rfl⟩ := hy
      rfl
  simp only [Tracker.medianQuat, hcol]
  simp [Quat.coeffs]

/-- Non-vacuity of C84: in the pose filter, a full window of the attitude 1 and a new attitude turned
about the first axis. -/
example (a : ℝ) (h0 : 0 ≤ a) (h1 : a < π) (buff : Vars ℝ (coreDef poseAux)) (thres : ℝ) :
    ∃ t' s' fz, fuzzyCheck (⟨31, fun _ => (⟨1, 0, 0, 0⟩ : Quat ℝ).coeffs⟩ : Tracker ℝ)
        (Function.update (fun _ => ⟨Val.reset _, 0, false⟩) poseIq
          ⟨(⟨cos (a / 2), -sin (a / 2), 0, 0⟩ : Quat ℝ), 0, false⟩) buff thres = some (t', s', fz) ∧
      (fz = true ↔ thres < 2 * tan (a / 2)) := by
  have hD : ∀ (t : Tracker ℝ) (d : Vars ℝ (coreDef poseAux)) (q : Quat ℝ), t.timer = 31 →
      quatOf _ (d poseIq).val = some q →
      ∃ t' s' fz, fuzzyCheck t d buff thres = some (t', s', fz) := by
    intro t d q ht hq
    unfold fuzzyCheck
    simp only [poseBest.1, hq, Option.bind_eq_bind, Option.bind_some]
    rw [if_pos (by rw [ht]; decide)]
    split
    · exact ⟨_, _, _, rfl⟩
    · have : t.timer - nBuff - 1 < nBuff := by rw [ht]; decide
      simp only [Tracker.writeRow, dif_pos this, Option.bind_some]
      exact ⟨_, _, _, rfl⟩
  set d : Vars ℝ (coreDef poseAux) := Function.update (fun _ => ⟨Val.reset _, 0, false⟩) poseIq
    ⟨(⟨cos (a / 2), -sin (a / 2), 0, 0⟩ : Quat ℝ), 0, false⟩ with hd
  have hq : quatOf _ (d poseIq).val = some ⟨cos (a / 2), -sin (a / 2), 0, 0⟩ := by
    rw [hd, Function.update_self]
    rfl
  obtain ⟨t', s', fz, h⟩ := hD ⟨31, fun _ => (⟨1, 0, 0, 0⟩ : Quat ℝ).coeffs⟩ d _ rfl hq
  refine ⟨t', s', fz, h, ?_⟩
  have key := C84_alarm_iff poseBest.1 _ t' d buff s' thres fz h (by decide) _ hq 1 a ![1, 0, 0]
    one_ne_zero h0 h1 (by
      rw [medianQuat_const]
      simp [Quat.conj, Quat.mul, turn])
  rw [key]
  simp [axisMax]

end MSF
