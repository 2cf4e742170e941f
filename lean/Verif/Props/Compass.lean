import Verif.Model.Compass
import Verif.Lemmas.Managers

/-!
# C116: the filter starts with the heading of the compass

`init_yaw_from_compass.py` exists to initialise a filter with the heading of another device.  A heading is
a direction in the horizontal plane; the filter has it if the forward axis of its initial attitude points
there.
-/

namespace MSF

open Matrix

/-- The horizontal direction `(c, s)` of the forward axis that a message tells.  An orientation tells it if
the forward axis is not within 10⁻¹⁵ of the vertical. -/
def CompassMsg.Says : CompassMsg → ℝ → ℝ → Prop
  | .imu q, c, s | .orientationQuaternion q, c, s => q.normSq = 1 ∧
      ∃ k z : ℝ, 1 / 10 ^ 15 < k ∧ q.toRot *ᵥ ![1, 0, 0] = ![k * c, k * s, z]
  | .orientationDegrees v, c, s => c = Real.cos (v 2 / 180 * Real.pi) ∧ s = Real.sin (v 2 / 180 * Real.pi)
  | .headingRadians h, c, s => c = Real.cos h ∧ s = Real.sin h

/-- A message with an orientation of an IMU or an angle between -180 and 180 degrees. -/
def CompassMsg.Handled : CompassMsg → Prop
  | .imu _ => True
  | .orientationQuaternion _ => False
  | .orientationDegrees v => |v 2| ≤ 180
  | .headingRadians h => |h| ≤ Real.pi

/-- After a message and two seconds without a further one, the filter is initialised with the heading the
message tells. -/
def compassClaim (ok : CompassMsg → Prop) : Prop :=
  ∀ (es : List CompassEvent) (m : CompassMsg) (n : Nat) (c s : ℝ), ok m → c * c + s * s = 1 → m.Says c s →
    ∀ (p_vc p_ip : V3 ℝ) (time : ℝ), ∃ i, positionInit
      (Compass.run (es ++ .msg m :: .tick :: List.replicate n .tick)).yawInit p_vc p_ip time = some i ∧
      (EKFState.q i.vars).toRot *ᵥ ![1, 0, 0] = ![c, s, 0]

/-- Further sending does not change the parameter. -/
theorem compass_ticks (c : Compass) (hi : c.isInit = true) (hy : c.yawInit = clampYaw c.heading) (n : Nat) :
    (List.replicate n CompassEvent.tick).foldl Compass.step c = c := by
  induction n with
  | zero => rfl
  | succ n ih =>
    rw [List.replicate_succ, List.foldl_cons]
    have : c.step .tick = c := by
      rw [Compass.step, if_pos hi, ← hy]
    rw [this, ih]

theorem compass_run (es : List CompassEvent) (m : CompassMsg) (n : Nat) (x : ℝ)
    (h : ∀ c : Compass, (c.callback m).heading = x ∧ (c.callback m).isInit = true) :
    (Compass.run (es ++ .msg m :: .tick :: List.replicate n .tick)).yawInit = clampYaw x := by
  rw [Compass.run, List.foldl_append, List.foldl_cons, List.foldl_cons]
  set c := es.foldl Compass.step ⟨0, false, 0⟩
  obtain ⟨h1, h2⟩ := h c
  have e : (c.step (.msg m)).step .tick = ⟨x, true, clampYaw x⟩ := by
    change (c.callback m).step .tick = _
    rw [Compass.step, if_pos h2, h1]
    simp only [h1, h2]
  rw [e, compass_ticks _ rfl rfl]

theorem yaw_forward (d : ℝ) (p_vc p_ip : V3 ℝ) (time : ℝ) :
    ∃ i, positionInit d p_vc p_ip time = some i ∧ (EKFState.q i.vars).toRot *ᵥ ![1, 0, 0] =
      ![Real.cos (d / 180 * Real.pi), Real.sin (d / 180 * Real.pi), 0] := by
  refine ⟨_, by rw [positionInit, yawQuat_eq, Option.bind_eq_bind, Option.bind_some], ?_⟩
  change (⟨Real.cos (d / 180 * Real.pi / 2), 0, 0, Real.sin (d / 180 * Real.pi / 2)⟩ : Quat ℝ).toRot *ᵥ _ = _
  set t := d / 180 * Real.pi with ht
  have hc : Real.cos t = 1 - 2 * (Real.sin (t / 2) * Real.sin (t / 2)) := by
    have := Real.cos_two_mul (t / 2)
    have h2 := Real.sin_sq_add_cos_sq (t / 2)
    rw [show 2 * (t / 2) = t by ring] at this
    rw [this]; nlinarith
  have hs : Real.sin t = 2 * (Real.sin (t / 2) * Real.cos (t / 2)) := by
    have := Real.sin_two_mul (t / 2)
    rw [show 2 * (t / 2) = t by ring] at this
    rw [this]; ring
  funext i
  fin_cases i
  · simp [Quat.toRot, mulVec, dotProduct, Fin.sum_univ_three]; rw [hc]; ring
  · simp [Quat.toRot, mulVec, dotProduct, Fin.sum_univ_three]; rw [hs]; ring
  · simp [Quat.toRot, mulVec, dotProduct, Fin.sum_univ_three]

theorem clampYaw_eq {x : ℝ} (h : |x| ≤ 180) : clampYaw x = x := by
  rw [abs_le] at h
  rw [clampYaw, min_eq_right h.2, max_eq_right h.1]

theorem degrees_back (x : ℝ) : degrees x / 180 * Real.pi = x := by
  have := Real.pi_ne_zero
  rw [degrees]; field_simp

theorem degrees_le {x : ℝ} (h : |x| ≤ Real.pi) : |degrees x| ≤ 180 := by
  have hp := Real.pi_pos
  rw [degrees, abs_mul, abs_of_pos (div_pos (by norm_num) hp)]
  calc |x| * (180 / Real.pi) ≤ Real.pi * (180 / Real.pi) := by gcongr
    _ = 180 := by field_simp

/-- The yaw angle of tf points along the horizontal part of the forward axis. -/
theorem eulerYaw_dir {q : Quat ℝ} {c s k z : ℝ} (hq : q.normSq = 1) (hk : 1 / 10 ^ 15 < k)
    (hcs : c * c + s * s = 1) (h : q.toRot *ᵥ ![1, 0, 0] = ![k * c, k * s, z]) :
    Real.cos (eulerYaw q) = c ∧ Real.sin (eulerYaw q) = s := by
  have hk0 : 0 < k := lt_trans (by norm_num) hk
  have hn : q.x * q.x + q.y * q.y + q.z * q.z + q.w * q.w = 1 := by
    rw [← hq, Quat.normSq]; ring
  have h0 := congrFun h 0
  have h1 := congrFun h 1
  simp [Quat.toRot, mulVec, dotProduct, Fin.sum_univ_three] at h0 h1
  have e0 : 1 - 2 * (q.y * q.y + q.z * q.z) / 1 = k * c := by rw [← h0]; ring
  have e1 : 2 * (q.x * q.y + q.z * q.w) / 1 = k * s := by rw [← h1]; ring
  have hsq : Real.sqrt (k * c * (k * c) + k * s * (k * s)) = k := by
    rw [show k * c * (k * c) + k * s * (k * s) = k ^ 2 * (c * c + s * s) by ring, hcs, mul_one,
      Real.sqrt_sq hk0.le]
  have hy : eulerYaw q = Complex.arg ⟨k * c, k * s⟩ := by
    simp only [eulerYaw, hn, e0, e1, hsq]
    rw [if_neg (by norm_num), if_pos (lt_trans (by norm_num) hk)]
  have hnorm : ‖(⟨k * c, k * s⟩ : ℂ)‖ = k := by
    rw [Complex.norm_eq_sqrt_sq_add_sq]
    rw [show (k * c) ^ 2 + (k * s) ^ 2 = k * c * (k * c) + k * s * (k * s) by ring]
    exact hsq
  have hne : (⟨k * c, k * s⟩ : ℂ) ≠ 0 := by
    rw [← norm_pos_iff, hnorm]; exact hk0
  rw [hy, Complex.cos_arg hne, Complex.sin_arg, hnorm]
  exact ⟨by field_simp, by field_simp⟩

/-- **C116, partial**: whatever happened before, a filter that is initialised after an IMU orientation, or
an angle between -180 and 180 degrees, starts with the heading the message tells.
Missing: angles outside this range and messages with only a quaternion, where the claim is false
(`C116_range_violated`, `C116_quaternion_violated`). -/
theorem C116_heading_partial : compassClaim CompassMsg.Handled := by
  intro es m n c s hm hcs hs p_vc p_ip time
  obtain ⟨x, hx, hb, h0, h1⟩ : ∃ x, (∀ c : Compass, (c.callback m).heading = x ∧ (c.callback m).isInit = true) ∧
      |x| ≤ 180 ∧ Real.cos (x / 180 * Real.pi) = c ∧ Real.sin (x / 180 * Real.pi) = s := by
    cases m with
    | imu q =>
      obtain ⟨hq, k, z, hk, h⟩ := hs
      refine ⟨degrees (eulerYaw q), fun _ => ⟨rfl, rfl⟩, degrees_le ?_, ?_⟩
      · unfold eulerYaw
        simp only
        split_ifs
        · rw [abs_zero]; exact Real.pi_pos.le
        · exact Complex.abs_arg_le_pi _
        · rw [abs_zero]; exact Real.pi_pos.le
      · rw [degrees_back]; exact eulerYaw_dir hq hk hcs h
    | orientationQuaternion q => exact hm.elim
    | orientationDegrees v => exact ⟨v 2, fun _ => ⟨rfl, rfl⟩, hm, hs.1.symm, hs.2.symm⟩
    | headingRadians h =>
      refine ⟨degrees h, fun _ => ⟨rfl, rfl⟩, degrees_le hm, ?_⟩
      rw [degrees_back]; exact ⟨hs.1.symm, hs.2.symm⟩
  obtain ⟨i, hi, hf⟩ := yaw_forward (clampYaw x) p_vc p_ip time
  refine ⟨i, by rw [compass_run es m n x hx]; exact hi, ?_⟩
  rw [hf, clampYaw_eq hb, h0, h1]

/-- **C116 is violated by compass angles between 0 and 360 degrees**: the parameter cannot exceed 180, so
that every heading beyond starts as 180. -/
theorem C116_range_violated (h : ℝ) (h1 : Real.pi < h) (h2 : h < 2 * Real.pi) :
    ¬ compassClaim (· = .headingRadians h) := by
  intro hc
  obtain ⟨i, hi, hf⟩ := hc [] (.headingRadians h) 0 (Real.cos h) (Real.sin h) rfl
    (by nlinarith [Real.sin_sq_add_cos_sq h]) ⟨rfl, rfl⟩ 0 0 0
  rw [compass_run [] _ 0 (degrees h) (fun _ => ⟨rfl, rfl⟩)] at hi
  have hp := Real.pi_pos
  have hd : 180 < degrees h := by
    rw [degrees]
    calc (180 : ℝ) = Real.pi * (180 / Real.pi) := by field_simp
      _ < h * (180 / Real.pi) := by gcongr
  have hcl : clampYaw (degrees h) = 180 := by
    rw [clampYaw, min_eq_left hd.le]; norm_num
  obtain ⟨i', hi', hf'⟩ := yaw_forward 180 0 0 0
  rw [hcl, hi', Option.some.injEq] at hi
  rw [← hi, hf'] at hf
  have e1 := congrFun hf 1
  simp at e1
  have : Real.sin h < 0 := by
    rw [← Real.sin_sub_two_pi]
    exact Real.sin_neg_of_neg_of_neg_pi_lt (by linarith) (by linarith)
  linarith

/-- **C116 is violated by messages with only a quaternion**: the callback fails, the heading is unknown. -/
theorem C116_quaternion_violated (q : Quat ℝ) (c s : ℝ) (hcs : c * c + s * s = 1)
    (hs : (CompassMsg.orientationQuaternion q).Says c s) (hne : s ≠ 0) :
    ¬ compassClaim (· = .orientationQuaternion q) := by
  intro hc
  obtain ⟨i, hi, hf⟩ := hc [] (.orientationQuaternion q) 0 c s rfl hcs hs 0 0 0
  obtain ⟨i', hi', hf'⟩ := yaw_forward 0 0 0 0
  have e : (Compass.run ([] ++ .msg (.orientationQuaternion q) :: .tick :: List.replicate 0 .tick)).yawInit
      = 0 := rfl
  rw [e, hi', Option.some.injEq] at hi
  rw [← hi, hf'] at hf
  have e1 := congrFun hf 1
  simp at e1
  exact hne e1.symm

/-- Without a message the parameter of the filter is left alone. -/
theorem C116_silent (es : List CompassEvent) (h : ∀ m, CompassEvent.msg m ∉ es) :
    Compass.run es = ⟨0, false, 0⟩ := by
  induction es with
  | nil => rfl
  | cons e es ih =>
    cases e with
    | msg m => exact absurd List.mem_cons_self (h m)
    | tick => exact ih fun m hm => h m (List.mem_cons_of_mem _ hm)

/-- A tilted orientation that tells a direction: turned upwards and to the left. -/
example : (CompassMsg.imu ⟨1 / 2, 1 / 2, 1 / 2, 1 / 2⟩).Says 0 1 ∧
    (CompassMsg.imu ⟨1 / 2, 1 / 2, 1 / 2, 1 / 2⟩).Handled := by
  refine ⟨⟨by norm_num [Quat.normSq], 1, 0, by norm_num, ?_⟩, trivial⟩
  funext i
  fin_cases i <;> simp [Quat.toRot, mulVec, dotProduct, Fin.sum_univ_three] <;> norm_num

/-- The same direction as a quaternion message, which the last violation concerns, and a heading of 270
degrees for the first. -/
example : (CompassMsg.orientationQuaternion ⟨1 / 2, 1 / 2, 1 / 2, 1 / 2⟩).Says 0 1 ∧
    Real.pi < 3 * Real.pi / 2 ∧ 3 * Real.pi / 2 < 2 * Real.pi := by
  have := Real.pi_pos
  refine ⟨⟨by norm_num [Quat.normSq], 1, 0, by norm_num, ?_⟩, by linarith, by linarith⟩
  funext i
  fin_cases i <;> simp [Quat.toRot, mulVec, dotProduct, Fin.sum_univ_three] <;> norm_num

end MSF
