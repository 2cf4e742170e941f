import Verif.Model.SphericalHandler
import Verif.Props.Managers

/-!
# C127: what the handlers of the spherical sensor make of their messages, and where the filter starts
-/

namespace MSF

open Matrix EKFState

/-! ### Specification -/

/-- The value set or reported last, if any. -/
def lastOf {E α : Type} (f : E → Option α) (es : List E) : Option α := es.reverse.findSome? f

theorem lastOf_append_one {E α : Type} (f : E → Option α) (es : List E) (e : E) :
    lastOf f (es ++ [e]) = (f e).or (lastOf f es) := by
  simp only [lastOf, List.reverse_append, List.reverse_singleton, List.singleton_append, List.findSome?_cons]
  cases f e <;> rfl

namespace SphericalEvent

def angle? : SphericalEvent ℝ → Option (ℝ × ℝ)
  | .angle _ p => some (p 0, p 1)
  | _ => none

def distance? : SphericalEvent ℝ → Option ℝ
  | .distance _ p => some (p 2)
  | _ => none

def angleNoise? : SphericalEvent ℝ → Option ℝ
  | .angleNoise n => some n
  | _ => none

def distanceNoise? : SphericalEvent ℝ → Option ℝ
  | .distanceNoise n => some n
  | _ => none

def angleDelay? : SphericalEvent ℝ → Option ℝ
  | .angleDelay d => some d
  | _ => none

def distanceDelay? : SphericalEvent ℝ → Option ℝ
  | .distanceDelay d => some d
  | _ => none

end SphericalEvent

open SphericalEvent in
/-- The measurement that a message should become after the events `es`. -/
noncomputable def wantedSpherical (es : List (SphericalEvent ℝ)) : SphericalEvent ℝ → List (MadeSpherical ℝ)
  | .angle t p => [.angle (t - (lastOf SphericalEvent.angleDelay? es).getD 0) ![p 0, p 1]
      (((lastOf SphericalEvent.angleNoise? es).getD (1 / 1000000)) ^ 2 • 1)]
  | .distance t p => [.distance (t - (lastOf SphericalEvent.distanceDelay? es).getD 0) (p 2)
      (((lastOf SphericalEvent.distanceNoise? es).getD (1 / 1000000)) ^ 2 • 1)]
  | _ => []

/-! ### Helpers -/

namespace SphericalHandlers

theorem run_append (es es' : List (SphericalEvent ℝ)) : ∀ h : SphericalHandlers ℝ,
    h.run (es ++ es') = (((h.run es).1.run es').1, (h.run es).2 ++ ((h.run es).1.run es').2) := by
  induction es with
  | nil => intro h; simp [run]
  | cons e es ih =>
    intro h
    simp only [run, List.cons_append, ih, List.append_assoc]

/-- The handlers hold what was set last, and with a fixed covariance what was reported last. -/
theorem run_params (fixed : Bool) (es : List (SphericalEvent ℝ)) :
    ((init fixed).run es).1.useFixedCovariance = fixed ∧
    ((init fixed).run es).1.n_za = (lastOf SphericalEvent.angleNoise? es).getD (1 / 1000000) ∧
    ((init fixed).run es).1.n_zd = (lastOf SphericalEvent.distanceNoise? es).getD (1 / 1000000) ∧
    ((init fixed).run es).1.delay_a = (lastOf SphericalEvent.angleDelay? es).getD 0 ∧
    ((init fixed).run es).1.delay_d = (lastOf SphericalEvent.distanceDelay? es).getD 0 ∧
    (((init fixed).run es).1.z_a = if fixed then
      ((lastOf SphericalEvent.angle? es).map fun a => ![a.1, a.2]).getD 0 else 0) ∧
    (((init fixed).run es).1.z_d = if fixed then (lastOf SphericalEvent.distance? es).getD 0 else 0) := by
  induction es using List.reverseRecOn with
  | nil => cases fixed <;> simp [run, init, lastOf]
  | append_singleton es e ih =>
    obtain ⟨i1, i2, i3, i4, i5, i6, i7⟩ := ih
    rw [run_append]
    simp only [lastOf_append_one]
    cases e with
    | angle t p =>
      simp only [run, step, angleCallback, i1]
      cases fixed
      · simp_all [SphericalEvent.angle?, SphericalEvent.distance?, SphericalEvent.angleNoise?,
          SphericalEvent.distanceNoise?, SphericalEvent.angleDelay?, SphericalEvent.distanceDelay?]
      · simp_all [SphericalEvent.angle?, SphericalEvent.distance?, SphericalEvent.angleNoise?,
          SphericalEvent.distanceNoise?, SphericalEvent.angleDelay?, SphericalEvent.distanceDelay?]
    | distance t p =>
      simp only [run, step, distanceCallback, i1]
      cases fixed
      · simp_all [SphericalEvent.angle?, SphericalEvent.distance?, SphericalEvent.angleNoise?,
          SphericalEvent.distanceNoise?, SphericalEvent.angleDelay?, SphericalEvent.distanceDelay?]
      · simp_all [SphericalEvent.angle?, SphericalEvent.distance?, SphericalEvent.angleNoise?,
          SphericalEvent.distanceNoise?, SphericalEvent.angleDelay?, SphericalEvent.distanceDelay?]
    | _ =>
      simp_all [run, step, SphericalEvent.angle?, SphericalEvent.distance?, SphericalEvent.angleNoise?,
          SphericalEvent.distanceNoise?, SphericalEvent.angleDelay?, SphericalEvent.distanceDelay?]

end SphericalHandlers

/-! ### C127 -/

/-- **C127 (partial).**  With a fixed covariance, whatever has happened before: a message becomes exactly one
measurement with its angles or distance, its stamp less the delay set last, and the noise set last; nothing else
makes a measurement.  Missing: without a fixed covariance, see `C127_dropped_violated`. -/
theorem C127_measurements_partial (es : List (SphericalEvent ℝ)) (e : SphericalEvent ℝ) :
    ((SphericalHandlers.init true).run (es ++ [e])).2 =
      ((SphericalHandlers.init true).run es).2 ++ wantedSpherical es e := by
  obtain ⟨i1, i2, i3, i4, i5, -, -⟩ := SphericalHandlers.run_params true es
  rw [SphericalHandlers.run_append]
  have hd : ∀ (n : Nat) (x : ℝ), (Matrix.diagonal fun _ : Fin n => x * x) = x ^ 2 • 1 := by
    intro n x
    rw [smul_one_eq_diagonal, sq]
  cases e with
  | angle t p =>
    simp only [SphericalHandlers.run, SphericalHandlers.step, SphericalHandlers.angleCallback, i1, i2, i4,
      wantedSpherical, ← hd]
    simp
  | distance t p =>
    simp only [SphericalHandlers.run, SphericalHandlers.step, SphericalHandlers.distanceCallback, i1, i3, i5,
      wantedSpherical, ← hd]
    simp
  | _ => simp [SphericalHandlers.run, SphericalHandlers.step, wantedSpherical]

/-- **C127 is violated without a fixed covariance**: the messages have no covariance, so every message of every
history is dropped. -/
theorem C127_dropped_violated (es : List (SphericalEvent ℝ)) :
    ((SphericalHandlers.init false).run es).2 = [] := by
  induction es using List.reverseRecOn with
  | nil => rfl
  | append_singleton es e ih =>
    obtain ⟨i1, -⟩ := SphericalHandlers.run_params false es
    rw [SphericalHandlers.run_append, ih]
    cases e with
    | angle t p => simp [SphericalHandlers.run, SphericalHandlers.step, SphericalHandlers.angleCallback, i1]
    | distance t p => simp [SphericalHandlers.run, SphericalHandlers.step, SphericalHandlers.distanceCallback, i1]
    | _ => simp [SphericalHandlers.run, SphericalHandlers.step]

/-- Where the sensor is in a filter initialised after the events `es`. -/
def StartsAt (fixed : Bool) (es : List (SphericalEvent ℝ)) (p : V3 ℝ) : Prop :=
  ∀ yaw p_ip time, ∃ m,
    sphericalInit yaw ((SphericalHandlers.init fixed).run es).1.z_a ((SphericalHandlers.init fixed).run es).1.z_d
      p_ip time = some m ∧ sensorPos 5 (coreInit m).vars = some p

theorem startsAt_point (fixed : Bool) (es : List (SphericalEvent ℝ)) {d : ℝ} {z : Fin 2 → ℝ}
    (hz : ((SphericalHandlers.init fixed).run es).1.z_a = z)
    (hd : ((SphericalHandlers.init fixed).run es).1.z_d = d) :
    StartsAt fixed es ![d * Real.sin (z 0) * Real.cos (z 1), d * Real.sin (z 0) * Real.sin (z 1),
      d * Real.cos (z 0)] := by
  intro yaw p_ip time
  obtain ⟨q, hq⟩ : ∃ q, yawQuat yaw = some q := ⟨_, yawQuat_eq yaw⟩
  refine ⟨_, by rw [sphericalInit, hq, hz, hd]; rfl, ?_⟩
  rw [offsetInit_sensor]

theorem StartsAt.unique {fixed : Bool} {es : List (SphericalEvent ℝ)} {p p' : V3 ℝ} (h : StartsAt fixed es p)
    (h' : StartsAt fixed es p') : p = p' := by
  obtain ⟨m, hm, e⟩ := h 0 0 0
  obtain ⟨m', hm', e'⟩ := h' 0 0 0
  obtain rfl := Option.some.inj (hm.symm.trans hm')
  exact Option.some.inj (e.symm.trans e')

/-- **C127, start (partial).**  If the last angles and the last distance were measured at the same place, the filter
starts there, for every initial yaw and offset of the sensor; without any message it starts at the origin.
Missing: angles and distance of different times, see `C127_start_violated`. -/
theorem C127_start_partial (es : List (SphericalEvent ℝ)) :
    (∀ (p : V3 ℝ) (r θ φ : ℝ), lastOf SphericalEvent.angle? es = some (θ, φ) →
      lastOf SphericalEvent.distance? es = some r → IsSpherical p r θ φ → StartsAt true es p) ∧
    (lastOf SphericalEvent.distance? es = none → StartsAt true es 0) := by
  obtain ⟨-, -, -, -, -, i6, i7⟩ := SphericalHandlers.run_params true es
  constructor
  · intro p r θ φ ha hd hp
    rw [ha] at i6
    rw [hd] at i7
    have := startsAt_point true es i6 i7
    have e : (![r * Real.sin θ * Real.cos φ, r * Real.sin θ * Real.sin φ, r * Real.cos θ] : V3 ℝ) = p := by
      obtain ⟨h0, h1, h2, -⟩ := hp
      funext i
      fin_cases i
      · exact h0.symm
      · exact h1.symm
      · exact h2.symm
    rw [← e]
    simpa using this
  · intro hd
    rw [hd] at i7
    have := startsAt_point true es rfl i7
    have e : (0 : V3 ℝ) = ![0, 0, 0] := by funext i; fin_cases i <;> rfl
    rw [e]
    simpa using this

/-- Messages that report the place of the sensor at their time exactly. -/
def Truthful (T : ℝ → V3 ℝ) : SphericalEvent ℝ → Prop
  | .angle t p => ∃ r, IsSpherical (T t) r (p 0) (p 1)
  | .distance t p => ∃ θ φ, IsSpherical (T t) (p 2) θ φ
  | _ => False

/-- The full claim: after exact messages of both kinds the filter starts at a place where the sensor has been. -/
def StartClaim : Prop :=
  ∀ (T : ℝ → V3 ℝ) (es : List (SphericalEvent ℝ)) (p : V3 ℝ), (∀ e ∈ es, Truthful T e) →
    lastOf SphericalEvent.angle? es ≠ none → lastOf SphericalEvent.distance? es ≠ none →
    StartsAt true es p → ∃ t, p = T t

/-- **C127 is violated for the start**: angles and distance of different times are combined to a place where the
sensor has never been. -/
theorem C127_start_violated : ¬ StartClaim := by
  intro h
  have hp := Real.pi_pos
  have hs := startsAt_point true [.distance 0 ![0, 0, 1], .angle 1 ![Real.pi / 2, 0, 0]]
    (d := 1) (z := ![Real.pi / 2, 0]) (by simp [SphericalHandlers.run, SphericalHandlers.step,
      SphericalHandlers.angleCallback, SphericalHandlers.distanceCallback, SphericalHandlers.init])
    (by simp [SphericalHandlers.run, SphericalHandlers.step,
      SphericalHandlers.angleCallback, SphericalHandlers.distanceCallback, SphericalHandlers.init])
  obtain ⟨t, ht⟩ := h (fun t => ![2 * t, 0, 1 - t]) _ _ (by
    intro e he
    simp only [List.mem_cons, List.not_mem_nil, or_false] at he
    rcases he with rfl | rfl
    · exact ⟨0, 0, by simp, by simp, by simp, by simp, ⟨le_rfl, hp.le⟩, ⟨by linarith, hp.le⟩⟩
    · refine ⟨2, by simp, by simp, by simp, by norm_num, ⟨?_, ?_⟩, ⟨?_, ?_⟩⟩ <;> simp <;> linarith)
    (by simp [lastOf, SphericalEvent.angle?]) (by simp [lastOf, SphericalEvent.distance?]) hs
  have h0 := congrFun ht 0
  have h2 := congrFun ht 2
  simp at h0 h2
  linarith

/-- Non-vacuity of C127: a target straight ahead, seen by both sensors, with changed delay and noise. -/
example : StartsAt true [.angleDelay 1, .angle 5 ![Real.pi / 2, 0, 7], .distanceNoise 2, .distance 6 ![0, 0, 3]]
      ![3, 0, 0] ∧
    ((SphericalHandlers.init true).run
      [.angleDelay 1, .angle 5 ![Real.pi / 2, 0, 7], .distanceNoise 2, .distance 6 ![0, 0, 3]]).2.length = 2 := by
  have hp := Real.pi_pos
  refine ⟨(C127_start_partial _).1 _ 3 (Real.pi / 2) 0 rfl rfl
    ⟨by simp, by simp, by simp, by norm_num, ⟨by linarith, by linarith⟩, ⟨by linarith, hp.le⟩⟩, ?_⟩
  simp [SphericalHandlers.run, SphericalHandlers.step, SphericalHandlers.angleCallback,
    SphericalHandlers.distanceCallback, SphericalHandlers.init]

end MSF
