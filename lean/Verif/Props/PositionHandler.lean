import Verif.Model.PositionHandler
import Mathlib.LinearAlgebra.Matrix.PosDef
import Mathlib.Data.Real.StarOrdered

/-!
# C115: positions are weighted with the covariance they come with
-/

namespace MSF

open Matrix

/-! ### What the messages say -/

/-- The covariance of a satellite fix, row-major as announced in sensor_msgs/NavSatFix. -/
def rowMajor3 (a : Fin 9 → ℝ) : M33 ℝ := Matrix.of fun r c => a ⟨r * 3 + c, by omega⟩

/-- The covariance a message comes with. -/
def PositionMsg.statedCov : PositionMsg ℝ → Option (M33 ℝ)
  | .navSat _ _ .unknown _ => none
  | .navSat _ _ _ cov => some (rowMajor3 cov)
  | _ => none

/-- The stamp of a message. -/
def PositionMsg.stamp : PositionMsg ℝ → ℝ
  | .point t _ => t
  | .transform _ t _ => t
  | .navSat t _ _ _ => t

/-- The position of a message. -/
def PositionMsg.pos : PositionMsg ℝ → V3 ℝ
  | .point _ p => p
  | .transform _ _ p => p
  | .navSat _ p _ _ => p

/-- A transform message that is not every fifth. -/
def PositionMsg.Throttled : PositionMsg ℝ → Prop
  | .transform seq _ _ => seq % 5 ≠ 0
  | _ => False

/-- The noise configured last. -/
noncomputable def noiseAfter (es : List (PositionEvent ℝ)) : ℝ :=
  ((es.filterMap fun | .setNoises n => some n | _ => none).getLast?).getD (1 / 1000000)

/-- The delay configured last. -/
def delayAfter (es : List (PositionEvent ℝ)) : ℝ :=
  ((es.filterMap fun | .setDelay d => some d | _ => none).getLast?).getD 0

/-- The covariance a measurement has to have: the configured or the stated one, if any. -/
noncomputable def wantedCov (fixed : Bool) (es : List (PositionEvent ℝ)) (m : PositionMsg ℝ) : Option (M33 ℝ) :=
  if fixed then some (diagonal fun _ => noiseAfter es ^ 2) else m.statedCov

/-- The full claim. -/
def positionClaim : Prop :=
  ∀ (fixed : Bool) (es : List (PositionEvent ℝ)) (m : PositionMsg ℝ), (∀ C, m.statedCov = some C → C.PosSemidef) →
    ((PositionHandler.init fixed).run (es ++ [.msg m])).2 = ((PositionHandler.init fixed).run es).2 ++
      ((wantedCov fixed es m).map fun C => MadePosition.mk (m.stamp - delayAfter es) m.pos C).toList

/-! ### Helpers -/

theorem PositionHandler.run_append (es es' : List (PositionEvent ℝ)) : ∀ h : PositionHandler ℝ,
    h.run (es ++ es') = (((h.run es).1.run es').1, (h.run es).2 ++ ((h.run es).1.run es').2) := by
  induction es with
  | nil => intro h; simp [PositionHandler.run]
  | cons e es ih =>
    intro h
    simp only [PositionHandler.run, List.cons_append, ih, List.append_assoc]

theorem PositionHandler.process_params (h : PositionHandler ℝ) (t : ℝ) (p : V3 ℝ) (c : Fin 9 → ℝ) :
    (h.process t p c).1.useFixedCovariance = h.useFixedCovariance ∧ (h.process t p c).1.n_zp = h.n_zp ∧
    (h.process t p c).1.delay = h.delay ∧
    (h.process t p c).1.z_p = ((h.process t p c).2.map MadePosition.z_p).getD h.z_p := by
  unfold PositionHandler.process
  dsimp only
  split <;> simp

theorem PositionHandler.callback_params (h : PositionHandler ℝ) (m : PositionMsg ℝ) :
    (h.callback m).1.useFixedCovariance = h.useFixedCovariance ∧ (h.callback m).1.n_zp = h.n_zp ∧
    (h.callback m).1.delay = h.delay ∧
    (h.callback m).1.z_p = ((h.callback m).2.map MadePosition.z_p).getD h.z_p := by
  cases m with
  | point t p => exact h.process_params _ _ _
  | transform s t p =>
    simp only [PositionHandler.callback]
    split
    · simp
    · exact h.process_params _ _ _
  | navSat t p k c => exact h.process_params _ _ _

theorem getLast?_getD_append_one {α : Type} (l : List α) (a d : α) : ((l ++ [a]).getLast?).getD d = a := by simp

theorem PositionHandler.run_params (fixed : Bool) (es : List (PositionEvent ℝ)) :
    ((PositionHandler.init fixed).run es).1.useFixedCovariance = fixed ∧
    ((PositionHandler.init fixed).run es).1.n_zp = noiseAfter es ∧
    ((PositionHandler.init fixed).run es).1.delay = delayAfter es ∧
    ((PositionHandler.init fixed).run es).1.z_p =
      ((((PositionHandler.init fixed).run es).2.getLast?).map MadePosition.z_p).getD 0 := by
  induction es using List.reverseRecOn with
  | nil => simp [PositionHandler.run, PositionHandler.init, noiseAfter, delayAfter]
  | append_singleton es e ih =>
    obtain ⟨i1, i2, i3, i4⟩ := ih
    rw [PositionHandler.run_append]
    generalize (PositionHandler.init fixed).run es = r at i1 i2 i3 i4 ⊢
    obtain ⟨h, ms⟩ := r
    dsimp only at i1 i2 i3 i4
    cases e with
    | msg m =>
      obtain ⟨c1, c2, c3, c4⟩ := h.callback_params m
      simp only [PositionHandler.run, PositionHandler.step, c1, c2, c3, c4, i1, i2, i3]
      refine ⟨trivial, by simp [noiseAfter], by simp [delayAfter], ?_⟩
      cases hc : (h.callback m).2 with
      | none => simp [i4]
      | some x => simp
    | setNoises n =>
      simp only [PositionHandler.run, PositionHandler.step, i1, i3, i4]
      refine ⟨trivial, by simp [noiseAfter], by simp [delayAfter], by simp⟩
    | setDelay d =>
      simp only [PositionHandler.run, PositionHandler.step, i1, i2, i4]
      refine ⟨trivial, by simp [noiseAfter], by simp [delayAfter], by simp⟩

theorem ofArray9_eq (c : Fin 9 → ℝ) : ofArray9 c = (rowMajor3 c)ᵀ := rfl

theorem navSat_stated {t : ℝ} {p : V3 ℝ} {k : CovType} {c : Fin 9 → ℝ} (hk : k ≠ .unknown) :
    (PositionMsg.navSat t p k c).statedCov = some (rowMajor3 c) ∧
    (if k = .known then c else if k = .diagonalKnown then c else if k = .approximated then c else 0) = c := by
  cases k
  · exact absurd rfl hk
  all_goals exact ⟨rfl, by simp⟩

/-- What one message does. -/
theorem PositionHandler.callback_made (h : PositionHandler ℝ) (m : PositionMsg ℝ) (ht : ¬ m.Throttled)
    (hs : ∀ C, m.statedCov = some C → C.IsSymm) (h0 : ∀ C, m.statedCov = some C → C 0 0 ≠ 0) :
    (h.callback m).2 = (if h.useFixedCovariance then some (diagonal fun _ => h.n_zp ^ 2) else m.statedCov).map
      fun C => MadePosition.mk (m.stamp - h.delay) m.pos C := by
  have main : ∀ t p, (h.process t p 0).2 =
      (if h.useFixedCovariance then some (diagonal fun _ => h.n_zp ^ 2) else none).map
        fun C => MadePosition.mk (t - h.delay) p C := by
    intro t p
    unfold PositionHandler.process
    cases hf : h.useFixedCovariance with
    | false => simp
    | true => simp [positionCov, pow_two]
  cases m with
  | point t p => exact main t p
  | transform s t p =>
    have hs' : ¬ s % 5 ≠ 0 := ht
    simp only [PositionHandler.callback, if_neg hs']
    exact main t p
  | navSat t p k c =>
    by_cases hk : k = .unknown
    · subst hk
      exact main t p
    · obtain ⟨e1, e2⟩ := navSat_stated (t := t) (p := p) (c := c) hk
      simp only [PositionHandler.callback, e2, e1]
      have hc : c 0 ≠ 0 := h0 _ e1
      have hsy := hs _ e1
      unfold PositionHandler.process
      cases hf : h.useFixedCovariance with
      | true => simp [positionCov, pow_two, PositionMsg.stamp, PositionMsg.pos]
      | false =>
        simp only [positionCov, ofArray9_eq, hsy.eq]
        simp [hc, PositionMsg.stamp, PositionMsg.pos]

/-! ### C115 -/

/-- **C115, partial.**  Whatever has happened to the handler before: a message becomes exactly one measurement if a
fixed covariance is configured or the message comes with one, and none otherwise.  The measurement has the position
of the message, its stamp less the delay set last, and the noise set last or the covariance of the message.
Missing: transform messages other than every fifth (`C115_throttle_violated`) and covariances whose first entry is
zero (`C115_zero_violated`). -/
theorem C115_measurements_partial (fixed : Bool) (es : List (PositionEvent ℝ)) (m : PositionMsg ℝ)
    (hs : ∀ C, m.statedCov = some C → C.PosSemidef) (ht : ¬ m.Throttled)
    (h0 : ∀ C, m.statedCov = some C → C 0 0 ≠ 0) :
    ((PositionHandler.init fixed).run (es ++ [.msg m])).2 = ((PositionHandler.init fixed).run es).2 ++
      ((wantedCov fixed es m).map fun C => MadePosition.mk (m.stamp - delayAfter es) m.pos C).toList := by
  obtain ⟨i1, i2, i3, -⟩ := PositionHandler.run_params fixed es
  have hc := ((PositionHandler.init fixed).run es).1.callback_made m ht
    (fun C hC => by simpa using (hs C hC).isHermitian) h0
  rw [i1, i2, i3] at hc
  rw [PositionHandler.run_append]
  simp only [PositionHandler.run, PositionHandler.step, hc, wantedCov, List.append_nil]

/-- Nothing else makes a measurement. -/
theorem C115_settings (fixed : Bool) (es : List (PositionEvent ℝ)) (x : ℝ) :
    ((PositionHandler.init fixed).run (es ++ [.setNoises x])).2 = ((PositionHandler.init fixed).run es).2 ∧
    ((PositionHandler.init fixed).run (es ++ [.setDelay x])).2 = ((PositionHandler.init fixed).run es).2 := by
  constructor <;> (rw [PositionHandler.run_append]; simp [PositionHandler.run, PositionHandler.step])

/-- **C115, validity.**  If every stated covariance is one, every measurement has a valid noise matrix. -/
theorem C115_valid (fixed : Bool) (es : List (PositionEvent ℝ))
    (hs : ∀ m, PositionEvent.msg m ∈ es → ∀ C, m.statedCov = some C → C.PosSemidef) :
    ∀ x ∈ ((PositionHandler.init fixed).run es).2, x.R_.PosSemidef := by
  have hp : ∀ (h : PositionHandler ℝ) t p c, (h.useFixedCovariance = false → (rowMajor3 c).PosSemidef) →
      ∀ x ∈ (h.process t p c).2, x.R_.PosSemidef := by
    intro h t p c hc x hx
    unfold PositionHandler.process at hx
    dsimp only at hx
    split at hx
    · simp at hx
    · cases hf : h.useFixedCovariance with
      | true =>
        simp only [positionCov, hf, if_true, Option.mem_def, Option.some.injEq] at hx
        rw [← hx]
        exact posSemidef_diagonal_iff.2 fun _ => mul_self_nonneg _
      | false =>
        simp only [positionCov, hf, Option.mem_def, Option.some.injEq] at hx
        rw [← hx]
        exact (hc hf).transpose
  have hz : (rowMajor3 0).PosSemidef := by
    have : rowMajor3 0 = 0 := rfl
    rw [this]
    exact PosSemidef.zero
  induction es using List.reverseRecOn with
  | nil => simp [PositionHandler.run]
  | append_singleton es e ih =>
    intro x hx
    rw [PositionHandler.run_append] at hx
    simp only [PositionHandler.run, List.append_nil, List.mem_append, Option.mem_toList] at hx
    rcases hx with hx | hx
    · exact ih (fun m hm => hs m (List.mem_append_left _ hm)) x hx
    · cases e with
      | setNoises n => simp [PositionHandler.step] at hx
      | setDelay n => simp [PositionHandler.step] at hx
      | msg m =>
        have hm := hs m (by simp)
        cases m with
        | point t p => exact hp _ _ _ _ (fun _ => hz) x hx
        | transform s t p =>
          simp only [PositionHandler.step, PositionHandler.callback] at hx
          split at hx
          · simp at hx
          · exact hp _ _ _ _ (fun _ => hz) x hx
        | navSat t p k c =>
          by_cases hk : k = .unknown
          · subst hk
            exact hp _ _ _ _ (fun _ => hz) x hx
          · obtain ⟨e1, e2⟩ := navSat_stated (t := t) (p := p) (c := c) hk
            simp only [PositionHandler.step, PositionHandler.callback, e2] at hx
            exact hp _ _ _ _ (fun _ => hm _ e1) x hx

/-- **C115, initial position.**  The position `Init` starts from is that of the last measurement, zero if there was
none. -/
theorem C115_initial_position (fixed : Bool) (es : List (PositionEvent ℝ)) :
    ((PositionHandler.init fixed).run es).1.z_p =
      ((((PositionHandler.init fixed).run es).2.getLast?).map MadePosition.z_p).getD 0 :=
  (PositionHandler.run_params fixed es).2.2.2

/-- **C115 is violated by throttling.**  With a fixed covariance a transform message is dropped because of its
sequence number. -/
theorem C115_throttle_violated : ¬ positionClaim := by
  intro h
  have := h true [] (.transform 1 0 0) (by simp [PositionMsg.statedCov])
  simp [PositionHandler.run, PositionHandler.step, PositionHandler.callback, wantedCov] at this

/-- **C115 is violated by covariances whose first entry is zero.**  A position known exactly in the direction east
and with variance one in the others is dropped. -/
theorem C115_zero_violated : ∃ m : PositionMsg ℝ, m.statedCov = some (diagonal ![0, 1, 1]) ∧
    ((PositionHandler.init false).run [.msg m]).2 = [] := by
  refine ⟨.navSat 0 0 .known ![0, 0, 0, 0, 1, 0, 0, 0, 1], ?_, ?_⟩
  · simp only [PositionMsg.statedCov, Option.some.injEq]
    ext i j
    fin_cases i <;> fin_cases j <;> rfl
  · simp [PositionHandler.run, PositionHandler.step, PositionHandler.callback, PositionHandler.process,
      PositionHandler.init]

/-- **C115, invalid covariances.**  A matrix that is no covariance is used as one if its first entry is not zero:
a satellite receiver that reports -1 for "unknown" in every variance gets fused with negative variances. -/
theorem C115_invalid_violated : ∃ m : PositionMsg ℝ,
    ((PositionHandler.init false).run [.msg m]).2 = [⟨0, 0, diagonal fun _ => -1⟩] := by
  refine ⟨.navSat 0 0 .approximated ![-1, 0, 0, 0, -1, 0, 0, 0, -1], ?_⟩
  simp only [PositionHandler.run, PositionHandler.step, PositionHandler.callback, PositionHandler.process,
    PositionHandler.init, positionCov]
  simp
  ext i j
  fin_cases i <;> fin_cases j <;> simp [ofArray9]

/-- **C115, the warning of `Init`.**  `ReceivedFirstMeasurement`, by which the manager decides whether to warn that
there is no position to start from, is true after a message that was discarded. -/
theorem C115_first_violated (t : ℝ) (p : V3 ℝ) :
    ((PositionHandler.init false).run [.msg (.point t p)]).2 = [] ∧
    ((PositionHandler.init false).run [.msg (.point t p)]).1.receivedFirst = true ∧
    ((PositionHandler.init false).run [.msg (.point t p)]).1.z_p = 0 := by
  simp [PositionHandler.run, PositionHandler.step, PositionHandler.callback, PositionHandler.process,
    PositionHandler.init]

/-- The hypotheses of `C115_measurements_partial` and `C115_valid` can be met: a satellite fix with unit covariance
after a change of the delay, fused at its stamp less the delay. -/
example : let m : PositionMsg ℝ := .navSat 5 ![1, 2, 3] .known ![1, 0, 0, 0, 1, 0, 0, 0, 1]
    (∀ C, m.statedCov = some C → C.PosSemidef) ∧ ¬ m.Throttled ∧ (∀ C, m.statedCov = some C → C 0 0 ≠ 0) ∧
    ((PositionHandler.init false).run [.setDelay 2, .msg m]).2 = [⟨3, ![1, 2, 3], 1⟩] := by
  intro m
  have hm : m.statedCov = some 1 := by
    simp only [m, PositionMsg.statedCov, Option.some.injEq]
    ext i j
    fin_cases i <;> fin_cases j <;> rfl
  have h1 : ∀ C, m.statedCov = some C → C.PosSemidef := fun C hC => by
    rw [hm] at hC; cases hC; exact PosSemidef.one
  have h2 : ∀ C, m.statedCov = some C → C 0 0 ≠ 0 := fun C hC => by
    rw [hm] at hC; cases hC; simp
  refine ⟨h1, id, h2, ?_⟩
  have := C115_measurements_partial false [.setDelay 2] m h1 id h2
  simp only [List.cons_append, List.nil_append] at this
  rw [this]
  simp [wantedCov, hm, PositionHandler.run, PositionHandler.step, delayAfter, m, PositionMsg.stamp, PositionMsg.pos]
  norm_num

end MSF
