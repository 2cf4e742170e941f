import Verif.Model.Handlers
import Mathlib.Algebra.Order.Field.Basic
import Mathlib.Algebra.Order.BigOperators.Group.List
import Mathlib.Tactic.Ring
import Mathlib.Tactic.Linarith
import Mathlib.Tactic.NormNum
import Mathlib.Tactic.FieldSimp
import Mathlib.Tactic.FinCases
import Mathlib.Tactic.IntervalCases
import Mathlib.Data.Fin.VecNotation

/-! # Properties of the message handlers (C45, C49, C50, C51, C65) -/

namespace MSF

/-! ### C45: rate limit of the pose sensor -/

section
variable {R : Type} [Field R] [LinearOrder R]

/-- Messages the handler is willing to use at all. -/
def Usable (fixedCov : Bool) (k : PoseMsgKind) : Prop :=
  k = .poseWithCovariance ∨ k = .odometry ∨ fixedCov = true

theorem callback_cases (h : PoseHandler R) (k : PoseMsgKind) (t : R) :
    (Usable h.useFixedCovariance k ∧ h.minimumDt - 1 / 1000 < t - h.previous ∧
      (h.callback k t).2 = true ∧
      (h.callback k t).1 = { h with previous := t, receivedFirst := true }) ∨
    (¬ (Usable h.useFixedCovariance k ∧ h.minimumDt - 1 / 1000 < t - h.previous) ∧
      (h.callback k t).2 = false ∧ (h.callback k t).1.previous = h.previous ∧
      (h.callback k t).1.minimumDt = h.minimumDt ∧
      (h.callback k t).1.useFixedCovariance = h.useFixedCovariance) := by
  have hp : ∀ g : PoseHandler R,
      (g.minimumDt - 1 / 1000 < t - g.previous ∧ (g.process t).2 = true ∧
        (g.process t).1 = { g with previous := t, receivedFirst := true }) ∨
      (¬ (g.minimumDt - 1 / 1000 < t - g.previous) ∧ (g.process t).2 = false ∧
        (g.process t).1.previous = g.previous ∧ (g.process t).1.minimumDt = g.minimumDt ∧
        (g.process t).1.useFixedCovariance = g.useFixedCovariance) := by
    intro g
    by_cases hc : t - g.previous ≤ g.minimumDt - 1 / 1000
    · right
      have e : g.process t = ({ g with receivedFirst := true }, false) := if_pos hc
      rw [e]
      exact ⟨not_lt.2 hc, rfl, rfl, rfl, rfl⟩
    · left
      have e : g.process t = ({ g with receivedFirst := true, previous := t }, true) := if_neg hc
      rw [e]
      exact ⟨not_le.1 hc, rfl, rfl⟩
  rcases hp h with ⟨h1, h2, h3⟩ | ⟨h1, h2⟩
  · cases k
    · left; exact ⟨Or.inl rfl, h1, h2, h3⟩
    · left; exact ⟨Or.inr (Or.inl rfl), h1, h2, h3⟩
    all_goals
      by_cases hf : h.useFixedCovariance = true
      · left
        refine ⟨Or.inr (Or.inr hf), h1, ?_⟩
        have e : ∀ x y : PoseHandler R × Bool,
            (if h.useFixedCovariance = true then x else y) = x := fun _ _ => if_pos hf
        simp only [PoseHandler.callback, e]
        exact ⟨h2, h3⟩
      · right
        simp [PoseHandler.callback, hf, Usable]
  · right
    refine ⟨fun hh => h1 hh.2, ?_⟩
    cases k
    · exact h2
    · exact h2
    all_goals
      by_cases hf : h.useFixedCovariance = true
      · have e : ∀ x y : PoseHandler R × Bool,
            (if h.useFixedCovariance = true then x else y) = x := fun _ _ => if_pos hf
        simp only [PoseHandler.callback, e]
        exact h2
      · simp [PoseHandler.callback, hf]

theorem run_chain (ms : List (PoseMsgKind × R)) : ∀ h : PoseHandler R,
    List.IsChain (fun a b => h.minimumDt - 1 / 1000 < b - a) (h.previous :: (h.run ms).2) := by
  induction ms with
  | nil => intro h; simp [PoseHandler.run]
  | cons m ms ih =>
    intro h
    simp only [PoseHandler.run]
    rcases callback_cases h m.1 m.2 with ⟨_, h1, h2, h3⟩ | ⟨_, h2, h3, h4, _⟩
    · have := ih (h.callback m.1 m.2).1
      rw [h3] at this
      rw [h2, if_pos rfl, h3]
      exact List.IsChain.cons_cons h1 this
    · have := ih (h.callback m.1 m.2).1
      rw [h3, h4] at this
      rw [h2]
      simpa using this

theorem run_params (ms : List (PoseMsgKind × R)) : ∀ h : PoseHandler R,
    (h.run ms).1.minimumDt = h.minimumDt ∧
    (h.run ms).1.useFixedCovariance = h.useFixedCovariance ∧
    (h.run ms).1.previous = (h.run ms).2.getLast?.getD h.previous := by
  induction ms with
  | nil => intro h; simp [PoseHandler.run]
  | cons m ms ih =>
    intro h
    simp only [PoseHandler.run]
    obtain ⟨i1, i2, i3⟩ := ih (h.callback m.1 m.2).1
    rcases callback_cases h m.1 m.2 with ⟨_, h1, h2, h3⟩ | ⟨_, h2, h3, h4, h5⟩
    · rw [i1, i2, i3, h2, if_pos rfl, h3]
      refine ⟨rfl, rfl, ?_⟩
      dsimp only
      rw [List.getLast?_cons]
      rfl
    · rw [i1, i2, i3, h2, h3, h4, h5]
      exact ⟨rfl, rfl, by simp⟩

theorem run_append (ms ms' : List (PoseMsgKind × R)) : ∀ h : PoseHandler R,
    (h.run (ms ++ ms')).2 = (h.run ms).2 ++ ((h.run ms).1.run ms').2 ∧
    (h.run (ms ++ ms')).1 = ((h.run ms).1.run ms').1 := by
  induction ms with
  | nil => intro h; simp [PoseHandler.run]
  | cons m ms ih =>
    intro h
    simp only [PoseHandler.run, List.cons_append]
    obtain ⟨i1, i2⟩ := ih (h.callback m.1 m.2).1
    rw [i1, i2]
    refine ⟨?_, rfl⟩
    split <;> simp

/-- **C45 (rate limit).**  In every message sequence consecutive accepted measurements are more than
`minimum_dt` − 1 ms apart. -/
theorem C45_rate_limit (fixedCov : Bool) (minDt : R) (ms : List (PoseMsgKind × R)) :
    List.IsChain (fun a b => minDt - 1 / 1000 < b - a)
      ((PoseHandler.init fixedCov minDt).run ms).2 :=
  (run_chain ms (PoseHandler.init fixedCov minDt)).tail

/-- **C45 (no unnecessary loss).**  After any sequence with last accepted stamp `a`, a usable message
is accepted if and only if its stamp is later than `a` by more than `minimum_dt` − 1 ms. -/
theorem C45_accepts (fixedCov : Bool) (minDt : R) (ms : List (PoseMsgKind × R)) (k : PoseMsgKind)
    (a t : R) (ha : ((PoseHandler.init fixedCov minDt).run ms).2.getLast? = some a)
    (hk : Usable fixedCov k) :
    ((PoseHandler.init fixedCov minDt).run (ms ++ [(k, t)])).2 =
      ((PoseHandler.init fixedCov minDt).run ms).2 ++
        (if minDt - 1 / 1000 < t - a then [t] else []) := by
  rw [(run_append ms _ _).1]
  congr 1
  obtain ⟨i1, i2, i3⟩ := run_params ms (PoseHandler.init fixedCov minDt)
  rw [ha] at i3
  simp only [Option.getD_some] at i3
  change _ = minDt at i1
  change _ = fixedCov at i2
  generalize ((PoseHandler.init fixedCov minDt).run ms).1 = g at i1 i2 i3 ⊢
  simp only [PoseHandler.run]
  rcases callback_cases g k t with ⟨_, h1, h2, h3⟩ | ⟨h1, h2, _⟩
  · rw [i1, i3] at h1
    rw [h2, if_pos rfl, if_pos h1]
  · rw [i1, i2, i3] at h1
    rw [h2, if_neg (fun h => h1 ⟨hk, h⟩)]
    simp

/-- **C45 (no covariance).**  Messages without covariance are never used unless fixed covariances are
configured, and do not disturb the rate limit. -/
theorem C45_unusable (fixedCov : Bool) (minDt : R) (ms : List (PoseMsgKind × R)) (k : PoseMsgKind)
    (t : R) (ms' : List (PoseMsgKind × R)) (hk : ¬ Usable fixedCov k) :
    ((PoseHandler.init fixedCov minDt).run (ms ++ (k, t) :: ms')).2 =
      ((PoseHandler.init fixedCov minDt).run (ms ++ ms')).2 := by
  rw [(run_append ms _ _).1, (run_append ms _ _).1]
  congr 1
  obtain ⟨_, i2, _⟩ := run_params ms (PoseHandler.init fixedCov minDt)
  generalize ((PoseHandler.init fixedCov minDt).run ms).1 = g at i2 ⊢
  have hf : g.useFixedCovariance = fixedCov := i2
  have hfalse : fixedCov = false := by
    cases fixedCov
    · rfl
    · exact absurd (Or.inr (Or.inr rfl)) hk
  have : g.callback k t = (g, false) := by
    cases k
    · exact absurd (Or.inl rfl) hk
    · exact absurd (Or.inr (Or.inl rfl)) hk
    all_goals simp [PoseHandler.callback, hf, hfalse]
  simp only [PoseHandler.run, this]
  simp

/-- **C65 is violated: first measurement.**  No measurement with a stamp of at most
`minimum_dt` − 1 ms is ever used as the first one, since the time of the previous measurement starts
at 0. -/
theorem C65_first_dropped_violated (fixedCov : Bool) (minDt : R)
    (ms : List (PoseMsgKind × R)) (h : ∀ m ∈ ms, m.2 ≤ minDt - 1 / 1000) :
    ((PoseHandler.init fixedCov minDt).run ms).2 = [] := by
  suffices ∀ g : PoseHandler R, g.previous = 0 → g.minimumDt = minDt → (g.run ms).2 = [] from
    this _ rfl rfl
  induction ms with
  | nil => intros; rfl
  | cons m ms ih =>
    intro g g0 gm
    have hm := h m (by simp)
    rcases callback_cases g m.1 m.2 with ⟨_, h1, _⟩ | ⟨_, h2, h3, h4, _⟩
    · rw [g0, gm, sub_zero] at h1
      exact absurd hm (not_le.2 h1)
    · simp only [PoseHandler.run, h2]
      simpa using ih (fun x hx => h x (by simp [hx])) _ (h3.trans g0) (h4.trans gm)

end

section
variable {R : Type} [Field R] [LinearOrder R] [IsStrictOrderedRing R]

/-- **C65 is violated: clock set back.**  Once a measurement with stamp `a` was accepted, every later
message with a stamp up to `a` is dropped, however many there are. -/
theorem C65_backward_stuck_violated (fixedCov : Bool) (minDt : R) (hdt : 1 / 1000 ≤ minDt)
    (ms ms' : List (PoseMsgKind × R)) (a : R)
    (ha : ((PoseHandler.init fixedCov minDt).run ms).2.getLast? = some a)
    (hb : ∀ m ∈ ms', m.2 ≤ a) :
    ((PoseHandler.init fixedCov minDt).run (ms ++ ms')).2 =
      ((PoseHandler.init fixedCov minDt).run ms).2 := by
  induction ms' using List.reverseRecOn with
  | nil => simp
  | append_singleton ms' m ih =>
    have ih := ih (fun x hx => hb x (by simp [hx]))
    have ha' : ((PoseHandler.init fixedCov minDt).run (ms ++ ms')).2.getLast? = some a := by
      rw [ih, ha]
    rw [← List.append_assoc]
    by_cases hk : Usable fixedCov m.1
    · rw [C45_accepts fixedCov minDt (ms ++ ms') m.1 a m.2 ha' hk, if_neg, List.append_nil, ih]
      have := hb m (by simp)
      rw [not_lt]
      linarith
    · rw [C45_unusable fixedCov minDt (ms ++ ms') m.1 m.2 [] hk, List.append_nil, ih]

/-- Over a whole run the number of accepted measurements is bounded by the time that passed: between
the first and the last accepted stamp there are at most `(last - first) / (minimum_dt - 1 ms)` more
measurements. -/
theorem C45_rate_bound (fixedCov : Bool) (minDt : R)
    (ms : List (PoseMsgKind × R)) (first last : R)
    (hf : ((PoseHandler.init fixedCov minDt).run ms).2.head? = some first)
    (hl : ((PoseHandler.init fixedCov minDt).run ms).2.getLast? = some last) :
    ((((PoseHandler.init fixedCov minDt).run ms).2.length : R) - 1) * (minDt - 1 / 1000) ≤
      last - first := by
  have hc := C45_rate_limit fixedCov minDt ms
  generalize ((PoseHandler.init fixedCov minDt).run ms).2 = l at hf hl hc
  induction l generalizing first with
  | nil => simp at hf
  | cons x l ih =>
    simp only [List.head?_cons, Option.some.injEq] at hf
    subst hf
    cases l with
    | nil =>
      simp only [List.getLast?_singleton, Option.some.injEq] at hl
      subst hl
      simp
    | cons y l =>
      have h1 : minDt - 1 / 1000 < y - x := by
        rw [List.isChain_cons_cons] at hc; exact hc.1
      have h2 := ih y rfl (by rwa [List.getLast?_cons_cons] at hl) (by
        rw [List.isChain_cons_cons] at hc; exact hc.2)
      simp only [List.length_cons, Nat.cast_add, Nat.cast_one] at h2 ⊢
      linarith

end

/-- Six messages, one of them without covariance and two too early. -/
def demoPoseMsgs : List (PoseMsgKind × ℚ) :=
  [(.poseWithCovariance, 1), (.odometry, 1 + 1 / 100), (.odometry, 1 + 1 / 20), (.pose, 2),
   (.poseWithCovariance, 2), (.poseWithCovariance, 1)]

example : ((PoseHandler.init false (1 / 20)).run demoPoseMsgs).2 = [1, 1 + 1 / 20, 2] := by
  decide +kernel

/-! ### C49: pressure sensor -/

section
variable {R : Type} [Field R]

/-- The code as it is written. -/
def asWritten : CopyWithin R := fun _ => memcpyWithin

/-- The code with the copy that was meant. -/
def asMeant : CopyWithin R := fun _ => memmoveWithin

/-- **C49 is violated: undefined behaviour.**  Every message that is not skipped copies overlapping
memory with `memcpy`. -/
theorem C49_overlap_violated (h : PressureHandler R) (seq : Nat) (z : R) (hs : seq % 10 = 0) :
    h.callback asWritten seq z = none := by
  simp [PressureHandler.callback, hs, asWritten, memcpyWithin]

/-- The effect of an accepted message with the copy that was meant. -/
theorem callback_asMeant (h : PressureHandler R) (seq : Nat) (z : R) (hs : seq % 10 = 0) :
    h.callback asMeant seq z =
      let b : Fin 10 → R := ![h.heightbuff 1, h.heightbuff 2, h.heightbuff 3, h.heightbuff 4,
        h.heightbuff 5, h.heightbuff 6, h.heightbuff 7, h.heightbuff 8, h.heightbuff 9, z]
      some (⟨z, (∑ i, b i) / 10, b⟩, some z) := by
  have hb : Function.update (fun i : Fin 10 => if h' : 0 ≤ i.val ∧ i.val < 0 + 9 then
        h.heightbuff ⟨1 + (i.val - 0), by omega⟩ else h.heightbuff i) ⟨9, by decide⟩ z =
      ![h.heightbuff 1, h.heightbuff 2, h.heightbuff 3, h.heightbuff 4,
        h.heightbuff 5, h.heightbuff 6, h.heightbuff 7, h.heightbuff 8, h.heightbuff 9, z] := by
    funext i
    fin_cases i <;> simp [Function.update]
  simp only [PressureHandler.callback, hs, asMeant, memmoveWithin, ne_eq, not_true, if_false]
  have e1 : 0 + (10 - 1) ≤ 10 := by decide
  have e2 : 1 + (10 - 1) ≤ 10 := by decide
  rw [if_pos e1, dif_pos e2]
  dsimp only
  rw [show Function.update (fun i : Fin 10 => if h' : 0 ≤ i.val ∧ i.val < 0 + (10 - 1) then
        h.heightbuff ⟨1 + (i.val - 0), by omega⟩ else h.heightbuff i) ⟨10 - 1, by decide⟩ z =
      _ from hb]
  simp only [List.finRange_succ, Fin.sum_univ_succ]
  simp [List.finRange]
  ring

/-- The heights of the messages that are not skipped. -/
def usedHeights (ms : List (Nat × R)) : List R := (ms.filter (fun m => m.1 % 10 = 0)).map (·.2)

theorem run_asMeant (ms : List (Nat × R)) : ∀ h : PressureHandler R,
    ∃ h', h.run asMeant ms = some (h', usedHeights ms) ∧
      (List.ofFn h'.heightbuff) = ((List.ofFn h.heightbuff) ++ usedHeights ms).drop
        (usedHeights ms).length ∧
      (usedHeights ms ≠ [] → h'.z_average_p = (List.ofFn h'.heightbuff).sum / 10 ∧
        (usedHeights ms).getLast? = some h'.z_p) := by
  induction ms with
  | nil => intro h; exact ⟨h, rfl, by simp [usedHeights], by simp [usedHeights]⟩
  | cons m ms ih =>
    intro h
    by_cases hs : m.1 % 10 = 0
    · have hc := callback_asMeant h m.1 m.2 hs
      simp only at hc
      obtain ⟨h', i1, i2, i3⟩ := ih _
      have hu : usedHeights (m :: ms) = m.2 :: usedHeights ms := by simp [usedHeights, hs]
      refine ⟨h', ?_, ?_, ?_⟩
      · simp only [PressureHandler.run]
        rw [hc]
        simp only [Option.bind_some]
        rw [i1, hu]
        rfl
      · rw [i2, hu]
        simp [List.ofFn_succ]
      · intro _
        rw [hu]
        by_cases hn : usedHeights ms = []
        · rw [hn] at i1 i2 ⊢
          have e : ∃ g : PressureHandler R, g.run asMeant ms = some (h', []) ∧
              g = ⟨m.2, (∑ i, (![h.heightbuff 1, h.heightbuff 2, h.heightbuff 3, h.heightbuff 4,
        h.heightbuff 5, h.heightbuff 6, h.heightbuff 7, h.heightbuff 8, h.heightbuff 9, m.2] : Fin 10 → R) i) / 10, _⟩ :=
            ⟨_, i1, rfl⟩
          obtain ⟨g, hg, hge⟩ := e
          have hrun : ∀ (l : List (Nat × R)) (g g' : PressureHandler R), usedHeights l = [] →
              g.run asMeant l = some (g', []) → g' = g := by
            intro l
            induction l with
            | nil =>
              intro g g' _ h
              simp only [PressureHandler.run, Option.some.injEq, Prod.mk.injEq, and_true] at h
              exact h.symm
            | cons x l ihl =>
              intro g g' hu h
              have hx : x.1 % 10 ≠ 0 := by
                intro hx
                simp [usedHeights, hx] at hu
              have hul : usedHeights l = [] := by
                simpa [usedHeights, hx] using hu
              simp only [PressureHandler.run, PressureHandler.callback, if_pos hx,
                Option.bind_some, Option.toList_none, List.nil_append] at h
              apply ihl g g' hul
              obtain ⟨r, hr, hr'⟩ := Option.map_eq_some_iff.1 h
              rw [hr, ← hr']
          have := hrun ms g h' hn hg
          subst this
          rw [hge]
          refine ⟨?_, by simp⟩
          simp only [List.sum_ofFn]
        · have := i3 hn
          refine ⟨this.1, ?_⟩
          rw [List.getLast?_cons, this.2]
          rfl
    · have hu : usedHeights (m :: ms) = usedHeights ms := by simp [usedHeights, hs]
      obtain ⟨h', i1, i2⟩ := ih h
      refine ⟨h', ?_, ?_⟩
      · simp only [PressureHandler.run, PressureHandler.callback, if_pos hs, Option.bind_some, i1,
          hu]
        rfl
      · rw [hu]; exact i2

/-- **C49, partial: decimation.**  With the copy that was meant, exactly the messages whose sequence
number is divisible by ten are used.  What is used is the reading itself, not an average. -/
theorem C49_decimation_partial (h : PressureHandler R) (ms : List (Nat × R)) :
    (h.run asMeant ms).map (·.2) =
      some ((ms.filter (fun m => m.1 % 10 = 0)).map (·.2)) := by
  obtain ⟨h', i1, _⟩ := run_asMeant ms h
  rw [i1]
  rfl

/-- **C49, partial: every tenth.**  Of any ten messages with consecutive sequence numbers exactly one
is used. -/
theorem C49_every_tenth_partial (h : PressureHandler R) (s : Nat) (z : Fin 10 → R) :
    ∃ i : Fin 10, (h.run asMeant (List.ofFn fun i => (s + i.val, z i))).map (·.2) =
      some [z i] := by
  have key : ∀ r : Nat, r < 10 → ∀ (a : Fin 10 → Nat), (∀ i, a i % 10 = (r + i.val) % 10) →
      ∃ i : Fin 10, ((List.ofFn fun i => (a i, z i)).filter (fun m => m.1 % 10 = 0)).map (·.2)
        = [z i] := by
    intro r hr a ha
    have h0 := ha 0
    have h1 := ha 1
    have h2 := ha 2
    have h3 := ha 3
    have h4 := ha 4
    have h5 := ha 5
    have h6 := ha 6
    have h7 := ha 7
    have h8 := ha 8
    have h9 := ha 9
    interval_cases r <;> simp at h0 h1 h2 h3 h4 h5 h6 h7 h8 h9
    · exact ⟨0, by simp [List.ofFn_succ, h0, h1, h2, h3, h4, h5, h6, h7, h8, h9]⟩
    · exact ⟨9, by simp [List.ofFn_succ, h0, h1, h2, h3, h4, h5, h6, h7, h8, h9]⟩
    · exact ⟨8, by simp [List.ofFn_succ, h0, h1, h2, h3, h4, h5, h6, h7, h8, h9]⟩
    · exact ⟨7, by simp [List.ofFn_succ, h0, h1, h2, h3, h4, h5, h6, h7, h8, h9]⟩
    · exact ⟨6, by simp [List.ofFn_succ, h0, h1, h2, h3, h4, h5, h6, h7, h8, h9]⟩
    · exact ⟨5, by simp [List.ofFn_succ, h0, h1, h2, h3, h4, h5, h6, h7, h8, h9]⟩
    · exact ⟨4, by simp [List.ofFn_succ, h0, h1, h2, h3, h4, h5, h6, h7, h8, h9]⟩
    · exact ⟨3, by simp [List.ofFn_succ, h0, h1, h2, h3, h4, h5, h6, h7, h8, h9]⟩
    · exact ⟨2, by simp [List.ofFn_succ, h0, h1, h2, h3, h4, h5, h6, h7, h8, h9]⟩
    · exact ⟨1, by simp [List.ofFn_succ, h0, h1, h2, h3, h4, h5, h6, h7, h8, h9]⟩
  obtain ⟨i, hi⟩ := key (s % 10) (Nat.mod_lt _ (by decide)) (fun i => s + i.val)
    (fun i => by simp [Nat.add_mod])
  exact ⟨i, by rw [C49_decimation_partial, hi]⟩

/-- **C49, partial: the average.**  With the copy that was meant, after at least ten used readings
`GetAveragedPressureMeasurement` is the mean of the last ten and `GetPressureMeasurement` the last
one. -/
theorem C49_average_partial (h h' : PressureHandler R) (ms : List (Nat × R)) (used : List R)
    (hr : h.run asMeant ms = some (h', used)) (h10 : 10 ≤ used.length) :
    h'.z_average_p = (used.drop (used.length - 10)).sum / 10 ∧ used.getLast? = some h'.z_p := by
  obtain ⟨g, i1, i2, i3⟩ := run_asMeant ms h
  rw [i1, Option.some.injEq, Prod.mk.injEq] at hr
  obtain ⟨rfl, hu⟩ := hr
  rw [hu] at i2 i3
  have hne : used ≠ [] := by
    rintro rfl
    simp at h10
  obtain ⟨j1, j2⟩ := i3 hne
  refine ⟨?_, j2⟩
  rw [j1, i2, List.drop_append]
  rw [List.drop_eq_nil_of_le (by simpa using h10)]
  simp

/-- **C49 is violated: the reading is not averaged.**  The measurement given to the core is the raw
reading although the mean of the last ten is different. -/
theorem C49_raw_violated : ∃ (ms : List (Nat × ℚ)) (h' : PressureHandler ℚ) (used : List ℚ),
    (PressureHandler.init 0 0).run asMeant ms = some (h', used) ∧ 10 ≤ used.length ∧
      used.getLast? ≠ some h'.z_average_p := by
  obtain ⟨g, i1, _, _⟩ := run_asMeant
    (List.replicate 9 ((0 : Nat), (0 : ℚ)) ++ [(0, 10)]) (PressureHandler.init 0 0)
  have hl : 10 ≤ (usedHeights (List.replicate 9 ((0 : Nat), (0 : ℚ)) ++ [(0, 10)])).length := by
    decide +kernel
  refine ⟨_, g, _, i1, hl, ?_⟩
  rw [(C49_average_partial _ _ _ _ i1 hl).1]
  decide +kernel

/-- **C49 is violated: start-up.**  Until ten readings were used, the average contains zeros that
were never measured. -/
theorem C49_startup_violated (a b z : ℚ) (hz : z ≠ 0) : ∃ h' : PressureHandler ℚ,
    (PressureHandler.init a b).run asMeant [(0, z)] = some (h', [z]) ∧
      h'.z_average_p = z / 10 ∧ h'.z_average_p ≠ z := by
  have hc := callback_asMeant (PressureHandler.init a b) 0 z rfl
  refine ⟨_, by simp only [PressureHandler.run, hc]; rfl, ?_, ?_⟩
  · simp [PressureHandler.init, Fin.sum_univ_succ]
  · simp [PressureHandler.init, Fin.sum_univ_succ]
    intro h
    apply hz
    linarith

end

/-! ### C50: sensor ids -/

theorem addAll_spec (hs : List Nat) : ∀ m m' : SensorManager, m.addAll hs = some m' →
    m'.nextId = m.nextId + hs.length ∧
    (∀ h, h ∉ hs → m'.ids h = m.ids h) ∧
    (∀ h ∈ hs, (m.nextId : Int) ≤ m'.ids h ∧ m'.ids h < m'.nextId) ∧
    (∀ a ∈ hs, ∀ b ∈ hs, m'.ids a = m'.ids b → a = b) := by
  induction hs with
  | nil =>
    intro m m' h
    simp only [SensorManager.addAll, Option.some.injEq] at h
    subst h
    simp
  | cons x hs ih =>
    intro m m' h
    simp only [SensorManager.addAll, SensorManager.addHandler] at h
    split at h
    · simp at h
    · simp only [Option.bind_some] at h
      obtain ⟨i1, i2, i3, i4⟩ := ih _ _ h
      dsimp only at i1 i2 i3
      have hx : x ∉ hs → m'.ids x = m.nextId := by
        intro hn
        rw [i2 x hn]
        simp
      refine ⟨by rw [i1, List.length_cons]; omega, ?_, ?_, ?_⟩
      · intro y hy
        simp only [List.mem_cons, not_or] at hy
        rw [i2 y hy.2, Function.update_of_ne hy.1]
      · intro y hy
        by_cases hys : y ∈ hs
        · have := i3 y hys
          push_cast at this
          omega
        · rcases List.mem_cons.1 hy with rfl | h
          · rw [hx hys]
            omega
          · exact absurd h hys
      · intro a ha b hb hab
        by_cases has : a ∈ hs
        · by_cases hbs : b ∈ hs
          · exact i4 a has b hbs hab
          · rcases List.mem_cons.1 hb with rfl | h
            · have := (i3 a has).1
              rw [hab, hx hbs] at this
              push_cast at this
              omega
            · exact absurd h hbs
        · rcases List.mem_cons.1 ha with rfl | h
          · by_cases hbs : b ∈ hs
            · have := (i3 b hbs).1
              rw [← hab, hx has] at this
              push_cast at this
              omega
            · rcases List.mem_cons.1 hb with rfl | h
              · rfl
              · exact absurd h hbs
          · exact absurd h has

/-- **C50 (unique).**  After any sequence of `AddHandler` calls, even with repetitions, different
handlers have different ids, and none has the invalid id. -/
theorem C50_unique (hs : List Nat) (m : SensorManager)
    (h : SensorManager.init.addAll hs = some m) :
    (∀ a ∈ hs, ∀ b ∈ hs, m.ids a = m.ids b → a = b) ∧
    (∀ a ∈ hs, 0 ≤ m.ids a ∧ m.ids a < hs.length) ∧ (∀ a, a ∉ hs → m.ids a = -1) := by
  obtain ⟨i1, i2, i3, i4⟩ := addAll_spec hs _ _ h
  refine ⟨i4, fun a ha => ?_, fun a ha => by rw [i2 a ha]; rfl⟩
  have := i3 a ha
  rw [i1] at this
  simpa [SensorManager.init] using this

/-- **C50 (positions).**  A handler added last gets the number of handlers added before. -/
theorem C50_last (hs : List Nat) (x : Nat) (m : SensorManager)
    (h : SensorManager.init.addAll (hs ++ [x]) = some m) : m.ids x = hs.length := by
  have : ∀ (hs : List Nat) (m m' : SensorManager), m.addAll (hs ++ [x]) = some m' →
      m'.ids x = m.nextId + hs.length := by
    intro hs
    induction hs with
    | nil =>
      intro m m' h
      simp only [List.nil_append, SensorManager.addAll, SensorManager.addHandler] at h
      split at h
      · simp at h
      · simp only [Option.bind_some, Option.some.injEq] at h
        subst h
        simp
    | cons y hs ih =>
      intro m m' h
      simp only [List.cons_append, SensorManager.addAll, SensorManager.addHandler] at h
      split at h
      · simp at h
      · simp only [Option.bind_some] at h
        rw [ih _ _ h]
        push_cast
        simp only [List.length_cons, Nat.cast_add, Nat.cast_one]
        ring
  simpa [SensorManager.init] using this hs _ _ h

/-- **C50 (total).**  The calls are defined as long as there are at most 2³¹ − 1 of them. -/
theorem C50_defined (hs : List Nat) :
    (SensorManager.init.addAll hs).isSome = true ↔ hs.length ≤ 2147483647 := by
  have : ∀ (hs : List Nat) (m : SensorManager), m.nextId ≤ 2147483647 →
      ((m.addAll hs).isSome = true ↔ m.nextId + hs.length ≤ 2147483647) := by
    intro hs
    induction hs with
    | nil => intro m hm; simpa [SensorManager.addAll] using hm
    | cons x hs ih =>
      intro m hm
      simp only [SensorManager.addAll, SensorManager.addHandler]
      have hM : Timing.intMax = 2147483647 := rfl
      by_cases h : m.nextId = Timing.intMax
      · rw [if_pos h]
        simp [h, hM]
      · rw [if_neg h, Option.bind_some, ih _ (by dsimp only; omega)]
        simp only [List.length_cons]
        omega
  simpa [SensorManager.init] using this hs SensorManager.init (by decide)

example : ∃ m, SensorManager.init.addAll [7, 3, 7] = some m ∧ m.ids 7 = 2 ∧ m.ids 3 = 1 :=
  ⟨_, rfl, rfl, rfl⟩

/-! ### C51: correction messages -/

section
variable {R : Type} [Field R] [LinearOrder R] [IsStrictOrderedRing R]

theorem quat_inverse_cancel (a b : Quat R) (h : a ≠ ⟨0, 0, 0, 0⟩) :
    a.mul (a.inverse.mul b) = b := by
  have hn : 0 < a.normSq := by
    rcases lt_or_eq_of_le (by
      simp only [Quat.normSq]
      nlinarith [mul_self_nonneg a.w, mul_self_nonneg a.x, mul_self_nonneg a.y,
        mul_self_nonneg a.z] : 0 ≤ a.normSq) with h' | h'
    · exact h'
    · exfalso
      apply h
      simp only [Quat.normSq] at h'
      have hw := mul_self_nonneg a.w
      have hx := mul_self_nonneg a.x
      have hy := mul_self_nonneg a.y
      have hz := mul_self_nonneg a.z
      ext
      · exact mul_self_eq_zero.1 (by linarith)
      · exact mul_self_eq_zero.1 (by linarith)
      · exact mul_self_eq_zero.1 (by linarith)
      · exact mul_self_eq_zero.1 (by linarith)
  have hd : a.normSq = a.w * a.w + a.x * a.x + a.y * a.y + a.z * a.z := rfl
  simp only [Quat.inverse, if_pos hn]
  generalize a.normSq = n at hn hd
  have hn' : n ≠ 0 := hn.ne'
  ext <;> simp only [Quat.mul] <;> field_simp <;> rw [hd] <;> ring

/-- **C51, partial.**  For a buffer with at least 16 entries whose quaternion is not zero, a
correction is published, and adding it to the buffer (multiplying from the right for the
attitude) gives exactly the state. -/
theorem C51_correction_partial (hl : List R) (s : CoreState R) (h16 : 16 ≤ hl.length)
    (hq : ¬ (hl[6] = 0 ∧ hl[7] = 0 ∧ hl[8] = 0 ∧ hl[9] = 0)) :
    ∃ m, correctionMsg false hl s = some (m, .stateCorrection) ∧
      s.p = ![hl[0] + m 0, hl[1] + m 1, hl[2] + m 2] ∧
      s.v = ![hl[3] + m 3, hl[4] + m 4, hl[5] + m 5] ∧
      s.q = Quat.mul ⟨hl[6], hl[7], hl[8], hl[9]⟩ ⟨m 6, m 7, m 8, m 9⟩ ∧
      s.b_w = ![hl[10] + m 10, hl[11] + m 11, hl[12] + m 12] ∧
      s.b_a = ![hl[13] + m 13, hl[14] + m 14, hl[15] + m 15] := by
  refine ⟨_, by simp only [correctionMsg, dif_neg (not_lt.2 h16)]; rfl, ?_, ?_, ?_, ?_, ?_⟩
  · funext i; fin_cases i <;> simp
  · funext i; fin_cases i <;> simp
  · have := quat_inverse_cancel (⟨hl[6], hl[7], hl[8], hl[9]⟩ : Quat R) s.q (by
      intro h
      apply hq
      rw [Quat.mk.injEq] at h
      exact h)
    exact this.symm
  · funext i; fin_cases i <;> simp
  · funext i; fin_cases i <;> simp

omit [IsStrictOrderedRing R] in
/-- **C51 is violated: before the first state message.**  The buffer starts with zeros, also in its
quaternion; then the attitude part of the correction is the zero quaternion for every state, from
which no attitude can be recovered. -/
theorem C51_initial_violated (s : CoreState R) :
    ∃ m, correctionMsg false initialHlBuffer s = some (m, .stateCorrection) ∧
      m 6 = 0 ∧ m 7 = 0 ∧ m 8 = 0 ∧ m 9 = 0 := by
  refine ⟨_, rfl, ?_, ?_, ?_, ?_⟩ <;>
  simp [initialHlBuffer, Quat.inverse, Quat.normSq, Quat.mul]

omit [IsStrictOrderedRing R] in
/-- **C51 is violated: short message.**  A state message with fewer than 16 entries makes the next
correction read behind the end of the buffer. -/
theorem C51_short_violated (hl : List R) (s : CoreState R) (h : hl.length < 16) :
    correctionMsg false hl s = none := by
  simp [correctionMsg, h]

omit [IsStrictOrderedRing R] in
/-- During data playback no correction reaches the external propagation: the message is the identity
and is marked as initialization. -/
theorem C51_playback (hl : List R) (s : CoreState R) : ∃ m,
    correctionMsg true hl s = some (m, .initialization) ∧
      (⟨m 6, m 7, m 8, m 9⟩ : Quat R) = Quat.one ∧
      ∀ i, i ≠ 6 → i ≠ 7 → i ≠ 8 → i ≠ 9 → m i = 0 := by
  refine ⟨_, rfl, by simp [Quat.one], ?_⟩
  intro i h6 _ _ _
  have : i.val ≠ 6 := fun h => h6 (Fin.ext h)
  simp [this]

end

example : ¬ (([1, 2, 3, 0, 0, 0, 1, 0, 0, 0, 0, 0, 0, 0, 0, 0] : List ℚ)[6] = 0 ∧
    ([1, 2, 3, 0, 0, 0, 1, 0, 0, 0, 0, 0, 0, 0, 0, 0] : List ℚ)[7] = 0 ∧
    ([1, 2, 3, 0, 0, 0, 1, 0, 0, 0, 0, 0, 0, 0, 0, 0] : List ℚ)[8] = 0 ∧
    ([1, 2, 3, 0, 0, 0, 1, 0, 0, 0, 0, 0, 0, 0, 0, 0] : List ℚ)[9] = 0) := by simp

end MSF
