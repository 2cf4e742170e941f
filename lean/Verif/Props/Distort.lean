import Verif.Model.Distort
import Verif.Lemmas.Quat
import Mathlib.Tactic.FinCases
import Mathlib.Tactic.NormNum
import Mathlib.Tactic.Linarith

/-!
# C85: distorted pose readings drift as configured
-/

namespace MSF
open Distorter DistortState

theorem distort_some (d : Distorter) (u : Draw) (dt : ℝ) (p : V3 ℝ) (q : Quat ℝ) :
    d.distort u dt p q = some (⟨d.posdrift + (fun i => u.pos i * dt),
        d.attdrift.mul (quatFromSmallAngle fun i => u.att i * dt), d.scaledrift + u.scale * dt⟩,
      (fun i => (p i + (d.posdrift i + u.pos i * dt)) * (d.scaledrift + u.scale * dt)),
      q.mul (d.attdrift.mul (quatFromSmallAngle fun i => u.att i * dt))) := by
  unfold distort distortPos distortAtt
  simp only [Quat.normalize_unit (quatFromSmallAngle_unit _)]
  rfl

/-- A random walk: the sum over the messages of the drawn rate times the time since the message
before, where `t₀` is the time of the message before the first. -/
def walk (f : Draw → ℝ) {ι : Type} : ℝ → List (PoseMsg ι) → ℝ
  | _, [] => 0
  | t₀, m :: ms => f m.draw * (m.time - t₀) + walk f m.time ms

theorem walk_const {ι : Type} (f : Draw → ℝ) (c : ℝ) (ms : List (PoseMsg ι)) (m : PoseMsg ι)
    (h : ∀ x ∈ ms ++ [m], f x.draw = c) :
    ∀ t₀, walk f t₀ (ms ++ [m]) = c * (m.time - t₀) := by
  induction ms with
  | nil => intro t₀; simp [walk, h m (by simp)]
  | cons a l ih =>
    intro t₀
    rw [List.cons_append, walk, ih (fun x hx => h x (List.mem_cons_of_mem _ hx)),
      h a (by simp)]
    ring

variable {ι : Type} [DecidableEq ι]

theorem receive_moving {s : DistortState ι} (hs : s.tlast ≠ 0) (m : PoseMsg ι) :
    ∃ p q, s.receive m = some (⟨m.time, Function.update s.dist m.sensor
      ⟨(s.dist m.sensor).posdrift + (fun i => m.draw.pos i * (m.time - s.tlast)),
        (s.dist m.sensor).attdrift.mul
          (quatFromSmallAngle fun i => m.draw.att i * (m.time - s.tlast)),
        (s.dist m.sensor).scaledrift + m.draw.scale * (m.time - s.tlast)⟩⟩, p, q) ∧
      p = (fun i => (m.pos i + ((s.dist m.sensor).posdrift i + m.draw.pos i * (m.time - s.tlast))) *
        ((s.dist m.sensor).scaledrift + m.draw.scale * (m.time - s.tlast))) ∧
      q = m.att.mul ((s.dist m.sensor).attdrift.mul
          (quatFromSmallAngle fun i => m.draw.att i * (m.time - s.tlast))) := by
  refine ⟨_, _, ?_, rfl, rfl⟩
  unfold receive
  rw [if_pos hs]
  simp only [distort_some]
  rfl

theorem receiveAll_cons {s s₁ s₂ : DistortState ι} {m : PoseMsg ι} {ms : List (PoseMsg ι)} {p q outs}
    (h : s.receive m = some (s₁, p, q)) (h' : s₁.receiveAll ms = some (s₂, outs)) :
    s.receiveAll (m :: ms) = some (s₂, (p, q) :: outs) := by
  simp only [receiveAll, h, h', Option.bind_eq_bind, Option.bind_some]
  rfl

theorem receive_first (m : PoseMsg ι) :
    (DistortState.init : DistortState ι).receive m =
      some (⟨m.time, fun _ => Distorter.init⟩, m.pos, m.att) := by
  unfold receive
  rw [if_neg (by simp [DistortState.init])]
  rfl

theorem receiveAll_walk (i : ι) (m : PoseMsg ι) (ms : List (PoseMsg ι)) :
    ∀ (s : DistortState ι), s.tlast ≠ 0 → (∀ x ∈ ms, x.time ≠ 0) →
      (∀ x ∈ ms ++ [m], x.sensor = i) → (s.dist i).attdrift.normSq = 1 →
      ∃ s' outs D, s.receiveAll (ms ++ [m]) = some (s', outs ++
        [(fun k => (m.pos k + ((s.dist i).posdrift k + walk (fun u => u.pos k) s.tlast (ms ++ [m]))) *
            ((s.dist i).scaledrift + walk (fun u => u.scale) s.tlast (ms ++ [m])), m.att.mul D)]) ∧
        outs.length = ms.length ∧ D.normSq = 1 ∧
        ((∀ x ∈ ms ++ [m], x.draw.att = 0) → D = (s.dist i).attdrift) := by
  have small0 : quatFromSmallAngle (fun _ => (0 : ℝ)) = Quat.one := by
    simp [quatFromSmallAngle, sqNorm3, Quat.one]
  induction ms with
  | nil =>
    intro s hs _ hi hu
    obtain ⟨p, q, e, rfl, rfl⟩ := receive_moving hs m
    have hm : m.sensor = i := hi m (by simp)
    rw [hm] at e
    refine ⟨_, [], (s.dist i).attdrift.mul (quatFromSmallAngle fun k => m.draw.att k * (m.time - s.tlast)),
      (?_ : _ = some ((⟨m.time, Function.update s.dist i
      ⟨(s.dist i).posdrift + (fun k => m.draw.pos k * (m.time - s.tlast)),
        (s.dist i).attdrift.mul (quatFromSmallAngle fun k => m.draw.att k * (m.time - s.tlast)),
        (s.dist i).scaledrift + m.draw.scale * (m.time - s.tlast)⟩⟩ : DistortState ι), _)), rfl, ?_, ?_⟩
    rotate_left
    · rw [Quat.normSq_mul, quatFromSmallAngle_unit, mul_one]
      exact hu
    · intro hz
      have : m.draw.att = 0 := hz m (by simp)
      simp only [this, Pi.zero_apply, zero_mul, small0, Quat.mul_one']
    · simp only [List.nil_append, receiveAll, e, Option.bind_eq_bind, Option.bind_some, walk,
        add_zero]
      rfl
  | cons a l ih =>
    intro s hs ht hi hu
    obtain ⟨p, q, e, -, -⟩ := receive_moving hs a
    have ha : a.sensor = i := hi a (by simp)
    rw [ha] at e
    set s₁ : DistortState ι := ⟨a.time, Function.update s.dist i
      ⟨(s.dist i).posdrift + (fun k => a.draw.pos k * (a.time - s.tlast)),
        (s.dist i).attdrift.mul (quatFromSmallAngle fun k => a.draw.att k * (a.time - s.tlast)),
        (s.dist i).scaledrift + a.draw.scale * (a.time - s.tlast)⟩⟩ with hs₁
    obtain ⟨s', outs, D, h1, h2, h3, h4⟩ := ih s₁ (ht a (by simp)) (fun x hx => ht x (by simp [hx]))
      (fun x hx => hi x (List.mem_cons_of_mem _ hx))
      (by
        simp only [hs₁, Function.update_self]
        rw [Quat.normSq_mul, quatFromSmallAngle_unit, mul_one]
        exact hu)
    refine ⟨s', (p, q) :: outs, D, ?_, by simp [h2], h3, ?_⟩
    rotate_left
    · intro hz
      rw [h4 (fun x hx => hz x (List.mem_cons_of_mem _ hx))]
      have : a.draw.att = 0 := hz a (by simp)
      simp only [hs₁, Function.update_self, this, Pi.zero_apply, zero_mul, small0, Quat.mul_one']
    · simp only [List.cons_append, receiveAll, e, Option.bind_eq_bind, Option.bind_some, h1]
      simp only [hs₁, Function.update_self, walk, Pi.add_apply, add_assoc]
      rfl

/-- **C85 (partial).** One distorting pose handler, messages with nonzero stamps.  The first message
is passed on as it is.  Every later message has its position moved by the random walk of the position
drift and scaled by one plus the random walk of the scale drift, and its attitude turned by a unit
quaternion, which is the identity if no attitude drift was drawn. -/
theorem C85_drift_partial (i : ι) (m₀ m : PoseMsg ι) (ms : List (PoseMsg ι))
    (hi : ∀ x ∈ m₀ :: (ms ++ [m]), x.sensor = i) (ht : ∀ x ∈ m₀ :: ms, x.time ≠ 0) :
    ∃ s outs D, (DistortState.init : DistortState ι).receiveAll (m₀ :: (ms ++ [m])) =
        some (s, (m₀.pos, m₀.att) :: (outs ++
          [(fun k => (m.pos k + walk (fun u => u.pos k) m₀.time (ms ++ [m])) *
            (1 + walk (fun u => u.scale) m₀.time (ms ++ [m])), m.att.mul D)])) ∧
      outs.length = ms.length ∧ D.normSq = 1 ∧
      ((∀ x ∈ ms ++ [m], x.draw.att = 0) → D = Quat.one) := by
  obtain ⟨s', outs, D, h1, h2, h3, h4⟩ := receiveAll_walk i m ms ⟨m₀.time, fun _ => Distorter.init⟩
    (ht m₀ (by simp)) (fun x hx => ht x (by simp [hx])) (fun x hx => hi x (List.mem_cons_of_mem _ hx))
    Quat.normSq_one
  refine ⟨s', outs, D, ?_, h2, h3, h4⟩
  refine receiveAll_cons (receive_first m₀) ?_
  rw [h1]
  simp [Distorter.init]

/-- **C85, standard deviation zero (partial).** The drift is the configured rate times the time since
the first message, however many messages came in between. -/
theorem C85_constant_rate_partial (i : ι) (m₀ m : PoseMsg ι) (ms : List (PoseMsg ι)) (c : V3 ℝ) (σ : ℝ)
    (hi : ∀ x ∈ m₀ :: (ms ++ [m]), x.sensor = i) (ht : ∀ x ∈ m₀ :: ms, x.time ≠ 0)
    (hd : ∀ x ∈ ms ++ [m], x.draw = ⟨c, σ, 0⟩) :
    ∃ s outs, (DistortState.init : DistortState ι).receiveAll (m₀ :: (ms ++ [m])) =
        some (s, (m₀.pos, m₀.att) :: (outs ++
          [(fun k => (m.pos k + c k * (m.time - m₀.time)) * (1 + σ * (m.time - m₀.time)), m.att)])) ∧
      outs.length = ms.length := by
  obtain ⟨s, outs, D, h1, h2, -, h4⟩ := C85_drift_partial i m₀ m ms hi ht
  refine ⟨s, outs, ?_, h2⟩
  rw [h1, h4 (fun x hx => by rw [hd x hx]), Quat.mul_one']
  simp only [walk_const (fun u => u.scale) σ ms m (fun x hx => by rw [hd x hx])]
  have : ∀ k, walk (fun u => u.pos k) m₀.time (ms ++ [m]) = c k * (m.time - m₀.time) := fun k =>
    walk_const (fun u => u.pos k) (c k) ms m (fun x hx => by rw [hd x hx]) _
  simp only [this]

/-- Non-vacuity of C85: three messages of one sensor. -/
example : ∃ s outs, (DistortState.init : DistortState Unit).receiveAll
    [⟨(), 1, ![1, 2, 3], Quat.one, ⟨0, 0, 0⟩⟩, ⟨(), 2, ![1, 2, 3], Quat.one, ⟨![1, 0, 0], 1/2, 0⟩⟩,
      ⟨(), 4, ![1, 2, 3], Quat.one, ⟨![1, 0, 0], 1/2, 0⟩⟩] = some (s, outs) ∧
    outs.getLast? = some (![10, 5, 15/2], Quat.one) := by
  obtain ⟨s, outs, h, -⟩ := C85_constant_rate_partial (ι := Unit) ()
    ⟨(), 1, ![1, 2, 3], Quat.one, ⟨0, 0, 0⟩⟩ ⟨(), 4, ![1, 2, 3], Quat.one, ⟨![1, 0, 0], 1/2, 0⟩⟩
    [⟨(), 2, ![1, 2, 3], Quat.one, ⟨![1, 0, 0], 1/2, 0⟩⟩] ![1, 0, 0] (1/2)
    (by simp) (by simp) (by simp)
  refine ⟨s, _, h, ?_⟩
  rw [← List.cons_append, List.getLast?_append]
  simp only [List.getLast?_singleton, Option.some_or, Option.some.injEq, Prod.mk.injEq, and_true]
  funext k
  fin_cases k <;> norm_num

/-- **C85 fails for two distorting handlers.** The time of the last message is shared.  Two handlers
with a position drift of one per second receive messages in turn, at 1 s and 2 s and again at 3 s and
4 s.  Two seconds after its first message the first handler has drifted by one only, and the first
message of the second handler is already distorted. -/
theorem C85_two_sensors_violated :
    ∃ s p₁ p₂ p₃, (DistortState.init : DistortState Bool).receiveAll
      [⟨true, 1, 0, Quat.one, ⟨fun _ => 1, 0, 0⟩⟩, ⟨false, 2, 0, Quat.one, ⟨fun _ => 1, 0, 0⟩⟩,
        ⟨true, 3, 0, Quat.one, ⟨fun _ => 1, 0, 0⟩⟩] =
        some (s, [(p₁, Quat.one), (p₂, Quat.one), (p₃, Quat.one)]) ∧
      p₂ = (fun _ => 1) ∧ p₃ = (fun _ => 1) ∧ p₃ ≠ fun _ => 2 := by
  have small0 : quatFromSmallAngle (fun _ => (0 : ℝ)) = Quat.one := by
    simp [quatFromSmallAngle, sqNorm3, Quat.one]
  obtain ⟨p₂, q₂, e₂, hp₂, hq₂⟩ := receive_moving (s := (⟨1, fun _ => Distorter.init⟩ : DistortState Bool))
    one_ne_zero ⟨false, 2, 0, Quat.one, ⟨fun _ => 1, 0, 0⟩⟩
  simp only [Pi.zero_apply, zero_mul, small0] at e₂ hp₂ hq₂
  obtain ⟨p₃, q₃, e₃, hp₃, hq₃⟩ := receive_moving
    (s := (⟨2, Function.update (fun _ => Distorter.init) false
      ⟨Distorter.init.posdrift + (fun _ => 1 * (2 - 1)), Distorter.init.attdrift.mul Quat.one,
        Distorter.init.scaledrift + 0⟩⟩ : DistortState Bool))
    two_ne_zero ⟨true, 3, 0, Quat.one, ⟨fun _ => 1, 0, 0⟩⟩
  have ht : ∀ d : Distorter, Function.update (fun _ => Distorter.init) false d true = Distorter.init :=
    fun d => Function.update_of_ne (by decide) _ _
  simp only [Pi.zero_apply, zero_mul, small0, ht] at e₃ hp₃ hq₃
  have hq2 : q₂ = Quat.one := by rw [hq₂]; simp [Distorter.init, Quat.mul_one']
  have hq3 : q₃ = Quat.one := by rw [hq₃]; simp [Distorter.init, Quat.mul_one']
  have hp2 : p₂ = fun _ => 1 := by
    rw [hp₂]; funext k; simp [Distorter.init]; norm_num
  have hp3 : p₃ = fun _ => 1 := by
    rw [hp₃]; funext k; simp [Distorter.init]; norm_num
  refine ⟨_, _, p₂, p₃, receiveAll_cons (receive_first _) (receiveAll_cons (hq2 ▸ e₂)
    (receiveAll_cons (hq3 ▸ e₃) rfl)), hp2, hp3, ?_⟩
  rw [hp3]
  intro h
  have := congrFun h 0
  norm_num at this

/-- **C85 fails for the attitude.** With a constant attitude drift of one radian per second the
attitude after one second depends on the number of messages. -/
theorem C85_attitude_rate_violated :
    ∃ s s' o o' p p' q q', (DistortState.init : DistortState Unit).receiveAll
        [⟨(), 1, 0, Quat.one, ⟨0, 0, ![1, 0, 0]⟩⟩, ⟨(), 2, 0, Quat.one, ⟨0, 0, ![1, 0, 0]⟩⟩] =
          some (s, o ++ [(p, q)]) ∧
      (DistortState.init : DistortState Unit).receiveAll
        [⟨(), 1, 0, Quat.one, ⟨0, 0, ![1, 0, 0]⟩⟩, ⟨(), 3/2, 0, Quat.one, ⟨0, 0, ![1, 0, 0]⟩⟩,
          ⟨(), 2, 0, Quat.one, ⟨0, 0, ![1, 0, 0]⟩⟩] = some (s', o' ++ [(p', q')]) ∧
      q.x = 1 / 2 ∧ q'.x < 1 / 2 := by
  have e1 : quatFromSmallAngle (fun k => (![1, 0, 0] : V3 ℝ) k * (2 - 1)) = ⟨√(3 / 4), 1 / 2, 0, 0⟩ := by
    simp [quatFromSmallAngle, sqNorm3]
    norm_num
  have e2 : ∀ t : ℝ, t = 1 / 2 → quatFromSmallAngle (fun k => (![1, 0, 0] : V3 ℝ) k * t) =
      ⟨√(15 / 16), 1 / 4, 0, 0⟩ := by
    rintro t rfl
    simp [quatFromSmallAngle, sqNorm3]
    norm_num
  obtain ⟨p, q, e, -, hq⟩ := receive_moving (s := (⟨1, fun _ => Distorter.init⟩ : DistortState Unit))
    one_ne_zero ⟨(), 2, 0, Quat.one, ⟨0, 0, ![1, 0, 0]⟩⟩
  obtain ⟨p₁, q₁, f₁, -, -⟩ := receive_moving (s := (⟨1, fun _ => Distorter.init⟩ : DistortState Unit))
    one_ne_zero ⟨(), 3 / 2, 0, Quat.one, ⟨0, 0, ![1, 0, 0]⟩⟩
  obtain ⟨p₂, q₂, f₂, -, hq₂⟩ := receive_moving (s := (⟨3 / 2, Function.update (fun _ => Distorter.init) ()
      ⟨Distorter.init.posdrift + (fun i => (0 : V3 ℝ) i * (3 / 2 - 1)), Distorter.init.attdrift.mul
        (quatFromSmallAngle fun i => (![1, 0, 0] : V3 ℝ) i * (3 / 2 - 1)),
        Distorter.init.scaledrift + 0 * (3 / 2 - 1)⟩⟩ : DistortState Unit))
    (by norm_num) ⟨(), 2, 0, Quat.one, ⟨0, 0, ![1, 0, 0]⟩⟩
  refine ⟨_, _, [_], [_, _], _, _, q, q₂, receiveAll_cons (receive_first _) (receiveAll_cons e rfl),
    receiveAll_cons (receive_first _) (receiveAll_cons f₁ (receiveAll_cons f₂ rfl)), ?_, ?_⟩
  · rw [hq, e1]
    simp [Distorter.init, Quat.one, Quat.mul]
  · simp only [Function.update_self] at hq₂
    rw [hq₂, e2 _ (by norm_num), e2 _ (by norm_num)]
    have h15 : √(15 / 16 : ℝ) < 1 := by
      rw [Real.sqrt_lt' one_pos]; norm_num
    simp only [Distorter.init, Quat.one, Quat.mul]
    linarith

end MSF
