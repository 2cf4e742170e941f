import Verif.Spec.Config

/-!
# Lemmas about configurations and messages of the nodes
-/

namespace MSF
namespace RosNode

variable {R : Type} [Field R] [LinearOrder R]

theorem run_append (n : RosNode R) (es es' : List (NodeEvent R)) :
    (n.run (es ++ es')).1 = ((n.run es).1.run es').1 := by
  induction es generalizing n with
  | nil => rfl
  | cons e es ih => exact ih _

/-- A message changes only what the pose handler keeps. -/
theorem message_keeps (n : RosNode R) (m : SensorMsg R) :
    (n.message m).1.kind = n.kind ∧ (n.message m).1.settings = n.settings ∧
      (n.message m).1.cfg = n.cfg ∧ (n.message m).1.fixedCov = n.fixedCov := by
  unfold message
  split
  · cases m <;> dsimp only <;> split <;> exact ⟨rfl, rfl, rfl, rfl⟩
  · exact ⟨rfl, rfl, rfl, rfl⟩

theorem config_keeps (n : RosNode R) (cfg : Cfg R) (level : Nat) :
    (n.config cfg level).1.kind = n.kind ∧ (n.config cfg level).1.cfg = cfg ∧
      (n.config cfg level).1.pose = n.pose ∧ (n.config cfg level).1.z_p = n.z_p ∧
      (n.config cfg level).1.fixedCov = n.fixedCov := by
  unfold config
  cases h : n.kind <;> dsimp only <;> (try split) <;>
    simp [setNoises, setDelay]

theorem step_kind (n : RosNode R) (e : NodeEvent R) : (n.step e).1.kind = n.kind := by
  cases e with
  | config cfg level => exact (n.config_keeps cfg level).1
  | msg m => exact (n.message_keeps m).1
  | initScale s => rfl
  | initHeight h => rfl

theorem run_kind (n : RosNode R) (es : List (NodeEvent R)) : (n.run es).1.kind = n.kind := by
  induction es generalizing n with
  | nil => rfl
  | cons e es ih => exact (ih _).trans (n.step_kind e)

theorem run_fixedCov (n : RosNode R) (es : List (NodeEvent R)) :
    (n.run es).1.fixedCov = n.fixedCov := by
  induction es generalizing n with
  | nil => rfl
  | cons e es ih =>
    refine (ih _).trans ?_
    cases e with
    | config cfg level => exact (n.config_keeps cfg level).2.2.2.2
    | msg m => exact (n.message_keeps m).2.2.2
    | initScale s => rfl
    | initHeight h => rfl

/-- Without configuration events settings and configuration stay. -/
theorem run_keeps (n : RosNode R) (es : List (NodeEvent R)) (h : ∀ e ∈ es, e.isConfig = false) :
    (n.run es).1.settings = n.settings ∧ (n.run es).1.cfg = n.cfg := by
  induction es generalizing n with
  | nil => exact ⟨rfl, rfl⟩
  | cons e es ih =>
    obtain ⟨h1, h2⟩ := ih (n.step e).1 (fun e' he' => h e' (List.mem_cons_of_mem _ he'))
    have he := h e (List.mem_cons_self ..)
    have : (n.step e).1.settings = n.settings ∧ (n.step e).1.cfg = n.cfg := by
      cases e with
      | config => cases he
      | msg m => exact ⟨(n.message_keeps m).2.1, (n.message_keeps m).2.2.1⟩
      | initScale s => exact ⟨rfl, rfl⟩
      | initHeight h => exact ⟨rfl, rfl⟩
    exact ⟨h1.trans this.1, h2.trans this.2⟩

/-- The delay of the pressure handler is never set. -/
theorem run_pressure_delay (n : RosNode R) (es : List (NodeEvent R))
    (h : (n.settings .pressure).delay = 0) : ((n.run es).1.settings .pressure).delay = 0 := by
  induction es generalizing n with
  | nil => exact h
  | cons e es ih =>
    apply ih
    cases e with
    | config cfg level =>
      change ((n.config cfg level).1.settings .pressure).delay = 0
      unfold config
      cases hk : n.kind <;> dsimp only <;> (try split) <;> simp [setNoises, setDelay, h]
    | msg m => change ((n.message m).1.settings _).delay = 0; rw [(n.message_keeps m).2.1]; exact h
    | initScale s => exact h
    | initHeight h' => exact h

/-- Nor is, in the pose-pressure node, any delay. -/
theorem run_delay_posePressure (n : RosNode R) (hk : n.kind = .posePressure) (es : List (NodeEvent R))
    (h : ∀ s, (n.settings s).delay = 0) (s : SensorKind) : ((n.run es).1.settings s).delay = 0 := by
  induction es generalizing n with
  | nil => exact h s
  | cons e es ih =>
    refine ih _ ((n.step_kind e).trans hk) fun s => ?_
    cases e with
    | config cfg level =>
      change ((n.config cfg level).1.settings s).delay = 0
      unfold config
      rw [show n.kind = .posePressure from hk]
      dsimp only
      split
      · exact h s
      · cases s <;> simp [setNoises, h]
    | msg m => change ((n.message m).1.settings _).delay = 0; rw [(n.message_keeps m).2.1]; exact h s
    | initScale _ => exact h s
    | initHeight _ => exact h s

/-- Without pose messages the position kept by the pose handler stays. -/
theorem run_z_p (n : RosNode R) (es : List (NodeEvent R)) (h : ∀ e ∈ es, e.isPose = false) :
    (n.run es).1.z_p = n.z_p := by
  induction es generalizing n with
  | nil => rfl
  | cons e es ih =>
    refine (ih (n.step e).1 (fun e' he' => h e' (List.mem_cons_of_mem _ he'))).trans ?_
    have he := h e (List.mem_cons_self ..)
    cases e with
    | config cfg level => exact (n.config_keeps cfg level).2.2.2.1
    | initScale s => rfl
    | initHeight h => rfl
    | msg m =>
      change (n.message m).1.z_p = n.z_p
      unfold message
      split
      · cases m with
        | pose k t z => cases he
        | position => dsimp only; split <;> rfl
        | pressure => dsimp only; split <;> rfl
        | angle => dsimp only; split <;> rfl
        | distance => dsimp only; split <;> rfl
      · rfl

/-- What a message makes. -/
theorem message_made (n : RosNode R) (m : SensorMsg R) (x : Made R) (hx : .meas x ∈ (n.message m).2) :
    n.kind.has m.sensor = true ∧ x.sensor = m.sensor ∧
      x.time = m.stamp - (n.settings m.sensor).delay ∧ x.noises = (n.settings m.sensor).noises ∧
      ∀ v, v ∈ x.fixed ↔ n.cfg.isFixed m.sensor v = true := by
  unfold message at hx
  split at hx
  · rename_i hh
    refine ⟨hh, ?_⟩
    cases m <;> dsimp only at hx <;> split at hx <;>
      first
      | exact absurd hx List.not_mem_nil
      | (simp only [List.mem_singleton, ToCore.meas.injEq] at hx
         subst hx
         refine ⟨rfl, rfl, rfl, fun v => ?_⟩
         cases v <;> simp [make, poseFixed, pointFixed, Cfg.isFixed, SensorMsg.sensor])
  · exact absurd hx List.not_mem_nil

/-- The settings right after a configuration. -/
theorem config_delay (n : RosNode R) (hk : n.kind ≠ .posePressure) (cfg : Cfg R) (level : Nat)
    (s : SensorKind) (hs : n.kind.has s = true) :
    ((n.config cfg level).1.settings s).delay = cfg.delay s := by
  unfold config
  cases h : n.kind <;> rw [h] at hs hk <;> dsimp only <;> cases s <;>
    first
    | exact absurd rfl hk
    | exact absurd hs (by decide)
    | (try split) <;> simp [setNoises, setDelay, Cfg.delay]

theorem config_noises (n : RosNode R) (cfg : Cfg R) (level : Nat)
    (hk : n.kind = .posePressure → heightInit n.z_p cfg level ≠ none)
    (s : SensorKind) (hs : n.kind.has s = true) :
    ((n.config cfg level).1.settings s).noises = cfg.noises s := by
  unfold config
  cases h : n.kind <;> rw [h] at hs hk <;> dsimp only <;> cases s <;>
    first
    | exact absurd hs (by decide)
    | ((try split) <;>
        first
        | (simp [setNoises, setDelay, Cfg.noises]; done)
        | (rename_i e; exact absurd e (hk rfl)))

end RosNode
end MSF
