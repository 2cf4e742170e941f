import Verif.Model.Relay
import Mathlib.Data.List.Induction

/-!
# C130: the relay node passes on exactly the messages of the enabled kinds
-/

namespace MSF

variable {M : RelayTopic → Type}

/-- The configuration in an event. -/
def RelayEvent.config? : RelayEvent M → Option RelayConfig
  | .config c => some c
  | .msg _ _ => none

/-- The message in an event. -/
def RelayEvent.msg? : RelayEvent M → Option (Sigma M)
  | .config _ => none
  | .msg t m => some ⟨t, m⟩

/-- The configuration after the events: the last one, or the initial one. -/
def relayInForce (c : RelayConfig) (es : List (RelayEvent M)) : RelayConfig :=
  (es.filterMap RelayEvent.config?).getLast?.getD c

/-- Poses and transforms are enabled by `publish_pose`, GPS fixes and points by `publish_position`. -/
def RelayConfig.enables (c : RelayConfig) (t : RelayTopic) : Bool :=
  if t ∈ [.navSatFix, .point] then c.publishPosition else c.publishPose

/-- The message at place `k` of the events, if its kind is enabled at this time. -/
def relayPassed (c : RelayConfig) (es : List (RelayEvent M)) (k : Nat) : Option (Sigma M) :=
  (es[k]?.bind RelayEvent.msg?).filter fun m => (relayInForce c (es.take k)).enables m.1

theorem relayCallback_eq (c : RelayConfig) (t : RelayTopic) (m : M t) :
    relayCallback c t m = if c.enables t then some ⟨t, m⟩ else none := by
  cases t <;> rfl

theorem relayRun_append (c : RelayConfig) (es es' : List (RelayEvent M)) :
    relayRun c (es ++ es') = relayRun c es ++ relayRun (relayInForce c es) es' := by
  induction es generalizing c with
  | nil => rfl
  | cons e es ih =>
    cases e with
    | config c' =>
      simp only [List.cons_append, relayRun, ih]
      congr 2
      simp only [relayInForce, List.filterMap_cons, RelayEvent.config?, List.getLast?_cons,
        Option.getD_some]
    | msg t m =>
      simp only [List.cons_append, relayRun, ih, List.append_assoc]
      rfl

/-- **C130.**  For every initial configuration and every sequence of messages and changes of the configuration:
the node publishes, in the order of arrival, exactly the messages whose kind is enabled when they arrive, each
on the output of its own topic and unchanged. -/
theorem C130_relay (c : RelayConfig) (es : List (RelayEvent M)) :
    relayRun c es = (List.range es.length).filterMap (relayPassed c es) := by
  induction es using List.reverseRecOn with
  | nil => rfl
  | append_singleton es e ih =>
    rw [relayRun_append, ih, List.length_append, List.length_singleton, List.range_succ,
      List.filterMap_append]
    congr 1
    · refine List.filterMap_congr fun k hk => ?_
      have hk' := List.mem_range.1 hk
      unfold relayPassed
      rw [List.getElem?_append_left hk', List.take_append_of_le_length (Nat.le_of_lt hk')]
    · cases e with
      | config c' => simp [relayRun, relayPassed, RelayEvent.msg?]
      | msg t m =>
        simp only [relayRun, relayCallback_eq, List.append_nil, List.filterMap_cons, List.filterMap_nil,
          relayPassed, List.getElem?_concat_length, Option.bind_some, RelayEvent.msg?, Option.filter_some,
          List.take_left]
        cases (relayInForce c es).enables t <;> rfl

/-- **C130, nothing is held back by default.**  As long as nobody switches anything off, the node is not
noticed: it publishes what it gets. -/
theorem C130_transparent (es : List (RelayEvent M))
    (h : ∀ c, .config c ∈ es → c = RelayConfig.default) :
    relayRun RelayConfig.default es = es.filterMap RelayEvent.msg? := by
  induction es with
  | nil => rfl
  | cons e es ih =>
    have ih := ih fun c hc => h c (List.mem_cons_of_mem _ hc)
    cases e with
    | config c =>
      rw [h c List.mem_cons_self]
      simp only [relayRun, RelayEvent.msg?, List.filterMap_cons]
      exact ih
    | msg t m =>
      have e1 : relayCallback RelayConfig.default t m = some ⟨t, m⟩ := by cases t <;> rfl
      simp only [relayRun, e1, ih, Option.toList_some, List.filterMap_cons, RelayEvent.msg?,
        List.singleton_append]

/-- An outage of the poses: the pose that arrives in between is held back, the point is not. -/
example : relayRun RelayConfig.default
    [.msg .pose 1, .config ⟨false, true⟩, .msg .pose 2, .msg .point 3, .config ⟨true, true⟩,
      .msg .transform 4] =
    ([⟨.pose, 1⟩, ⟨.point, 3⟩, ⟨.transform, 4⟩] : List (Sigma fun _ : RelayTopic => Nat)) := by
  decide

example : relayRun (M := fun _ => Nat) RelayConfig.default [.msg .pose 1, .config .default, .msg .point 2] =
    [⟨.pose, 1⟩, ⟨.point, 2⟩] :=
  C130_transparent _ (by
    intro c hc
    simp only [List.mem_cons, reduceCtorEq, RelayEvent.config.injEq, List.not_mem_nil, or_false,
      false_or] at hc
    exact hc)

end MSF
