import Verif.Model.External

/-!
# The external estimator

How the flight controller at the other end is meant to treat the messages on `correction`
(ExtEkf.msg: `initialization` replaces its state, `state_correction` is added to it, the attitude
being multiplied from the right).
-/

namespace MSF

variable {A W X C M R : Type}

/-- The state of the external estimator as it sends it. -/
def CoreState.message (y : CoreState R) : List (Option R) :=
  List.ofFn fun i => some (y.numbers i)

/-- The numbers of a correction. -/
def CorrMsg.number (m : CorrMsg R) (i : Nat) : Option R :=
  if h : i < 16 then m.state ⟨i, h⟩ else none

/-- The external estimator receives a message; `none` if its state is not a number any more. -/
def CoreState.receive [CommRing R] (y : CoreState R) (m : CorrMsg R) : Option (CoreState R) := do
  let p ← num3 m.number 0
  let v ← num3 m.number 3
  let q ← num4 m.number 6
  let bw ← num3 m.number 10
  let ba ← num3 m.number 13
  match m.flag with
  | .initialization => some ⟨p, v, q, bw, ba⟩
  | .stateCorrection => some ⟨y.p + p, y.v + v, y.q.mul q, y.b_w + bw, y.b_a + ba⟩

/-- It receives several messages. -/
def CoreState.receiveAll [CommRing R] (y : CoreState R) : List (CorrMsg R) → Option (CoreState R)
  | [] => some y
  | m :: ms => (y.receive m).bind fun y => y.receiveAll ms

/-- The core states of the updates among published states (those that are numbers). -/
def updates {E : Type} (view : RosView R X E) : List (Event X C) → List (CoreState R)
  | [] => []
  | .afterUpdate _ x _ :: es => (view.core x).toList ++ updates view es
  | _ :: es => updates view es

/-- The external states among the callbacks. -/
def externalStates : List (RosCall A W X C M R) → List (ExtMsg A W R)
  | [] => []
  | .state m :: os => m :: externalStates os
  | _ :: os => externalStates os

/-- The filter is fed with external states and measurements only. -/
def RosCall.isExternal : RosCall A W X C M R → Prop
  | .state _ => True
  | .meas _ => True
  | _ => False

/-- The external state in a message is one the filter must not use. -/
def ExtMsg.Unusable (playback : Bool) (m : ExtMsg A W R) : Prop :=
  playback = true ∨ m.flag ≠ currentState ∨ ∃ i < 10, msgEntry m.state i = none

end MSF
