import Verif.Model.Core
import Mathlib.Data.List.Sort
import Mathlib.Data.List.Dedup

/-!
# Specification: the batch filter

What the estimate should be, said without any buffer, re-ordering or re-propagation: take all IMU
readings and all measurements received so far, put them in time order and run one forward pass.

The only model vocabulary used here is the kernel (prediction and update functions), the state record
and the measurement record.
-/

namespace MSF.Spec
open MSF

variable {A W X C M T E : Type}

/-- What the filter has been given: the initial stamp and input followed by the IMU readings (spikes
replaced), the measurements it has accepted, those waiting for newer IMU readings, and the
acceleration that replaces the next spike. -/
structure Log (A W M : Type) where
  imu : List (ℚ × Input A W)
  hist : List (Meas M)
  queue : List (Meas M)
  am : A

namespace Log

/-- IMU time stamps, oldest first. -/
def stamps (L : Log A W M) : List ℚ := L.imu.map Prod.fst

/-- Time stamp of the newest IMU reading. -/
def newest (L : Log A W M) : ℚ := (L.stamps.getLast?).getD 0

/-- Time stamp of the initial state. -/
def start (L : Log A W M) : ℚ := (L.stamps.head?).getD 0

/-- Acceleration of the newest reading. -/
def lastAcc [Zero A] (L : Log A W M) : A := ((L.imu.getLast?).map (fun r => r.2.a)).getD 0

/-- A measurement arrives (or is taken from the waiting queue): it waits if it is newer than the IMU
data, it is ignored if it is older than the initial state, otherwise it counts. -/
def deliver (L : Log A W M) (m : Meas M) : Log A W M :=
  if L.newest < m.time then { L with queue := L.queue ++ [m] }
  else if m.time < L.start then L
  else { L with hist := L.hist ++ [m] }

/-- Take one measurement from the waiting queue. -/
def pop (L : Log A W M) : Log A W M :=
  match L.queue with
  | [] => L
  | m :: q => deliver { L with queue := q } m

/-- Record an IMU reading. -/
def addImu [Zero A] (spike : A → Bool) (L : Log A W M) (t : ℚ) (u : Input A W) : Log A W M :=
  if spike u.a then { L with imu := L.imu ++ [(t, ⟨L.am, u.w⟩)] }
  else { L with imu := L.imu ++ [(t, u)], am := L.lastAcc }

/-- Measurements count once the filter holds the initial state and three IMU readings. -/
def step [Zero A] (spike : A → Bool) (L : Log A W M) : Op A W M → Log A W M
  | .imu t u =>
    let L := addImu spike L t u
    if 3 < L.imu.length then L.pop else L
  | .meas m => if 3 < L.imu.length then L.deliver m else L

def run [Zero A] (spike : A → Bool) (L : Log A W M) (ops : List (Op A W M)) : Log A W M :=
  ops.foldl (step spike) L

/-- Condition on a measurement that is about to count: it is at most 59 s late and more than 2 ms
away from every other one; and if it might be rejected (`sure` is false), it arrives after all earlier
ones in time, or no IMU stamp is within 1 ms of it. -/
def fresh (sure : M → Bool) (L : Log A W M) (m : Meas M) : Prop :=
  m.time ≤ L.newest → L.start ≤ m.time →
    L.newest - 59 ≤ m.time ∧ (∀ m' ∈ L.hist, 1 / 500 < |m.time - m'.time|) ∧
    (sure m.body = true ∨ (∀ m' ∈ L.hist, m'.time < m.time) ∨
      ∀ k ∈ L.stamps, 1 / 1000 < |k - m.time|)

/-- Admissible calls: IMU stamps increase by at most 0.1 s, measurements are fresh when they count. -/
def ok [Zero A] (spike : A → Bool) (sure : M → Bool) (L : Log A W M) : Op A W M → Prop
  | .imu t u =>
    L.newest < t ∧ t - L.newest ≤ 1 / 10 ∧
      let L' := addImu spike L t u
      3 < L'.imu.length → ∀ m q, L'.queue = m :: q → fresh sure { L' with queue := q } m
  | .meas m => 3 < L.imu.length → fresh sure L m

/-- All calls of a run are admissible. -/
def okRun [Zero A] (spike : A → Bool) (sure : M → Bool) : Log A W M → List (Op A W M) → Prop
  | _, [] => True
  | L, o :: os => ok spike sure L o ∧ okRun spike sure (step spike L o) os

/-- The measurements that count or wait: those that arrive once three IMU readings are there and
are not older than the initial state. -/
def counted [Zero A] (sp : A → Bool) : Log A W M → List (Op A W M) → List (Meas M)
  | _, [] => []
  | L, .imu t u :: os => counted sp (L.step sp (.imu t u)) os
  | L, .meas m :: os =>
    if 3 < L.imu.length ∧ L.start ≤ m.time then m :: counted sp (L.step sp (.meas m)) os
    else counted sp (L.step sp (.meas m)) os

instance {α : Type} (l : List α) (P : α → List α → Prop) [∀ a l, Decidable (P a l)] :
    Decidable (∀ a l', l = a :: l' → P a l') :=
  match l with
  | [] => .isTrue (by intro a l' h; cases h)
  | a :: l' =>
    if h : P a l' then .isTrue (by rintro b l'' ⟨⟩; exact h)
    else .isFalse (fun hh => h (hh a l' rfl))

instance (sure : M → Bool) (L : Log A W M) (m : Meas M) : Decidable (fresh sure L m) := by
  unfold fresh; infer_instance

instance [Zero A] (spike : A → Bool) (sure : M → Bool) (L : Log A W M) (o : Op A W M) :
    Decidable (ok spike sure L o) := by
  cases o <;> (unfold ok; infer_instance)

instance instDecidableOkRun [Zero A] (spike : A → Bool) (sure : M → Bool) : ∀ (L : Log A W M) (ops : List (Op A W M)),
    Decidable (okRun spike sure L ops)
  | _, [] => .isTrue trivial
  | L, o :: os =>
    have := instDecidableOkRun spike sure (step spike L o) os
    inferInstanceAs (Decidable (ok spike sure L o ∧ okRun spike sure (step spike L o) os))

end Log

/-- The stamp nearest to `t` (the earlier one on a tie, for increasing stamps). -/
def nearestStamp (t : ℚ) : List ℚ → Option ℚ
  | [] => none
  | k :: ks =>
    match nearestStamp t ks with
    | none => some k
    | some k' => if |k' - t| < |k - t| then some k' else some k

/-- The time at which a measurement stamped `t` enters the filter: the nearest IMU stamp if that is
within 1 ms, otherwise `t` itself. -/
def target (ks : List ℚ) (t : ℚ) : ℚ :=
  match nearestStamp t ks with
  | none => t
  | some k => if |k - t| ≤ 1 / 1000 then k else t

section
variable [AddCommGroup A] [Module ℚ A] [AddCommGroup W] [Module ℚ W]

/-- Linear interpolation between two IMU readings. -/
def between (r r' : ℚ × Input A W) (t : ℚ) : Input A W :=
  { a := ((r'.1 - t) / (r'.1 - r.1)) • r.2.a + ((t - r.1) / (r'.1 - r.1)) • r'.2.a
    w := ((r'.1 - t) / (r'.1 - r.1)) • r.2.w + ((t - r.1) / (r'.1 - r.1)) • r'.2.w }

/-- The IMU signal at time `t`: piecewise linear through the readings. -/
def inputFrom (r : ℚ × Input A W) : List (ℚ × Input A W) → ℚ → Input A W
  | [], _ => r.2
  | r' :: rs, t => if t ≤ r'.1 then between r r' t else inputFrom r' rs t

/-- The IMU signal of a log. -/
def inputAt (imu : List (ℚ × Input A W)) (t : ℚ) : Input A W :=
  match imu with
  | [] => ⟨0, 0⟩
  | r :: rs => inputFrom r rs t

/-- The measurement that enters the filter at time `t`, if any. -/
def measAt (ks : List ℚ) (hist : List (Meas M)) (t : ℚ) : Option M :=
  (hist.find? (fun m => target ks m.time = t)).map Meas.body

/-- The measurement update, if there is a measurement. -/
def correct (K : Kernel A W X C M T E) : Option M → X × C → X × C
  | none, s => s
  | some m, s => let r := K.update K.tr0 m s.1 s.2; (r.x, r.P)

/-- One forward pass over the given times. -/
def forward (K : Kernel A W X C M T E) (input : ℚ → Input A W) (meas : ℚ → Option M) :
    ℚ × St A W X C → List ℚ → List (ℚ × St A W X C)
  | _, [] => []
  | (t, s), t' :: ts =>
    let u := input t'
    let x := K.prop (t' - t) s.u s.x u
    let P := K.predP (t' - t) s.P u x
    let xP := correct K (meas t') (x, P)
    let s' : St A W X C := ⟨u, xP.1, xP.2⟩
    (t', s') :: forward K input meas (t', s') ts

/-- All times at which the batch filter has a state. -/
def times (L : Log A W M) : List ℚ :=
  (L.stamps ++ L.hist.map (fun m => target L.stamps m.time)).dedup.insertionSort (· ≤ ·)

/-- The batch filter on a log, starting from mean `x0` and covariance `P0`. -/
def batch (K : Kernel A W X C M T E) (x0 : X) (P0 : C) (L : Log A W M) : List (ℚ × St A W X C) :=
  match times L with
  | [] => []
  | t :: ts =>
    let meas := measAt L.stamps L.hist
    let xP := correct K (meas t) (x0, P0)
    let s : St A W X C := ⟨inputAt L.imu t, xP.1, xP.2⟩
    (t, s) :: forward K (inputAt L.imu) meas (t, s) ts

/-- Publication of the newest state of a batch result. -/
def newestEvent (mk : ℚ → X → C → Event X C) (B : List (ℚ × St A W X C)) : List (Event X C) :=
  match B.getLast? with
  | none => []
  | some e => [mk e.1 e.2.x e.2.P]

/-- What a measurement should make the filter publish: the newest state of the batch filter that
includes it, or nothing if it does not count. -/
def measEvents (K : Kernel A W X C M T E) (x0 : X) (P0 : C) (L : Log A W M) (m : Meas M) :
    List (Event X C) :=
  if L.newest < m.time ∨ m.time < L.start then []
  else newestEvent .afterUpdate (batch K x0 P0 (L.deliver m))

/-- What a call should make the filter publish. -/
def events (K : Kernel A W X C M T E) (x0 : X) (P0 : C) (L : Log A W M) :
    Op A W M → List (Event X C)
  | .imu t u =>
    let L' := L.addImu K.spike t u
    newestEvent .afterPropagation (batch K x0 P0 L') ++
      if 3 < L'.imu.length then
        match L'.queue with
        | [] => []
        | m :: q => measEvents K x0 P0 { L' with queue := q } m
      else []
  | .meas m => if 3 < L.imu.length then measEvents K x0 P0 L m else []

/-- What a run should make the filter publish. -/
def eventsRun (K : Kernel A W X C M T E) (x0 : X) (P0 : C) :
    Log A W M → List (Op A W M) → List (Event X C)
  | _, [] => []
  | L, o :: os => events K x0 P0 L o ++ eventsRun K x0 P0 (L.step K.spike o) os

end

/-- The IMU readings among the calls. -/
def imuOps : List (Op A W M) → List (ℚ × Input A W)
  | [] => []
  | .imu t u :: os => (t, u) :: imuOps os
  | .meas _ :: os => imuOps os

/-- The measurements among the calls. -/
def measOps : List (Op A W M) → List (Meas M)
  | [] => []
  | .imu _ _ :: os => measOps os
  | .meas m :: os => m :: measOps os

end MSF.Spec
