import Verif.Lemmas.Config
import Verif.Lemmas.CoreForms

/-!
# Configuration at run time: C97, C98, C99, C100

A run of a node is a list of configuration callbacks, services and sensor messages; `RosNode.run` gives
the node after it.
-/

namespace MSF
open RosNode

section
variable {R : Type} [Field R] [LinearOrder R]

/-! ## C97 -/

/-- **C97 (partial).** After any run whose last configuration is `cfg`, a measurement made from a message
has the stamp of the message minus the delay of its sensor in `cfg`, in all nodes but the pose-pressure
node.  Full claim: in all nodes; false by `C97_pose_pressure_violated`. -/
theorem C97_delay_partial (kind : NodeKind) (hk : kind ≠ .posePressure) (fixedCov : Bool) (minDt : R)
    (junk cfg : Cfg R) (level : Nat) (pre mid : List (NodeEvent R))
    (hmid : ∀ e ∈ mid, e.isConfig = false) (m : SensorMsg R) (x : Made R)
    (hx : .meas x ∈ ((((RosNode.init kind fixedCov minDt junk).run
      (pre ++ .config cfg level :: mid)).1.step (.msg m)).2)) :
    x.sensor = m.sensor ∧ x.time = m.stamp - cfg.delay m.sensor := by
  rw [run_append] at hx
  have hkind := run_kind (RosNode.init kind fixedCov minDt junk) pre
  set n := ((RosNode.init kind fixedCov minDt junk).run pre).1
  change .meas x ∈ (((n.config cfg level).1.run mid).1.message m).2 at hx
  obtain ⟨h1, h2, h3, -, -⟩ := message_made _ _ _ hx
  refine ⟨h2, ?_⟩
  rw [run_kind, (n.config_keeps cfg level).1] at h1
  rw [h3, (run_keeps _ mid hmid).1, config_delay n (by rw [hkind]; exact hk) cfg level _ h1]

/-- **C97 is violated** by the pose-pressure node: whatever is configured, the measurement has the stamp
of the message. -/
theorem C97_pose_pressure_violated (fixedCov : Bool) (minDt : R) (junk : Cfg R) (es : List (NodeEvent R))
    (m : SensorMsg R) (x : Made R)
    (hx : .meas x ∈ ((((RosNode.init .posePressure fixedCov minDt junk).run es).1.step (.msg m)).2)) :
    x.time = m.stamp := by
  obtain ⟨-, -, h, -, -⟩ := message_made _ _ _ hx
  rw [h, run_delay_posePressure _ rfl es (fun s => by cases s <;> rfl), sub_zero]

/-- **C97, which messages are used.** Configurations neither lose nor add measurements: leaving them out
of a run, every message makes the same number of measurements. -/
theorem C97_messages (n : RosNode R) (es : List (NodeEvent R)) :
    ((n.run es).2.flatten.filterMap ToCore.made?).map Made.sensor =
      ((n.run (es.filter (fun e => !e.isConfig))).2.flatten.filterMap ToCore.made?).map Made.sensor := by
  have hcfg : ∀ (n : RosNode R) cfg level, (n.config cfg level).2.filterMap ToCore.made? = [] := by
    intro n cfg level
    have hh : ∀ (z : V3 R) b, heightInit z cfg level = some b → b.filterMap ToCore.made? = [] := by
      intro n b hb
      unfold heightInit at hb
      split at hb
      · split at hb
        · cases hb
        · cases hb; rfl
      · cases hb; rfl
    have hi : ∀ z : R, (if initRequested cfg level then [(.init z : ToCore R)] else []).filterMap
        ToCore.made? = [] := by
      intro z; split <;> rfl
    unfold config
    cases n.kind <;> dsimp only
    · split
      · exact hi _
      · rename_i b hb; rw [List.filterMap_append, hi, hh _ b hb]; rfl
    · split
      · exact hi _
      · rename_i b hb; rw [List.filterMap_append, hi, hh _ b hb]; rfl
    · exact hi _
    · split
      · exact hi _
      · rename_i b hb; rw [List.filterMap_append, hi, hh _ b hb]; rfl
    · exact hi _
  suffices h : ∀ (es : List (NodeEvent R)) (n n' : RosNode R), n.kind = n'.kind →
      n.fixedCov = n'.fixedCov → n.pose = n'.pose → n.z_p = n'.z_p →
      ((n.run es).2.flatten.filterMap ToCore.made?).map Made.sensor =
      ((n'.run (es.filter (fun e => !e.isConfig))).2.flatten.filterMap ToCore.made?).map Made.sensor from
    h es n n rfl rfl rfl rfl
  intro es
  induction es with
  | nil => intros; rfl
  | cons e es ih =>
    intro n n' h1 h2 h3 h4
    have key : e.isConfig = false →
        (n.step e).1.kind = (n'.step e).1.kind → (n.step e).1.fixedCov = (n'.step e).1.fixedCov →
        (n.step e).1.pose = (n'.step e).1.pose → (n.step e).1.z_p = (n'.step e).1.z_p →
        ((n.step e).2.filterMap ToCore.made?).map Made.sensor =
          ((n'.step e).2.filterMap ToCore.made?).map Made.sensor →
        ((n.run (e :: es)).2.flatten.filterMap ToCore.made?).map Made.sensor =
          ((n'.run ((e :: es).filter (fun e => !e.isConfig))).2.flatten.filterMap ToCore.made?).map
            Made.sensor := by
      intro hc g1 g2 g3 g4 g5
      rw [List.filter_cons_of_pos (by simp [hc])]
      simp only [run, List.flatten_cons, List.filterMap_append, List.map_append]
      rw [g5, ih _ _ g1 g2 g3 g4]
    cases e with
    | config cfg level =>
      rw [List.filter_cons_of_neg (by simp [NodeEvent.isConfig])]
      simp only [run, List.flatten_cons, List.filterMap_append]
      rw [show (n.step (.config cfg level)).2 = (n.config cfg level).2 from rfl, hcfg, List.nil_append]
      obtain ⟨k1, -, k3, k4, k5⟩ := n.config_keeps cfg level
      exact ih _ _ (k1.trans h1) (k5.trans h2) (k3.trans h3) (k4.trans h4)
    | msg m =>
      obtain ⟨k1, -, -, k4⟩ := n.message_keeps m
      obtain ⟨l1, -, -, l4⟩ := n'.message_keeps m
      have aux : (n.message m).1.pose = (n'.message m).1.pose ∧
          (n.message m).1.z_p = (n'.message m).1.z_p ∧
          ((n.message m).2.filterMap ToCore.made?).map Made.sensor =
            ((n'.message m).2.filterMap ToCore.made?).map Made.sensor := by
        unfold message
        rw [← h1]
        split
        · cases m <;> dsimp only <;> (try simp only [← h2, ← h3]) <;> split <;>
            simp [ToCore.made?, make, h3, h4]
        · exact ⟨h3, h4, rfl⟩
      exact key rfl (k1.trans (h1.trans l1.symm)) (k4.trans (h2.trans l4.symm)) aux.1 aux.2.1 aux.2.2
    | initScale s =>
      refine key rfl h1 h2 h3 h4 ?_
      simp only [step]
      split <;> split <;> rfl
    | initHeight h =>
      have : ∀ n : RosNode R, (n.serviceHeight h).filterMap ToCore.made? = [] := by
        intro n
        unfold serviceHeight
        split
        · split
          · rfl
          · split <;> rfl
        · rfl
      refine key rfl h1 h2 h3 h4 ?_
      simp only [step, this]

/-- **C97, which messages are used.** At any point of any run: a position message is used by the position
and the position-pose node, unless it is a transform whose sequence number is not a multiple of 5 or brings no
covariance where one is needed; a pressure message is used by the pose-pressure node if its sequence number is
a multiple of 10; angles and distances are used by the spherical node if it has a fixed covariance.
(Poses: C45.) -/
theorem C97_used (kind : NodeKind) (fixedCov : Bool) (minDt : R) (junk : Cfg R) (es : List (NodeEvent R))
    (m : SensorMsg R) (hp : m.sensor ≠ .pose) :
    (((((RosNode.init kind fixedCov minDt junk).run es).1.step (.msg m)).2.filterMap
      ToCore.made?).map Made.sensor = [m.sensor] ↔
    match m with
    | .pose .. => False
    | .position k seq _ cov0 => (kind = .position ∨ kind = .positionPose) ∧ (k = .transform → 5 ∣ seq) ∧
        (fixedCov = true ∨ cov0 ≠ 0)
    | .pressure seq _ => kind = .posePressure ∧ 10 ∣ seq
    | .angle _ => kind = .spherical ∧ fixedCov = true
    | .distance _ => kind = .spherical ∧ fixedCov = true) := by
  have table : ∀ s : SensorKind, kind.has s = true ↔ match s with
      | .pose => kind = .pose ∨ kind = .posePressure ∨ kind = .positionPose
      | .position => kind = .position ∨ kind = .positionPose
      | .pressure => kind = .posePressure
      | .angle => kind = .spherical
      | .distance => kind = .spherical := by
    intro s
    cases s <;> cases kind <;> simp [NodeKind.has]
  have hk : ((RosNode.init kind fixedCov minDt junk).run es).1.kind = kind := run_kind _ es
  have hf : ((RosNode.init kind fixedCov minDt junk).run es).1.fixedCov = fixedCov := run_fixedCov _ es
  generalize ((RosNode.init kind fixedCov minDt junk).run es).1 = n at *
  change (((n.message m).2.filterMap ToCore.made?).map Made.sensor = _ ↔ _)
  unfold message
  rw [hk]
  by_cases hs : kind.has m.sensor = true
  swap
  · rw [if_neg hs]
    have := fun h => hs ((table m.sensor).2 h)
    cases m with
    | pose k stamp z => exact absurd rfl hp
    | position => exact ⟨fun h => absurd h (by simp), fun h => absurd h.1 this⟩
    | pressure => exact ⟨fun h => absurd h (by simp), fun h => absurd h.1 this⟩
    | angle => exact ⟨fun h => absurd h (by simp), fun h => absurd h.1 this⟩
    | distance => exact ⟨fun h => absurd h (by simp), fun h => absurd h.1 this⟩
  rw [if_pos hs]
  have hkind := (table m.sensor).1 hs
  cases m with
  | pose k stamp z => exact absurd rfl hp
  | position k seq stamp cov0 =>
    dsimp only
    rw [hf]
    by_cases h1 : k = .transform ∧ seq % 5 ≠ 0
    · have : ¬ 5 ∣ seq := fun h => h1.2 (Nat.mod_eq_zero_of_dvd h)
      simp [h1, this]
    · by_cases h2 : fixedCov = false ∧ cov0 = 0
      · simp [h2]
      · have h3 : k = .transform → 5 ∣ seq := fun h => by
          by_contra h'
          exact h1 ⟨h, fun h0 => h' (Nat.dvd_of_mod_eq_zero h0)⟩
        have h4 : fixedCov = true ∨ cov0 ≠ 0 := by
          cases fixedCov
          · exact .inr fun h => h2 ⟨rfl, h⟩
          · exact .inl rfl
        rw [if_neg (by tauto)]
        simp [ToCore.made?, make, SensorMsg.sensor]
        exact ⟨hkind, h3, h4⟩
  | pressure seq stamp =>
    replace hkind : kind = .posePressure := hkind
    dsimp only
    by_cases h : 10 ∣ seq
    · simp [Nat.mod_eq_zero_of_dvd h, h, hkind, ToCore.made?, make, SensorMsg.sensor]
    · have : seq % 10 ≠ 0 := fun h0 => h (Nat.dvd_of_mod_eq_zero h0)
      simp [this, h]
  | angle stamp =>
    replace hkind : kind = .spherical := hkind
    dsimp only
    rw [hf]
    cases fixedCov <;> simp [hkind, ToCore.made?, make, SensorMsg.sensor]
  | distance stamp =>
    replace hkind : kind = .spherical := hkind
    dsimp only
    rw [hf]
    cases fixedCov <;> simp [hkind, ToCore.made?, make, SensorMsg.sensor]

/-- The kind and the stamp of a pose message. -/
def NodeEvent.pose? : NodeEvent R → Option (PoseMsgKind × R)
  | .msg (.pose k t _) => some (k, t)
  | _ => none

/-- The stamp of a pose message that led to something. -/
def usedPose : NodeEvent R × List (ToCore R) → Option R
  | (.msg (.pose _ t _), out) => if (out.filterMap ToCore.made?).map Made.sensor = [.pose] then some t else none
  | _ => none

theorem run_poses (n : RosNode R) (es : List (NodeEvent R)) :
    (es.zip (n.run es).2).filterMap usedPose =
      if n.kind.has .pose then (n.pose.run (es.filterMap NodeEvent.pose?)).2 else [] := by
  induction es generalizing n with
  | nil => cases n.kind.has .pose <;> rfl
  | cons e es ih =>
    have hk := n.step_kind e
    have hrec := ih (n.step e).1
    rw [hk] at hrec
    simp only [run, List.zip_cons_cons]
    have other : (n.step e).1.pose = n.pose → usedPose (e, (n.step e).2) = none → e.pose? = none →
        ((e, (n.step e).2) :: es.zip ((n.step e).1.run es).2).filterMap usedPose =
          if n.kind.has .pose then (n.pose.run ((e :: es).filterMap NodeEvent.pose?)).2 else [] := by
      intro h1 h2 h3
      rw [List.filterMap_cons_none h2, List.filterMap_cons_none h3, hrec, h1]
    cases e with
    | config cfg level => exact other (n.config_keeps cfg level).2.2.1 rfl rfl
    | initScale s => exact other rfl rfl rfl
    | initHeight h => exact other rfl rfl rfl
    | msg m =>
      cases m with
      | pose k t z =>
        rw [List.filterMap_cons_some (a := NodeEvent.msg (.pose k t z)) (b := (k, t)) rfl]
        simp only [List.filterMap_cons, hrec]
        change (match usedPose (.msg (.pose k t z), (n.message (.pose k t z)).2) with | none => _ | some b => _) = _
        change _ = if n.kind.has .pose = true then
          (if (n.pose.callback k t).2 then t :: ((n.pose.callback k t).1.run _).2 else
            ((n.pose.callback k t).1.run _).2) else []
        have hm : n.message (.pose k t z) = if n.kind.has .pose then
            (if (n.pose.callback k t).2 then ({ n with pose := (n.pose.callback k t).1, z_p := z },
              [.meas (n.make .pose t (poseFixed n.cfg))])
            else ({ n with pose := (n.pose.callback k t).1 }, [])) else (n, []) := rfl
        by_cases hp : n.kind.has .pose = true
        · rw [if_pos hp] at hm ⊢
          rw [if_pos hp]
          by_cases hc : (n.pose.callback k t).2 = true
          · rw [if_pos hc] at hm ⊢
            simp [usedPose, step, hm, ToCore.made?, make]
          · rw [if_neg hc] at hm ⊢
            simp [usedPose, step, hm]
        · rw [if_neg hp] at hm ⊢
          rw [if_neg hp]
          simp [usedPose, hm]
      | position k seq t c =>
        refine other ?_ rfl rfl
        change (n.message _).1.pose = _
        unfold message
        split
        · dsimp only; split <;> rfl
        · rfl
      | pressure seq t =>
        refine other ?_ rfl rfl
        change (n.message _).1.pose = _
        unfold message
        split
        · dsimp only; split <;> rfl
        · rfl
      | angle t =>
        refine other ?_ rfl rfl
        change (n.message _).1.pose = _
        unfold message
        split
        · dsimp only; split <;> rfl
        · rfl
      | distance t =>
        refine other ?_ rfl rfl
        change (n.message _).1.pose = _
        unfold message
        split
        · dsimp only; split <;> rfl
        · rfl

/-- **C97, which poses are used.** In every run of the pose, the pose-pressure and the position-pose node the
poses that become measurements are those that the rate limit of C45 lets pass, applied to the pose messages
alone: other messages, configurations and services make no difference.  The other nodes use no poses. -/
theorem C97_poses (kind : NodeKind) (fixedCov : Bool) (minDt : R) (junk : Cfg R) (es : List (NodeEvent R)) :
    (es.zip ((RosNode.init kind fixedCov minDt junk).run es).2).filterMap usedPose =
      if kind = .pose ∨ kind = .posePressure ∨ kind = .positionPose then
        ((PoseHandler.init fixedCov minDt).run (es.filterMap NodeEvent.pose?)).2
      else [] := by
  rw [run_poses]
  cases kind <;> rfl

/-! ## C98 -/

/-- **C98, fixed states.** After any run whose last configuration is `cfg`, a measurement leaves exactly
those states alone that `cfg` asks its sensor to leave alone, in all nodes. -/
theorem C98_fixed (kind : NodeKind) (fixedCov : Bool) (minDt : R)
    (junk cfg : Cfg R) (level : Nat) (pre mid : List (NodeEvent R))
    (hmid : ∀ e ∈ mid, e.isConfig = false) (m : SensorMsg R) (x : Made R)
    (hx : .meas x ∈ ((((RosNode.init kind fixedCov minDt junk).run
      (pre ++ .config cfg level :: mid)).1.step (.msg m)).2)) (v : FixedVar) :
    v ∈ x.fixed ↔ cfg.isFixed m.sensor v = true := by
  rw [run_append] at hx
  set n := ((RosNode.init kind fixedCov minDt junk).run pre).1
  change .meas x ∈ (((n.config cfg level).1.run mid).1.message m).2 at hx
  obtain ⟨-, -, -, -, h⟩ := message_made _ _ _ hx
  rw [h v, (run_keeps _ mid hmid).2, (n.config_keeps cfg level).2.1]

/-- **C98, noises (partial).** After any run whose last configuration is `cfg`, a measurement has the
noises of its sensor in `cfg`; for the pose-pressure node this is shown if that configuration does not
ask for an initialisation by height or a pose away from the origin has been used before.  Full claim:
without `hh`; false by `C98_pose_pressure_violated`. -/
theorem C98_noises_partial (kind : NodeKind) (fixedCov : Bool) (minDt : R)
    (junk cfg : Cfg R) (level : Nat) (pre mid : List (NodeEvent R))
    (hh : kind = .posePressure → heightRequested cfg level = true →
      ∃ i, ((RosNode.init kind fixedCov minDt junk).run pre).1.z_p i ≠ 0)
    (hmid : ∀ e ∈ mid, e.isConfig = false) (m : SensorMsg R) (x : Made R)
    (hx : .meas x ∈ ((((RosNode.init kind fixedCov minDt junk).run
      (pre ++ .config cfg level :: mid)).1.step (.msg m)).2)) :
    x.noises = cfg.noises m.sensor := by
  rw [run_append] at hx
  have hkind := run_kind (RosNode.init kind fixedCov minDt junk) pre
  set n := ((RosNode.init kind fixedCov minDt junk).run pre).1
  change .meas x ∈ (((n.config cfg level).1.run mid).1.message m).2 at hx
  obtain ⟨h1, -, -, h4, -⟩ := message_made _ _ _ hx
  rw [run_kind, (n.config_keeps cfg level).1] at h1
  rw [h4, (run_keeps _ mid hmid).1, config_noises n cfg level ?_ _ h1]
  intro hk
  unfold heightInit
  split
  · rename_i hr
    obtain ⟨i, hi⟩ := hh (hkind.symm.trans hk) hr
    rw [if_neg]
    · simp
    · rintro ⟨a, b, c⟩
      apply hi
      fin_cases i
      · exact a
      · exact b
      · exact c
  · simp

/-- **C98 is violated for `press_reset`**: the request to reset the zero point of the pressure sensor
changes nothing that any node ever sends to the core. -/
theorem C98_press_reset_violated (n : RosNode R) (pre post : List (NodeEvent R)) (cfg : Cfg R)
    (level : Nat) (b : Bool) :
    (n.run (pre ++ .config cfg level :: post)).2 =
      (n.run (pre ++ .config { cfg with press_reset := b } level :: post)).2 := by
  /- Nodes that differ in the check box only -/
  have aux : ∀ (es : List (NodeEvent R)) (n : RosNode R) (c : Cfg R),
      (({ n with cfg := c } : RosNode R).run es).2 =
        (({ n with cfg := { c with press_reset := b } } : RosNode R).run es).2 := by
    intro es
    induction es with
    | nil => intros; rfl
    | cons e es ih =>
      intro n c
      simp only [run]
      cases e with
      | config cfg level =>
        have : (({ n with cfg := c } : RosNode R).step (.config cfg level)) =
            (({ n with cfg := { c with press_reset := b } } : RosNode R).step (.config cfg level)) := rfl
        rw [this]
      | msg m =>
        simp only [step, message]
        by_cases hs : n.kind.has m.sensor = true
        · simp only [hs, if_true]
          cases m with
          | pose k t z =>
            dsimp only
            split
            · exact congrArg₂ List.cons rfl (ih { n with pose := (n.pose.callback k t).1, z_p := z } c)
            · exact congrArg₂ List.cons rfl (ih { n with pose := (n.pose.callback k t).1 } c)
          | position k q t c0 =>
            dsimp only
            split <;> exact congrArg₂ List.cons rfl (ih n c)
          | pressure q t =>
            dsimp only
            split <;> exact congrArg₂ List.cons rfl (ih n c)
          | angle t =>
            dsimp only
            split <;> exact congrArg₂ List.cons rfl (ih n c)
          | distance t =>
            dsimp only
            split <;> exact congrArg₂ List.cons rfl (ih n c)
        · simp only [hs]
          exact congrArg₂ List.cons rfl (ih n c)
      | initScale s => exact congrArg₂ List.cons rfl (ih n c)
      | initHeight h => exact congrArg₂ List.cons rfl (ih n c)
  induction pre generalizing n with
  | cons e pre ih => exact congrArg (List.cons _) (ih _)
  | nil =>
    change (n.config cfg level).2 :: ((n.config cfg level).1.run post).2 =
      (n.config { cfg with press_reset := b } level).2 ::
        ((n.config { cfg with press_reset := b } level).1.run post).2
    have h2 : (n.config { cfg with press_reset := b } level) =
        ({ (n.config cfg level).1 with cfg := { cfg with press_reset := b } }, (n.config cfg level).2) := by
      have e : ∀ z : V3 R, heightInit z { cfg with press_reset := b } level = heightInit z cfg level :=
        fun _ => rfl
      unfold config
      cases n.kind <;> dsimp only [setNoises, setDelay] <;> (try rw [e]) <;>
        (try cases heightInit n.z_p cfg level) <;> rfl
    rw [h2]
    refine congrArg (List.cons _) ?_
    have h3 : (n.config cfg level).1 = { (n.config cfg level).1 with cfg := cfg } := by
      have : ∀ m : RosNode R, m.cfg = cfg → m = { m with cfg := cfg } := by rintro ⟨⟩ rfl; rfl
      exact this _ (n.config_keeps cfg level).2.1
    calc ((n.config cfg level).1.run post).2
        = (({ (n.config cfg level).1 with cfg := cfg } : RosNode R).run post).2 := by rw [← h3]
      _ = _ := aux post _ cfg

/-! ## C99 -/

/-- **C99 (partial).** A request to initialise by height, by check box in any node with a pose sensor or
by service in the pose node, initialises with scale `z / height`, where `z` is the height measured by the
last pose message that was used, if that pose is not the origin.  Full claim: without `hz`; false by
`C99_origin_violated`. -/
theorem C99_height_partial (kind : NodeKind) (hk : kind.has .pose = true) (fixedCov : Bool) (minDt : R)
    (junk : Cfg R) (pre mid : List (NodeEvent R)) (k : PoseMsgKind) (t : R) (z : V3 R)
    (hused : ((((RosNode.init kind fixedCov minDt junk).run pre).1.step (.msg (.pose k t z))).2) ≠ [])
    (hmid : ∀ e ∈ mid, e.isPose = false) (hz : z ≠ 0) :
    (∀ (cfg : Cfg R) (level : Nat), heightRequested cfg level = true →
      (((RosNode.init kind fixedCov minDt junk).run (pre ++ .msg (.pose k t z) :: mid)).1.step
        (.config cfg level)).2.getLast? = some (.init (z 2 / cfg.core_height))) ∧
    (kind = .pose → ∀ h : R, 1 / 100 < |h| →
      (((RosNode.init kind fixedCov minDt junk).run (pre ++ .msg (.pose k t z) :: mid)).1.step
        (.initHeight h)).2 = [.init (z 2 / h)]) := by
  have hkind : ∀ es, ((RosNode.init kind fixedCov minDt junk).run es).1.kind = kind :=
    fun es => run_kind _ es
  have hzp : ((RosNode.init kind fixedCov minDt junk).run (pre ++ .msg (.pose k t z) :: mid)).1.z_p = z := by
    rw [run_append]
    have hk' := hkind pre
    set n := ((RosNode.init kind fixedCov minDt junk).run pre).1
    change (((n.message (.pose k t z)).1.run mid).1).z_p = z
    rw [run_z_p _ mid hmid]
    change (n.message (.pose k t z)).2 ≠ [] at hused
    unfold message at hused ⊢
    rw [if_pos (by rw [hk']; exact hk)] at hused ⊢
    dsimp only at hused ⊢
    split at hused
    · rename_i hr; rw [if_pos hr]
    · exact absurd rfl hused
  have hz' : ¬(z 0 = 0 ∧ z 1 = 0 ∧ z 2 = 0) := by
    rintro ⟨a, b, c⟩
    apply hz
    funext i
    fin_cases i
    · exact a
    · exact b
    · exact c
  have hk' := hkind (pre ++ .msg (.pose k t z) :: mid)
  set n := ((RosNode.init kind fixedCov minDt junk).run (pre ++ .msg (.pose k t z) :: mid)).1
  constructor
  · intro cfg level hr
    change (n.config cfg level).2.getLast? = _
    have hh : heightInit n.z_p cfg level = some [.init (z 2 / cfg.core_height)] := by
      unfold heightInit
      rw [if_pos hr, hzp, if_neg hz']
    unfold config
    rw [show n.kind = kind from hk']
    cases kind with
    | position => exact absurd hk (by decide)
    | spherical => exact absurd hk (by decide)
    | pose =>
      dsimp only [setNoises, setDelay]
      rw [hh]
      exact List.getLast?_append_of_ne_nil _ (by simp)
    | posePressure =>
      dsimp only [setNoises, setDelay]
      rw [hh]
      exact List.getLast?_append_of_ne_nil _ (by simp)
    | positionPose =>
      dsimp only [setNoises, setDelay]
      rw [hh]
      exact List.getLast?_append_of_ne_nil _ (by simp)
  · intro hp h hh
    change n.serviceHeight h = _
    unfold serviceHeight
    rw [if_pos (hk'.trans hp), hzp, if_neg hz', if_pos hh]

/-- **C99, before any pose.** Without a pose message a request to initialise by height does nothing. -/
theorem C99_refused (kind : NodeKind) (fixedCov : Bool) (minDt : R) (junk : Cfg R)
    (es : List (NodeEvent R)) (hes : ∀ e ∈ es, e.isPose = false) :
    (∀ (cfg : Cfg R) (level : Nat), cfg.core_init_filter = false →
      (((RosNode.init kind fixedCov minDt junk).run es).1.step (.config cfg level)).2 = []) ∧
    ∀ h : R, (((RosNode.init kind fixedCov minDt junk).run es).1.step (.initHeight h)).2 = [] := by
  have hzp : ((RosNode.init kind fixedCov minDt junk).run es).1.z_p = 0 := run_z_p _ es hes
  set n := ((RosNode.init kind fixedCov minDt junk).run es).1
  constructor
  · intro cfg level hi
    change (n.config cfg level).2 = _
    have hh : heightInit n.z_p cfg level = none ∨ heightInit n.z_p cfg level = some [] := by
      unfold heightInit
      split
      · rw [hzp, if_pos (by simp)]; exact .inl rfl
      · exact .inr rfl
    have hi' : initRequested cfg level = false := by simp [initRequested, hi]
    unfold config
    cases n.kind <;> dsimp only [setNoises, setDelay] <;> rw [hi'] <;>
      first
      | rfl
      | (rcases hh with hh | hh <;> rw [hh] <;> rfl)
  · intro h
    change n.serviceHeight h = _
    unfold serviceHeight
    split
    · rw [hzp, if_pos (by simp)]
    · rfl

end

/-! ## C100 -/

section
variable {A W X C M T E R B : Type}

/-- **C100 (partial).** In every node but the spherical one all IMU messages and external states reach
the filter, in order and unchanged.  Full claim: in every node; false by `C100_spherical_violated`. -/
theorem C100_imu_partial (k : Contents X A W C M B) (n : RosNode ℚ) (hn : n.kind ≠ .spherical)
    (es : List (NodeInput A W R B)) :
    (nodeCalls k n es).filter RosCall.isInertial = es.filterMap (NodeInput.inertial X C M) := by
  have hi : ∀ n : RosNode ℚ, n.kind ≠ .spherical → n.kind.hasImu = true := by
    intro n hn
    cases h : n.kind
    case spherical => exact absurd h hn
    all_goals rfl
  induction es generalizing n with
  | nil => rfl
  | cons e es ih =>
    cases e with
    | node now b e =>
      have h0 : ((n.step e).2.map (ToCore.call (R := R) k (n.step e).1 now b)).filter RosCall.isInertial
          = [] := by
        rw [List.filter_eq_nil_iff]
        intro x hx
        obtain ⟨y, -, rfl⟩ := List.mem_map.1 hx
        cases y <;> simp [ToCore.call, RosCall.isInertial]
      simp only [nodeCalls, List.filter_append, h0, List.nil_append]
      rw [ih _ (by rw [step_kind]; exact hn)]
      rfl
    | imu t u =>
      simp only [nodeCalls, hi n hn, if_true, List.filter_append]
      rw [ih n hn]
      rfl
    | state m =>
      simp only [nodeCalls, hi n hn, if_true, List.filter_append]
      rw [ih n hn]
      rfl

variable [AddCommGroup A] [Module ℚ A] [AddCommGroup W] [Module ℚ W] [Field R] [LinearOrder R]

/-- **C100 is violated** by the spherical node: whatever arrives, nothing is ever propagated and no
measurement is ever applied; all that is published are initial states. -/
theorem C100_spherical_violated (env : Env) (K : Kernel A W X C M T E) (view : RosView R X E)
    (conf : RosConf) (k : Contents X A W C M B) (fixedCov : Bool) (minDt : ℚ) (junk : Cfg ℚ)
    (es : List (NodeInput A W R B)) :
    ∃ m, (Ros.new K).calls env K view conf (nodeCalls k (RosNode.init .spherical fixedCov minDt junk) es)
        = some m ∧ (∀ e ∈ m.core.out, ∃ t x c, e = .initial t x c) ∧ m.core.queue = [] ∧
      m.core.meas.nodes = [] := by
  suffices h : ∀ (es : List (NodeInput A W R B)) (n : RosNode ℚ), n.kind = .spherical →
      ∀ cs, cs = nodeCalls k n es → ∀ m : Ros A W X C M T R, m.core.predMade = false →
      (∀ e ∈ m.core.out, ∃ t x c, e = .initial t x c) → m.core.queue = [] → m.core.meas.nodes = [] →
      ∃ m', m.calls env K view conf cs = some m' ∧
        (∀ e ∈ m'.core.out, ∃ t x c, e = .initial t x c) ∧ m'.core.queue = [] ∧
        m'.core.meas.nodes = [] from
    h es _ rfl _ rfl _ rfl (by simp [Ros.new, Core.new]) rfl rfl
  intro es
  /- calls of the spherical node are initialisations and measurements -/
  have hcalls : ∀ (es : List (NodeInput A W R B)) (n : RosNode ℚ), n.kind = .spherical →
      ∀ o ∈ (nodeCalls k n es : List (RosCall A W X C M R)),
        (∃ t s, o = .init t s) ∨ ∃ x, o = .meas x := by
    intro es
    induction es with
    | nil => intro n _ o ho; cases ho
    | cons e es ih =>
      intro n hn o ho
      cases e with
      | node now b e =>
        simp only [nodeCalls, List.mem_append, List.mem_map] at ho
        rcases ho with ⟨y, -, rfl⟩ | ho
        · cases y with
          | meas m => exact .inr ⟨_, rfl⟩
          | init s => exact .inl ⟨_, _, rfl⟩
        · exact ih _ (by rw [step_kind]; exact hn) o ho
      | imu t u =>
        simp only [nodeCalls, hn, NodeKind.hasImu, Bool.false_eq_true, if_false, List.nil_append] at ho
        exact ih n hn o ho
      | state m =>
        simp only [nodeCalls, hn, NodeKind.hasImu, Bool.false_eq_true, if_false, List.nil_append] at ho
        exact ih n hn o ho
  intro n hn cs hcs
  have hcs' : ∀ o ∈ cs, (∃ t s, o = .init t s) ∨ ∃ x, o = .meas x := hcs ▸ hcalls es n hn
  clear hcs
  induction cs with
  | nil => intro m _ h1 h2 h3; exact ⟨m, rfl, h1, h2, h3⟩
  | cons o cs ih =>
    intro m hp h1 h2 h3
    have ih := ih fun o ho => hcs' o (List.mem_cons_of_mem _ ho)
    rcases hcs' o (List.mem_cons_self ..) with ⟨t, s, rfl⟩ | ⟨x, rfl⟩
    · obtain ⟨m', e, r⟩ := ih ⟨m.core.init K t s, m.hl, m.sent ++ [initialMsg view t (s.x)]⟩ rfl
        (by
          intro e he
          rcases List.mem_append.1 he with he | he
          · exact h1 e he
          · rw [List.mem_singleton.1 he]; exact ⟨_, _, _, rfl⟩) rfl rfl
      refine ⟨m', ?_, r⟩
      rw [← e]
      simp [Ros.calls, Ros.call, RosCall.toApi, Core.api, Core.init, publish, RosCall.buffer,
        Except.toOption]
    · obtain ⟨m', e, r⟩ := ih m hp h1 h2 h3
      refine ⟨m', ?_, r⟩
      rw [← e]
      simp [Ros.calls, Ros.call, RosCall.toApi, Core.api, Core.addMeasurement, hp, publish,
        RosCall.buffer, Except.toOption, pure, Except.pure]

end

namespace ConfigDemo

/-- A configuration: noises 0.01 to 0.05, delays 0.02 to 0.05. -/
def cfg : Cfg ℚ where
  core_init_filter := false
  core_set_height := false
  core_height := 2
  pose_initial_scale := 1
  pose_fixed_scale := true
  pose_fixed_p_ic := false
  pose_fixed_q_ic := false
  pose_fixed_p_wv := true
  pose_fixed_q_wv := false
  pose_noise_meas_p := 1 / 100
  pose_noise_meas_q := 2 / 100
  pose_delay := 2 / 100
  position_noise_meas := 3 / 100
  position_delay := 3 / 100
  fixed_p_ip := true
  press_noise_meas_p := 4 / 100
  press_reset := false
  angle_noise_meas := 4 / 100
  angle_delay := 4 / 100
  distance_noise_meas := 5 / 100
  distance_delay := 5 / 100

/-- The same with the box for initialisation by height ticked. -/
def cfgHeight : Cfg ℚ := { cfg with core_set_height := true }

def node (k : NodeKind) : RosNode ℚ := RosNode.init k true (1 / 20) { cfg with pose_delay := 1 }

def poseMsg (t : ℚ) (z : V3 ℚ) : NodeEvent ℚ := .msg (.pose .pose t z)

end ConfigDemo

open ConfigDemo in
/-- **C98 is violated** by the pose-pressure node: if the configuration at the start (all level bits set)
has the box for initialisation by height ticked, poses are used with standard deviation 1e-6 instead of
the configured 0.01 and 0.02. -/
theorem C98_pose_pressure_violated :
    ((node .posePressure).run [.config cfgHeight (2 ^ 32 - 1), poseMsg 1 ![1, 2, 3],
      .msg (.pressure 10 2)]).2 =
      [[], [.meas ⟨.pose, 1, [1 / 1000000, 1 / 1000000], [.L, .p_wv]⟩],
        [.meas ⟨.pressure, 2, [1 / 1000000], []⟩]] := by
  decide +kernel

open ConfigDemo in
/-- **C99 is violated** by a pose at the origin: it is taken for "no measurements received yet". -/
theorem C99_origin_violated :
    ((node .pose).run [.config cfg (2 ^ 32 - 1), poseMsg 1 ![1, 2, 3], poseMsg 2 ![0, 0, 0],
      .config cfgHeight 4, .initHeight 5]).2 =
      [[], [.meas ⟨.pose, 98 / 100, [1 / 100, 2 / 100], [.L, .p_wv]⟩],
        [.meas ⟨.pose, 198 / 100, [1 / 100, 2 / 100], [.L, .p_wv]⟩], [], []] := by
  decide +kernel

namespace ConfigDemo

/-- Non-vacuity of C97, C98: nodes with two sensors and a change of the configuration in between. -/
example : ((node .positionPose).run [.config cfg (2 ^ 32 - 1), poseMsg 1 ![1, 2, 3],
      .msg (.position .point 7 2 0), .config { cfg with pose_delay := 0, fixed_p_ip := false } 2,
      poseMsg 3 ![1, 2, 3], .msg (.position .navSatFix 8 4 1)]).2 =
    [[], [.meas ⟨.pose, 98 / 100, [1 / 100, 2 / 100], [.L, .p_wv]⟩],
      [.meas ⟨.position, 197 / 100, [3 / 100], [.p_ip]⟩], [],
      [.meas ⟨.pose, 3, [1 / 100, 2 / 100], [.L, .p_wv]⟩],
      [.meas ⟨.position, 397 / 100, [3 / 100], []⟩]] := by
  decide +kernel

/-- Non-vacuity of C97 (violation): 20 ms of delay are configured and not taken into account. -/
example : ((node .posePressure).run [.config cfg (2 ^ 32 - 1), poseMsg 1 ![1, 2, 3]]).2 =
    [[], [.meas ⟨.pose, 1, [1 / 100, 2 / 100], [.L, .p_wv]⟩]] := by
  decide +kernel

/-- Non-vacuity of C98 (noises) for the pose-pressure node: the request comes after a pose. -/
example : ((node .posePressure).run [.config cfg (2 ^ 32 - 1), poseMsg 1 ![1, 2, 3],
      .config { cfgHeight with pose_noise_meas_p := 1 } 6, poseMsg 2 ![1, 2, 3]]).2 =
    [[], [.meas ⟨.pose, 1, [1 / 100, 2 / 100], [.L, .p_wv]⟩], [.init (3 / 2)],
      [.meas ⟨.pose, 2, [1, 2 / 100], [.L, .p_wv]⟩]] := by
  decide +kernel

/-- Non-vacuity of C99: requests before and after the first pose. -/
example : ((node .pose).run [.config cfgHeight (2 ^ 32 - 1), .initHeight 5, poseMsg 1 ![1, 2, 3],
      .config cfgHeight 4, .initHeight 5]).2 =
    [[], [], [.meas ⟨.pose, 98 / 100, [1 / 100, 2 / 100], [.L, .p_wv]⟩], [.init (3 / 2)],
      [.init (3 / 5)]] := by
  decide +kernel

/-- Contents for a filter with rational numbers. -/
def contents : Contents ℚ ℚ ℚ ℚ ℚ ℚ := ⟨fun _ => 0, fun b _ => b, fun b _ _ => ⟨⟨0, 0⟩, b, 0⟩⟩

/-- What arrives: initialisation, IMU messages, a position and a distance. -/
def arriving : List (NodeInput ℚ ℚ ℚ ℚ) :=
  [.node 1 5 (.config { cfg with core_init_filter := true } (2 ^ 32 - 1)), .imu 2 ⟨1, 0⟩,
    .imu 3 ⟨1, 0⟩, .node 4 7 (.msg (.position .point 0 2 0)), .node 4 7 (.msg (.distance 2)),
    .imu 4 ⟨1, 0⟩]

/-- Non-vacuity of C100: the position node passes on five calls, three of them IMU messages, the spherical
node two. -/
example : ((nodeCalls contents (node .position) arriving).length,
      ((nodeCalls contents (node .position) arriving).filter RosCall.isInertial).length,
      (nodeCalls contents (node .spherical) arriving).length) = (5, 3, 2) := by
  decide +kernel

end ConfigDemo
end MSF
