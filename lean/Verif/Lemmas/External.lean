import Verif.Spec.External
import Verif.Lemmas.CoreNewest

/-! Helper lemmas about the callbacks and the messages of the ROS interface. -/

namespace MSF

/-- No initialization was published. -/
def Event.isInitial {X C : Type} : Event X C → Bool
  | .initial _ _ _ => true
  | _ => false

namespace Core
variable {A W X C M T E : Type}

/-- What has been published stays, and nothing but propagations and updates has been added. -/
def Grows (l0 : List (Event X C)) (c : Core A W X C M T) : Prop :=
  ∃ l, c.out = l0 ++ l ∧ ∀ e ∈ l, e.isInitial = false

theorem Grows.refl (c : Core A W X C M T) : c.Grows c.out := ⟨[], by simp, by simp⟩

theorem Grows.snoc {l0 : List (Event X C)} {c c' : Core A W X C M T} (h : c.Grows l0) {e : Event X C}
    (he : e.isInitial = false) (hc : c'.out = c.out ++ [e]) : c'.Grows l0 := by
  obtain ⟨l, h1, h2⟩ := h
  refine ⟨l ++ [e], by rw [hc, h1, List.append_assoc], ?_⟩
  intro e' he'
  rcases List.mem_append.1 he' with he' | he'
  · exact h2 e' he'
  · rw [List.mem_singleton.1 he']; exact he

section
variable {l0 : List (Event X C)} {c : Core A W X C M T} {K : Kernel A W X C M T E}

theorem Grows.predictCov (h : c.Grows l0) (o n : Node (St A W X C)) :
    (predictCov K c o n).Grows l0 := by
  unfold Core.predictCov
  split
  · exact h
  · exact h

theorem Grows.propagatePOneStep (h : c.Grows l0) :
    Post (propagatePOneStep K c) (Grows l0) := by
  unfold Core.propagatePOneStep
  refine Post.bind fun next _ => ?_
  split
  · exact Post.ret h
  · refine Post.bind fun o _ => Post.bind fun n _ => ?_
    have h' := h.predictCov (K := K) o n
    split
    · exact Post.ret h'
    · exact Post.ret h'

theorem propagatePOneStep_out : Post (propagatePOneStep K c) (fun c' => c'.out = c.out) := by
  unfold Core.propagatePOneStep
  refine Post.bind fun next _ => ?_
  split
  · exact Post.ret rfl
  · refine Post.bind fun o _ => Post.bind fun n _ => ?_
    have h' : (Core.predictCov K c o n).out = c.out := by
      unfold Core.predictCov
      split <;> rfl
    split
    · exact Post.ret h'
    · exact Post.ret h'

/-- The state at `t` has mean `x`. -/
def MeanAt (t : ℚ) (x : X) (c : Core A W X C M T) : Prop :=
  ∀ n ∈ c.states.nodes, n.key = t → n.val.x = x

theorem MeanAt.propagatePOneStep {t : ℚ} {x : X} (h : c.MeanAt t x) :
    Post (propagatePOneStep K c) (MeanAt t x) := by
  unfold Core.propagatePOneStep
  refine Post.bind fun next _ => ?_
  split
  · exact Post.ret h
  · refine Post.bind fun o _ => Post.bind fun n _ => ?_
    have h' : (Core.predictCov K c o n).MeanAt t x := by
      unfold Core.predictCov
      split
      · exact h
      · intro m hm hk
        simp only [Buf.modify, List.mem_map] at hm
        obtain ⟨m', hm', rfl⟩ := hm
        split at hk
        · rw [if_pos ‹_›]; exact h m' hm' hk
        · rw [if_neg ‹_›]; exact h m' hm' hk
    split
    · exact Post.ret h'
    · exact Post.ret h'

theorem Grows.propPLoop (s : ℚ) (fuel : Nat) : ∀ {c : Core A W X C M T} (_ : c.Grows l0)
    (it itm : Iter), Post (propPLoop K s fuel c it itm) (Grows l0) := by
  induction fuel with
  | zero => intro c _ it itm; exact Post.err
  | succ fuel ih =>
    intro c h it itm
    unfold Core.propPLoop
    split
    · exact Post.ok h
    · refine Post.bind fun n _ => ?_
      split
      · exact Post.bind fun m _ => Post.bind fun i _ => Post.bind fun j _ =>
          ih (h.predictCov m n) i j
      · exact Post.ret h

theorem Grows.propPToState (h : c.Grows l0) (s : ℚ) :
    Post (propPToState K c s) (Grows l0) := by
  unfold Core.propPToState
  exact Post.bind fun i _ => Grows.propPLoop s _ h _ _

theorem Grows.cleanUp (h : c.Grows l0) (env : Env) : Post (cleanUp env c) (Grows l0) := by
  unfold Core.cleanUp
  exact Post.bind fun s hs => Post.bind fun m hm => Post.ret h

theorem Grows.propLoop (fuel : Nat) : ∀ {c : Core A W X C M T} (_ : c.Grows l0)
    (cur next stop : Iter), Post (propLoop K fuel c cur next stop) (fun r => r.1.Grows l0) := by
  induction fuel with
  | zero => intro c _ _ _ _; exact Post.err
  | succ fuel ih =>
    intro c h cur next stop
    unfold Core.propLoop
    split
    · exact Post.ok h
    · refine Post.bind fun a _ => Post.bind fun b _ => ?_
      split
      · exact Post.ret h
      · split
        · exact Post.ret h
        · refine Post.bind fun i _ => Post.bind fun j _ => ih ?_ i j stop
          exact h

theorem Grows.repropagate (h : c.Grows l0) (k : ℚ) (it : Iter) :
    Post (repropagate K c k it) (fun r => r.1.Grows l0) := by
  rw [repropagate_form]
  exact Post.bind fun a _ => Post.bind fun b _ => Grows.propLoop _ h _ _ _

theorem Grows.finishMeas (h : c.Grows l0) : Post (finishMeas K c) (Grows l0) := by
  unfold Core.finishMeas
  refine Post.bind fun c1 hc1 => ?_
  have h1 := h.propPToState _ c1 hc1
  split
  · exact Post.ret h1
  · exact Post.ret (h1.snoc (e := .afterUpdate _ _ _) rfl rfl)

variable [AddCommGroup A] [Module ℚ A] [AddCommGroup W] [Module ℚ W]

theorem Grows.interpolate (h : c.Grows l0) (n : Node (St A W X C)) (s : ℚ) :
    (interpolate K c n s).1.Grows l0 := by
  unfold Core.interpolate
  split
  · split
    · split
      · exact h
      · exact h
    · exact h
  · exact h

theorem Grows.getClosestState (h : c.Grows l0) (env : Env) (s : ℚ) :
    Post (getClosestState env K c s) (fun r => r.1.Grows l0) := by
  unfold Core.getClosestState
  refine Post.bind fun it _ => Post.bind fun n _ => ?_
  split
  · exact Post.ret h
  · have h1 := h.interpolate (K := K) n s
    generalize Core.interpolate K c n s = r at h1 ⊢
    obtain ⟨c1, i⟩ := r
    simp only at h1 ⊢
    refine Post.bind fun n1 _ => Post.bind fun c2 hc2 => Post.bind fun n2 hn2 => ?_
    have h2 := h1.propPToState _ c2 hc2
    split
    · split
      · refine Post.bind fun c3 hc3 => Post.ret ?_
        exact Grows.cleanUp (c := { c2 with janitor := 0 }) h2 env c3 hc3
      · exact Post.ret h2
    · exact Post.ret h2

theorem Grows.measLoop (env : Env) (fuel : Nat) : ∀ {c : Core A W X C M T} (_ : c.Grows l0)
    (it : Iter) (ap : Bool), Post (measLoop env K fuel c it ap) (fun r => r.1.Grows l0) := by
  induction fuel with
  | zero => intro c _ _ _; exact Post.err
  | succ fuel ih =>
    intro c h it ap
    unfold Core.measLoop
    split
    · exact Post.ok h
    · refine Post.bind fun m hm => ?_
      split
      · exact Post.bind fun i _ => ih h i ap
      · refine Post.bind fun r hr => ?_
        have h1 := h.getClosestState env _ r hr
        obtain ⟨c1, st⟩ := r
        simp only at h1 ⊢
        cases st with
        | none => exact Post.bind fun i _ => ih h1 i ap
        | some s =>
          simp only
          split
          · exact Post.bind fun i _ => ih h1 i ap
          · refine Post.bind fun m2 _ => Post.bind fun i _ => Post.bind fun r2 hr2 => ?_
            have h2 := Grows.repropagate (c := applyMeas K c1 m2.val s) h1 s.key i r2 hr2
            split
            · exact Post.ret h2
            · exact ih h2 i true

theorem Grows.addMeasurement (h : c.Grows l0) (env : Env) (m : Meas M) :
    Post (addMeasurement env K c m) (Grows l0) := by
  unfold Core.addMeasurement
  split
  · exact Post.ret h
  · split
    · exact Post.ret h
    · split
      · exact Post.ret h
      · refine Post.bind fun r hr => ?_
        obtain ⟨c1, ap, ab⟩ := r
        have h1 : c1.Grows l0 :=
          Grows.measLoop env _ (c := { c with meas := _, fuzzy := false }) h _ _ _ hr
        dsimp only at h1 ⊢
        split
        · exact Post.ret h1
        · exact h1.finishMeas

theorem Grows.handlePending (h : c.Grows l0) (env : Env) :
    Post (handlePending env K c) (Grows l0) := by
  unfold Core.handlePending
  split
  · exact Post.ok h
  · refine Grows.addMeasurement ?_ env _
    exact h

theorem Grows.extEnd (h : c.Grows l0) (env : Env) (t : ℚ) (s : St A W X C) :
    Post (extEnd env K c t s) (Grows l0) := by
  unfold Core.extEnd
  refine Post.bind fun c1 hc1 => Post.bind fun cur _ => ?_
  have h1 := Grows.propagatePOneStep (K := K) (c := { c with states := (c.states.insert t s).1 }) h
    c1 hc1
  refine Grows.handlePending ?_ env
  exact h1.snoc (e := .afterPropagation _ _ _) rfl rfl

theorem Grows.processExternal (h : c.Grows l0) (env : Env) (t : ℚ) (u : Input A W)
    (e : Option E) : Post (processExternal env K c t u e) (Grows l0) := by
  rw [processExternal_form]
  split
  · exact Post.ok h
  · split
    · exact Post.ok h
    · split
      · exact Post.ok h
      · split
        · exact Post.ok h
        · split
          · refine Grows.extEnd ?_ env t _
            exact h
          · refine Grows.extEnd ?_ env t _
            exact h

/-! ### External states -/

/-- The published state of an external propagation, whatever happens afterwards. -/
theorem extEnd_event (env : Env) (t : ℚ) (s : St A W X C) :
    Post (extEnd env K c t s)
      (fun c' => ∃ P l, c'.out = c.out ++ .afterPropagation t s.x P :: l) := by
  unfold Core.extEnd
  refine Post.bind fun c1 hc1 => Post.bind fun cur hcur => ?_
  have hout : c1.out = c.out := by
    have := Core.propagatePOneStep_out (K := K) (c := { c with states := (c.states.insert t s).1 })
      c1 hc1
    exact this
  have hx : cur.x = s.x := by
    unfold published at hcur
    by_cases hw : (c.states.find t).isSome = true
    · rw [if_pos hw] at hcur
      cases hcur; rfl
    · rw [if_neg hw] at hcur
      have hfn : c.states.find t = none := by simpa using hw
      have h0 : MeanAt t s.x { c with states := (c.states.insert t s).1 } := by
        intro n hn hk
        simp only [Buf.insert, hfn] at hn
        rcases Buf.mem_insertNode_of hn with rfl | hn
        · rfl
        · have := List.find?_eq_none.1 hfn n hn
          simp [hk] at this
      have h1 := h0.propagatePOneStep (K := K) c1 hc1
      have hit : (c.states.insert t s).2 = .at t c.states.fresh := by
        simp only [Buf.insert, hfn]; rfl
      rw [hit] at hcur
      cases hd : c1.states.deref (.at t c.states.fresh) with
      | error e => rw [hd] at hcur; cases hcur
      | ok n =>
        rw [hd] at hcur
        cases hcur
        refine h1 n (Buf.deref_mem_nodes hd) ?_
        simp only [Buf.deref] at hd
        cases hm : c1.states.nodes.find? (fun n => n.key = t) with
        | none => rw [hm] at hd; cases hd
        | some m =>
          simp only [hm] at hd
          split at hd
          · cases hd
            simpa using List.find?_some hm
          · cases hd
  intro c' hc'
  obtain ⟨l, h1, -⟩ := (Grows.refl ({ c1 with
    predMade := true
    out := c1.out ++ [.afterPropagation t cur.x cur.P] } : Core A W X C M T)).handlePending env c' hc'
  refine ⟨cur.P, l, ?_⟩
  rw [h1, hout, hx]
  simp

theorem Newest.extEnd {t : ℚ} (h : SortedL c.states.nodes) (hle : ∀ n ∈ c.states.nodes, n.key ≤ t)
    (hm : ∀ n ∈ c.meas.nodes, n.key ≤ t) (env : Env) (s : St A W X C) :
    Post (extEnd env K c t s) (Newest t c.out) := by
  unfold Core.extEnd
  refine Post.bind fun c1 hc1 => Post.bind fun cur _ => ?_
  have h1 := Newest.propagatePOneStep (K := K) (t := t) (l0 := c.out)
    (c := { c with states := (c.states.insert t s).1 })
    ⟨Buf.sorted_insert h _ _, top_insert_self _ _ _,
      Buf.KeysIn.insert (fun n hn => hle n hn) (Set.mem_Iic.2 le_rfl) _, fun n hn => hm n hn,
      [], by simp, by simp⟩ c1 hc1
  refine Newest.handlePending ?_ env
  obtain ⟨l, e1, e2⟩ := h1.out
  refine ⟨h1.sorted, h1.top, h1.le, h1.meas, l ++ [.afterPropagation t cur.x cur.P],
    by simp [e1], ?_⟩
  intro e he
  rcases List.mem_append.1 he with he | he
  · exact e2 e he
  · rw [List.mem_singleton.1 he]; rfl

end
end Core


section
variable {A W X C M T E R : Type}

theorem Core.Grows.drop {l0 : List (Event X C)} {c : Core A W X C M T} (h : c.Grows l0) :
    ∀ e ∈ c.out.drop l0.length, e.isInitial = false := by
  obtain ⟨l, h1, h2⟩ := h
  rw [h1, List.drop_left]
  exact h2

theorem updates_append (view : RosView R X E) (l l' : List (Event X C)) :
    updates view (l ++ l') = updates view l ++ updates view l' := by
  induction l with
  | nil => rfl
  | cons e l ih =>
    cases e with
    | initial t x P => exact ih
    | afterPropagation t x P => exact ih
    | afterUpdate t x P =>
      simp only [List.cons_append, updates, ih, List.append_assoc]

variable [Field R] [LinearOrder R]

/-- The message about an update. -/
def corrMsgOf (hl : List (Option R)) (t : ℚ) (s : CoreState R) : CorrMsg R :=
  ⟨t, corrEntries (msgEntry hl) s, .stateCorrection⟩

theorem publish_connected {view : RosView R X E} {hl : List (Option R)} (hlen : 16 ≤ hl.length)
    (l : List (Event X C)) (hl0 : ∀ e ∈ l, e.isInitial = false) :
    ∃ ms, publish ⟨false, true⟩ view hl l = some ms ∧
      (∀ m ∈ ms, ∃ e ∈ l, e.isUpdate = true ∧ m.stamp = e.time) ∧
      ms.map (fun m => (m.state, m.flag)) =
        (updates view l).map fun s => (corrEntries (msgEntry hl) s, .stateCorrection) := by
  induction l with
  | nil => exact ⟨[], rfl, by simp, rfl⟩
  | cons e l ih =>
    obtain ⟨ms, h1, h2, h3⟩ := ih fun e he => hl0 e (List.mem_cons_of_mem _ he)
    have h2' : ∀ m ∈ ms, ∃ e' ∈ e :: l, e'.isUpdate = true ∧ m.stamp = e'.time := fun m hm =>
      let ⟨e', he', h⟩ := h2 m hm
      ⟨e', List.mem_cons_of_mem _ he', h⟩
    cases e with
    | initial t x P => exact absurd (hl0 _ (List.mem_cons_self ..)) (by simp [Event.isInitial])
    | afterPropagation t x P => exact ⟨ms, h1, h2', h3⟩
    | afterUpdate t x P =>
      have hu : updateMsg ⟨false, true⟩ view hl t x =
          some ((view.core x).toList.map fun s => corrMsgOf hl t s) := by
        unfold updateMsg
        rw [if_neg (by simp), if_neg (by simp; omega)]
        cases view.core x with
        | none => rfl
        | some s => rfl
      refine ⟨((view.core x).toList.map fun s => corrMsgOf hl t s) ++ ms, ?_, ?_, ?_⟩
      · change (updateMsg ⟨false, true⟩ view hl t x).bind _ = _
        rw [hu, h1]
        rfl
      · intro m hm
        rcases List.mem_append.1 hm with hm | hm
        · obtain ⟨s, _, rfl⟩ := List.mem_map.1 hm
          exact ⟨_, List.mem_cons_self .., rfl, rfl⟩
        · exact h2' m hm
      · simp only [List.map_append, h3, updates, List.map_map]
        rfl

variable [AddCommGroup A] [Module ℚ A] [AddCommGroup W] [Module ℚ W] {env : Env}
  {K : Kernel A W X C M T E} {view : RosView R X E} {cfg : RosConf}

theorem Ros.call_some {m m' : Ros A W X C M T R} {o : RosCall A W X C M R}
    (h : m.call env K view cfg o = some m') :
    ∃ a c ms, o.toApi cfg.playback view = some a ∧ Core.api env K m.core a = .ok c ∧
      publish cfg view (o.buffer m.hl) (c.out.drop m.core.out.length) = some ms ∧
      m' = ⟨c, o.buffer m.hl, m.sent ++ ms⟩ := by
  unfold Ros.call at h
  obtain ⟨a, ha, h⟩ := Option.bind_eq_some_iff.1 h
  obtain ⟨c, hc, h⟩ := Option.bind_eq_some_iff.1 h
  obtain ⟨ms, hms, rfl⟩ := Option.map_eq_some_iff.1 h
  refine ⟨a, c, ms, ha, ?_, hms, rfl⟩
  cases hr : Core.api env K m.core a with
  | error e => rw [hr] at hc; cases hc
  | ok c' => rw [hr] at hc; cases hc; rfl

theorem Ros.call_of {m : Ros A W X C M T R} {o : RosCall A W X C M R} {a c ms}
    (h1 : o.toApi cfg.playback view = some a) (h2 : Core.api env K m.core a = .ok c)
    (h3 : publish cfg view (o.buffer m.hl) (c.out.drop m.core.out.length) = some ms) :
    m.call env K view cfg o = some ⟨c, o.buffer m.hl, m.sent ++ ms⟩ := by
  unfold Ros.call
  rw [h1, Option.bind_some, h2]
  change (publish cfg view (o.buffer m.hl) (c.out.drop m.core.out.length)).map _ = _
  rw [h3]
  rfl

theorem Ros.calls_append {m m2 : Ros A W X C M T R} {os os' : List (RosCall A W X C M R)}
    (h : m.calls env K view cfg (os ++ os') = some m2) :
    ∃ m1, m.calls env K view cfg os = some m1 ∧ m1.calls env K view cfg os' = some m2 := by
  induction os generalizing m with
  | nil => exact ⟨m, rfl, h⟩
  | cons o os ih =>
    obtain ⟨m1, h1, h2⟩ := Option.bind_eq_some_iff.1 h
    obtain ⟨m3, h3, h4⟩ := ih h2
    exact ⟨m3, by simp only [Ros.calls, h1, Option.bind_some, h3], h4⟩

/-- A run of the node is a run of its core. -/
theorem Ros.calls_apis {m m' : Ros A W X C M T R} {os : List (RosCall A W X C M R)}
    (h : m.calls env K view cfg os = some m') :
    ∃ as, List.Forall₂ (fun o a => o.toApi cfg.playback view = some a) os as ∧
      Core.apis env K m.core as = .ok m'.core := by
  induction os generalizing m with
  | nil => cases h; exact ⟨[], .nil, rfl⟩
  | cons o os ih =>
    obtain ⟨m1, h1, h2⟩ := Option.bind_eq_some_iff.1 h
    obtain ⟨a, c, ms, ha, hc, -, rfl⟩ := Ros.call_some h1
    obtain ⟨as, has, hr⟩ := ih h2
    refine ⟨a :: as, .cons ha has, ?_⟩
    simp only [Core.apis, hc]
    exact hr

/-- An external callback publishes no initialization and keeps what was published. -/
theorem Ros.call_grows {m m' : Ros A W X C M T R} {o : RosCall A W X C M R}
    (h : m.call env K view cfg o = some m') (ho : o.isExternal) :
    m'.core.Grows m.core.out := by
  obtain ⟨a, c, ms, ha, hc, -, rfl⟩ := Ros.call_some h
  cases o with
  | init t s => exact ho.elim
  | imu t u => exact ho.elim
  | meas x =>
    cases ha
    exact (Core.Grows.refl m.core).addMeasurement env x c hc
  | state x =>
    simp only [RosCall.toApi, stateCallback] at ha
    split at ha
    · cases ha
    · cases ha
      exact (Core.Grows.refl m.core).processExternal env _ _ _ c hc

omit [AddCommGroup A] [Module ℚ A] [AddCommGroup W] [Module ℚ W] in
/-- Every message is about a published update or initialization, and carries its time. -/
theorem publish_stamp {hl : List (Option R)} (l : List (Event X C)) {ms : List (CorrMsg R)}
    (h : publish cfg view hl l = some ms) : ∀ m ∈ ms, ∃ e ∈ l,
      (e.isUpdate = true ∨ e.isInitial = true) ∧ m.stamp = e.time := by
  induction l generalizing ms with
  | nil => cases h; simp
  | cons e l ih =>
    have lift : ∀ {m : CorrMsg R}, (∃ e ∈ l, (e.isUpdate = true ∨ e.isInitial = true) ∧
        m.stamp = e.time) → ∃ e' ∈ e :: l, (e'.isUpdate = true ∨ e'.isInitial = true) ∧
        m.stamp = e'.time := fun ⟨e', he', h⟩ => ⟨e', List.mem_cons_of_mem _ he', h⟩
    cases e with
    | initial t x P =>
      obtain ⟨ms', h1, rfl⟩ := Option.map_eq_some_iff.1 h
      intro m hm
      rcases List.mem_cons.1 hm with rfl | hm
      · exact ⟨_, List.mem_cons_self .., .inr rfl, rfl⟩
      · exact lift (ih h1 m hm)
    | afterPropagation t x P => exact fun m hm => lift (ih h m hm)
    | afterUpdate t x P =>
      obtain ⟨us, h0, h⟩ := Option.bind_eq_some_iff.1 h
      obtain ⟨ms', h1, rfl⟩ := Option.map_eq_some_iff.1 h
      intro m hm
      rcases List.mem_append.1 hm with hm | hm
      · refine ⟨_, List.mem_cons_self .., .inl rfl, ?_⟩
        unfold updateMsg at h0
        split at h0
        · cases h0; cases hm
        · split at h0
          · cases h0
          · split at h0
            · cases h0; cases hm
            · split at h0
              · cases h0; rw [List.mem_singleton.1 hm]; rfl
              · cases h0; rw [List.mem_singleton.1 hm]; rfl
      · exact lift (ih h1 m hm)

omit [AddCommGroup A] [Module ℚ A] [AddCommGroup W] [Module ℚ W] in
/-- Every correction is made from a published state and the buffer. -/
theorem publish_correction {hl : List (Option R)} (l : List (Event X C)) {ms : List (CorrMsg R)}
    (h : publish cfg view hl l = some ms) : ∀ m ∈ ms, m.flag = .stateCorrection →
      16 ≤ hl.length ∧ ∃ s, m.state = corrEntries (msgEntry hl) s := by
  induction l generalizing ms with
  | nil => cases h; simp
  | cons e l ih =>
    cases e with
    | initial t x P =>
      obtain ⟨ms', h1, rfl⟩ := Option.map_eq_some_iff.1 h
      intro m hm hf
      rcases List.mem_cons.1 hm with rfl | hm
      · cases hf
      · exact ih h1 m hm hf
    | afterPropagation t x P => exact fun m hm => ih h m hm
    | afterUpdate t x P =>
      obtain ⟨us, h0, h⟩ := Option.bind_eq_some_iff.1 h
      obtain ⟨ms', h1, rfl⟩ := Option.map_eq_some_iff.1 h
      intro m hm hf
      rcases List.mem_append.1 hm with hm | hm
      · unfold updateMsg at h0
        split at h0
        · cases h0; cases hm
        · split at h0
          · cases h0
          · rename_i hlen
            split at h0
            · cases h0; cases hm
            · split at h0
              · cases h0; rw [List.mem_singleton.1 hm] at hf; cases hf
              · rename_i s _ hp
                cases h0
                refine ⟨?_, s, by rw [List.mem_singleton.1 hm]⟩
                by_contra hc
                exact hlen ⟨by simpa using hp, by omega⟩
      · exact ih h1 m hm hf

omit [AddCommGroup A] [Module ℚ A] [AddCommGroup W] [Module ℚ W] in
theorem publish_playback {b : Bool} (hl hl' : List (Option R)) (l : List (Event X C)) :
    publish ⟨true, b⟩ view hl l = publish ⟨true, b⟩ view hl' l := by
  induction l with
  | nil => rfl
  | cons e l ih =>
    cases e with
    | initial t x P => simp only [publish, ih]
    | afterPropagation t x P => exact ih
    | afterUpdate t x P =>
      have hu : updateMsg ⟨true, b⟩ view hl t x = updateMsg ⟨true, b⟩ view hl' t x := by
        unfold updateMsg
        split
        · rfl
        · rw [if_neg (by simp), if_neg (by simp)]
          cases view.core x <;> rfl
      simp only [publish, ih, hu]

/-! ### The external estimator -/

/-- What a correction does that was computed for the state `y`. -/
def shiftBy (y z x : CoreState R) : CoreState R :=
  ⟨z.p + (x.p - y.p), z.v + (x.v - y.v), z.q.mul (y.q.inverse.mul x.q), z.b_w + (x.b_w - y.b_w),
    z.b_a + (x.b_a - y.b_a)⟩

omit [Field R] [LinearOrder R] in
theorem msgEntry_message (y : CoreState R) (i : Nat) (h : i < 16) :
    msgEntry y.message i = some (y.numbers ⟨i, h⟩) := by
  have : y.message[i]? = some (some (y.numbers ⟨i, h⟩)) := by
    rw [CoreState.message, List.getElem?_ofFn, dif_pos h]
  rw [msgEntry, this]
  rfl

omit [AddCommGroup A] [Module ℚ A] [AddCommGroup W] [Module ℚ W] in
theorem receive_correction (y z x : CoreState R) (m : CorrMsg R)
    (h : (m.state, m.flag) = (corrEntries (msgEntry y.message) x, ExtFlag.stateCorrection)) :
    z.receive m = some (shiftBy y z x) := by
  obtain ⟨t, st, fl⟩ := m
  simp only [Prod.mk.injEq] at h
  obtain ⟨rfl, rfl⟩ := h
  have e := msgEntry_message y
  have hp : ∀ (a b : V3 R) i, ![a 0 - b 0, a 1 - b 1, a 2 - b 2] i = (a - b) i := by
    intro a b i; fin_cases i <;> rfl
  have hp' : ∀ (a b : V3 R), ![a 0 - b 0, a 1 - b 1, a 2 - b 2] = a - b := fun a b => funext (hp a b)
  simp [CoreState.receive, num3, num4, CorrMsg.number, corrEntries, corrQuat, e, CoreState.numbers,
    shiftBy, hp']

theorem receiveAll_corrections (y : CoreState R) (ms : List (CorrMsg R)) (xs : List (CoreState R))
    (h : ms.map (fun m => (m.state, m.flag)) =
      xs.map fun x => (corrEntries (msgEntry y.message) x, ExtFlag.stateCorrection)) (z : CoreState R) :
    z.receiveAll ms = some (xs.foldl (shiftBy y) z) := by
  induction ms generalizing xs z with
  | nil =>
    cases xs with
    | nil => rfl
    | cons x xs => simp at h
  | cons m ms ih =>
    cases xs with
    | nil => simp at h
    | cons x xs =>
      simp only [List.map_cons, List.cons.injEq] at h
      simp only [CoreState.receiveAll, receive_correction y z x m h.1, Option.bind_some,
        List.foldl_cons]
      exact ih xs h.2 _

theorem foldl_shiftBy (y : CoreState R) (xs : List (CoreState R)) (z : CoreState R) :
    (xs.foldl (shiftBy y) z).p = z.p + (xs.map fun x => x.p - y.p).sum ∧
    (xs.foldl (shiftBy y) z).v = z.v + (xs.map fun x => x.v - y.v).sum ∧
    (xs.foldl (shiftBy y) z).b_w = z.b_w + (xs.map fun x => x.b_w - y.b_w).sum ∧
    (xs.foldl (shiftBy y) z).b_a = z.b_a + (xs.map fun x => x.b_a - y.b_a).sum := by
  induction xs generalizing z with
  | nil => simp
  | cons x xs ih =>
    obtain ⟨h1, h2, h3, h4⟩ := ih (shiftBy y z x)
    simp only [List.foldl_cons, List.map_cons, List.sum_cons]
    refine ⟨h1.trans ?_, h2.trans ?_, h3.trans ?_, h4.trans ?_⟩ <;> exact add_assoc _ _ _

/-- One callback while the buffer holds the state `y`. -/
theorem Ros.call_corrections {m m' : Ros A W X C M T R} {o : RosCall A W X C M R} (y : CoreState R)
    (ho : o.isExternal) (hb : o.buffer m.hl = y.message)
    (h : m.call env K view ⟨false, true⟩ o = some m') :
    m'.hl = y.message ∧ ∃ l ms, m'.core.out = m.core.out ++ l ∧ m'.sent = m.sent ++ ms ∧
      ms.map (fun m => (m.state, m.flag)) = (updates view l).map fun x =>
        (corrEntries (msgEntry y.message) x, ExtFlag.stateCorrection) := by
  have hg := Ros.call_grows h ho
  obtain ⟨a, c, ms, ha, hc, hp, rfl⟩ := Ros.call_some h
  refine ⟨hb, ?_⟩
  obtain ⟨l, h1, h2⟩ := hg
  dsimp only at h1 hp
  rw [h1, List.drop_left, hb] at hp
  obtain ⟨ms', e1, -, e2⟩ := publish_connected (view := view) (hl := y.message)
    (by simp [CoreState.message]) l h2
  rw [e1] at hp
  cases hp
  exact ⟨l, ms, h1, rfl, e2⟩

/-- External states and measurements while the buffer holds the state `y`. -/
theorem Ros.calls_corrections {m m' : Ros A W X C M T R} (y : CoreState R) (ms : List (Meas M))
    (hb : m.hl = y.message)
    (h : m.calls env K view ⟨false, true⟩ (ms.map .meas) = some m') :
    ∃ l cs, m'.core.out = m.core.out ++ l ∧ m'.sent = m.sent ++ cs ∧
      cs.map (fun m => (m.state, m.flag)) = (updates view l).map fun x =>
        (corrEntries (msgEntry y.message) x, ExtFlag.stateCorrection) := by
  induction ms generalizing m with
  | nil => cases h; exact ⟨[], [], by simp, by simp, rfl⟩
  | cons x ms ih =>
    obtain ⟨m1, h1, h2⟩ := Option.bind_eq_some_iff.1 h
    obtain ⟨hb1, l1, c1, e1, e2, e3⟩ := Ros.call_corrections (o := .meas x) y trivial hb h1
    obtain ⟨l2, c2, f1, f2, f3⟩ := ih hb1 h2
    exact ⟨l1 ++ l2, c1 ++ c2, by rw [f1, e1, List.append_assoc], by rw [f2, e2, List.append_assoc],
      by rw [List.map_append, e3, f3, updates_append, List.map_append]⟩

end

end MSF
