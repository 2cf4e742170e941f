import Verif.Lemmas.FlowForms
import Verif.Lemmas.FlowAbs
import Verif.Lemmas.CoreTimes

/-! A measurement that waits alone is handled as if it arrived after the next prediction. -/

namespace MSF.Flow
variable {A W X C F M T E : Type}

/-- The prediction of the covariance neither reads nor changes the queue and the flags. -/
structure Still (f : Flow A W X C M T E) : Prop where
  queue : ∀ c o n q, f.predict { c with queue := q } o n = { f.predict c o n with queue := q }
  flags : ∀ c o n, (f.predict c o n).inited = c.inited ∧ (f.predict c o n).predMade = c.predMade
  num : ∀ x, f.numPos x = true

theorem still_abs (K : Kernel A W X C M T E) (hK : ∀ x, K.numPos x = true) : K.absFlow.Still where
  queue c o n q := by
    change Core.predictCov K _ o n = { Core.predictCov K c o n with queue := q }
    unfold Core.predictCov
    split <;> rfl
  flags c o n := by
    change (Core.predictCov K c o n).inited = _ ∧ (Core.predictCov K c o n).predMade = _
    unfold Core.predictCov
    split <;> exact ⟨rfl, rfl⟩
  num := hK

variable {f : Flow A W X C M T E}

theorem still_step (hf : f.Still) (c : Core A W X C M T) (q : List (Meas M)) :
    propagatePOneStep f { c with queue := q } =
      (propagatePOneStep f c).map (fun d => { d with queue := q }) := by
  unfold propagatePOneStep
  dsimp only
  cases c.states.incr (c.states.iterAtValue c.tP) with
  | error e => rfl
  | ok next =>
    simp only [bind, Except.bind]
    by_cases hn : next = .fin
    · rw [if_pos hn, if_pos hn]; rfl
    · rw [if_neg hn, if_neg hn]
      cases c.states.deref (c.states.iterAtValue c.tP) with
      | error e => rfl
      | ok o =>
        dsimp only
        cases c.states.deref next with
        | error e => rfl
        | ok n =>
          dsimp only
          rw [hf.num, if_pos rfl, if_pos rfl, hf.queue]
          rfl

theorem still_step_flags (hf : f.Still) {c d : Core A W X C M T} (h : propagatePOneStep f c = .ok d) :
    d.inited = c.inited ∧ d.predMade = c.predMade ∧ d.queue = c.queue := by
  unfold propagatePOneStep at h
  dsimp only at h
  cases h1 : c.states.incr (c.states.iterAtValue c.tP) with
  | error e => rw [h1] at h; cases h
  | ok next =>
    rw [h1] at h
    simp only [bind, Except.bind] at h
    by_cases hn : next = .fin
    · rw [if_pos hn] at h; cases h; exact ⟨rfl, rfl, rfl⟩
    · rw [if_neg hn] at h
      cases h2 : c.states.deref (c.states.iterAtValue c.tP) with
      | error e => rw [h2] at h; cases h
      | ok o =>
        rw [h2] at h
        dsimp only at h
        cases h3 : c.states.deref next with
        | error e => rw [h3] at h; cases h
        | ok n =>
          rw [h3] at h
          dsimp only at h
          rw [hf.num, if_pos rfl] at h
          cases h
          have hq := congrArg Core.queue (hf.queue c o n c.queue)
          exact ⟨(hf.flags c o n).1, (hf.flags c o n).2, hq⟩

variable [AddCommGroup A] [Module ℚ A] [AddCommGroup W] [Module ℚ W]

theorem still_rel (R : RelKernel A W X C F M T E) (hK : ∀ x, R.numPos x = true) : R.flow.Still where
  queue c o n q := by
    change R.predict _ o n = { R.predict c o n with queue := q }
    unfold RelKernel.predict
    split <;> rfl
  flags c o n := by
    change (R.predict c o n).inited = _ ∧ (R.predict c o n).predMade = _
    unfold RelKernel.predict
    split <;> exact ⟨rfl, rfl⟩
  num := hK

/-- The front of the queue is tried as if it had just arrived. -/
theorem early_pending (env : Env) (d : Core A W X C M T) (m : Meas M) (hq : d.queue = []) :
    handlePending env f { d with queue := [m] } =
      handlePending env f d >>= fun c => addMeasurement env f c m := by
  cases d
  cases hq
  rfl

theorem early_imuPropagate (env : Env) (hf : f.Still) (c : Core A W X C M T)
    (hp : c.predMade = true) (hq : c.queue = []) (last : Node (St A W X C)) (t : ℚ) (u : Input A W)
    (m : Meas M) :
    imuPropagate env f { c with queue := [m] } last t u =
      imuPropagate env f c last t u >>= fun c => addMeasurement env f c m := by
  rw [imuPropagate_form, imuPropagate_form]
  have e := still_step hf { c with states := (c.states.insert t (Core.imuState f.toKernel last t u)).1,
                                   itImu := (c.states.insert t (Core.imuState f.toKernel last t u)).2 } [m]
  dsimp only at e ⊢
  rw [e]
  generalize h : propagatePOneStep f _ = r
  cases r with
  | error e => rfl
  | ok d =>
    obtain ⟨-, h2, h3⟩ := still_step_flags hf h
    have h2' : d.predMade = true := h2.trans hp
    have h3' : d.queue = [] := h3.trans hq
    have epub : ∀ w s it, Core.published { d with queue := [m] } w s it = Core.published d w s it :=
      fun w s it => rfl
    simp only [Except.map, bind, Except.bind, epub]
    cases Core.published d (c.states.find t).isSome (Core.imuState f.toKernel last t u)
      (c.states.insert t (Core.imuState f.toKernel last t u)).2 with
    | error e => rfl
    | ok cur =>
      dsimp only
      unfold imuEnd
      simp only [h2', Bool.true_or, if_true]
      exact early_pending env { d with out := d.out ++ [.afterPropagation t cur.x cur.P], predMade := true } m h3'

/-- A reading that is no jump backwards. -/
theorem early_imu (env : Env) (hf : f.Still) (c : Core A W X C M T) (hi : c.inited = true)
    (hp : c.predMade = true) (hq : c.queue = []) (t : ℚ) (u : Input A W)
    (ht : ∀ n ∈ c.states.nodes, n.key - 1 / 100 ≤ t) (m : Meas M)
    (hm : m.time > timeOf c.states.last) :
    processIMU env f { c with queue := [m] } t u =
      processIMU env f c t u >>= fun c => addMeasurement env f c m := by
  rw [processIMU_form, processIMU_form]
  dsimp only
  rw [if_neg (by simp [hi]), if_neg (by simp [hi])]
  have es : Core.imuStart env { c with queue := [m] } t = Core.imuStart env c t := rfl
  rw [es]
  cases Core.imuStart env c t with
  | error e => rfl
  | ok it =>
    simp only [bind, Except.bind]
    cases hd : c.states.deref it with
    | error e => rfl
    | ok last =>
      have hl := ht last (Buf.deref_mem_nodes hd)
      dsimp only
      unfold imuBody
      dsimp only
      by_cases hv : last.key = invalidTime
      · rw [if_pos hv, if_pos hv]
        simp [addMeasurement, hi, hp, hm, hq, pure, Except.pure]
      · have h1 : ¬(t - last.key < -(1 / 100) ∧ c.predMade = true) := fun h => by linarith [h.1]
        have h2 : ¬(c.predMade = false ∧ |t - last.key| > 1 / 10) := by simp [hp]
        rw [if_neg hv, if_neg hv, if_neg h1, if_neg h1, if_neg h2, if_neg h2]
        exact early_imuPropagate env hf
          { c with itImu := it, lastAmImu := if f.spike u.a then c.lastAmImu else last.val.u.a } hp hq last t
          (if f.spike u.a then { u with a := c.lastAmImu } else u) m

theorem early_extEnd (env : Env) (hf : f.Still) (c : Core A W X C M T) (hq : c.queue = []) (t : ℚ)
    (s : St A W X C) (m : Meas M) :
    extEnd env f { c with queue := [m] } t s =
      extEnd env f c t s >>= fun c => addMeasurement env f c m := by
  unfold extEnd
  have e := still_step hf { c with states := (c.states.insert t s).1 } [m]
  dsimp only at e ⊢
  rw [e]
  generalize h : propagatePOneStep f _ = r
  cases r with
  | error e => rfl
  | ok d =>
    obtain ⟨-, -, h3⟩ := still_step_flags hf h
    have h3' : d.queue = [] := h3.trans hq
    have epub : ∀ w s it, Core.published { d with queue := [m] } w s it = Core.published d w s it :=
      fun w s it => rfl
    simp only [Except.map, bind, Except.bind, epub]
    cases Core.published d (c.states.find t).isSome s (c.states.insert t s).2 with
    | error e => rfl
    | ok cur =>
      exact early_pending env { d with out := d.out ++ [.afterPropagation t cur.x cur.P], predMade := true } m h3'

theorem early_ext (env : Env) (hf : f.Still) (c : Core A W X C M T) (hi : c.inited = true)
    (hp : c.predMade = true) (hq : c.queue = []) (t : ℚ) (u : Input A W) (e : Option E) (m : Meas M)
    (hm : m.time > timeOf c.states.last) :
    processExternal env f { c with queue := [m] } t u e =
      processExternal env f c t u e >>= fun c => addMeasurement env f c m := by
  rw [processExternal_form, processExternal_form]
  dsimp only
  rw [if_neg (by simp [hi]), if_neg (by simp [hi])]
  have hs : addMeasurement env f c m = .ok { c with queue := [m] } := by
    simp [addMeasurement, hi, hp, hm, hq, pure, Except.pure]
  cases c.states.last with
  | none => exact hs.symm
  | some last =>
    dsimp only
    by_cases hv : last.key = invalidTime
    · rw [if_pos hv, if_pos hv]
      exact hs.symm
    · rw [if_neg hv, if_neg hv, if_neg (by simp [hp]), if_neg (by simp [hp]), if_neg (by simp [hp]),
        if_neg (by simp [hp])]
      exact early_extEnd env hf { c with lastAmExt := (Core.extInput f.toKernel c u).a } hq t
        ⟨Core.extInput f.toKernel c u, Core.extMean f.toKernel last t (Core.extInput f.toKernel c u) e, f.P0⟩ m

/-- The two calls in either order. -/
theorem early_swap (env : Env) (hf : f.Still) (c : Core A W X C M T) (hi : c.inited = true)
    (hp : c.predMade = true) (hq : c.queue = []) (m : Meas M) (hm : m.time > timeOf c.states.last)
    (o : Api A W X C M E)
    (ho : (∃ t u, o = .imu t u ∧ ∀ n ∈ c.states.nodes, n.key - 1 / 100 ≤ t) ∨ ∃ t u e, o = .ext t u e)
    (os : List (Api A W X C M E)) :
    apis env f c (.meas m :: o :: os) = apis env f c (o :: .meas m :: os) := by
  have hs : addMeasurement env f c m = .ok { c with queue := [m] } := by
    simp [addMeasurement, hi, hp, hm, hq, pure, Except.pure]
  have key : api env f { c with queue := [m] } o = api env f c o >>= fun c => addMeasurement env f c m := by
    rcases ho with ⟨t, u, rfl, ht⟩ | ⟨t, u, e, rfl⟩
    · exact early_imu env hf c hi hp hq t u ht m hm
    · exact early_ext env hf c hi hp hq t u e m hm
  have e1 : api env f c (.meas m) = .ok { c with queue := [m] } := hs
  simp only [apis]
  rw [e1]
  change (api env f { c with queue := [m] } o >>= fun d => apis env f d os) = _
  rw [key, bind_assoc]
  rfl

end MSF.Flow
