import Verif.Lemmas.FlowEarly
import Verif.Lemmas.FlowWaits

/-! The early measurement again, for readings that stop the filter and for states that are NaN: the results
can then differ in the queue of a stopped filter only. -/

namespace MSF.Flow
variable {A W X C F M T E : Type}

/-- The prediction of the covariance neither reads nor changes the queue. -/
def Blind (f : Flow A W X C M T E) : Prop :=
  ∀ c o n q, f.predict { c with queue := q } o n = { f.predict c o n with queue := q }

theorem blind_abs (K : Kernel A W X C M T E) : K.absFlow.Blind := by
  intro c o n q
  change Core.predictCov K _ o n = { Core.predictCov K c o n with queue := q }
  unfold Core.predictCov
  split <;> rfl

/-- Equal, or two stopped filters that differ in the queue. -/
def Alike (q : List (Meas M)) (r1 r2 : Except UB (Core A W X C M T)) : Prop :=
  r1 = r2 ∨ ∃ d, d.inited = false ∧ r2 = .ok d ∧ r1 = .ok { d with queue := q }

variable {f : Flow A W X C M T E}

theorem blind_step (hf : f.Blind) (c : Core A W X C M T) (q : List (Meas M)) :
    propagatePOneStep f { c with queue := q } =
      (propagatePOneStep f c).map (fun d => { d with queue := q }) := by
  unfold propagatePOneStep
  dsimp only
  cases c.states.incr (c.states.iterAtValue c.tP) with
  | error e => rfl
  | ok next =>
    simp only [bind, Except.bind]
    by_cases hn : next = .fin
    · rw [if_pos hn, if_pos hn]; rfl
    · rw [if_neg hn, if_neg hn]
      cases c.states.deref (c.states.iterAtValue c.tP) with
      | error e => rfl
      | ok o =>
        dsimp only
        cases c.states.deref next with
        | error e => rfl
        | ok n =>
          dsimp only
          by_cases hnum : f.numPos n.val.x = true
          · rw [if_pos hnum, if_pos hnum, hf]
            rfl
          · rw [if_neg hnum, if_neg hnum, hf]
            rfl

variable [AddCommGroup A] [Module ℚ A] [AddCommGroup W] [Module ℚ W]

theorem blind_rel (R : RelKernel A W X C F M T E) : R.flow.Blind := by
  intro c o n q
  change R.predict _ o n = { R.predict c o n with queue := q }
  unfold RelKernel.predict
  split <;> rfl

/-- A stopped filter ignores measurements. -/
theorem stopped_meas (env : Env) {d : Core A W X C M T} (h : d.inited = false) (m : Meas M) :
    addMeasurement env f d m = .ok d := by
  simp [addMeasurement, h, pure, Except.pure]

theorem alike_imuPropagate (env : Env) (hf : f.Blind) (hw : f.KeepsWaits) (c : Core A W X C M T)
    (hp : c.predMade = true) (hq : c.queue = []) (last : Node (St A W X C)) (t : ℚ) (u : Input A W)
    (m : Meas M) :
    Alike [m] (imuPropagate env f { c with queue := [m] } last t u)
      (imuPropagate env f c last t u >>= fun c => addMeasurement env f c m) := by
  rw [imuPropagate_form, imuPropagate_form]
  have e := blind_step hf { c with states := (c.states.insert t (Core.imuState f.toKernel last t u)).1,
                                   itImu := (c.states.insert t (Core.imuState f.toKernel last t u)).2 } [m]
  dsimp only at e ⊢
  rw [e]
  generalize h : propagatePOneStep f _ = r
  cases r with
  | error e => exact .inl rfl
  | ok d =>
    have h3 : d.Waits [] := by
      refine waits_propagatePOneStep hw ?_ d h
      exact ⟨hq, fun _ => hp⟩
    have epub : ∀ w s it, Core.published { d with queue := [m] } w s it = Core.published d w s it :=
      fun w s it => rfl
    simp only [Except.map, bind, Except.bind, epub]
    cases Core.published d (c.states.find t).isSome (Core.imuState f.toKernel last t u)
      (c.states.insert t (Core.imuState f.toKernel last t u)).2 with
    | error e => exact .inl rfl
    | ok cur =>
      dsimp only
      unfold imuEnd
      dsimp only
      by_cases hc : (d.predMade || decide (d.states.size > 3)) = true
      · rw [if_pos hc, if_pos hc]
        exact .inl (early_pending env
          { d with out := d.out ++ [.afterPropagation t cur.x cur.P], predMade := true } m h3.1)
      · rw [if_neg hc, if_neg hc]
        have hi : d.inited = false := by
          by_contra hi
          exact hc (by simp [h3.2 (by simpa using hi)])
        refine .inr ⟨{ d with out := d.out ++ [.afterPropagation t cur.x cur.P] }, hi, ?_, rfl⟩
        exact stopped_meas (d := { d with out := d.out ++ [.afterPropagation t cur.x cur.P] }) env hi m

theorem alike_imu (env : Env) (hf : f.Blind) (hw : f.KeepsWaits) (c : Core A W X C M T)
    (hi : c.inited = true) (hp : c.predMade = true) (hq : c.queue = []) (t : ℚ) (u : Input A W) (m : Meas M)
    (hm : m.time > timeOf c.states.last) :
    Alike [m] (processIMU env f { c with queue := [m] } t u)
      (processIMU env f c t u >>= fun c => addMeasurement env f c m) := by
  rw [processIMU_form, processIMU_form]
  dsimp only
  rw [if_neg (by simp [hi]), if_neg (by simp [hi])]
  have es : Core.imuStart env { c with queue := [m] } t = Core.imuStart env c t := rfl
  rw [es]
  cases Core.imuStart env c t with
  | error e => exact .inl rfl
  | ok it =>
    simp only [bind, Except.bind]
    cases hd : c.states.deref it with
    | error e => exact .inl rfl
    | ok last =>
      dsimp only
      unfold imuBody
      dsimp only
      by_cases hv : last.key = invalidTime
      · rw [if_pos hv, if_pos hv]
        exact .inl (by simp [addMeasurement, hi, hp, hm, hq, pure, Except.pure])
      · rw [if_neg hv, if_neg hv]
        have h2 : ¬(c.predMade = false ∧ |t - last.key| > 1 / 10) := by simp [hp]
        by_cases h1 : t - last.key < -(1 / 100) ∧ c.predMade = true
        · rw [if_pos h1, if_pos h1]
          exact .inr ⟨{ c with itImu := it, inited := false, predMade := false }, rfl,
            stopped_meas env rfl m, rfl⟩
        · rw [if_neg h1, if_neg h1, if_neg h2, if_neg h2]
          exact alike_imuPropagate env hf hw
            { c with itImu := it, lastAmImu := if f.spike u.a then c.lastAmImu else last.val.u.a } hp hq last t
            (if f.spike u.a then { u with a := c.lastAmImu } else u) m

theorem alike_extEnd (env : Env) (hf : f.Blind) (hw : f.KeepsWaits) (c : Core A W X C M T)
    (hp : c.predMade = true) (hq : c.queue = []) (t : ℚ) (s : St A W X C) (m : Meas M) :
    extEnd env f { c with queue := [m] } t s =
      extEnd env f c t s >>= fun c => addMeasurement env f c m := by
  unfold extEnd
  have e := blind_step hf { c with states := (c.states.insert t s).1 } [m]
  dsimp only at e ⊢
  rw [e]
  generalize h : propagatePOneStep f _ = r
  cases r with
  | error e => rfl
  | ok d =>
    have h3 : d.Waits [] := by
      refine waits_propagatePOneStep hw ?_ d h
      exact ⟨hq, fun _ => hp⟩
    have epub : ∀ w s it, Core.published { d with queue := [m] } w s it = Core.published d w s it :=
      fun w s it => rfl
    simp only [Except.map, bind, Except.bind, epub]
    cases Core.published d (c.states.find t).isSome s (c.states.insert t s).2 with
    | error e => rfl
    | ok cur =>
      exact early_pending env { d with out := d.out ++ [.afterPropagation t cur.x cur.P], predMade := true }
        m h3.1

theorem alike_ext (env : Env) (hf : f.Blind) (hw : f.KeepsWaits) (c : Core A W X C M T)
    (hi : c.inited = true) (hp : c.predMade = true) (hq : c.queue = []) (t : ℚ) (u : Input A W)
    (e : Option E) (m : Meas M) (hm : m.time > timeOf c.states.last) :
    processExternal env f { c with queue := [m] } t u e =
      processExternal env f c t u e >>= fun c => addMeasurement env f c m := by
  rw [processExternal_form, processExternal_form]
  dsimp only
  rw [if_neg (by simp [hi]), if_neg (by simp [hi])]
  have hs : addMeasurement env f c m = .ok { c with queue := [m] } := by
    simp [addMeasurement, hi, hp, hm, hq, pure, Except.pure]
  cases c.states.last with
  | none => exact hs.symm
  | some last =>
    dsimp only
    by_cases hv : last.key = invalidTime
    · rw [if_pos hv, if_pos hv]
      exact hs.symm
    · rw [if_neg hv, if_neg hv, if_neg (by simp [hp]), if_neg (by simp [hp]), if_neg (by simp [hp]),
        if_neg (by simp [hp])]
      exact alike_extEnd env hf hw { c with lastAmExt := (Core.extInput f.toKernel c u).a } hp hq t
        ⟨Core.extInput f.toKernel c u, Core.extMean f.toKernel last t (Core.extInput f.toKernel c u) e, f.P0⟩ m

/-- Two stopped filters that differ in the queue publish the same for ever. -/
theorem alike_apis (env : Env) (q : List (Meas M)) (os : List (Api A W X C M E)) (d : Core A W X C M T)
    (hd : d.inited = false) :
    (apis env f { d with queue := q } os).map (fun c => c.out) = (apis env f d os).map (fun c => c.out) := by
  induction os generalizing d with
  | nil => rfl
  | cons o os ih =>
    simp only [apis]
    cases o with
    | init t s => rfl
    | imu t u =>
      have h : ∀ c : Core A W X C M T, c.inited = false → processIMU env f c t u = .ok c := by
        intro c hc; rw [processIMU_form, if_pos hc]
      simp only [api, h _ hd, h { d with queue := q } hd, bind, Except.bind]
      exact ih d hd
    | ext t u e =>
      have h : ∀ c : Core A W X C M T, c.inited = false → processExternal env f c t u e = .ok c := by
        intro c hc; rw [processExternal_form, if_pos hc]
      simp only [api, h _ hd, h { d with queue := q } hd, bind, Except.bind]
      exact ih d hd
    | meas m =>
      simp only [api, stopped_meas env hd, stopped_meas (d := { d with queue := q }) env hd, bind, Except.bind]
      exact ih d hd

/-- The two calls in either order, as seen in what is published. -/
theorem alike_swap (env : Env) (hf : f.Blind) (hw : f.KeepsWaits) (c : Core A W X C M T)
    (hi : c.inited = true) (hp : c.predMade = true) (hq : c.queue = []) (m : Meas M)
    (hm : m.time > timeOf c.states.last) (o : Api A W X C M E)
    (ho : (∃ t u, o = .imu t u) ∨ ∃ t u e, o = .ext t u e) (os : List (Api A W X C M E)) :
    (apis env f c (.meas m :: o :: os)).map (fun c => c.out) =
      (apis env f c (o :: .meas m :: os)).map (fun c => c.out) := by
  have e1 : api env f c (.meas m) = .ok { c with queue := [m] } := by
    simp [api, addMeasurement, hi, hp, hm, hq, pure, Except.pure]
  have key : Alike [m] (api env f { c with queue := [m] } o)
      (api env f c o >>= fun c => addMeasurement env f c m) := by
    rcases ho with ⟨t, u, rfl⟩ | ⟨t, u, e, rfl⟩
    · exact alike_imu env hf hw c hi hp hq t u m hm
    · exact .inl (alike_ext env hf hw c hi hp hq t u e m hm)
  simp only [apis]
  rw [e1]
  change ((api env f { c with queue := [m] } o >>= fun d => apis env f d os).map _) =
    ((api env f c o >>= fun d => addMeasurement env f d m >>= fun d => apis env f d os).map _)
  rw [← bind_assoc]
  rcases key with h | ⟨d, hd, h2, h1⟩
  · rw [h]
  · rw [h1, h2]
    exact alike_apis env [m] os d hd

end MSF.Flow
