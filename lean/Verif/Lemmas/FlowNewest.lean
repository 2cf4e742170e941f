import Verif.Lemmas.Stamps
import Verif.Lemmas.FlowTimes

/-! The newest buffered state and the order of what is published, in runs with relative measurements
(compare `Lemmas/CoreNewest` and `Lemmas/Stamps`). -/

namespace MSF
namespace Flow
variable {A W X C M T E : Type}

/-- `predict` and `apply` leave the newest state where it is and publish nothing at another time. -/
structure KeepsNewest (fl : Flow A W X C M T E) : Prop where
  predict : ∀ t l0 c o n, c.Newest t l0 → (fl.predict c o n).Newest t l0
  apply : ∀ t l0 env c m s, c.Newest t l0 → Post (fl.apply env c m s) (Core.Newest t l0)

section
variable {t : ℚ} {l0 : List (Event X C)} {c : Core A W X C M T} {fl : Flow A W X C M T E}
  (hk : KeepsNewest fl)

include hk in
theorem new_propagatePOneStep (h : c.Newest t l0) :
    Post (propagatePOneStep fl c) (Core.Newest t l0) := by
  unfold Flow.propagatePOneStep
  refine Post.bind fun next _ => ?_
  split
  · exact Post.ret h
  · refine Post.bind fun o _ => Post.bind fun n _ => ?_
    have h' := hk.predict _ _ _ o n h
    split
    · exact Post.ret h'
    · exact Post.ret ⟨h'.sorted, h'.top, h'.le, h'.meas, h'.out⟩

include hk in
theorem new_propPLoop (s : ℚ) (fuel : Nat) : ∀ {c : Core A W X C M T} (_ : c.Newest t l0)
    (it itm : Iter), Post (propPLoop fl s fuel c it itm) (Core.Newest t l0) := by
  induction fuel with
  | zero => intro c _ it itm; exact Post.err
  | succ fuel ih =>
    intro c h it itm
    unfold Flow.propPLoop
    split
    · exact Post.ok h
    · refine Post.bind fun n _ => ?_
      split
      · exact Post.bind fun m _ => Post.bind fun i _ => Post.bind fun j _ =>
          ih (hk.predict _ _ _ m n h) i j
      · exact Post.ret h

include hk in
theorem new_propPToState (h : c.Newest t l0) (s : ℚ) :
    Post (propPToState fl c s) (Core.Newest t l0) := by
  unfold Flow.propPToState
  exact Post.bind fun i _ => new_propPLoop hk s _ h _ _

include hk in
theorem new_finishMeas (h : c.Newest t l0) : Post (finishMeas fl c) (Core.Newest t l0) := by
  unfold Flow.finishMeas
  refine Post.bind fun c1 hc1 => ?_
  have h1 := new_propPToState hk h _ c1 hc1
  split
  · exact Post.ret h1
  · rename_i n hn
    obtain ⟨n', e1, e2⟩ := Core.last_of_top h1.sorted h1.top h1.le
    rw [hn] at e1
    cases e1
    obtain ⟨l, hl, hl'⟩ := h1.out
    refine Post.ret ⟨h1.sorted, h1.top, h1.le, h1.meas, l ++ [.afterUpdate n.key n.val.x n.val.P],
      by simp [hl], ?_⟩
    intro e he
    rcases List.mem_append.1 he with he | he
    · exact hl' e he
    · rw [List.mem_singleton.1 he]; exact e2

variable [AddCommGroup A] [Module ℚ A] [AddCommGroup W] [Module ℚ W]

include hk in
theorem new_getClosestState (h : c.Newest t l0) (env : Env) {s : ℚ} (hs : s ≤ t) :
    Post (getClosestState env fl c s) (fun r => r.1.Newest t l0) := by
  unfold Flow.getClosestState
  refine Post.bind fun it _ => Post.bind fun n _ => ?_
  split
  · exact Post.ret h
  · have h1 := h.interpolate (K := fl.toKernel) n hs
    generalize Core.interpolate fl.toKernel c n s = r at h1 ⊢
    obtain ⟨c1, i⟩ := r
    simp only at h1 ⊢
    refine Post.bind fun n1 _ => Post.bind fun c2 hc2 => Post.bind fun n2 hn2 => ?_
    have h2 := new_propPToState hk h1 _ c2 hc2
    split
    · split
      · refine Post.bind fun c3 hc3 => Post.ret ?_
        exact Core.Newest.cleanUp (c := { c2 with janitor := 0 }) ⟨h2.sorted, h2.top, h2.le, h2.meas, h2.out⟩
            env c3 hc3
      · exact Post.ret ⟨h2.sorted, h2.top, h2.le, h2.meas, h2.out⟩
    · exact Post.ret h2

include hk in
theorem new_measLoop (env : Env) (fuel : Nat) : ∀ {c : Core A W X C M T} (_ : c.Newest t l0)
    (it : Iter) (ap : Bool), Post (measLoop env fl fuel c it ap) (fun r => r.1.Newest t l0) := by
  induction fuel with
  | zero => intro c _ _ _; exact Post.err
  | succ fuel ih =>
    intro c h it ap
    unfold Flow.measLoop
    split
    · exact Post.ok h
    · refine Post.bind fun m hm => ?_
      split
      · exact Post.bind fun i _ => ih h i ap
      · refine Post.bind fun r hr => ?_
        have h1 := new_getClosestState hk h env (h.meas.deref hm) r hr
        obtain ⟨c1, st⟩ := r
        simp only at h1 ⊢
        cases st with
        | none => exact Post.bind fun i _ => ih h1 i ap
        | some s =>
          simp only
          split
          · exact Post.bind fun i _ => ih h1 i ap
          · refine Post.bind fun m2 _ => Post.bind fun c2 hc2 => Post.bind fun i _ =>
              Post.bind fun r2 hr2 => ?_
            have h2 := (hk.apply _ _ env c1 m2.val s h1 c2 hc2).repropagate s.key i r2 hr2
            split
            · exact Post.ret h2
            · exact ih h2 i true

include hk in
theorem new_addMeasurement (h : c.Newest t l0) (env : Env) (m : Meas M) :
    Post (addMeasurement env fl c m) (Core.Newest t l0) := by
  unfold Flow.addMeasurement
  split
  · exact Post.ret h
  · split
    · exact Post.ret ⟨h.sorted, h.top, h.le, h.meas, h.out⟩
    · rename_i hm
      split
      · exact Post.ret h
      · refine Post.bind fun r hr => ?_
        obtain ⟨c1, ap, ab⟩ := r
        have hmt : m.time ≤ t := by
          obtain ⟨n, e1, e2⟩ := Core.last_of_top h.sorted h.top h.le
          rw [e1, timeOf, e2] at hm
          exact not_lt.1 hm
        have h1 := new_measLoop hk env _ (c := { c with meas := _, fuzzy := false })
          ⟨h.sorted, h.top, h.le, h.meas.insert (Set.mem_Iic.2 hmt) m, h.out⟩ _ _ _ hr
        dsimp only at h1 ⊢
        split
        · exact Post.ret h1
        · exact new_finishMeas hk h1

include hk in
theorem new_handlePending (h : c.Newest t l0) (env : Env) :
    Post (handlePending env fl c) (Core.Newest t l0) := by
  unfold Flow.handlePending
  split
  · exact Post.ok h
  · refine new_addMeasurement hk ?_ env _
    exact ⟨h.sorted, h.top, h.le, h.meas, h.out⟩

include hk in
theorem new_extEnd {t : ℚ} (h : SortedL c.states.nodes) (hle : ∀ n ∈ c.states.nodes, n.key ≤ t)
    (hm : ∀ n ∈ c.meas.nodes, n.key ≤ t) (env : Env) (s : St A W X C) :
    Post (extEnd env fl c t s) (Core.Newest t c.out) := by
  unfold Flow.extEnd
  refine Post.bind fun c1 hc1 => Post.bind fun cur _ => ?_
  have h1 := new_propagatePOneStep hk (t := t) (l0 := c.out)
    (c := { c with states := (c.states.insert t s).1 })
    ⟨Buf.sorted_insert h _ _, Core.top_insert_self _ _ _,
      Buf.KeysIn.insert (fun n hn => hle n hn) (Set.mem_Iic.2 le_rfl) _, fun n hn => hm n hn,
      [], by simp, by simp⟩ c1 hc1
  refine new_handlePending hk ?_ env
  obtain ⟨l, e1, e2⟩ := h1.out
  refine ⟨h1.sorted, h1.top, h1.le, h1.meas, l ++ [.afterPropagation t cur.x cur.P],
    by simp [e1], ?_⟩
  intro e he
  rcases List.mem_append.1 he with he | he
  · exact e2 e he
  · rw [List.mem_singleton.1 he]; rfl

include hk in
theorem new_imuPropagate {t : ℚ} (h : SortedL c.states.nodes)
    (hle : ∀ n ∈ c.states.nodes, n.key ≤ t) (hm : ∀ n ∈ c.meas.nodes, n.key ≤ t) (env : Env)
    (last : Node (St A W X C)) (u : Input A W) :
    Post (imuPropagate env fl c last t u) (Core.Newest t c.out) := by
  rw [imuPropagate_form]
  refine Post.bind fun c1 hc1 => Post.bind fun cur _ => ?_
  have h1 := new_propagatePOneStep hk (t := t) (l0 := c.out)
    (c := { c with states := (c.states.insert t (Core.imuState fl.toKernel last t u)).1,
                   itImu := (c.states.insert t (Core.imuState fl.toKernel last t u)).2 })
    ⟨Buf.sorted_insert h _ _, Core.top_insert_self _ _ _,
      Buf.KeysIn.insert (fun n hn => hle n hn) (Set.mem_Iic.2 le_rfl) _, fun n hn => hm n hn,
      [], by simp, by simp⟩ c1 hc1
  unfold imuEnd
  split
  · exact new_handlePending hk (h1.published _ _ _) env
  · exact Post.ok (h1.published _ _ _)

include hk in
theorem ord_api {b : ℚ} (h : c.Ordered b) (env : Env) (o : Api A W X C M E)
    (ho : ∀ t, o.clock = some t → b ≤ t) :
    Post (api env fl c o) (Core.Ordered ((o.clock).getD b)) := by
  cases o with
  | init t s =>
    have hbt : b ≤ t := ho t rfl
    refine Post.ok (h.of_newest (t := t) (fun e he => (h.le e he).trans hbt) ?_ le_rfl)
    exact ⟨Buf.sorted_insert (b := c.states.clear) List.Pairwise.nil _ _,
      Core.top_insert_self c.states.clear t s,
      (Buf.KeysIn.clear c.states).insert (Set.mem_Iic.2 le_rfl) _, Buf.KeysIn.clear c.meas,
      [.initial t s.x s.P], rfl, by simp [Event.time]⟩
  | imu t u =>
    have hbt : b ≤ t := ho t rfl
    change Post (processIMU env fl c t u) (Core.Ordered t)
    rw [processIMU_form]
    by_cases hi : c.inited = false
    · rw [if_pos hi]; exact Post.ok (h.mono hbt)
    · rw [if_neg hi]
      obtain ⟨s, hs, hn, ho⟩ := h.newest (by simpa using hi)
      refine Post.bind fun it _ => Post.bind fun last hlast => ?_
      have hl : last ∈ c.states.nodes := Buf.deref_mem_nodes hlast
      have hle : ∀ n ∈ c.states.nodes, n.key ≤ t := fun n hm => (hn.le n hm).trans (hs.trans hbt)
      have hme : ∀ n ∈ c.meas.nodes, n.key ≤ t := fun n hm => (hn.meas n hm).trans (hs.trans hbt)
      have hot : ∀ e ∈ c.out, e.time ≤ t := fun e he => (h.le e he).trans hbt
      unfold imuBody
      split
      · exact Post.ok ⟨h.pw, hot, fun _ => ⟨s, hs.trans hbt,
          ⟨hn.sorted, hn.top, hn.le, hn.meas, hn.out⟩, ho⟩⟩
      · split
        · exact Post.ok ⟨h.pw, hot, fun hh => by cases hh⟩
        · split
          · refine Post.ok (h.of_newest hot ?_ le_rfl)
            exact Core.Newest.updateTime hn.sorted hle hme hl _ _ _ _
          · intro c' hc'
            refine h.of_newest hot ?_ le_rfl
            exact new_imuPropagate hk (c := { c with itImu := it, lastAmImu := _ }) hn.sorted hle hme
              env last _ c' hc'
  | ext t u e =>
    have hbt : b ≤ t := ho t rfl
    change Post (processExternal env fl c t u e) (Core.Ordered t)
    rw [processExternal_form]
    by_cases hi : c.inited = false
    · rw [if_pos hi]; exact Post.ok (h.mono hbt)
    · rw [if_neg hi]
      obtain ⟨s, hs, hn, ho⟩ := h.newest (by simpa using hi)
      have hle : ∀ n ∈ c.states.nodes, n.key ≤ t := fun n hm => (hn.le n hm).trans (hs.trans hbt)
      have hme : ∀ n ∈ c.meas.nodes, n.key ≤ t := fun n hm => (hn.meas n hm).trans (hs.trans hbt)
      have hot : ∀ e ∈ c.out, e.time ≤ t := fun e he => (h.le e he).trans hbt
      split
      · exact Post.ok (h.mono hbt)
      · rename_i last hlast
        have hl : last ∈ c.states.nodes := List.mem_of_getLast? hlast
        split
        · exact Post.ok (h.mono hbt)
        · split
          · refine Post.ok (h.of_newest hot ?_ le_rfl)
            exact Core.Newest.updateTime hn.sorted hle hme hl _ _ _ _
          · split
            · intro c' hc'
              refine h.of_newest hot ?_ le_rfl
              exact new_extEnd hk (c := { c with
                lastAmExt := (Core.extInput fl.toKernel c u).a, tP := t, states := c.states.clear, meas := c.meas.clear, queue := [] })
                List.Pairwise.nil (by simp [Buf.clear]) (by simp [Buf.clear]) env _ c' hc'
            · intro c' hc'
              refine h.of_newest hot ?_ le_rfl
              exact new_extEnd hk (c := { c with lastAmExt := (Core.extInput fl.toKernel c u).a }) hn.sorted hle hme env _ c' hc'
  | meas m =>
    change Post (addMeasurement env fl c m) (Core.Ordered b)
    by_cases hi : c.inited = true
    · obtain ⟨s, hs, hn, ho⟩ := h.newest hi
      intro c' hc'
      exact h.of_newest ho (new_addMeasurement hk hn env m c' hc') hs
    · unfold Flow.addMeasurement
      rw [if_pos (.inl (by simpa using hi))]
      exact Post.ret h

include hk in
theorem ord_apis (env : Env) (os : List (Api A W X C M E)) : ∀ {c : Core A W X C M T} {b : ℚ}
    (_ : c.Ordered b) (_ : ∀ t ∈ os.filterMap Api.clock, b ≤ t)
    (_ : (os.filterMap Api.clock).Pairwise (· ≤ ·)),
    Post (apis env fl c os) (fun c' => (c'.out.map Event.time).Pairwise (· ≤ ·)) := by
  induction os with
  | nil => intro c b h _ _; exact Post.ok h.pw
  | cons o os ih =>
    intro c b h hb hp
    unfold Flow.apis
    refine Post.bind fun c1 hc1 => ?_
    have h1 := ord_api hk h env o (fun t ht => hb t (by simp [ht])) c1 hc1
    cases hc : o.clock with
    | none =>
      rw [hc] at h1
      rw [List.filterMap_cons_none hc] at hb hp
      exact ih h1 hb hp
    | some t =>
      rw [hc] at h1
      rw [List.filterMap_cons_some hc] at hb hp
      exact ih h1 (List.pairwise_cons.1 hp).1 (List.pairwise_cons.1 hp).2

end
end Flow

namespace RelKernel
variable {A W X C F M T E : Type} {t : ℚ} {l0 : List (Event X (C × F))}
  {R : RelKernel A W X C F M T E}

theorem new_predict {c : Core A W X (C × F) M T} (h : c.Newest t l0) (o n : Node (St A W X (C × F))) :
    (R.predict c o n).Newest t l0 := by
  unfold predict
  split
  · exact h
  · exact ⟨Buf.sorted_modify (Buf.sorted_modify h.sorted _ _) _ _,
      Core.top_modify (Core.top_modify h.top _ _) _ _, (h.le.modify _ _).modify _ _, h.meas, h.out⟩

theorem new_write {c : Core A W X (C × F) M T} (h : c.Newest t l0) (n : Node (St A W X (C × F)))
    (g : St A W X (C × F) → St A W X (C × F)) : (write c n g).Newest t l0 := by
  unfold write
  split
  · exact ⟨Buf.sorted_modify h.sorted _ _, Core.top_modify h.top _ _, h.le.modify _ _, h.meas, h.out⟩
  · exact h

theorem new_relApply {c : Core A W X (C × F) M T} (h : c.Newest t l0) (prev m : Meas M)
    (old s : Node (St A W X (C × F))) : Post (relApply R c prev m old s) (Core.Newest t l0) := by
  unfold relApply
  refine Post.bind fun F _ => Post.ret ?_
  have h1 := new_write (new_write (new_write h old fun v => { v with P := (R.clear m.body v.P.1, v.P.2) }) s
    fun v => { v with P := (R.clear m.body v.P.1, v.P.2) })
  exact ⟨(h1 _ _).sorted, (h1 _ _).top, (h1 _ _).le, (h1 _ _).meas, (h1 _ _).out⟩

theorem new_previous {c : Core A W X C M T} {l0 : List (Event X C)} (h : c.Newest t l0) (env : Env)
    (s : ℚ) (i : Int) :
    Post (Core.getPreviousMeasurement env c s i) (fun r => ∀ n, r = some n → n.key ≤ t) := by
  unfold Core.getPreviousMeasurement
  refine Post.bind fun n _ => ?_
  split
  · exact Post.ret (by simp)
  · refine Post.bind fun it _ => Post.bind fun bb _ => Post.bind fun j _ => ?_
    split
    · exact Post.ret (by simp)
    · refine Post.bind fun m hm => Post.ret ?_
      intro n hn
      cases hn
      exact h.meas.deref hm

variable [AddCommGroup A] [Module ℚ A] [AddCommGroup W] [Module ℚ W]

theorem new_closest {c : Core A W X (C × F) M T} (h : c.Newest t l0) (env : Env) {s : ℚ} (hs : s ≤ t) :
    Post (R.closest env c s) (fun r => r.1.Newest t l0) :=
  Flow.new_getClosestState ⟨fun _ _ _ o n h => new_predict h o n, fun _ _ _ _ _ _ h => Post.ok h⟩
    h env hs

theorem flow_keepsNewest (R : RelKernel A W X C F M T E) : R.flow.KeepsNewest where
  predict _ _ _ o n h := new_predict h o n
  apply t l0 env c m s h := by
    change Post (R.apply env c m s) _
    unfold apply
    split
    · exact Post.ok (h.applyMeas m s)
    · refine Post.bind fun prev hp => ?_
      have hps := new_previous h env _ _ prev hp
      cases prev with
      | none => exact Post.ret h
      | some prev =>
        dsimp only
        split
        · exact Post.ret h
        · split
          · exact Post.ret h
          · refine Post.bind fun r hr => ?_
            have h1 := new_closest h env (hps prev rfl) r hr
            obtain ⟨c1, o⟩ := r
            cases o with
            | none => exact Post.ret h1
            | some old =>
              dsimp only at h1 ⊢
              split
              · exact Post.ret h1
              · exact new_relApply h1 _ _ _ _

end RelKernel
end MSF
