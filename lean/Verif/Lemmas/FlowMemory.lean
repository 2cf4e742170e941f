import Verif.Lemmas.Memory
import Verif.Lemmas.FlowNewest

/-! What clean-up leaves, in runs with relative measurements (compare `Lemmas/Memory`).  A relative
measurement may insert a state at the time of an older measurement, so no measurement must be older than
the threshold. -/

namespace MSF
namespace Flow
variable {A W X C M T E : Type}

/-- `predict` and `apply` keep what is known about the buffers. -/
structure KeepsKept (P : Prop) (T' S : ℚ) (fl : Flow A W X C M T E) : Prop where
  predict : ∀ j l0 c o n, c.Kept P True T' S j l0 → (fl.predict c o n).Kept P True T' S j l0
  apply : ∀ j l0 env c m s, c.Kept P True T' S j l0 →
    Post (fl.apply env c m s) (Core.Kept P True T' S j l0)

section
variable {P : Prop} {T' S : ℚ} {j base : Nat} {l0 : List (Event X C)} {c : Core A W X C M T}
  {fl : Flow A W X C M T E} (hk : KeepsKept P T' S fl)

include hk in
theorem kept_propagatePOneStep (h : c.Kept P True T' S j l0) :
    Post (propagatePOneStep fl c) (Core.Kept P True T' S j l0) := by
  unfold Flow.propagatePOneStep
  refine Post.bind fun next _ => ?_
  split
  · exact Post.ret h
  · refine Post.bind fun o _ => Post.bind fun n _ => ?_
    have h' := hk.predict _ _ _ o n h
    split
    · exact Post.ret h'
    · exact Post.ret ⟨h'.ss, h'.sm, h'.jan, h'.queue, h'.st, h'.me, h'.mt, h'.out⟩

include hk in
theorem kept_propPLoop (s : ℚ) (fuel : Nat) : ∀ {c : Core A W X C M T} (_ : c.Kept P True T' S j l0)
    (it itm : Iter), Post (propPLoop fl s fuel c it itm) (Core.Kept P True T' S j l0) := by
  induction fuel with
  | zero => intro c _ it itm; exact Post.err
  | succ fuel ih =>
    intro c h it itm
    unfold Flow.propPLoop
    split
    · exact Post.ok h
    · refine Post.bind fun n _ => ?_
      split
      · exact Post.bind fun m _ => Post.bind fun i _ => Post.bind fun k _ =>
          ih (hk.predict _ _ _ m n h) i k
      · exact Post.ret h

include hk in
theorem kept_propPToState (h : c.Kept P True T' S j l0) (s : ℚ) :
    Post (propPToState fl c s) (Core.Kept P True T' S j l0) := by
  unfold Flow.propPToState
  exact Post.bind fun i _ => kept_propPLoop hk s _ h _ _

include hk in
theorem kept_finishMeas (h : c.Kept P True T' S (Core.updatesOut c.out - base + 1) c.out) :
    Post (finishMeas fl c) (Core.Tidy P True T' S base) := by
  unfold Flow.finishMeas
  refine Post.bind fun c1 hc1 => ?_
  have h1 := kept_propPToState hk h _ c1 hc1
  split
  · refine Post.ret ?_
    have := h1.mono (Nat.le_succ _)
    rw [← h1.out] at this
    exact this
  · have h2 := h1
    rw [← h1.out] at h2
    refine Post.ret ?_
    refine Core.Kept.mono (j := Core.updatesOut c1.out - base + 1) ⟨h2.ss, h2.sm, h2.jan, h2.queue, h2.st, h2.me, h2.mt, rfl⟩ ?_
    simp only [Core.updatesOut_append]
    rename_i n _
    have e : Core.updatesOut [(Event.afterUpdate n.key n.val.x n.val.P : Event X C)] = 1 := rfl
    omega

variable [AddCommGroup A] [Module ℚ A] [AddCommGroup W] [Module ℚ W]

include hk in
theorem kept_getClosestState (h : c.Kept P True T' S j l0) (env : Env) {s : ℚ} (hs : P → T' - 60 ≤ s) :
    Post (getClosestState env fl c s) (fun r => r.1.Kept P True T' S (if r.2.isSome then j + 1 else j) l0) := by
  unfold Flow.getClosestState
  refine Post.bind fun it _ => Post.bind fun n _ => ?_
  split
  · exact Post.ret h
  · have h1 := h.interpolate (K := fl.toKernel) n hs
    generalize Core.interpolate fl.toKernel c n s = r at h1 ⊢
    obtain ⟨c1, i⟩ := r
    simp only at h1 ⊢
    refine Post.bind fun n1 _ => Post.bind fun c2 hc2 => Post.bind fun n2 hn2 => ?_
    have h2 := kept_propPToState hk h1 _ c2 hc2
    split
    · split
      · refine Post.bind fun c3 hc3 => Post.ret ?_
        exact h2.cleanUp env c3 hc3
      · rename_i hj
        refine Post.ret ⟨h2.ss, h2.sm, ?_, h2.queue, ?_, ?_, h2.mt, h2.out⟩
        · change c2.janitor + 1 ≤ 101
          omega
        · exact fun p => (h2.st p).imp_right fun ⟨a, b⟩ => ⟨a, Nat.succ_le_succ b⟩
        · exact fun p => (h2.me p).imp_right fun ⟨a, b⟩ => ⟨a, Nat.succ_le_succ b⟩
    · exact Post.ret h2

include hk in
theorem kept_measLoop (env : Env) (fuel : Nat) : ∀ {c : Core A W X C M T} (it : Iter) (ap : Bool)
    (_ : c.Kept P True T' S (if ap then j + 1 else j) l0) (_ : P → ∀ k n, it = .at k n → T' - 60 ≤ k),
    Post (measLoop env fl fuel c it ap)
      (fun r => r.1.Kept P True T' S (if r.2.1 then j + 1 else j) l0) := by
  induction fuel with
  | zero => intro c _ _ _ _; exact Post.err
  | succ fuel ih =>
    intro c it ap h hit
    unfold Flow.measLoop
    split
    · exact Post.ok h
    · refine Post.bind fun m hm => ?_
      split
      · exact Post.bind fun i hi => ih i ap h fun p => Core.incr_later (hit p) hi
      · refine Post.bind fun r hr => ?_
        obtain ⟨i0, hkey⟩ := Core.deref_key hm
        have h1 := kept_getClosestState hk h env (fun p => hit p _ _ hkey) r hr
        obtain ⟨c1, st⟩ := r
        simp only at h1 ⊢
        cases st with
        | none => exact Post.bind fun i hi => ih i ap h1 fun p => Core.incr_later (hit p) hi
        | some s =>
          simp only
          have h1' : c1.Kept P True T' S (j + 1) l0 := by
            refine h1.mono ?_
            simp only [Option.isSome_some, if_true]
            split <;> omega
          split
          · refine Post.bind fun i hi => ih i ap ?_ fun p => Core.incr_later (hit p) hi
            refine h1'.mono ?_
            split <;> omega
          · refine Post.bind fun m2 _ => Post.bind fun c2 hc2 => Post.bind fun i hi =>
              Post.bind fun r2 hr2 => ?_
            have h2 := (hk.apply _ _ env c1 m2.val s h1' c2 hc2).repropagate s.key i r2 hr2
            split
            · exact Post.ret h2
            · exact ih i true h2 fun p => Core.incr_later (hit p) hi

include hk in
theorem kept_addMeasurement (h : c.Tidy P True T' S base) (env : Env) (m : Meas M)
    (hm : P → T' - 60 ≤ m.time ∧ S - 60 ≤ m.time) :
    Post (addMeasurement env fl c m) (Core.Tidy P True T' S base) := by
  unfold Flow.addMeasurement
  split
  · exact Post.ret h
  · split
    · refine Post.ret ⟨h.ss, h.sm, h.jan, fun p q hq => ?_, h.st, h.me, h.mt, rfl⟩
      rcases List.mem_append.1 hq with hq | hq
      · exact h.queue p q hq
      · rw [List.mem_singleton.1 hq]; exact hm p
    · split
      · exact Post.ret h
      · refine Post.bind fun r hr => ?_
        obtain ⟨c1, ap, ab⟩ := r
        have h1 := kept_measLoop hk (j := Core.updatesOut c.out - base) (P := P) (T' := T') (S := S)
          (l0 := c.out) env _ (c := { c with meas := (c.meas.insert m.time m).1, fuzzy := false })
          (c.meas.insert m.time m).2 false
          ⟨h.ss, Buf.sorted_insert h.sm _ _, h.jan, h.queue, h.st, fun p => by
            rcases h.me p with h | ⟨h, hj⟩
            · exact .inl (by
                change ((c.meas.insert m.time m).1).old S ≤ 1
                rw [Buf.old_insert (hm p).2]; exact h)
            · exact .inr ⟨h.insert _ _, hj⟩,
            fun q p => Buf.KeysIn.insert (S := Set.Ici (T' - 60)) (h.mt q p) (hm p).1 m, rfl⟩
          (fun p k n hk => by
            have : k = m.time := by
              unfold Buf.insert at hk
              split at hk
              · rename_i n' hn'
                have := List.find?_some hn'
                simp only [Node.iter, Iter.at.injEq] at hk
                rw [← hk.1]; simpa using this
              · simp only [Node.iter, Iter.at.injEq] at hk
                exact hk.1.symm
            rw [this]; exact (hm p).1) _ hr
        have hout := h1.out
        dsimp only at h1 hout ⊢
        split
        · refine Post.ret ?_
          unfold Core.Tidy
          rw [hout]
          refine h1.mono ?_
          split <;> omega
        · rename_i hab
          have hap : ap = true := by
            by_contra hcon
            exact hab (.inr (by simpa using hcon))
          subst hap
          simp only [if_true] at h1
          rw [← hout] at h1
          exact kept_finishMeas hk h1

include hk in
theorem kept_handlePending (h : c.Tidy P True T' S base) (env : Env) :
    Post (handlePending env fl c) (Core.Tidy P True T' S base) := by
  unfold Flow.handlePending
  split
  · exact Post.ok h
  · rename_i m q hq
    refine kept_addMeasurement hk ?_ env _ fun p => h.queue p m (by rw [hq]; exact List.mem_cons_self ..)
    exact ⟨h.ss, h.sm, h.jan, fun p n hn => h.queue p n (by rw [hq]; exact List.mem_cons_of_mem _ hn),
      h.st, h.me, h.mt, rfl⟩

include hk in
theorem kept_imuPropagate (h : c.Tidy P True T' S base) (env : Env) (last : Node (St A W X C)) {t : ℚ}
    (ht : P → T' ≤ t) (u : Input A W) : Post (imuPropagate env fl c last t u) (Core.Tidy P True T' S base) := by
  rw [imuPropagate_form]
  refine Post.bind fun c1 hc1 => Post.bind fun cur _ => ?_
  have h0 : c.Kept P True T' S (Core.updatesOut c.out - base) c.out := h
  have h1 := kept_propagatePOneStep hk (h0.insert (t := t) (fun p => by have := ht p; linarith) (Core.imuState fl.toKernel last t u) c.tP
    (c.states.insert t (Core.imuState fl.toKernel last t u)).2) c1 hc1
  unfold imuEnd
  split
  · exact kept_handlePending hk (h1.propagated _ _ _ _) env
  · exact Post.ok (h1.propagated _ _ _ _)

include hk in
theorem kept_extEnd (h : c.Tidy P True T' S base) (env : Env) {t : ℚ} (ht : P → T' ≤ t) (s : St A W X C) :
    Post (extEnd env fl c t s) (Core.Tidy P True T' S base) := by
  unfold Flow.extEnd
  refine Post.bind fun c1 hc1 => Post.bind fun cur _ => ?_
  have h0 : c.Kept P True T' S (Core.updatesOut c.out - base) c.out := h
  have h1 := kept_propagatePOneStep hk (h0.insert (t := t) (fun p => by have := ht p; linarith) s c.tP
    c.itImu) c1 hc1
  exact kept_handlePending hk (h1.propagated _ _ _ _) env

include hk in
theorem kept_api (h : c.Tidy P True T' S base) (env : Env) (o : Api A W X C M E)
    (ho : P → ∀ t, o.clock = some t → T' ≤ t)
    (hm : P → ∀ m, o = .meas m → T' - 60 ≤ m.time ∧ S - 60 ≤ m.time) :
    Post (api env fl c o) (Core.Tidy P True T' S base) := by
  cases o with
  | init t s =>
    refine Post.ok ?_
    refine ⟨Buf.sorted_insert (b := c.states.clear) List.Pairwise.nil _ _, List.Pairwise.nil, h.jan,
      by simp [Core.init], fun p => .inl ?_, fun p => .inl (by simp [Core.init, Buf.clear, Buf.old]),
      by simp [Core.init, Buf.clear], rfl⟩
    change (c.states.clear.insert t s).1.old T' ≤ 1
    rw [Buf.old_insert (by have := ho p t rfl; linarith)]
    simp [Buf.clear, Buf.old]
  | imu t u =>
    have ht : P → T' ≤ t := fun p => ho p t rfl
    change Post (processIMU env fl c t u) _
    rw [processIMU_form]
    split
    · exact Post.ok h
    · refine Post.bind fun it _ => Post.bind fun last _ => ?_
      unfold imuBody
      split
      · exact Post.ok ⟨h.ss, h.sm, h.jan, h.queue, h.st, h.me, h.mt, rfl⟩
      · split
        · exact Post.ok ⟨h.ss, h.sm, h.jan, h.queue, h.st, h.me, h.mt, rfl⟩
        · split
          · exact Post.ok (h.updateTime ht _ _ _ _ _)
          · refine kept_imuPropagate hk ?_ env _ ht _
            exact ⟨h.ss, h.sm, h.jan, h.queue, h.st, h.me, h.mt, rfl⟩
  | ext t u e =>
    have ht : P → T' ≤ t := fun p => ho p t rfl
    change Post (processExternal env fl c t u e) _
    rw [processExternal_form]
    split
    · exact Post.ok h
    · split
      · exact Post.ok h
      · split
        · exact Post.ok h
        · split
          · exact Post.ok (h.updateTime ht _ _ _ _ _)
          · split
            · refine kept_extEnd hk ?_ env ht _
              exact ⟨List.Pairwise.nil, List.Pairwise.nil, h.jan, by simp,
                fun _ => .inl (by simp [Buf.clear, Buf.old]), fun _ => .inl (by simp [Buf.clear, Buf.old]),
                by simp [Buf.clear], rfl⟩
            · refine kept_extEnd hk ?_ env ht _
              exact ⟨h.ss, h.sm, h.jan, h.queue, h.st, h.me, h.mt, rfl⟩
  | meas m => exact kept_addMeasurement hk h env m fun p => hm p m rfl

include hk in
theorem kept_apis (env : Env) (os : List (Api A W X C M E)) : ∀ {c : Core A W X C M T}
    (_ : c.Tidy P True T' S base) (_ : P → ∀ o ∈ os, ∀ t, o.clock = some t → T' ≤ t)
    (_ : P → ∀ o ∈ os, ∀ m, o = .meas m → T' - 60 ≤ m.time ∧ S - 60 ≤ m.time),
    Post (apis env fl c os) (Core.Tidy P True T' S base) := by
  induction os with
  | nil => intro c h _ _; exact Post.ok h
  | cons o os ih =>
    intro c h h1 h2
    unfold Flow.apis
    exact Post.bind fun c1 hc1 => ih
      (kept_api hk h env o (fun p => h1 p o (List.mem_cons_self ..)) (fun p => h2 p o (List.mem_cons_self ..))
        c1 hc1)
      (fun p o' ho' => h1 p o' (List.mem_cons_of_mem _ ho'))
      (fun p o' ho' => h2 p o' (List.mem_cons_of_mem _ ho'))

end
end Flow

namespace RelKernel
variable {A W X C F M T E : Type} {P : Prop} {T' S : ℚ} {j : Nat} {l0 : List (Event X (C × F))}
  {R : RelKernel A W X C F M T E}

theorem kept_predict {c : Core A W X (C × F) M T} (h : c.Kept P True T' S j l0)
    (o n : Node (St A W X (C × F))) : (R.predict c o n).Kept P True T' S j l0 := by
  unfold predict
  split
  · exact h
  · exact ⟨Buf.sorted_modify (Buf.sorted_modify h.ss _ _) _ _, h.sm, h.jan, h.queue,
      fun p => (h.st p).imp (fun a => by simpa [Buf.old_modify] using a)
        fun ⟨a, b⟩ => ⟨(a.modify _ _).modify _ _, b⟩, h.me, h.mt, h.out⟩

theorem kept_write {c : Core A W X (C × F) M T} (h : c.Kept P True T' S j l0)
    (n : Node (St A W X (C × F))) (g : St A W X (C × F) → St A W X (C × F)) :
    (write c n g).Kept P True T' S j l0 := by
  unfold write
  split
  · exact h.modify _ _ _ _ _
  · exact h

theorem kept_relApply {c : Core A W X (C × F) M T} (h : c.Kept P True T' S j l0) (prev m : Meas M)
    (old s : Node (St A W X (C × F))) :
    Post (relApply R c prev m old s) (Core.Kept P True T' S j l0) := by
  unfold relApply
  refine Post.bind fun F _ => Post.ret ?_
  have h1 := kept_write (kept_write (kept_write h old
    fun v => { v with P := (R.clear m.body v.P.1, v.P.2) }) s
    fun v => { v with P := (R.clear m.body v.P.1, v.P.2) })
  exact ⟨(h1 _ _).ss, (h1 _ _).sm, (h1 _ _).jan, (h1 _ _).queue, (h1 _ _).st, (h1 _ _).me, (h1 _ _).mt,
    (h1 _ _).out⟩

theorem kept_previous {c : Core A W X C M T} {l0 : List (Event X C)} (h : c.Kept P True T' S j l0)
    (env : Env) (s : ℚ) (i : Int) :
    Post (Core.getPreviousMeasurement env c s i) (fun r => ∀ n, r = some n → P → T' - 60 ≤ n.key) := by
  unfold Core.getPreviousMeasurement
  refine Post.bind fun n _ => ?_
  split
  · exact Post.ret (by simp)
  · refine Post.bind fun it _ => Post.bind fun bb _ => Post.bind fun j _ => ?_
    split
    · exact Post.ret (by simp)
    · refine Post.bind fun m hm => Post.ret ?_
      intro n hn p
      cases hn
      exact Buf.KeysIn.deref (S := Set.Ici (T' - 60)) (h.mt trivial p) hm

variable [AddCommGroup A] [Module ℚ A] [AddCommGroup W] [Module ℚ W]

theorem kept_closest {c : Core A W X (C × F) M T} (h : c.Kept P True T' S j l0) (env : Env) {s : ℚ}
    (hs : P → T' - 60 ≤ s) : Post (R.closest env c s) (fun r => r.1.Kept P True T' S j l0) := by
  intro r hr
  have h1 := Flow.kept_getClosestState (P := P) (T' := T') (S := S)
    ⟨fun _ _ _ o n h => kept_predict h o n, fun _ _ _ _ _ _ h => Post.ok h⟩ h env hs r hr
  refine h1.mono ?_
  split <;> omega

theorem flow_keepsKept (R : RelKernel A W X C F M T E) : R.flow.KeepsKept P T' S where
  predict _ _ _ o n h := kept_predict h o n
  apply j l0 env c m s h := by
    change Post (R.apply env c m s) _
    unfold apply
    split
    · exact Post.ok (h.applyMeas m s)
    · refine Post.bind fun prev hp => ?_
      have hps := kept_previous h env _ _ prev hp
      cases prev with
      | none => exact Post.ret h
      | some prev =>
        dsimp only
        split
        · exact Post.ret h
        · split
          · exact Post.ret h
          · refine Post.bind fun r hr => ?_
            have h1 := kept_closest h env (hps prev rfl) r hr
            obtain ⟨c1, o⟩ := r
            cases o with
            | none => exact Post.ret h1
            | some old =>
              dsimp only at h1 ⊢
              split
              · exact Post.ret h1
              · exact kept_relApply h1 _ _ _ _

end RelKernel
end MSF
