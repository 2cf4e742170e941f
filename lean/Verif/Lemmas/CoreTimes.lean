import Verif.Lemmas.BufMap
import Verif.Lemmas.CoreForms

/-! The filter only ever stores times it was given: if all times of a run lie in a set, so do all times
in its buffers. -/

namespace MSF

/-- Every value a computation can return satisfies `Q`. -/
def Post {α : Type} (x : Except UB α) (Q : α → Prop) : Prop := ∀ a, x = .ok a → Q a

namespace Post
variable {α β : Type}

theorem bind {x : Except UB α} {k : α → Except UB β} {Q : β → Prop}
    (h : ∀ a, x = .ok a → Post (k a) Q) : Post (x >>= k) Q := by
  intro b hb
  cases x with
  | error e => exact absurd hb (by simp [Bind.bind, Except.bind])
  | ok a => exact h a rfl b hb

theorem ret {a : α} {Q : α → Prop} (h : Q a) : Post (pure a : Except UB α) Q := by
  intro b hb
  cases hb
  exact h

theorem ok {a : α} {Q : α → Prop} (h : Q a) : Post (Except.ok a : Except UB α) Q := by
  intro b hb
  cases hb
  exact h

theorem err {e : UB} {Q : α → Prop} : Post (Except.error e : Except UB α) Q := by
  intro b hb
  cases hb

end Post

namespace Buf
variable {V : Type}

/-- All keys lie in `S`. -/
def KeysIn (S : Set ℚ) (b : Buf V) : Prop := ∀ n ∈ b.nodes, n.key ∈ S

theorem KeysIn.modify {S : Set ℚ} {b : Buf V} (h : b.KeysIn S) (k : ℚ) (f : V → V) :
    (b.modify k f).KeysIn S := by
  intro n hn
  simp only [Buf.modify, List.mem_map] at hn
  obtain ⟨m, hm, rfl⟩ := hn
  split
  · exact h m hm
  · exact h m hm

theorem mem_insertNode_of {n m : Node V} {l : List (Node V)} (h : m ∈ insertNode n l) :
    m = n ∨ m ∈ l := by
  induction l with
  | nil => exact .inl (by simpa [insertNode] using h)
  | cons a l ih =>
    simp only [insertNode] at h
    split at h
    · simpa using h
    · rcases List.mem_cons.1 h with rfl | h
      · exact .inr (List.mem_cons_self ..)
      · exact (ih h).imp id (List.mem_cons_of_mem _)

theorem KeysIn.insert {S : Set ℚ} {b : Buf V} (h : b.KeysIn S) {t : ℚ} (ht : t ∈ S) (v : V) :
    (b.insert t v).1.KeysIn S := by
  simp only [Buf.insert]
  split
  · exact h
  · intro n hn
    rcases mem_insertNode_of hn with rfl | hn
    · exact ht
    · exact h n hn

theorem KeysIn.clear {S : Set ℚ} (b : Buf V) : b.clear.KeysIn S := by
  intro n hn
  cases hn

theorem KeysIn.filter {S : Set ℚ} {b : Buf V} (h : b.KeysIn S) (p : Node V → Bool) (i : Nat) :
    KeysIn S (⟨b.nodes.filter p, i⟩ : Buf V) := fun n hn => h n (List.mem_filter.1 hn).1

theorem KeysIn.updateTime {S : Set ℚ} {b : Buf V} (h : b.KeysIn S) (told : ℚ) {tnew : ℚ}
    (ht : tnew ∈ S) : (b.updateTime told tnew).1.KeysIn S := by
  simp only [Buf.updateTime]
  split
  · exact h
  · exact (h.filter _ _).insert ht _

theorem KeysIn.clearOlderThan {S : Set ℚ} {b : Buf V} (h : b.KeysIn S) (p : Plat) (age : ℚ) :
    Post (b.clearOlderThan p age) (KeysIn S) := by
  unfold Buf.clearOlderThan
  simp only
  split
  · exact Post.ret h
  · refine Post.bind fun it _ => Post.bind fun n _ => Post.bind fun f _ => ?_
    split
    · exact Post.ret (h.filter _ _)
    · exact Post.ret h

theorem deref_mem_nodes {b : Buf V} {it : Iter} {n : Node V} (h : b.deref it = .ok n) : n ∈ b.nodes := by
  cases it with
  | fin => cases h
  | «at» k i =>
    simp only [Buf.deref] at h
    cases hm : b.nodes.find? (fun n => n.key = k) with
    | none => rw [hm] at h; cases h
    | some m =>
      simp only [hm] at h
      by_cases hi : m.id = i
      · rw [if_pos hi] at h
        cases h
        exact List.mem_of_find?_eq_some hm
      · rw [if_neg hi] at h
        cases h

theorem KeysIn.deref {S : Set ℚ} {b : Buf V} (h : b.KeysIn S) {it : Iter} {n : Node V}
    (hn : b.deref it = .ok n) : n.key ∈ S := h n (deref_mem_nodes hn)

end Buf

/-- The time a published state is stamped with. -/
def Event.time {X C : Type} : Event X C → ℚ
  | .initial t _ _ => t
  | .afterPropagation t _ _ => t
  | .afterUpdate t _ _ => t

namespace Core
variable {A W X C M T E : Type}

/-- All times stored in the buffers and in the queue, and all published ones, lie in `S`. -/
structure TimesIn (S : Set ℚ) (c : Core A W X C M T) : Prop where
  states : c.states.KeysIn S
  meas : c.meas.KeysIn S
  queue : ∀ m ∈ c.queue, m.time ∈ S
  out : ∀ e ∈ c.out, e.time ∈ S

theorem TimesIn.out_snoc {S : Set ℚ} {l : List (Event X C)} (h : ∀ e ∈ l, e.time ∈ S) {e : Event X C}
    (he : e.time ∈ S) : ∀ e' ∈ l ++ [e], e'.time ∈ S := by
  intro e' h'
  rcases List.mem_append.1 h' with h' | h'
  · exact h e' h'
  · rw [List.mem_singleton.1 h']; exact he

section
variable {S : Set ℚ} {c : Core A W X C M T} {K : Kernel A W X C M T E}

theorem TimesIn.predictCov (h : c.TimesIn S) (o n : Node (St A W X C)) :
    (predictCov K c o n).TimesIn S := by
  unfold Core.predictCov
  split
  · exact h
  · exact ⟨h.states.modify _ _, h.meas, h.queue, h.out⟩

theorem TimesIn.propagatePOneStep (h : c.TimesIn S) :
    Post (propagatePOneStep K c) (TimesIn S) := by
  unfold Core.propagatePOneStep
  refine Post.bind fun next _ => ?_
  split
  · exact Post.ret h
  · refine Post.bind fun o _ => Post.bind fun n _ => ?_
    have h' := h.predictCov (K := K) o n
    split
    · exact Post.ret h'
    · exact Post.ret ⟨h'.states, h'.meas, h'.queue, h'.out⟩

theorem TimesIn.propPLoop (t : ℚ) (fuel : Nat) : ∀ {c : Core A W X C M T} (_ : c.TimesIn S)
    (it itm : Iter), Post (propPLoop K t fuel c it itm) (TimesIn S) := by
  induction fuel with
  | zero => intro c _ it itm; exact Post.err
  | succ fuel ih =>
    intro c h it itm
    unfold Core.propPLoop
    split
    · exact Post.ok h
    · refine Post.bind fun n _ => ?_
      split
      · exact Post.bind fun m _ => Post.bind fun i _ => Post.bind fun j _ =>
          ih (h.predictCov m n) i j
      · exact Post.ret h

theorem TimesIn.propPToState (h : c.TimesIn S) (t : ℚ) : Post (propPToState K c t) (TimesIn S) := by
  unfold Core.propPToState
  exact Post.bind fun i _ => TimesIn.propPLoop t _ h _ _

theorem TimesIn.cleanUp (h : c.TimesIn S) (env : Env) : Post (cleanUp env c) (TimesIn S) := by
  unfold Core.cleanUp
  exact Post.bind fun s hs => Post.bind fun m hm =>
    Post.ret ⟨h.states.clearOlderThan _ _ s hs, h.meas.clearOlderThan _ _ m hm, h.queue, h.out⟩

theorem TimesIn.interpolate [AddCommGroup A] [Module ℚ A] [AddCommGroup W] [Module ℚ W]
    (h : c.TimesIn S) (n : Node (St A W X C)) {t : ℚ} (ht : t ∈ S) :
    (interpolate K c n t).1.TimesIn S := by
  unfold Core.interpolate
  split
  · split
    · split
      · exact ⟨h.states.insert ht _, h.meas, h.queue, h.out⟩
      · exact h
    · exact h
  · exact h

theorem TimesIn.getClosestState [AddCommGroup A] [Module ℚ A] [AddCommGroup W] [Module ℚ W]
    (h : c.TimesIn S) (env : Env) {t : ℚ} (ht : t ∈ S) :
    Post (getClosestState env K c t)
      (fun r => r.1.TimesIn S ∧ ∀ n, r.2 = some n → n.key ∈ S) := by
  unfold Core.getClosestState
  refine Post.bind fun it _ => Post.bind fun n _ => ?_
  split
  · exact Post.ret ⟨h, by simp⟩
  · have h1 := h.interpolate (K := K) n ht
    generalize Core.interpolate K c n t = r at h1 ⊢
    obtain ⟨c1, i⟩ := r
    simp only at h1 ⊢
    refine Post.bind fun n1 _ => Post.bind fun c2 hc2 => Post.bind fun n2 hn2 => ?_
    have h2 := h1.propPToState _ c2 hc2
    have hk := h2.states.deref hn2
    split
    · split
      · refine Post.bind fun c3 hc3 => Post.ret ⟨?_, ?_⟩
        · exact TimesIn.cleanUp (c := { c2 with janitor := 0 }) ⟨h2.states, h2.meas, h2.queue, h2.out⟩
            env c3 hc3
        · intro m hm; cases hm; exact hk
      · refine Post.ret ⟨⟨h2.states, h2.meas, h2.queue, h2.out⟩, ?_⟩
        intro m hm; cases hm; exact hk
    · exact Post.ret ⟨h2, by simp⟩

theorem TimesIn.propLoop (fuel : Nat) : ∀ {c : Core A W X C M T} (_ : c.TimesIn S)
    (cur next stop : Iter), Post (propLoop K fuel c cur next stop) (fun r => r.1.TimesIn S) := by
  induction fuel with
  | zero => intro c _ _ _ _; exact Post.err
  | succ fuel ih =>
    intro c h cur next stop
    unfold Core.propLoop
    split
    · exact Post.ok h
    · refine Post.bind fun a _ => Post.bind fun b _ => ?_
      split
      · exact Post.ret h
      · split
        · exact Post.ret h
        · refine Post.bind fun i _ => Post.bind fun j _ => ih ?_ i j stop
          exact ⟨h.states.modify _ _, h.meas, h.queue, h.out⟩

theorem TimesIn.applyMeas (h : c.TimesIn S) (m : Meas M) (s : Node (St A W X C)) :
    (applyMeas K c m s).TimesIn S := by
  unfold Core.applyMeas
  refine ⟨?_, h.meas, h.queue, h.out⟩
  simp only
  split
  · exact h.states.modify _ _
  · exact h.states

theorem TimesIn.repropagate (h : c.TimesIn S) (k : ℚ) (it : Iter) :
    Post (repropagate K c k it) (fun r => r.1.TimesIn S) := by
  unfold Core.repropagate
  cases it with
  | fin => exact Post.bind fun a _ => Post.bind fun b _ => TimesIn.propLoop _ h _ _ _
  | «at» k i =>
    refine Post.bind fun a _ => ?_
    simp only
    split
    · exact Post.bind fun a _ => Post.bind fun b _ => TimesIn.propLoop _ h _ _ _
    · exact Post.bind fun a _ => Post.bind fun b _ => TimesIn.propLoop _ h _ _ _

theorem TimesIn.measLoop [AddCommGroup A] [Module ℚ A] [AddCommGroup W] [Module ℚ W]
    (env : Env) (fuel : Nat) : ∀ {c : Core A W X C M T} (_ : c.TimesIn S)
    (it : Iter) (ap : Bool), Post (measLoop env K fuel c it ap) (fun r => r.1.TimesIn S) := by
  induction fuel with
  | zero => intro c _ _ _; exact Post.err
  | succ fuel ih =>
    intro c h it ap
    unfold Core.measLoop
    split
    · exact Post.ok h
    · refine Post.bind fun m hm => ?_
      split
      · exact Post.bind fun i _ => ih h i ap
      · refine Post.bind fun r hr => ?_
        have h1 := h.getClosestState env (h.meas.deref hm) r hr
        obtain ⟨c1, st⟩ := r
        simp only at h1 ⊢
        cases st with
        | none => exact Post.bind fun i _ => ih h1.1 i ap
        | some s =>
          simp only
          split
          · exact Post.bind fun i _ => ih h1.1 i ap
          · refine Post.bind fun m2 _ => Post.bind fun i _ => Post.bind fun r2 hr2 => ?_
            have h2 := (h1.1.applyMeas (K := K) m2.val s).repropagate s.key i r2 hr2
            split
            · exact Post.ret h2
            · exact ih h2 i true

theorem TimesIn.finishMeas (h : c.TimesIn S) : Post (finishMeas K c) (TimesIn S) := by
  unfold Core.finishMeas
  refine Post.bind fun c1 hc1 => ?_
  have h1 := h.propPToState _ c1 hc1
  split
  · exact Post.ret h1
  · rename_i n hn
    exact Post.ret ⟨h1.states, h1.meas, h1.queue,
      TimesIn.out_snoc h1.out (h1.states n (List.mem_of_getLast? hn))⟩

theorem TimesIn.addMeasurement [AddCommGroup A] [Module ℚ A] [AddCommGroup W] [Module ℚ W]
    (h : c.TimesIn S) (env : Env) {m : Meas M} (hm : m.time ∈ S) :
    Post (addMeasurement env K c m) (TimesIn S) := by
  unfold Core.addMeasurement
  split
  · exact Post.ret h
  · split
    · refine Post.ret ⟨h.states, h.meas, ?_, h.out⟩
      intro m' hm'
      rcases List.mem_append.1 hm' with hm' | hm'
      · exact h.queue m' hm'
      · rw [List.mem_singleton.1 hm']; exact hm
    · split
      · exact Post.ret h
      · refine Post.bind fun r hr => ?_
        obtain ⟨c1, ap, ab⟩ := r
        have h1 := TimesIn.measLoop env _ (c := { c with meas := _, fuzzy := false })
          ⟨h.states, h.meas.insert hm m, h.queue, h.out⟩ _ _ _ hr
        dsimp only at h1 ⊢
        split
        · exact Post.ret h1
        · exact h1.finishMeas

theorem TimesIn.handlePending [AddCommGroup A] [Module ℚ A] [AddCommGroup W] [Module ℚ W]
    (h : c.TimesIn S) (env : Env) :
    Post (handlePending env K c) (TimesIn S) := by
  unfold Core.handlePending
  split
  · exact Post.ok h
  · rename_i m q hq
    have hm : m.time ∈ S := h.queue m (by rw [hq]; exact List.mem_cons_self ..)
    refine TimesIn.addMeasurement (c := { c with queue := q }) ?_ env hm
    exact ⟨h.states, h.meas, fun m' hm' => h.queue m' (by rw [hq]; exact List.mem_cons_of_mem _ hm'),
      h.out⟩

theorem TimesIn.imuPropagate [AddCommGroup A] [Module ℚ A] [AddCommGroup W] [Module ℚ W]
    (h : c.TimesIn S) (env : Env) (last : Node (St A W X C)) {t : ℚ}
    (ht : t ∈ S) (u : Input A W) : Post (imuPropagate env K c last t u) (TimesIn S) := by
  rw [imuPropagate_form]
  refine Post.bind fun c1 hc1 => Post.bind fun cur _ => ?_
  have h1 := TimesIn.propagatePOneStep (K := K) (c := { c with states := _, itImu := _ })
    ⟨h.states.insert ht _, h.meas, h.queue, h.out⟩ c1 hc1
  unfold imuEnd
  split
  · refine TimesIn.handlePending ?_ env
    exact ⟨h1.states, h1.meas, h1.queue, TimesIn.out_snoc h1.out ht⟩
  · exact Post.ok ⟨h1.states, h1.meas, h1.queue, TimesIn.out_snoc h1.out ht⟩

theorem TimesIn.processIMU [AddCommGroup A] [Module ℚ A] [AddCommGroup W] [Module ℚ W]
    (h : c.TimesIn S) (env : Env) {t : ℚ} (ht : t ∈ S) (u : Input A W) :
    Post (processIMU env K c t u) (TimesIn S) := by
  rw [processIMU_form]
  split
  · exact Post.ok h
  · refine Post.bind fun it _ => Post.bind fun last _ => ?_
    unfold imuBody
    split
    · exact Post.ok ⟨h.states, h.meas, h.queue, h.out⟩
    · split
      · exact Post.ok ⟨h.states, h.meas, h.queue, h.out⟩
      · split
        · exact Post.ok ⟨h.states.updateTime _ ht, h.meas, h.queue, h.out⟩
        · refine TimesIn.imuPropagate ?_ env _ ht _
          exact ⟨h.states, h.meas, h.queue, h.out⟩

theorem TimesIn.extEnd [AddCommGroup A] [Module ℚ A] [AddCommGroup W] [Module ℚ W]
    (h : c.TimesIn S) (env : Env) {t : ℚ} (ht : t ∈ S) (s : St A W X C) :
    Post (extEnd env K c t s) (TimesIn S) := by
  unfold Core.extEnd
  refine Post.bind fun c1 hc1 => Post.bind fun cur _ => ?_
  have h1 := TimesIn.propagatePOneStep (K := K) (c := { c with states := _ })
    ⟨h.states.insert ht _, h.meas, h.queue, h.out⟩ c1 hc1
  refine TimesIn.handlePending ?_ env
  exact ⟨h1.states, h1.meas, h1.queue, TimesIn.out_snoc h1.out ht⟩

theorem TimesIn.processExternal [AddCommGroup A] [Module ℚ A] [AddCommGroup W] [Module ℚ W]
    (h : c.TimesIn S) (env : Env) {t : ℚ} (ht : t ∈ S) (u : Input A W)
    (e : Option E) : Post (processExternal env K c t u e) (TimesIn S) := by
  rw [processExternal_form]
  split
  · exact Post.ok h
  · split
    · exact Post.ok h
    · split
      · exact Post.ok h
      · split
        · exact Post.ok ⟨h.states.updateTime _ ht, h.meas, h.queue, h.out⟩
        · split
          · refine TimesIn.extEnd ?_ env ht _
            exact ⟨Buf.KeysIn.clear c.states, Buf.KeysIn.clear c.meas, by simp, h.out⟩
          · refine TimesIn.extEnd ?_ env ht _
            exact ⟨h.states, h.meas, h.queue, h.out⟩

theorem TimesIn.init (h : c.TimesIn S) {t : ℚ} (ht : t ∈ S) (s : St A W X C) :
    (init K c t s).TimesIn S :=
  ⟨(Buf.KeysIn.clear c.states).insert ht _, Buf.KeysIn.clear c.meas, by simp [Core.init],
    TimesIn.out_snoc h.out ht⟩

end
end Core

/-- The time carried by a call. -/
def Api.time {A W X C M E : Type} : Api A W X C M E → ℚ
  | .init t _ => t
  | .imu t _ => t
  | .ext t _ _ => t
  | .meas m => m.time

namespace Core
variable {A W X C M T E : Type} {S : Set ℚ} {K : Kernel A W X C M T E}
  [AddCommGroup A] [Module ℚ A] [AddCommGroup W] [Module ℚ W]

theorem TimesIn.api {c : Core A W X C M T} (h : c.TimesIn S) (env : Env) {o : Api A W X C M E}
    (ho : o.time ∈ S) : Post (api env K c o) (TimesIn S) := by
  cases o with
  | init t s => exact Post.ok (h.init ho s)
  | imu t u => exact h.processIMU env ho u
  | ext t u e => exact h.processExternal env ho u e
  | meas m => exact h.addMeasurement env ho

theorem TimesIn.apis (env : Env) (os : List (Api A W X C M E)) : ∀ {c : Core A W X C M T}
    (_ : c.TimesIn S) (_ : ∀ o ∈ os, o.time ∈ S), Post (apis env K c os) (TimesIn S) := by
  induction os with
  | nil => intro c h _; exact Post.ok h
  | cons o os ih =>
    intro c h ho
    unfold Core.apis
    exact Post.bind fun c1 hc1 => ih (h.api env (ho o (List.mem_cons_self ..)) c1 hc1)
      fun o' ho' => ho o' (List.mem_cons_of_mem _ ho')

end Core
end MSF
