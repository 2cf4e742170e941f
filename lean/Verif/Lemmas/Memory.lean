import Verif.Lemmas.Stamps
import Verif.Props.SortedContainer

/-! What clean-up leaves, through whole runs: each published update counts towards the next clean-up,
and a clean-up leaves at most one object older than 60 s. -/

namespace MSF

/-- Number of objects older than `T - 60`. -/
def Buf.old {V : Type} (T : ℚ) (b : Buf V) : Nat := (b.nodes.filter (fun n => n.key < T - 60)).length

namespace Buf
variable {V : Type} {b : Buf V} {T : ℚ}

theorem old_modify (k : ℚ) (f : V → V) : (b.modify k f).old T = b.old T := by
  unfold old modify
  rw [List.filter_map, List.length_map]
  congr 2
  funext n
  simp only [Function.comp]
  split <;> rfl

theorem old_insertNode (n : Node V) (l : List (Node V)) (hn : ¬ n.key < T - 60) :
    ((insertNode n l).filter (fun n => n.key < T - 60)).length =
      (l.filter (fun n => n.key < T - 60)).length := by
  induction l with
  | nil => simpa [insertNode] using not_lt.1 hn
  | cons a l ih =>
    simp only [insertNode]
    split
    · rw [List.filter_cons]
      simp [hn]
    · rw [List.filter_cons, List.filter_cons]
      split <;> simp [ih]

theorem old_insert {t : ℚ} (ht : T - 60 ≤ t) (v : V) : (b.insert t v).1.old T = b.old T := by
  unfold Buf.insert
  split
  · rfl
  · exact old_insertNode _ _ (not_lt.2 ht)

theorem old_of_sublist {b' : Buf V} (h : b'.nodes.Sublist b.nodes) : b'.old T ≤ b.old T :=
  (h.filter _).length_le

theorem old_updateTime (told : ℚ) {tnew : ℚ} (ht : T - 60 ≤ tnew) :
    (b.updateTime told tnew).1.old T ≤ b.old T := by
  unfold Buf.updateTime
  split
  · exact le_rfl
  · simp only [old_insert ht]
    exact old_of_sublist List.filter_sublist

/-- Some object is not older than `T`. -/
def Reaches (T : ℚ) (b : Buf V) : Prop := ∃ n ∈ b.nodes, T ≤ n.key

theorem Reaches.modify (h : b.Reaches T) (k : ℚ) (f : V → V) : (b.modify k f).Reaches T := by
  obtain ⟨n, hn, ht⟩ := h
  obtain ⟨m, hm, e⟩ := Core.top_modify ⟨n, hn, rfl⟩ k f
  exact ⟨m, hm, e ▸ ht⟩

theorem Reaches.insert (h : b.Reaches T) (k : ℚ) (v : V) : (b.insert k v).1.Reaches T := by
  obtain ⟨n, hn, ht⟩ := h
  obtain ⟨m, hm, e⟩ := Core.top_insert ⟨n, hn, rfl⟩ k v
  exact ⟨m, hm, e ▸ ht⟩

theorem Reaches.updateTime (h : b.Reaches T) (told : ℚ) {tnew : ℚ} (ht : T ≤ tnew) :
    (b.updateTime told tnew).1.Reaches T := by
  unfold Buf.updateTime
  split
  · exact h
  · obtain ⟨m, hm, e⟩ := Core.top_insert_self
      ({ b with nodes := b.nodes.filter _ } : Buf V) tnew _
    exact ⟨m, hm, e.symm ▸ ht⟩

/-- A clean-up leaves at most one object older than 60 s before `T`, if the buffer reaches `T`. -/
theorem clean (hs : SortedL b.nodes) (p : Plat) :
    Post (b.clearOlderThan p 60) (fun b' => SortedL b'.nodes ∧ (b.Reaches T → b'.old T ≤ 1) ∧
      b'.old T ≤ b.old T) := by
  intro b' h
  by_cases hne : b.nodes = []
  · -- an empty buffer stays empty
    have h0 : b' = b := by
      unfold Buf.clearOlderThan at h
      simp only [Buf.last, Buf.first, hne, List.getLast?_nil, List.head?_nil, sub_self] at h
      rw [if_pos (by norm_num)] at h
      cases h; rfl
    subst h0
    refine ⟨hs, fun hr => ?_, le_rfl⟩
    obtain ⟨n, hn, -⟩ := hr
    rw [hne] at hn; cases hn
  · obtain ⟨h1, -, -, h4⟩ := C05_cleanup_keeps_recent p b b' hs 60 (by norm_num) (b.nodes.getLast hne)
      (List.getLast?_eq_some_getLast hne) h
    refine ⟨hs.sublist h1.sublist, ?_, old_of_sublist h1.sublist⟩
    rintro ⟨n, hn, ht⟩
    refine le_trans (List.Sublist.length_le ?_) h4
    have hle : n.key ≤ (b.nodes.getLast hne).key := by
      obtain ⟨l, e⟩ : ∃ l, b.nodes = l ++ [b.nodes.getLast hne] :=
        ⟨b.nodes.dropLast, (List.dropLast_append_getLast hne).symm⟩
      generalize b.nodes.getLast hne = m at e ⊢
      rw [e] at hn hs
      rcases List.mem_append.1 hn with hn | hn
      · exact (List.pairwise_append.1 hs).2.2 n hn m (by simp) |>.le
      · rw [List.mem_singleton.1 hn]
    refine List.monotone_filter_right _ ?_
    intro m hm
    simp only [decide_eq_true_eq] at hm ⊢
    linarith

end Buf

namespace Core
variable {A W X C M T E : Type}

/-- Number of published updates. -/
def updatesOut (l : List (Event X C)) : Nat := (l.filter Event.isUpdate).length

/-- What is known about the buffers between two published updates: they are in order; the clean-up
counter is at most 101; and, where `P` holds, each buffer has at most one old object or reaches its
threshold while the counter has advanced to `j`.  Where `Q` holds, no measurement is older than `T - 60`. -/
structure Kept (P Q : Prop) (T S : ℚ) (j : Nat) (l0 : List (Event X C)) (c : Core A W X C M T') :
    Prop where
  ss : SortedL c.states.nodes
  sm : SortedL c.meas.nodes
  jan : c.janitor ≤ 101
  queue : P → ∀ m ∈ c.queue, T - 60 ≤ m.time ∧ S - 60 ≤ m.time
  st : P → c.states.old T ≤ 1 ∨ (c.states.Reaches T ∧ j ≤ c.janitor)
  me : P → c.meas.old S ≤ 1 ∨ (c.meas.Reaches S ∧ j ≤ c.janitor)
  mt : Q → P → ∀ n ∈ c.meas.nodes, T - 60 ≤ n.key
  out : c.out = l0

section
variable {P Q : Prop} {T' S : ℚ} {j : Nat} {l0 : List (Event X C)} {c : Core A W X C M T}
  {K : Kernel A W X C M T E}

theorem Kept.mono {j' : Nat} (h : c.Kept P Q T' S j l0) (hj : j' ≤ j) : c.Kept P Q T' S j' l0 :=
  ⟨h.ss, h.sm, h.jan, h.queue, fun p => (h.st p).imp_right fun ⟨a, b⟩ => ⟨a, hj.trans b⟩,
    fun p => (h.me p).imp_right fun ⟨a, b⟩ => ⟨a, hj.trans b⟩, h.mt, h.out⟩

/-- Changing values of states. -/
theorem Kept.modify (h : c.Kept P Q T' S j l0) (k : ℚ) (f : St A W X C → St A W X C) (tp : ℚ) (tr : T)
    (fz : Bool) :
    ({ c with states := c.states.modify k f, tP := tp, tracker := tr, fuzzy := fz } :
      Core A W X C M T).Kept P Q T' S j l0 :=
  ⟨Buf.sorted_modify h.ss _ _, h.sm, h.jan, h.queue,
    fun p => by
      rcases h.st p with h | ⟨h, hj⟩
      · exact .inl (by simpa [Buf.old_modify] using h)
      · exact .inr ⟨h.modify _ _, hj⟩, h.me, h.mt, h.out⟩

theorem Kept.predictCov (h : c.Kept P Q T' S j l0) (o n : Node (St A W X C)) :
    (predictCov K c o n).Kept P Q T' S j l0 := by
  unfold Core.predictCov
  split
  · exact h
  · exact h.modify _ _ _ _ _

theorem Kept.propagatePOneStep (h : c.Kept P Q T' S j l0) :
    Post (propagatePOneStep K c) (Kept P Q T' S j l0) := by
  unfold Core.propagatePOneStep
  refine Post.bind fun next _ => ?_
  split
  · exact Post.ret h
  · refine Post.bind fun o _ => Post.bind fun n _ => ?_
    have h' := h.predictCov (K := K) o n
    split
    · exact Post.ret h'
    · exact Post.ret ⟨h'.ss, h'.sm, h'.jan, h'.queue, h'.st, h'.me, h'.mt, h'.out⟩

theorem Kept.propPLoop (s : ℚ) (fuel : Nat) : ∀ {c : Core A W X C M T} (_ : c.Kept P Q T' S j l0)
    (it itm : Iter), Post (propPLoop K s fuel c it itm) (Kept P Q T' S j l0) := by
  induction fuel with
  | zero => intro c _ it itm; exact Post.err
  | succ fuel ih =>
    intro c h it itm
    unfold Core.propPLoop
    split
    · exact Post.ok h
    · refine Post.bind fun n _ => ?_
      split
      · exact Post.bind fun m _ => Post.bind fun i _ => Post.bind fun k _ =>
          ih (h.predictCov m n) i k
      · exact Post.ret h

theorem Kept.propPToState (h : c.Kept P Q T' S j l0) (s : ℚ) :
    Post (propPToState K c s) (Kept P Q T' S j l0) := by
  unfold Core.propPToState
  exact Post.bind fun i _ => Kept.propPLoop s _ h _ _

theorem Kept.propLoop (fuel : Nat) : ∀ {c : Core A W X C M T} (_ : c.Kept P Q T' S j l0)
    (cur next stop : Iter), Post (propLoop K fuel c cur next stop) (fun r => r.1.Kept P Q T' S j l0) := by
  induction fuel with
  | zero => intro c _ _ _ _; exact Post.err
  | succ fuel ih =>
    intro c h cur next stop
    unfold Core.propLoop
    split
    · exact Post.ok h
    · refine Post.bind fun a _ => Post.bind fun b _ => ?_
      split
      · exact Post.ret h
      · split
        · exact Post.ret h
        · exact Post.bind fun i _ => Post.bind fun k _ => ih (h.modify _ _ _ _ _) i k stop

theorem Kept.applyMeas (h : c.Kept P Q T' S j l0) (m : Meas M) (s : Node (St A W X C)) :
    (applyMeas K c m s).Kept P Q T' S j l0 := by
  unfold Core.applyMeas
  dsimp only
  split
  · exact h.modify _ _ _ _ _
  · exact ⟨h.ss, h.sm, h.jan, h.queue, h.st, h.me, h.mt, h.out⟩

theorem Kept.repropagate (h : c.Kept P Q T' S j l0) (k : ℚ) (it : Iter) :
    Post (repropagate K c k it) (fun r => r.1.Kept P Q T' S j l0) := by
  rw [repropagate_form]
  exact Post.bind fun a _ => Post.bind fun b _ => Kept.propLoop _ h _ _ _

/-- A clean-up: at most one old object is left in each buffer, whatever the counter. -/
theorem Kept.cleanUp (h : c.Kept P Q T' S j l0) (env : Env) {j' : Nat} :
    Post (cleanUp env { c with janitor := 0 }) (Kept P Q T' S j' l0) := by
  unfold Core.cleanUp
  refine Post.bind fun s hs => Post.bind fun m hm => ?_
  obtain ⟨a1, a2, a3⟩ := Buf.clean (T := T') h.ss _ s hs
  obtain ⟨b1, b2, b3⟩ := Buf.clean (T := S) h.sm _ m hm
  refine Post.ret ⟨a1, b1, Nat.zero_le _, h.queue, fun p => .inl ?_, fun p => .inl ?_,
    fun q p => Buf.KeysIn.clearOlderThan (S := Set.Ici (T' - 60)) (h.mt q p) _ _ m hm, h.out⟩
  · rcases h.st p with h | ⟨h, -⟩
    · exact a3.trans h
    · exact a2 h
  · rcases h.me p with h | ⟨h, -⟩
    · exact b3.trans h
    · exact b2 h

theorem Kept.insert (h : c.Kept P Q T' S j l0) {t : ℚ} (ht : P → T' - 60 ≤ t) (s : St A W X C) (tp : ℚ)
    (it : Iter) :
    ({ c with states := (c.states.insert t s).1, tP := tp, itImu := it } :
      Core A W X C M T).Kept P Q T' S j l0 :=
  ⟨Buf.sorted_insert h.ss _ _, h.sm, h.jan, h.queue, fun p => by
    rcases h.st p with h | ⟨h, hj⟩
    · exact .inl (by rw [Buf.old_insert (ht p)]; exact h)
    · exact .inr ⟨h.insert _ _, hj⟩, h.me, h.mt, h.out⟩

variable [AddCommGroup A] [Module ℚ A] [AddCommGroup W] [Module ℚ W]

theorem Kept.interpolate (h : c.Kept P Q T' S j l0) (n : Node (St A W X C)) {s : ℚ}
    (hs : P → T' - 60 ≤ s) : (interpolate K c n s).1.Kept P Q T' S j l0 := by
  unfold Core.interpolate
  split
  · split
    · split
      · exact h.insert hs _ _ _
      · exact h
    · exact h
  · exact h

theorem Kept.getClosestState (h : c.Kept P Q T' S j l0) (env : Env) {s : ℚ} (hs : P → T' - 60 ≤ s) :
    Post (getClosestState env K c s) (fun r => r.1.Kept P Q T' S (if r.2.isSome then j + 1 else j) l0) := by
  unfold Core.getClosestState
  refine Post.bind fun it _ => Post.bind fun n _ => ?_
  split
  · exact Post.ret h
  · have h1 := h.interpolate (K := K) n hs
    generalize Core.interpolate K c n s = r at h1 ⊢
    obtain ⟨c1, i⟩ := r
    simp only at h1 ⊢
    refine Post.bind fun n1 _ => Post.bind fun c2 hc2 => Post.bind fun n2 hn2 => ?_
    have h2 := h1.propPToState _ c2 hc2
    split
    · split
      · refine Post.bind fun c3 hc3 => Post.ret ?_
        exact h2.cleanUp env c3 hc3
      · rename_i hj
        refine Post.ret ⟨h2.ss, h2.sm, ?_, h2.queue, ?_, ?_, h2.mt, h2.out⟩
        · change c2.janitor + 1 ≤ 101
          omega
        · exact fun p => (h2.st p).imp_right fun ⟨a, b⟩ => ⟨a, Nat.succ_le_succ b⟩
        · exact fun p => (h2.me p).imp_right fun ⟨a, b⟩ => ⟨a, Nat.succ_le_succ b⟩
    · exact Post.ret h2

/-- Going to the next measurement goes to a later one. -/
theorem incr_later {V : Type} {b : Buf V} {it i : Iter} {u : ℚ} (h : ∀ k n, it = .at k n → u ≤ k)
    (hi : b.incr it = .ok i) : ∀ k n, i = .at k n → u ≤ k := by
  cases it with
  | fin => cases hi
  | «at» k0 n0 =>
    simp only [Buf.incr] at hi
    intro k n hk
    subst hk
    cases hd : b.deref (.at k0 n0) with
    | error e => rw [hd] at hi; cases hi
    | ok m =>
      rw [hd] at hi
      have hm : m.key = k0 := by
        simp only [Buf.deref] at hd
        split at hd
        · cases hd
        · rename_i m' hm'
          split at hd
          · cases hd; simpa using List.find?_some hm'
          · cases hd
      change (pure (Buf.toIter (b.upperBound m.key)) : Except UB Iter) = _ at hi
      cases hu : b.upperBound m.key with
      | none => rw [hu] at hi; cases hi
      | some q =>
        rw [hu] at hi
        cases hi
        have : m.key < q.key := by simpa using List.find?_some hu
        have := h k0 n0 rfl
        linarith

theorem deref_key {V : Type} {b : Buf V} {it : Iter} {n : Node V} (hd : b.deref it = .ok n) :
    ∃ i, it = .at n.key i := by
  cases it with
  | fin => cases hd
  | «at» k i =>
    simp only [Buf.deref] at hd
    split at hd
    · cases hd
    · rename_i m' hm'
      split at hd
      · cases hd
        have : n.key = k := by simpa using List.find?_some hm'
        exact ⟨i, by rw [this]⟩
      · cases hd

theorem Kept.measLoop (env : Env) (fuel : Nat) : ∀ {c : Core A W X C M T} (it : Iter) (ap : Bool)
    (_ : c.Kept P Q T' S (if ap then j + 1 else j) l0) (_ : P → ∀ k n, it = .at k n → T' - 60 ≤ k),
    Post (measLoop env K fuel c it ap)
      (fun r => r.1.Kept P Q T' S (if r.2.1 then j + 1 else j) l0) := by
  induction fuel with
  | zero => intro c _ _ _ _; exact Post.err
  | succ fuel ih =>
    intro c it ap h hit
    unfold Core.measLoop
    split
    · exact Post.ok h
    · refine Post.bind fun m hm => ?_
      split
      · exact Post.bind fun i hi => ih i ap h fun p => incr_later (hit p) hi
      · refine Post.bind fun r hr => ?_
        obtain ⟨i0, hk⟩ := deref_key hm
        have h1 := h.getClosestState env (fun p => hit p _ _ hk) r hr
        obtain ⟨c1, st⟩ := r
        simp only at h1 ⊢
        cases st with
        | none => exact Post.bind fun i hi => ih i ap h1 fun p => incr_later (hit p) hi
        | some s =>
          simp only
          have h1' : c1.Kept P Q T' S (j + 1) l0 := by
            refine h1.mono ?_
            simp only [Option.isSome_some, if_true]
            split <;> omega
          split
          · refine Post.bind fun i hi => ih i ap ?_ fun p => incr_later (hit p) hi
            refine h1'.mono ?_
            split <;> omega
          · refine Post.bind fun m2 _ => Post.bind fun i hi => Post.bind fun r2 hr2 => ?_
            have h2 := (h1'.applyMeas (K := K) m2.val s).repropagate s.key i r2 hr2
            split
            · exact Post.ret h2
            · exact ih i true h2 fun p => incr_later (hit p) hi

theorem updatesOut_append (l l' : List (Event X C)) :
    updatesOut (l ++ l') = updatesOut l + updatesOut l' := by
  simp [updatesOut]

/-- The invariant between calls: the counter has advanced at least once for every update published
after the first `base`, unless the buffer is clean. -/
def Tidy (P Q : Prop) (T' S : ℚ) (base : Nat) (c : Core A W X C M T) : Prop :=
  c.Kept P Q T' S (updatesOut c.out - base) c.out

variable {base : Nat}

theorem Kept.finishMeas (h : c.Kept P Q T' S (updatesOut c.out - base + 1) c.out) :
    Post (finishMeas K c) (Tidy P Q T' S base) := by
  unfold Core.finishMeas
  refine Post.bind fun c1 hc1 => ?_
  have h1 := h.propPToState _ c1 hc1
  split
  · refine Post.ret ?_
    have := h1.mono (Nat.le_succ _)
    rw [← h1.out] at this
    exact this
  · have h2 := h1
    rw [← h1.out] at h2
    refine Post.ret ?_
    refine Kept.mono (j := updatesOut c1.out - base + 1) ⟨h2.ss, h2.sm, h2.jan, h2.queue, h2.st, h2.me, h2.mt, rfl⟩ ?_
    simp only [updatesOut_append]
    rename_i n _
    have e : updatesOut [(Event.afterUpdate n.key n.val.x n.val.P : Event X C)] = 1 := rfl
    omega

theorem Tidy.addMeasurement (h : c.Tidy P Q T' S base) (env : Env) (m : Meas M)
    (hm : P → T' - 60 ≤ m.time ∧ S - 60 ≤ m.time) :
    Post (addMeasurement env K c m) (Tidy P Q T' S base) := by
  unfold Core.addMeasurement
  split
  · exact Post.ret h
  · split
    · refine Post.ret ⟨h.ss, h.sm, h.jan, fun p q hq => ?_, h.st, h.me, h.mt, rfl⟩
      rcases List.mem_append.1 hq with hq | hq
      · exact h.queue p q hq
      · rw [List.mem_singleton.1 hq]; exact hm p
    · split
      · exact Post.ret h
      · refine Post.bind fun r hr => ?_
        obtain ⟨c1, ap, ab⟩ := r
        have h1 := Kept.measLoop (j := updatesOut c.out - base) (P := P) (Q := Q) (T' := T') (S := S)
          (l0 := c.out) env _ (c := { c with meas := (c.meas.insert m.time m).1, fuzzy := false })
          (c.meas.insert m.time m).2 false
          ⟨h.ss, Buf.sorted_insert h.sm _ _, h.jan, h.queue, h.st, fun p => by
            rcases h.me p with h | ⟨h, hj⟩
            · exact .inl (by
                change ((c.meas.insert m.time m).1).old S ≤ 1
                rw [Buf.old_insert (hm p).2]; exact h)
            · exact .inr ⟨h.insert _ _, hj⟩,
            fun q p => Buf.KeysIn.insert (S := Set.Ici (T' - 60)) (h.mt q p) (hm p).1 m, rfl⟩
          (fun p k n hk => by
            have : k = m.time := by
              unfold Buf.insert at hk
              split at hk
              · rename_i n' hn'
                have := List.find?_some hn'
                simp only [Node.iter, Iter.at.injEq] at hk
                rw [← hk.1]; simpa using this
              · simp only [Node.iter, Iter.at.injEq] at hk
                exact hk.1.symm
            rw [this]; exact (hm p).1) _ hr
        have hout := h1.out
        dsimp only at h1 hout ⊢
        split
        · refine Post.ret ?_
          unfold Tidy
          rw [hout]
          refine h1.mono ?_
          split <;> omega
        · rename_i hab
          have hap : ap = true := by
            by_contra hcon
            exact hab (.inr (by simpa using hcon))
          subst hap
          simp only [if_true] at h1
          rw [← hout] at h1
          exact h1.finishMeas

theorem Tidy.handlePending (h : c.Tidy P Q T' S base) (env : Env) :
    Post (handlePending env K c) (Tidy P Q T' S base) := by
  unfold Core.handlePending
  split
  · exact Post.ok h
  · rename_i m q hq
    refine Tidy.addMeasurement ?_ env _ fun p => h.queue p m (by rw [hq]; exact List.mem_cons_self ..)
    exact ⟨h.ss, h.sm, h.jan, fun p n hn => h.queue p n (by rw [hq]; exact List.mem_cons_of_mem _ hn),
      h.st, h.me, h.mt, rfl⟩

/-- Publishing a propagated state is no update. -/
theorem Kept.propagated (h : c.Kept P Q T' S (updatesOut l0 - base) l0) (t : ℚ) (x : X) (P' : C)
    (b : Bool) :
    ({ c with out := c.out ++ [.afterPropagation t x P'], predMade := b } :
      Core A W X C M T).Tidy P Q T' S base := by
  have h' := h
  rw [← h.out] at h'
  have e : updatesOut (c.out ++ [.afterPropagation t x P']) = updatesOut c.out := by
    rw [updatesOut_append]; rfl
  unfold Tidy
  dsimp only
  rw [e]
  exact ⟨h'.ss, h'.sm, h'.jan, h'.queue, h'.st, h'.me, h'.mt, rfl⟩

theorem Tidy.imuPropagate (h : c.Tidy P Q T' S base) (env : Env) (last : Node (St A W X C)) {t : ℚ}
    (ht : P → T' ≤ t) (u : Input A W) : Post (imuPropagate env K c last t u) (Tidy P Q T' S base) := by
  rw [imuPropagate_form]
  refine Post.bind fun c1 hc1 => Post.bind fun cur _ => ?_
  have h0 : c.Kept P Q T' S (updatesOut c.out - base) c.out := h
  have h1 := (h0.insert (t := t) (fun p => by have := ht p; linarith) (imuState K last t u) c.tP
    (c.states.insert t (imuState K last t u)).2).propagatePOneStep (K := K) c1 hc1
  unfold imuEnd
  split
  · exact Tidy.handlePending (h1.propagated _ _ _ _) env
  · exact Post.ok (h1.propagated _ _ _ _)

theorem Tidy.extEnd (h : c.Tidy P Q T' S base) (env : Env) {t : ℚ} (ht : P → T' ≤ t) (s : St A W X C) :
    Post (extEnd env K c t s) (Tidy P Q T' S base) := by
  unfold Core.extEnd
  refine Post.bind fun c1 hc1 => Post.bind fun cur _ => ?_
  have h0 : c.Kept P Q T' S (updatesOut c.out - base) c.out := h
  have h1 := (h0.insert (t := t) (fun p => by have := ht p; linarith) s c.tP
    c.itImu).propagatePOneStep (K := K) c1 hc1
  exact Tidy.handlePending (h1.propagated _ _ _ _) env

theorem Tidy.updateTime (h : c.Tidy P Q T' S base) {t : ℚ} (ht : P → T' ≤ t) (k tp : ℚ) (a b : A)
    (it : Iter) :
    ({ c with states := (c.states.updateTime k t).1, tP := tp, lastAmImu := a, lastAmExt := b,
              itImu := it } : Core A W X C M T).Tidy P Q T' S base :=
  ⟨sorted_updateTime h.ss _ _, h.sm, h.jan, h.queue, fun p => by
    rcases h.st p with h | ⟨h, hj⟩
    · exact .inl ((Buf.old_updateTime _ (by have := ht p; linarith)).trans h)
    · exact .inr ⟨h.updateTime _ (ht p), hj⟩, h.me, h.mt, rfl⟩

theorem Tidy.api (h : c.Tidy P Q T' S base) (env : Env) (o : Api A W X C M E)
    (ho : P → ∀ t, o.clock = some t → T' ≤ t)
    (hm : P → ∀ m, o = .meas m → T' - 60 ≤ m.time ∧ S - 60 ≤ m.time) :
    Post (api env K c o) (Tidy P Q T' S base) := by
  cases o with
  | init t s =>
    refine Post.ok ?_
    refine ⟨Buf.sorted_insert (b := c.states.clear) List.Pairwise.nil _ _, List.Pairwise.nil, h.jan,
      by simp [Core.init], fun p => .inl ?_, fun p => .inl (by simp [Core.init, Buf.clear, Buf.old]),
      by simp [Core.init, Buf.clear], rfl⟩
    change (c.states.clear.insert t s).1.old T' ≤ 1
    rw [Buf.old_insert (by have := ho p t rfl; linarith)]
    simp [Buf.clear, Buf.old]
  | imu t u =>
    have ht : P → T' ≤ t := fun p => ho p t rfl
    change Post (processIMU env K c t u) _
    rw [processIMU_form]
    split
    · exact Post.ok h
    · refine Post.bind fun it _ => Post.bind fun last _ => ?_
      unfold imuBody
      split
      · exact Post.ok ⟨h.ss, h.sm, h.jan, h.queue, h.st, h.me, h.mt, rfl⟩
      · split
        · exact Post.ok ⟨h.ss, h.sm, h.jan, h.queue, h.st, h.me, h.mt, rfl⟩
        · split
          · exact Post.ok (h.updateTime ht _ _ _ _ _)
          · refine Tidy.imuPropagate ?_ env _ ht _
            exact ⟨h.ss, h.sm, h.jan, h.queue, h.st, h.me, h.mt, rfl⟩
  | ext t u e =>
    have ht : P → T' ≤ t := fun p => ho p t rfl
    change Post (processExternal env K c t u e) _
    rw [processExternal_form]
    split
    · exact Post.ok h
    · split
      · exact Post.ok h
      · split
        · exact Post.ok h
        · split
          · exact Post.ok (h.updateTime ht _ _ _ _ _)
          · split
            · refine Tidy.extEnd ?_ env ht _
              exact ⟨List.Pairwise.nil, List.Pairwise.nil, h.jan, by simp,
                fun _ => .inl (by simp [Buf.clear, Buf.old]), fun _ => .inl (by simp [Buf.clear, Buf.old]),
                by simp [Buf.clear], rfl⟩
            · refine Tidy.extEnd ?_ env ht _
              exact ⟨h.ss, h.sm, h.jan, h.queue, h.st, h.me, h.mt, rfl⟩
  | meas m => exact h.addMeasurement env m fun p => hm p m rfl

theorem Tidy.apis (env : Env) (os : List (Api A W X C M E)) : ∀ {c : Core A W X C M T}
    (_ : c.Tidy P Q T' S base) (_ : P → ∀ o ∈ os, ∀ t, o.clock = some t → T' ≤ t)
    (_ : P → ∀ o ∈ os, ∀ m, o = .meas m → T' - 60 ≤ m.time ∧ S - 60 ≤ m.time),
    Post (apis env K c os) (Tidy P Q T' S base) := by
  induction os with
  | nil => intro c h _ _; exact Post.ok h
  | cons o os ih =>
    intro c h h1 h2
    unfold Core.apis
    exact Post.bind fun c1 hc1 => ih
      (h.api env o (fun p => h1 p o (List.mem_cons_self ..)) (fun p => h2 p o (List.mem_cons_self ..))
        c1 hc1)
      (fun p o' ho' => h1 p o' (List.mem_cons_of_mem _ ho'))
      (fun p o' ho' => h2 p o' (List.mem_cons_of_mem _ ho'))

end

section
variable {A W X C M T E : Type}

/-- Propagation with an IMU reading leaves the filter initialised. -/
theorem imu_keeps_inited [AddCommGroup A] [Module ℚ A] [AddCommGroup W] [Module ℚ W] (env : Env) (K : Kernel A W X C M T E) (hnum : ∀ x, K.numPos x = true)
    (c : Core A W X C M T) (hq : c.queue = []) (t : ℚ) (u : Input A W) (last : Node (St A W X C)) :
    Post (Core.imuPropagate env K c last t u) (fun c' => c'.inited = c.inited) := by
  rw [imuPropagate_form]
  refine Post.bind fun c1 hc1 => Post.bind fun cur _ => ?_
  have h1 : c1.inited = c.inited ∧ c1.queue = c.queue := by
    revert hc1
    generalize hc0 : ({ c with states := _, itImu := _ } : Core A W X C M T) = c0
    have hi : c0.inited = c.inited ∧ c0.queue = c.queue := by rw [← hc0]; exact ⟨rfl, rfl⟩
    rw [← hi.1, ← hi.2]
    suffices Post (Core.propagatePOneStep K c0) (fun c1 => c1.inited = c0.inited ∧
      c1.queue = c0.queue) from this c1
    unfold Core.propagatePOneStep
    refine Post.bind fun next _ => ?_
    split
    · exact Post.ret ⟨rfl, rfl⟩
    · refine Post.bind fun o _ => Post.bind fun n _ => ?_
      rw [if_pos (hnum _)]
      refine Post.ret ?_
      unfold Core.predictCov
      split <;> exact ⟨rfl, rfl⟩
  unfold Core.imuEnd
  split
  · unfold Core.handlePending
    simp only [h1.2, hq]
    exact Post.ok h1.1
  · exact Post.ok h1.1

end
end Core
end MSF
