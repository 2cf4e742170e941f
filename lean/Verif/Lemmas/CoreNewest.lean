import Verif.Lemmas.CoreTimes
import Verif.Lemmas.SortedContainer

/-! The newest buffered state: only propagation changes its time, and every update is published with
it.  Also: what has been published stays. -/

namespace MSF

/-- An update was published. -/
def Event.isUpdate {X C : Type} : Event X C → Bool
  | .afterUpdate _ _ _ => true
  | _ => false

namespace Core
variable {A W X C M T E : Type}

/-- The newest state is the one at `t`; no measurement is newer; everything published after `l0`
has its time. -/
structure Newest (t : ℚ) (l0 : List (Event X C)) (c : Core A W X C M T) : Prop where
  sorted : SortedL c.states.nodes
  top : ∃ n ∈ c.states.nodes, n.key = t
  le : c.states.KeysIn (Set.Iic t)
  meas : c.meas.KeysIn (Set.Iic t)
  out : ∃ l, c.out = l0 ++ l ∧ ∀ e ∈ l, e.time = t

/-- The newest state of a sorted buffer. -/
theorem last_of_top {V : Type} {b : Buf V} {t : ℚ} (hs : SortedL b.nodes)
    (ht : ∃ n ∈ b.nodes, n.key = t) (hl : b.KeysIn (Set.Iic t)) : ∃ n, b.last = some n ∧ n.key = t := by
  obtain ⟨n, hn, rfl⟩ := ht
  have hne : b.nodes ≠ [] := List.ne_nil_of_mem hn
  refine ⟨b.nodes.getLast hne, List.getLast?_eq_some_getLast hne, ?_⟩
  refine le_antisymm (hl _ (List.getLast_mem hne)) ?_
  obtain ⟨l, e⟩ : ∃ l, b.nodes = l ++ [b.nodes.getLast hne] :=
    ⟨b.nodes.dropLast, (List.dropLast_append_getLast hne).symm⟩
  generalize b.nodes.getLast hne = m at e
  rw [e] at hn hs
  rcases List.mem_append.1 hn with hn | hn
  · exact (List.pairwise_append.1 hs).2.2 n hn m (by simp) |>.le
  · rw [List.mem_singleton.1 hn]

theorem top_modify {V : Type} {b : Buf V} {t : ℚ} (h : ∃ n ∈ b.nodes, n.key = t) (k : ℚ)
    (f : V → V) : ∃ n ∈ (b.modify k f).nodes, n.key = t := by
  obtain ⟨n, hn, rfl⟩ := h
  refine ⟨_, List.mem_map.2 ⟨n, hn, rfl⟩, ?_⟩
  split <;> rfl

theorem mem_insertNode {V : Type} (n : Node V) (l : List (Node V)) (m : Node V)
    (h : m = n ∨ m ∈ l) : m ∈ insertNode n l := by
  induction l with
  | nil => simpa [insertNode] using h
  | cons a l ih =>
    simp only [insertNode]
    split
    · simpa using h
    · rcases h with h | h
      · exact List.mem_cons_of_mem _ (ih (.inl h))
      · rcases List.mem_cons.1 h with h | h
        · rw [h]; exact List.mem_cons_self ..
        · exact List.mem_cons_of_mem _ (ih (.inr h))

theorem top_insert {V : Type} {b : Buf V} {t : ℚ} (h : ∃ n ∈ b.nodes, n.key = t) (k : ℚ)
    (v : V) : ∃ n ∈ (b.insert k v).1.nodes, n.key = t := by
  obtain ⟨n, hn, rfl⟩ := h
  refine ⟨n, ?_, rfl⟩
  simp only [Buf.insert]
  split
  · exact hn
  · exact mem_insertNode _ _ _ (.inr hn)

theorem top_insert_self {V : Type} (b : Buf V) (t : ℚ) (v : V) :
    ∃ n ∈ (b.insert t v).1.nodes, n.key = t := by
  simp only [Buf.insert]
  split
  · rename_i n hn
    refine ⟨n, List.mem_of_find?_eq_some hn, ?_⟩
    simpa using List.find?_some hn
  · exact ⟨_, mem_insertNode _ _ _ (.inl rfl), rfl⟩

section
variable {t : ℚ} {l0 : List (Event X C)} {c : Core A W X C M T} {K : Kernel A W X C M T E}

theorem Newest.predictCov (h : c.Newest t l0) (o n : Node (St A W X C)) :
    (predictCov K c o n).Newest t l0 := by
  unfold Core.predictCov
  split
  · exact h
  · exact ⟨Buf.sorted_modify h.sorted _ _, top_modify h.top _ _, h.le.modify _ _, h.meas, h.out⟩

theorem Newest.propagatePOneStep (h : c.Newest t l0) :
    Post (propagatePOneStep K c) (Newest t l0) := by
  unfold Core.propagatePOneStep
  refine Post.bind fun next _ => ?_
  split
  · exact Post.ret h
  · refine Post.bind fun o _ => Post.bind fun n _ => ?_
    have h' := h.predictCov (K := K) o n
    split
    · exact Post.ret h'
    · exact Post.ret ⟨h'.sorted, h'.top, h'.le, h'.meas, h'.out⟩

theorem Newest.propPLoop (s : ℚ) (fuel : Nat) : ∀ {c : Core A W X C M T} (_ : c.Newest t l0)
    (it itm : Iter), Post (propPLoop K s fuel c it itm) (Newest t l0) := by
  induction fuel with
  | zero => intro c _ it itm; exact Post.err
  | succ fuel ih =>
    intro c h it itm
    unfold Core.propPLoop
    split
    · exact Post.ok h
    · refine Post.bind fun n _ => ?_
      split
      · exact Post.bind fun m _ => Post.bind fun i _ => Post.bind fun j _ =>
          ih (h.predictCov m n) i j
      · exact Post.ret h

theorem Newest.propPToState (h : c.Newest t l0) (s : ℚ) :
    Post (propPToState K c s) (Newest t l0) := by
  unfold Core.propPToState
  exact Post.bind fun i _ => Newest.propPLoop s _ h _ _

theorem top_clearOlderThan {V : Type} {b : Buf V} {t : ℚ} (hs : SortedL b.nodes)
    (ht : ∃ n ∈ b.nodes, n.key = t) (hl : b.KeysIn (Set.Iic t)) (p : Plat) (age : ℚ) :
    Post (b.clearOlderThan p age) (fun b' => SortedL b'.nodes ∧ ∃ n ∈ b'.nodes, n.key = t) := by
  unfold Buf.clearOlderThan
  simp only
  split
  · exact Post.ret ⟨hs, ht⟩
  · refine Post.bind fun it _ => Post.bind fun n hn => Post.bind fun f _ => ?_
    split
    · refine Post.ret ⟨hs.sublist List.filter_sublist, ?_⟩
      obtain ⟨m, hm, rfl⟩ := ht
      exact ⟨m, List.mem_filter.2 ⟨hm, by simpa using hl.deref hn⟩, rfl⟩
    · exact Post.ret ⟨hs, ht⟩

theorem Newest.cleanUp (h : c.Newest t l0) (env : Env) : Post (cleanUp env c) (Newest t l0) := by
  unfold Core.cleanUp
  refine Post.bind fun s hs => Post.bind fun m hm => ?_
  have h1 := top_clearOlderThan h.sorted h.top h.le _ _ s hs
  exact Post.ret ⟨h1.1, h1.2, h.le.clearOlderThan _ _ s hs, h.meas.clearOlderThan _ _ m hm, h.out⟩

theorem Newest.propLoop (fuel : Nat) : ∀ {c : Core A W X C M T} (_ : c.Newest t l0)
    (cur next stop : Iter), Post (propLoop K fuel c cur next stop) (fun r => r.1.Newest t l0) := by
  induction fuel with
  | zero => intro c _ _ _ _; exact Post.err
  | succ fuel ih =>
    intro c h cur next stop
    unfold Core.propLoop
    split
    · exact Post.ok h
    · refine Post.bind fun a _ => Post.bind fun b _ => ?_
      split
      · exact Post.ret h
      · split
        · exact Post.ret h
        · refine Post.bind fun i _ => Post.bind fun j _ => ih ?_ i j stop
          exact ⟨Buf.sorted_modify h.sorted _ _, top_modify h.top _ _, h.le.modify _ _, h.meas, h.out⟩

theorem Newest.applyMeas (h : c.Newest t l0) (m : Meas M) (s : Node (St A W X C)) :
    (applyMeas K c m s).Newest t l0 := by
  unfold Core.applyMeas
  dsimp only
  split
  · exact ⟨Buf.sorted_modify h.sorted _ _, top_modify h.top _ _, h.le.modify _ _, h.meas, h.out⟩
  · exact ⟨h.sorted, h.top, h.le, h.meas, h.out⟩

theorem Newest.repropagate (h : c.Newest t l0) (k : ℚ) (it : Iter) :
    Post (repropagate K c k it) (fun r => r.1.Newest t l0) := by
  rw [repropagate_form]
  exact Post.bind fun a _ => Post.bind fun b _ => Newest.propLoop _ h _ _ _

theorem Newest.finishMeas (h : c.Newest t l0) : Post (finishMeas K c) (Newest t l0) := by
  unfold Core.finishMeas
  refine Post.bind fun c1 hc1 => ?_
  have h1 := h.propPToState _ c1 hc1
  split
  · exact Post.ret h1
  · rename_i n hn
    obtain ⟨n', e1, e2⟩ := last_of_top h1.sorted h1.top h1.le
    rw [hn] at e1
    cases e1
    obtain ⟨l, hl, hl'⟩ := h1.out
    refine Post.ret ⟨h1.sorted, h1.top, h1.le, h1.meas, l ++ [.afterUpdate n.key n.val.x n.val.P],
      by simp [hl], ?_⟩
    intro e he
    rcases List.mem_append.1 he with he | he
    · exact hl' e he
    · rw [List.mem_singleton.1 he]; exact e2

variable [AddCommGroup A] [Module ℚ A] [AddCommGroup W] [Module ℚ W]

theorem Newest.interpolate (h : c.Newest t l0) (n : Node (St A W X C)) {s : ℚ} (hs : s ≤ t) :
    (interpolate K c n s).1.Newest t l0 := by
  unfold Core.interpolate
  split
  · split
    · split
      · exact ⟨Buf.sorted_insert h.sorted _ _, top_insert h.top _ _,
          h.le.insert (Set.mem_Iic.2 hs) _, h.meas, h.out⟩
      · exact h
    · exact h
  · exact h

theorem Newest.getClosestState (h : c.Newest t l0) (env : Env) {s : ℚ} (hs : s ≤ t) :
    Post (getClosestState env K c s) (fun r => r.1.Newest t l0) := by
  unfold Core.getClosestState
  refine Post.bind fun it _ => Post.bind fun n _ => ?_
  split
  · exact Post.ret h
  · have h1 := h.interpolate (K := K) n hs
    generalize Core.interpolate K c n s = r at h1 ⊢
    obtain ⟨c1, i⟩ := r
    simp only at h1 ⊢
    refine Post.bind fun n1 _ => Post.bind fun c2 hc2 => Post.bind fun n2 hn2 => ?_
    have h2 := h1.propPToState _ c2 hc2
    split
    · split
      · refine Post.bind fun c3 hc3 => Post.ret ?_
        exact Newest.cleanUp (c := { c2 with janitor := 0 }) ⟨h2.sorted, h2.top, h2.le, h2.meas, h2.out⟩
            env c3 hc3
      · exact Post.ret ⟨h2.sorted, h2.top, h2.le, h2.meas, h2.out⟩
    · exact Post.ret h2

theorem Newest.measLoop (env : Env) (fuel : Nat) : ∀ {c : Core A W X C M T} (_ : c.Newest t l0)
    (it : Iter) (ap : Bool), Post (measLoop env K fuel c it ap) (fun r => r.1.Newest t l0) := by
  induction fuel with
  | zero => intro c _ _ _; exact Post.err
  | succ fuel ih =>
    intro c h it ap
    unfold Core.measLoop
    split
    · exact Post.ok h
    · refine Post.bind fun m hm => ?_
      split
      · exact Post.bind fun i _ => ih h i ap
      · refine Post.bind fun r hr => ?_
        have h1 := h.getClosestState env (h.meas.deref hm) r hr
        obtain ⟨c1, st⟩ := r
        simp only at h1 ⊢
        cases st with
        | none => exact Post.bind fun i _ => ih h1 i ap
        | some s =>
          simp only
          split
          · exact Post.bind fun i _ => ih h1 i ap
          · refine Post.bind fun m2 _ => Post.bind fun i _ => Post.bind fun r2 hr2 => ?_
            have h2 := (h1.applyMeas (K := K) m2.val s).repropagate s.key i r2 hr2
            split
            · exact Post.ret h2
            · exact ih h2 i true

theorem Newest.addMeasurement (h : c.Newest t l0) (env : Env) (m : Meas M) :
    Post (addMeasurement env K c m) (Newest t l0) := by
  unfold Core.addMeasurement
  split
  · exact Post.ret h
  · split
    · exact Post.ret ⟨h.sorted, h.top, h.le, h.meas, h.out⟩
    · rename_i hm
      split
      · exact Post.ret h
      · refine Post.bind fun r hr => ?_
        obtain ⟨c1, ap, ab⟩ := r
        have hmt : m.time ≤ t := by
          obtain ⟨n, e1, e2⟩ := last_of_top h.sorted h.top h.le
          rw [e1, timeOf, e2] at hm
          exact not_lt.1 hm
        have h1 := Newest.measLoop env _ (c := { c with meas := _, fuzzy := false })
          ⟨h.sorted, h.top, h.le, h.meas.insert (Set.mem_Iic.2 hmt) m, h.out⟩ _ _ _ hr
        dsimp only at h1 ⊢
        split
        · exact Post.ret h1
        · exact h1.finishMeas

theorem Newest.handlePending (h : c.Newest t l0) (env : Env) :
    Post (handlePending env K c) (Newest t l0) := by
  unfold Core.handlePending
  split
  · exact Post.ok h
  · refine Newest.addMeasurement ?_ env _
    exact ⟨h.sorted, h.top, h.le, h.meas, h.out⟩

end
end Core
end MSF
