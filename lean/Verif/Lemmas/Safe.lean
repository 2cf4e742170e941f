import Verif.Lemmas.FlowInv
import Verif.Lemmas.FlowAbs
import Verif.Lemmas.Sweep2

/-!
Total correctness of the core for an arbitrary numerical kernel: each function reaches its end, and what it
leaves of the buffers.
-/

namespace MSF

/-- `x` succeeds with a result that satisfies `Q`. -/
def Tot {α : Type} (x : Except UB α) (Q : α → Prop) : Prop := ∃ a, x = .ok a ∧ Q a

namespace Tot
variable {α β : Type}

theorem ok {a : α} {Q : α → Prop} (h : Q a) : Tot (.ok a) Q := ⟨a, rfl, h⟩

theorem ret {a : α} {Q : α → Prop} (h : Q a) : Tot (pure a : Except UB α) Q := ⟨a, rfl, h⟩

theorem of_eq {x : Except UB α} {a : α} (h : x = .ok a) : Tot x (fun b => b = a) := ⟨a, h, rfl⟩

theorem bind {x : Except UB α} {k : α → Except UB β} {P : α → Prop} {Q : β → Prop}
    (h : Tot x P) (hk : ∀ a, P a → Tot (k a) Q) : Tot (x >>= k) Q := by
  obtain ⟨a, rfl, ha⟩ := h
  exact hk a ha

theorem bind_eq {x : Except UB α} {k : α → Except UB β} {a : α} {Q : β → Prop}
    (h : x = .ok a) (hk : Tot (k a) Q) : Tot (x >>= k) Q := by
  rw [h]; exact hk

theorem mono {x : Except UB α} {P Q : α → Prop} (h : Tot x P) (hq : ∀ a, P a → Q a) : Tot x Q := by
  obtain ⟨a, rfl, ha⟩ := h
  exact ⟨a, rfl, hq a ha⟩

end Tot

/-! ### Nodes up to their values -/

theorem split_of_map {α β : Type} {g : α → β} {l A B : List α} {a : α}
    (h : l.map g = (A ++ a :: B).map g) :
    ∃ A' a' B', l = A' ++ a' :: B' ∧ A'.map g = A.map g ∧ g a' = g a ∧ B'.map g = B.map g := by
  rw [List.map_append, List.map_cons] at h
  obtain ⟨A', R, rfl, h1, h2⟩ := List.map_eq_append_iff.1 h
  obtain ⟨a', B', rfl, h3, h4⟩ := List.map_eq_cons_iff.1 h2
  exact ⟨A', a', B', rfl, h1, h3, h4⟩

/-- Key and identity of a node. -/
def Node.tag {V : Type} (n : Node V) : ℚ × Nat := (n.key, n.id)

/-- Key, identity and mean of a state. -/
def Node.skel {A W X C : Type} (n : Node (St A W X C)) : ℚ × Nat × X := (n.key, n.id, n.val.x)

section
variable {V : Type} {l l' : List (Node V)}

theorem keys_of_tag (h : l.map Node.tag = l'.map Node.tag) : l.map Node.key = l'.map Node.key := by
  have := congrArg (List.map Prod.fst) h
  simpa [List.map_map, Function.comp_def, Node.tag] using this

theorem iter_of_tag {a b : Node V} (h : a.tag = b.tag) : a.iter = b.iter ∧ a.key = b.key := by
  simp only [Node.tag, Prod.mk.injEq] at h
  exact ⟨by rw [Node.iter, Node.iter, h.1, h.2], h.1⟩

theorem head_of_tag (h : l.map Node.tag = l'.map Node.tag) :
    Buf.toIter l.head? = Buf.toIter l'.head? := by
  cases l with
  | nil =>
    cases l' with
    | nil => rfl
    | cons b l' => simp at h
  | cons a l =>
    cases l' with
    | nil => simp at h
    | cons b l' =>
      simp only [List.map_cons, List.cons.injEq] at h
      exact (iter_of_tag h.1).1

theorem mem_of_tag (h : l.map Node.tag = l'.map Node.tag) {n : Node V} (hn : n ∈ l) :
    ∃ n' ∈ l', n'.iter = n.iter ∧ n'.key = n.key := by
  have : n.tag ∈ l'.map Node.tag := by rw [← h]; exact List.mem_map_of_mem hn
  obtain ⟨n', hn', e⟩ := List.mem_map.1 this
  exact ⟨n', hn', iter_of_tag e⟩

theorem sorted_of_keys (h : l.map Node.key = l'.map Node.key) (hs : SortedL l) : SortedL l' := by
  rw [Buf.sorted_iff_keys] at hs ⊢
  rwa [← h]

theorem endKey_of_keys (h : l.map Node.key = l'.map Node.key) (t : ℚ) : endKey t l = endKey t l' := by
  by_cases hl : l = []
  · subst hl
    have : l' = [] := by simpa using h.symm
    rw [this]
  · have hl' : l' ≠ [] := by rintro rfl; simp at h; exact hl h
    obtain ⟨n, _, h1, h2⟩ := endKey_mem (t := t) hl
    obtain ⟨n', _, h1', h2'⟩ := endKey_mem (t := t) hl'
    rw [← h1, ← h1']
    have a : (l.map Node.key).getLast? = some n.key := by rw [List.getLast?_map, h2]; rfl
    have b : (l'.map Node.key).getLast? = some n'.key := by rw [List.getLast?_map, h2']; rfl
    rw [h, b] at a
    exact (Option.some.inj a).symm

end

section
variable {A W X C M T E : Type}

theorem tag_of_skel {l l' : List (Node (St A W X C))} (h : l.map Node.skel = l'.map Node.skel) :
    l.map Node.tag = l'.map Node.tag := by
  have := congrArg (List.map fun p : ℚ × Nat × X => (p.1, p.2.1)) h
  rw [List.map_map, List.map_map] at this
  exact this

namespace Core

/-- `c'` differs from `c` in covariances and `tP` only, as far as the control flow is concerned. -/
structure Stays (c c' : Core A W X C M T) : Prop where
  skel : c'.states.nodes.map Node.skel = c.states.nodes.map Node.skel
  fresh : c'.states.fresh = c.states.fresh
  meas : c'.meas = c.meas
  queue : c'.queue = c.queue
  itImu : c'.itImu = c.itImu
  inited : c'.inited = c.inited
  predMade : c'.predMade = c.predMade
  inputs : c'.states.nodes.map (fun n => (n.key, n.val.u)) = c.states.nodes.map (fun n => (n.key, n.val.u))
  lastAm : c'.lastAmImu = c.lastAmImu

theorem Stays.refl (c : Core A W X C M T) : Stays c c := ⟨rfl, rfl, rfl, rfl, rfl, rfl, rfl, rfl, rfl⟩

theorem Stays.trans {c c1 c2 : Core A W X C M T} (h : Stays c c1) (h' : Stays c1 c2) : Stays c c2 :=
  ⟨h'.skel.trans h.skel, h'.fresh.trans h.fresh, h'.meas.trans h.meas, h'.queue.trans h.queue,
    h'.itImu.trans h.itImu, h'.inited.trans h.inited, h'.predMade.trans h.predMade,
    h'.inputs.trans h.inputs, h'.lastAm.trans h.lastAm⟩

theorem Stays.tag {c c' : Core A W X C M T} (h : Stays c c') :
    c'.states.nodes.map Node.tag = c.states.nodes.map Node.tag := tag_of_skel h.skel

theorem Stays.keys {c c' : Core A W X C M T} (h : Stays c c') :
    c'.states.nodes.map Node.key = c.states.nodes.map Node.key := keys_of_tag h.tag

theorem Stays.sorted {c c' : Core A W X C M T} (h : Stays c c') (hs : SortedL c.states.nodes) :
    SortedL c'.states.nodes := sorted_of_keys h.keys.symm hs

/-- Some state is not older than the time up to which covariances are predicted. -/
def TP (c : Core A W X C M T) : Prop := ∃ n ∈ c.states.nodes, c.tP ≤ n.key

end Core

namespace Flow

/-- What is needed of `predict`: it changes covariances and moves `tP` to the newer state. -/
structure Tame (f : Flow A W X C M T E) : Prop where
  skip : ∀ c o n, n.key ≤ o.key → f.predict c o n = c
  step : ∀ c o n, o.key < n.key → Core.Stays c (f.predict c o n) ∧ (f.predict c o n).tP = n.key

end Flow

theorem skel_modify {b : Buf (St A W X C)} (k : ℚ) {g : St A W X C → St A W X C}
    (hg : ∀ s, (g s).x = s.x) : (b.modify k g).nodes.map Node.skel = b.nodes.map Node.skel := by
  simp only [Buf.modify, List.map_map]
  refine List.map_congr_left fun n _ => ?_
  simp only [Function.comp]
  split
  · simp [Node.skel, hg]
  · rfl

theorem inputs_modify {b : Buf (St A W X C)} (k : ℚ) {g : St A W X C → St A W X C}
    (hg : ∀ s, (g s).u = s.u) : (b.modify k g).nodes.map (fun n => (n.key, n.val.u)) =
      b.nodes.map (fun n => (n.key, n.val.u)) := by
  simp only [Buf.modify, List.map_map]
  refine List.map_congr_left fun n _ => ?_
  simp only [Function.comp]
  split
  · simp [hg]
  · rfl

theorem tag_modify {V : Type} {b : Buf V} (k : ℚ) (g : V → V) :
    (b.modify k g).nodes.map Node.tag = b.nodes.map Node.tag := by
  simp only [Buf.modify, List.map_map]
  refine List.map_congr_left fun n _ => ?_
  simp only [Function.comp]
  split <;> rfl

theorem Kernel.absFlow_tame (K : Kernel A W X C M T E) : K.absFlow.Tame where
  skip c o n h := by
    change Core.predictCov K c o n = c
    unfold Core.predictCov
    rw [if_pos (by linarith)]
  step c o n h := by
    change Core.Stays c (Core.predictCov K c o n) ∧ (Core.predictCov K c o n).tP = _
    unfold Core.predictCov
    rw [if_neg (by linarith)]
    exact ⟨⟨skel_modify _ fun _ => rfl, rfl, rfl, rfl, rfl, rfl, rfl, inputs_modify _ fun _ => rfl, rfl⟩, rfl⟩

theorem RelKernel.flow_tame {F : Type} [AddCommGroup A] [Module ℚ A] [AddCommGroup W] [Module ℚ W]
    (R : RelKernel A W X C F M T E) : R.flow.Tame where
  skip c o n h := by
    change RelKernel.predict R c o n = c
    unfold RelKernel.predict
    rw [if_pos (by linarith)]
  step c o n h := by
    change Core.Stays c (RelKernel.predict R c o n) ∧ (RelKernel.predict R c o n).tP = _
    unfold RelKernel.predict
    rw [if_neg (by linarith)]
    refine ⟨⟨?_, rfl, rfl, rfl, rfl, rfl, rfl, ?_, rfl⟩, rfl⟩
    · dsimp only
      rw [skel_modify, skel_modify] <;> intro s <;> rfl
    · dsimp only
      rw [inputs_modify, inputs_modify] <;> intro s <;> rfl

/-! ### Queries -/

namespace Buf
variable {V : Type} {b : Buf V}

/-- A search for a time that is not newer than all keys finds the first key that is not older. -/
theorem iterAtValue_ok (hs : SortedL b.nodes) {t : ℚ} (h : ∃ n ∈ b.nodes, t ≤ n.key) :
    ∃ A a B, b.nodes = A ++ a :: B ∧ b.iterAtValue t = a.iter ∧ (∀ x ∈ A, x.key < t) ∧ t ≤ a.key := by
  obtain ⟨A, B, hl, hA, hB⟩ := SortedL.split _ hs t
  cases B with
  | nil =>
    obtain ⟨n, hn, hle⟩ := h
    rw [hl, List.append_nil] at hn
    exact absurd (hA n hn) (not_lt.2 hle)
  | cons a B =>
    refine ⟨A, a, B, hl, ?_, hA, hB a (by simp)⟩
    unfold iterAtValue
    cases hf : b.find t with
    | none => simp only; rw [lowerBound_split hl hA hB]; rfl
    | some n =>
      obtain ⟨hn, hk⟩ := find_some hf
      simp only
      rw [hl] at hn
      rcases List.mem_append.1 hn with h' | h'
      · exact absurd (hA n h') (by rw [hk]; exact lt_irrefl _)
      · rcases List.mem_cons.1 h' with rfl | h'
        · rfl
        · rw [hl, SortedL.append_iff, SortedL.cons_iff] at hs
          have h1 := hs.2.1.1 n h'
          have h2 := hB a (by simp)
          rw [hk] at h1
          exact absurd h1 (not_lt.2 h2)

end Buf

namespace Flow
variable {f : Flow A W X C M T E}

theorem propPLoop_tot (hf : f.Tame) (t : ℚ) : ∀ (fuel : Nat) (c : Core A W X C M T)
    (L : List (Node (St A W X C))) (a : Node (St A W X C)) (B : List (Node (St A W X C))),
    B.length < fuel → c.states.nodes = L ++ a :: B → SortedL c.states.nodes →
    Tot (propPLoop f t fuel c (Buf.toIter B.head?) a.iter) fun c' =>
      Core.Stays c c' ∧ (c'.tP = c.tP ∨ ∃ n ∈ c.states.nodes, c'.tP = n.key) := by
  intro fuel
  induction fuel with
  | zero => intro c L a B h; exact absurd h (Nat.not_lt_zero _)
  | succ fuel ih =>
    intro c L a B hfuel hl hs
    cases B with
    | nil =>
      change Tot (propPLoop f t (fuel + 1) c .fin a.iter) _
      unfold propPLoop
      rw [if_pos rfl]
      exact Tot.ok ⟨Core.Stays.refl c, .inl rfl⟩
    | cons b B =>
      change Tot (propPLoop f t (fuel + 1) c b.iter a.iter) _
      unfold propPLoop
      rw [if_neg (by simp [Node.iter])]
      refine Tot.bind_eq (Buf.deref_mem hs (by rw [hl]; simp)) ?_
      by_cases hb : b.key ≤ t
      · rw [if_pos hb]
        refine Tot.bind_eq (Buf.deref_mem hs (by rw [hl]; simp)) ?_
        have hab : a.key < b.key := by
          have := hs
          rw [hl, SortedL.append_iff, SortedL.cons_iff] at this
          exact this.2.1.1 b (by simp)
        obtain ⟨hk, htp⟩ := hf.step c a b hab
        have hs' := hk.sorted hs
        have htag := hk.tag
        rw [hl] at htag
        obtain ⟨L', a', R', hl', -, ha', hR'⟩ := split_of_map htag
        obtain ⟨b', B', rfl, hb', hB'⟩ := List.map_eq_cons_iff.1 hR'
        have hai := (iter_of_tag ha').1
        have hbi := (iter_of_tag hb').1
        refine Tot.bind_eq (a := Buf.toIter B'.head?) ?_ (Tot.bind_eq (a := b'.iter) ?_ ?_)
        · rw [← hbi]
          exact Buf.incr_at (A := L' ++ [a']) (by rw [hl']; simp) hs'
        · rw [← hai, Buf.incr_at hl' hs']; rfl
        · have hlen : B'.length < fuel := by
            have : B'.length = B.length := by simpa using congrArg List.length hB'
            simp only [List.length_cons] at hfuel
            omega
          refine (ih _ (L' ++ [a']) b' B' hlen (by rw [hl']; simp) hs').mono fun c' h => ⟨hk.trans h.1, ?_⟩
          rcases h.2 with h2 | ⟨n, hn, h2⟩
          · exact .inr ⟨b, by rw [hl]; simp, by rw [h2, htp]⟩
          · obtain ⟨n', hn', -, hk'⟩ := mem_of_tag hk.tag hn
            exact .inr ⟨n', hn', by rw [h2, hk']⟩
      · rw [if_neg hb]
        exact Tot.ret ⟨Core.Stays.refl c, .inl rfl⟩

theorem Core.TP.of_kept {c c' : Core A W X C M T} (h : Core.Stays c c') (ht : c.TP)
    (h' : c'.tP = c.tP ∨ ∃ n ∈ c.states.nodes, c'.tP = n.key) : c'.TP := by
  rcases h' with h' | ⟨n, hn, h'⟩
  · obtain ⟨n, hn, hle⟩ := ht
    obtain ⟨n', hn', -, hk⟩ := mem_of_tag h.tag.symm hn
    exact ⟨n', hn', by rw [h', hk]; exact hle⟩
  · obtain ⟨n', hn', -, hk⟩ := mem_of_tag h.tag.symm hn
    exact ⟨n', hn', by rw [h', hk]⟩

theorem propPToState_tot (hf : f.Tame) (c : Core A W X C M T) (t : ℚ) (hs : SortedL c.states.nodes)
    (ht : c.TP) : Tot (propPToState f c t) fun c' => Core.Stays c c' ∧ c'.TP := by
  unfold propPToState
  obtain ⟨L, a, B, hl, ha, -, -⟩ := Buf.iterAtValue_ok hs ht
  simp only [ha]
  refine Tot.bind_eq (Buf.incr_at hl hs) ?_
  refine (propPLoop_tot hf t _ c L a B ?_ hl hs).mono fun c' h =>
    ⟨h.1, Core.TP.of_kept h.1 ht h.2⟩
  simp only [Buf.size, hl, List.length_append, List.length_cons]
  omega

/-- One prediction step either keeps the flags or resets the filter. -/
theorem propagatePOneStep_tot (hf : f.Tame) (c : Core A W X C M T) (hs : SortedL c.states.nodes)
    (ht : c.TP) : Tot (propagatePOneStep f c) fun c' =>
      ∃ c1, Core.Stays c c1 ∧ c1.TP ∧
        (c' = c1 ∨ c' = { c1 with predMade := false, inited := false }) := by
  unfold propagatePOneStep
  obtain ⟨L, a, B, hl, ha, -, -⟩ := Buf.iterAtValue_ok hs ht
  simp only [ha]
  refine Tot.bind_eq (Buf.incr_at hl hs) ?_
  cases B with
  | nil =>
    change Tot (if Iter.fin = .fin then _ else _) _
    rw [if_pos rfl]
    exact Tot.ret ⟨c, Core.Stays.refl c, ht, .inl rfl⟩
  | cons b B =>
    change Tot (if b.iter = .fin then _ else _) _
    rw [if_neg (by simp [Node.iter])]
    refine Tot.bind_eq (Buf.deref_mem hs (by rw [hl]; simp)) ?_
    refine Tot.bind_eq (a := b) (Buf.deref_mem hs (by rw [hl]; simp)) ?_
    have hab : a.key < b.key := by
      have := hs
      rw [hl, SortedL.append_iff, SortedL.cons_iff] at this
      exact this.2.1.1 b (by simp)
    obtain ⟨hk, htp⟩ := hf.step c a b hab
    have ht' := Core.TP.of_kept hk ht (.inr ⟨b, by rw [hl]; simp, htp⟩)
    split
    · exact Tot.ret ⟨_, hk, ht', .inl rfl⟩
    · exact Tot.ret ⟨_, hk, ht', .inr rfl⟩

end Flow
end
end MSF
