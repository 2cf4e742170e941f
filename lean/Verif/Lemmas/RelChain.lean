import Verif.Spec.RelChain
import Verif.Lemmas.SafeRel

/-! What the prediction of the covariance leaves in a chain of states. -/

namespace MSF.RelKernel

variable {A W X C F M T E : Type}

/-- The states after the prediction. -/
def chain (R : RelKernel A W X C F M T E) :
    Node (St A W X (C × F)) → List (Node (St A W X (C × F))) → List (Node (St A W X (C × F)))
  | o, [] => [o]
  | o, b :: bs =>
    { o with val := { o.val with P := (o.val.P.1, R.fd (b.key - o.key) b.val.u b.val.x) } } ::
      chain R { b with val := { b.val with
        P := (R.predP (b.key - o.key) o.val.P.1 b.val.u b.val.x, b.val.P.2) } } bs

theorem predict_eq (R : RelKernel A W X C F M T E) (c : Core A W X (C × F) M T)
    {L rest : List (Node (St A W X (C × F)))} {o b : Node (St A W X (C × F))}
    (hl : c.states.nodes = L ++ o :: b :: rest) (hs : SortedL c.states.nodes) :
    ∃ st, R.predict c o b = { c with states := st, tP := b.key } ∧
      st.nodes = L ++ { o with val := { o.val with P := (o.val.P.1, R.fd (b.key - o.key) b.val.u b.val.x) } } ::
        { b with val := { b.val with
          P := (R.predP (b.key - o.key) o.val.P.1 b.val.u b.val.x, b.val.P.2) } } :: rest := by
  have hlt : o.key < b.key := by
    have h := hs
    rw [hl, SortedL.append_iff, SortedL.cons_iff] at h
    exact h.2.1.1 b (by simp)
  unfold predict
  rw [if_neg (by linarith)]
  refine ⟨_, rfl, ?_⟩
  have h1 := Buf.modify_split hl hs
    (fun s => { s with P := (s.P.1, R.fd (b.key - o.key) b.val.u b.val.x) })
  have hs1 := Buf.sorted_modify hs o.key
    (fun s => { s with P := (s.P.1, R.fd (b.key - o.key) b.val.u b.val.x) })
  have h2 := Buf.modify_split (n := b) (A := L ++ [{ o with val :=
      { o.val with P := (o.val.P.1, R.fd (b.key - o.key) b.val.u b.val.x) } }]) (B := rest)
    (by rw [h1]; simp) hs1
    (fun s => { s with P := (R.predP (b.key - o.key) o.val.P.1 s.u s.x, s.P.2) })
  rw [h2]
  simp

theorem propPLoop_chain (R : RelKernel A W X C F M T E) (g) (t : ℚ) :
    ∀ (B : List (Node (St A W X (C × F)))) (fuel : Nat) (c : Core A W X (C × F) M T)
      (L rest : List (Node (St A W X (C × F)))) (o : Node (St A W X (C × F))), B.length < fuel →
      c.states.nodes = L ++ o :: B ++ rest → SortedL c.states.nodes → (∀ b ∈ B, b.key ≤ t) →
      (∀ r ∈ rest, t < r.key) →
      ∃ c', Flow.propPLoop ({ R.pair with predict := R.predict, apply := g } : Flow A W X (C × F) M T E)
          t fuel c (Buf.toIter (B ++ rest).head?) o.iter = .ok c' ∧
        c'.states.nodes = L ++ chain R o B ++ rest ∧ c'.tracker = c.tracker := by
  intro B
  induction B with
  | nil =>
    intro fuel c L rest o hf hl hs hB hr
    obtain ⟨fuel, rfl⟩ : ∃ k, fuel = k + 1 := ⟨fuel - 1, by simp at hf; omega⟩
    refine ⟨c, ?_, by rw [hl]; simp [chain], rfl⟩
    cases rest with
    | nil => rfl
    | cons r rest =>
      have hd := Buf.deref_mem hs (n := r) (by rw [hl]; simp)
      have hne : ¬ r.key ≤ t := not_le.2 (hr r (by simp))
      change Flow.propPLoop _ t (fuel + 1) c r.iter o.iter = _
      unfold Flow.propPLoop
      rw [if_neg (by simp [Node.iter]), hd]
      change (if r.key ≤ t then _ else _) = _
      rw [if_neg hne]
      rfl
  | cons b B ih =>
    intro fuel c L rest o hf hl hs hB hr
    obtain ⟨fuel, rfl⟩ : ∃ k, fuel = k + 1 := ⟨fuel - 1, by simp at hf; omega⟩
    have hl' : c.states.nodes = L ++ o :: b :: (B ++ rest) := by rw [hl]; simp
    obtain ⟨st, hp, hst⟩ := predict_eq R c hl' hs
    have hss : SortedL st.nodes := by
      have hk : st.nodes.map Node.key = c.states.nodes.map Node.key := by rw [hst, hl']; simp
      rw [Buf.sorted_iff_keys] at hs ⊢
      rw [hk]; exact hs
    set o' : Node (St A W X (C × F)) :=
      { o with val := { o.val with P := (o.val.P.1, R.fd (b.key - o.key) b.val.u b.val.x) } } with ho'
    set b' : Node (St A W X (C × F)) := { b with val := { b.val with
          P := (R.predP (b.key - o.key) o.val.P.1 b.val.u b.val.x, b.val.P.2) } } with hb'
    obtain ⟨c', h1, h2, h3⟩ := ih fuel { c with states := st, tP := b.key } (L ++ [o']) rest b'
      (by simpa using hf) (by rw [hst]; simp) hss (fun x hx => hB x (by simp [hx])) hr
    refine ⟨c', ?_, ?_, h3⟩
    · have hd := Buf.deref_mem hs (n := b) (by rw [hl']; simp)
      have hdo := Buf.deref_mem hs (n := o) (by rw [hl']; simp)
      have hi1 : st.incr b.iter = .ok (Buf.toIter (B ++ rest).head?) :=
        Buf.incr_at (A := L ++ [o']) (n := b') (B := B ++ rest) (by rw [hst]; simp) hss
      have hi2 : st.incr o.iter = .ok b.iter :=
        Buf.incr_at (A := L) (n := o') (B := b' :: (B ++ rest)) (by rw [hst]) hss
      change Flow.propPLoop _ t (fuel + 1) c b.iter o.iter = _
      unfold Flow.propPLoop
      rw [if_neg (by simp [Node.iter]), hd]
      simp only [bind, Except.bind, hdo, if_pos (hB b (by simp)), hp, hi1, hi2]
      exact h1
    · rw [h2]
      simp [chain, ho', hb']

theorem accumulate_eq (R : RelKernel A W X C F M T E) (c : Core A W X (C × F) M T)
    (hs : SortedL c.states.nodes) {d : Node (St A W X (C × F))} {rest : List (Node (St A W X (C × F)))} :
    ∀ (B : List (Node (St A W X (C × F)))) (fuel : Nat) (L : List (Node (St A W X (C × F)))) (acc : F),
    B.length < fuel → c.states.nodes = L ++ B ++ d :: rest →
    accumulate R c d.iter fuel (Buf.toIter (B ++ [d]).head?) acc =
      .ok ((B.map fun n => n.val.P.2).foldl R.mulF acc) := by
  intro B
  induction B with
  | nil =>
    intro fuel L acc hf hl
    obtain ⟨fuel, rfl⟩ : ∃ k, fuel = k + 1 := ⟨fuel - 1, by simp at hf; omega⟩
    unfold accumulate
    simp [Buf.toIter]
  | cons a B ih =>
    intro fuel L acc hf hl
    obtain ⟨fuel, rfl⟩ : ∃ k, fuel = k + 1 := ⟨fuel - 1, by simp at hf; omega⟩
    have hl' : c.states.nodes = L ++ a :: (B ++ d :: rest) := by rw [hl]; simp
    have hne : a.iter ≠ d.iter := by
      refine Buf.iter_ne ?_
      have h := hs
      rw [hl', SortedL.append_iff, SortedL.cons_iff] at h
      exact (h.2.1.1 d (by simp)).ne
    have hi : c.states.incr a.iter = .ok (Buf.toIter (B ++ [d]).head?) := by
      rw [Buf.incr_at hl' hs]
      cases B <;> rfl
    change accumulate R c d.iter (fuel + 1) a.iter acc = _
    unfold accumulate
    rw [if_neg hne, Buf.deref_mem hs (by rw [hl']; simp)]
    simp only [bind, Except.bind, hi]
    exact ih fuel (L ++ [a]) _ (by simpa using hf) (by rw [hl]; simp)

/-- The chain ends with the predicted state and holds the transitions before it. -/
theorem chain_split (R : RelKernel A W X C F M T E) (n : Node (St A W X (C × F))) :
    ∀ (B : List (Node (St A W X (C × F)))) (o : Node (St A W X (C × F))), ∃ mids,
      chain R o (B ++ [n]) =
        { o with val := { o.val with P := (o.val.P.1, ((R.steps o (B ++ [n])).head?).getD o.val.P.2) } } ::
          mids ++ [{ n with val := { n.val with
            P := (R.predicted o.val.P.1 o (B ++ [n]), n.val.P.2) } }] ∧
      ((R.steps o (B ++ [n])).head?).getD o.val.P.2 :: mids.map (fun n => n.val.P.2) =
        R.steps o (B ++ [n]) := by
  intro B
  induction B with
  | nil => intro o; exact ⟨[], by simp [chain, steps, predicted], by simp [steps]⟩
  | cons b B ih =>
    intro o
    obtain ⟨mids, h1, h2⟩ := ih { b with val := { b.val with
        P := (R.predP (b.key - o.key) o.val.P.1 b.val.u b.val.x, b.val.P.2) } }
    have hst : ∀ (b' : Node (St A W X (C × F))), b'.key = b.key → R.steps b' (B ++ [n]) = R.steps b (B ++ [n]) := by
      intro b' e; cases B <;> simp [steps, e]
    have hpr : ∀ (b' : Node (St A W X (C × F))) P, b'.key = b.key →
        R.predicted P b' (B ++ [n]) = R.predicted P b (B ++ [n]) := by
      intro b' P e; cases B <;> simp [predicted, e]
    set b' : Node (St A W X (C × F)) := { b with val := { b.val with
        P := (R.predP (b.key - o.key) o.val.P.1 b.val.u b.val.x, b.val.P.2) } } with hb'
    refine ⟨{ b' with val := { b'.val with
      P := (b'.val.P.1, ((R.steps b' (B ++ [n])).head?).getD b'.val.P.2) } } :: mids, ?_, ?_⟩
    · rw [List.cons_append, chain, h1]
      simp only [steps, List.head?_cons, Option.getD_some, predicted, List.cons_append]
      rw [hpr b' _ rfl]
    · rw [List.map_cons, List.cons_append, steps, List.head?_cons, Option.getD_some, h2, hst b' rfl]

end MSF.RelKernel
