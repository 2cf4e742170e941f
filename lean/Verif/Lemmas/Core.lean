import Verif.Model.Core
import Verif.Lemmas.SortedContainer
import Mathlib.Tactic.Ring

/-!
# List-level descriptions of the loops of `MSF_Core`
-/

namespace MSF
variable {A W X C M T E : Type}

/-- A buffered state. -/
abbrev SN (A W X C : Type) := Node (St A W X C)

/-- `b` with its mean re-propagated from `a`. -/
def xStep (K : Kernel A W X C M T E) (a b : SN A W X C) : SN A W X C :=
  { b with val := { b.val with x := K.prop (b.key - a.key) a.val.u a.val.x b.val.u } }

/-- `b` with its covariance predicted from `a`. -/
def pStep (K : Kernel A W X C M T E) (a b : SN A W X C) : SN A W X C :=
  { b with val := { b.val with P := K.predP (b.key - a.key) a.val.P b.val.u b.val.x } }

/-- Re-propagate the means of a list of states, starting from `a`. -/
def propX (K : Kernel A W X C M T E) : SN A W X C → List (SN A W X C) → List (SN A W X C)
  | _, [] => []
  | a, b :: B => xStep K a b :: propX K (xStep K a b) B

/-- Predict the covariances of a list of states, starting from `a`. -/
def propP (K : Kernel A W X C M T E) : SN A W X C → List (SN A W X C) → List (SN A W X C)
  | _, [] => []
  | a, b :: B => pStep K a b :: propP K (pStep K a b) B

/-- Key of the last element, or a default. -/
def endKey {V : Type} (t : ℚ) (l : List (Node V)) : ℚ :=
  match l.getLast? with
  | none => t
  | some n => n.key

theorem endKey_cons {V : Type} (t : ℚ) (b : Node V) (l : List (Node V)) :
    endKey t (b :: l) = endKey b.key l := by
  unfold endKey
  cases l with
  | nil => simp
  | cons c l =>
    rw [List.getLast?_cons_cons]
    cases h : (c :: l).getLast? with
    | none => simp at h
    | some n => rfl

theorem endKey_append_cons {V : Type} (t : ℚ) (A : List (Node V)) (b : Node V)
    (l : List (Node V)) : endKey t (A ++ b :: l) = endKey b.key l := by
  induction A generalizing t with
  | nil => exact endKey_cons t b l
  | cons a A ih => rw [List.cons_append, endKey_cons, ih]

theorem endKey_ge {V : Type} {t : ℚ} {l : List (Node V)} (hs : SortedL l) :
    ∀ n ∈ l, n.key ≤ endKey t l := by
  induction l generalizing t with
  | nil => simp
  | cons a l ih =>
    rw [SortedL.cons_iff] at hs
    intro n hn
    rw [endKey_cons]
    rcases List.mem_cons.1 hn with rfl | hn
    · cases l with
      | nil => simp [endKey]
      | cons b l =>
        exact (hs.1 b (by simp)).le.trans (ih hs.2 b (by simp))
    · exact ih hs.2 n hn

theorem endKey_mem {V : Type} {t : ℚ} {l : List (Node V)} (hne : l ≠ []) :
    ∃ n ∈ l, n.key = endKey t l ∧ l.getLast? = some n := by
  unfold endKey
  cases h : l.getLast? with
  | none => simp at h; exact absurd h hne
  | some n => exact ⟨n, List.mem_of_getLast? h, rfl, rfl⟩

section steps
variable (K : Kernel A W X C M T E) (a b : SN A W X C)
@[simp] theorem xStep_key : (xStep K a b).key = b.key := rfl
@[simp] theorem xStep_id : (xStep K a b).id = b.id := rfl
@[simp] theorem xStep_u : (xStep K a b).val.u = b.val.u := rfl
@[simp] theorem xStep_P : (xStep K a b).val.P = b.val.P := rfl
@[simp] theorem xStep_iter : (xStep K a b).iter = b.iter := rfl
@[simp] theorem pStep_key : (pStep K a b).key = b.key := rfl
@[simp] theorem pStep_id : (pStep K a b).id = b.id := rfl
@[simp] theorem pStep_u : (pStep K a b).val.u = b.val.u := rfl
@[simp] theorem pStep_x : (pStep K a b).val.x = b.val.x := rfl
@[simp] theorem pStep_iter : (pStep K a b).iter = b.iter := rfl
end steps

/-- Time, node identity and inputs: what re-propagation never changes. -/
def frame (n : SN A W X C) : ℚ × Nat × Input A W := (n.key, n.id, n.val.u)

theorem frame_propX (K : Kernel A W X C M T E) (a : SN A W X C) (B : List (SN A W X C)) :
    (propX K a B).map frame = B.map frame := by
  induction B generalizing a with
  | nil => rfl
  | cons b B ih => simp [propX, ih, frame]

theorem frame_propP (K : Kernel A W X C M T E) (a : SN A W X C) (B : List (SN A W X C)) :
    (propP K a B).map frame = B.map frame := by
  induction B generalizing a with
  | nil => rfl
  | cons b B ih => simp [propP, ih, frame]

theorem keys_of_frame {l l' : List (SN A W X C)} (h : l.map frame = l'.map frame) :
    l.map Node.key = l'.map Node.key := by
  have := congrArg (List.map Prod.fst) h
  simpa [List.map_map, Function.comp_def, frame] using this

theorem length_of_frame {l l' : List (SN A W X C)} (h : l.map frame = l'.map frame) :
    l.length = l'.length := by
  have := congrArg List.length h
  simpa using this

theorem sorted_of_frame {l l' : List (SN A W X C)} (h : l.map frame = l'.map frame) :
    SortedL l ↔ SortedL l' := by
  rw [Buf.sorted_iff_keys, Buf.sorted_iff_keys, keys_of_frame h]

theorem head_iter_of_frame {l l' : List (SN A W X C)} (h : l.map frame = l'.map frame) :
    Buf.toIter l.head? = Buf.toIter l'.head? := by
  cases l with
  | nil => cases l' with
    | nil => rfl
    | cons b l' => simp at h
  | cons a l => cases l' with
    | nil => simp at h
    | cons b l' =>
      simp only [List.map_cons, List.cons.injEq, frame, Prod.mk.injEq] at h
      simp [Buf.toIter, Node.iter, h.1.1, h.1.2.1]

theorem mem_of_frame {l l' : List (SN A W X C)} (h : l.map frame = l'.map frame) {n : SN A W X C}
    (hn : n ∈ l) : ∃ m ∈ l', frame m = frame n := by
  have : frame n ∈ l.map frame := List.mem_map_of_mem hn
  rw [h] at this
  obtain ⟨m, hm, e⟩ := List.mem_map.1 this
  exact ⟨m, hm, e⟩

theorem getLast?_frame {l l' : List (SN A W X C)} (h : l.map frame = l'.map frame) :
    l.getLast?.map frame = l'.getLast?.map frame := by
  rw [← List.getLast?_map, ← List.getLast?_map, h]

theorem endKey_of_frame {l l' : List (SN A W X C)} (h : l.map frame = l'.map frame) (t : ℚ) :
    endKey t l = endKey t l' := by
  have := getLast?_frame h
  unfold endKey
  cases h1 : l.getLast? with
  | none => cases h2 : l'.getLast? with
    | none => rfl
    | some b => simp [h1, h2] at this
  | some a => cases h2 : l'.getLast? with
    | none => simp [h1, h2] at this
    | some b => simp [h1, h2, frame] at this; exact this.1

namespace Core

theorem predictCov_eq (K : Kernel A W X C M T E) (c : Core A W X C M T)
    {A1 B1 : List (SN A W X C)} {m n : SN A W X C}
    (hl : c.states.nodes = A1 ++ m :: n :: B1) (hs : SortedL c.states.nodes) :
    predictCov K c m n =
      { c with states := ⟨A1 ++ m :: pStep K m n :: B1, c.states.fresh⟩, tP := n.key } := by
  have hs' := hs
  rw [hl, SortedL.append_iff, SortedL.cons_iff] at hs'
  have hmn : m.key < n.key := hs'.2.1.1 n (by simp)
  unfold predictCov
  rw [if_neg (by linarith)]
  have hl2 : c.states.nodes = (A1 ++ [m]) ++ n :: B1 := by simp [hl]
  have hmod := Buf.modify_split hl2 hs
    (fun s => { s with P := K.predP (n.key - m.key) m.val.P s.u s.x })
  have : c.states.modify n.key
      (fun s => { s with P := K.predP (n.key - m.key) m.val.P s.u s.x }) =
      ⟨A1 ++ m :: pStep K m n :: B1, c.states.fresh⟩ := by
    have e : ∀ b : Buf (St A W X C), b = ⟨b.nodes, b.fresh⟩ := fun b => rfl
    rw [e (c.states.modify _ _), hmod]
    simp [pStep, Buf.modify]
  rw [this]

theorem propPLoop_eq (K : Kernel A W X C M T E) (t : ℚ) (B1 B2 : List (SN A W X C)) :
    ∀ (fuel : Nat) (c : Core A W X C M T) (A1 : List (SN A W X C)) (a : SN A W X C),
    B1.length < fuel → c.states.nodes = A1 ++ a :: (B1 ++ B2) → SortedL c.states.nodes →
    (∀ b ∈ B1, b.key ≤ t) → (∀ b ∈ B2.head?, t < b.key) →
    propPLoop K t fuel c (Buf.toIter (B1 ++ B2).head?) a.iter =
      .ok { c with
        states := ⟨A1 ++ a :: (propP K a B1 ++ B2), c.states.fresh⟩
        tP := endKey c.tP B1 } := by
  induction B1 with
  | nil =>
    intro fuel c A1 a hf hl hs _ hB2
    cases fuel with
    | zero => simp at hf
    | succ fuel =>
      have hc : c = { c with states := ⟨A1 ++ a :: ([] ++ B2), c.states.fresh⟩ } := by
        have hl : A1 ++ a :: ([] ++ B2) = c.states.nodes := hl.symm
        rw [hl]
      simp only [List.nil_append, propP, endKey, List.getLast?_nil]
      cases B2 with
      | nil =>
        change propPLoop K t (fuel + 1) c .fin a.iter = _
        unfold propPLoop
        simp only [if_true]
        exact congrArg Except.ok hc
      | cons b B2 =>
        have hb : t < b.key := hB2 b (by simp)
        change propPLoop K t (fuel + 1) c b.iter a.iter = _
        unfold propPLoop
        rw [if_neg (by simp [Node.iter])]
        rw [Buf.deref_mem hs (n := b) (by rw [hl]; simp)]
        simp only [bind, Except.bind, pure, Except.pure, not_le.2 hb, if_false]
        exact congrArg Except.ok hc
  | cons b B1 ih =>
    intro fuel c A1 a hf hl hs hB1 hB2
    cases fuel with
    | zero => simp at hf
    | succ fuel =>
      have hl' : c.states.nodes = A1 ++ a :: b :: (B1 ++ B2) := by simpa using hl
      change propPLoop K t (fuel + 1) c b.iter a.iter = _
      unfold propPLoop
      rw [if_neg (by simp [Node.iter]), Buf.deref_mem hs (n := b) (by rw [hl]; simp)]
      simp only [bind, Except.bind, hB1 b (by simp), if_true]
      rw [Buf.deref_mem hs (n := a) (by rw [hl]; simp)]
      simp only
      rw [predictCov_eq K c hl' hs]
      have hfr : (A1 ++ a :: pStep K a b :: (B1 ++ B2)).map frame
          = c.states.nodes.map frame := by
        rw [hl']; simp [frame]
      have hs2 : SortedL (A1 ++ a :: pStep K a b :: (B1 ++ B2)) := (sorted_of_frame hfr).2 hs
      have i1 : Buf.incr (⟨A1 ++ a :: pStep K a b :: (B1 ++ B2), c.states.fresh⟩ : Buf _) b.iter
          = .ok (Buf.toIter (B1 ++ B2).head?) := by
        rw [← pStep_iter K a b]
        exact Buf.incr_at (A := A1 ++ [a]) (by simp) hs2
      have i2 : Buf.incr (⟨A1 ++ a :: pStep K a b :: (B1 ++ B2), c.states.fresh⟩ : Buf _) a.iter
          = .ok (pStep K a b).iter := by
        have := Buf.incr_at (b := ⟨A1 ++ a :: pStep K a b :: (B1 ++ B2), c.states.fresh⟩)
          (A := A1) (n := a) (B := pStep K a b :: (B1 ++ B2)) rfl hs2
        simpa [Buf.toIter] using this
      rw [i1, i2]
      simp only
      have := ih fuel { c with
          states := ⟨A1 ++ a :: pStep K a b :: (B1 ++ B2), c.states.fresh⟩
          tP := b.key } (A1 ++ [a]) (pStep K a b) (by simpa using hf) (by simp) hs2
          (fun x hx => hB1 x (by simp [hx])) hB2
      rw [this, endKey_cons]
      simp [propP]

theorem propLoop_eq (K : Kernel A W X C M T E) (B1 B2 : List (SN A W X C)) :
    ∀ (fuel : Nat) (c : Core A W X C M T) (A1 : List (SN A W X C)) (a : SN A W X C),
    B1.length < fuel → c.states.nodes = A1 ++ a :: (B1 ++ B2) → SortedL c.states.nodes →
    (∀ n ∈ c.states.nodes, n.key ≠ invalidTime) → c.inited = true → c.predMade = true →
    propLoop K fuel c a.iter (Buf.toIter (B1 ++ B2).head?) (Buf.toIter B2.head?) =
      .ok ({ c with states := ⟨A1 ++ a :: (propX K a B1 ++ B2), c.states.fresh⟩ }, false) := by
  induction B1 with
  | nil =>
    intro fuel c A1 a hf hl hs _ _ _
    cases fuel with
    | zero => simp at hf
    | succ fuel =>
      have hc : c = { c with states := ⟨A1 ++ a :: ([] ++ B2), c.states.fresh⟩ } := by
        have hl : A1 ++ a :: ([] ++ B2) = c.states.nodes := hl.symm
        rw [hl]
      simp only [List.nil_append, propX]
      unfold propLoop
      rw [if_pos (Or.inr rfl)]
      exact congrArg (fun c => Except.ok (c, false)) hc
  | cons b B1 ih =>
    intro fuel c A1 a hf hl hs hinv hin hpm
    cases fuel with
    | zero => simp at hf
    | succ fuel =>
      have hl' : c.states.nodes = A1 ++ a :: b :: (B1 ++ B2) := by simpa using hl
      have hs' := hs
      rw [hl', SortedL.append_iff, SortedL.cons_iff, SortedL.cons_iff] at hs'
      have hstop : ∀ k : SN A W X C, (∀ z ∈ B2, k.key < z.key) →
          k.iter ≠ Buf.toIter B2.head? := by
        intro k hk
        cases B2 with
        | nil => simp [Buf.toIter, Node.iter]
        | cons z B2 =>
          simp only [List.head?_cons, Buf.toIter]
          exact Buf.iter_ne (hk z (by simp)).ne
      change propLoop K (fuel + 1) c a.iter b.iter _ = _
      unfold propLoop
      rw [if_neg]
      swap
      · rintro (h | h)
        · exact hstop a (fun z hz => hs'.2.1.1 z (by simp [hz])) h
        · exact hstop b (fun z hz => hs'.2.1.2.1 z (by simp [hz])) h
      have ha : a ∈ c.states.nodes := by rw [hl]; simp
      have hb : b ∈ c.states.nodes := by rw [hl]; simp
      rw [Buf.deref_mem hs ha, Buf.deref_mem hs hb]
      simp only [bind, Except.bind]
      rw [if_neg (by simp [hinv a ha, hinv b hb]), if_neg (by simp [hin, hpm])]
      have hl2 : c.states.nodes = (A1 ++ [a]) ++ b :: (B1 ++ B2) := by simp [hl]
      have hmod : c.states.modify b.key
          (fun s => { s with x := K.prop (b.key - a.key) a.val.u a.val.x s.u }) =
          ⟨A1 ++ a :: xStep K a b :: (B1 ++ B2), c.states.fresh⟩ := by
        have e : ∀ b : Buf (St A W X C), b = ⟨b.nodes, b.fresh⟩ := fun b => rfl
        rw [e (c.states.modify _ _), Buf.modify_split hl2 hs]
        simp [xStep, Buf.modify]
      rw [hmod]
      have hfr : (A1 ++ a :: xStep K a b :: (B1 ++ B2)).map frame
          = c.states.nodes.map frame := by
        rw [hl']; simp [frame]
      have hs2 : SortedL (A1 ++ a :: xStep K a b :: (B1 ++ B2)) := (sorted_of_frame hfr).2 hs
      have i1 : Buf.incr (⟨A1 ++ a :: xStep K a b :: (B1 ++ B2), c.states.fresh⟩ : Buf _) b.iter
          = .ok (Buf.toIter (B1 ++ B2).head?) := by
        rw [← xStep_iter K a b]
        exact Buf.incr_at (A := A1 ++ [a]) (by simp) hs2
      have i2 : Buf.incr (⟨A1 ++ a :: xStep K a b :: (B1 ++ B2), c.states.fresh⟩ : Buf _) a.iter
          = .ok (xStep K a b).iter := by
        have := Buf.incr_at (b := ⟨A1 ++ a :: xStep K a b :: (B1 ++ B2), c.states.fresh⟩)
          (A := A1) (n := a) (B := xStep K a b :: (B1 ++ B2)) rfl hs2
        simpa [Buf.toIter] using this
      simp only [i1, i2]
      have := ih fuel { c with
          states := ⟨A1 ++ a :: xStep K a b :: (B1 ++ B2), c.states.fresh⟩ }
          (A1 ++ [a]) (xStep K a b) (by simpa using hf) (by simp) hs2
          (by
            intro n hn
            obtain ⟨m, hm, e⟩ := mem_of_frame hfr hn
            have : n.key = m.key := (congrArg Prod.fst e).symm
            rw [this]; exact hinv m hm) hin hpm
      rw [this]
      simp [propX]

end Core
end MSF
