import Verif.Lemmas.Core
import Verif.Lemmas.Nearest
import Mathlib.Data.List.Chain

/-!
# The sweep of `AddMeasurement` restores a consistent trajectory
-/

namespace MSF
variable {A W X C M T E : Type}

/-- A rejected measurement leaves the state as it is, the update does not depend on the fuzzy
tracker, and the state stays numeric. -/
structure Kernel.Regular (K : Kernel A W X C M T E) : Prop where
  reject : ∀ tr m x P, (K.update tr m x P).applied = false →
    (K.update tr m x P).x = x ∧ (K.update tr m x P).P = P
  trackX : ∀ tr m x P, (K.update tr m x P).x = (K.update K.tr0 m x P).x
  trackP : ∀ tr m x P, (K.update tr m x P).P = (K.update K.tr0 m x P).P
  numX : ∀ x, K.numX x = true
  numPos : ∀ x, K.numPos x = true

/-- `sure` holds only of measurements that are never rejected. -/
def Kernel.Sure (K : Kernel A W X C M T E) (sure : M → Bool) : Prop :=
  ∀ m, sure m = true → ∀ tr x P, (K.update tr m x P).applied = true

/-- Apply a measurement, if there is one. -/
def updXP (K : Kernel A W X C M T E) : Option M → X × C → X × C
  | none, s => s
  | some m, s => ((K.update K.tr0 m s.1 s.2).x, (K.update K.tr0 m s.1 s.2).P)

/-- Mean and covariance of `b` predicted from `a`. -/
def priorOf (K : Kernel A W X C M T E) (a b : SN A W X C) : X × C :=
  (K.prop (b.key - a.key) a.val.u a.val.x b.val.u,
   K.predP (b.key - a.key) a.val.P b.val.u (K.prop (b.key - a.key) a.val.u a.val.x b.val.u))

def RelX (K : Kernel A W X C M T E) (a b : SN A W X C) : Prop :=
  b.val.x = K.prop (b.key - a.key) a.val.u a.val.x b.val.u

def RelP (K : Kernel A W X C M T E) (a b : SN A W X C) : Prop :=
  b.val.P = K.predP (b.key - a.key) a.val.P b.val.u b.val.x

/-- `b` is what prediction from `a` and the measurement at `b` yield. -/
def Rel (K : Kernel A W X C M T E) (ms : ℚ → Option M) (a b : SN A W X C) : Prop :=
  (b.val.x, b.val.P) = updXP K (ms b.key) (priorOf K a b)

/-- A consistent trajectory starting from `s0`. -/
structure Cons (K : Kernel A W X C M T E) (ms : ℚ → Option M) (s0 : X × C)
    (l : List (SN A W X C)) : Prop where
  head : ∀ h ∈ l.head?, (h.val.x, h.val.P) = updXP K (ms h.key) s0
  chain : l.IsChain (Rel K ms)

/-- Prior of `b` after the trajectory `L`. -/
def prior (K : Kernel A W X C M T E) (s0 : X × C) (L : List (SN A W X C)) (b : SN A W X C) : X × C :=
  match L.getLast? with
  | none => s0
  | some a => priorOf K a b

theorem Cons.snoc {K : Kernel A W X C M T E} {ms : ℚ → Option M} {s0 : X × C}
    {L : List (SN A W X C)} {b : SN A W X C} :
    Cons K ms s0 (L ++ [b]) ↔
      Cons K ms s0 L ∧ (b.val.x, b.val.P) = updXP K (ms b.key) (prior K s0 L b) := by
  rcases List.eq_nil_or_concat L with rfl | ⟨L, a, rfl⟩
  · constructor
    · intro h
      exact ⟨⟨by simp, by simp⟩, h.head b (by simp)⟩
    · intro h
      exact ⟨by simpa [prior] using h.2, by simp⟩
  · rw [List.concat_eq_append]
    have hh : (L ++ [a] ++ [b]).head? = (L ++ [a]).head? := by cases L <;> simp
    have hc : (L ++ [a] ++ [b]).IsChain (Rel K ms) ↔
        (L ++ [a]).IsChain (Rel K ms) ∧ Rel K ms a b := by
      rw [List.append_assoc, List.singleton_append, List.isChain_split]
      simp
    have hp : prior K s0 (L ++ [a]) b = priorOf K a b := by simp [prior]
    rw [hp]
    constructor
    · intro h
      exact ⟨⟨by rw [← hh]; exact h.head, (hc.1 h.chain).1⟩, (hc.1 h.chain).2⟩
    · rintro ⟨h1, h2⟩
      exact ⟨by rw [hh]; exact h1.head, hc.2 ⟨h1.chain, h2⟩⟩

theorem Cons.prefix {K : Kernel A W X C M T E} {ms : ℚ → Option M} {s0 : X × C}
    {L L' : List (SN A W X C)} (h : Cons K ms s0 (L ++ L')) : Cons K ms s0 L := by
  refine ⟨?_, h.chain.left_of_append⟩
  intro x hx
  refine h.head x ?_
  cases L with
  | nil => simp at hx
  | cons a L => simpa using hx

theorem Cons.congr {K : Kernel A W X C M T E} {ms ms' : ℚ → Option M} {s0 : X × C}
    {L : List (SN A W X C)} (h : Cons K ms s0 L) (he : ∀ n ∈ L, ms' n.key = ms n.key) :
    Cons K ms' s0 L := by
  refine ⟨?_, ?_⟩
  · intro x hx
    rw [he x (List.mem_of_head? hx)]
    exact h.head x hx
  · refine h.chain.imp_of_mem_imp ?_
    intro a b _ hb hr
    unfold Rel at hr ⊢
    rw [he b hb]
    exact hr

theorem chain_propX (K : Kernel A W X C M T E) (a : SN A W X C) (B : List (SN A W X C)) :
    (a :: propX K a B).IsChain (RelX K) := by
  induction B generalizing a with
  | nil => simp [propX]
  | cons b B ih =>
    rw [propX, List.isChain_cons_cons]
    exact ⟨rfl, ih _⟩

theorem chain_propP (K : Kernel A W X C M T E) (a : SN A W X C) (B : List (SN A W X C)) :
    (a :: propP K a B).IsChain (RelP K) := by
  induction B generalizing a with
  | nil => simp [propP]
  | cons b B ih =>
    rw [propP, List.isChain_cons_cons]
    exact ⟨rfl, ih _⟩

/-- Predicting covariances does not disturb the means. -/
theorem chainX_propP (K : Kernel A W X C M T E) (a a' : SN A W X C) (B : List (SN A W X C))
    (hk : a'.key = a.key) (hu : a'.val.u = a.val.u) (hx : a'.val.x = a.val.x)
    (h : (a :: B).IsChain (RelX K)) : (a' :: propP K a' B).IsChain (RelX K) := by
  induction B generalizing a a' with
  | nil => simp [propP]
  | cons b B ih =>
    rw [List.isChain_cons_cons] at h
    rw [propP, List.isChain_cons_cons]
    refine ⟨?_, ih b _ rfl rfl rfl h.2⟩
    unfold RelX at h ⊢
    simp only [pStep_x, pStep_key, pStep_u, hk, hu, hx]
    exact h.1

theorem rel_of_XP {K : Kernel A W X C M T E} {ms : ℚ → Option M} {a : SN A W X C}
    {B : List (SN A W X C)} (hx : (a :: B).IsChain (RelX K)) (hp : (a :: B).IsChain (RelP K))
    (hn : ∀ b ∈ B, ms b.key = none) : (a :: B).IsChain (Rel K ms) := by
  induction B generalizing a with
  | nil => simp
  | cons b B ih =>
    rw [List.isChain_cons_cons] at hx hp ⊢
    refine ⟨?_, ih hx.2 hp.2 (fun c hc => hn c (by simp [hc]))⟩
    have h1 := hx.1
    have h2 := hp.1
    unfold RelX at h1
    unfold RelP at h2
    unfold Rel
    rw [hn b (by simp)]
    simp only [updXP, priorOf]
    rw [h2, ← h1]

theorem relX_of_rel {K : Kernel A W X C M T E} {ms : ℚ → Option M} {a : SN A W X C}
    {B : List (SN A W X C)} (h : (a :: B).IsChain (Rel K ms)) (hn : ∀ b ∈ B, ms b.key = none) :
    (a :: B).IsChain (RelX K) := by
  induction B generalizing a with
  | nil => simp
  | cons b B ih =>
    rw [List.isChain_cons_cons] at h ⊢
    refine ⟨?_, ih h.2 (fun c hc => hn c (by simp [hc]))⟩
    have h1 := h.1
    unfold Rel at h1
    rw [hn b (by simp)] at h1
    exact congrArg Prod.fst h1

theorem rel_tail_congr {K : Kernel A W X C M T E} {ms ms' : ℚ → Option M} {a : SN A W X C}
    {B : List (SN A W X C)} (h : (a :: B).IsChain (Rel K ms))
    (he : ∀ b ∈ B, ms' b.key = ms b.key) : (a :: B).IsChain (Rel K ms') := by
  induction B generalizing a with
  | nil => simp
  | cons b B ih =>
    rw [List.isChain_cons_cons] at h ⊢
    refine ⟨?_, ih h.2 (fun c hc => he c (by simp [hc]))⟩
    have h1 := h.1
    unfold Rel at h1 ⊢
    rw [he b (by simp)]; exact h1

/-- A rejected measurement changes nothing, whatever the tracker. -/
theorem Kernel.Regular.updXP_reject {K : Kernel A W X C M T E} (hK : K.Regular) {tr : T} {m : M}
    {x : X} {P : C} (h : (K.update tr m x P).applied = false) : updXP K (some m) (x, P) = (x, P) := by
  have h1 := hK.reject _ _ _ _ h
  simp only [updXP]
  rw [← hK.trackX tr, ← hK.trackP tr, h1.1, h1.2]

/-- Propagating means that are already consistent changes nothing. -/
theorem propX_of_chain {K : Kernel A W X C M T E} {a : SN A W X C} {B : List (SN A W X C)}
    (h : (a :: B).IsChain (RelX K)) : propX K a B = B := by
  induction B generalizing a with
  | nil => rfl
  | cons b B ih =>
    rw [List.isChain_cons_cons] at h
    have e : xStep K a b = b := by
      have h1 := h.1
      unfold RelX at h1
      unfold xStep
      rw [← h1]
    rw [propX, e, ih h.2]

/-- Extending a consistent trajectory by states without measurements. -/
theorem Cons.extend {K : Kernel A W X C M T E} {ms : ℚ → Option M} {s0 : X × C}
    {L B : List (SN A W X C)} {n : SN A W X C} (h : Cons K ms s0 (L ++ [n]))
    (hx : (n :: B).IsChain (RelX K)) (hn : ∀ b ∈ B, ms b.key = none) :
    Cons K ms s0 (L ++ n :: propP K n B) := by
  refine ⟨?_, ?_⟩
  · have : (L ++ n :: propP K n B).head? = (L ++ [n]).head? := by cases L <;> simp
    rw [this]; exact h.head
  · rw [List.isChain_split]
    refine ⟨h.chain, rel_of_XP (chainX_propP K n n B rfl rfl rfl hx) (chain_propP K n B) ?_⟩
    intro b hb
    obtain ⟨m, hm, e⟩ := mem_of_frame (frame_propP K n B) hb
    have : b.key = m.key := (congrArg Prod.fst e).symm
    rw [this]; exact hn m hm

namespace Core

theorem iterAtValue_mem {V : Type} {b : Buf V} (hs : SortedL b.nodes) {n : Node V}
    (hn : n ∈ b.nodes) : b.iterAtValue n.key = n.iter := by
  unfold Buf.iterAtValue
  rw [Buf.find_eq_some hs hn]

theorem propPToState_eq (K : Kernel A W X C M T E) (t : ℚ) (c : Core A W X C M T)
    {A1 B1 B2 : List (SN A W X C)} {a : SN A W X C}
    (hl : c.states.nodes = A1 ++ a :: (B1 ++ B2)) (hs : SortedL c.states.nodes)
    (htP : c.tP = a.key) (hB1 : ∀ b ∈ B1, b.key ≤ t) (hB2 : ∀ b ∈ B2.head?, t < b.key) :
    propPToState K c t = .ok { c with
        states := ⟨A1 ++ a :: (propP K a B1 ++ B2), c.states.fresh⟩
        tP := endKey c.tP B1 } := by
  unfold propPToState
  rw [htP, iterAtValue_mem hs (n := a) (by rw [hl]; simp)]
  simp only [bind, Except.bind]
  rw [Buf.incr_at hl hs]
  simp only
  rw [propPLoop_eq K t B1 B2 _ c A1 a _ hl hs hB1 hB2, htP]
  simp only [Buf.size, hl, List.length_append, List.length_cons]
  omega

/-- The state after a measurement. -/
def applied (K : Kernel A W X C M T E) (m : M) (n : SN A W X C) : SN A W X C :=
  { n with val := { n.val with x := (updXP K (some m) (n.val.x, n.val.P)).1,
                               P := (updXP K (some m) (n.val.x, n.val.P)).2 } }

@[simp] theorem applied_key (K : Kernel A W X C M T E) (m : M) (n : SN A W X C) :
    (applied K m n).key = n.key := rfl
@[simp] theorem applied_iter (K : Kernel A W X C M T E) (m : M) (n : SN A W X C) :
    (applied K m n).iter = n.iter := rfl
@[simp] theorem applied_frame (K : Kernel A W X C M T E) (m : M) (n : SN A W X C) :
    frame (applied K m n) = frame n := rfl

theorem applyMeas_eq {K : Kernel A W X C M T E} (hK : K.Regular) (c : Core A W X C M T) (m : Meas M)
    {A1 B : List (SN A W X C)} {n : SN A W X C}
    (hl : c.states.nodes = A1 ++ n :: B) (hs : SortedL c.states.nodes)
    (ha : c.tP = n.key ∨ (K.update c.tracker m.body n.val.x n.val.P).applied = true) :
    ∃ tr fz, applyMeas K c m n = { c with
      states := ⟨A1 ++ applied K m.body n :: B, c.states.fresh⟩
      tracker := tr, fuzzy := fz, tP := n.key } := by
  refine ⟨(K.update c.tracker m.body n.val.x n.val.P).tr,
    c.fuzzy || (K.update c.tracker m.body n.val.x n.val.P).fuzzy, ?_⟩
  unfold applyMeas
  rw [Buf.deref_mem hs (n := n) (by rw [hl]; simp)]
  have htP : (if (K.update c.tracker m.body n.val.x n.val.P).applied then n.key else c.tP) = n.key := by
    rcases ha with ha | ha
    · rw [ha, ite_self]
    · rw [if_pos ha]
  simp only [htP]
  have : c.states.modify n.key (fun v =>
      { v with x := (K.update c.tracker m.body n.val.x n.val.P).x,
               P := (K.update c.tracker m.body n.val.x n.val.P).P }) =
      ⟨A1 ++ applied K m.body n :: B, c.states.fresh⟩ := by
    have e : ∀ b : Buf (St A W X C), b = ⟨b.nodes, b.fresh⟩ := fun b => rfl
    rw [e (c.states.modify _ _), Buf.modify_split hl hs]
    simp [applied, Buf.modify, updXP, hK.trackX c.tracker, hK.trackP c.tracker]
  rw [this]

theorem repropagate_eq (K : Kernel A W X C M T E) (c : Core A W X C M T)
    {A1 B : List (SN A W X C)} {n : SN A W X C} {MA MB : List (Node (Meas M))}
    (hl : c.states.nodes = A1 ++ n :: B) (hs : SortedL c.states.nodes)
    (hinv : ∀ n ∈ c.states.nodes, n.key ≠ invalidTime) (hin : c.inited = true)
    (hpm : c.predMade = true)
    (hm : c.meas.nodes = MA ++ MB) (hms : SortedL c.meas.nodes)
    (hnm : ∀ m ∈ MB.head?, n.key ≤ m.key) :
    ∃ B1 B2, B = B1 ++ B2 ∧
      repropagate K c n.key (Buf.toIter MB.head?) =
        .ok ({ c with states := ⟨A1 ++ n :: (propX K n B1 ++ B2), c.states.fresh⟩ }, false) ∧
      (MB = [] → B2 = []) ∧
      (∀ m ∈ MB.head?, ∀ b ∈ B2, ∃ u ∈ B1, m.key < u.key ∧ u.key < b.key) := by
  have hs' := hs
  rw [hl, SortedL.append_iff, SortedL.cons_iff] at hs'
  have hcur : c.states.iterAtValue n.key = n.iter := iterAtValue_mem hs (by rw [hl]; simp)
  have hnext : c.states.incr n.iter = .ok (Buf.toIter B.head?) := Buf.incr_at hl hs
  have hsz : c.states.size = A1.length + (B.length + 1) := by simp [Buf.size, hl]
  -- the loop with a known end
  have loop : ∀ B1 B2, B = B1 ++ B2 →
      propLoop K (c.states.size + 1) c n.iter (Buf.toIter B.head?) (Buf.toIter B2.head?) =
        .ok ({ c with states := ⟨A1 ++ n :: (propX K n B1 ++ B2), c.states.fresh⟩ }, false) := by
    intro B1 B2 hB
    subst hB
    refine propLoop_eq K B1 B2 _ c A1 n ?_ hl hs hinv hin hpm
    rw [hsz]; simp; omega
  cases MB with
  | nil =>
    refine ⟨B, [], by simp, ?_, by simp, by simp⟩
    unfold repropagate
    rw [hcur]
    change (do
      let next ← c.states.incr n.iter
      propLoop K (c.states.size + 1) c n.iter next .fin) = _
    rw [hnext]
    exact loop B [] (by simp)
  | cons m MB =>
    have hnm' : n.key ≤ m.key := hnm m (by simp)
    have hder : c.meas.deref (.at m.key m.id) = .ok m :=
      Buf.deref_mem hms (n := m) (by rw [hm]; simp)
    -- split B at the time of the next measurement
    obtain ⟨P, Q, hPQ, hP, hQ⟩ : ∃ P Q, B = P ++ Q ∧ (∀ b ∈ P, b.key ≤ m.key) ∧
        (∀ b ∈ Q, m.key < b.key) := by
      obtain ⟨P, Q, h1, h2, h3⟩ := SortedL.split B hs'.2.1.2 m.key
      cases Q with
      | nil => exact ⟨P, [], h1, fun b hb => (h2 b hb).le, by simp⟩
      | cons q Q =>
        have hBs := hs'.2.1.2
        rw [h1, SortedL.append_iff, SortedL.cons_iff] at hBs
        by_cases hq : q.key = m.key
        · refine ⟨P ++ [q], Q, by simp [h1], ?_, fun b hb => hq ▸ hBs.2.1.1 b hb⟩
          intro b hb
          rcases List.mem_append.1 hb with hb | hb
          · exact (h2 b hb).le
          · simp only [List.mem_singleton] at hb; rw [hb, hq]
        · have hq' : m.key < q.key := lt_of_le_of_ne (h3 q (by simp)) (fun h => hq h.symm)
          refine ⟨P, q :: Q, h1, fun b hb => (h2 b hb).le, ?_⟩
          intro b hb
          rcases List.mem_cons.1 hb with rfl | hb
          · exact hq'
          · exact hq'.trans (hBs.2.1.1 b hb)
    have hub : c.states.upperBound m.key = Q.head? := by
      refine Buf.upperBound_split (A := A1 ++ n :: P) (B := Q) (by simp [hl, hPQ]) ?_ hQ
      intro a ha
      rcases List.mem_append.1 ha with ha | ha
      · exact ((hs'.2.2 a ha n (by simp)).trans_le hnm').le
      · rcases List.mem_cons.1 ha with rfl | ha
        · exact hnm'
        · exact hP a ha
    cases Q with
    | nil =>
      refine ⟨B, [], by simp, ?_, by simp, by simp⟩
      unfold repropagate
      rw [hcur]
      simp only [List.head?_cons, Buf.toIter, Node.iter, bind, Except.bind, hder, pure,
        Except.pure, Buf.iterClosestAfter, hub, List.head?_nil]
      simp only [ne_eq, not_true_eq_false, if_false]
      have hn' : c.states.incr (.at n.key n.id) = .ok (Buf.toIter B.head?) := hnext
      simp only [hn']
      exact loop B [] (by simp)
    | cons q Q =>
      refine ⟨P ++ [q], Q, by simp [hPQ], ?_, by simp, ?_⟩
      · unfold repropagate
        rw [hcur]
        simp only [List.head?_cons, Buf.toIter, Node.iter, bind, Except.bind, hder, pure,
          Except.pure, Buf.iterClosestAfter, hub]
        have hq : c.states.incr q.iter = .ok (Buf.toIter Q.head?) :=
          Buf.incr_at (A := A1 ++ n :: P) (by simp [hl, hPQ]) hs
        have hq' : c.states.incr (.at q.key q.id) = .ok (Buf.toIter Q.head?) := hq
        have hn' : c.states.incr (.at n.key n.id) = .ok (Buf.toIter B.head?) := hnext
        simp only [ne_eq, reduceCtorEq, not_false_eq_true, if_true, hq', hn']
        exact loop (P ++ [q]) Q (by simp [hPQ])
      · intro m' hm' b hb
        simp only [List.head?_cons, Option.mem_def, Option.some.injEq] at hm'
        subst hm'
        refine ⟨q, by simp, hQ q (by simp), ?_⟩
        have hBs := hs'.2.1.2
        rw [hPQ, SortedL.append_iff, SortedL.cons_iff] at hBs
        exact hBs.2.1.1 b hb

end Core
end MSF
