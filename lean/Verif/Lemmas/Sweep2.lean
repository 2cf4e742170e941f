import Verif.Lemmas.Sweep

/-!
# The measurement loop
-/

namespace MSF
variable {A W X C M T E : Type}

/-- Both buffers on libstdc++. -/
def gnuEnv (s1 s2 : Nat → List ℚ → Bool) : Env := ⟨.gnu s1, .gnu s2⟩

/-- How many of the states are at most 60 s older than `N`. -/
def recent (N : ℚ) (l : List (SN A W X C)) : Nat := (l.map Node.key).countP (fun k => N - 60 ≤ k)

theorem recent_frame {N : ℚ} {l l' : List (SN A W X C)} (h : l.map frame = l'.map frame) :
    recent N l = recent N l' := by unfold recent; rw [keys_of_frame h]

theorem recent_le {N : ℚ} {l : List (SN A W X C)} : recent N l ≤ l.length := by
  unfold recent
  simpa using List.countP_le_length (l := l.map Node.key) (p := fun k => decide (N - 60 ≤ k))

theorem recent_drop {N : ℚ} {D l : List (SN A W X C)} (h : ∀ d ∈ D, d.key < N - 60) :
    recent N (D ++ l) = recent N l := by
  unfold recent
  rw [List.map_append, List.countP_append, List.countP_eq_zero.2, Nat.zero_add]
  intro k hk
  obtain ⟨d, hd, rfl⟩ := List.mem_map.1 hk
  have := h d hd
  simp only [decide_eq_true_eq, not_le]
  exact this

/-- What clean-up may do: drop a prefix of each buffer, older than 60 s. -/
structure Evict (c c' : Core A W X C M T) (Ds : List (SN A W X C))
    (Dm : List (Node (Meas M))) : Prop where
  states : c.states.nodes = Ds ++ c'.states.nodes
  meas : c.meas.nodes = Dm ++ c'.meas.nodes
  oldS : ∀ d ∈ Ds, d.key < endKey 0 c.states.nodes - 60
  oldM : ∀ d ∈ Dm, d.key < endKey 0 c.meas.nodes - 60
  eq : c' = { c with states := ⟨c'.states.nodes, c.states.fresh⟩,
                     meas := ⟨c'.meas.nodes, c.meas.fresh⟩, janitor := c'.janitor }

theorem clear_endKey {V : Type} {shape : Nat → List ℚ → Bool} {b : Buf V} (hs : SortedL b.nodes) :
    ∃ b' D, b.clearOlderThan (.gnu shape) 60 = .ok b' ∧ b.nodes = D ++ b'.nodes ∧
      b'.fresh = b.fresh ∧ ∀ d ∈ D, d.key < endKey 0 b.nodes - 60 := by
  obtain ⟨b', hb'⟩ := clear_gnu shape hs (age := 60) (by norm_num)
  by_cases hne : b.nodes = []
  · have : b' = b := by
      simp only [Buf.clearOlderThan, bind, Except.bind, pure, Except.pure, Buf.last, Buf.first, hne,
        List.getLast?_nil, List.head?_nil, timeOf] at hb'
      norm_num at hb'
      exact hb'.symm
    exact ⟨b', [], hb', by simp [this], by rw [this], by simp⟩
  · obtain ⟨n, hn, hk, hlast⟩ := endKey_mem (t := 0) hne
    obtain ⟨D, r, B, h1, h2, h3, h4, _⟩ := clear_split hs (by norm_num) hlast hb'
    exact ⟨b', D, hb', by rw [h1, h2], h3, by rw [← hk]; exact h4⟩

namespace Core

theorem cleanUp_evict (s1 s2) (c : Core A W X C M T) (hs : SortedL c.states.nodes)
    (hm : SortedL c.meas.nodes) :
    ∃ c' Ds Dm, cleanUp (gnuEnv s1 s2) { c with janitor := 0 } = .ok c' ∧ Evict c c' Ds Dm := by
  obtain ⟨b, D, hb, h1, h2, h3⟩ := clear_endKey (shape := s1) hs
  obtain ⟨b2, D2, hb2, h12, h22, h32⟩ := clear_endKey (shape := s2) hm
  refine ⟨{ c with states := b, meas := b2, janitor := 0 }, D, D2, ?_, ⟨h1, h12, h3, h32, ?_⟩⟩
  · simp only [cleanUp, gnuEnv, hb, hb2, bind, Except.bind, pure, Except.pure]
  · simp only
    rw [← h2, ← h22]

section
variable [AddCommGroup A] [Module ℚ A] [AddCommGroup W] [Module ℚ W]

/-- The end of `GetClosestState`, once the state to use is known. -/
theorem getClosestState_tail {K : Kernel A W X C M T E} (hK : K.Regular) (s1 s2)
    (c c1 c2 : Core A W X C M T) (t : ℚ) {n : SN A W X C} {it : Iter} {k : SN A W X C}
    (hit : c.states.iterClosest (.gnu s1) t = .ok n.iter) (hn : n ∈ c.states.nodes)
    (hs : SortedL c.states.nodes) (hinv : n.key ≠ invalidTime) (hnear : |n.key - t| ≤ 1 / 10)
    (hint : interpolate K c n t = (c1, it)) (hk1 : ∃ k1 ∈ c1.states.nodes, k1.iter = it ∧ k1.key = k.key)
    (hs1 : SortedL c1.states.nodes) (hp : propPToState K c1 k.key = .ok c2)
    (hk : k ∈ c2.states.nodes) (hki : k.iter = it) (hs2 : SortedL c2.states.nodes)
    (hm2 : SortedL c2.meas.nodes) :
    ∃ c3 Ds Dm, getClosestState (gnuEnv s1 s2) K c t = .ok (c3, some k) ∧ Evict c2 c3 Ds Dm := by
  obtain ⟨k1, hk1, rfl, hkk⟩ := hk1
  have e1 : getClosestState (gnuEnv s1 s2) K c t =
      (if c2.janitor > 100 then
        (cleanUp (gnuEnv s1 s2) { c2 with janitor := 0 }).bind (fun c => .ok (c, some k))
      else .ok ({ c2 with janitor := c2.janitor + 1 }, some k)) := by
    unfold getClosestState
    simp only [gnuEnv, bind, Except.bind, pure, Except.pure, hit, Buf.deref_mem hs hn]
    rw [if_neg (by rintro (h | h); exact hinv h; exact absurd h (not_lt.2 hnear))]
    simp only [hint, Buf.deref_mem hs1 hk1, hkk, hp]
    rw [← hki, Buf.deref_mem hs2 hk]
    simp only [hK.numX, if_true]
  rw [e1]
  split
  · obtain ⟨c', Ds, Dm, h1, h2⟩ := cleanUp_evict s1 s2 c2 hs2 hm2
    rw [h1]
    exact ⟨c', Ds, Dm, rfl, h2⟩
  · exact ⟨_, [], [], rfl, by simp, by simp, by simp, by simp, rfl⟩

/-- `GetClosestState` when the nearest state is within 1 ms. -/
theorem getClosestState_hit {K : Kernel A W X C M T E} (hK : K.Regular) (s1 s2)
    (c : Core A W X C M T) (t : ℚ) {A1 B1 B2 : List (SN A W X C)} {a n k : SN A W X C}
    (hl : c.states.nodes = A1 ++ a :: (B1 ++ B2)) (hs : SortedL c.states.nodes)
    (hm : SortedL c.meas.nodes)
    (hit : c.states.iterClosest (.gnu s1) t = .ok n.iter) (hn : n ∈ c.states.nodes)
    (hinv : n.key ≠ invalidTime) (hnear : |n.key - t| ≤ 1 / 1000) (htP : c.tP = a.key)
    (hB1 : ∀ b ∈ B1, b.key ≤ n.key) (hB2 : ∀ b ∈ B2.head?, n.key < b.key)
    (hk : k ∈ A1 ++ a :: (propP K a B1 ++ B2)) (hkn : frame k = frame n) :
    ∃ c3 Ds Dm, getClosestState (gnuEnv s1 s2) K c t = .ok (c3, some k) ∧
      Evict { c with
        states := ⟨A1 ++ a :: (propP K a B1 ++ B2), c.states.fresh⟩
        tP := endKey c.tP B1 } c3 Ds Dm := by
  have hkey : k.key = n.key := congrArg Prod.fst hkn
  have hiter : k.iter = n.iter := by
    have h2 := congrArg (fun f => f.2.1) hkn
    simp only [frame] at h2
    simp [Node.iter, hkey, h2]
  have hfr : (A1 ++ a :: (propP K a B1 ++ B2)).map frame = c.states.nodes.map frame := by
    rw [hl]; simp [frame_propP]
  refine getClosestState_tail hK s1 s2 c c _ t hit hn hs hinv (hnear.trans (by norm_num)) (it := n.iter) ?_
    ⟨n, hn, rfl, hkey.symm⟩ hs ?_ hk hiter ((sorted_of_frame hfr).2 hs) hm
  · unfold interpolate
    rw [if_neg (not_lt.2 hnear)]
  · rw [hkey]
    exact propPToState_eq K n.key c hl hs htP hB1 hB2

end
end Core

/-- `k` is nearest to `t` among `ks`, the smallest such on a tie. -/
def NearKey (t k : ℚ) (ks : List ℚ) : Prop :=
  k ∈ ks ∧ ∀ k' ∈ ks, |k - t| ≤ |k' - t| ∧ (|k - t| = |k' - t| → k ≤ k')

theorem NearKey.nearest {t : ℚ} {V : Type} {l : List (Node V)} {n : Node V} (hn : n ∈ l)
    (h : NearKey t n.key (l.map Node.key)) : NearestIn t l n :=
  ⟨hn, fun m hm => h.2 m.key (List.mem_map_of_mem hm)⟩

/-- A nearest key beyond `n` is nearest to a time beyond `n`. -/
theorem NearKey.lt_of_lt {t k n : ℚ} {ks : List ℚ} (h : NearKey t k ks) (hn : n ∈ ks) (hk : n < k) :
    n < t := by
  by_contra hc
  have hc := not_lt.1 hc
  have h1 := (h.2 n hn).1
  rw [abs_of_nonneg (by linarith), abs_of_nonneg (by linarith)] at h1
  linarith

/-- No key lies between a time and its nearest key. -/
theorem NearKey.no_between {t k u : ℚ} {ks : List ℚ} (h : NearKey t k ks) (hu : u ∈ ks)
    (h1 : t < u) (h2 : u < k) : False := by
  have := (h.2 u hu).1
  rw [abs_of_nonneg (by linarith), abs_of_nonneg (by linarith)] at this
  linarith

theorem append_prefix_old {V : Type} {A1 D Z R : List (Node V)} {n : Node V} {q : ℚ}
    (h : A1 ++ n :: R = D ++ Z) (hD : ∀ d ∈ D, d.key < q) (hn : q ≤ n.key) :
    ∃ A3, A1 = D ++ A3 ∧ Z = A3 ++ n :: R := by
  rcases List.append_eq_append_iff.1 h with ⟨a', rfl, h2⟩ | ⟨c', rfl, h2⟩
  · cases a' with
    | nil => exact ⟨[], by simp, by simpa using h2.symm⟩
    | cons x a' =>
      simp only [List.cons_append, List.cons.injEq] at h2
      obtain ⟨rfl, _⟩ := h2
      exact absurd (hD n (by simp)) (not_lt.2 hn)
  · exact ⟨c', rfl, h2⟩

/-- The members of the core that the measurement loop leaves alone. -/
structure Same (c c' : Core A W X C M T) : Prop where
  queue : c'.queue = c.queue
  itImu : c'.itImu = c.itImu
  inited : c'.inited = c.inited
  predMade : c'.predMade = c.predMade
  out : c'.out = c.out
  lastAmImu : c'.lastAmImu = c.lastAmImu
  lastAmExt : c'.lastAmExt = c.lastAmExt

theorem Same.trans {c1 c2 c3 : Core A W X C M T} (h : Same c1 c2) (h' : Same c2 c3) : Same c1 c3 :=
  ⟨h'.1.trans h.1, h'.2.trans h.2, h'.3.trans h.3, h'.4.trans h.4, h'.5.trans h.5, h'.6.trans h.6,
    h'.7.trans h.7⟩

theorem Evict.same {c c' : Core A W X C M T} {Ds Dm} (h : Evict c c' Ds Dm) : Same c c' := by
  have := h.eq
  constructor <;> rw [this]

/-- The situation between two measurements of the loop: the trajectory is consistent up to `n`. -/
structure Mid (K : Kernel A W X C M T E) (ms : ℚ → Option M) (s0 : X × C) (N : ℚ)
    (c : Core A W X C M T) (D A1 : List (SN A W X C)) (n : SN A W X C)
    (B : List (SN A W X C)) : Prop where
  nodes : c.states.nodes = A1 ++ n :: B
  sorted : SortedL c.states.nodes
  pos : ∀ k ∈ c.states.nodes, 0 < k.key
  newest : endKey 0 c.states.nodes = N
  recent : 3 ≤ recent N c.states.nodes
  keep : N - 60 ≤ n.key
  tP : c.tP = n.key
  inited : c.inited = true
  predMade : c.predMade = true
  cons : Cons K ms s0 (D ++ A1 ++ [n])

/-- The measurements still to be applied after `n`. -/
structure Todo (K : Kernel A W X C M T E) (ms : ℚ → Option M) (τ : ℚ → ℚ) (N : ℚ)
    (c : Core A W X C M T) (n : SN A W X C) (B : List (SN A W X C))
    (MA MB : List (Node (Meas M))) : Prop where
  meas : c.meas.nodes = MA ++ MB
  sorted : SortedL c.meas.nodes
  le : ∀ m ∈ c.meas.nodes, m.key ≤ N
  late : ∀ m ∈ MB, N - 60 ≤ m.key ∧ 0 < m.key
  near : ∀ m ∈ MB, NearKey m.key (τ m.key) (c.states.nodes.map Node.key)
  close : ∀ m ∈ MB, |τ m.key - m.key| ≤ 1 / 1000
  after : ∀ m ∈ MB, n.key < τ m.key
  body : ∀ m ∈ MB, ms (τ m.key) = some m.val.body
  incr : MB.Pairwise (fun m m' => τ m.key < τ m'.key)
  only : ∀ b ∈ B, ms b.key ≠ none → ∃ m ∈ MB, τ m.key = b.key
  xprop : ∃ B1 B2, B = B1 ++ B2 ∧ (n :: B1).IsChain (RelX K) ∧
    (∀ m ∈ MB.head?, τ m.key ∈ B1.map Node.key) ∧ (MB = [] → B2 = [])

/-- Walking the covariance along a stretch without measurements. -/
theorem reach {K : Kernel A W X C M T E} {ms : ℚ → Option M} {s0 : X × C}
    {L C1 : List (SN A W X C)} {n k : SN A W X C} (h : Cons K ms s0 (L ++ [n]))
    (hx : (n :: (C1 ++ [k])).IsChain (RelX K)) (hn : ∀ b ∈ C1, ms b.key = none) :
    ∃ C' k', propP K n (C1 ++ [k]) = C' ++ [k'] ∧ frame k' = frame k ∧
      C'.map frame = C1.map frame ∧ Cons K ms s0 (L ++ n :: C') ∧
      (k'.val.x, k'.val.P) = prior K s0 (L ++ n :: C') k' := by
  have hfr := frame_propP K n (C1 ++ [k])
  have hX := chainX_propP K n n _ rfl rfl rfl hx
  have hP := chain_propP K n (C1 ++ [k])
  rcases List.eq_nil_or_concat (propP K n (C1 ++ [k])) with h0 | ⟨C', k', h0⟩
  · rw [h0] at hfr; simp at hfr
  rw [List.concat_eq_append] at h0
  rw [h0] at hfr hX hP
  simp only [List.map_append, List.map_cons, List.map_nil] at hfr
  obtain ⟨hC, hk⟩ := List.append_inj' hfr rfl
  simp only [List.cons.injEq, and_true] at hk
  refine ⟨C', k', h0, hk, hC, ?_, ?_⟩
  · refine ⟨?_, ?_⟩
    · have : (L ++ n :: C').head? = (L ++ [n]).head? := by cases L <;> simp
      rw [this]; exact h.head
    · rw [List.isChain_split]
      have e : n :: (C' ++ [k']) = (n :: C') ++ [k'] := rfl
      rw [e] at hX hP
      refine ⟨h.chain, rel_of_XP hX.left_of_append hP.left_of_append ?_⟩
      intro b hb
      obtain ⟨m, hm, e⟩ := mem_of_frame hC hb
      have : b.key = m.key := (congrArg Prod.fst e).symm
      rw [this]; exact hn m hm
  · obtain ⟨Y, p, hY⟩ : ∃ Y p, n :: C' = Y ++ [p] := by
      rcases List.eq_nil_or_concat (n :: C') with h | ⟨Y, p, h⟩
      · simp at h
      · exact ⟨Y, p, by simpa using h⟩
    have e : n :: (C' ++ [k']) = Y ++ p :: [k'] := by
      rw [← List.cons_append, hY]; simp
    rw [e, List.isChain_split] at hX hP
    have h1 : RelX K p k' := by simpa using hX.2
    have h2 : RelP K p k' := by simpa using hP.2
    have : prior K s0 (L ++ n :: C') k' = priorOf K p k' := by
      unfold prior
      rw [hY]; simp
    rw [this]
    unfold RelX at h1
    unfold RelP at h2
    unfold priorOf
    rw [← h1, ← h2]

namespace Core

/-- Applying a measurement at a state that holds its prior, and re-propagating. -/
theorem applyStep {K : Kernel A W X C M T E} (hK : K.Regular) {ms : ℚ → Option M} {τ : ℚ → ℚ}
    {s0 : X × C} {N : ℚ} {c : Core A W X C M T} {D A1 B : List (SN A W X C)} {n : SN A W X C}
    {MA MB : List (Node (Meas M))} {m : Node (Meas M)}
    (nodes : c.states.nodes = A1 ++ n :: B) (sorted : SortedL c.states.nodes)
    (pos : ∀ k ∈ c.states.nodes, 0 < k.key) (newest : endKey 0 c.states.nodes = N)
    (hrec : 3 ≤ recent N c.states.nodes) (keep : N - 60 ≤ n.key)
    (inited : c.inited = true) (predMade : c.predMade = true)
    (cons : Cons K ms s0 (D ++ A1)) (hprior : (n.val.x, n.val.P) = prior K s0 (D ++ A1) n)
    (hbody : ms n.key = some m.val.body)
    (ha : c.tP = n.key ∨ (K.update c.tracker m.val.body n.val.x n.val.P).applied = true)
    (meas : c.meas.nodes = MA ++ m :: MB) (msorted : SortedL c.meas.nodes)
    (le : ∀ m ∈ c.meas.nodes, m.key ≤ N)
    (late : ∀ m ∈ MB, N - 60 ≤ m.key ∧ 0 < m.key)
    (near : ∀ m ∈ MB, NearKey m.key (τ m.key) (c.states.nodes.map Node.key))
    (close : ∀ m ∈ MB, |τ m.key - m.key| ≤ 1 / 1000)
    (after : ∀ m ∈ MB, n.key < τ m.key)
    (body : ∀ m ∈ MB, ms (τ m.key) = some m.val.body)
    (incr : MB.Pairwise (fun m m' => τ m.key < τ m'.key))
    (only : ∀ b ∈ B, ms b.key ≠ none → ∃ m ∈ MB, τ m.key = b.key) :
    ∃ c5 n' B', repropagate K (applyMeas K c m.val n) n.key (Buf.toIter MB.head?) = .ok (c5, false) ∧
      c5.meas = c.meas ∧ Same c c5 ∧ frame n' = frame n ∧ B'.map frame = B.map frame ∧
      Mid K ms s0 N c5 D A1 n' B' ∧ Todo K ms τ N c5 n' B' (MA ++ [m]) MB := by
  obtain ⟨tr, fz, happ⟩ := applyMeas_eq hK c m.val nodes sorted ha
  rw [happ]
  set c4 : Core A W X C M T := { c with
      states := ⟨A1 ++ applied K m.val.body n :: B, c.states.fresh⟩
      tracker := tr, fuzzy := fz, tP := n.key } with hc4
  have hfr4 : c4.states.nodes.map frame = c.states.nodes.map frame := by
    rw [nodes]; simp [hc4]
  have hs4 : SortedL c4.states.nodes := (sorted_of_frame hfr4).2 sorted
  have key_mem : ∀ {l : List (SN A W X C)}, l.map frame = c.states.nodes.map frame →
      ∀ k ∈ l, ∃ k' ∈ c.states.nodes, k'.key = k.key := by
    intro l hl k hk
    obtain ⟨k', hk', e⟩ := mem_of_frame hl hk
    exact ⟨k', hk', congrArg Prod.fst e⟩
  have pos' : ∀ {l : List (SN A W X C)}, l.map frame = c.states.nodes.map frame →
      ∀ k ∈ l, 0 < k.key := by
    intro l hl k hk
    obtain ⟨k', hk', e⟩ := key_mem hl k hk
    rw [← e]; exact pos k' hk'
  have hnm : ∀ m' ∈ MB.head?, n.key ≤ m'.key := by
    intro m' hm'
    have hm'' := List.mem_of_head? hm'
    exact ((near m' hm'').lt_of_lt (List.mem_map_of_mem (by rw [nodes]; simp)) (after m' hm'')).le
  obtain ⟨B1, B2, hB, hrep, hnil, hbet⟩ := repropagate_eq K c4
    (A1 := A1) (n := applied K m.val.body n) (B := B) (MA := MA ++ [m]) (MB := MB) rfl hs4
    (fun k hk => by have := pos' hfr4 k hk; simp only [invalidTime]; intro h; linarith)
    inited predMade (by simp [hc4, meas]) msorted hnm
  rw [applied_key] at hrep
  have hfrB : (propX K (applied K m.val.body n) B1 ++ B2).map frame = B.map frame := by
    rw [hB]; simp [frame_propX]
  have hfr5 : (A1 ++ applied K m.val.body n ::
      (propX K (applied K m.val.body n) B1 ++ B2)).map frame = c.states.nodes.map frame := by
    rw [nodes, List.map_append, List.map_append, List.map_cons, List.map_cons, hfrB, applied_frame]
  refine ⟨_, applied K m.val.body n, _, hrep, rfl, ⟨rfl, rfl, rfl, rfl, rfl, rfl, rfl⟩, rfl, hfrB,
    ?_, ?_⟩
  · refine ⟨rfl, (sorted_of_frame hfr5).2 sorted, pos' hfr5, ?_, ?_, keep, rfl, inited, predMade, ?_⟩
    · rw [← newest]; exact endKey_of_frame hfr5 0
    · rw [recent_frame hfr5]; exact hrec
    · rw [Cons.snoc]
      refine ⟨cons, ?_⟩
      have hp : prior K s0 (D ++ A1) (applied K m.val.body n) = prior K s0 (D ++ A1) n := by
        unfold prior
        cases (D ++ A1).getLast? <;> rfl
      rw [hp, ← hprior, applied_key, hbody]
      rfl
  · refine ⟨by simp [hc4, meas], msorted, le, late, ?_, close, after, body, incr, ?_, ?_⟩
    · intro m' hm'
      have := near m' hm'
      rw [← keys_of_frame hfr5] at this
      exact this
    · intro b hb hne
      obtain ⟨b', hb', e⟩ := mem_of_frame hfrB hb
      have e : b'.key = b.key := congrArg Prod.fst e
      rw [← e] at hne ⊢
      exact only b' hb' hne
    · refine ⟨_, B2, rfl, chain_propX K _ B1, ?_, hnil⟩
      intro m' hm'
      have hm'' := List.mem_of_head? hm'
      rw [keys_of_frame (frame_propX K _ B1)]
      have hin := (near m' hm'').1
      rw [nodes, hB] at hin
      simp only [List.map_append, List.map_cons, List.mem_append, List.mem_cons] at hin
      have haft := after m' hm''
      rcases hin with h | h | h | h
      · obtain ⟨a, ha, e⟩ := List.mem_map.1 h
        have hs' := sorted
        rw [nodes, SortedL.append_iff] at hs'
        have := hs'.2.2 a ha n (by simp)
        rw [e] at this
        linarith
      · rw [h] at haft; exact absurd haft (lt_irrefl _)
      · exact h
      · exfalso
        obtain ⟨b, hb, e⟩ := List.mem_map.1 h
        obtain ⟨u, hu, h1, h2⟩ := hbet m' hm' b hb
        rw [e] at h2
        refine (near m' hm'').no_between (List.mem_map_of_mem (a := u) ?_) h1 h2
        rw [nodes, hB]; simp [hu]

section
variable [AddCommGroup A] [Module ℚ A] [AddCommGroup W] [Module ℚ W]

/-- The measurement loop from the second measurement on. -/
theorem sweep {K : Kernel A W X C M T E} (hK : K.Regular) (s1 s2) {ms : ℚ → Option M} {τ : ℚ → ℚ}
    {s0 : X × C} {N : ℚ} (MB : List (Node (Meas M))) :
    ∀ (fuel : Nat) (c : Core A W X C M T) (app : Bool) (D A1 : List (SN A W X C)) (n : SN A W X C)
      (B : List (SN A W X C)) (MA : List (Node (Meas M))),
    MB.length < fuel → Mid K ms s0 N c D A1 n B → Todo K ms τ N c n B MA MB →
    ∃ c' D' A' n' B' MA', measLoop (gnuEnv s1 s2) K fuel c (Buf.toIter MB.head?) app
        = .ok (c', app || !MB.isEmpty, false) ∧
      Mid K ms s0 N c' D' A' n' B' ∧ Todo K ms τ N c' n' B' MA' [] ∧ Same c c' ∧
      (D' ++ A' ++ n' :: B').map frame = (D ++ A1 ++ n :: B).map frame ∧
      (∃ D2 : List (SN A W X C), D' = D ++ D2 ∧ ∀ d ∈ D2, d.key < N - 60) ∧
      (∃ Dm, c.meas.nodes = Dm ++ c'.meas.nodes ∧ ∀ d ∈ Dm, d.key < N - 60) := by
  induction MB with
  | nil =>
    intro fuel c app D A1 n B MA hf hmid htodo
    cases fuel with
    | zero => simp at hf
    | succ fuel =>
      refine ⟨c, D, A1, n, B, MA, ?_, hmid, htodo, ⟨rfl, rfl, rfl, rfl, rfl, rfl, rfl⟩, rfl,
        ⟨[], by simp, by simp⟩, ⟨[], by simp, by simp⟩⟩
      change measLoop _ K (fuel + 1) c .fin app = _
      unfold measLoop
      simp
  | cons m MB ih =>
    intro fuel c app D A1 n B MA hf hmid htodo
    cases fuel with
    | zero => simp at hf
    | succ fuel =>
      obtain ⟨B1, B2, hB, hX, hin, _⟩ := htodo.xprop
      have hτ : τ m.key ∈ B1.map Node.key := hin m (by simp)
      obtain ⟨k, hk, hkτ⟩ := List.mem_map.1 hτ
      obtain ⟨C1, E1, hCE⟩ := List.append_of_mem hk
      have hBk : B = C1 ++ k :: (E1 ++ B2) := by rw [hB, hCE]; simp
      have hnodes : c.states.nodes = A1 ++ n :: ((C1 ++ [k]) ++ (E1 ++ B2)) := by
        rw [hmid.nodes, hBk]; simp
      have hsB := hmid.sorted
      rw [hmid.nodes, SortedL.append_iff, SortedL.cons_iff, hBk, SortedL.append_iff,
        SortedL.cons_iff] at hsB
      have hkmem : k ∈ c.states.nodes := by rw [hnodes]; simp
      have hX' : (n :: (C1 ++ [k])).IsChain (RelX K) := by
        rw [hCE] at hX
        have e : n :: (C1 ++ k :: E1) = (n :: (C1 ++ [k])) ++ E1 := by simp
        rw [e] at hX
        exact hX.left_of_append
      -- no measurement before k
      have hC1 : ∀ b ∈ C1, ms b.key = none := by
        intro b hb
        by_contra hne
        obtain ⟨m', hm', e⟩ := htodo.only b (by rw [hBk]; simp [hb]) hne
        have hlt : b.key < k.key := hsB.2.1.2.2.2 b hb k (by simp)
        rw [← e, hkτ] at hlt
        rcases List.mem_cons.1 hm' with rfl | hm'
        · exact lt_irrefl _ hlt
        · have := (List.pairwise_cons.1 htodo.incr).1 m' hm'
          linarith
      obtain ⟨C', k', hprop, hfk, hfC, hcons, hprior⟩ := reach hmid.cons hX' hC1
      have hk'key : k'.key = k.key := congrArg Prod.fst hfk
      -- the closest state is k
      have hlen : 3 ≤ c.states.nodes.length := hmid.recent.trans recent_le
      have hinv : ∀ z ∈ c.states.nodes, z.key ≠ invalidTime := by
        intro z hz
        have := hmid.pos z hz
        simp only [invalidTime]; intro h; linarith
      have hnearK := htodo.near m (by simp)
      have hit : c.states.iterClosest (.gnu s1) m.key = .ok k.iter := by
        refine iterClosest_nearest hmid.sorted hinv hlen (NearKey.nearest hkmem ?_)
        rw [hkτ]; exact hnearK
      have hclose : |k.key - m.key| ≤ 1 / 1000 := by rw [hkτ]; exact htodo.close m (by simp)
      obtain ⟨c3, Ds, Dm, hgcs, hev⟩ := getClosestState_hit hK s1 s2 c m.key (k := k')
        (B1 := C1 ++ [k]) (B2 := E1 ++ B2) hnodes hmid.sorted htodo.sorted hit hkmem
        (hinv k hkmem) hclose hmid.tP
        (by
          intro b hb
          rcases List.mem_append.1 hb with hb | hb
          · exact (hsB.2.1.2.2.2 b hb k (by simp)).le
          · simp only [List.mem_singleton] at hb; rw [hb])
        (fun b hb => hsB.2.1.2.2.1.1 b (List.mem_of_head? hb))
        (by rw [hprop]; simp) hfk
      rw [hprop] at hev
      set c2 : Core A W X C M T := { c with
        states := ⟨A1 ++ n :: (C' ++ [k'] ++ (E1 ++ B2)), c.states.fresh⟩
        tP := endKey c.tP (C1 ++ [k]) } with hc2
      have hfr2 : c2.states.nodes.map frame = c.states.nodes.map frame := by
        rw [hnodes]; simp [hc2, hfC, hfk]
      have hN2 : endKey 0 c2.states.nodes = N := by
        rw [← hmid.newest]; exact endKey_of_frame hfr2 0
      have hDs : ∀ d ∈ Ds, d.key < N - 60 := by rw [← hN2]; exact hev.oldS
      obtain ⟨A3, hA3, hZ⟩ := append_prefix_old (A1 := A1) (n := n)
        (R := C' ++ [k'] ++ (E1 ++ B2)) hev.states hDs hmid.keep
      -- measurement buffer after clean-up
      have hNm : endKey 0 c2.meas.nodes ≤ N := by
        have hne : c2.meas.nodes ≠ [] := by simp [hc2, htodo.meas]
        obtain ⟨z, hz, e, _⟩ := endKey_mem (t := 0) hne
        rw [← e]; exact htodo.le z hz
      have hDm : ∀ d ∈ Dm, d.key < N - 60 := fun d hd => by
        have := hev.oldM d hd
        linarith
      have hmeas2 : c2.meas.nodes = MA ++ m :: MB := htodo.meas
      obtain ⟨MA3, hMA3, hMZ⟩ := append_prefix_old (n := m) (hmeas2.symm.trans hev.meas) hDm
        (htodo.late m (by simp)).1
      have hkeyn : N - 60 ≤ k'.key := by
        rw [hk'key]
        have := hsB.2.1.1 k (by simp)
        exact hmid.keep.trans this.le
      have hs2 : SortedL c2.states.nodes := (sorted_of_frame hfr2).2 hmid.sorted
      have hs3 : SortedL c3.states.nodes := hs2.sublist (by
        rw [hev.states]; exact List.sublist_append_right _ _)
      have hm3 : SortedL c3.meas.nodes := htodo.sorted.sublist (by
        have : c.meas.nodes = Dm ++ c3.meas.nodes := hev.meas
        rw [this]; exact List.sublist_append_right _ _)
      have hsub3 : ∀ z ∈ c3.states.nodes, ∃ z' ∈ c.states.nodes, z'.key = z.key := by
        intro z hz
        have : z ∈ c2.states.nodes := by rw [hev.states]; simp [hz]
        obtain ⟨z', hz', e⟩ := mem_of_frame hfr2 this
        exact ⟨z', hz', congrArg Prod.fst e⟩
      have hn3 : c3.states.nodes = (A3 ++ n :: C') ++ k' :: (E1 ++ B2) := by
        rw [hZ]; simp
      have hsame3 : Same c c3 := Same.trans (c2 := c2) ⟨rfl, rfl, rfl, rfl, rfl, rfl, rfl⟩ hev.same
      have hmem_after : ∀ m' ∈ MB, k'.key < τ m'.key := by
        intro m' hm'
        rw [hk'key, hkτ]
        exact (List.pairwise_cons.1 htodo.incr).1 m' hm'
      have hnear3 : ∀ m' ∈ MB, NearKey m'.key (τ m'.key) (c3.states.nodes.map Node.key) := by
        intro m' hm'
        have h0 := htodo.near m' (by simp [hm'])
        refine ⟨?_, ?_⟩
        · have h1 := h0.1
          rw [← keys_of_frame hfr2, hev.states] at h1
          simp only [List.map_append, List.mem_append] at h1
          rcases h1 with h1 | h1
          · obtain ⟨d, hd, e⟩ := List.mem_map.1 h1
            have h2 := hDs d hd
            have h3 := hmem_after m' hm'
            rw [e] at h2
            linarith
          · exact h1
        · intro q hq
          obtain ⟨z, hz, rfl⟩ := List.mem_map.1 hq
          obtain ⟨z', hz', e⟩ := hsub3 z hz
          rw [← e]
          exact h0.2 z'.key (List.mem_map_of_mem hz')
      obtain ⟨c5, n5, B5, hrep, hmeq, hsame5, hfn5, hfB5, hmid5, htodo5⟩ :=
        applyStep hK (D := D ++ Ds) (MA := MA3) (MB := MB) (m := m) hn3 hs3
          (by
            intro z hz
            obtain ⟨z', hz', e⟩ := hsub3 z hz
            rw [← e]; exact hmid.pos z' hz')
          (by
            rw [hn3, endKey_append_cons, ← hN2]
            simp only [hc2]
            rw [show A1 ++ n :: (C' ++ [k'] ++ (E1 ++ B2)) = (A1 ++ n :: C') ++ k' :: (E1 ++ B2) by simp,
              endKey_append_cons])
          (by
            have h1 : MSF.recent N c2.states.nodes = MSF.recent N c3.states.nodes := by
              rw [hev.states]; exact recent_drop hDs
            rw [← h1, recent_frame hfr2]; exact hmid.recent)
          hkeyn (hsame3.inited.trans hmid.inited) (hsame3.predMade.trans hmid.predMade)
          (by
            have : D ++ Ds ++ (A3 ++ n :: C') = D ++ A1 ++ n :: C' := by rw [hA3]; simp
            rw [this]; exact hcons)
          (by
            have : D ++ Ds ++ (A3 ++ n :: C') = D ++ A1 ++ n :: C' := by rw [hA3]; simp
            rw [this]; exact hprior)
          (by rw [hk'key, hkτ]; exact htodo.body m (by simp))
          (by
            left
            rw [hev.eq, hk'key]
            simp [hc2, endKey])
          (by rw [hMZ]) hm3
          (by
            intro z hz
            refine htodo.le z ?_
            have : c.meas.nodes = Dm ++ c3.meas.nodes := hev.meas
            rw [this]; simp [hz])
          (fun z hz => htodo.late z (by simp [hz])) hnear3
          (fun z hz => htodo.close z (by simp [hz])) hmem_after
          (fun z hz => htodo.body z (by simp [hz])) (List.pairwise_cons.1 htodo.incr).2
          (by
            intro b hb hne
            obtain ⟨m', hm', e⟩ := htodo.only b (by rw [hBk]; simp only [List.mem_append, List.mem_cons]
                                                    right; right; exact List.mem_append.1 hb) hne
            rcases List.mem_cons.1 hm' with rfl | hm'
            · have : k.key < b.key := hsB.2.1.2.2.1.1 b hb
              rw [← e, ← hkτ] at this
              exact absurd this (lt_irrefl _)
            · exact ⟨m', hm', e⟩)
      obtain ⟨c', D', A', n', B', MA', hloop, hmid', htodo', hsame', hfr', hD', hDm'⟩ :=
        ih fuel c5 true (D ++ Ds) (A3 ++ n :: C') n5 B5 (MA3 ++ [m]) (by simpa using hf) hmid5 htodo5
      refine ⟨c', D', A', n', B', MA', ?_, hmid', htodo', (hsame3.trans hsame5).trans hsame', ?_, ?_, ?_⟩
      · change measLoop _ K (fuel + 1) c m.iter app = _
        unfold measLoop
        rw [if_neg (by simp [Node.iter])]
        have hd1 : c.meas.deref m.iter = .ok m :=
          Buf.deref_mem htodo.sorted (by rw [htodo.meas]; simp)
        have hd3 : c3.meas.deref m.iter = .ok m := Buf.deref_mem hm3 (by rw [hMZ]; simp)
        have hi3 : (applyMeas K c3 m.val k').meas.incr m.iter = .ok (Buf.toIter MB.head?) := by
          have : (applyMeas K c3 m.val k').meas = c3.meas := rfl
          rw [this]
          exact Buf.incr_at hMZ hm3
        simp only [bind, Except.bind, hd1, pure, Except.pure,
          not_le.2 (htodo.late m (by simp)).2, if_false, hgcs]
        rw [if_neg (by
          rw [hk'key, not_le]
          exact hmid.pos k hkmem)]
        simp only [hd3, hi3, hrep]
        simp only [Bool.false_eq_true, if_false]
        rw [hloop]
        simp
      · rw [hfr']
        have e1 : D ++ Ds ++ (A3 ++ n :: C') ++ n5 :: B5 = D ++ A1 ++ n :: (C' ++ n5 :: B5) := by
          rw [hA3]; simp
        rw [e1, hBk]
        simp [hfC, hfn5, hfB5, hfk]
      · obtain ⟨D2, h1, h2⟩ := hD'
        refine ⟨Ds ++ D2, ?_, ?_⟩
        · rw [h1]; simp
        · intro d hd
          rcases List.mem_append.1 hd with hd | hd
          · exact hDs d hd
          · exact h2 d hd
      · obtain ⟨Dm2, h1, h2⟩ := hDm'
        refine ⟨Dm ++ Dm2, ?_, ?_⟩
        · have : c.meas.nodes = Dm ++ c3.meas.nodes := hev.meas
          rw [this, ← hmeq, h1]; simp
        · intro d hd
          rcases List.mem_append.1 hd with hd | hd
          · exact hDm d hd
          · exact h2 d hd

end
end Core
end MSF
