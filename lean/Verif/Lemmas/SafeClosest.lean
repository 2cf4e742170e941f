import Verif.Lemmas.Safe

/-! `GetClosestState` succeeds for every kernel, and what it leaves behind. -/

namespace MSF

namespace Buf
variable {V : Type} {b : Buf V}

theorem split_unique {A B A' B' : List (Node V)} {a : Node V}
    (h : A ++ a :: B = A' ++ a :: B') (hs : SortedL (A ++ a :: B)) : A = A' ∧ B = B' := by
  have key : ∀ {A B : List (Node V)}, SortedL (A ++ a :: B) →
      (A ++ a :: B).filter (fun n => a.key < n.key) = B := by
    intro A B hs
    rw [SortedL.append_iff, SortedL.cons_iff] at hs
    rw [List.filter_append, List.filter_eq_nil_iff.2 (fun x hx => by
      simpa using (hs.2.2 x hx a (by simp)).le), List.nil_append, List.filter_cons,
      if_neg (by simp), List.filter_eq_self.2 fun x hx => by simpa using hs.2.1.1 x hx]
  have hB : B = B' := by
    have h1 := key hs
    rw [h] at h1 hs
    rw [← h1, key hs]
  refine ⟨?_, hB⟩
  subst hB
  exact List.append_cancel_right h

theorem key_inj (hs : SortedL b.nodes) {n m : Node V} (hn : n ∈ b.nodes) (hm : m ∈ b.nodes)
    (h : n.key = m.key) : n = m := by
  have h1 := find_eq_some hs hn
  rw [h, find_eq_some hs hm] at h1
  exact (Option.some.inj h1).symm

/-- The node found is next to the time asked for; it is the nearer one of the two neighbours unless the
buffer has two elements and the older one is the root. -/
theorem iterClosest_spec (shape : Nat → List ℚ → Bool) (hs : SortedL b.nodes) (hne : b.nodes ≠ [])
    (t : ℚ) : ∃ A n R, b.nodes = A ++ n :: R ∧ b.iterClosest (.gnu shape) t = .ok n.iter ∧
      (∀ a ∈ A, a.key < t) ∧ (∀ r ∈ R, t < r.key) ∧
      (n.key < t → ∀ r ∈ R.head?, |r.key - t| < |n.key - t| →
        A = [] ∧ R.length = 1 ∧ shape b.fresh b.keys = true) := by
  cases hf : b.find t with
  | some n =>
    obtain ⟨hn, hk⟩ := find_some hf
    obtain ⟨A, R, hl⟩ := List.append_of_mem hn
    have hs' := hs
    rw [hl, SortedL.append_iff, SortedL.cons_iff] at hs'
    exact ⟨A, n, R, hl, iterClosest_of_find hf, fun a ha => hk ▸ hs'.2.2 a ha n (by simp),
      fun r hr => hk ▸ hs'.2.1.1 r hr, fun h => absurd h (by rw [hk]; exact lt_irrefl _)⟩
  | none =>
    obtain ⟨it, hd, hit⟩ := decBegin_gnu (shape := shape) hne
    rcases position hs hne hf with ⟨n, B, hl, ht⟩ | ⟨A, n, hl, ht⟩ | ⟨A, m, n, B, hl, h1, h2⟩
    · have hs' := hs
      rw [hl, SortedL.cons_iff] at hs'
      exact ⟨[], n, B, hl, iterClosest_below hl hs ht hd, by simp, fun r hr => ht.trans (hs'.1 r hr),
        fun h => absurd h ht.not_gt⟩
    · have hs' := hs
      rw [hl, SortedL.append_iff] at hs'
      refine ⟨A, n, [], hl, iterClosest_above hl hs ht hd ?_, fun a ha =>
        (hs'.2.2 a ha n (by simp)).trans ht, by simp, by simp⟩
      intro hin
      rcases hit with hit | ⟨hit, -⟩
      · rw [hit] at hin; simp [Node.iter] at hin
      · cases A with
        | nil => rfl
        | cons a A =>
          exfalso
          rw [begin_cons (n := a) (B := A ++ [n]) (by simp [hl])] at hit
          rw [hit] at hin
          exact iter_ne (hs'.2.2 a (by simp) n (by simp)).ne hin
    · have hs' := hs
      rw [hl, SortedL.append_iff, SortedL.cons_iff, SortedL.cons_iff] at hs'
      have hA : ∀ a ∈ A, a.key < t := fun a ha => (hs'.2.2 a ha m (by simp)).trans h1
      have hR : ∀ r ∈ n :: B, t < r.key := by
        intro r hr
        rcases List.mem_cons.1 hr with rfl | hr
        · exact h2
        · exact h2.trans (hs'.2.1.2.1 r hr)
      have hq := iterClosest_between hl hs h1 h2 hd
      by_cases hm : m.iter = it
      · rw [if_pos hm] at hq
        rcases hit with hit | ⟨hit, hlen⟩
        · rw [hit] at hm; simp [Node.iter] at hm
        · have hA0 : A = [] := by
            cases A with
            | nil => rfl
            | cons a A =>
              exfalso
              rw [begin_cons (n := a) (B := A ++ m :: n :: B) (by simp [hl])] at hit
              rw [hit] at hm
              exact iter_ne (hs'.2.2 a (by simp) m (by simp)).ne hm.symm
          subst hA0
          refine ⟨[], m, n :: B, hl, ?_, by simp, hR, fun _ r _ _ => ?_⟩
          · rw [hq, ← hit, ← hm]
          · rcases hlen with h | ⟨h, h'⟩
            · rw [hl] at h; simp at h
            · rw [hl] at h
              exact ⟨rfl, by simpa using h, h'⟩
      · rw [if_neg hm] at hq
        by_cases hc : |n.key - t| < |m.key - t|
        · rw [if_pos hc] at hq
          refine ⟨A ++ [m], n, B, by rw [hl]; simp, hq, ?_, fun r hr => hR r (by simp [hr]),
            fun h => absurd h h2.not_gt⟩
          intro a ha
          rcases List.mem_append.1 ha with h | h
          · exact hA a h
          · rw [List.mem_singleton.1 h]; exact h1
        · rw [if_neg hc] at hq
          refine ⟨A, m, n :: B, hl, hq, hA, hR, fun _ r hr h => absurd h ?_⟩
          simp only [List.head?_cons, Option.mem_def, Option.some.injEq] at hr
          subst hr
          exact hc

end Buf

theorem endKey_eq {V : Type} {l l' : List (Node V)} (hs : SortedL l) (hs' : SortedL l') (hne : l ≠ [])
    (hne' : l' ≠ []) (h : ∀ n ∈ l, ∃ m ∈ l', n.key ≤ m.key) (h' : ∀ n ∈ l', ∃ m ∈ l, n.key ≤ m.key)
    (t : ℚ) : endKey t l = endKey t l' := by
  obtain ⟨n, hn, e, -⟩ := endKey_mem (t := t) hne
  obtain ⟨n', hn', e', -⟩ := endKey_mem (t := t) hne'
  apply le_antisymm
  · obtain ⟨m, hm, hle⟩ := h n hn
    rw [← e]
    exact hle.trans (endKey_ge hs' m hm)
  · obtain ⟨m, hm, hle⟩ := h' n' hn'
    rw [← e']
    exact hle.trans (endKey_ge hs m hm)

theorem endKey_suffix {V : Type} {D l : List (Node V)} (h : l ≠ []) (t : ℚ) :
    endKey t (D ++ l) = endKey t l := by
  cases l with
  | nil => exact absurd rfl h
  | cons b l => rw [endKey_append_cons, endKey_cons]

theorem suffix_ne_nil {V : Type} {D l : List (Node V)} (hne : D ++ l ≠ [])
    (hD : ∀ d ∈ D, d.key < endKey 0 (D ++ l) - 60) : l ≠ [] := by
  rintro rfl
  rw [List.append_nil] at hne hD
  obtain ⟨n, hn, e, -⟩ := endKey_mem (t := 0) hne
  have := hD n hn
  rw [e] at this
  linarith

section
variable {A W X C M T E : Type}

namespace Core

/-- The buffers are sorted and `tP` is not newer than all states. -/
structure Good (c : Core A W X C M T) : Prop where
  sorted : SortedL c.states.nodes
  msorted : SortedL c.meas.nodes
  tp : c.TP

theorem Good.ne {c : Core A W X C M T} (h : c.Good) : c.states.nodes ≠ [] := by
  obtain ⟨n, hn, -⟩ := h.tp
  exact List.ne_nil_of_mem hn

/-- What processing measurements does to the control flow: states at most a minute older than the newest
are kept, and so are measurements at most a minute older than the newest one. -/
structure Later (c c' : Core A W X C M T) : Prop where
  newest : endKey 0 c'.states.nodes = endKey 0 c.states.nodes
  keep : ∀ n ∈ c.states.nodes, endKey 0 c.states.nodes - 60 ≤ n.key →
    ∃ n' ∈ c'.states.nodes, n'.iter = n.iter
  meas : ∃ D, c.meas.nodes = D ++ c'.meas.nodes ∧ ∀ d ∈ D, d.key < endKey 0 c.meas.nodes - 60
  queue : c'.queue = c.queue
  itImu : c'.itImu = c.itImu
  inited : c'.inited = c.inited
  predMade : c'.predMade = c.predMade

theorem Later.refl (c : Core A W X C M T) : Later c c :=
  ⟨rfl, fun n hn _ => ⟨n, hn, rfl⟩, ⟨[], rfl, by simp⟩, rfl, rfl, rfl, rfl⟩

theorem key_of_iter {V : Type} {a b : Node V} (h : a.iter = b.iter) : a.key = b.key := by
  simp only [Node.iter, Iter.at.injEq] at h
  exact h.1

theorem Later.trans {c c1 c2 : Core A W X C M T} (h : Later c c1) (h' : Later c1 c2) : Later c c2 where
  newest := h'.newest.trans h.newest
  keep n hn hk := by
    obtain ⟨n1, hn1, e1⟩ := h.keep n hn hk
    obtain ⟨n2, hn2, e2⟩ := h'.keep n1 hn1 (by rw [h.newest, key_of_iter e1]; exact hk)
    exact ⟨n2, hn2, e2.trans e1⟩
  meas := by
    obtain ⟨D, e, hD⟩ := h.meas
    obtain ⟨D', e', hD'⟩ := h'.meas
    refine ⟨D ++ D', by rw [e, e', List.append_assoc], fun d hd => ?_⟩
    rcases List.mem_append.1 hd with hd | hd
    · exact hD d hd
    · have hne : c1.meas.nodes ≠ [] := by
        rw [e']; exact List.append_ne_nil_of_left_ne_nil (List.ne_nil_of_mem hd) _
      have := hD' d hd
      rwa [e, endKey_suffix hne]
  queue := h'.queue.trans h.queue
  itImu := h'.itImu.trans h.itImu
  inited := h'.inited.trans h.inited
  predMade := h'.predMade.trans h.predMade

theorem Stays.later {c c' : Core A W X C M T} (h : Stays c c') : Later c c' where
  newest := endKey_of_keys h.keys 0
  keep n hn _ := by
    obtain ⟨n', hn', e, -⟩ := mem_of_tag h.tag.symm hn
    exact ⟨n', hn', e⟩
  meas := ⟨[], by rw [h.meas]; rfl, by simp⟩
  queue := h.queue
  itImu := h.itImu
  inited := h.inited
  predMade := h.predMade

theorem Stays.good {c c' : Core A W X C M T} (h : Stays c c') (hg : c.Good) (ht : c'.TP) : c'.Good :=
  ⟨h.sorted hg.sorted, by rw [h.meas]; exact hg.msorted, ht⟩

theorem _root_.MSF.Evict.later {c c' : Core A W X C M T} {Ds Dm} (h : Evict c c' Ds Dm) (hg : c.Good) :
    Later c c' where
  newest := by
    have hne := hg.ne
    have ho := h.oldS
    rw [h.states] at hne ho
    rw [h.states, endKey_suffix (suffix_ne_nil hne ho)]
  keep n hn hk := by
    rw [h.states] at hn
    rcases List.mem_append.1 hn with hn | hn
    · exact absurd (h.oldS n hn) (not_lt.2 hk)
    · exact ⟨n, hn, rfl⟩
  meas := ⟨Dm, h.meas, h.oldM⟩
  queue := by rw [h.eq]
  itImu := by rw [h.eq]
  inited := by rw [h.eq]
  predMade := by rw [h.eq]

theorem _root_.MSF.Evict.good {c c' : Core A W X C M T} {Ds Dm} (h : Evict c c' Ds Dm) (hg : c.Good) : c'.Good where
  sorted := hg.sorted.sublist (by rw [h.states]; exact List.sublist_append_right _ _)
  msorted := hg.msorted.sublist (by rw [h.meas]; exact List.sublist_append_right _ _)
  tp := by
    have hl := h.later hg
    obtain ⟨n, hn, e, -⟩ := endKey_mem (t := 0) hg.ne
    obtain ⟨n', hn', e'⟩ := hl.keep n hn (by rw [e]; linarith)
    obtain ⟨k, hk, hle⟩ := hg.tp
    refine ⟨n', hn', ?_⟩
    have : c'.tP = c.tP := by rw [h.eq]
    rw [this, key_of_iter e', e]
    exact hle.trans (endKey_ge hg.sorted k hk)

/-- The state found for time `t`: it is next to `t`, and another query for a time between it and `t` will
not find or create a newer one. -/
structure Found (numX : X → Bool) (shape : Nat → List ℚ → Bool) (c : Core A W X C M T) (t k : ℚ) :
    Prop where
  below : ∀ n ∈ c.states.nodes, t ≤ n.key → k ≤ n.key
  above : ∀ n ∈ c.states.nodes, n.key ≤ t → n.key ≤ k
  newest : ∃ n ∈ c.states.nodes, k ≤ n.key
  settled : k < t → ∀ n ∈ c.states.nodes, n.key = k → ∃ L R, c.states.nodes = L ++ n :: R ∧
    (∀ r ∈ R, t < r.key) ∧
    (∀ r ∈ R.head?, |r.key - t| < |n.key - t| →
      L = [] ∧ R.length = 1 ∧ shape c.states.fresh c.states.keys = true) ∧
    (1 / 1000 < |n.key - t| → ∀ r ∈ R.head?,
      ¬ (n.key ≠ invalidTime ∧ r.key ≠ invalidTime ∧ numX n.val.x = true ∧ numX r.val.x = true))

end Core

namespace Flow
variable {f : Flow A W X C M T E}

variable [AddCommGroup A] [Module ℚ A] [AddCommGroup W] [Module ℚ W]

/-- `GetClosestState` from the covariance prediction on. -/
def closestTail (env : Env) (f : Flow A W X C M T E) (c : Core A W X C M T) (it : Iter) :
    Except UB (Core A W X C M T × Option (Node (St A W X C))) := do
  let n ← c.states.deref it
  let c ← propPToState f c n.key
  let n ← c.states.deref it
  if f.numX n.val.x then
    if c.janitor > 100 then
      let c ← Core.cleanUp env { c with janitor := 0 }
      return (c, some n)
    else return ({ c with janitor := c.janitor + 1 }, some n)
  else return (c, none)

theorem getClosestState_eq (env : Env) (f : Flow A W X C M T E) (c : Core A W X C M T) (t : ℚ) :
    getClosestState env f c t = (c.states.iterClosest env.ps t >>= fun it => c.states.deref it >>= fun n =>
      if n.key = invalidTime ∨ |n.key - t| > 1 / 10 then .ok (c, none)
      else closestTail env f (Core.interpolate f.toKernel c n t).1 (Core.interpolate f.toKernel c n t).2) :=
  rfl

theorem closestTail_tot (hf : f.Tame) (s1 s2) (c : Core A W X C M T) (hg : c.Good)
    {k : Node (St A W X C)} (hk : k ∈ c.states.nodes) :
    Tot (closestTail (gnuEnv s1 s2) f c k.iter) fun r =>
      ∃ c2 Ds Dm, Core.Stays c c2 ∧ c2.TP ∧ Evict c2 r.1 Ds Dm ∧
        ∀ s, r.2 = some s → s.key = k.key := by
  unfold closestTail
  refine Tot.bind_eq (Buf.deref_mem hg.sorted hk) ?_
  refine Tot.bind (propPToState_tot hf c k.key hg.sorted hg.tp) fun c2 h => ?_
  obtain ⟨hkept, ht⟩ := h
  obtain ⟨k', hk', e, ek⟩ := mem_of_tag hkept.tag.symm hk
  have hg2 := hkept.good hg ht
  rw [← e]
  refine Tot.bind_eq (Buf.deref_mem hg2.sorted hk') ?_
  have trivial' : ∀ j, Evict c2 { c2 with janitor := j } [] [] := fun j =>
    ⟨rfl, rfl, by simp, by simp, rfl⟩
  split
  · split
    · obtain ⟨c3, Ds, Dm, h3, hev⟩ := Core.cleanUp_evict s1 s2 c2 hg2.sorted hg2.msorted
      refine Tot.bind_eq h3 (Tot.ret ⟨c2, Ds, Dm, hkept, ht, hev, fun s hs => ?_⟩)
      cases hs
      exact ek
    · refine Tot.ret ⟨c2, [], [], hkept, ht, trivial' _, fun s hs => ?_⟩
      cases hs
      exact ek
  · exact Tot.ret ⟨c2, [], [], hkept, ht, trivial' _, fun s hs => by cases hs⟩

/-- The two outcomes of the interpolation. -/
theorem interpolate_cases (K : Kernel A W X C M T E) (c : Core A W X C M T) (n : Node (St A W X C)) (t : ℚ) :
    (Core.interpolate K c n t = (c, n.iter) ∧ (1 / 1000 < |n.key - t| →
      ∀ l r, c.states.closestBefore t = some l → c.states.closestAfter t = some r →
        ¬ (l.key ≠ invalidTime ∧ r.key ≠ invalidTime ∧ K.numX l.val.x = true ∧ K.numX r.val.x = true ∧
          l.key ≠ r.key))) ∨
    ∃ l r s, c.states.closestBefore t = some l ∧ c.states.closestAfter t = some r ∧ l.key ≠ r.key ∧
      1 / 1000 < |n.key - t| ∧
      Core.interpolate K c n t = ({ c with
          states := (c.states.insert t s).1
          tP := if c.tP > l.key then l.key else c.tP }, (c.states.insert t s).2) := by
  unfold Core.interpolate
  by_cases h : |n.key - t| > 1 / 1000
  · rw [if_pos h]
    cases hl : c.states.closestBefore t with
    | none => exact .inl ⟨rfl, fun _ l r h => by cases h⟩
    | some l =>
      cases hr : c.states.closestAfter t with
      | none => exact .inl ⟨rfl, fun _ l r _ h => by cases h⟩
      | some r =>
        dsimp only
        split
        · rename_i hc
          exact .inr ⟨l, r, _, rfl, rfl, hc.2.2.2.2, h, rfl⟩
        · rename_i hc
          refine .inl ⟨rfl, fun _ l' r' e e' => ?_⟩
          cases e
          cases e'
          exact hc
  · rw [if_neg h]
    exact .inl ⟨rfl, fun h' => absurd h' h⟩

theorem mem_insert {V : Type} {b : Buf V} {t : ℚ} {v : V} {n : Node V} (hn : n ∈ b.nodes) :
    n ∈ (b.insert t v).1.nodes := by
  cases hf : b.find t with
  | some m => rw [Buf.insert_of_find hf]; exact hn
  | none => rw [Buf.insert_of_none hf]; exact mem_insertNode.2 (.inr hn)

theorem mem_insert_inv {V : Type} {b : Buf V} {t : ℚ} {v : V} {n : Node V}
    (hn : n ∈ (b.insert t v).1.nodes) : n ∈ b.nodes ∨ n.key = t := by
  cases hf : b.find t with
  | some m => rw [Buf.insert_of_find hf] at hn; exact .inl hn
  | none =>
    rw [Buf.insert_of_none hf] at hn
    rcases mem_insertNode.1 hn with rfl | h
    · exact .inr rfl
    · exact .inl h

theorem insert_at {V : Type} {b : Buf V} (t : ℚ) (v : V) :
    ∃ k ∈ (b.insert t v).1.nodes, k.key = t ∧ (b.insert t v).2 = k.iter := by
  cases hf : b.find t with
  | some m =>
    rw [Buf.insert_of_find hf]
    exact ⟨m, (Buf.find_some hf).1, (Buf.find_some hf).2, rfl⟩
  | none =>
    rw [Buf.insert_of_none hf]
    exact ⟨_, mem_insertNode.2 (.inl rfl), rfl, rfl⟩

/-- `GetClosestState` never fails. -/
theorem getClosestState_tot (hf : f.Tame) (s1 s2) (c : Core A W X C M T) (hg : c.Good) (t : ℚ) :
    Tot (getClosestState (gnuEnv s1 s2) f c t) fun r =>
      Core.Later c r.1 ∧ r.1.Good ∧
      (∀ n ∈ r.1.states.nodes, (∃ n0 ∈ c.states.nodes, n0.key = n.key) ∨ n.key = t) ∧
      ∀ s, r.2 = some s → Core.Found f.numX s1 r.1 t s.key := by
  rw [getClosestState_eq]
  obtain ⟨L, n, R, hl, hit, hL, hR, hq⟩ := Buf.iterClosest_spec s1 hg.sorted hg.ne t
  have hn : n ∈ c.states.nodes := by rw [hl]; simp
  refine Tot.bind_eq hit (Tot.bind_eq (Buf.deref_mem hg.sorted hn) ?_)
  split
  · exact Tot.ok ⟨Core.Later.refl c, hg, fun m hm => .inl ⟨m, hm, rfl⟩, fun s h => by cases h⟩
  have hadjB : ∀ k ∈ c.states.nodes, t ≤ k.key → n.key ≤ k.key := by
    intro k hk hle
    have hs := hg.sorted
    rw [hl] at hk hs
    rw [SortedL.append_iff, SortedL.cons_iff] at hs
    rcases List.mem_append.1 hk with h | h
    · exact absurd (hL k h) (not_lt.2 hle)
    · rcases List.mem_cons.1 h with rfl | h
      · exact le_rfl
      · exact (hs.2.1.1 k h).le
  have hadjA : ∀ k ∈ c.states.nodes, k.key ≤ t → k.key ≤ n.key := by
    intro k hk hle
    have hs := hg.sorted
    rw [hl] at hk hs
    rw [SortedL.append_iff, SortedL.cons_iff] at hs
    rcases List.mem_append.1 hk with h | h
    · exact (hs.2.2 k h n (by simp)).le
    · rcases List.mem_cons.1 h with rfl | h
      · exact le_rfl
      · exact absurd (hR k h) (not_lt.2 hle)
  rcases interpolate_cases f.toKernel c n t with ⟨hi, href⟩ | ⟨l, r, s, hcb, hca, hlr, h1, hi⟩
  · rw [hi]
    refine (closestTail_tot hf s1 s2 c hg hn).mono fun res h => ?_
    obtain ⟨c2, Ds, Dm, hkept, ht2, hev, hsome⟩ := h
    have hg2 := hkept.good hg ht2
    have hlat := hkept.later.trans (hev.later hg2)
    have hg3 := hev.good hg2
    have hsub : ∀ m ∈ res.1.states.nodes, ∃ n0 ∈ c.states.nodes, n0.key = m.key := by
      intro m hm
      obtain ⟨n0, h0, -, e⟩ := mem_of_tag hkept.tag (n := m) (by rw [hev.states]; simp [hm])
      exact ⟨n0, h0, e⟩
    refine ⟨hlat, hg3, fun m hm => .inl (hsub m hm), fun s hs => ?_⟩
    rw [hsome s hs]
    refine ⟨fun m hm hle => ?_, fun m hm hle => ?_, ?_, fun hlt k hk hkk => ?_⟩
    · obtain ⟨m0, h0, e⟩ := hsub m hm
      rw [← e] at hle ⊢
      exact hadjB m0 h0 hle
    · obtain ⟨m0, h0, e⟩ := hsub m hm
      rw [← e] at hle ⊢
      exact hadjA m0 h0 hle
    · obtain ⟨m, hm, e, -⟩ := endKey_mem (t := 0) hg3.ne
      exact ⟨m, hm, by rw [e, hlat.newest]; exact endKey_ge hg.sorted n hn⟩
    · have hskel := hkept.skel
      rw [hl] at hskel
      obtain ⟨L2, n2, R2, hl2, hL2, hn2, hR2⟩ := split_of_map hskel
      have hn2' : n2.key = n.key ∧ n2.val.x = n.val.x := by
        simp only [Node.skel, Prod.mk.injEq] at hn2
        exact ⟨hn2.1, hn2.2.2⟩
      have hkn : k = n2 := by
        refine Buf.key_inj hg2.sorted (by rw [hev.states]; simp [hk]) (by rw [hl2]; simp) ?_
        rw [hkk, hn2'.1]
      subst hkn
      obtain ⟨L', R', hl'⟩ := List.append_of_mem hk
      have hs2 := hg2.sorted
      have hst := hev.states
      rw [hl2, hl', ← List.append_assoc] at hst
      rw [hl2] at hs2
      obtain ⟨hLD, hRR⟩ := Buf.split_unique hst hs2
      have hRk := keys_of_tag (tag_of_skel hR2)
      refine ⟨L', R', hl', fun r hr => ?_, fun r hr hlt' => ?_, fun hms r hr => ?_⟩
      · rw [← hRR] at hr
        obtain ⟨r0, h0, -, e⟩ := mem_of_tag (tag_of_skel hR2) hr
        rw [← e]
        exact hR r0 h0
      · rw [← hRR] at hr
        have : ∃ r0 ∈ R.head?, r0.key = r.key := by
          cases R2 with
          | nil => simp at hr
          | cons x R2 =>
            cases R with
            | nil => simp at hR2
            | cons y R =>
              simp only [List.head?_cons, Option.mem_def, Option.some.injEq, List.map_cons,
                List.cons.injEq] at hr hRk ⊢
              subst hr
              exact ⟨y, rfl, hRk.1.symm⟩
        obtain ⟨r0, hr0, e⟩ := this
        obtain ⟨hL0, hR1, hsh⟩ := hq hlt r0 hr0 (by rw [e, ← hkk]; exact hlt')
        have hL2' : L2 = [] := by rw [hL0] at hL2; simpa using hL2
        rw [hL2'] at hLD
        have hD : Ds = [] ∧ L' = [] := by simpa using hLD.symm
        refine ⟨hD.2, ?_, ?_⟩
        · rw [← hRR]
          have := congrArg List.length hR2
          simp only [List.length_map] at this
          rw [this, hR1]
        · have e1 : res.1.states.fresh = c.states.fresh := by
            rw [hev.eq]; exact hkept.fresh
          have e2 : res.1.states.keys = c.states.keys := by
            have := hkept.keys
            rw [hev.states, hD.1] at this
            exact this
          rw [e1, e2]; exact hsh
      · rw [← hRR] at hr
        have : ∃ r0 ∈ R.head?, r0.key = r.key ∧ r0.val.x = r.val.x := by
          cases R2 with
          | nil => simp at hr
          | cons x R2 =>
            cases R with
            | nil => simp at hR2
            | cons y R =>
              simp only [List.head?_cons, Option.mem_def, Option.some.injEq, List.map_cons,
                List.cons.injEq, Node.skel, Prod.mk.injEq] at hr hR2 ⊢
              subst hr
              exact ⟨y, rfl, hR2.1.1.symm, hR2.1.2.2.symm⟩
        obtain ⟨r0, hr0, e, ex⟩ := this
        have hcb : c.states.closestBefore t = some n := by
          rw [Buf.closestBefore_split (A := L ++ [n]) (B := R) (by rw [hl]; simp) (by
            intro a ha
            rcases List.mem_append.1 ha with h | h
            · exact hL a h
            · rw [List.mem_singleton.1 h]; exact hlt) (fun r hr => (hR r hr).le)]
          simp
        have hca : c.states.closestAfter t = some r0 := by
          unfold Buf.closestAfter
          rw [Buf.upperBound_split (A := L ++ [n]) (B := R) (by rw [hl]; simp) (by
            intro a ha
            rcases List.mem_append.1 ha with h | h
            · exact (hL a h).le
            · rw [List.mem_singleton.1 h]; exact hlt.le) hR]
          exact hr0
        rw [← e, ← ex, hkk, hn2'.2]
        rw [hkk] at hms
        intro hcon
        refine href hms n r0 hcb hca ⟨hcon.1, hcon.2.1, hcon.2.2.1, hcon.2.2.2, ?_⟩
        have : r0 ∈ R := List.mem_of_mem_head? hr0
        exact (hlt.trans (hR r0 this)).ne
  · rw [hi]
    have hs1 : SortedL (c.states.insert t s).1.nodes := Buf.sorted_insert hg.sorted t s
    obtain ⟨k, hk, hkt, hki⟩ := insert_at (b := c.states) t s
    have hr : r ∈ c.states.nodes ∧ t < r.key := by
      unfold Buf.closestAfter Buf.upperBound at hca
      exact ⟨List.mem_of_find?_eq_some hca, by simpa using List.find?_some hca⟩
    have hg1 : Core.Good ({ c with
          states := (c.states.insert t s).1
          tP := if c.tP > l.key then l.key else c.tP } : Core A W X C M T) := by
      refine ⟨hs1, hg.msorted, ?_⟩
      obtain ⟨m, hm, hle⟩ := hg.tp
      refine ⟨m, mem_insert hm, ?_⟩
      change (if c.tP > l.key then l.key else c.tP) ≤ m.key
      split
      · rename_i h; exact le_of_lt (lt_of_lt_of_le h hle)
      · exact hle
    have hlat1 : Core.Later c ({ c with
          states := (c.states.insert t s).1
          tP := if c.tP > l.key then l.key else c.tP } : Core A W X C M T) := by
      refine ⟨?_, fun m hm _ => ⟨m, mem_insert hm, rfl⟩, ⟨[], rfl, by simp⟩, rfl, rfl, rfl, rfl⟩
      refine endKey_eq hs1 hg.sorted (List.ne_nil_of_mem hk) hg.ne (fun m hm => ?_)
        (fun m hm => ⟨m, mem_insert hm, le_rfl⟩) 0
      rcases mem_insert_inv hm with h | h
      · exact ⟨m, h, le_rfl⟩
      · exact ⟨r, hr.1, by rw [h]; exact hr.2.le⟩
    change Tot (closestTail (gnuEnv s1 s2) f _ (c.states.insert t s).2) _
    rw [hki]
    refine (closestTail_tot hf s1 s2 _ hg1 hk).mono fun res h => ?_
    obtain ⟨c2, Ds, Dm, hkept, ht2, hev, hsome⟩ := h
    have hg2 := hkept.good hg1 ht2
    have hlat := (hlat1.trans hkept.later).trans (hev.later hg2)
    have hg3 := hev.good hg2
    refine ⟨hlat, hg3, fun m hm => ?_, fun s' hs' => ?_⟩
    · obtain ⟨m0, h0, -, e⟩ := mem_of_tag hkept.tag (n := m) (by rw [hev.states]; simp [hm])
      rw [← e]
      rcases mem_insert_inv h0 with h | h
      · exact .inl ⟨m0, h, rfl⟩
      · exact .inr h
    · rw [hsome s' hs', hkt]
      refine ⟨fun _ _ h => h, fun _ _ h => h, ?_, fun h => absurd h (lt_irrefl _)⟩
      obtain ⟨m, hm, e, -⟩ := endKey_mem (t := 0) hg3.ne
      exact ⟨m, hm, by rw [e, hlat.newest]; exact hr.2.le.trans (endKey_ge hg.sorted r hr.1)⟩

end Flow
end
end MSF
