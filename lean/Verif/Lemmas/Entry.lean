import Verif.Lemmas.Sweep2

/-!
# The first measurement of the loop, and the end of `AddMeasurement`
-/

namespace MSF
variable {A W X C M T E : Type}

namespace Core
section
variable [AddCommGroup A] [Module ℚ A] [AddCommGroup W] [Module ℚ W]

/-- The loop, started at a measurement whose state has been found and holds its prior. -/
theorem enter {K : Kernel A W X C M T E} (hK : K.Regular) (s1 s2) {ms : ℚ → Option M} {τ : ℚ → ℚ}
    {s0 : X × C} {N : ℚ} {c c2 c3 : Core A W X C M T} {D A1 B : List (SN A W X C)} {n : SN A W X C}
    {MA MB : List (Node (Meas M))} {m : Node (Meas M)} {Ds : List (SN A W X C)}
    {Dm : List (Node (Meas M))} {fuel : Nat} {app : Bool}
    (hfuel : MB.length < fuel)
    (hgcs : getClosestState (gnuEnv s1 s2) K c m.key = .ok (c3, some n))
    (hev : Evict c2 c3 Ds Dm) (hcm : c2.meas = c.meas) (hsame : Same c c2)
    (nodes : c2.states.nodes = A1 ++ n :: B) (sorted : SortedL c2.states.nodes)
    (pos : ∀ k ∈ c2.states.nodes, 0 < k.key) (newest : endKey 0 c2.states.nodes = N)
    (hrec : 3 ≤ recent N c2.states.nodes) (keep : N - 60 ≤ n.key)
    (inited : c.inited = true) (predMade : c.predMade = true)
    (cons : Cons K ms s0 (D ++ A1)) (hprior : (n.val.x, n.val.P) = prior K s0 (D ++ A1) n)
    (hbody : ms n.key = some m.val.body)
    (ha : c2.tP = n.key ∨ (K.update c2.tracker m.val.body n.val.x n.val.P).applied = true)
    (meas : c.meas.nodes = MA ++ m :: MB) (msorted : SortedL c.meas.nodes)
    (le : ∀ m ∈ c.meas.nodes, m.key ≤ N)
    (late0 : N - 60 ≤ m.key ∧ 0 < m.key)
    (late : ∀ m ∈ MB, N - 60 ≤ m.key ∧ 0 < m.key)
    (near : ∀ m ∈ MB, NearKey m.key (τ m.key) (c2.states.nodes.map Node.key))
    (close : ∀ m ∈ MB, |τ m.key - m.key| ≤ 1 / 1000)
    (after : ∀ m ∈ MB, n.key < τ m.key)
    (body : ∀ m ∈ MB, ms (τ m.key) = some m.val.body)
    (incr : MB.Pairwise (fun m m' => τ m.key < τ m'.key))
    (only : ∀ b ∈ B, ms b.key ≠ none → ∃ m ∈ MB, τ m.key = b.key) :
    ∃ c' D' A' n' B' MA', measLoop (gnuEnv s1 s2) K (fuel + 1) c m.iter app
        = .ok (c', true, false) ∧
      Mid K ms s0 N c' D' A' n' B' ∧ Todo K ms τ N c' n' B' MA' [] ∧ Same c c' ∧
      (D' ++ A' ++ n' :: B').map frame = (D ++ A1 ++ n :: B).map frame ∧
      (∃ D2 : List (SN A W X C), D' = D ++ D2 ∧ ∀ d ∈ D2, d.key < N - 60) ∧
      (∃ Dm, c.meas.nodes = Dm ++ c'.meas.nodes ∧ ∀ d ∈ Dm, d.key < N - 60) := by
  have hDs : ∀ d ∈ Ds, d.key < N - 60 := by rw [← newest]; exact hev.oldS
  obtain ⟨A3, hA3, hZ⟩ := append_prefix_old (nodes.symm.trans hev.states) hDs keep
  have hNm : endKey 0 c2.meas.nodes ≤ N := by
    have hne : c2.meas.nodes ≠ [] := by simp [hcm, meas]
    obtain ⟨z, hz, e, _⟩ := endKey_mem (t := 0) hne
    rw [← e]; rw [hcm] at hz; exact le z hz
  have hDm : ∀ d ∈ Dm, d.key < N - 60 := fun d hd => by
    have := hev.oldM d hd
    linarith
  have hev' : c.meas.nodes = Dm ++ c3.meas.nodes := by rw [← hcm]; exact hev.meas
  obtain ⟨MA3, hMA3, hMZ⟩ := append_prefix_old (n := m) (meas.symm.trans hev') hDm late0.1
  have hs3 : SortedL c3.states.nodes := sorted.sublist (by
    rw [hev.states]; exact List.sublist_append_right _ _)
  have hm3 : SortedL c3.meas.nodes := msorted.sublist (by
    rw [hev']; exact List.sublist_append_right _ _)
  have hsub3 : ∀ z ∈ c3.states.nodes, z ∈ c2.states.nodes := by
    intro z hz; rw [hev.states]; simp [hz]
  have hnn : n ∈ c2.states.nodes := by rw [nodes]; simp
  have hsame3 : Same c c3 := hsame.trans hev.same
  have hnear3 : ∀ m' ∈ MB, NearKey m'.key (τ m'.key) (c3.states.nodes.map Node.key) := by
    intro m' hm'
    have h0 := near m' hm'
    refine ⟨?_, ?_⟩
    · have h1 := h0.1
      rw [hev.states] at h1
      simp only [List.map_append, List.mem_append] at h1
      rcases h1 with h1 | h1
      · obtain ⟨d, hd, e⟩ := List.mem_map.1 h1
        have h2 := hDs d hd
        have h3 := after m' hm'
        rw [e] at h2
        linarith
      · exact h1
    · intro q hq
      obtain ⟨z, hz, rfl⟩ := List.mem_map.1 hq
      exact h0.2 z.key (List.mem_map_of_mem (hsub3 z hz))
  have e0 : D ++ Ds ++ A3 = D ++ A1 := by rw [hA3]; simp
  obtain ⟨c5, n5, B5, hrep, hmeq, hsame5, hfn5, hfB5, hmid5, htodo5⟩ :=
    applyStep hK (D := D ++ Ds) (MA := MA3) (MB := MB) (m := m) hZ hs3
      (fun z hz => pos z (hsub3 z hz))
      (by rw [hZ, endKey_append_cons, ← newest, nodes, endKey_append_cons])
      (by
        have h1 : recent N c2.states.nodes = recent N c3.states.nodes := by
          rw [hev.states]; exact recent_drop hDs
        rw [← h1]; exact hrec)
      keep (hsame3.inited.trans inited) (hsame3.predMade.trans predMade)
      (by rw [e0]; exact cons) (by rw [e0]; exact hprior) hbody (by rw [hev.eq]; exact ha) hMZ hm3
      (by
        intro z hz
        refine le z ?_
        rw [hev']; simp [hz])
      late hnear3 close after body incr only
  obtain ⟨c', D', A', n', B', MA', hloop, hmid', htodo', hsame', hfr', hD', hDm'⟩ :=
    sweep hK s1 s2 MB fuel c5 true (D ++ Ds) A3 n5 B5 (MA3 ++ [m]) hfuel hmid5 htodo5
  refine ⟨c', D', A', n', B', MA', ?_, hmid', htodo', (hsame3.trans hsame5).trans hsame', ?_, ?_, ?_⟩
  · unfold measLoop
    rw [if_neg (by simp [Node.iter])]
    have hd1 : c.meas.deref m.iter = .ok m := Buf.deref_mem msorted (by rw [meas]; simp)
    have hd3 : c3.meas.deref m.iter = .ok m := Buf.deref_mem hm3 (by rw [hMZ]; simp)
    have hi3 : (applyMeas K c3 m.val n).meas.incr m.iter = .ok (Buf.toIter MB.head?) := by
      have : (applyMeas K c3 m.val n).meas = c3.meas := rfl
      rw [this]
      exact Buf.incr_at hMZ hm3
    simp only [bind, Except.bind, hd1, pure, Except.pure, not_le.2 late0.2, if_false, hgcs]
    rw [if_neg (by
      rw [not_le]
      exact pos n hnn)]
    simp only [hd3, hi3, hrep]
    simp only [Bool.false_eq_true, if_false]
    rw [hloop]
    simp
  · rw [hfr', e0]
    simp [hfn5, hfB5]
  · obtain ⟨D2, h1, h2⟩ := hD'
    refine ⟨Ds ++ D2, ?_, ?_⟩
    · rw [h1]; simp
    · intro d hd
      rcases List.mem_append.1 hd with hd | hd
      · exact hDs d hd
      · exact h2 d hd
  · obtain ⟨Dm2, h1, h2⟩ := hDm'
    refine ⟨Dm ++ Dm2, ?_, ?_⟩
    · rw [hev', ← hmeq, h1]; simp
    · intro d hd
      rcases List.mem_append.1 hd with hd | hd
      · exact hDm d hd
      · exact h2 d hd

/-- The loop, started at a measurement that is rejected, when no later measurement is buffered and
the trajectory is consistent up to the newest state: nothing changes. -/
theorem enter_reject {K : Kernel A W X C M T E} (hK : K.Regular) (s1 s2) {ms : ℚ → Option M}
    {τ : ℚ → ℚ}
    {s0 : X × C} {N : ℚ} {c c2 c3 : Core A W X C M T} {D A1 B : List (SN A W X C)} {n : SN A W X C}
    {MA : List (Node (Meas M))} {m : Node (Meas M)} {Ds : List (SN A W X C)}
    {Dm : List (Node (Meas M))} {fuel : Nat} {app : Bool}
    (hfuel : 0 < fuel)
    (hgcs : getClosestState (gnuEnv s1 s2) K c m.key = .ok (c3, some n))
    (hev : Evict c2 c3 Ds Dm) (hcm : c2.meas = c.meas) (hsame : Same c c2)
    (nodes : c2.states.nodes = A1 ++ n :: B) (sorted : SortedL c2.states.nodes)
    (pos : ∀ k ∈ c2.states.nodes, 0 < k.key) (newest : endKey 0 c2.states.nodes = N)
    (hrec : 3 ≤ recent N c2.states.nodes) (keep : N - 60 ≤ n.key)
    (inited : c.inited = true) (predMade : c.predMade = true)
    (cons : Cons K ms s0 (D ++ A1 ++ n :: B)) (hnone : ∀ b ∈ B, ms b.key = none)
    (hrej : (K.update c2.tracker m.val.body n.val.x n.val.P).applied = false) (htP : c2.tP = N)
    (meas : c.meas.nodes = MA ++ [m]) (msorted : SortedL c.meas.nodes)
    (le : ∀ m ∈ c.meas.nodes, m.key ≤ N)
    (late0 : N - 60 ≤ m.key ∧ 0 < m.key) :
    ∃ c' D' A' n' B' MA', measLoop (gnuEnv s1 s2) K (fuel + 1) c m.iter app
        = .ok (c', true, false) ∧
      Mid K ms s0 N c' D' A' n' B' ∧ Todo K ms τ N c' n' B' MA' [] ∧ Same c c' ∧
      (D' ++ A' ++ n' :: B').map frame = (D ++ A1 ++ n :: B).map frame ∧
      (∃ D2 : List (SN A W X C), D' = D ++ D2 ∧ ∀ d ∈ D2, d.key < N - 60) ∧
      (∃ Dm, c.meas.nodes = Dm ++ c'.meas.nodes ∧ ∀ d ∈ Dm, d.key < N - 60) := by
  have hDs : ∀ d ∈ Ds, d.key < N - 60 := by rw [← newest]; exact hev.oldS
  obtain ⟨A3, hA3, hZ⟩ := append_prefix_old (nodes.symm.trans hev.states) hDs keep
  have hNm : endKey 0 c2.meas.nodes ≤ N := by
    have hne : c2.meas.nodes ≠ [] := by simp [hcm, meas]
    obtain ⟨z, hz, e, _⟩ := endKey_mem (t := 0) hne
    rw [← e]; rw [hcm] at hz; exact le z hz
  have hDm : ∀ d ∈ Dm, d.key < N - 60 := fun d hd => by
    have := hev.oldM d hd
    linarith
  have hev' : c.meas.nodes = Dm ++ c3.meas.nodes := by rw [← hcm]; exact hev.meas
  obtain ⟨MA3, hMA3, hMZ⟩ := append_prefix_old (n := m) (meas.symm.trans hev') hDm late0.1
  have hs3 : SortedL c3.states.nodes := sorted.sublist (by
    rw [hev.states]; exact List.sublist_append_right _ _)
  have hm3 : SortedL c3.meas.nodes := msorted.sublist (by
    rw [hev']; exact List.sublist_append_right _ _)
  have hsub3 : ∀ z ∈ c3.states.nodes, z ∈ c2.states.nodes := by
    intro z hz; rw [hev.states]; simp [hz]
  have hnn : n ∈ c2.states.nodes := by rw [nodes]; simp
  have hsame3 : Same c c3 := hsame.trans hev.same
  have e0 : D ++ Ds ++ A3 = D ++ A1 := by rw [hA3]; simp
  have htr : c3.tracker = c2.tracker := by rw [hev.eq]
  have htP3 : c3.tP = N := by rw [hev.eq]; exact htP
  -- the rejected update
  have hr := hK.reject _ _ _ _ hrej
  set r := K.update c2.tracker m.val.body n.val.x n.val.P with hrdef
  have happ : applyMeas K c3 m.val n = { c3 with tracker := r.tr, fuzzy := c3.fuzzy || r.fuzzy } := by
    unfold applyMeas
    rw [Buf.deref_mem hs3 (n := n) (by rw [hZ]; simp)]
    simp only [htr, ← hrdef, hrej, hr.1, hr.2, Bool.false_eq_true, if_false]
    have : c3.states.modify n.key (fun v => { v with x := n.val.x, P := n.val.P }) = c3.states := by
      have e : ∀ b : Buf (St A W X C), b = ⟨b.nodes, b.fresh⟩ := fun b => rfl
      rw [e (c3.states.modify _ _), Buf.modify_split hZ hs3]
      conv_rhs => rw [e c3.states, hZ]
      simp [Buf.modify]
    rw [this]
  set c4 : Core A W X C M T := { c3 with tracker := r.tr, fuzzy := c3.fuzzy || r.fuzzy } with hc4
  have hx : (n :: B).IsChain (RelX K) := by
    have := cons.chain
    rw [List.isChain_split] at this
    exact relX_of_rel this.2 hnone
  obtain ⟨B1, B2, hB, hrep, hnil, _⟩ := repropagate_eq K c4
    (A1 := A3) (n := n) (B := B) (MA := MA3 ++ [m]) (MB := []) hZ hs3
    (fun k hk => by
      have := pos k (hsub3 k hk)
      simp only [invalidTime]; intro h; linarith)
    (hsame3.inited.trans inited) (hsame3.predMade.trans predMade) (by simp [hc4, hMZ]) hm3 (by simp)
  have hB2 := hnil rfl
  subst hB2
  rw [List.append_nil] at hB
  subst hB
  rw [propX_of_chain hx, List.append_nil] at hrep
  have hback : ({ c4 with states := ⟨A3 ++ n :: B, c4.states.fresh⟩ } : Core A W X C M T) = c4 := by
    rw [← hZ]
  rw [hback] at hrep
  -- the newest state
  obtain ⟨A', l, hAl⟩ : ∃ A' l, A3 ++ n :: B = A' ++ [l] := by
    rcases List.eq_nil_or_concat (A3 ++ n :: B) with h0 | ⟨A', l, h0⟩
    · simp at h0
    · exact ⟨A', l, by simpa using h0⟩
  have hnew3 : endKey 0 c3.states.nodes = N := by
    rw [hZ, endKey_append_cons, ← newest, nodes, endKey_append_cons]
  have hlk : l.key = N := by
    rw [← hnew3, hZ, hAl]; simp [endKey]
  have hcons' : Cons K ms s0 (D ++ Ds ++ A' ++ [l]) := by
    have : D ++ Ds ++ A' ++ [l] = D ++ A1 ++ n :: B := by
      rw [List.append_assoc _ A', ← hAl, ← List.append_assoc, e0]
    rw [this]; exact cons
  refine ⟨c4, D ++ Ds, A', l, [], MA3 ++ [m], ?_, ?_, ?_, ?_, ?_, ⟨Ds, rfl, hDs⟩,
    ⟨Dm, hev', hDm⟩⟩
  · unfold measLoop
    rw [if_neg (by simp [Node.iter])]
    have hd1 : c.meas.deref m.iter = .ok m := Buf.deref_mem msorted (by rw [meas]; simp)
    have hd3 : c3.meas.deref m.iter = .ok m := Buf.deref_mem hm3 (by rw [hMZ]; simp)
    have hi3 : c4.meas.incr m.iter = .ok .fin := Buf.incr_at hMZ hm3
    simp only [bind, Except.bind, hd1, pure, Except.pure, not_le.2 late0.2, if_false, hgcs]
    rw [if_neg (by
      rw [not_le]
      exact pos n hnn)]
    have hrep' : repropagate K c4 n.key .fin = .ok (c4, false) := hrep
    simp only [hd3, happ, hi3, hrep']
    simp only [Bool.false_eq_true, if_false]
    obtain ⟨f, rfl⟩ : ∃ f, fuel = f + 1 := ⟨fuel - 1, by omega⟩
    unfold measLoop
    simp
  · refine ⟨?_, hs3, fun z hz => pos z (hsub3 z hz), hnew3, ?_, by rw [hlk]; linarith,
      by rw [hlk]; exact htP3, hsame3.inited.trans inited, hsame3.predMade.trans predMade, hcons'⟩
    · exact hZ.trans hAl
    · have h1 : recent N c2.states.nodes = recent N c3.states.nodes := by
        rw [hev.states]; exact recent_drop hDs
      have h2 : recent N c3.states.nodes = recent N c4.states.nodes := rfl
      rw [← h2, ← h1]; exact hrec
  · refine ⟨by simp [hc4, hMZ], hm3, ?_, by simp, by simp, by simp, by simp, by simp, by simp,
      by simp, ⟨[], [], rfl, by simp, by simp, by simp⟩⟩
    intro z hz
    refine le z ?_
    rw [hev']; exact List.mem_append_right _ hz
  · exact hsame3.trans ⟨rfl, rfl, rfl, rfl, rfl, rfl, rfl⟩
  · have : D ++ Ds ++ A' ++ [l] = D ++ A1 ++ n :: B := by
      rw [List.append_assoc _ A', ← hAl, ← List.append_assoc, e0]
    rw [this]

end

/-- The end of `AddMeasurement`: the covariance is brought to the newest state, which is published. -/
theorem finish {K : Kernel A W X C M T E} {ms : ℚ → Option M} {τ : ℚ → ℚ}
    {s0 : X × C} {N : ℚ} {c : Core A W X C M T} {D A1 B : List (SN A W X C)} {n : SN A W X C}
    {MA : List (Node (Meas M))} (hm : Mid K ms s0 N c D A1 n B) (ht : Todo K ms τ N c n B MA []) :
    ∃ c' l, finishMeas K c = .ok c' ∧ c'.states.nodes.getLast? = some l ∧ l.key = N ∧
      (D ++ c'.states.nodes).map frame = (D ++ A1 ++ n :: B).map frame ∧
      Cons K ms s0 (D ++ c'.states.nodes) ∧ c'.tP = N ∧
      c' = { c with states := c'.states, tP := c'.tP,
                    out := c.out ++ [.afterUpdate l.key l.val.x l.val.P] } := by
  have hx : (n :: B).IsChain (RelX K) := by
    obtain ⟨B1, B2, h1, h2, _, h4⟩ := ht.xprop
    rw [h4 rfl, List.append_nil] at h1
    rw [h1]; exact h2
  have hnone : ∀ b ∈ B, ms b.key = none := by
    intro b hb
    by_contra hne
    obtain ⟨m, hm, _⟩ := ht.only b hb hne
    simp at hm
  have hN : endKey n.key B = N := by
    rw [← hm.newest, hm.nodes, endKey_append_cons]
  have hle : ∀ b ∈ B, b.key ≤ N := by
    intro b hb
    rw [← hm.newest]
    exact endKey_ge hm.sorted b (by rw [hm.nodes]; simp [hb])
  have hlast : timeOf c.states.last = N := by
    have hne : c.states.nodes ≠ [] := by rw [hm.nodes]; simp
    obtain ⟨z, hz, e, hl⟩ := endKey_mem (t := 0) hne
    unfold Buf.last
    rw [hl]
    exact e.trans hm.newest
  have hp := propPToState_eq K N c (A1 := A1) (B1 := B) (B2 := []) (a := n) (by simp [hm.nodes])
    hm.sorted hm.tP hle (by simp)
  rw [List.append_nil] at hp
  set l' := A1 ++ n :: propP K n B with hl'
  have hfr : l'.map frame = (A1 ++ n :: B).map frame := by simp [hl', frame_propP]
  have hne : l' ≠ [] := by simp [hl']
  obtain ⟨z, hz, e, hzl⟩ := endKey_mem (t := 0) hne
  have ez : z.key = N := by
    rw [e, endKey_of_frame hfr, ← hm.newest, hm.nodes]
  refine ⟨{ c with states := ⟨l', c.states.fresh⟩, tP := endKey c.tP B,
                   out := c.out ++ [.afterUpdate z.key z.val.x z.val.P] }, z, ?_, hzl, ez, ?_, ?_, ?_, ?_⟩
  · unfold finishMeas
    rw [hlast, hp]
    simp only [bind, Except.bind, pure, Except.pure, Buf.last, hzl]
  · rw [List.map_append, hfr]; simp
  · have := Cons.extend hm.cons hx hnone
    rw [hl', ← List.append_assoc]; exact this
  · change endKey c.tP B = N
    rw [hm.tP, hN]
  · rfl

end Core
end MSF
