import Verif.Lemmas.Inv

/-!
# The invariant is preserved by every call
-/

namespace MSF
open Spec
variable {A W X C M T E : Type}
section
variable [AddCommGroup A] [Module ℚ A] [AddCommGroup W] [Module ℚ W]

/-- Publication of the newest state after an update. -/
def lastUpd (c : Core A W X C M T) : List (Event X C) :=
  match c.states.nodes.getLast? with
  | none => []
  | some l => [.afterUpdate l.key l.val.x l.val.P]

/-- What a measurement makes the filter publish. -/
def updOut (L : Log A W M) (m : Meas M) (c : Core A W X C M T) : List (Event X C) :=
  if L.newest < m.time ∨ m.time < L.start then [] else lastUpd c

/-- What handling one waiting measurement makes the filter publish. -/
def imuOut (L : Log A W M) (c : Core A W X C M T) : List (Event X C) :=
  if 3 < L.imu.length then
    match L.queue with
    | [] => []
    | m :: q => updOut { L with queue := q } m c
  else []

namespace Inv
variable {K : Kernel A W X C M T E} {s0 : X × C} {c : Core A W X C M T} {L : Log A W M}
  {D : List (SN A W X C)}

theorem inv_ne (h : Inv K s0 c L D) : ∀ z ∈ c.states.nodes, z.key ≠ invalidTime := by
  intro z hz
  have h1 := (h.key_range z (by simp [hz])).1
  have h2 := h.pos
  simp only [invalidTime]; intro e; linarith

set_option maxHeartbeats 800000 in
/-- A measurement that counts. -/
theorem accept (hK : K.Regular) (s1 s2) (h : Inv K s0 c L D) (h3 : 3 < L.imu.length)
    {m : Meas M} (hr1 : L.start ≤ m.time) (hr2 : m.time ≤ L.newest) (hlate : L.newest - 59 ≤ m.time)
    (hsepm : ∀ m' ∈ L.hist, 1 / 500 < |m.time - m'.time|)
    (hrej : (∀ tr x P, (K.update tr m.body x P).applied = true) ∨
      (∀ m' ∈ L.hist, m'.time < m.time) ∨ ∀ k ∈ L.stamps, 1 / 1000 < |k - m.time|) :
    ∃ c' D' l, Core.addMeasurement (gnuEnv s1 s2) K c m = .ok c' ∧
      Inv K s0 c' { L with hist := L.hist ++ [m] } D' ∧
      c'.states.nodes.getLast? = some l ∧
      c'.out = c.out ++ [.afterUpdate l.key l.val.x l.val.P] := by
  have hs := (SortedL.append_iff.1 h.sorted).2.1
  obtain ⟨a, ha, hak, hai⟩ := h.last
  obtain ⟨mb, it, hmb⟩ : ∃ mb it, c.meas.insert m.time m = (mb, it) := ⟨_, _, rfl⟩
  have hmbs : SortedL mb.nodes := by
    have := Buf.sorted_insert h.msorted m.time m
    rw [hmb] at this; exact this
  have hlen : 3 ≤ c.states.nodes.length := by
    refine le_trans ?_ (recent_le (N := L.newest))
    refine recent3 h.stamps h.gaps (by omega) ?_
    intro k hk hge
    obtain ⟨z, hz, e⟩ := h.mem_nodes (Or.inl hk) hge
    exact List.mem_map.2 ⟨z, hz, e⟩
  have hcl := target_close h.stamps (t := m.time)
  have hcl' := abs_le.1 hcl
  have hdist : ∀ m' ∈ L.hist, target L.stamps m'.time ≠ target L.stamps m.time := by
    intro m' hm'
    have := hsepm m' hm'
    rw [abs_sub_comm] at this
    exact target_ne h.stamps this
  rcases target_cases h.stamps (t := m.time) with hcase | hcase
  · -- a state of the IMU is within 1 ms
    obtain ⟨n, hn, hnk⟩ := h.mem_nodes (Or.inl hcase.1.1) (by linarith [hcl'.1])
    obtain ⟨A1, B, hAB⟩ := List.append_of_mem hn
    have hnear : NearKey m.time (target L.stamps m.time) (c.states.nodes.map Node.key) := by
      refine near_of h.stamps (hist := L.hist) ?_ ?_ ?_
      · intro m' hm'
        right; rw [abs_sub_comm]; exact hsepm m' hm'
      · intro k hk
        exact (h.keys k).1 (by rw [List.map_append]; exact List.mem_append_right _ hk)
      · rw [← hnk]; exact List.mem_map_of_mem hn
    have hit : c.states.iterClosest (.gnu s1) m.time = .ok n.iter := by
      refine iterClosest_nearest hs h.inv_ne hlen (NearKey.nearest hn ?_)
      rw [hnk]; exact hnear
    obtain ⟨Al, hAl⟩ : ∃ Al, c.states.nodes = Al ++ [a] := by
      rcases List.eq_nil_or_concat c.states.nodes with h0 | ⟨Al, a', h0⟩
      · rw [h0] at ha; simp at ha
      · rw [List.concat_eq_append] at h0
        rw [h0] at ha
        simp at ha
        subst ha
        exact ⟨Al, h0⟩
    obtain ⟨c3, Ds, Dm, hgcs, hev⟩ := Core.getClosestState_hit hK s1 s2
      { c with meas := mb, fuzzy := false } m.time (A1 := Al) (a := a) (B1 := []) (B2 := [])
      (k := n) (n := n) (by simpa using hAl) hs hmbs hit hn (h.inv_ne n hn)
      (by rw [hnk]; exact hcl) (by rw [hak]; exact h.tP) (by simp) (by simp)
      (by simp only [propP, List.append_nil]; rw [← hAl]; exact hn) rfl
    have hnodes : Al ++ a :: (propP K a [] ++ []) = A1 ++ n :: B := by
      simp only [propP, List.append_nil]; rw [← hAl]; exact hAB
    have hnodes' : Al ++ a :: (propP K a [] ++ []) = c.states.nodes := by
      simp only [propP, List.append_nil]; exact hAl.symm
    have hcons := h.cons
    rw [hAB, ← List.append_assoc, show D ++ A1 ++ n :: B = (D ++ A1 ++ [n]) ++ B by simp] at hcons
    have hcons := Cons.snoc.1 hcons.prefix
    have hnone : measAt L.stamps L.hist n.key = none := measAt_none (by rw [hnk]; exact hdist)
    refine h.commit hK s1 s2 h3 hr1 hr2 hlate hsepm hmb (n := n) (A1 := A1) (B := B) hgcs hev rfl
      ⟨rfl, rfl, rfl, rfl, rfl, rfl, rfl⟩ hnodes hnk ?_ ?_ ?_ ?_ hcons.1 ?_ ?_
    · simp only [hnodes']; exact h.sorted
    · intro k
      simp only [hnodes']
      rw [h.keys k]
      constructor
      · rintro (hk | ⟨m', hm', e⟩)
        · exact Or.inl hk
        · exact Or.inr ⟨m', by simp [hm'], e⟩
      · rintro (hk | ⟨m', hm', e⟩)
        · exact Or.inl hk
        · rcases List.mem_append.1 hm' with hm' | hm'
          · exact Or.inr ⟨m', hm', e⟩
          · simp only [List.mem_singleton] at hm'
            subst hm'
            left; rw [← e]; exact hcase.1.1
    · simp only [hnodes']; exact h.inputs
    · simp only [hnodes']; exact ⟨a, ha, hak, hai⟩
    · have := hcons.2
      rw [hnone] at this
      exact this
    · simp only [hnodes']
      cases hap : (K.update c.tracker m.body n.val.x n.val.P).applied with
      | true => exact Or.inl (Or.inr rfl)
      | false =>
        refine Or.inr ⟨rfl, by simpa [endKey] using h.tP, ?_, h.cons⟩
        rcases hrej with h1 | h1 | h1
        · rw [h1] at hap; cases hap
        · exact h1
        · have h2 := h1 _ hcase.1.1
          exact absurd hcl (not_le.2 h2)
  · -- interpolation
    have hkey_ne : ∀ z ∈ c.states.nodes, 1 / 1000 < |z.key - m.time| := by
      intro z hz
      have := (h.keys z.key).1 (by rw [List.map_append]
                                   exact List.mem_append_right _ (List.mem_map_of_mem hz))
      rcases this with hk | ⟨m', hm', e⟩
      · exact hcase.2 _ hk
      · rw [← e]
        have h1 := hsepm m' hm'
        have h2 := target_close h.stamps (t := m'.time)
        have h3 : |m.time - m'.time| ≤ |target L.stamps m'.time - m.time|
            + |target L.stamps m'.time - m'.time| := by
          have := abs_sub_le m.time (target L.stamps m'.time) m'.time
          rw [abs_sub_comm m.time (target L.stamps m'.time)] at this
          exact this
        norm_num at *
        linarith
    have hfind : c.states.find m.time = none := by
      rw [Buf.find_none_iff]
      intro z hz e
      have := hkey_ne z hz
      rw [e] at this; norm_num at this
    obtain ⟨P, Q, hPQ, hP, hQ⟩ := Buf.split_strict hs hfind
    obtain ⟨pre, ra, rb, post, eimu, hra, hrb, hrab, hgap⟩ := h.bracket (by omega) hr1 hr2
    have hras : ra.1 ∈ L.stamps := by unfold Log.stamps; rw [eimu]; simp
    have hrbs : rb.1 ∈ L.stamps := by unfold Log.stamps; rw [eimu]; simp
    have hra' : ra.1 < m.time := lt_of_le_of_ne hra (by
      intro e; have := hcase.2 _ hras; rw [e] at this; norm_num at this)
    have hrb' : m.time < rb.1 := lt_of_le_of_ne hrb (by
      intro e; have := hcase.2 _ hrbs; rw [e] at this; norm_num at this)
    obtain ⟨za, hza, eza⟩ := h.mem_nodes (Or.inl hras) (by linarith)
    obtain ⟨zb, hzb, ezb⟩ := h.mem_nodes (Or.inl hrbs) (by linarith)
    have hzaP : za ∈ P := by
      rw [hPQ] at hza
      rcases List.mem_append.1 hza with hz | hz
      · exact hz
      · have := hQ za hz; linarith
    have hzbQ : zb ∈ Q := by
      rw [hPQ] at hzb
      rcases List.mem_append.1 hzb with hz | hz
      · have := hP zb hz; linarith
      · exact hz
    obtain ⟨A1, l, rfl⟩ : ∃ A1 l, P = A1 ++ [l] := by
      rcases List.eq_nil_or_concat P with h0 | ⟨A1, l, h0⟩
      · rw [h0] at hzaP; simp at hzaP
      · exact ⟨A1, l, by simpa using h0⟩
    obtain ⟨r, B, rfl⟩ : ∃ r B, Q = r :: B := by
      cases Q with
      | nil => simp at hzbQ
      | cons r B => exact ⟨r, B, rfl⟩
    have hnodes : c.states.nodes = A1 ++ l :: r :: B := by rw [hPQ]; simp
    have hs' := hs
    rw [hnodes, SortedL.append_iff, SortedL.cons_iff, SortedL.cons_iff] at hs'
    have hlt : l.key < m.time := hP l (by simp)
    have hrt : m.time < r.key := hQ r (by simp)
    have hal : ra.1 ≤ l.key := by
      rw [← eza]
      rcases List.mem_append.1 hzaP with hz | hz
      · exact (hs'.2.2 za hz l (by simp)).le
      · simp only [List.mem_singleton] at hz; rw [hz]
    have hbr : r.key ≤ rb.1 := by
      rw [← ezb]
      rcases List.mem_cons.1 hzbQ with hz | hz
      · rw [hz]
      · exact (hs'.2.1.2.1 zb hz).le
    have hlmem : l ∈ c.states.nodes := by rw [hnodes]; simp
    have hrmem : r ∈ c.states.nodes := by rw [hnodes]; simp
    -- the nearest state
    set nn := if |r.key - m.time| < |l.key - m.time| then r else l with hnn
    have hnearest : NearestIn m.time c.states.nodes nn := nearest_of_between hnodes hs hlt hrt
    have hit : c.states.iterClosest (.gnu s1) m.time = .ok nn.iter :=
      iterClosest_nearest hs h.inv_ne hlen hnearest
    have hnn10 : |nn.key - m.time| ≤ 1 / 10 := by
      refine (hnearest.2 l hlmem).1.trans ?_
      rw [abs_of_neg (by linarith)]; linarith
    -- interpolation
    set u := lerpInput l.key r.key l.val.u r.val.u m.time with hu
    set n0 : SN A W X C := ⟨m.time, c.states.fresh,
      ⟨u, K.prop (m.time - l.key) l.val.u l.val.x u, K.P0⟩⟩ with hn0
    have hcb : c.states.closestBefore m.time = some l := by
      rw [Buf.closestBefore_split hPQ hP (fun z hz => (hQ z hz).le)]
      simp
    have hca : c.states.closestAfter m.time = some r := by
      unfold Buf.closestAfter
      rw [Buf.upperBound_split hPQ (fun z hz => (hP z hz).le) hQ]
      rfl
    have hins : insertNode n0 c.states.nodes = A1 ++ l :: n0 :: r :: B := by
      rw [hPQ, insertNode_append hP hQ]; simp
    have hlN : l.key < L.newest := by linarith
    set c1 : Core A W X C M T := { c with
        meas := mb, fuzzy := false
        states := ⟨A1 ++ l :: n0 :: r :: B, c.states.fresh + 1⟩, tP := l.key } with hc1
    have hint : Core.interpolate K { c with meas := mb, fuzzy := false } nn m.time
        = (c1, n0.iter) := by
      unfold Core.interpolate
      simp only [hcb, hca]
      rw [if_pos (by
          have := hkey_ne nn hnearest.1
          exact this),
        if_pos ⟨h.inv_ne l hlmem, h.inv_ne r hrmem, hK.numX _, hK.numX _, (hlt.trans hrt).ne⟩,
        Buf.insert_of_none hfind]
      simp only [← hu, ← hn0, hins, h.tP]
      rw [if_pos hlN]
      rfl
    have hs1 : SortedL (A1 ++ l :: n0 :: r :: B) := by
      rw [← hins]
      exact sorted_insertNode hs (fun z hz => Buf.find_none hfind z hz)
    have hp := Core.propPToState_eq K m.time c1 (A1 := A1) (a := l) (B1 := [n0]) (B2 := r :: B)
      (by simp [hc1]) hs1 rfl (by simp [hn0]) (by simp; exact hrt)
    set n := pStep K l n0 with hn
    have hnk : n.key = m.time := rfl
    set c2 : Core A W X C M T := { c1 with
        states := ⟨A1 ++ l :: (propP K l [n0] ++ r :: B), c1.states.fresh⟩
        tP := endKey c1.tP [n0] } with hc2
    have htP2 : c2.tP = n.key := by
      change endKey c1.tP [n0] = m.time
      simp [endKey, hn0]
    have hc2n : c2.states.nodes = (A1 ++ [l]) ++ n :: (r :: B) := by simp [hc2, propP, hn]
    have hfr2 : c2.states.nodes.map frame = (A1 ++ l :: n0 :: r :: B).map frame := by
      rw [hc2n]; simp [hn, frame]
    obtain ⟨c3, Ds, Dm, hgcs, hev⟩ := Core.getClosestState_tail hK s1 s2
      { c with meas := mb, fuzzy := false } c1 c2 m.time hit hnearest.1 hs
      (h.inv_ne nn hnearest.1) hnn10 hint (k := n) ⟨n0, by simp [hc1], rfl, rfl⟩ hs1
      (by rw [hnk]; exact hp) (by rw [hc2n]; simp) rfl ((sorted_of_frame hfr2).2 hs1) hmbs
    have hmem2 : ∀ z ∈ D ++ c2.states.nodes, z = n ∨ z ∈ D ++ c.states.nodes := by
      intro z hz
      rw [hc2n] at hz; rw [hnodes]
      simp only [List.mem_append, List.mem_cons, List.not_mem_nil, or_false] at hz ⊢
      tauto
    have hmem2' : ∀ z, z = n ∨ z ∈ D ++ c.states.nodes → z ∈ D ++ c2.states.nodes := by
      intro z hz
      rw [hc2n]; rw [hnodes] at hz
      simp only [List.mem_append, List.mem_cons, List.not_mem_nil, or_false] at hz ⊢
      tauto
    have hcons := h.cons
    rw [hnodes, show D ++ (A1 ++ l :: r :: B) = (D ++ (A1 ++ [l])) ++ r :: B by simp] at hcons
    refine h.commit hK s1 s2 h3 hr1 hr2 hlate hsepm hmb (c2 := c2) (n := n) (A1 := A1 ++ [l])
      (B := r :: B)
      hgcs hev rfl ⟨rfl, rfl, rfl, rfl, rfl, rfl, rfl⟩ hc2n (by rw [hnk, hcase.1]) ?_ ?_ ?_ ?_
      hcons.prefix ?_ (Or.inl (Or.inl htP2))
    · rw [SortedL.append_iff]
      refine ⟨(SortedL.append_iff.1 h.sorted).1, (sorted_of_frame hfr2).2 hs1, ?_⟩
      intro d hd z hz
      rcases hmem2 z (by simp [hz]) with rfl | hz'
      · have := h.old d hd
        rw [hnk]; linarith
      · rcases List.mem_append.1 hz' with hz' | hz'
        · -- a node of c2 equal to a discarded one
          obtain ⟨z', hz2, e⟩ := mem_of_frame hfr2 hz
          have e : z'.key = z.key := congrArg Prod.fst e
          rw [← e]
          rw [← hins] at hz2
          rcases mem_insertNode.1 hz2 with rfl | hz2
          · have := h.old d hd
            change d.key < m.time; linarith
          · exact (SortedL.append_iff.1 h.sorted).2.2 d hd z' hz2
        · exact (SortedL.append_iff.1 h.sorted).2.2 d hd z hz'
    · intro k
      constructor
      · intro hk
        obtain ⟨z, hz, rfl⟩ := List.mem_map.1 hk
        rcases hmem2 z hz with rfl | hz
        · exact Or.inr ⟨m, by simp, by rw [hcase.1, hnk]⟩
        · rcases (h.keys z.key).1 (List.mem_map_of_mem hz) with hk | ⟨m', hm', e⟩
          · exact Or.inl hk
          · exact Or.inr ⟨m', by simp [hm'], e⟩
      · intro hk
        have : k = m.time ∨ k ∈ (D ++ c.states.nodes).map Node.key := by
          rcases hk with hk | ⟨m', hm', e⟩
          · exact Or.inr ((h.keys k).2 (Or.inl hk))
          · rcases List.mem_append.1 hm' with hm' | hm'
            · exact Or.inr ((h.keys k).2 (Or.inr ⟨m', hm', e⟩))
            · simp only [List.mem_singleton] at hm'
              subst hm'
              left; rw [← e, hcase.1]
        rcases this with rfl | hk
        · exact List.mem_map.2 ⟨n, hmem2' n (Or.inl rfl), hnk⟩
        · obtain ⟨z, hz, rfl⟩ := List.mem_map.1 hk
          exact List.mem_map_of_mem (hmem2' z (Or.inr hz))
    · intro z hz
      rcases hmem2 z hz with rfl | hz
      · rw [hnk]
        change u = _
        have hst : (L.imu.map Prod.fst).Pairwise (· < ·) := h.stamps
        rw [hu, h.inputs l (by simp [hlmem]), h.inputs r (by simp [hrmem]),
          inputAt_between eimu hst hal (by linarith), inputAt_between eimu hst (by linarith) hbr,
          inputAt_between eimu hst hra hrb]
        exact lerp_between hrab (hlt.trans hrt) _
      · exact h.inputs z hz
    · refine ⟨a, ?_, hak, hai⟩
      rw [hc2n, List.getLast?_append_of_ne_nil _ (by simp)]
      rw [hnodes, show A1 ++ l :: r :: B = (A1 ++ [l]) ++ r :: B by simp,
        List.getLast?_append_of_ne_nil _ (by simp)] at ha
      rw [List.getLast?_cons_cons]; exact ha
    · unfold prior
      rw [← List.append_assoc]
      simp only [List.getLast?_append, List.getLast?_singleton, Option.some_or]
      rfl

/-- A measurement arrives. -/
theorem deliver (hK : K.Regular) (s1 s2) (h : Inv K s0 c L D) (h3 : 3 < L.imu.length)
    {m : Meas M} {sure : M → Bool} (hsure : K.Sure sure) (hf : L.fresh sure m) :
    ∃ c' D', Core.addMeasurement (gnuEnv s1 s2) K c m = .ok c' ∧ Inv K s0 c' (L.deliver m) D' ∧
      c'.out = c.out ++ updOut L m c' := by
  have hpm : c.predMade = true := by rw [h.predMade]; simpa using h3
  obtain ⟨a, ha, hak, hai⟩ := h.last
  unfold Log.deliver
  by_cases h1 : L.newest < m.time
  · rw [if_pos h1]
    refine ⟨{ c with queue := c.queue ++ [m] }, D, ?_, ?_, by simp [updOut, h1]⟩
    · unfold Core.addMeasurement
      simp only [bind, Except.bind, pure, Except.pure, Buf.last, ha, timeOf]
      rw [if_neg (by simp [h.inited, hpm]), if_pos (by rw [hak]; exact h1)]
    · exact
        { inited := h.inited, predMade := h.predMade, queue := by simp [h.queue], am := h.am,
          stamps := h.stamps, ne := h.ne, pos := h.pos, gaps := h.gaps, sorted := h.sorted,
          last := h.last, tP := h.tP, cons := h.cons, keys := h.keys, inputs := h.inputs,
          old := h.old, msorted := h.msorted, mtime := h.mtime, mkept := h.mkept,
          range := h.range, sep := h.sep, early := fun hc => absurd hc (by simp only; omega) }
  · rw [if_neg h1]
    have h1 := not_lt.1 h1
    by_cases h2 : m.time < L.start
    · rw [if_pos h2]
      refine ⟨c, D, ?_, h, by simp [updOut, h2]⟩
      have hfirst : ∃ z, c.states.nodes.head? = some z ∧ m.time < z.key := by
        cases hcn : c.states.nodes with
        | nil => rw [hcn] at ha; simp at ha
        | cons y ys =>
          exact ⟨y, rfl, h2.trans_le (h.key_range y (by rw [hcn]; simp)).1⟩
      obtain ⟨y, hy1, hy2⟩ := hfirst
      unfold Core.addMeasurement
      simp only [bind, Except.bind, pure, Except.pure, Buf.last, ha, Buf.first, hy1, timeOf]
      rw [if_neg (by simp [h.inited, hpm]), if_neg (by rw [hak]; exact not_lt.2 h1), if_pos hy2]
    · rw [if_neg h2]
      obtain ⟨g1, g2, g3⟩ := hf h1 (not_lt.1 h2)
      obtain ⟨c', D', l, e1, e2, e3, e4⟩ := h.accept hK s1 s2 h3 (not_lt.1 h2) h1 g1 g2
        (g3.imp_left (fun hs => hsure _ hs))
      refine ⟨c', D', e1, e2, ?_⟩
      rw [e4, updOut, if_neg (by rintro (hx | hx); exact absurd hx (not_lt.2 h1); exact h2 hx),
        lastUpd, e3]

/-- The IMU part of `ProcessIMU`, before pending measurements are handled. -/
theorem addImu (h : Inv K s0 c L D) {t : ℚ} {u : Input A W}
    (h1 : L.newest < t) (h2 : t - L.newest ≤ 1 / 10) :
    ∃ last cur, c.states.nodes.getLast? = some last ∧ c.itImu = last.iter ∧
      last.val.u.a = L.lastAcc ∧ last.key = L.newest ∧
      cur = pStep K last (xStep K last ⟨t, c.states.fresh, ⟨u, last.val.x, K.P0⟩⟩) ∧
      ∀ am pm out, pm = decide (3 < L.imu.length + 1) → 
        Inv K s0 { c with states := ⟨c.states.nodes ++ [cur], c.states.fresh + 1⟩, itImu := cur.iter,
                          tP := t, lastAmImu := am, predMade := pm, out := out }
          { L with imu := L.imu ++ [(t, u)], am := am } D := by
  obtain ⟨last, hlast, hlk, hli⟩ := h.last
  have hlm : last ∈ c.states.nodes := List.mem_of_getLast? hlast
  refine ⟨last, _, hlast, hli, ?_, hlk, rfl, ?_⟩
  · rw [h.inputs last (by simp [hlm]), hlk]
    rcases List.eq_nil_or_concat L.imu with h0 | ⟨l, x, h0⟩
    · exact absurd h0 h.ne
    · rw [List.concat_eq_append] at h0
      have hs := h.stamps
      unfold Log.stamps at hs
      rw [h0] at hs
      have e : L.newest = x.1 := by unfold Log.newest Log.stamps; rw [h0]; simp
      rw [e, h0, inputAt_last hs]
      unfold Log.lastAcc
      rw [h0]; simp
  · intro am pm out hpm
    set cur := pStep K last (xStep K last ⟨t, c.states.fresh, ⟨u, last.val.x, K.P0⟩⟩) with hcur
    have hck : cur.key = t := rfl
    set L' : Log A W M := { L with imu := L.imu ++ [(t, u)], am := am } with hL'
    have hst' : L'.stamps = L.stamps ++ [t] := by simp [hL', Log.stamps]
    have hpw : L'.stamps.Pairwise (· < ·) := by
      rw [hst', List.pairwise_append]
      refine ⟨h.stamps, by simp, ?_⟩
      intro a ha b hb
      simp only [List.mem_singleton] at hb
      subst hb
      exact (Log.le_newest h.stamps a ha).trans_lt h1
    have hnew : L'.newest = t := by unfold Log.newest; rw [hst']; simp
    have hstart : L'.start = L.start := by
      unfold Log.start; rw [hst', List.head?_append_of_ne_nil]
      simpa [Log.stamps] using h.ne
    have htar : ∀ s, s ≤ L.newest → target L'.stamps s = target L.stamps s := by
      intro s hs
      rw [hst'] at hpw ⊢
      exact target_append hpw (Log.newest_mem h.ne) hs
    have hmt : ∀ m ∈ L.hist, target L'.stamps m.time = target L.stamps m.time :=
      fun m hm => htar _ (h.range m hm).2
    have hms : ∀ k, measAt L'.stamps L.hist k = measAt L.stamps L.hist k :=
      fun k => measAt_congr hmt
    have hnone : measAt L.stamps L.hist t = none := by
      refine measAt_none ?_
      intro m hm e
      have := (h.target_range (h.range m hm).1 (h.range m hm).2).2
      rw [e] at this
      linarith
    have hkr := h.key_range
    have hhead : ∀ s, L.start ≤ s → ∀ r ∈ L.imu.head?, r.1 ≤ s := by
      intro s hs r hr
      have : L.start = r.1 := by
        unfold Log.start Log.stamps
        rw [List.head?_map, hr]; rfl
      rw [← this]; exact hs
    have htail : ∀ s, s ≤ L.newest → ∀ r ∈ L.imu.getLast?, s ≤ r.1 := by
      intro s hs r hr
      have : L.newest = r.1 := by
        unfold Log.newest Log.stamps
        rw [List.getLast?_map, hr]; rfl
      rw [← this]; exact hs
    refine
      { inited := h.inited, predMade := ?_, queue := h.queue, am := rfl, stamps := hpw, ne := ?_,
        pos := by rw [hstart]; exact h.pos, gaps := ?_, sorted := ?_, last := ⟨cur, ?_, ?_, rfl⟩,
        tP := hnew.symm, cons := ?_, keys := ?_, inputs := ?_, old := ?_, msorted := h.msorted,
        mtime := h.mtime, mkept := ?_, range := ?_, sep := h.sep, early := ?_ }
    · rw [hpm]; simp [hL']
    · simp [hL']
    · rw [hst', List.isChain_append]
      refine ⟨h.gaps, by simp, ?_⟩
      intro a ha b hb
      simp at hb
      subst hb
      have : L.newest = a := by unfold Log.newest; rw [ha]; rfl
      rw [← this]; exact h2
    · rw [← List.append_assoc, SortedL.append_iff]
      refine ⟨h.sorted, by simp [SortedL], ?_⟩
      intro a ha b hb
      simp only [List.mem_singleton] at hb
      subst hb
      rw [hck]
      exact (hkr a ha).2.trans_lt h1
    · simp
    · rw [hck, hnew]
    · rw [← List.append_assoc, Cons.snoc]
      refine ⟨h.cons.congr (fun n _ => hms _), ?_⟩
      rw [hck, hms, hnone]
      have : prior K s0 (D ++ c.states.nodes) cur = priorOf K last cur := by
        unfold prior
        rw [List.getLast?_append_of_ne_nil _ (by intro hc; rw [hc] at hlm; simp at hlm), hlast]
      rw [this]
      rfl
    · intro k
      rw [hst', ← List.append_assoc, List.map_append, List.mem_append, h.keys k]
      simp only [List.map_cons, List.map_nil, List.mem_singleton, hck, List.mem_append]
      constructor
      · rintro ((hk | ⟨m, hm, e⟩) | hk)
        · exact Or.inl (Or.inl hk)
        · exact Or.inr ⟨m, hm, by rw [← hst', hmt m hm]; exact e⟩
        · exact Or.inl (Or.inr hk)
      · rintro ((hk | hk) | ⟨m, hm, e⟩)
        · exact Or.inl (Or.inl hk)
        · exact Or.inr hk
        · rw [← hst', hmt m hm] at e
          exact Or.inl (Or.inr ⟨m, hm, e⟩)
    · intro n hn
      rw [← List.append_assoc] at hn
      have hpw' : ((L.imu ++ [(t, u)]).map Prod.fst).Pairwise (· < ·) := hpw
      rcases List.mem_append.1 hn with hn | hn
      · rw [h.inputs n hn]
        exact (inputAt_append hpw' h.ne (hhead _ (hkr n hn).1) (htail _ (hkr n hn).2)).symm
      · simp only [List.mem_singleton] at hn
        subst hn
        rw [hck]
        exact (inputAt_last hpw').symm
    · intro d hd
      rw [hnew]
      have := h.old d hd
      linarith
    · intro m hm hge
      rw [hnew] at hge
      exact h.mkept m hm (by linarith)
    · intro m hm
      rw [hstart, hnew]
      have := h.range m hm
      exact ⟨this.1, this.2.trans h1.le⟩
    · intro hc
      refine h.early ?_
      simp [hL'] at hc
      omega

/-- Without discarded states and measurements there is one state per IMU reading. -/
theorem size_early (h : Inv K s0 c L D) (h3 : L.imu.length ≤ 3) :
    c.states.nodes.length = L.imu.length := by
  obtain ⟨e1, _, e3⟩ := h.early h3
  have hk := h.keys
  have hs := h.sorted
  rw [e3, List.nil_append, Buf.sorted_iff_keys] at hs
  have : c.states.nodes.map Node.key = L.stamps := by
    refine List.SortedLT.eq_of_mem_iff hs.sortedLT h.stamps.sortedLT ?_
    intro k
    have := hk k
    rw [e3, e1, List.nil_append] at this
    simpa using this
  have := congrArg List.length this
  simpa [Log.stamps] using this

/-- `ProcessIMU`. -/
theorem imu (hK : K.Regular) (s1 s2) (h : Inv K s0 c L D) {t : ℚ} {u : Input A W}
    {sure : M → Bool} (hsure : K.Sure sure) (hok : L.ok K.spike sure (.imu t u)) :
    ∃ c' D' cur, Core.processIMU (gnuEnv s1 s2) K c t u = .ok c' ∧
      Inv K s0 c' (L.step K.spike (.imu t u)) D' ∧ cur.key = t ∧
      (∃ D1, Inv K s0 { c with
          states := ⟨c.states.nodes ++ [cur], c.states.fresh + 1⟩
          itImu := cur.iter, tP := t, lastAmImu := (L.addImu K.spike t u).am
          predMade := decide (3 < L.imu.length + 1) } (L.addImu K.spike t u) D1) ∧
      c'.out = c.out ++ [.afterPropagation t cur.val.x cur.val.P] ++
        imuOut (L.addImu K.spike t u) c' := by
  obtain ⟨h1, h2, hq⟩ := hok
  set u' : Input A W := if K.spike u.a then ⟨L.am, u.w⟩ else u with hu'
  obtain ⟨last, cur, hlast, hli, hla, hlk, hcur, hinv⟩ := h.addImu (u := u') h1 h2
  set am' : A := if K.spike u.a then L.am else L.lastAcc with ham'
  have hL1 : L.addImu K.spike t u = { L with imu := L.imu ++ [(t, u')], am := am' } := by
    unfold Log.addImu
    split
    · rename_i hsp; simp [hu', ham', hsp]
    · rename_i hsp; simp [hu', ham', hsp]
  have hlm : last ∈ c.states.nodes := List.mem_of_getLast? hlast
  have hs := (SortedL.append_iff.1 h.sorted).2.1
  have hlinv := h.inv_ne last hlm
  obtain ⟨pm', hpm'⟩ : ∃ pm', pm' = decide (3 < L.imu.length + 1) := ⟨_, rfl⟩
  set s : St A W X C := ⟨u', K.prop (t - last.key) last.val.u last.val.x u', K.P0⟩ with hsdef
  set n0 : SN A W X C := ⟨t, c.states.fresh, s⟩ with hn0
  have hcur' : cur = pStep K last n0 := hcur
  have hciter : cur.iter = .at t c.states.fresh := by rw [hcur]; rfl
  obtain ⟨Al, hAl⟩ : ∃ Al, c.states.nodes = Al ++ [last] := by
    rcases List.eq_nil_or_concat c.states.nodes with h0 | ⟨Al, a', h0⟩
    · rw [h0] at hlast; simp at hlast
    · rw [List.concat_eq_append] at h0
      rw [h0] at hlast
      simp at hlast
      subst hlast
      exact ⟨Al, h0⟩
  have hlt : ∀ z ∈ c.states.nodes, z.key < t := fun z hz =>
    (h.key_range z (by simp [hz])).2.trans_lt h1
  have hfind : c.states.find t = none := by
    rw [Buf.find_none_iff]; intro z hz; exact (hlt z hz).ne
  have hins : insertNode n0 c.states.nodes = c.states.nodes ++ [n0] := by
    have := insertNode_append (n := n0) (A := c.states.nodes) (B := []) hlt (by simp)
    simpa using this
  have hs1 : SortedL (c.states.nodes ++ [n0]) := by
    rw [← hins]; exact sorted_insertNode hs (fun z hz => (hlt z hz).ne)
  -- covariance step
  have hstep : ∀ c1 : Core A W X C M T, c1.states = ⟨c.states.nodes ++ [n0], c.states.fresh + 1⟩ →
      c1.tP = L.newest → Core.propagatePOneStep K c1 =
      .ok { c1 with states := ⟨c.states.nodes ++ [cur], c.states.fresh + 1⟩, tP := t } := by
    intro c1 hc1 htp
    have hn1 : c1.states.nodes = Al ++ last :: n0 :: [] := by rw [hc1, hAl]; simp
    have hsn : SortedL c1.states.nodes := by rw [hc1]; exact hs1
    unfold Core.propagatePOneStep
    rw [htp, ← hlk, Core.iterAtValue_mem hsn (n := last) (by rw [hn1]; simp)]
    have hi : c1.states.incr last.iter = .ok n0.iter := Buf.incr_at hn1 hsn
    simp only [bind, Except.bind, pure, Except.pure, hi]
    rw [if_neg (by simp [Node.iter]), Buf.deref_mem hsn (n := last) (by rw [hn1]; simp),
      Buf.deref_mem hsn (n := n0) (by rw [hn1]; simp)]
    simp only [hK.numPos, if_true]
    rw [Core.predictCov_eq K c1 hn1 hsn, hc1]
    simp only [hAl, hcur', List.append_assoc, List.singleton_append]
    rfl
  have hsize : (if c.states.nodes.length + 1 > 3 then true else c.predMade) = pm' := by
    rw [hpm', h.predMade]
    by_cases hle : L.imu.length ≤ 3
    · have := h.size_early hle
      rw [this]
      split
      · rename_i hgt; simp; omega
      · rename_i hgt; simp; omega
    · have h4 : 3 < L.imu.length := by omega
      have h5 : 3 < L.imu.length + 1 := by omega
      simp [h4, h5]
  set cI : Core A W X C M T :=
    { c with states := ⟨c.states.nodes ++ [cur], c.states.fresh + 1⟩, itImu := cur.iter,
             tP := t, lastAmImu := am', predMade := pm',
             out := c.out ++ [.afterPropagation t cur.val.x cur.val.P] } with hcI
  have hInvI : Inv K s0 cI (L.addImu K.spike t u) D := by
    rw [hL1]; exact hinv am' pm' _ hpm'
  have hproc : Core.processIMU (gnuEnv s1 s2) K c t u =
      if pm' then Core.handlePending (gnuEnv s1 s2) K cI else .ok cI := by
    unfold Core.processIMU
    rw [if_neg (by simp [h.inited])]
    have hne : c.itImu ≠ .fin := by rw [hli]; simp [Node.iter]
    simp only [bind, Except.bind, pure, Except.pure, if_neg hne]
    rw [hli, Buf.deref_mem hs hlm]
    simp only
    rw [if_neg hlinv, if_neg (by
      rintro ⟨hx, _⟩
      rw [hlk] at hx
      linarith)]
    have hdt : ¬ (|t - last.key| > 1 / 10) := by
      rw [hlk, abs_of_pos (by linarith)]; exact not_lt.2 h2
    have key : ∀ c1 : Core A W X C M T, c1.states = c.states → c1.tP = c.tP →
        c1.predMade = c.predMade → c1.out = c.out → 
        { c1 with states := cI.states, itImu := cI.itImu, tP := t, predMade := pm',
                  out := cI.out } = cI →
        Core.imuPropagate (gnuEnv s1 s2) K c1 last t u' =
        if pm' then Core.handlePending (gnuEnv s1 s2) K cI else .ok cI := by
      intro c1 e1 e2 e3 e4 e5
      unfold Core.imuPropagate
      have hf1 : c1.states.find t = none := by rw [e1]; exact hfind
      have hnd : (⟨insertNode ⟨t, c1.states.fresh, ⟨u', K.prop (t - last.key) last.val.u last.val.x u',
          K.P0⟩⟩ c1.states.nodes, c1.states.fresh + 1⟩ : Buf (St A W X C))
          = ⟨c.states.nodes ++ [n0], c.states.fresh + 1⟩ := by rw [e1, ← hins]
      simp only [Buf.insert_of_none hf1, hnd]
      rw [hstep _ rfl (by simp only; rw [e2]; exact h.tP)]
      simp only [bind, Except.bind, pure, Except.pure, hf1, Option.isSome_none, Bool.false_eq_true,
        if_false]
      have hd : Buf.deref (⟨c.states.nodes ++ [cur], c.states.fresh + 1⟩ : Buf (St A W X C))
          (.at t c1.states.fresh) = .ok cur := by
        have hfr : (c.states.nodes ++ [cur]).map frame = (c.states.nodes ++ [n0]).map frame := by
          simp [hcur', frame]
        have := Buf.deref_mem (b := ⟨c.states.nodes ++ [cur], c.states.fresh + 1⟩)
          ((sorted_of_frame hfr).2 hs1) (n := cur) (by simp)
        rw [e1, ← hciter]
        exact this
      rw [hd]
      simp only [Except.map, Buf.size, List.length_append, List.length_singleton]
      have hci : cI = { c1 with
          states := ⟨c.states.nodes ++ [cur], c.states.fresh + 1⟩
          itImu := .at t c1.states.fresh, tP := t
          out := c1.out ++ [.afterPropagation t cur.val.x cur.val.P]
          predMade := pm' } := by
        rw [← e5, e1, e4, ← hciter]
      by_cases hgt : c.states.nodes.length + 1 > 3
      · rw [if_pos hgt] at hsize
        simp only [hgt, if_true]
        rw [hci, ← hsize]
        simp
      · rw [if_neg hgt] at hsize
        simp only [hgt, if_false]
        have e6 : c1.predMade = pm' := e3.trans hsize
        have hci' : cI = { c1 with
          states := ⟨c.states.nodes ++ [cur], c.states.fresh + 1⟩
          itImu := .at t c1.states.fresh, tP := t
          out := c1.out ++ [.afterPropagation t cur.val.x cur.val.P] } := by
          rw [hci, ← e6]
        rw [hci', ← e6]
    by_cases hsp : K.spike u.a = true
    · simp only [hsp, if_true]
      rw [if_neg (by rintro ⟨_, hx⟩; exact hdt hx)]
      have e : ({ u with a := c.lastAmImu } : Input A W) = u' := by
        rw [hu', if_pos hsp, h.am]
      rw [e]
      refine key _ rfl rfl rfl rfl ?_
      simp only [hcI, ham', if_pos hsp, ← h.am]
    · have hsp' : K.spike u.a = false := by simpa using hsp
      simp only [hsp', Bool.false_eq_true, if_false]
      rw [if_neg (by rintro ⟨_, hx⟩; exact hdt hx)]
      have e : u = u' := by rw [hu', if_neg hsp]
      conv_lhs => rw [e]
      refine key _ rfl rfl rfl rfl ?_
      simp only [hcI, ham', if_neg hsp, hla]
  have hD1 : Inv K s0 { c with
          states := ⟨c.states.nodes ++ [cur], c.states.fresh + 1⟩
          itImu := cur.iter, tP := t, lastAmImu := (L.addImu K.spike t u).am
          predMade := decide (3 < L.imu.length + 1) } (L.addImu K.spike t u) D := by
    rw [hL1]; exact hinv am' _ c.out rfl
  have hlen1 : (L.addImu K.spike t u).imu.length = L.imu.length + 1 := by rw [hL1]; simp
  have hck : cur.key = t := by rw [hcur]; rfl
  have hstepL : L.step K.spike (.imu t u) =
      if 3 < (L.addImu K.spike t u).imu.length then (L.addImu K.spike t u).pop
      else L.addImu K.spike t u := rfl
  by_cases h4 : 3 < L.imu.length + 1
  · have hp : pm' = true := by rw [hpm']; simpa using h4
    rw [hproc, hp]
    simp only [if_true]
    rw [hstepL, if_pos (by rw [hlen1]; exact h4)]
    have hqq : cI.queue = (L.addImu K.spike t u).queue := hInvI.queue
    cases hqe : (L.addImu K.spike t u).queue with
    | nil =>
      have e1 : Core.handlePending (gnuEnv s1 s2) K cI = .ok cI := by
        unfold Core.handlePending; rw [hqq, hqe]
      have e2 : (L.addImu K.spike t u).pop = L.addImu K.spike t u := by
        unfold Log.pop; rw [hqe]
      rw [e1, e2]
      exact ⟨cI, D, cur, rfl, hInvI, hck, ⟨D, hD1⟩, by simp [imuOut, hqe, hcI]⟩
    | cons m q =>
      have e1 : Core.handlePending (gnuEnv s1 s2) K cI =
          Core.addMeasurement (gnuEnv s1 s2) K { cI with queue := q } m := by
        unfold Core.handlePending; rw [hqq, hqe]
      have e2 : (L.addImu K.spike t u).pop = { L.addImu K.spike t u with queue := q }.deliver m := by
        unfold Log.pop; rw [hqe]
      rw [e1, e2]
      have hInvQ : Inv K s0 { cI with queue := q } { L.addImu K.spike t u with queue := q } D :=
        { inited := hInvI.inited, predMade := hInvI.predMade, queue := rfl, am := hInvI.am,
          stamps := hInvI.stamps, ne := hInvI.ne, pos := hInvI.pos, gaps := hInvI.gaps,
          sorted := hInvI.sorted, last := hInvI.last, tP := hInvI.tP, cons := hInvI.cons,
          keys := hInvI.keys, inputs := hInvI.inputs, old := hInvI.old, msorted := hInvI.msorted,
          mtime := hInvI.mtime, mkept := hInvI.mkept, range := hInvI.range, sep := hInvI.sep,
          early := fun hc => absurd hc (by simp only; rw [hlen1]; omega) }
      obtain ⟨c', D', e1, e2, e3⟩ := hInvQ.deliver hK s1 s2 (m := m) (by simp only; rw [hlen1]; exact h4)
        hsure (hq (by rw [hlen1]; exact h4) m q hqe)
      refine ⟨c', D', cur, e1, e2, hck, ⟨D, hD1⟩, ?_⟩
      rw [e3, imuOut, if_pos (by rw [hlen1]; exact h4), hqe]
  · have hp : pm' = false := by rw [hpm']; simpa using h4
    rw [hproc, hp]
    simp only [Bool.false_eq_true, if_false]
    rw [hstepL, if_neg (by rw [hlen1]; exact h4)]
    refine ⟨cI, D, cur, rfl, hInvI, hck, ⟨D, hD1⟩, ?_⟩
    rw [imuOut, if_neg (by rw [hlen1]; exact h4)]
    simp [hcI]

/-- `AddMeasurement` as a call. -/
theorem meas (hK : K.Regular) (s1 s2) (h : Inv K s0 c L D) {m : Meas M}
    {sure : M → Bool} (hsure : K.Sure sure) (hok : L.ok K.spike sure (.meas m)) :
    ∃ c' D', Core.addMeasurement (gnuEnv s1 s2) K c m = .ok c' ∧
      Inv K s0 c' (L.step K.spike (.meas m)) D' ∧
      c'.out = c.out ++ if 3 < L.imu.length then updOut L m c' else [] := by
  have hstepL : L.step K.spike (.meas m) = if 3 < L.imu.length then L.deliver m else L := rfl
  rw [hstepL]
  by_cases h3 : 3 < L.imu.length
  · simp only [if_pos h3]
    exact h.deliver hK s1 s2 h3 hsure (hok h3)
  · simp only [if_neg h3]
    refine ⟨c, D, ?_, h, by simp⟩
    unfold Core.addMeasurement
    rw [if_pos (Or.inr (by rw [h.predMade]; simpa using h3))]
    rfl

end Inv

/-- After `Init`. -/
theorem inv_init (K : Kernel A W X C M T E) (c : Core A W X C M T) {t : ℚ} (ht : 0 < t)
    (s : St A W X C) :
    Inv K (s.x, s.P) (c.init K t s) ⟨[(t, s.u)], [], [], c.lastAmImu⟩ [] := by
  have hf : c.states.clear.find t = none := rfl
  have hn : (c.init K t s).states.nodes = [⟨t, c.states.fresh, s⟩] := rfl
  refine
    { inited := rfl, predMade := rfl, queue := rfl, am := rfl, stamps := by simp [Log.stamps],
      ne := by simp, pos := ht, gaps := by simp [Log.stamps], sorted := ?_,
      last := ⟨⟨t, c.states.fresh, s⟩, rfl, rfl, rfl⟩, tP := rfl, cons := ?_, keys := ?_,
      inputs := ?_, old := by simp, msorted := List.Pairwise.nil, mtime := ?_, mkept := by simp,
      range := by simp, sep := by simp, early := by simp }
  · rw [hn]; simp [SortedL]
  · rw [hn]
    refine ⟨?_, by simp⟩
    intro h hh
    simp at hh
    subst hh
    simp [measAt, updXP]
  · intro k; rw [hn]; simp [Log.stamps]
  · intro n hn'
    rw [hn] at hn'
    simp at hn'
    subst hn'
    rfl
  · intro n hn'
    change n ∈ ([] : List (Node (Meas M))) at hn'
    simp at hn'

end
end MSF
