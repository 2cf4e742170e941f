import Verif.Lemmas.Target
import Verif.Lemmas.Entry

/-!
# The invariant relating the filter to the log of what it was given
-/

namespace MSF
open Spec
variable {A W X C M T E : Type}

namespace Spec.Log

theorem newest_mem {L : Log A W M} (h : L.imu ≠ []) : L.newest ∈ L.stamps := by
  unfold newest
  have hne : L.stamps ≠ [] := by simpa [stamps] using h
  cases e : L.stamps.getLast? with
  | none => simp at e; exact absurd e hne
  | some k => exact List.mem_of_getLast? e

theorem start_mem {L : Log A W M} (h : L.imu ≠ []) : L.start ∈ L.stamps := by
  unfold start
  have hne : L.stamps ≠ [] := by simpa [stamps] using h
  cases e : L.stamps.head? with
  | none => simp at e; exact absurd e hne
  | some k => exact List.mem_of_head? e

theorem le_newest {L : Log A W M} (hs : L.stamps.Pairwise (· < ·)) : ∀ k ∈ L.stamps, k ≤ L.newest := by
  intro k hk
  unfold newest
  rcases List.eq_nil_or_concat L.stamps with h | ⟨l, x, h⟩
  · rw [h] at hk; simp at hk
  · rw [List.concat_eq_append] at h
    rw [h] at hk hs ⊢
    simp only [List.getLast?_append, List.getLast?_singleton, Option.some_or, Option.getD_some]
    rcases List.mem_append.1 hk with hk | hk
    · exact ((List.pairwise_append.1 hs).2.2 k hk x (by simp)).le
    · simp only [List.mem_singleton] at hk; rw [hk]

theorem start_le {L : Log A W M} (hs : L.stamps.Pairwise (· < ·)) : ∀ k ∈ L.stamps, L.start ≤ k := by
  intro k hk
  unfold start
  cases h : L.stamps with
  | nil => rw [h] at hk; simp at hk
  | cons x l =>
    rw [h] at hk hs
    simp only [List.head?_cons, Option.getD_some]
    rcases List.mem_cons.1 hk with rfl | hk
    · exact le_refl _
    · exact ((List.pairwise_cons.1 hs).1 k hk).le

end Spec.Log

section
variable [AddCommGroup A] [Module ℚ A] [AddCommGroup W] [Module ℚ W]

/-- The filter `c`, together with the states `D` it has discarded, is the batch filter on the log. -/
structure Inv (K : Kernel A W X C M T E) (s0 : X × C) (c : Core A W X C M T) (L : Log A W M)
    (D : List (SN A W X C)) : Prop where
  inited : c.inited = true
  predMade : c.predMade = decide (3 < L.imu.length)
  queue : c.queue = L.queue
  am : c.lastAmImu = L.am
  stamps : L.stamps.Pairwise (· < ·)
  ne : L.imu ≠ []
  pos : 0 < L.start
  gaps : L.stamps.IsChain (fun a b => b - a ≤ 1 / 10)
  sorted : SortedL (D ++ c.states.nodes)
  last : ∃ n, c.states.nodes.getLast? = some n ∧ n.key = L.newest ∧ c.itImu = n.iter
  tP : c.tP = L.newest
  cons : Cons K (measAt L.stamps L.hist) s0 (D ++ c.states.nodes)
  keys : ∀ k, k ∈ (D ++ c.states.nodes).map Node.key ↔
    k ∈ L.stamps ∨ ∃ m ∈ L.hist, target L.stamps m.time = k
  inputs : ∀ n ∈ D ++ c.states.nodes, n.val.u = inputAt L.imu n.key
  old : ∀ d ∈ D, d.key < L.newest - 60
  msorted : SortedL c.meas.nodes
  mtime : ∀ n ∈ c.meas.nodes, n.val.time = n.key ∧ n.val ∈ L.hist
  mkept : ∀ m ∈ L.hist, L.newest - 60 ≤ m.time → ∃ n ∈ c.meas.nodes, n.val = m
  range : ∀ m ∈ L.hist, L.start ≤ m.time ∧ m.time ≤ L.newest
  sep : L.hist.Pairwise (fun a b => 1 / 500 < |a.time - b.time|)
  early : L.imu.length ≤ 3 → L.hist = [] ∧ L.queue = [] ∧ D = []

namespace Inv
variable {K : Kernel A W X C M T E} {s0 : X × C} {c : Core A W X C M T} {L : Log A W M}
  {D : List (SN A W X C)}

theorem target_range (h : Inv K s0 c L D) {t : ℚ} (h1 : L.start ≤ t) (h2 : t ≤ L.newest) :
    L.start ≤ target L.stamps t ∧ target L.stamps t ≤ L.newest := by
  rcases target_mem h.stamps (t := t) with hm | hm
  · exact ⟨Log.start_le h.stamps _ hm, Log.le_newest h.stamps _ hm⟩
  · rw [hm]; exact ⟨h1, h2⟩

theorem key_range (h : Inv K s0 c L D) : ∀ n ∈ D ++ c.states.nodes,
    L.start ≤ n.key ∧ n.key ≤ L.newest := by
  intro n hn
  rcases (h.keys n.key).1 (List.mem_map_of_mem hn) with hk | ⟨m, hm, e⟩
  · exact ⟨Log.start_le h.stamps _ hk, Log.le_newest h.stamps _ hk⟩
  · rw [← e]
    exact h.target_range (h.range m hm).1 (h.range m hm).2

theorem mem_nodes (h : Inv K s0 c L D) {k : ℚ}
    (hk : k ∈ L.stamps ∨ ∃ m ∈ L.hist, target L.stamps m.time = k) (hge : L.newest - 60 ≤ k) :
    ∃ n ∈ c.states.nodes, n.key = k := by
  obtain ⟨n, hn, e⟩ := List.mem_map.1 ((h.keys k).2 hk)
  rcases List.mem_append.1 hn with hn | hn
  · have := h.old n hn
    rw [e] at this
    linarith
  · exact ⟨n, hn, e⟩

theorem bracket (h : Inv K s0 c L D) (hlen : 2 ≤ L.imu.length) {t : ℚ} (h1 : L.start ≤ t)
    (h2 : t ≤ L.newest) :
    ∃ pre a b post, L.imu = pre ++ a :: b :: post ∧ a.1 ≤ t ∧ t ≤ b.1 ∧ a.1 < b.1 ∧
      b.1 - a.1 ≤ 1 / 10 := by
  obtain ⟨pre, a, b, post, e, ha, hb⟩ := MSF.bracket (imu := L.imu) (t := t) hlen
    (by
      intro r hr
      have : L.start = r.1 := by
        unfold Log.start Log.stamps
        rw [List.head?_map, hr]; rfl
      rw [← this]; exact h1)
    (by
      intro r hr
      have : L.newest = r.1 := by
        unfold Log.newest Log.stamps
        rw [List.getLast?_map, hr]; rfl
      rw [← this]; exact h2)
  refine ⟨pre, a, b, post, e, ha, hb, ?_, ?_⟩
  · have := h.stamps
    unfold Log.stamps at this
    rw [e, List.map_append, List.map_cons, List.map_cons, List.pairwise_append] at this
    exact (List.pairwise_cons.1 this.2.1).1 b.1 (by simp)
  · have := h.gaps
    unfold Log.stamps at this
    rw [e, List.map_append, List.map_cons, List.map_cons, List.isChain_append] at this
    exact (List.isChain_cons_cons.1 this.2.1).1

omit [AddCommGroup A] [Module ℚ A] [AddCommGroup W] [Module ℚ W] in
/-- At least three states are recent. -/
theorem recent3 {L : Log A W M} (hstamps : L.stamps.Pairwise (· < ·))
    (gaps : L.stamps.IsChain (fun a b => b - a ≤ 1 / 10)) (h3 : 3 ≤ L.imu.length)
    {l : List (SN A W X C)} (hl : ∀ k ∈ L.stamps, L.newest - 60 ≤ k → k ∈ l.map Node.key) :
    3 ≤ recent L.newest l := by
  have hlen : 3 ≤ L.stamps.length := by simpa [Log.stamps] using h3
  obtain ⟨pre, a, b, d, e⟩ : ∃ pre a b d, L.stamps = pre ++ [a, b, d] := by
    refine ⟨L.stamps.take (L.stamps.length - 3), ?_⟩
    have h2 : (L.stamps.drop (L.stamps.length - 3)).length = 3 := by
      rw [List.length_drop]; omega
    match hd : L.stamps.drop (L.stamps.length - 3), h2 with
    | [a, b, d], _ => exact ⟨a, b, d, by rw [← hd, List.take_append_drop]⟩
  have hN : L.newest = d := by
    unfold Log.newest; rw [e]; simp
  rw [e, List.pairwise_append] at hstamps
  rw [e, List.isChain_append] at gaps
  have hs := hstamps.2.1
  have hg := gaps.2.1
  simp only [List.isChain_cons_cons, List.isChain_singleton, and_true] at hg
  simp only [List.pairwise_cons, List.mem_cons, List.not_mem_nil, or_false, forall_eq_or_imp,
    forall_eq, List.Pairwise.nil, and_true, IsEmpty.forall_iff, implies_true] at hs
  have key : ∀ k ∈ [a, b, d], k ∈ (l.map Node.key).filter (fun k => L.newest - 60 ≤ k) := by
    intro k hk
    have hge : L.newest - 60 ≤ k := by
      rw [hN]
      simp only [List.mem_cons, List.not_mem_nil, or_false] at hk
      rcases hk with rfl | rfl | rfl <;> linarith [hg.1, hg.2]
    rw [List.mem_filter]
    exact ⟨hl k (by rw [e]; simp only [List.mem_append]; exact Or.inr hk) hge, by simpa using hge⟩
  have hnd : [a, b, d].Nodup := by
    simp only [List.nodup_cons, List.mem_cons, List.not_mem_nil, or_false, not_or, not_false_eq_true,
      List.nodup_nil, and_true]
    exact ⟨⟨hs.1.1.ne, hs.1.2.ne⟩, hs.2.ne⟩
  have := (List.subperm_of_subset hnd key).length_le
  unfold recent
  rw [List.countP_eq_length_filter]
  simpa using this

/-- Everything after the state for the new measurement has been found. -/
theorem commit (hK : K.Regular) (s1 s2) (h : Inv K s0 c L D) (h3 : 3 < L.imu.length)
    {m : Meas M} (hr1 : L.start ≤ m.time) (hr2 : m.time ≤ L.newest) (hlate : L.newest - 59 ≤ m.time)
    (hsepm : ∀ m' ∈ L.hist, 1 / 500 < |m.time - m'.time|)
    {mb : Buf (Meas M)} {it : Iter} (hmb : c.meas.insert m.time m = (mb, it))
    {c2 c3 : Core A W X C M T} {A1 B Ds : List (SN A W X C)} {n : SN A W X C}
    {Dm : List (Node (Meas M))}
    (hgcs : Core.getClosestState (gnuEnv s1 s2) K { c with meas := mb, fuzzy := false } m.time
      = .ok (c3, some n))
    (hev : Evict c2 c3 Ds Dm) (hcm : c2.meas = mb)
    (hsame : Same { c with meas := mb, fuzzy := false } c2)
    (nodes : c2.states.nodes = A1 ++ n :: B) (hn : n.key = target L.stamps m.time)
    (sorted : SortedL (D ++ c2.states.nodes))
    (keys : ∀ k, k ∈ (D ++ c2.states.nodes).map Node.key ↔
      k ∈ L.stamps ∨ ∃ m' ∈ L.hist ++ [m], target L.stamps m'.time = k)
    (inputs : ∀ n ∈ D ++ c2.states.nodes, n.val.u = inputAt L.imu n.key)
    (hlast : ∃ l, c2.states.nodes.getLast? = some l ∧ l.key = L.newest ∧ c.itImu = l.iter)
    (cons : Cons K (measAt L.stamps L.hist) s0 (D ++ A1))
    (hprior : (n.val.x, n.val.P) = prior K s0 (D ++ A1) n)
    (happ : (c2.tP = n.key ∨ (K.update c2.tracker m.body n.val.x n.val.P).applied = true) ∨
      ((K.update c2.tracker m.body n.val.x n.val.P).applied = false ∧ c2.tP = L.newest ∧
        (∀ m' ∈ L.hist, m'.time < m.time) ∧
        Cons K (measAt L.stamps L.hist) s0 (D ++ c2.states.nodes))) :
    ∃ c' D' l, Core.addMeasurement (gnuEnv s1 s2) K c m = .ok c' ∧
      Inv K s0 c' { L with hist := L.hist ++ [m] } D' ∧
      c'.states.nodes.getLast? = some l ∧
      c'.out = c.out ++ [.afterUpdate l.key l.val.x l.val.P] := by
  have hpm : c.predMade = true := by rw [h.predMade]; simpa using h3
  -- the measurement buffer
  have hfind : c.meas.find m.time = none := by
    rw [Buf.find_none_iff]
    intro z hz e
    have h1 := h.mtime z hz
    have h2 := hsepm z.val h1.2
    rw [h1.1, e] at h2
    norm_num at h2
  rw [Buf.insert_of_none hfind] at hmb
  obtain ⟨MA, MB, hMAB, hMA, hMB⟩ := Buf.split_strict h.msorted hfind
  set mn : Node (Meas M) := ⟨m.time, c.meas.fresh, m⟩ with hmn
  have hins : insertNode mn c.meas.nodes = MA ++ mn :: MB := by
    rw [hMAB]; exact insertNode_append hMA hMB
  have hmbn : mb.nodes = MA ++ mn :: MB := by
    rw [← hins]; exact (congrArg (fun p => p.1.nodes) hmb).symm
  have hit : it = mn.iter := (congrArg Prod.snd hmb).symm
  have hmbs : SortedL mb.nodes := by
    rw [← congrArg (fun p => p.1.nodes) hmb]
    exact sorted_insertNode h.msorted (by
      intro z hz; exact Buf.find_none hfind z hz)
  have hmbs' := hmbs
  rw [hmbn, SortedL.append_iff, SortedL.cons_iff] at hmbs'
  have hmem : ∀ z ∈ mb.nodes, z = mn ∨ z ∈ c.meas.nodes := by
    intro z hz
    rw [hmbn] at hz; rw [hMAB]
    simp only [List.mem_append, List.mem_cons] at hz ⊢
    tauto
  have hMBc : ∀ z ∈ MB, z ∈ c.meas.nodes := by intro z hz; rw [hMAB]; simp [hz]
  -- the new measurement function
  set ms' := measAt L.stamps (L.hist ++ [m]) with hms'
  have hdist : ∀ m' ∈ L.hist, target L.stamps m'.time ≠ target L.stamps m.time := by
    intro m' hm'
    have := hsepm m' hm'
    rw [abs_sub_comm] at this
    exact target_ne h.stamps this
  have hmsn : ∀ k, ms' k = if target L.stamps m.time = k then some m.body
      else measAt L.stamps L.hist k := fun k => measAt_append hdist k
  have hsep' : (L.hist ++ [m]).Pairwise (fun a b => 1 / 500 < |a.time - b.time|) := by
    rw [List.pairwise_append]
    refine ⟨h.sep, by simp, ?_⟩
    intro a ha b hb
    simp only [List.mem_singleton] at hb
    subst hb
    rw [abs_sub_comm]; exact hsepm a ha
  have hs2 : SortedL c2.states.nodes := (SortedL.append_iff.1 sorted).2.1
  have hkeyrange : ∀ z ∈ D ++ c2.states.nodes, L.start ≤ z.key ∧ z.key ≤ L.newest := by
    intro z hz
    rcases (keys z.key).1 (List.mem_map_of_mem hz) with hk | ⟨m', hm', e⟩
    · exact ⟨Log.start_le h.stamps _ hk, Log.le_newest h.stamps _ hk⟩
    · rw [← e]
      rcases List.mem_append.1 hm' with hm' | hm'
      · exact h.target_range (h.range m' hm').1 (h.range m' hm').2
      · simp only [List.mem_singleton] at hm'
        subst hm'
        exact h.target_range hr1 hr2
  have hmem2 : ∀ k, (k ∈ L.stamps ∨ ∃ m' ∈ L.hist ++ [m], target L.stamps m'.time = k) →
      L.newest - 60 ≤ k → k ∈ c2.states.nodes.map Node.key := by
    intro k hk hge
    have := (keys k).2 hk
    rw [List.map_append, List.mem_append] at this
    rcases this with hd | hd
    · obtain ⟨d, hd, e⟩ := List.mem_map.1 hd
      have := h.old d hd
      rw [e] at this
      linarith
    · exact hd
  have hpos : ∀ k ∈ c2.states.nodes, 0 < k.key := fun k hk =>
    h.pos.trans_le (hkeyrange k (by simp [hk])).1
  obtain ⟨l, hl, hlk, hli⟩ := hlast
  have hnewest : endKey 0 c2.states.nodes = L.newest := by
    unfold endKey; rw [hl]; exact hlk
  have hclose := target_close h.stamps (t := m.time)
  have hcl := abs_le.1 hclose
  have hkeep : L.newest - 60 ≤ n.key := by rw [hn]; linarith [hcl.1]
  have hMBhist : ∀ z ∈ MB, z.val ∈ L.hist ∧ z.val.time = z.key ∧ m.time < z.key := by
    intro z hz
    have := h.mtime z (hMBc z hz)
    exact ⟨this.2, this.1, hMB z hz⟩
  have hsepall : ∀ t ∈ (L.hist ++ [m]).map Meas.time, ∀ m' ∈ L.hist ++ [m],
      m'.time = t ∨ 1 / 500 < |m'.time - t| := by
    intro t ht m' hm'
    obtain ⟨m2, hm2, rfl⟩ := List.mem_map.1 ht
    by_cases e : m' = m2
    · left; rw [e]
    · right
      have : Std.Symm (fun a b : Meas M => 1 / 500 < |a.time - b.time|) :=
        ⟨fun a b hab => by rw [abs_sub_comm]; exact hab⟩
      exact List.Pairwise.forall hsep' hm' hm2 e
  have hMBlate : ∀ z ∈ MB, L.newest - 60 ≤ z.key ∧ 0 < z.key := by
    intro z hz
    have h1 := (hMBhist z hz).2.2
    have h2 := h.pos
    constructor <;> linarith
  have hMBtarget : ∀ z ∈ MB, target L.stamps m.time < target L.stamps z.key := by
    intro z hz
    have h1 := hMBhist z hz
    have := hsepm z.val h1.1
    rw [h1.2.1] at this
    exact target_lt h.stamps h1.2.2 this
  have hle : ∀ z ∈ mb.nodes, z.key ≤ L.newest := by
    intro z hz
    rcases hmem z hz with rfl | hz
    · exact hr2
    · have := h.mtime z hz
      rw [← this.1]
      exact (h.range z.val this.2).2
  have hconsA : Cons K ms' s0 (D ++ A1) := by
    refine cons.congr ?_
    intro z hz
    rw [hmsn, if_neg]
    rw [← hn]
    rw [nodes, ← List.append_assoc, SortedL.append_iff] at sorted
    exact (sorted.2.2 z hz n (by simp)).ne'
  obtain ⟨c', D', A', n', B', MA', hloop, hmid, htodo, hsame', hfr, ⟨D2, hD2, hD2old⟩,
      ⟨Dm', hDm', hDm'old⟩⟩ : ∃ c' D' A' n' B' MA',
      Core.measLoop (gnuEnv s1 s2) K (mb.size + 1) { c with meas := mb, fuzzy := false } mn.iter false
        = .ok (c', true, false) ∧
      Mid K ms' s0 L.newest c' D' A' n' B' ∧
      Todo K ms' (target L.stamps) L.newest c' n' B' MA' [] ∧
      Same { c with meas := mb, fuzzy := false } c' ∧
      (D' ++ A' ++ n' :: B').map frame = (D ++ A1 ++ n :: B).map frame ∧
      (∃ D2 : List (SN A W X C), D' = D ++ D2 ∧ ∀ d ∈ D2, d.key < L.newest - 60) ∧
      (∃ Dm, mb.nodes = Dm ++ c'.meas.nodes ∧ ∀ d ∈ Dm, d.key < L.newest - 60) := by
    rcases happ with happ | ⟨hrej, htPN, hlater, hall⟩
    · exact
        Core.enter hK s1 s2 (ms := ms') (τ := target L.stamps) (s0 := s0) (N := L.newest) (D := D)
          (c := { c with meas := mb, fuzzy := false }) (m := mn) (MA := MA) (MB := MB)
          (fuel := mb.size) (app := false)
          (by unfold Buf.size; rw [hmbn]; simp; omega)
          hgcs hev hcm hsame nodes hs2 hpos hnewest
          (recent3 h.stamps h.gaps (by omega) (fun k hk hge => hmem2 k (Or.inl hk) hge))
          hkeep h.inited hpm
          (by
            refine cons.congr ?_
            intro z hz
            rw [hmsn, if_neg]
            rw [← hn]
            rw [nodes, ← List.append_assoc, SortedL.append_iff] at sorted
            exact (sorted.2.2 z hz n (by simp)).ne')
          hprior (by rw [hmsn, if_pos hn.symm]) happ hmbn hmbs hle
          ⟨by change L.newest - 60 ≤ m.time; linarith, h.pos.trans_le hr1⟩ hMBlate
          (by
            intro z hz
            have h1 := hMBhist z hz
            refine near_of h.stamps (hist := L.hist ++ [m]) ?_ ?_ ?_
            · exact hsepall z.key (by rw [← h1.2.1]; simp; left; exact ⟨_, h1.1, rfl⟩)
            · intro k hk
              exact (keys k).1 (by rw [List.map_append]; exact List.mem_append_right _ hk)
            · refine hmem2 _ (Or.inr ⟨z.val, by simp [h1.1], by rw [h1.2.1]⟩) ?_
              have := hMBtarget z hz
              rw [← hn] at this
              linarith)
          (fun z _ => target_close h.stamps)
          (fun z hz => by rw [hn]; exact hMBtarget z hz)
          (by
            intro z hz
            have h1 := hMBhist z hz
            rw [← h1.2.1]
            exact measAt_mem h.stamps hsep' (by simp [h1.1]))
          (by
            refine List.Pairwise.imp_of_mem ?_ hmbs'.2.1.2
            intro a b ha hb hab
            have h1 := hMBhist a ha
            have h2 := hMBhist b hb
            rcases hsepall b.key (by rw [← h2.2.1]; simp; left; exact ⟨_, h2.1, rfl⟩) a.val
              (by simp [h1.1]) with e | e
            · rw [h1.2.1] at e; exact absurd e hab.ne
            · rw [h1.2.1] at e; exact target_lt h.stamps hab e)
          (by
            intro b hb hne
            obtain ⟨m', hm', e⟩ := measAt_ne_none hne
            have hsb := hs2
            rw [nodes, SortedL.append_iff, SortedL.cons_iff] at hsb
            have hnb := hsb.2.1.1 b hb
            rw [hn, ← e] at hnb
            rcases List.mem_append.1 hm' with hm' | hm'
            · have hsm := hsepm m' hm'
              have hlt : m.time < m'.time := by
                rcases lt_trichotomy m.time m'.time with h1 | h1 | h1
                · exact h1
                · rw [h1] at hnb; exact absurd hnb (lt_irrefl _)
                · rw [abs_sub_comm] at hsm
                  have := target_lt h.stamps h1 hsm
                  linarith
              obtain ⟨z, hz, ez⟩ := h.mkept m' hm' (by linarith)
              have hzk : z.key = m'.time := by rw [← (h.mtime z hz).1, ez]
              refine ⟨z, ?_, by rw [hzk]; exact e⟩
              rw [hMAB] at hz
              rcases List.mem_append.1 hz with hz | hz
              · have := hMA z hz
                rw [hzk] at this
                linarith
              · exact hz
            · simp only [List.mem_singleton] at hm'
              subst hm'
              exact absurd hnb (lt_irrefl _))
    · have hMBnil : MB = [] := by
        rw [List.eq_nil_iff_forall_not_mem]
        intro z hz
        have h1 := hMBhist z hz
        have := hlater z.val h1.1
        rw [h1.2.1] at this
        linarith [h1.2.2]
      subst hMBnil
      have hsb := hs2
      rw [nodes, SortedL.append_iff, SortedL.cons_iff] at hsb
      have hBnone : ∀ b ∈ B, ms' b.key = none := by
        intro b hb
        by_contra hne
        obtain ⟨m', hm', e⟩ := measAt_ne_none hne
        have hnb := hsb.2.1.1 b hb
        rw [hn, ← e] at hnb
        rcases List.mem_append.1 hm' with hm' | hm'
        · have hsm := hsepm m' hm'
          rw [abs_sub_comm] at hsm
          have := target_lt h.stamps (hlater m' hm') hsm
          linarith
        · simp only [List.mem_singleton] at hm'
          subst hm'
          exact lt_irrefl _ hnb
      refine Core.enter_reject hK s1 s2 (ms := ms') (τ := target L.stamps) (s0 := s0) (N := L.newest)
        (D := D) (c := { c with meas := mb, fuzzy := false }) (m := mn) (MA := MA)
        (fuel := mb.size) (app := false) (by unfold Buf.size; rw [hmbn]; simp)
        hgcs hev hcm hsame nodes hs2 hpos hnewest
        (recent3 h.stamps h.gaps (by omega) (fun k hk hge => hmem2 k (Or.inl hk) hge))
        hkeep h.inited hpm ?_ hBnone hrej htPN hmbn hmbs hle
        ⟨by change L.newest - 60 ≤ m.time; linarith, h.pos.trans_le hr1⟩
      have hcn : Cons K ms' s0 (D ++ A1 ++ [n]) := by
        rw [Cons.snoc]
        refine ⟨hconsA, ?_⟩
        rw [← hprior, hmsn, if_pos hn.symm]
        exact (hK.updXP_reject hrej).symm
      refine ⟨?_, ?_⟩
      · have : (D ++ A1 ++ n :: B).head? = (D ++ A1 ++ [n]).head? := by
          cases (D ++ A1) <;> simp
        rw [this]; exact hcn.head
      · rw [List.isChain_split]
        refine ⟨hcn.chain, ?_⟩
        have hch := hall.chain
        rw [nodes, ← List.append_assoc, List.isChain_split] at hch
        refine rel_tail_congr hch.2 ?_
        intro b hb
        rw [hmsn, if_neg]
        rw [← hn]
        exact (hsb.2.1.1 b hb).ne
  obtain ⟨c'', l', hfin, hl', hlk', hfr'', hcons'', htP'', hc''⟩ := Core.finish hmid htodo
  have hst : c''.states.nodes ≠ [] := by
    intro hc; rw [hc] at hl'; simp at hl'
  -- what addMeasurement does
  have hold : ∃ z, c.states.nodes.getLast? = some z ∧ z.key = L.newest := by
    obtain ⟨z, h1, h2, _⟩ := h.last
    exact ⟨z, h1, h2⟩
  have hfirst : ∃ z, c.states.nodes.head? = some z ∧ z.key ≤ m.time := by
    obtain ⟨pre, a, b, post, e, ha, hb, _, hgap⟩ := h.bracket (by omega) hr1 hr2
    have has : a.1 ∈ L.stamps := by unfold Log.stamps; rw [e]; simp
    obtain ⟨z, hz, ez⟩ := h.mem_nodes (Or.inl has) (by linarith)
    have hso := (SortedL.append_iff.1 h.sorted).2.1
    cases hcn : c.states.nodes with
    | nil => rw [hcn] at hz; simp at hz
    | cons y ys =>
      refine ⟨y, rfl, ?_⟩
      rw [hcn] at hz hso
      rw [SortedL.cons_iff] at hso
      rcases List.mem_cons.1 hz with rfl | hz
      · rw [ez]; exact ha
      · have := hso.1 z hz
        linarith
  have hadd : Core.addMeasurement (gnuEnv s1 s2) K c m = .ok c'' := by
    obtain ⟨z, hz1, hz2⟩ := hold
    obtain ⟨y, hy1, hy2⟩ := hfirst
    unfold Core.addMeasurement
    simp only [bind, Except.bind, pure, Except.pure, Buf.last, hz1, Buf.first, hy1, timeOf]
    rw [if_neg (by simp [h.inited, hpm]), if_neg (by rw [hz2]; exact not_lt.2 hr2),
      if_neg (not_lt.2 hy2), Buf.insert_of_none hfind]
    have e1 : (⟨insertNode ⟨m.time, c.meas.fresh, m⟩ c.meas.nodes, c.meas.fresh + 1⟩ : Buf (Meas M))
        = mb := congrArg Prod.fst hmb
    simp only [e1]
    have e2 : (Iter.at m.time c.meas.fresh) = mn.iter := rfl
    rw [e2, hloop]
    simp only [Bool.false_eq_true, Bool.true_eq_false, or_self, if_false]
    exact hfin
  have hfrT : (D' ++ c''.states.nodes).map frame = (D ++ c2.states.nodes).map frame := by
    rw [hfr'', hfr, nodes]; simp
  have hcm'' : c''.meas = c'.meas := by rw [hc'']
  refine ⟨c'', D', l', hadd, ?_, hl', ?_⟩
  · refine
      { inited := ?_, predMade := ?_, queue := ?_, am := ?_, stamps := h.stamps, ne := h.ne,
        pos := h.pos, gaps := h.gaps, sorted := ?_, last := ⟨l', hl', hlk', ?_⟩, tP := htP'',
        cons := hcons'', keys := ?_, inputs := ?_, old := ?_, msorted := ?_, mtime := ?_,
        mkept := ?_, range := ?_, sep := hsep', early := ?_ }
    · rw [hc'']; exact hsame'.inited.trans h.inited
    · rw [hc'']; exact hsame'.predMade.trans h.predMade
    · rw [hc'']; exact hsame'.queue.trans h.queue
    · rw [hc'']; exact hsame'.lastAmImu.trans h.am
    · exact (sorted_of_frame hfrT).2 sorted
    · have e1 : c''.itImu = c.itImu := by rw [hc'']; exact hsame'.itImu
      rw [e1, hli]
      have := getLast?_frame hfrT
      rw [List.getLast?_append_of_ne_nil _ hst, List.getLast?_append_of_ne_nil _
        (by rw [nodes]; simp), hl, hl'] at this
      simp only [Option.map_some, Option.some.injEq, frame, Prod.mk.injEq] at this
      simp [Node.iter, this.1, this.2.1]
    · intro k
      rw [keys_of_frame hfrT]; exact keys k
    · intro z hz
      obtain ⟨z', hz', e⟩ := mem_of_frame hfrT hz
      simp only [frame, Prod.mk.injEq] at e
      rw [← e.2.2, ← e.1]; exact inputs z' hz'
    · intro d hd
      rw [hD2] at hd
      rcases List.mem_append.1 hd with hd | hd
      · exact h.old d hd
      · exact hD2old d hd
    · rw [hcm'']; exact htodo.sorted
    · intro z hz
      rw [hcm''] at hz
      have : z ∈ mb.nodes := by
        have e : mb.nodes = Dm' ++ c'.meas.nodes := hDm'
        rw [e]; simp [hz]
      rcases hmem z this with rfl | hz
      · exact ⟨rfl, by simp [hmn]⟩
      · have := h.mtime z hz
        exact ⟨this.1, by simp [this.2]⟩
    · intro m' hm' hge
      have hex : ∃ z ∈ mb.nodes, z.val = m' ∧ z.key = m'.time := by
        rcases List.mem_append.1 hm' with hm' | hm'
        · obtain ⟨z, hz, e⟩ := h.mkept m' hm' hge
          refine ⟨z, ?_, e, by rw [← (h.mtime z hz).1, e]⟩
          rw [hmbn]; rw [hMAB] at hz
          simp only [List.mem_append, List.mem_cons] at hz ⊢
          tauto
        · simp only [List.mem_singleton] at hm'
          subst hm'
          exact ⟨mn, by rw [hmbn]; simp, rfl, rfl⟩
      obtain ⟨z, hz, e1, e2⟩ := hex
      refine ⟨z, ?_, e1⟩
      have e : mb.nodes = Dm' ++ c'.meas.nodes := hDm'
      rw [e] at hz
      rcases List.mem_append.1 hz with hz | hz
      · have := hDm'old z hz
        rw [e2] at this
        change L.newest - 60 ≤ m'.time at hge
        linarith
      · rw [hcm'']; exact hz
    · intro m' hm'
      rcases List.mem_append.1 hm' with hm' | hm'
      · exact h.range m' hm'
      · simp only [List.mem_singleton] at hm'
        subst hm'
        exact ⟨hr1, hr2⟩
    · intro hc
      exact absurd hc (by simp only; omega)
  · rw [hc'']
    have := hsame'.out
    rw [this]

end Inv
end
end MSF
