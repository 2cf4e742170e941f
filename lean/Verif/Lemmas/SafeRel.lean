import Verif.Lemmas.SafeMeas

/-! A relative measurement can be applied for every kernel. -/

namespace MSF
variable {A W X C F M T E : Type}

/-- Iterator to the last element of a list, or `bb`. -/
def lastIter {V : Type} (bb : Iter) (l : List (Node V)) : Iter :=
  match l.getLast? with
  | some n => n.iter
  | none => bb

theorem prevLoop_tot (s1 s2 : Nat → List ℚ → Bool) (c : Core A W X C M T) (t : ℚ) (sensor : Int) (bb : Iter)
    (hbb : c.meas.decBegin (.gnu s2) = .ok bb) (hs : SortedL c.meas.nodes) :
    ∀ (fuel : Nat) (pre post : List (Node (Meas M))), pre.length < fuel → c.meas.nodes = pre ++ post →
    (∀ z ∈ pre, z.key ≠ t) →
    Tot (Core.prevLoop (gnuEnv s1 s2) c t sensor bb fuel (lastIter bb pre)) fun it =>
      it = bb ∨ ∃ z ∈ pre, it = z.iter := by
  intro fuel
  induction fuel with
  | zero => intro pre post h; exact absurd h (Nat.not_lt_zero _)
  | succ fuel ih =>
    intro pre post hlen hl hne
    unfold Core.prevLoop
    by_cases h : lastIter bb pre = bb
    · rw [if_pos h]; exact Tot.ok (.inl h)
    rw [if_neg h]
    rcases List.eq_nil_or_concat pre with rfl | ⟨pre', z, rfl⟩
    · exact absurd rfl h
    · have hz : lastIter bb (pre'.concat z) = z.iter := by simp [lastIter]
      rw [hz]
      have hl' : c.meas.nodes = pre' ++ z :: post := by rw [hl]; simp
      refine Tot.bind_eq (a := z) (Buf.deref_mem hs (by rw [hl']; simp)) ?_
      split
      · have hd : c.meas.decr (gnuEnv s1 s2).pm z.iter = .ok (lastIter bb pre') := by
          rcases List.eq_nil_or_concat pre' with rfl | ⟨pre2, y, rfl⟩
          · rw [Buf.decr_first (B := post) (by rw [hl']; rfl) hs]
            exact hbb
          · rw [Buf.decr_at (A := pre2) (m := y) (n := z) (B := post) (by rw [hl']; simp) hs]
            simp [lastIter]
        refine Tot.bind_eq hd ((ih pre' (z :: post) (by simpa using hlen) hl'
          (fun y hy => hne y (by simp [hy]))).mono fun it h => ?_)
        rcases h with h | ⟨y, hy, e⟩
        · exact .inl h
        · exact .inr ⟨y, by simp [hy], e⟩
      · exact Tot.ret (.inr ⟨z, by simp, rfl⟩)

/-- On libstdc++ the search for the previous measurement succeeds. -/
theorem getPreviousMeasurement_tot (s1 s2 : Nat → List ℚ → Bool) (c : Core A W X C M T)
    (hs : SortedL c.meas.nodes) {m : Node (Meas M)} (hm : m ∈ c.meas.nodes) (sensor : Int) :
    Tot (Core.getPreviousMeasurement (gnuEnv s1 s2) c m.key sensor) fun r =>
      ∀ p, r = some p → p.key < m.key := by
  obtain ⟨pre, post, hl⟩ := List.append_of_mem hm
  obtain ⟨bb, hbb, -⟩ := Buf.decBegin_gnu (b := c.meas) (shape := s2) (List.ne_nil_of_mem hm)
  have hs' := hs
  rw [hl, SortedL.append_iff, SortedL.cons_iff] at hs'
  unfold Core.getPreviousMeasurement
  simp only [Core.iterAtValue_mem hs hm]
  refine Tot.bind_eq (a := m) (Buf.deref_mem hs hm) ?_
  rw [if_neg (by simp)]
  have hd : c.meas.decr (gnuEnv s1 s2).pm m.iter = .ok (lastIter bb pre) := by
    rcases List.eq_nil_or_concat pre with rfl | ⟨pre2, y, rfl⟩
    · rw [Buf.decr_first (B := post) (by rw [hl]; rfl) hs]
      exact hbb
    · rw [Buf.decr_at (A := pre2) (m := y) (n := m) (B := post) (by rw [hl]; simp) hs]
      simp [lastIter]
  refine Tot.bind_eq hd (Tot.bind_eq (a := bb) hbb ?_)
  refine Tot.bind (prevLoop_tot s1 s2 c m.key sensor bb hbb hs _ pre (m :: post) ?_ hl
    (fun z hz => (hs'.2.2 z hz m (by simp)).ne)) fun it h => ?_
  · simp only [Buf.size, hl, List.length_append, List.length_cons]
    omega
  · by_cases hb : it = bb
    · rw [if_pos hb]; exact Tot.ret fun p h => by cases h
    · rw [if_neg hb]
      rcases h with h | ⟨z, hz, rfl⟩
      · exact absurd h hb
      · refine Tot.bind_eq (a := z) (Buf.deref_mem hs (by rw [hl]; simp [hz])) (Tot.ret fun p h => ?_)
        cases h
        exact hs'.2.2 z hz m (by simp)

namespace Flow
variable {f : Flow A W X C M T E}
variable [AddCommGroup A] [Module ℚ A] [AddCommGroup W] [Module ℚ W]

/-- A query for a time between a found state and the time it was found for finds the same state. -/
theorem getClosestState_again (hf : f.Tame) (s1 s2) (c : Core A W X C M T) (hg : c.Good) {t k p : ℚ}
    (hfd : Core.Found f.numX s1 c t k) {n : Node (St A W X C)} (hn : n ∈ c.states.nodes) (hnk : n.key = k)
    (hkp : k < p) (hpt : p < t) :
    Tot (getClosestState (gnuEnv s1 s2) f c p) fun r =>
      Core.Later c r.1 ∧ r.1.Good ∧
      (∀ n ∈ r.1.states.nodes, ∃ n0 ∈ c.states.nodes, n0.key = n.key) ∧
      ∀ s, r.2 = some s → s.key = k := by
  obtain ⟨L, R, hl, hR, hq, href⟩ := hfd.settled (hkp.trans hpt) n hn hnk
  subst hnk
  have hs := hg.sorted
  have hs' := hs
  rw [hl, SortedL.append_iff, SortedL.cons_iff] at hs'
  have hL : ∀ a ∈ L, a.key < p := fun a ha => (hs'.2.2 a ha n (by simp)).trans hkp
  have hRp : ∀ r ∈ R, p < r.key := fun r hr => hpt.trans (hR r hr)
  have hit : c.states.iterClosest (.gnu s1) p = .ok n.iter := by
    obtain ⟨it, hd, hit⟩ := Buf.decBegin_gnu (shape := s1) hg.ne
    cases R with
    | nil =>
      refine Buf.iterClosest_above hl hs hkp hd fun hin => ?_
      rcases hit with hit | ⟨hit, -⟩
      · rw [hit] at hin; simp [Node.iter] at hin
      · cases L with
        | nil => rfl
        | cons a L =>
          exfalso
          rw [Buf.begin_cons (n := a) (B := L ++ [n]) (by simp [hl])] at hit
          rw [hit] at hin
          exact Buf.iter_ne (hs'.2.2 a (by simp) n (by simp)).ne hin
    | cons r R =>
      rw [Buf.iterClosest_between hl hs hkp (hRp r (by simp)) hd]
      by_cases hm : n.iter = it
      · rw [if_pos hm]
        rcases hit with hit | ⟨hit, -⟩
        · rw [hit] at hm; simp [Node.iter] at hm
        · rw [← hit, ← hm]
      · rw [if_neg hm]
        by_cases hc : |r.key - p| < |n.key - p|
        · exfalso
          have h1 := hR r (by simp)
          have h2 : |r.key - t| < |n.key - t| := by
            rw [abs_of_pos (by linarith), abs_of_neg (by linarith)] at hc ⊢
            linarith
          obtain ⟨rfl, hlen, hsh⟩ := hq r (by simp) h2
          have hR0 : R = [] := by simpa using hlen
          subst hR0
          apply hm
          unfold Buf.decBegin at hd
          rw [hl] at hd
          simp only [List.nil_append, hsh, if_true] at hd
          exact Except.ok.inj hd
        · rw [if_neg hc]
  have hcb : c.states.closestBefore p = some n := by
    rw [Buf.closestBefore_split (A := L ++ [n]) (B := R) (by rw [hl]; simp) (by
      intro a ha
      rcases List.mem_append.1 ha with h | h
      · exact hL a h
      · rw [List.mem_singleton.1 h]; exact hkp) (fun r hr => (hRp r hr).le)]
    simp
  have hca : c.states.closestAfter p = R.head? := by
    unfold Buf.closestAfter
    exact Buf.upperBound_split (A := L ++ [n]) (B := R) (by rw [hl]; simp) (by
      intro a ha
      rcases List.mem_append.1 ha with h | h
      · exact (hL a h).le
      · rw [List.mem_singleton.1 h]; exact hkp.le) hRp
  have hint : Core.interpolate f.toKernel c n p = (c, n.iter) := by
    unfold Core.interpolate
    by_cases h : |n.key - p| > 1 / 1000
    · rw [if_pos h, hcb, hca]
      cases R with
      | nil => rfl
      | cons r R =>
        simp only [List.head?_cons]
        rw [if_neg]
        intro hcon
        refine href ?_ r (by simp) ⟨hcon.1, hcon.2.1, hcon.2.2.1, hcon.2.2.2.1⟩
        rw [abs_of_neg (by linarith)] at h ⊢
        linarith
    · rw [if_neg h]
  rw [getClosestState_eq]
  refine Tot.bind_eq (a := n.iter) hit (Tot.bind_eq (Buf.deref_mem hs hn) ?_)
  split
  · exact Tot.ok ⟨Core.Later.refl c, hg, fun m hm => ⟨m, hm, rfl⟩, fun s h => by cases h⟩
  · rw [hint]
    refine (closestTail_tot hf s1 s2 c hg hn).mono fun res h => ?_
    obtain ⟨c2, Ds, Dm, hkept, ht2, hev, hsome⟩ := h
    have hg2 := hkept.good hg ht2
    refine ⟨hkept.later.trans (hev.later hg2), hev.good hg2, fun m hm => ?_, hsome⟩
    obtain ⟨n0, h0, -, e⟩ := mem_of_tag hkept.tag (n := m) (by rw [hev.states]; simp [hm])
    exact ⟨n0, h0, e⟩

end Flow

namespace RelKernel

theorem accumulate_tot (R : RelKernel A W X C F M T E) (c : Core A W X (C × F) M T)
    (hs : SortedL c.states.nodes) {d : Node (St A W X (C × F))} : ∀ (fuel : Nat)
    (L : List (Node (St A W X (C × F)))) (a : Node (St A W X (C × F)))
    (B : List (Node (St A W X (C × F)))) (acc : F), B.length < fuel →
    c.states.nodes = L ++ a :: B → d ∈ a :: B →
    Tot (accumulate R c d.iter fuel a.iter acc) fun _ => True := by
  intro fuel
  induction fuel with
  | zero => intro L a B acc h; exact absurd h (Nat.not_lt_zero _)
  | succ fuel ih =>
    intro L a B acc hlen hl hd
    unfold accumulate
    by_cases h : a.iter = d.iter
    · rw [if_pos h]; exact Tot.ok trivial
    · rw [if_neg h]
      refine Tot.bind_eq (a := a) (Buf.deref_mem hs (by rw [hl]; simp)) ?_
      refine Tot.bind_eq (Buf.incr_at hl hs) ?_
      rcases List.mem_cons.1 hd with rfl | hd
      · exact absurd rfl h
      · cases B with
        | nil => simp at hd
        | cons b B =>
          exact ih (L ++ [a]) b B _ (by simpa using hlen) (by rw [hl]; simp) hd

theorem current_key (c : Core A W X C M T) (n : Node (St A W X C)) : (current c n).key = n.key := by
  unfold current
  split
  · rename_i n' h
    have := (Buf.deref_ok h).2
    exact (Core.key_of_iter this).symm
  · rfl

theorem write_moved (c : Core A W X C M T) (n : Node (St A W X C)) (g : St A W X C → St A W X C) :
    Core.Moved c (write c n g) := by
  unfold write
  split
  · exact ⟨tag_modify _ _, rfl, rfl, rfl, rfl, rfl, rfl⟩
  · exact Core.Moved.refl c

theorem relApply_tot (R : RelKernel A W X C F M T E) (c : Core A W X (C × F) M T) (prev m : Meas M)
    (old s : Node (St A W X (C × F))) (hg : c.Good) (hnew : ∃ n ∈ c.states.nodes, s.key ≤ n.key)
    (hos : ∀ n ∈ c.states.nodes, s.key ≤ n.key → old.key ≤ n.key) :
    Tot (relApply R c prev m old s) fun c' => c'.Good ∧ Core.Later c c' ∧
      c'.states.nodes.map Node.tag = c.states.nodes.map Node.tag := by
  unfold relApply
  simp only [current_key]
  have hm2 := (write_moved c old (fun v => { v with P := (R.clear m.body v.P.1, v.P.2) })).trans
    (write_moved (write c old fun v => { v with P := (R.clear m.body v.P.1, v.P.2) }) s
      (fun v => { v with P := (R.clear m.body v.P.1, v.P.2) }))
  revert hm2
  generalize write (write c old fun v => { v with P := (R.clear m.body v.P.1, v.P.2) }) s
      (fun v => { v with P := (R.clear m.body v.P.1, v.P.2) }) = c2
  intro hm2
  have hg2 := hm2.good hg
  have hnew2 : ∃ n ∈ c2.states.nodes, s.key ≤ n.key := by
    obtain ⟨n, hn, hle⟩ := hnew
    obtain ⟨n', hn', -, e⟩ := mem_of_tag hm2.tag.symm hn
    exact ⟨n', hn', by rw [e]; exact hle⟩
  have hos2 : ∀ n ∈ c2.states.nodes, s.key ≤ n.key → old.key ≤ n.key := by
    intro n hn hle
    obtain ⟨n0, h0, -, e⟩ := mem_of_tag hm2.tag hn
    rw [← e] at hle ⊢
    exact hos n0 h0 hle
  obtain ⟨L2, d, B2, hl2, hd, -, hsd⟩ := Buf.iterAtValue_ok hg2.sorted hnew2
  have hdm : d ∈ c2.states.nodes := by rw [hl2]; simp
  obtain ⟨L1, a, B1, hl1, ha, hL1, -⟩ := Buf.iterAtValue_ok hg2.sorted ⟨d, hdm, hos2 d hdm hsd⟩
  rw [hd, ha]
  have hda : d ∈ a :: B1 := by
    have := hdm
    rw [hl1] at this
    rcases List.mem_append.1 this with h | h
    · exact absurd (hL1 d h) (not_lt.2 (hos2 d hdm hsd))
    · exact h
  refine Tot.bind (accumulate_tot R c2 hg2.sorted _ L1 a B1 R.fd0 ?_ hl1 hda) fun G _ => Tot.ret ?_
  · simp only [Buf.size, hl1, List.length_append, List.length_cons]
    omega
  · generalize (R.relUpdate c2.tracker prev.body m.body (current c old).val.x
      (R.clear m.body (current c old).val.P.1) G (current c s).val.x
      (R.clear m.body (current c s).val.P.1)) = r
    have hm3 := hm2.trans (write_moved c2 s (fun v => { v with x := r.x, P := (r.P, v.P.2) }))
    have hg3 := hm3.good hg
    have hl3 := hm3.later
    refine ⟨⟨hg3.sorted, hg3.msorted, ?_⟩, ⟨hl3.newest, hl3.keep, hl3.meas, hl3.queue, hl3.itImu,
      hl3.inited, hl3.predMade⟩, hm3.tag⟩
    by_cases hr : r.applied = true
    · obtain ⟨n, hn, hle⟩ := hnew
      obtain ⟨n', hn', -, e⟩ := mem_of_tag hm3.tag.symm hn
      refine ⟨n', hn', ?_⟩
      change (if r.applied = true then s.key else _) ≤ n'.key
      rw [if_pos hr, e]
      exact hle
    · obtain ⟨n, hn, hle⟩ := hg3.tp
      refine ⟨n, hn, ?_⟩
      change (if r.applied = true then s.key else _) ≤ n.key
      rw [if_neg hr]
      exact hle

variable [AddCommGroup A] [Module ℚ A] [AddCommGroup W] [Module ℚ W]

theorem flow_applies (s1 s2 : Nat → List ℚ → Bool) (R : RelKernel A W X C F M T E) :
    Flow.Applies s1 s2 R.flow := by
  intro c m s hg hk hm hle hfd
  change Tot (RelKernel.apply R (gnuEnv s1 s2) c m.val s) _
  unfold RelKernel.apply
  by_cases hrel : R.isRel m.val.body = false
  · rw [if_pos hrel]
    exact Flow.absFlow_applies s1 s2 R.pair c m s hg hk hm hle hfd
  rw [if_neg hrel, hk m hm]
  have stay : c.Good ∧ Core.Later c c ∧ ∀ n ∈ c.states.nodes, m.key ≤ n.key → s.key ≤ n.key :=
    ⟨hg, Core.Later.refl c, hfd.below⟩
  refine Tot.bind (getPreviousMeasurement_tot s1 s2 c hg.msorted hm m.val.sensor) fun r hr => ?_
  cases r with
  | none => exact Tot.ret stay
  | some prev =>
    have hp := hr prev rfl
    dsimp only
    by_cases h1 : prev.key = invalidTime
    · rw [if_pos h1]; exact Tot.ret stay
    rw [if_neg h1]
    by_cases h2 : R.cast prev.val.body = false
    · rw [if_pos h2]; exact Tot.ret stay
    rw [if_neg h2]
    have hcl : Tot (R.closest (gnuEnv s1 s2) c prev.key) fun r => Core.Later c r.1 ∧ r.1.Good ∧
        (∀ n ∈ r.1.states.nodes, (∃ n0 ∈ c.states.nodes, n0.key = n.key) ∨ n.key = prev.key) ∧
        ∀ o, r.2 = some o → ∀ n ∈ r.1.states.nodes, s.key ≤ n.key → o.key ≤ n.key := by
      unfold RelKernel.closest
      have htame : Flow.Tame ({ toKernel := R.pair, predict := R.predict, apply := fun _ c _ _ => .ok c } :
          Flow A W X (C × F) M T E) := ⟨R.flow_tame.skip, R.flow_tame.step⟩
      by_cases hex : ∃ n ∈ c.states.nodes, s.key ≤ n.key ∧ n.key < prev.key
      · obtain ⟨n, hn, hsn, hnp⟩ := hex
        have hnk : n.key = s.key := le_antisymm (hfd.above n hn (hnp.trans hp).le) hsn
        refine (Flow.getClosestState_again htame s1 s2 c hg hfd hn hnk (by rw [← hnk]; exact hnp) hp).mono
          fun r h => ⟨h.1, h.2.1, fun n hn => .inl (h.2.2.1 n hn), fun o ho n hn hle' => ?_⟩
        rw [h.2.2.2 o ho]
        exact hle'
      · refine (Flow.getClosestState_tot htame s1 s2 c hg prev.key).mono
          fun r h => ⟨h.1, h.2.1, h.2.2.1, fun o ho n hn hle' => ?_⟩
        have hfo := h.2.2.2 o ho
        refine hfo.below n hn ?_
        rcases h.2.2.1 n hn with ⟨n0, h0, e⟩ | e
        · by_contra hlt
          exact hex ⟨n0, h0, by rw [e]; exact hle', by rw [e]; exact not_le.1 hlt⟩
        · rw [e]
    refine Tot.bind hcl fun r h => ?_
    obtain ⟨c1, st⟩ := r
    obtain ⟨hlat, hg1, hkeys, hold⟩ := h
    dsimp only at hlat hg1 hkeys hold
    have hadj : ∀ n ∈ c1.states.nodes, m.key ≤ n.key → s.key ≤ n.key := by
      intro n hn hle'
      rcases hkeys n hn with ⟨n0, h0, e⟩ | e
      · rw [← e] at hle' ⊢
        exact hfd.below n0 h0 hle'
      · rw [e] at hle'
        exact absurd hp (not_lt.2 hle')
    cases st with
    | none => exact Tot.ret ⟨hg1, hlat, hadj⟩
    | some old =>
      dsimp only
      by_cases h3 : old.key = invalidTime
      · rw [if_pos h3]; exact Tot.ret ⟨hg1, hlat, hadj⟩
      rw [if_neg h3]
      have hnew : ∃ n ∈ c1.states.nodes, s.key ≤ n.key := by
        obtain ⟨n, hn, e, -⟩ := endKey_mem (t := 0) hg1.ne
        obtain ⟨n1, hn1, hle'⟩ := hfd.newest
        exact ⟨n, hn, by rw [e, hlat.newest]; exact hle'.trans (endKey_ge hg.sorted n1 hn1)⟩
      refine (relApply_tot R c1 prev.val m.val old s hg1 hnew (hold old rfl)).mono fun c' h =>
        ⟨h.1, hlat.trans h.2.1, fun n hn hle' => ?_⟩
      obtain ⟨n0, h0, -, e⟩ := mem_of_tag h.2.2 hn
      rw [← e] at hle' ⊢
      exact hadj n0 h0 hle'

end RelKernel
end MSF
