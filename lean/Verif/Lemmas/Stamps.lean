import Verif.Lemmas.External

/-! If the stamps of the calls do not go back, everything published carries a time that does not go
back. -/

namespace MSF

/-- A stamp the filter propagates or initialises to; measurements have none. -/
def Api.clock {A W X C M E : Type} : Api A W X C M E → Option ℚ
  | .init t _ => some t
  | .imu t _ => some t
  | .ext t _ _ => some t
  | .meas _ => none

namespace Core
variable {A W X C M T E : Type}

section
variable {c : Core A W X C M T} {K : Kernel A W X C M T E}

theorem Newest.published {t : ℚ} {l0 : List (Event X C)} (h : c.Newest t l0) (x : X) (P : C) (b : Bool) :
    ({ c with out := c.out ++ [.afterPropagation t x P], predMade := b } : Core A W X C M T).Newest t
      l0 := by
  obtain ⟨l, e1, e2⟩ := h.out
  refine ⟨h.sorted, h.top, h.le, h.meas, l ++ [.afterPropagation t x P], by simp [e1], ?_⟩
  intro e he
  rcases List.mem_append.1 he with he | he
  · exact e2 e he
  · rw [List.mem_singleton.1 he]; rfl

theorem Newest.imuPropagate [AddCommGroup A] [Module ℚ A] [AddCommGroup W] [Module ℚ W] {t : ℚ} (h : SortedL c.states.nodes)
    (hle : ∀ n ∈ c.states.nodes, n.key ≤ t) (hm : ∀ n ∈ c.meas.nodes, n.key ≤ t) (env : Env)
    (last : Node (St A W X C)) (u : Input A W) :
    Post (imuPropagate env K c last t u) (Newest t c.out) := by
  rw [imuPropagate_form]
  refine Post.bind fun c1 hc1 => Post.bind fun cur _ => ?_
  have h1 := Newest.propagatePOneStep (K := K) (t := t) (l0 := c.out)
    (c := { c with states := (c.states.insert t (imuState K last t u)).1,
                   itImu := (c.states.insert t (imuState K last t u)).2 })
    ⟨Buf.sorted_insert h _ _, top_insert_self _ _ _,
      Buf.KeysIn.insert (fun n hn => hle n hn) (Set.mem_Iic.2 le_rfl) _, fun n hn => hm n hn,
      [], by simp, by simp⟩ c1 hc1
  unfold imuEnd
  split
  · exact Newest.handlePending (h1.published _ _ _) env
  · exact Post.ok (h1.published _ _ _)

theorem sorted_updateTime {V : Type} {b : Buf V} (h : SortedL b.nodes) (told tnew : ℚ) :
    SortedL (b.updateTime told tnew).1.nodes := by
  unfold Buf.updateTime
  split
  · exact h
  · exact Buf.sorted_insert (Buf.sorted_filter h _) _ _

/-- Re-timing an object that is there leaves an object at the new time. -/
theorem top_updateTime {V : Type} {b : Buf V} {n : Node V} (hn : n ∈ b.nodes) (tnew : ℚ) :
    ∃ m ∈ (b.updateTime n.key tnew).1.nodes, m.key = tnew := by
  unfold Buf.updateTime
  split
  · rename_i h
    exact absurd (by simpa using List.find?_eq_none.1 h n hn) id
  · exact top_insert_self _ _ _

theorem Newest.updateTime {t : ℚ} (h : SortedL c.states.nodes) (hle : ∀ n ∈ c.states.nodes, n.key ≤ t)
    (hm : ∀ n ∈ c.meas.nodes, n.key ≤ t) {n : Node (St A W X C)} (hn : n ∈ c.states.nodes) (tp : ℚ)
    (a b : A) (it : Iter) :
    ({ c with states := (c.states.updateTime n.key t).1, tP := tp, lastAmImu := a, lastAmExt := b,
              itImu := it } :
      Core A W X C M T).Newest t c.out :=
  ⟨sorted_updateTime h _ _, top_updateTime hn _,
    Buf.KeysIn.updateTime (fun n hn => hle n hn) _ (Set.mem_Iic.2 le_rfl), fun n hn => hm n hn,
    [], by simp, by simp⟩

/-- What has been published is in order and not newer than the newest state, whose time is at most
`b`. -/
structure Ordered (b : ℚ) (c : Core A W X C M T) : Prop where
  pw : (c.out.map Event.time).Pairwise (· ≤ ·)
  le : ∀ e ∈ c.out, e.time ≤ b
  newest : c.inited = true → ∃ t ≤ b, c.Newest t c.out ∧ ∀ e ∈ c.out, e.time ≤ t

/-- Publishing only at a time that is not older keeps the order. -/
theorem Ordered.of_newest {b t : ℚ} {c c' : Core A W X C M T} (h : c.Ordered b)
    (hl : ∀ e ∈ c.out, e.time ≤ t) (hn : c'.Newest t c.out) {b' : ℚ} (hb : t ≤ b') :
    c'.Ordered b' := by
  obtain ⟨l, e1, e2⟩ := hn.out
  have hle : ∀ e ∈ c'.out, e.time ≤ t := by
    intro e he
    rw [e1] at he
    rcases List.mem_append.1 he with he | he
    · exact hl e he
    · exact (e2 e he).le
  refine ⟨?_, fun e he => (hle e he).trans hb, fun _ => ⟨t, hb, ?_, hle⟩⟩
  · rw [e1, List.map_append, List.pairwise_append]
    refine ⟨h.pw, ?_, ?_⟩
    · rw [List.pairwise_map]
      refine List.Pairwise.imp_of_mem (R := fun _ _ => True) ?_ (by simp [List.pairwise_iff_forall_sublist])
      intro a b ha hb _
      rw [e2 a ha, e2 b hb]
    · intro x hx y hy
      obtain ⟨e, he, rfl⟩ := List.mem_map.1 hx
      obtain ⟨e', he', rfl⟩ := List.mem_map.1 hy
      rw [e2 e' he']
      exact hl e he
  · exact ⟨hn.sorted, hn.top, hn.le, hn.meas, [], by simp, by simp⟩

theorem Ordered.mono {b b' : ℚ} (h : c.Ordered b) (hb : b ≤ b') : c.Ordered b' :=
  ⟨h.pw, fun e he => (h.le e he).trans hb, fun hi =>
    let ⟨t, ht, r⟩ := h.newest hi; ⟨t, ht.trans hb, r⟩⟩

variable [AddCommGroup A] [Module ℚ A] [AddCommGroup W] [Module ℚ W]

theorem Ordered.api {b : ℚ} (h : c.Ordered b) (env : Env) (o : Api A W X C M E)
    (ho : ∀ t, o.clock = some t → b ≤ t) :
    Post (api env K c o) (Ordered ((o.clock).getD b)) := by
  cases o with
  | init t s =>
    have hbt : b ≤ t := ho t rfl
    refine Post.ok (h.of_newest (t := t) (fun e he => (h.le e he).trans hbt) ?_ le_rfl)
    exact ⟨Buf.sorted_insert (b := c.states.clear) List.Pairwise.nil _ _,
      top_insert_self c.states.clear t s,
      (Buf.KeysIn.clear c.states).insert (Set.mem_Iic.2 le_rfl) _, Buf.KeysIn.clear c.meas,
      [.initial t s.x s.P], rfl, by simp [Event.time]⟩
  | imu t u =>
    have hbt : b ≤ t := ho t rfl
    change Post (processIMU env K c t u) (Ordered t)
    rw [processIMU_form]
    by_cases hi : c.inited = false
    · rw [if_pos hi]; exact Post.ok (h.mono hbt)
    · rw [if_neg hi]
      obtain ⟨s, hs, hn, ho⟩ := h.newest (by simpa using hi)
      refine Post.bind fun it _ => Post.bind fun last hlast => ?_
      have hl : last ∈ c.states.nodes := Buf.deref_mem_nodes hlast
      have hle : ∀ n ∈ c.states.nodes, n.key ≤ t := fun n hm => (hn.le n hm).trans (hs.trans hbt)
      have hme : ∀ n ∈ c.meas.nodes, n.key ≤ t := fun n hm => (hn.meas n hm).trans (hs.trans hbt)
      have hot : ∀ e ∈ c.out, e.time ≤ t := fun e he => (h.le e he).trans hbt
      unfold imuBody
      split
      · exact Post.ok ⟨h.pw, hot, fun _ => ⟨s, hs.trans hbt,
          ⟨hn.sorted, hn.top, hn.le, hn.meas, hn.out⟩, ho⟩⟩
      · split
        · exact Post.ok ⟨h.pw, hot, fun hh => by cases hh⟩
        · split
          · refine Post.ok (h.of_newest hot ?_ le_rfl)
            exact Newest.updateTime hn.sorted hle hme hl _ _ _ _
          · intro c' hc'
            refine h.of_newest hot ?_ le_rfl
            exact Newest.imuPropagate (c := { c with itImu := it, lastAmImu := _ }) hn.sorted hle hme
              env last _ c' hc'
  | ext t u e =>
    have hbt : b ≤ t := ho t rfl
    change Post (processExternal env K c t u e) (Ordered t)
    rw [processExternal_form]
    by_cases hi : c.inited = false
    · rw [if_pos hi]; exact Post.ok (h.mono hbt)
    · rw [if_neg hi]
      obtain ⟨s, hs, hn, ho⟩ := h.newest (by simpa using hi)
      have hle : ∀ n ∈ c.states.nodes, n.key ≤ t := fun n hm => (hn.le n hm).trans (hs.trans hbt)
      have hme : ∀ n ∈ c.meas.nodes, n.key ≤ t := fun n hm => (hn.meas n hm).trans (hs.trans hbt)
      have hot : ∀ e ∈ c.out, e.time ≤ t := fun e he => (h.le e he).trans hbt
      split
      · exact Post.ok (h.mono hbt)
      · rename_i last hlast
        have hl : last ∈ c.states.nodes := List.mem_of_getLast? hlast
        split
        · exact Post.ok (h.mono hbt)
        · split
          · refine Post.ok (h.of_newest hot ?_ le_rfl)
            exact Newest.updateTime hn.sorted hle hme hl _ _ _ _
          · split
            · intro c' hc'
              refine h.of_newest hot ?_ le_rfl
              exact Newest.extEnd (c := { c with
                lastAmExt := (extInput K c u).a, tP := t, states := c.states.clear, meas := c.meas.clear, queue := [] })
                List.Pairwise.nil (by simp [Buf.clear]) (by simp [Buf.clear]) env _ c' hc'
            · intro c' hc'
              refine h.of_newest hot ?_ le_rfl
              exact Newest.extEnd (c := { c with lastAmExt := (extInput K c u).a }) hn.sorted hle hme env _ c' hc'
  | meas m =>
    change Post (addMeasurement env K c m) (Ordered b)
    by_cases hi : c.inited = true
    · obtain ⟨s, hs, hn, ho⟩ := h.newest hi
      intro c' hc'
      exact h.of_newest ho (hn.addMeasurement env m c' hc') hs
    · unfold Core.addMeasurement
      rw [if_pos (.inl (by simpa using hi))]
      exact Post.ret h

theorem Ordered.apis (env : Env) (os : List (Api A W X C M E)) : ∀ {c : Core A W X C M T} {b : ℚ}
    (_ : c.Ordered b) (_ : ∀ t ∈ os.filterMap Api.clock, b ≤ t)
    (_ : (os.filterMap Api.clock).Pairwise (· ≤ ·)),
    Post (apis env K c os) (fun c' => (c'.out.map Event.time).Pairwise (· ≤ ·)) := by
  induction os with
  | nil => intro c b h _ _; exact Post.ok h.pw
  | cons o os ih =>
    intro c b h hb hp
    unfold Core.apis
    refine Post.bind fun c1 hc1 => ?_
    have h1 := h.api env o (fun t ht => hb t (by simp [ht])) c1 hc1
    cases hc : o.clock with
    | none =>
      rw [hc] at h1
      rw [List.filterMap_cons_none hc] at hb hp
      exact ih h1 hb hp
    | some t =>
      rw [hc] at h1
      rw [List.filterMap_cons_some hc] at hb hp
      exact ih h1 (List.pairwise_cons.1 hp).1 (List.pairwise_cons.1 hp).2

end
end Core
end MSF
