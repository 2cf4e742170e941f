import Verif.Lemmas.InputMap
import Mathlib.Data.List.Induction

/-! Maps between runs that also change the IMU inputs, for runs with spikes: what is kept for spikes is related
as soon as it has been set. -/

namespace MSF
open Core
variable {A W X C M T E X' C' M' T' E' : Type}

namespace IHom
variable [AddCommGroup A] [Module ℚ A] [AddCommGroup W] [Module ℚ W]
  {K : Kernel A W X C M T E} {K' : Kernel A W X' C' M' T' E'} (h : IHom K K')

/-- The identity. -/
def refl (K : Kernel A W X C M T E) : IHom K K where
  u := id
  x := id
  c := id
  m _ := id
  t := id
  e := id
  lerp _ _ _ _ _ := rfl
  prop _ _ _ _ := rfl
  extProp _ _ := rfl
  predP _ _ _ _ := rfl
  update _ _ _ _ _ := rfl
  P0 := rfl
  tr0 := rfl
  numX _ := rfl
  numPos _ := rfl

theorem node_refl {V : Type} (g : V → V) (hg : ∀ v, g v = v) (n : Node V) : n.shift g 0 = n := by
  simp only [Node.shift, add_zero, hg]

theorem buf_refl {V : Type} (g : V → V) (hg : ∀ v, g v = v) (b : Buf V) : b.shift g 0 = b := by
  obtain ⟨ns, f⟩ := b
  simp only [Buf.shift, Buf.mk.injEq, and_true]
  exact (List.map_congr_left fun n _ => node_refl g hg n).trans (List.map_id _)

theorem iter_refl (i : Iter) : i.shift 0 = i := by
  cases i <;> simp [Iter.shift]

theorem refl_core (K : Kernel A W X C M T E) (c : Core A W X C M T) :
    (refl K).core 0 (c.lastAmImu, c.lastAmExt) c = c := by
  have hm : ∀ m : Meas M, (refl K).meas 0 m = m := fun m => by simp [IHom.meas, refl]
  have he : ∀ e : Event X C, (refl K).event 0 e = e := fun e => by
    cases e <;> simp [IHom.event, refl]
  obtain ⟨⟩ := c
  simp only [IHom.core, Core.mk.injEq, true_and, add_zero, iter_refl]
  refine ⟨buf_refl _ (fun _ => rfl) _, buf_refl _ hm _, ?_, rfl, ?_⟩
  · exact (List.map_congr_left fun m _ => hm m).trans (List.map_id _)
  · exact (List.map_congr_left fun m _ => he m).trans (List.map_id _)

omit [AddCommGroup A] [Module ℚ A] [AddCommGroup W] [Module ℚ W] in
theorem timesUniv (c : Core A W X C M T) : c.TimesIn Set.univ :=
  ⟨fun _ _ => trivial, fun _ _ => trivial, fun _ _ => trivial, fun _ _ => trivial⟩

/-- An operation that commutes with every choice of what is kept for spikes keeps it. -/
theorem keeps_of {f : Core A W X C M T → Except UB (Core A W X C M T)} {c : Core A W X C M T}
    (hf : ∀ l, f ((refl K).core 0 l c) = (f c).map ((refl K).core 0 l)) (c' : Core A W X C M T)
    (h : f c = .ok c') : c'.lastAmImu = c.lastAmImu ∧ c'.lastAmExt = c.lastAmExt := by
  have e := hf (c.lastAmImu, c.lastAmExt)
  rw [refl_core, h] at e
  have e2 := Except.ok.inj e
  have e3 := congrArg Core.lastAmImu e2
  have e4 := congrArg Core.lastAmExt e2
  exact ⟨e3, e4⟩

theorem imuPropagate_keeps (env : Env) (c : Core A W X C M T) (last : Node (St A W X C)) (t : ℚ)
    (u : Input A W) (c' : Core A W X C M T) (h : imuPropagate env K c last t u = .ok c') :
    c'.lastAmImu = c.lastAmImu ∧ c'.lastAmExt = c.lastAmExt := by
  refine keeps_of (K := K) (f := fun c => imuPropagate env K c last t u) (fun l => ?_) c' h
  have e := map_imuPropagate (refl K) 0 l env (Shiftable.zero Set.univ) (timesUniv c) last
    (t := t) trivial u
  rw [Env.shift_zero, node_refl (refl K).st (fun _ => rfl), add_zero] at e
  exact e

theorem extEnd_keeps (env : Env) (c : Core A W X C M T) (t : ℚ) (s : St A W X C) (c' : Core A W X C M T)
    (h : extEnd env K c t s = .ok c') :
    c'.lastAmImu = c.lastAmImu ∧ c'.lastAmExt = c.lastAmExt := by
  refine keeps_of (K := K) (f := fun c => extEnd env K c t s) (fun l => ?_) c' h
  have e := map_extEnd (refl K) 0 l env (Shiftable.zero Set.univ) (timesUniv c) (t := t) trivial s
  rw [Env.shift_zero, add_zero] at e
  exact e

theorem addMeasurement_keeps (env : Env) (c : Core A W X C M T) (m : Meas M) (c' : Core A W X C M T)
    (h : addMeasurement env K c m = .ok c') :
    c'.lastAmImu = c.lastAmImu ∧ c'.lastAmExt = c.lastAmExt := by
  refine keeps_of (K := K) (f := fun c => addMeasurement env K c m) (fun l => ?_) c' h
  have e := map_addMeasurement (refl K) 0 l env (Shiftable.zero Set.univ) (timesUniv c) (m := m) trivial
  have hm : (refl K).meas 0 m = m := by simp [IHom.meas, refl]
  rw [Env.shift_zero, hm] at e
  exact e

/-- The core right after an initialization at a valid time. -/
def Fresh (c : Core A W X C M T) : Prop :=
  c.inited = true ∧ c.predMade = false ∧ c.itImu ≠ .fin ∧
    ∃ n, c.states.deref c.itImu = .ok n ∧ c.states.last = some n ∧ n.key ≠ invalidTime

omit [AddCommGroup A] [Module ℚ A] [AddCommGroup W] [Module ℚ W] in
theorem fresh_init (c : Core A W X C M T) (t : ℚ) (s : St A W X C) (ht : t ≠ invalidTime) :
    Fresh (init K c t s) := by
  refine ⟨rfl, rfl, ?_, ⟨⟨t, c.states.fresh, s⟩, ?_, ?_, ht⟩⟩
  · simp [init, Buf.insert, Buf.clear, Buf.find, insertNode, Node.iter]
  · simp [init, Buf.insert, Buf.clear, Buf.find, insertNode, Node.iter, Buf.deref]
  · simp [init, Buf.insert, Buf.clear, Buf.find, insertNode, Node.iter, Buf.last]

/-- `ProcessIMU` when both runs agree on whether the reading is a spike.  If it is one, what is kept must be
related; it is related afterwards if it was before, or if a good reading comes right after an initialization. -/
theorem map_processIMU_agree {F : A → A} (hF : ∀ u, (h.u u).a = F u.a)
    (hu : ∀ (u : Input A W) a, h.u ⟨a, u.w⟩ = ⟨F a, (h.u u).w⟩) (l : A × A)
    {c : Core A W X C M T} (env : Env) (t : ℚ) (u : Input A W)
    (hsp : K'.spike (h.u u).a = K.spike u.a) (hl : K.spike u.a = true → l.1 = F c.lastAmImu) :
    ∃ l' : A × A, processIMU env K' (h.core 0 l c) (t + 0) (h.u u) =
      (processIMU env K c t u).map (h.core 0 l') ∧
      ∀ c', processIMU env K c t u = .ok c' →
        (l.1 = F c.lastAmImu ∨ (Fresh c ∧ K.spike u.a = false) → l'.1 = F c'.lastAmImu) ∧
        (l.2 = F c.lastAmExt → l'.2 = F c'.lastAmExt) := by
  have hS : Shiftable (0 : ℚ) Set.univ := Shiftable.zero Set.univ
  have hc := timesUniv c
  rw [processIMU_form, processIMU_form]
  by_cases hi : c.inited = false
  · rw [if_pos hi, if_pos (show (h.core 0 l c).inited = false from hi)]
    refine ⟨l, rfl, fun c' hc' => ?_⟩
    obtain rfl := Except.ok.inj hc'
    exact ⟨fun o => o.elim id fun f => absurd f.1.1 (by simp [hi]), id⟩
  · rw [if_neg hi, if_neg (show ¬ (h.core 0 l c).inited = false from hi)]
    have e : imuStart env (h.core 0 l c) (t + 0) = (imuStart env c t).map (Iter.shift 0) := by
      unfold imuStart
      by_cases hf : c.itImu = .fin
      · rw [if_pos hf, if_pos (show (h.core 0 l c).itImu = .fin from (Iter.shift_fin 0 _).2 hf)]
        have := Buf.shift_iterClosestBefore h.st 0 env.ps c.states t
        have ep : env.ps.shift 0 = env.ps := congrArg Env.ps (Env.shift_zero env)
        rw [ep] at this
        exact this
      · rw [if_neg hf, if_neg (show ¬ (h.core 0 l c).itImu = .fin from
          fun e => hf ((Iter.shift_fin 0 _).1 e))]
        rfl
    rw [e]
    have hfr : Fresh c → imuStart env c t = .ok c.itImu := fun f => by
      unfold imuStart
      rw [if_neg f.2.2.1]
    rcases hst : imuStart env c t with e | it
    · exact ⟨l, rfl, fun c' hc' => by cases hc'⟩
    have ed : (h.core 0 l c).states.deref (it.shift 0) = (c.states.deref it).map (Node.shift h.st 0) :=
      Buf.shift_deref _ _ _ _
    change ∃ l' : A × A, ((h.core 0 l c).states.deref (it.shift 0) >>= _) =
      Except.map _ (c.states.deref it >>= _) ∧ ∀ c', (c.states.deref it >>= _) = .ok c' → _
    rw [ed]
    rcases hlast : c.states.deref it with e | last
    · exact ⟨l, rfl, fun c' hc' => by cases hc'⟩
    have hfr2 : Fresh c → last.key ≠ invalidTime := fun f => by
      have := hfr f
      rw [hst] at this
      obtain rfl := Except.ok.inj this
      obtain ⟨n, h1, -, h3⟩ := f.2.2.2
      rw [h1] at hlast
      obtain rfl := Except.ok.inj hlast
      exact h3
    simp only [Except.map, bind, Except.bind]
    unfold imuBody
    simp only [Node.shift_key, (hS last.key (hc.states.deref hlast)).1, add_sub_add_right_eq_sub, hsp]
    by_cases k0 : last.key = invalidTime
    · simp only [k0, if_true]
      refine ⟨l, rfl, fun c' hc' => ?_⟩
      obtain rfl := Except.ok.inj hc'
      exact ⟨fun o => o.elim id fun f => absurd k0 (hfr2 f.1), id⟩
    · simp only [k0, if_false]
      by_cases k1 : t - last.key < -(1 / 100) ∧ c.predMade = true
      · rw [if_pos k1, if_pos (show t - last.key < -(1 / 100) ∧ (h.core 0 l c).predMade = true from k1)]
        refine ⟨l, rfl, fun c' hc' => ?_⟩
        obtain rfl := Except.ok.inj hc'
        exact ⟨fun o => o.elim id fun f => absurd k1.2 (by simp [f.1.2.1]), id⟩
      · rw [if_neg k1,
          if_neg (show ¬ (t - last.key < -(1 / 100) ∧ (h.core 0 l c).predMade = true) from k1)]
        refine ⟨(if K.spike u.a = true then l.1 else (h.u last.val.u).a, l.2), ?_⟩
        have ha : (if K.spike u.a = true then l.1 else (h.u last.val.u).a) =
              F (if K.spike u.a = true then c.lastAmImu else last.val.u.a) := by
          by_cases hs : K.spike u.a = true
          · rw [if_pos hs, if_pos hs]; exact hl hs
          · rw [if_neg hs, if_neg hs]; exact hF _
        by_cases k2 : c.predMade = false ∧ |t - last.key| > 1 / 10
        · rw [if_pos k2,
            if_pos (show (h.core 0 l c).predMade = false ∧ |t - last.key| > 1 / 10 from k2)]
          have eu := Buf.shift_updateTime h.st 0 c.states last.key t
          constructor
          · change Except.ok ({ h.core 0 l c with
              itImu := it.shift 0
              lastAmImu := _
              states := ((c.states.shift h.st 0).updateTime (last.key + 0) (t + 0)).1
              tP := t + 0 } : Core A W X' C' M' T') = _
            rw [eu]
            rfl
          · intro c' hc'
            obtain rfl := Except.ok.inj hc'
            exact ⟨fun _ => ha, id⟩
        · rw [if_neg k2,
            if_neg (show ¬ ((h.core 0 l c).predMade = false ∧ |t - last.key| > 1 / 10) from k2)]
          have eu : (if K.spike u.a = true then { h.u u with a := (h.core 0 l c).lastAmImu } else h.u u) =
              h.u (if K.spike u.a = true then { u with a := c.lastAmImu } else u) := by
            by_cases hs : K.spike u.a = true
            · rw [if_pos hs, if_pos hs, hu u c.lastAmImu, ← hl hs]; rfl
            · rw [if_neg hs, if_neg hs]
          constructor
          · have e := map_imuPropagate h 0 (if K.spike u.a = true then l.1 else (h.u last.val.u).a, l.2) env hS
              (timesUniv { c with
                itImu := it, lastAmImu := if K.spike u.a = true then c.lastAmImu else last.val.u.a })
              last (t := t) trivial (if K.spike u.a = true then { u with a := c.lastAmImu } else u)
            rw [Env.shift_zero] at e
            rw [← eu] at e
            exact e
          · intro c' hc'
            obtain ⟨e1, e2⟩ := imuPropagate_keeps env _ _ _ _ _ hc'
            rw [e1, e2]
            exact ⟨fun _ => ha, id⟩

/-- `ProcessExternallyPropagatedState` in the same way. -/
theorem map_processExternal_agree {F : A → A} (hF : ∀ u, (h.u u).a = F u.a)
    (hu : ∀ (u : Input A W) a, h.u ⟨a, u.w⟩ = ⟨F a, (h.u u).w⟩) (l : A × A)
    {c : Core A W X C M T} (env : Env) (t : ℚ) (u : Input A W) (e : Option E)
    (hsp : K'.spike (h.u u).a = K.spike u.a) (hl : K.spike u.a = true → l.2 = F c.lastAmExt) :
    ∃ l' : A × A, processExternal env K' (h.core 0 l c) (t + 0) (h.u u) (e.map h.e) =
      (processExternal env K c t u e).map (h.core 0 l') ∧
      ∀ c', processExternal env K c t u e = .ok c' →
        (l.1 = F c.lastAmImu → l'.1 = F c'.lastAmImu) ∧
        (l.2 = F c.lastAmExt ∨ (Fresh c ∧ K.spike u.a = false) → l'.2 = F c'.lastAmExt) := by
  have hS : Shiftable (0 : ℚ) Set.univ := Shiftable.zero Set.univ
  have hc := timesUniv c
  rw [processExternal_form, processExternal_form]
  by_cases hi : c.inited = false
  · rw [if_pos hi, if_pos (show (h.core 0 l c).inited = false from hi)]
    refine ⟨l, rfl, fun c' hc' => ?_⟩
    obtain rfl := Except.ok.inj hc'
    exact ⟨id, fun o => o.elim id fun f => absurd f.1.1 (by simp [hi])⟩
  · rw [if_neg hi, if_neg (show ¬ (h.core 0 l c).inited = false from hi)]
    have el : (h.core 0 l c).states.last = c.states.last.map (Node.shift h.st 0) :=
      Buf.shift_last _ _ _
    rw [el]
    cases hlast : c.states.last with
    | none =>
      refine ⟨l, rfl, fun c' hc' => ?_⟩
      obtain rfl := Except.ok.inj hc'
      refine ⟨id, fun o => o.elim id fun f => ?_⟩
      obtain ⟨n, -, h2, -⟩ := f.1.2.2.2
      rw [hlast] at h2
      cases h2
    | some last =>
      have hfr2 : Fresh c → last.key ≠ invalidTime := fun f => by
        obtain ⟨n, -, h2, h3⟩ := f.2.2.2
        rw [hlast] at h2
        obtain rfl := Option.some.inj h2
        exact h3
      dsimp only [Option.map_some]
      have eu : extInput K' (h.core 0 l c) (h.u u) = h.u (extInput K c u) := by
        unfold extInput
        rw [hsp]
        by_cases hs : K.spike u.a = true
        · rw [if_pos hs, if_pos hs, hu u c.lastAmExt, ← hl hs]; rfl
        · rw [if_neg hs, if_neg hs]
      rw [eu]
      generalize hv : extInput K c u = v
      have em : extMean K' (last.shift h.st 0) (t + 0) (h.u v) (e.map h.e) =
          h.x (extMean K last t v e) := by
        cases e with
        | none =>
          simp only [extMean, Option.map_none, Node.shift_key, Node.shift_val,
            add_sub_add_right_eq_sub, IHom.st, h.prop]
        | some e => exact h.extProp _ _
      rw [em]
      simp only [Node.shift_key, (hS last.key trivial).1, add_sub_add_right_eq_sub]
      by_cases k0 : last.key = invalidTime
      · simp only [k0, if_true]
        refine ⟨l, rfl, fun c' hc' => ?_⟩
        obtain rfl := Except.ok.inj hc'
        exact ⟨id, fun o => o.elim id fun f => absurd k0 (hfr2 f.1)⟩
      · simp only [k0, if_false]
        refine ⟨(l.1, (h.u v).a), ?_⟩
        by_cases k1 : c.predMade = false ∧ |t - last.key| > 5
        · rw [if_pos k1, if_pos (show (h.core 0 l c).predMade = false ∧ |t - last.key| > 5 from k1)]
          have eu := Buf.shift_updateTime h.st 0 c.states last.key t
          constructor
          · change Except.ok ({ h.core 0 l c with
              lastAmExt := _
              states := ((c.states.shift h.st 0).updateTime (last.key + 0) (t + 0)).1 } :
              Core A W X' C' M' T') = _
            rw [eu]
            rfl
          · intro c' hc'
            obtain rfl := Except.ok.inj hc'
            exact ⟨id, fun _ => hF _⟩
        · rw [if_neg k1,
            if_neg (show ¬ ((h.core 0 l c).predMade = false ∧ |t - last.key| > 5) from k1)]
          by_cases k2 : c.predMade = false
          · rw [if_pos k2, if_pos (show (h.core 0 l c).predMade = false from k2)]
            constructor
            · have e' := map_extEnd h 0 (l.1, (h.u v).a) env hS (timesUniv { c with
                lastAmExt := v.a, tP := t, states := c.states.clear
                meas := c.meas.clear, queue := [] }) (t := t) trivial ⟨v, extMean K last t v e, last.val.P⟩
              rw [Env.shift_zero] at e'
              exact e'
            · intro c' hc'
              obtain ⟨e1, e2⟩ := extEnd_keeps env _ _ _ _ hc'
              rw [e1, e2]
              exact ⟨id, fun _ => hF _⟩
          · rw [if_neg k2, if_neg (show ¬ (h.core 0 l c).predMade = false from k2)]
            constructor
            · have e' := map_extEnd h 0 (l.1, (h.u v).a) env hS (timesUniv { c with lastAmExt := v.a })
                (t := t) trivial ⟨v, extMean K last t v e, K.P0⟩
              rw [Env.shift_zero] at e'
              rw [h.P0]
              exact e'
            · intro c' hc'
              obtain ⟨e1, e2⟩ := extEnd_keeps env _ _ _ _ hc'
              rw [e1, e2]
              exact ⟨id, fun _ => hF _⟩

/-- Somewhere in the list a good reading comes right after an initialization at a valid time. -/
def GoodImu (sp : A → Bool) (os : List (Api A W X C M E)) : Prop :=
  ∃ p t s t1 u1 q, os = p ++ .init t s :: .imu t1 u1 :: q ∧ t ≠ invalidTime ∧ sp u1.a = false

/-- The same for readings that come with external states. -/
def GoodExt (sp : A → Bool) (os : List (Api A W X C M E)) : Prop :=
  ∃ p t s t1 u1 e q, os = p ++ .init t s :: .ext t1 u1 e :: q ∧ t ≠ invalidTime ∧ sp u1.a = false

omit [AddCommGroup A] [Module ℚ A] [AddCommGroup W] [Module ℚ W] in
theorem snoc_two {α : Type} {p q : List α} {a b x : α} {os : List α} (h : os ++ [x] = p ++ a :: b :: q) :
    (∃ q', os = p ++ a :: b :: q') ∨ (os = p ++ [a] ∧ x = b) := by
  rcases List.eq_nil_or_concat q with rfl | ⟨q', y, rfl⟩
  · right
    have : os ++ [x] = (p ++ [a]) ++ [b] := by simpa using h
    have := List.append_inj' this rfl
    exact ⟨this.1, by simpa using this.2⟩
  · left
    have : os ++ [x] = (p ++ a :: b :: q') ++ [y] := by simpa using h
    exact ⟨q', (List.append_inj' this rfl).1⟩

/-- Both runs agree on whether readings are spikes, and every spike comes later than a good reading right after
an initialization. -/
structure Tame (os : List (Api A W X C M E)) : Prop where
  agree : ∀ o ∈ os, match o with
    | .imu _ u => K'.spike (h.u u).a = K.spike u.a
    | .ext _ u _ => K'.spike (h.u u).a = K.spike u.a
    | _ => True
  imu : ∀ pre t u post, os = pre ++ .imu t u :: post → K.spike u.a = true → GoodImu K.spike pre
  ext : ∀ pre t u e post, os = pre ++ .ext t u e :: post → K.spike u.a = true → GoodExt K.spike pre

theorem Tame.init {os : List (Api A W X C M E)} {o : Api A W X C M E} (ht : h.Tame (os ++ [o])) :
    h.Tame os where
  agree o' ho' := ht.agree o' (List.mem_append_left _ ho')
  imu pre t u post e := ht.imu pre t u (post ++ [o]) (by rw [e]; simp)
  ext pre t u x post e := ht.ext pre t u x (post ++ [o]) (by rw [e]; simp)

theorem apis_snoc (env : Env) (K : Kernel A W X C M T E) (os : List (Api A W X C M E)) (o : Api A W X C M E) :
    ∀ c, Core.apis env K c (os ++ [o]) = Core.apis env K c os >>= fun c => Core.api env K c o := by
  induction os with
  | nil =>
    intro c
    change (Core.api env K c o >>= fun c => .ok c) = Core.api env K c o
    cases Core.api env K c o <;> rfl
  | cons a os ih =>
    intro c
    change (Core.api env K c a >>= fun c => Core.apis env K c (os ++ [o])) =
      (Core.api env K c a >>= fun c => Core.apis env K c os) >>= _
    cases Core.api env K c a with
    | error e => rfl
    | ok c1 => exact ih c1

theorem map_apis_tame {F : A → A} (hF : ∀ u, (h.u u).a = F u.a)
    (hu : ∀ (u : Input A W) a, h.u ⟨a, u.w⟩ = ⟨F a, (h.u u).w⟩) (env : Env)
    (os : List (Api A W X C M E)) (ht : h.Tame os) :
    ∃ l : A × A, Core.apis env K' (Core.new K') (os.map (h.api 0)) =
        (Core.apis env K (Core.new K) os).map (h.core 0 l) ∧
      ∀ c, Core.apis env K (Core.new K) os = .ok c →
        (GoodImu K.spike os → l.1 = F c.lastAmImu) ∧ (GoodExt K.spike os → l.2 = F c.lastAmExt) ∧
        ∀ p t s, os = p ++ [.init t s] → t ≠ invalidTime → Fresh c := by
  induction os using List.reverseRecOn with
  | nil =>
    refine ⟨(0, 0), ?_, fun c _ => ⟨?_, ?_, ?_⟩⟩
    · change Except.ok _ = Except.ok _
      congr 1
      simp only [IHom.core, Core.new, h.tr0, add_zero, List.map_nil]
      rfl
    · rintro ⟨p, t, s, t1, u1, q, e, -⟩; simp at e
    · rintro ⟨p, t, s, t1, u1, x, q, e, -⟩; simp at e
    · intro p t s e; simp at e
  | append_singleton os o ih =>
    obtain ⟨l, e, hl⟩ := ih (Tame.init h ht)
    rw [List.map_append, List.map_singleton, apis_snoc, apis_snoc, e]
    rcases hr : Core.apis env K (Core.new K) os with e1 | c
    · exact ⟨l, rfl, fun c hc => by cases hc⟩
    obtain ⟨h1, h2, h3⟩ := hl c hr
    have hag := ht.agree o (by simp)
    change ∃ l' : A × A, Core.api env K' (h.core 0 l c) (h.api 0 o) = (Core.api env K c o).map (h.core 0 l') ∧
      ∀ c', Core.api env K c o = .ok c' → _
    have notI : ∀ {p t s t1 u1 q}, os ++ [o] = p ++ .init t s :: .imu t1 u1 :: q →
        (∀ t u, o ≠ .imu t u) → ∃ q', os = p ++ .init t s :: .imu t1 u1 :: q' := fun e hn =>
      (snoc_two e).elim id fun r => absurd r.2 (hn _ _)
    have notE : ∀ {p t s t1 u1 x q}, os ++ [o] = p ++ .init t s :: .ext t1 u1 x :: q →
        (∀ t u x, o ≠ .ext t u x) → ∃ q', os = p ++ .init t s :: .ext t1 u1 x :: q' := fun e hn =>
      (snoc_two e).elim id fun r => absurd r.2 (hn _ _ _)
    have last : ∀ {p t s}, os ++ [o] = p ++ [.init t s] → o = .init t s := fun e => by
      simpa using (List.append_inj' e rfl).2
    cases o with
    | init t s =>
      refine ⟨l, ?_, fun c' hc' => ?_⟩
      · change Except.ok (Core.init K' (h.core 0 l c) (t + 0) (h.st s)) = _
        rw [map_init]
        rfl
      · obtain rfl := Except.ok.inj hc'
        refine ⟨?_, ?_, ?_⟩
        · rintro ⟨p, t, s, t1, u1, q, e, hv⟩
          obtain ⟨q', e'⟩ := notI e (by simp)
          exact h1 ⟨p, t, s, t1, u1, q', e', hv⟩
        · rintro ⟨p, t, s, t1, u1, x, q, e, hv⟩
          obtain ⟨q', e'⟩ := notE e (by simp)
          exact h2 ⟨p, t, s, t1, u1, x, q', e', hv⟩
        · intro p t' s' e hv
          obtain ⟨rfl, rfl⟩ : t = t' ∧ s = s' := by simpa using last e
          exact fresh_init c t s hv
    | imu t u =>
      obtain ⟨l', e', hl'⟩ := map_processIMU_agree h hF hu l (c := c) env t u hag
        (fun hs => h1 (ht.imu os t u [] rfl hs))
      refine ⟨l', e', fun c' hc' => ?_⟩
      obtain ⟨k1, k2⟩ := hl' c' hc'
      refine ⟨?_, ?_, ?_⟩
      · rintro ⟨p, t', s', t1, u1, q, e, hv, hg⟩
        rcases snoc_two e with ⟨q', e'⟩ | ⟨e', eo⟩
        · exact k1 (.inl (h1 ⟨p, t', s', t1, u1, q', e', hv, hg⟩))
        · obtain ⟨rfl, rfl⟩ : t = t1 ∧ u = u1 := by simpa using eo
          exact k1 (.inr ⟨h3 p t' s' e' hv, hg⟩)
      · rintro ⟨p, t', s', t1, u1, x, q, e, hv⟩
        obtain ⟨q', e'⟩ := notE e (by simp)
        exact k2 (h2 ⟨p, t', s', t1, u1, x, q', e', hv⟩)
      · intro p t' s' e
        exact absurd (last e) (by simp)
    | ext t u x =>
      obtain ⟨l', e', hl'⟩ := map_processExternal_agree h hF hu l (c := c) env t u x hag
        (fun hs => h2 (ht.ext os t u x [] rfl hs))
      refine ⟨l', e', fun c' hc' => ?_⟩
      obtain ⟨k1, k2⟩ := hl' c' hc'
      refine ⟨?_, ?_, ?_⟩
      · rintro ⟨p, t', s', t1, u1, q, e, hv⟩
        obtain ⟨q', e'⟩ := notI e (by simp)
        exact k1 (h1 ⟨p, t', s', t1, u1, q', e', hv⟩)
      · rintro ⟨p, t', s', t1, u1, x', q, e, hv, hg⟩
        rcases snoc_two e with ⟨q', e'⟩ | ⟨e', eo⟩
        · exact k2 (.inl (h2 ⟨p, t', s', t1, u1, x', q', e', hv, hg⟩))
        · obtain ⟨rfl, rfl, rfl⟩ : t = t1 ∧ u = u1 ∧ x = x' := by simpa using eo
          exact k2 (.inr ⟨h3 p t' s' e' hv, hg⟩)
      · intro p t' s' e
        exact absurd (last e) (by simp)
    | meas m =>
      have em := map_addMeasurement h 0 l env (Shiftable.zero Set.univ) (timesUniv c) (m := m) trivial
      rw [Env.shift_zero] at em
      refine ⟨l, em, fun c' hc' => ?_⟩
      obtain ⟨k1, k2⟩ := addMeasurement_keeps env c m c' hc'
      rw [k1, k2]
      refine ⟨?_, ?_, ?_⟩
      · rintro ⟨p, t, s, t1, u1, q, e, hv⟩
        obtain ⟨q', e'⟩ := notI e (by simp)
        exact h1 ⟨p, t, s, t1, u1, q', e', hv⟩
      · rintro ⟨p, t, s, t1, u1, x, q, e, hv⟩
        obtain ⟨q', e'⟩ := notE e (by simp)
        exact h2 ⟨p, t, s, t1, u1, x, q', e', hv⟩
      · intro p t' s' e
        exact absurd (last e) (by simp)

/-- The runs publish related states. -/
theorem map_out_tame {F : A → A} (hF : ∀ u, (h.u u).a = F u.a)
    (hu : ∀ (u : Input A W) a, h.u ⟨a, u.w⟩ = ⟨F a, (h.u u).w⟩) (env : Env)
    (os : List (Api A W X C M E)) (ht : h.Tame os) :
    (Core.apis env K' (Core.new K') (os.map (h.api 0))).map Core.out =
      (Core.apis env K (Core.new K) os).map (fun c => c.out.map (h.event 0)) := by
  obtain ⟨l, e, -⟩ := map_apis_tame h hF hu env os ht
  rw [e]
  cases Core.apis env K (Core.new K) os <;> rfl

/-- If zero is mapped to zero, what is kept for spikes is related from the start. -/
theorem map_out_zero {F : A → A} (hF : ∀ u, (h.u u).a = F u.a)
    (hu : ∀ (u : Input A W) a, h.u ⟨a, u.w⟩ = ⟨F a, (h.u u).w⟩) (h0 : F 0 = 0) (env : Env)
    (os : List (Api A W X C M E)) (hs : ∀ a, K'.spike (F a) = K.spike a) :
    (Core.apis env K' (Core.new K') (os.map (h.api 0))).map Core.out =
      (Core.apis env K (Core.new K) os).map (fun c => c.out.map (h.event 0)) := by
  have key : ∀ (os : List (Api A W X C M E)) (c : Core A W X C M T),
      ∃ l : A × A, Core.apis env K' (h.core 0 (F c.lastAmImu, F c.lastAmExt) c) (os.map (h.api 0)) =
        (Core.apis env K c os).map (h.core 0 l) := by
    intro os
    induction os with
    | nil => intro c; exact ⟨_, rfl⟩
    | cons o os ih =>
      intro c
      have step : ∃ l' : A × A, Core.api env K' (h.core 0 (F c.lastAmImu, F c.lastAmExt) c) (h.api 0 o) =
          (Core.api env K c o).map (h.core 0 l') ∧
          ∀ c', Core.api env K c o = .ok c' → l' = (F c'.lastAmImu, F c'.lastAmExt) := by
        cases o with
        | init t s =>
          refine ⟨(F c.lastAmImu, F c.lastAmExt), ?_, fun c' hc' => ?_⟩
          · change Except.ok (Core.init K' _ (t + 0) (h.st s)) = _
            rw [map_init]
            rfl
          · obtain rfl := Except.ok.inj hc'
            rfl
        | imu t u =>
          obtain ⟨l', e, hl⟩ := map_processIMU_agree h hF hu (F c.lastAmImu, F c.lastAmExt) (c := c) env t u
            (by rw [hF, hs]) (fun _ => rfl)
          exact ⟨l', e, fun c' hc' => Prod.ext ((hl c' hc').1 (.inl rfl)) ((hl c' hc').2 rfl)⟩
        | ext t u x =>
          obtain ⟨l', e, hl⟩ := map_processExternal_agree h hF hu (F c.lastAmImu, F c.lastAmExt) (c := c) env t
            u x (by rw [hF, hs]) (fun _ => rfl)
          exact ⟨l', e, fun c' hc' => Prod.ext ((hl c' hc').1 rfl) ((hl c' hc').2 (.inl rfl))⟩
        | meas m =>
          have em := map_addMeasurement h 0 (F c.lastAmImu, F c.lastAmExt) env (Shiftable.zero Set.univ)
            (timesUniv c) (m := m) trivial
          rw [Env.shift_zero] at em
          refine ⟨_, em, fun c' hc' => ?_⟩
          obtain ⟨k1, k2⟩ := addMeasurement_keeps env c m c' hc'
          rw [k1, k2]
      obtain ⟨l', e, hl⟩ := step
      change ∃ l : A × A, (Core.api env K' _ (h.api 0 o) >>= fun c1 =>
        Core.apis env K' c1 (os.map (h.api 0))) =
        (Core.api env K c o >>= fun c1 => Core.apis env K c1 os).map (h.core 0 l)
      rw [e]
      rcases hr : Core.api env K c o with e1 | c1
      · exact ⟨l', rfl⟩
      · obtain rfl := hl c1 hr
        exact ih c1
  obtain ⟨l, e⟩ := key os (Core.new K)
  have e0 : h.core 0 (F (Core.new K).lastAmImu, F (Core.new K).lastAmExt) (Core.new K) = Core.new K' := by
    simp only [IHom.core, Core.new, h.tr0, add_zero, List.map_nil, h0]
    rfl
  rw [e0] at e
  rw [e]
  cases Core.apis env K (Core.new K) os <;> rfl

end IHom
end MSF
