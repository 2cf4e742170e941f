import Verif.Lemmas.InputSpikes
import Verif.Lemmas.RelInput

/-! The counterpart of `Lemmas/InputSpikes` for runs with relative measurements. -/

namespace MSF
variable {A W X C F M T E X' C' F' M' T' E' : Type}

namespace FIHom
open Flow IHom
variable [AddCommGroup A] [Module ℚ A] [AddCommGroup W] [Module ℚ W]
  {fl : Flow A W X C M T E} {fl' : Flow A W X' C' M' T' E'}
  {Q : Meas M → Prop} (h : FIHom Q fl fl')

/-- The identity commutes with the operations of the flow whatever is kept for spikes: they do not read it. -/
structure Still (fl : Flow A W X C M T E) (Q : Meas M → Prop) where
  hom : FIHom Q fl fl
  eq : hom.toIHom = IHom.refl fl.toKernel

variable (r : Still fl Q)
include r

theorem imuPropagate_keeps (env : Env) (c : Core A W X C M T) (hc : c.MeasOk Q) (last : Node (St A W X C)) (t : ℚ)
    (u : Input A W) (c' : Core A W X C M T) (h : imuPropagate env fl c last t u = .ok c') :
    c'.lastAmImu = c.lastAmImu ∧ c'.lastAmExt = c.lastAmExt := by
  refine keeps_of (K := fl.toKernel) (f := fun c => imuPropagate env fl c last t u) (fun l => ?_) c' h
  have e := r.hom.map_imuPropagate l c hc env last t u
  rw [r.eq, node_refl (IHom.refl fl.toKernel).st (fun _ => rfl), add_zero] at e
  exact e

theorem extEnd_keeps (env : Env) (c : Core A W X C M T) (hc : c.MeasOk Q) (t : ℚ) (s : St A W X C)
    (c' : Core A W X C M T) (h : extEnd env fl c t s = .ok c') :
    c'.lastAmImu = c.lastAmImu ∧ c'.lastAmExt = c.lastAmExt := by
  refine keeps_of (K := fl.toKernel) (f := fun c => extEnd env fl c t s) (fun l => ?_) c' h
  have e := r.hom.map_extEnd l c hc env t s
  rw [r.eq, add_zero] at e
  exact e

theorem addMeasurement_keeps (env : Env) (c : Core A W X C M T) (hc : c.MeasOk Q) (m : Meas M) (hm : Q m)
    (c' : Core A W X C M T) (h : addMeasurement env fl c m = .ok c') :
    c'.lastAmImu = c.lastAmImu ∧ c'.lastAmExt = c.lastAmExt := by
  refine keeps_of (K := fl.toKernel) (f := fun c => addMeasurement env fl c m) (fun l => ?_) c' h
  have e := r.hom.map_addMeasurement l c hc env m hm
  have hmm : (IHom.refl fl.toKernel).meas 0 m = m := by simp [IHom.meas, IHom.refl]
  rw [r.eq, hmm] at e
  exact e

/-- `ProcessIMU` when both runs agree on whether the reading is a spike.  If it is one, what is kept must be
related; it is related afterwards if it was before, or if a good reading comes right after an initialization. -/
theorem map_processIMU_agree {Fa : A → A} (hF : ∀ u, (h.u u).a = Fa u.a)
    (hu : ∀ (u : Input A W) a, h.u ⟨a, u.w⟩ = ⟨Fa a, (h.u u).w⟩) (l : A × A)
    {c : Core A W X C M T} (hc : c.MeasOk Q) (env : Env) (t : ℚ) (u : Input A W)
    (hsp : fl'.spike (h.u u).a = fl.spike u.a) (hl : fl.spike u.a = true → l.1 = Fa c.lastAmImu) :
    ∃ l' : A × A, processIMU env fl' (h.core 0 l c) (t + 0) (h.u u) =
      (processIMU env fl c t u).map (h.core 0 l') ∧
      ∀ c', processIMU env fl c t u = .ok c' →
        (l.1 = Fa c.lastAmImu ∨ (Fresh c ∧ fl.spike u.a = false) → l'.1 = Fa c'.lastAmImu) ∧
        (l.2 = Fa c.lastAmExt → l'.2 = Fa c'.lastAmExt) := by
  rw [processIMU_form, processIMU_form]
  by_cases hi : c.inited = false
  · rw [if_pos hi, if_pos (show (h.core 0 l c).inited = false from hi)]
    refine ⟨l, rfl, fun c' hc' => ?_⟩
    obtain rfl := Except.ok.inj hc'
    exact ⟨fun o => o.elim id fun f => absurd f.1.1 (by simp [hi]), id⟩
  · rw [if_neg hi, if_neg (show ¬ (h.core 0 l c).inited = false from hi)]
    have e : Core.imuStart env (h.core 0 l c) (t + 0) = (Core.imuStart env c t).map (Iter.shift 0) := by
      unfold Core.imuStart
      by_cases hf : c.itImu = .fin
      · rw [if_pos hf, if_pos (show (h.core 0 l c).itImu = .fin from (Iter.shift_fin 0 _).2 hf)]
        have := Buf.shift_iterClosestBefore h.st 0 env.ps c.states t
        rw [plat_zero] at this
        exact this
      · rw [if_neg hf, if_neg (show ¬ (h.core 0 l c).itImu = .fin from
          fun e => hf ((Iter.shift_fin 0 _).1 e))]
        rfl
    rw [e]
    have hfr : Fresh c → Core.imuStart env c t = .ok c.itImu := fun f => by
      unfold Core.imuStart
      rw [if_neg f.2.2.1]
    rcases hst : Core.imuStart env c t with e | it
    · exact ⟨l, rfl, fun c' hc' => by cases hc'⟩
    have ed : (h.core 0 l c).states.deref (it.shift 0) = (c.states.deref it).map (Node.shift h.st 0) :=
      Buf.shift_deref _ _ _ _
    change ∃ l' : A × A, ((h.core 0 l c).states.deref (it.shift 0) >>= _) =
      Except.map _ (c.states.deref it >>= _) ∧ ∀ c', (c.states.deref it >>= _) = .ok c' → _
    rw [ed]
    rcases hlast : c.states.deref it with e | last
    · exact ⟨l, rfl, fun c' hc' => by cases hc'⟩
    have hfr2 : Fresh c → last.key ≠ invalidTime := fun f => by
      have := hfr f
      rw [hst] at this
      obtain rfl := Except.ok.inj this
      obtain ⟨n, h1, -, h3⟩ := f.2.2.2
      rw [h1] at hlast
      obtain rfl := Except.ok.inj hlast
      exact h3
    simp only [Except.map, bind, Except.bind]
    unfold imuBody
    simp only [Node.shift_key, (hS0 last.key trivial).1, add_sub_add_right_eq_sub, hsp]
    by_cases k0 : last.key = invalidTime
    · simp only [k0, if_true]
      refine ⟨l, rfl, fun c' hc' => ?_⟩
      obtain rfl := Except.ok.inj hc'
      exact ⟨fun o => o.elim id fun f => absurd k0 (hfr2 f.1), id⟩
    · simp only [k0, if_false]
      by_cases k1 : t - last.key < -(1 / 100) ∧ c.predMade = true
      · rw [if_pos k1, if_pos (show t - last.key < -(1 / 100) ∧ (h.core 0 l c).predMade = true from k1)]
        refine ⟨l, rfl, fun c' hc' => ?_⟩
        obtain rfl := Except.ok.inj hc'
        exact ⟨fun o => o.elim id fun f => absurd k1.2 (by simp [f.1.2.1]), id⟩
      · rw [if_neg k1,
          if_neg (show ¬ (t - last.key < -(1 / 100) ∧ (h.core 0 l c).predMade = true) from k1)]
        refine ⟨(if fl.spike u.a = true then l.1 else (h.u last.val.u).a, l.2), ?_⟩
        have ha : (if fl.spike u.a = true then l.1 else (h.u last.val.u).a) =
              Fa (if fl.spike u.a = true then c.lastAmImu else last.val.u.a) := by
          by_cases hs : fl.spike u.a = true
          · rw [if_pos hs, if_pos hs]; exact hl hs
          · rw [if_neg hs, if_neg hs]; exact hF _
        by_cases k2 : c.predMade = false ∧ |t - last.key| > 1 / 10
        · rw [if_pos k2,
            if_pos (show (h.core 0 l c).predMade = false ∧ |t - last.key| > 1 / 10 from k2)]
          have eu := Buf.shift_updateTime h.st 0 c.states last.key t
          constructor
          · change Except.ok ({ h.core 0 l c with
              itImu := it.shift 0
              lastAmImu := _
              states := ((c.states.shift h.st 0).updateTime (last.key + 0) (t + 0)).1
              tP := t + 0 } : Core A W X' C' M' T') = _
            rw [eu]
            rfl
          · intro c' hc'
            obtain rfl := Except.ok.inj hc'
            exact ⟨fun _ => ha, id⟩
        · rw [if_neg k2,
            if_neg (show ¬ ((h.core 0 l c).predMade = false ∧ |t - last.key| > 1 / 10) from k2)]
          have eu : (if fl.spike u.a = true then { h.u u with a := (h.core 0 l c).lastAmImu } else h.u u) =
              h.u (if fl.spike u.a = true then { u with a := c.lastAmImu } else u) := by
            by_cases hs : fl.spike u.a = true
            · rw [if_pos hs, if_pos hs, hu u c.lastAmImu, ← hl hs]; rfl
            · rw [if_neg hs, if_neg hs]
          constructor
          · have e := h.map_imuPropagate (if fl.spike u.a = true then l.1 else (h.u last.val.u).a, l.2) { c with
                itImu := it, lastAmImu := if fl.spike u.a = true then c.lastAmImu else last.val.u.a }
              ⟨hc.sorted, hc.keyed, hc.queue⟩ env
              last t (if fl.spike u.a = true then { u with a := c.lastAmImu } else u)
            rw [← eu] at e
            exact e
          · intro c' hc'
            obtain ⟨e1, e2⟩ := imuPropagate_keeps r env _ (by exact ⟨hc.sorted, hc.keyed, hc.queue⟩) _ _ _ _ hc'
            rw [e1, e2]
            exact ⟨fun _ => ha, id⟩

/-- `ProcessExternallyPropagatedState` in the same way. -/
theorem map_processExternal_agree {Fa : A → A} (hF : ∀ u, (h.u u).a = Fa u.a)
    (hu : ∀ (u : Input A W) a, h.u ⟨a, u.w⟩ = ⟨Fa a, (h.u u).w⟩) (l : A × A)
    {c : Core A W X C M T} (hc : c.MeasOk Q) (env : Env) (t : ℚ) (u : Input A W) (e : Option E)
    (hsp : fl'.spike (h.u u).a = fl.spike u.a) (hl : fl.spike u.a = true → l.2 = Fa c.lastAmExt) :
    ∃ l' : A × A, processExternal env fl' (h.core 0 l c) (t + 0) (h.u u) (e.map h.e) =
      (processExternal env fl c t u e).map (h.core 0 l') ∧
      ∀ c', processExternal env fl c t u e = .ok c' →
        (l.1 = Fa c.lastAmImu → l'.1 = Fa c'.lastAmImu) ∧
        (l.2 = Fa c.lastAmExt ∨ (Fresh c ∧ fl.spike u.a = false) → l'.2 = Fa c'.lastAmExt) := by
  rw [processExternal_form, processExternal_form]
  by_cases hi : c.inited = false
  · rw [if_pos hi, if_pos (show (h.core 0 l c).inited = false from hi)]
    refine ⟨l, rfl, fun c' hc' => ?_⟩
    obtain rfl := Except.ok.inj hc'
    exact ⟨id, fun o => o.elim id fun f => absurd f.1.1 (by simp [hi])⟩
  · rw [if_neg hi, if_neg (show ¬ (h.core 0 l c).inited = false from hi)]
    have el : (h.core 0 l c).states.last = c.states.last.map (Node.shift h.st 0) :=
      Buf.shift_last _ _ _
    rw [el]
    cases hlast : c.states.last with
    | none =>
      refine ⟨l, rfl, fun c' hc' => ?_⟩
      obtain rfl := Except.ok.inj hc'
      refine ⟨id, fun o => o.elim id fun f => ?_⟩
      obtain ⟨n, -, h2, -⟩ := f.1.2.2.2
      rw [hlast] at h2
      cases h2
    | some last =>
      have hfr2 : Fresh c → last.key ≠ invalidTime := fun f => by
        obtain ⟨n, -, h2, h3⟩ := f.2.2.2
        rw [hlast] at h2
        obtain rfl := Option.some.inj h2
        exact h3
      dsimp only [Option.map_some]
      have eu : Core.extInput fl'.toKernel (h.core 0 l c) (h.u u) = h.u (Core.extInput fl.toKernel c u) := by
        unfold Core.extInput
        rw [hsp]
        by_cases hs : fl.spike u.a = true
        · rw [if_pos hs, if_pos hs, hu u c.lastAmExt, ← hl hs]; rfl
        · rw [if_neg hs, if_neg hs]
      rw [eu]
      generalize hv : Core.extInput fl.toKernel c u = v
      have em : Core.extMean fl'.toKernel (last.shift h.st 0) (t + 0) (h.u v) (e.map h.e) =
          h.x (Core.extMean fl.toKernel last t v e) := by
        cases e with
        | none =>
          simp only [Core.extMean, Option.map_none, Node.shift_key, Node.shift_val,
            add_sub_add_right_eq_sub, IHom.st, h.prop]
        | some e => exact h.extProp _ _
      rw [em]
      simp only [Node.shift_key, (hS0 last.key trivial).1, add_sub_add_right_eq_sub]
      by_cases k0 : last.key = invalidTime
      · simp only [k0, if_true]
        refine ⟨l, rfl, fun c' hc' => ?_⟩
        obtain rfl := Except.ok.inj hc'
        exact ⟨id, fun o => o.elim id fun f => absurd k0 (hfr2 f.1)⟩
      · simp only [k0, if_false]
        refine ⟨(l.1, (h.u v).a), ?_⟩
        by_cases k1 : c.predMade = false ∧ |t - last.key| > 5
        · rw [if_pos k1, if_pos (show (h.core 0 l c).predMade = false ∧ |t - last.key| > 5 from k1)]
          have eu := Buf.shift_updateTime h.st 0 c.states last.key t
          constructor
          · change Except.ok ({ h.core 0 l c with
              lastAmExt := _
              states := ((c.states.shift h.st 0).updateTime (last.key + 0) (t + 0)).1 } :
              Core A W X' C' M' T') = _
            rw [eu]
            rfl
          · intro c' hc'
            obtain rfl := Except.ok.inj hc'
            exact ⟨id, fun _ => hF _⟩
        · rw [if_neg k1,
            if_neg (show ¬ ((h.core 0 l c).predMade = false ∧ |t - last.key| > 5) from k1)]
          by_cases k2 : c.predMade = false
          · rw [if_pos k2, if_pos (show (h.core 0 l c).predMade = false from k2)]
            constructor
            · exact h.map_extEnd (l.1, (h.u v).a) { c with
                lastAmExt := v.a, tP := t, states := c.states.clear
                meas := c.meas.clear, queue := [] } (ok_clear hc rfl rfl) env t
                  ⟨v, Core.extMean fl.toKernel last t v e, last.val.P⟩
            · intro c' hc'
              obtain ⟨e1, e2⟩ := extEnd_keeps r env _ (by exact ok_clear hc rfl rfl) _ _ _ hc'
              rw [e1, e2]
              exact ⟨id, fun _ => hF _⟩
          · rw [if_neg k2, if_neg (show ¬ (h.core 0 l c).predMade = false from k2)]
            constructor
            · rw [h.P0]
              exact h.map_extEnd (l.1, (h.u v).a) { c with lastAmExt := v.a }
                ⟨hc.sorted, hc.keyed, hc.queue⟩ env t ⟨v, Core.extMean fl.toKernel last t v e, fl.P0⟩
            · intro c' hc'
              obtain ⟨e1, e2⟩ := extEnd_keeps r env _ (by exact ⟨hc.sorted, hc.keyed, hc.queue⟩) _ _ _ hc'
              rw [e1, e2]
              exact ⟨id, fun _ => hF _⟩

omit r in
theorem apis_snoc (env : Env) (fl : Flow A W X C M T E) (os : List (Api A W X C M E)) (o : Api A W X C M E) :
    ∀ c, apis env fl c (os ++ [o]) = apis env fl c os >>= fun c => api env fl c o := by
  induction os with
  | nil =>
    intro c
    change (api env fl c o >>= fun c => .ok c) = api env fl c o
    cases api env fl c o <;> rfl
  | cons a os ih =>
    intro c
    change (api env fl c a >>= fun c => apis env fl c (os ++ [o])) =
      (api env fl c a >>= fun c => apis env fl c os) >>= _
    cases api env fl c a with
    | error e => rfl
    | ok c1 => exact ih c1

theorem map_apis_tame {Fa : A → A} (hF : ∀ u, (h.u u).a = Fa u.a)
    (hu : ∀ (u : Input A W) a, h.u ⟨a, u.w⟩ = ⟨Fa a, (h.u u).w⟩) (env : Env)
    (os : List (Api A W X C M E)) (hm : ∀ o ∈ os, measOf Q o) (ht : h.Tame os) :
    ∃ l : A × A, apis env fl' (Core.new fl'.toKernel) (os.map (h.api 0)) =
        (apis env fl (Core.new fl.toKernel) os).map (h.core 0 l) ∧
      ∀ c, apis env fl (Core.new fl.toKernel) os = .ok c →
        (GoodImu fl.spike os → l.1 = Fa c.lastAmImu) ∧ (GoodExt fl.spike os → l.2 = Fa c.lastAmExt) ∧
        (∀ p t s, os = p ++ [.init t s] → t ≠ invalidTime → Fresh c) ∧ c.MeasOk Q := by
  induction os using List.reverseRecOn with
  | nil =>
    refine ⟨(0, 0), ?_, fun c hc => ⟨?_, ?_, ?_, ?_⟩⟩
    · change Except.ok _ = Except.ok _
      congr 1
      simp only [IHom.core, Core.new, h.tr0, add_zero, List.map_nil]
      rfl
    · rintro ⟨p, t, s, t1, u1, q, e, -⟩; simp at e
    · rintro ⟨p, t, s, t1, u1, x, q, e, -⟩; simp at e
    · intro p t s e; simp at e
    · obtain rfl := Except.ok.inj hc; exact ok_new _
  | append_singleton os o ih =>
    obtain ⟨l, e, hl⟩ := ih (fun o' ho' => hm o' (List.mem_append_left _ ho')) (Tame.init _ ht)
    rw [List.map_append, List.map_singleton, apis_snoc, apis_snoc, e]
    rcases hr : apis env fl (Core.new fl.toKernel) os with e1 | c
    · exact ⟨l, rfl, fun c hc => by cases hc⟩
    obtain ⟨h1, h2, h3, hc⟩ := hl c hr
    have hmo := hm o (by simp)
    have hok := fun c' (e : api env fl c o = .ok c') => ok_api h.keeps hc env hmo c' e
    have hag := ht.agree o (by simp)
    change ∃ l' : A × A, api env fl' (h.core 0 l c) (h.api 0 o) = (api env fl c o).map (h.core 0 l') ∧
      ∀ c', api env fl c o = .ok c' → _
    have notI : ∀ {p t s t1 u1 q}, os ++ [o] = p ++ .init t s :: .imu t1 u1 :: q →
        (∀ t u, o ≠ .imu t u) → ∃ q', os = p ++ .init t s :: .imu t1 u1 :: q' := fun e hn =>
      (snoc_two e).elim id fun r => absurd r.2 (hn _ _)
    have notE : ∀ {p t s t1 u1 x q}, os ++ [o] = p ++ .init t s :: .ext t1 u1 x :: q →
        (∀ t u x, o ≠ .ext t u x) → ∃ q', os = p ++ .init t s :: .ext t1 u1 x :: q' := fun e hn =>
      (snoc_two e).elim id fun r => absurd r.2 (hn _ _ _)
    have last : ∀ {p t s}, os ++ [o] = p ++ [.init t s] → o = .init t s := fun e => by
      simpa using (List.append_inj' e rfl).2
    cases o with
    | init t s =>
      refine ⟨l, ?_, fun c' hc' => ?_⟩
      · change Except.ok (Core.init fl'.toKernel (h.core 0 l c) (t + 0) (h.st s)) = _
        rw [IHom.map_init]
        rfl
      · have hok' := hok c' hc'
        obtain rfl := Except.ok.inj hc'
        refine ⟨?_, ?_, ?_, hok'⟩
        · rintro ⟨p, t, s, t1, u1, q, e, hv⟩
          obtain ⟨q', e'⟩ := notI e (by simp)
          exact h1 ⟨p, t, s, t1, u1, q', e', hv⟩
        · rintro ⟨p, t, s, t1, u1, x, q, e, hv⟩
          obtain ⟨q', e'⟩ := notE e (by simp)
          exact h2 ⟨p, t, s, t1, u1, x, q', e', hv⟩
        · intro p t' s' e hv
          obtain ⟨rfl, rfl⟩ : t = t' ∧ s = s' := by simpa using last e
          exact fresh_init c t s hv
    | imu t u =>
      obtain ⟨l', e', hl'⟩ := map_processIMU_agree h r hF hu l hc env t u hag
        (fun hs => h1 (ht.imu os t u [] rfl hs))
      refine ⟨l', e', fun c' hc' => ?_⟩
      obtain ⟨k1, k2⟩ := hl' c' hc'
      refine ⟨?_, ?_, ?_, hok c' hc'⟩
      · rintro ⟨p, t', s', t1, u1, q, e, hv, hg⟩
        rcases snoc_two e with ⟨q', e'⟩ | ⟨e', eo⟩
        · exact k1 (.inl (h1 ⟨p, t', s', t1, u1, q', e', hv, hg⟩))
        · obtain ⟨rfl, rfl⟩ : t = t1 ∧ u = u1 := by simpa using eo
          exact k1 (.inr ⟨h3 p t' s' e' hv, hg⟩)
      · rintro ⟨p, t', s', t1, u1, x, q, e, hv⟩
        obtain ⟨q', e'⟩ := notE e (by simp)
        exact k2 (h2 ⟨p, t', s', t1, u1, x, q', e', hv⟩)
      · intro p t' s' e
        exact absurd (last e) (by simp)
    | ext t u x =>
      obtain ⟨l', e', hl'⟩ := map_processExternal_agree h r hF hu l hc env t u x hag
        (fun hs => h2 (ht.ext os t u x [] rfl hs))
      refine ⟨l', e', fun c' hc' => ?_⟩
      obtain ⟨k1, k2⟩ := hl' c' hc'
      refine ⟨?_, ?_, ?_, hok c' hc'⟩
      · rintro ⟨p, t', s', t1, u1, q, e, hv⟩
        obtain ⟨q', e'⟩ := notI e (by simp)
        exact k1 (h1 ⟨p, t', s', t1, u1, q', e', hv⟩)
      · rintro ⟨p, t', s', t1, u1, x', q, e, hv, hg⟩
        rcases snoc_two e with ⟨q', e'⟩ | ⟨e', eo⟩
        · exact k2 (.inl (h2 ⟨p, t', s', t1, u1, x', q', e', hv, hg⟩))
        · obtain ⟨rfl, rfl, rfl⟩ : t = t1 ∧ u = u1 ∧ x = x' := by simpa using eo
          exact k2 (.inr ⟨h3 p t' s' e' hv, hg⟩)
      · intro p t' s' e
        exact absurd (last e) (by simp)
    | meas m =>
      have em := h.map_addMeasurement l c hc env m hmo
      refine ⟨l, em, fun c' hc' => ?_⟩
      obtain ⟨k1, k2⟩ := addMeasurement_keeps r env c hc m hmo c' hc'
      rw [k1, k2]
      refine ⟨?_, ?_, ?_, hok c' hc'⟩
      · rintro ⟨p, t, s, t1, u1, q, e, hv⟩
        obtain ⟨q', e'⟩ := notI e (by simp)
        exact h1 ⟨p, t, s, t1, u1, q', e', hv⟩
      · rintro ⟨p, t, s, t1, u1, x, q, e, hv⟩
        obtain ⟨q', e'⟩ := notE e (by simp)
        exact h2 ⟨p, t, s, t1, u1, x, q', e', hv⟩
      · intro p t' s' e
        exact absurd (last e) (by simp)

/-- The runs publish related states. -/
theorem map_out_tame {Fa : A → A} (hF : ∀ u, (h.u u).a = Fa u.a)
    (hu : ∀ (u : Input A W) a, h.u ⟨a, u.w⟩ = ⟨Fa a, (h.u u).w⟩) (env : Env)
    (os : List (Api A W X C M E)) (hm : ∀ o ∈ os, measOf Q o) (ht : h.Tame os) :
    (apis env fl' (Core.new fl'.toKernel) (os.map (h.api 0))).map Core.out =
      (apis env fl (Core.new fl.toKernel) os).map (fun c => c.out.map (h.event 0)) := by
  obtain ⟨l, e, -⟩ := map_apis_tame h r hF hu env os hm ht
  rw [e]
  cases apis env fl (Core.new fl.toKernel) os <;> rfl

/-- If zero is mapped to zero, what is kept for spikes is related from the start. -/
theorem map_out_zero {Fa : A → A} (hF : ∀ u, (h.u u).a = Fa u.a)
    (hu : ∀ (u : Input A W) a, h.u ⟨a, u.w⟩ = ⟨Fa a, (h.u u).w⟩) (h0 : Fa 0 = 0) (env : Env)
    (os : List (Api A W X C M E)) (hm : ∀ o ∈ os, measOf Q o) (hs : ∀ a, fl'.spike (Fa a) = fl.spike a) :
    (apis env fl' (Core.new fl'.toKernel) (os.map (h.api 0))).map Core.out =
      (apis env fl (Core.new fl.toKernel) os).map (fun c => c.out.map (h.event 0)) := by
  have key : ∀ (os : List (Api A W X C M E)) (_ : ∀ o ∈ os, measOf Q o) (c : Core A W X C M T) (_ : c.MeasOk Q),
      ∃ l : A × A, apis env fl' (h.core 0 (Fa c.lastAmImu, Fa c.lastAmExt) c) (os.map (h.api 0)) =
        (apis env fl c os).map (h.core 0 l) := by
    intro os
    induction os with
    | nil => intro _ c _; exact ⟨_, rfl⟩
    | cons o os ih =>
      intro hm c hc
      have hmo := hm o (List.mem_cons_self ..)
      have step : ∃ l' : A × A, api env fl' (h.core 0 (Fa c.lastAmImu, Fa c.lastAmExt) c) (h.api 0 o) =
          (api env fl c o).map (h.core 0 l') ∧
          ∀ c', api env fl c o = .ok c' → l' = (Fa c'.lastAmImu, Fa c'.lastAmExt) := by
        cases o with
        | init t s =>
          refine ⟨(Fa c.lastAmImu, Fa c.lastAmExt), ?_, fun c' hc' => ?_⟩
          · change Except.ok (Core.init fl'.toKernel _ (t + 0) (h.st s)) = _
            rw [IHom.map_init]
            rfl
          · obtain rfl := Except.ok.inj hc'
            rfl
        | imu t u =>
          obtain ⟨l', e, hl⟩ := map_processIMU_agree h r hF hu (Fa c.lastAmImu, Fa c.lastAmExt) hc env t u
            (by rw [hF, hs]) (fun _ => rfl)
          exact ⟨l', e, fun c' hc' => Prod.ext ((hl c' hc').1 (.inl rfl)) ((hl c' hc').2 rfl)⟩
        | ext t u x =>
          obtain ⟨l', e, hl⟩ := map_processExternal_agree h r hF hu (Fa c.lastAmImu, Fa c.lastAmExt) hc env t
            u x (by rw [hF, hs]) (fun _ => rfl)
          exact ⟨l', e, fun c' hc' => Prod.ext ((hl c' hc').1 rfl) ((hl c' hc').2 (.inl rfl))⟩
        | meas m =>
          have em := h.map_addMeasurement (Fa c.lastAmImu, Fa c.lastAmExt) c hc env m hmo
          refine ⟨_, em, fun c' hc' => ?_⟩
          obtain ⟨k1, k2⟩ := addMeasurement_keeps r env c hc m hmo c' hc'
          rw [k1, k2]
      obtain ⟨l', e, hl⟩ := step
      change ∃ l : A × A, (api env fl' _ (h.api 0 o) >>= fun c1 =>
        apis env fl' c1 (os.map (h.api 0))) =
        (api env fl c o >>= fun c1 => apis env fl c1 os).map (h.core 0 l)
      rw [e]
      rcases hr : api env fl c o with e1 | c1
      · exact ⟨l', rfl⟩
      · obtain rfl := hl c1 hr
        exact ih (fun o' ho' => hm o' (List.mem_cons_of_mem _ ho')) c1 (ok_api h.keeps hc env hmo c1 hr)
  obtain ⟨l, e⟩ := key os hm (Core.new fl.toKernel) (ok_new _)
  have e0 : h.core 0 (Fa (Core.new fl.toKernel).lastAmImu, Fa (Core.new fl.toKernel).lastAmExt) (Core.new fl.toKernel) = Core.new fl'.toKernel := by
    simp only [IHom.core, Core.new, h.tr0, add_zero, List.map_nil, h0]
    rfl
  rw [e0] at e
  rw [e]
  cases apis env fl (Core.new fl.toKernel) os <;> rfl

end FIHom

namespace RIHom
variable [AddCommGroup A] [Module ℚ A] [AddCommGroup W] [Module ℚ W]
  {Q : Meas M → Prop} {R : RelKernel A W X C F M T E} {R' : RelKernel A W X' C' F' M' T' E'}
  (h : RIHom Q R R')

/-- The identity. -/
def refl (R : RelKernel A W X C F M T E) (Q : Meas M → Prop) : RIHom Q R R where
  toIHom := IHom.refl R.toKernel
  g := id
  fd _ _ _ := rfl
  fd0 := rfl
  mulF _ _ := rfl
  isRel _ _ := rfl
  cast _ _ := rfl
  clear _ _ _ _ := rfl
  relUpdate _ _ _ _ _ _ _ _ _ _ _ _ _ := rfl

/-- Runs with relative measurements do not read what is kept for spikes outside of the spike test. -/
def still (R : RelKernel A W X C F M T E) (Q : Meas M → Prop) : FIHom.Still R.flow Q where
  hom := (refl R Q).flow
  eq := rfl

theorem run_tame {Fa : A → A} (hF : ∀ u, (h.u u).a = Fa u.a)
    (hu : ∀ (u : Input A W) a, h.u ⟨a, u.w⟩ = ⟨Fa a, (h.u u).w⟩) (env : Env)
    (os : List (Api A W X (C × F) M E)) (ho : ∀ o ∈ os, Flow.measOf Q o) (ht : h.pair.Tame os) :
    (R'.run env (os.map (h.pair.api 0))).map Core.out =
      (R.run env os).map fun c => c.out.map (h.pair.event 0) :=
  FIHom.map_out_tame h.flow (still R Q) hF hu env os ho ht

theorem run_zero {Fa : A → A} (hF : ∀ u, (h.u u).a = Fa u.a)
    (hu : ∀ (u : Input A W) a, h.u ⟨a, u.w⟩ = ⟨Fa a, (h.u u).w⟩) (h0 : Fa 0 = 0) (env : Env)
    (os : List (Api A W X (C × F) M E)) (ho : ∀ o ∈ os, Flow.measOf Q o) (hs : ∀ a, R'.spike (Fa a) = R.spike a) :
    (R'.run env (os.map (h.pair.api 0))).map Core.out =
      (R.run env os).map fun c => c.out.map (h.pair.event 0) :=
  FIHom.map_out_zero h.flow (still R Q) hF hu h0 env os ho hs

end RIHom
end MSF
