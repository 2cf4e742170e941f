import Verif.Lemmas.FlowMap

/-! A change of representation of the numerical values commutes with the runs of filters with relative
measurements. -/

namespace MSF
variable {A W X C F M T E X' C' F' M' T' E' : Type}

/-! ### The previous measurement -/

namespace Core
variable {K : Kernel A W X C M T E} {K' : Kernel A W X' C' M' T' E'} (h : KHom K K')

theorem map_prevLoop (env : Env) (c : Core A W X C M T) (t : ℚ) (sensor : Int) (bb : Iter) (fuel : Nat) :
    ∀ it, prevLoop env (h.core 0 c) (t + 0) sensor (bb.shift 0) fuel (it.shift 0) =
      (prevLoop env c t sensor bb fuel it).map (Iter.shift 0) := by
  induction fuel with
  | zero => intro it; rfl
  | succ fuel ih =>
    intro it
    unfold prevLoop
    by_cases hb : it = bb
    · rw [if_pos hb, if_pos ((Iter.shift_inj 0 it bb).2 hb)]; rfl
    · rw [if_neg hb, if_neg fun e => hb ((Iter.shift_inj 0 it bb).1 e)]
      change ((c.meas.shift (h.meas 0) 0).deref (it.shift 0) >>= _) = _
      rw [Buf.shift_deref]
      refine bind_shift fun n _ => ?_
      have e : ((n.shift (h.meas 0) 0).key ≠ t + 0 ∧ (n.shift (h.meas 0) 0).val.sensor ≠ sensor) ↔
          (n.key ≠ t ∧ n.val.sensor ≠ sensor) := by
        simp [Node.shift, KHom.meas]
      by_cases hn : n.key ≠ t ∧ n.val.sensor ≠ sensor
      · rw [if_pos hn, if_pos (e.2 hn)]
        change ((c.meas.shift (h.meas 0) 0).decr env.pm (it.shift 0) >>= _) = _
        have e0 := Buf.shift_decr (h.meas 0) 0 env.pm c.meas it
        rw [Flow.plat_zero] at e0
        rw [e0]
        exact bind_shift fun i _ => ih i
      · rw [if_neg hn, if_neg fun a => hn (e.1 a)]; rfl

theorem map_getPreviousMeasurement (env : Env) (c : Core A W X C M T) (t : ℚ) (sensor : Int) :
    getPreviousMeasurement env (h.core 0 c) (t + 0) sensor =
      (getPreviousMeasurement env c t sensor).map (Option.map (Node.shift (h.meas 0) 0)) := by
  unfold getPreviousMeasurement
  have e1 : (h.core 0 c).meas.iterAtValue (t + 0) = (c.meas.iterAtValue t).shift 0 :=
    Buf.shift_iterAtValue _ _ _ _
  rw [e1]
  change ((c.meas.shift (h.meas 0) 0).deref ((c.meas.iterAtValue t).shift 0) >>= _) = _
  rw [Buf.shift_deref]
  refine bind_shift fun n _ => ?_
  by_cases hn : n.key ≠ t
  · rw [if_pos hn, if_pos (by simpa using hn)]; rfl
  · rw [if_neg hn, if_neg (by simpa using hn)]
    have e0 := Buf.shift_decr (h.meas 0) 0 env.pm c.meas (c.meas.iterAtValue t)
    have e2 := Buf.shift_decBegin (h.meas 0) 0 env.pm c.meas
    rw [Flow.plat_zero] at e0 e2
    change ((c.meas.shift (h.meas 0) 0).decr env.pm ((c.meas.iterAtValue t).shift 0) >>= _) = _
    rw [e0]
    refine bind_shift fun it _ => ?_
    change ((c.meas.shift (h.meas 0) 0).decBegin env.pm >>= _) = _
    rw [e2]
    refine bind_shift fun bb _ => ?_
    have es : (h.core 0 c).meas.size = c.meas.size := Buf.shift_size _ _ _
    rw [es, map_prevLoop h env c t sensor bb _ it]
    refine bind_shift fun i _ => ?_
    by_cases hb : i = bb
    · rw [if_pos hb, if_pos ((Iter.shift_inj 0 i bb).2 hb)]; rfl
    · rw [if_neg hb, if_neg fun e => hb ((Iter.shift_inj 0 i bb).1 e)]
      change ((c.meas.shift (h.meas 0) 0).deref (i.shift 0) >>= _) = _
      rw [Buf.shift_deref]
      exact bind_shift fun n _ => rfl

theorem prevLoop_spec (env : Env) (c : Core A W X C M T) (t : ℚ) (sensor : Int) (bb : Iter) (fuel : Nat) :
    ∀ it, Post (prevLoop env c t sensor bb fuel it)
      (fun i => i ≠ bb → ∀ n, c.meas.deref i = .ok n → n.key = t ∨ n.val.sensor = sensor) := by
  induction fuel with
  | zero => intro it; exact Post.err
  | succ fuel ih =>
    intro it
    unfold prevLoop
    split
    · rename_i hb
      exact Post.ok fun h => absurd hb h
    · refine Post.bind fun n hn => ?_
      split
      · exact Post.bind fun i _ => ih i
      · rename_i hc
        refine Post.ret fun _ m hm => ?_
        rw [hn] at hm
        cases hm
        by_contra hcon
        exact hc ⟨fun e => hcon (.inl e), fun e => hcon (.inr e)⟩

/-- The previous measurement of a buffered measurement is buffered and of the same sensor. -/
theorem getPreviousMeasurement_spec {Q : Meas M → Prop} (env : Env) {c : Core A W X C M T}
    (hc : c.MeasOk Q) {m : Node (Meas M)} (hm : m ∈ c.meas.nodes) :
    Post (getPreviousMeasurement env c m.val.time m.val.sensor)
      (fun r => ∀ p, r = some p → p ∈ c.meas.nodes ∧ p.val.sensor = m.val.sensor) := by
  unfold getPreviousMeasurement
  refine Post.bind fun n _ => ?_
  split
  · exact Post.ret (by simp)
  · refine Post.bind fun it _ => Post.bind fun bb _ => Post.bind fun i hi => ?_
    have hs := prevLoop_spec env c m.val.time m.val.sensor bb _ it i hi
    split
    · exact Post.ret (by simp)
    · rename_i hb
      refine Post.bind fun p hp => Post.ret ?_
      intro p' hp'
      cases hp'
      have hpm := Buf.deref_mem_nodes hp
      refine ⟨hpm, ?_⟩
      rcases hs hb p hp with hk | hk
      · rw [(hc.keyed m hm).1] at hk
        have h1 := Buf.find_eq_some hc.sorted hpm
        have h2 := Buf.find_eq_some hc.sorted hm
        rw [hk, h2] at h1
        cases h1
        rfl
      · exact hk

end Core

/-! ### Morphisms of kernels with relative measurements -/

/-- A morphism of kernels that commutes with the operations of relative measurements, as far as the
measurements satisfy `Q`. -/
structure RHom (Q : Meas M → Prop) (R : RelKernel A W X C F M T E) (R' : RelKernel A W X' C' F' M' T' E')
    extends KHom R.toKernel R'.toKernel where
  g : F → F'
  fd : ∀ dt u s, R'.fd dt u (x s) = g (R.fd dt u s)
  fd0 : R'.fd0 = g R.fd0
  mulF : ∀ a b, R'.mulF (g a) (g b) = g (R.mulF a b)
  isRel : ∀ i b, R'.isRel (m i b) = R.isRel b
  cast : ∀ i b, R'.cast (m i b) = R.cast b
  clear : ∀ i b P, R.isRel b = true → R'.clear (m i b) (c P) = c (R.clear b P)
  relUpdate : ∀ (m1 m2 : Meas M), Q m1 → Q m2 → m1.sensor = m2.sensor → R.isRel m2.body = true →
    R.cast m1.body = true → ∀ tr xo Po G s P,
    R'.relUpdate (t tr) (m m1.sensor m1.body) (m m2.sensor m2.body) (x xo) (c (R.clear m2.body Po)) (g G) (x s)
      (c (R.clear m2.body P)) =
    (fun r : Upd X C T => ⟨t r.tr, x r.x, c r.P, r.applied, f r.fuzzy⟩)
      (R.relUpdate tr m1.body m2.body xo (R.clear m2.body Po) G s (R.clear m2.body P))

namespace RHom
variable {Q : Meas M → Prop} {R : RelKernel A W X C F M T E} {R' : RelKernel A W X' C' F' M' T' E'}
  (h : RHom Q R R')

/-- The morphism on states with `P` and `Fd`. -/
def pair : KHom R.pair R'.pair where
  x := h.x
  c := Prod.map h.c h.g
  m := h.m
  t := h.t
  e := h.e
  f := h.f
  f_false := h.f_false
  f_or := h.f_or
  prop := h.prop
  extProp := h.extProp
  predP dt P u s := by
    change (R'.predP dt (h.c P.1) u (h.x s), R'.fd0) = (h.c _, h.g R.fd0)
    rw [h.predP, h.fd0]
    rfl
  update i tr b s P := by
    have e := h.update i tr b s P.1
    have e2 : R'.pair.update (h.t tr) (h.m i b) (h.x s) (Prod.map h.c h.g P) =
        (fun r : Upd X' C' T' => (⟨r.tr, r.x, (r.P, h.g P.2), r.applied, r.fuzzy⟩ : Upd X' (C' × F') T'))
          (R'.update (h.t tr) (h.m i b) (h.x s) (h.c P.1)) := rfl
    rw [e2, e]
    rfl
  P0 := by
    change (R'.P0, R'.fd0) = (h.c R.P0, h.g R.fd0)
    rw [h.P0, h.fd0]
  tr0 := h.tr0
  spike := h.spike
  numX := h.numX
  numPos := h.numPos

theorem map_predict (c : Core A W X (C × F) M T) (o n : Node (St A W X (C × F))) :
    R'.predict (h.pair.core 0 c) (o.shift h.pair.st 0) (n.shift h.pair.st 0) =
      h.pair.core 0 (R.predict c o n) := by
  unfold RelKernel.predict
  simp only [Node.shift_key, Node.shift_val, add_sub_add_right_eq_sub]
  split
  · rfl
  · simp only [KHom.core, Core.mk.injEq, and_true]
    rw [← Buf.shift_modify h.pair.st 0 _ _ (f' := fun s => { s with P :=
        (R'.predP (n.key - o.key) (h.pair.st o.val).P.1 s.u s.x, s.P.2) }),
      ← Buf.shift_modify h.pair.st 0 _ _ (f' := fun s => { s with P :=
        (s.P.1, R'.fd (n.key - o.key) (h.pair.st n.val).u (h.pair.st n.val).x) })]
    · intro v
      change (⟨v.u, h.x v.x, (h.c v.P.1, h.g (R.fd _ _ _))⟩ : St A W X' (C' × F')) =
        ⟨v.u, h.x v.x, (h.c v.P.1, R'.fd _ _ (h.x n.val.x))⟩
      rw [h.fd]
      rfl
    · intro v
      change (⟨v.u, h.x v.x, (h.c (R.predP _ _ _ _), h.g v.P.2)⟩ : St A W X' (C' × F')) =
        ⟨v.u, h.x v.x, (R'.predP _ (h.c o.val.P.1) v.u (h.x v.x), h.g v.P.2)⟩
      rw [h.predP]

theorem deref_core (c : Core A W X (C × F) M T) (n : Node (St A W X (C × F))) :
    (h.pair.core 0 c).states.deref (n.shift h.pair.st 0).iter =
      (c.states.deref n.iter).map (Node.shift h.pair.st 0) := by
  rw [Node.shift_iter]
  exact Buf.shift_deref _ _ _ _

theorem map_current (c : Core A W X (C × F) M T) (n : Node (St A W X (C × F))) :
    RelKernel.current (h.pair.core 0 c) (n.shift h.pair.st 0) =
      (RelKernel.current c n).shift h.pair.st 0 := by
  unfold RelKernel.current
  rw [h.deref_core]
  cases c.states.deref n.iter <;> rfl

theorem map_write (c : Core A W X (C × F) M T) (n : Node (St A W X (C × F)))
    {u : St A W X (C × F) → St A W X (C × F)} {u' : St A W X' (C' × F') → St A W X' (C' × F')}
    (hu : ∀ v, h.pair.st (u v) = u' (h.pair.st v)) :
    RelKernel.write (h.pair.core 0 c) (n.shift h.pair.st 0) u' =
      h.pair.core 0 (RelKernel.write c n u) := by
  unfold RelKernel.write
  rw [h.deref_core]
  cases c.states.deref n.iter with
  | error _ => rfl
  | ok _ =>
    simp only [Except.map, KHom.core, Core.mk.injEq, and_true, true_and]
    exact Buf.shift_modify h.pair.st 0 _ _ hu

theorem map_accumulate (c : Core A W X (C × F) M T) (stop : Iter) (fuel : Nat) :
    ∀ (it : Iter) (acc : F),
    R'.accumulate (h.pair.core 0 c) (stop.shift 0) fuel (it.shift 0) (h.g acc) =
      (R.accumulate c stop fuel it acc).map h.g := by
  induction fuel with
  | zero => intro it acc; rfl
  | succ fuel ih =>
    intro it acc
    unfold RelKernel.accumulate
    by_cases hs : it = stop
    · rw [if_pos hs, if_pos ((Iter.shift_inj 0 it stop).2 hs)]; rfl
    · rw [if_neg hs, if_neg fun e => hs ((Iter.shift_inj 0 it stop).1 e)]
      change ((c.states.shift h.pair.st 0).deref (it.shift 0) >>= _) = _
      rw [Buf.shift_deref]
      refine bind_shift fun n _ => ?_
      change ((c.states.shift h.pair.st 0).incr (it.shift 0) >>= _) = _
      rw [Buf.shift_incr]
      refine bind_shift fun i _ => ?_
      change R'.accumulate _ _ _ _ (R'.mulF (h.g acc) (h.g n.val.P.2)) = _
      rw [h.mulF]
      exact ih i _

/-- The end of `relApply`. -/
def relFinish (c : Core A W X (C × F) M T) (s n : Node (St A W X (C × F))) (r : Upd X C T) :
    Core A W X (C × F) M T :=
  let c := RelKernel.write c s fun v => { v with x := r.x, P := (r.P, v.P.2) }
  { c with
    tracker := r.tr
    fuzzy := c.fuzzy || r.fuzzy
    tP := if r.applied then n.key else c.tP }

theorem map_relApply (c : Core A W X (C × F) M T) (prev m : Meas M)
    (old s : Node (St A W X (C × F))) (q1 : Q prev) (q2 : Q m) (hs : prev.sensor = m.sensor)
    (hr : R.isRel m.body = true) (hca : R.cast prev.body = true) :
    RelKernel.relApply R' (h.pair.core 0 c) (h.pair.meas 0 prev) (h.pair.meas 0 m)
        (old.shift h.pair.st 0) (s.shift h.pair.st 0) =
      (RelKernel.relApply R c prev m old s).map (h.pair.core 0) := by
  unfold RelKernel.relApply
  have hcl : ∀ v : St A W X (C × F), h.pair.st { v with P := (R.clear m.body v.P.1, v.P.2) } =
      (fun v : St A W X' (C' × F') => { v with
        P := (R'.clear (h.pair.meas 0 m).body v.P.1, v.P.2) }) (h.pair.st v) := by
    intro v
    change (⟨v.u, h.x v.x, (h.c (R.clear m.body v.P.1), h.g v.P.2)⟩ : St A W X' (C' × F')) =
      ⟨v.u, h.x v.x, (R'.clear (h.m m.sensor m.body) (h.c v.P.1), h.g v.P.2)⟩
    rw [h.clear _ _ _ hr]
  rw [h.map_current, h.map_current]
  generalize RelKernel.current c old = o
  generalize RelKernel.current c s = n
  rw [h.map_write c old hcl]
  dsimp only
  generalize RelKernel.write c old _ = c1
  rw [h.map_write c1 s hcl]
  generalize RelKernel.write c1 s _ = c2
  have e1 : ∀ k : ℚ, (h.pair.core 0 c2).states.iterAtValue (k + 0) = (c2.states.iterAtValue k).shift 0 :=
    fun k => Buf.shift_iterAtValue _ _ _ _
  have e2 : (h.pair.core 0 c2).states.size = c2.states.size := Buf.shift_size _ _ _
  rw [Node.shift_key, Node.shift_key, e1, e1, e2, h.fd0, h.map_accumulate]
  refine bind_shift fun G _ => ?_
  have eu := h.relUpdate prev m q1 q2 hs hr hca c2.tracker o.val.x o.val.P.1 G n.val.x n.val.P.1
  change Except.ok (relFinish (h.pair.core 0 c2) (s.shift h.pair.st 0) (n.shift h.pair.st 0)
      (R'.relUpdate (h.t c2.tracker) (h.m prev.sensor prev.body) (h.m m.sensor m.body)
        (h.x o.val.x) (R'.clear (h.m m.sensor m.body) (h.c o.val.P.1)) (h.g G) (h.x n.val.x)
        (R'.clear (h.m m.sensor m.body) (h.c n.val.P.1)))) =
    Except.ok (h.pair.core 0 (relFinish c2 s n
      (R.relUpdate c2.tracker prev.body m.body o.val.x (R.clear m.body o.val.P.1) G n.val.x
        (R.clear m.body n.val.P.1))))
  rw [h.clear _ _ _ hr, h.clear _ _ _ hr, eu]
  generalize R.relUpdate c2.tracker prev.body m.body o.val.x (R.clear m.body o.val.P.1) G n.val.x
    (R.clear m.body n.val.P.1) = r
  congr 1
  unfold relFinish
  rw [h.map_write c2 s (u := fun v => { v with x := r.x, P := (r.P, v.P.2) }) (fun v => rfl)]
  generalize RelKernel.write c2 s _ = c3
  simp only [KHom.core, Core.mk.injEq, true_and, and_true]
  refine ⟨?_, ?_, rfl⟩
  · split <;> rfl
  · exact (h.f_or _ _).symm

variable [AddCommGroup A] [Module ℚ A] [AddCommGroup W] [Module ℚ W]

/-- `closest` applies no measurement. -/
def closestHom : FHom (fun _ => True)
    ({ toKernel := R.pair, predict := R.predict, apply := fun _ c _ _ => .ok c } : Flow A W X (C × F) M T E)
    ({ toKernel := R'.pair, predict := R'.predict, apply := fun _ c _ _ => .ok c } :
      Flow A W X' (C' × F') M' T' E') where
  toKHom := h.pair
  keeps := ⟨fun _ o n h => RelKernel.ok_predict h o n, fun _ _ _ _ h => Post.ok h⟩
  predict := h.map_predict
  apply _ _ _ _ _ _ := rfl

theorem map_apply (env : Env) (c : Core A W X (C × F) M T) (m : Node (Meas M))
    (s : Node (St A W X (C × F))) (hc : c.MeasOk Q) (hm : m ∈ c.meas.nodes) :
    R'.apply env (h.pair.core 0 c) (h.pair.meas 0 m.val) (s.shift h.pair.st 0) =
      (R.apply env c m.val s).map (h.pair.core 0) := by
  unfold RelKernel.apply
  have er : R'.isRel (h.pair.meas 0 m.val).body = R.isRel m.val.body := h.isRel _ _
  rw [er]
  by_cases hr : R.isRel m.val.body = false
  · rw [if_pos hr, if_pos hr]
    exact congrArg Except.ok (Core.map_applyMeas h.pair 0 c m.val s)
  · rw [if_neg hr, if_neg hr]
    change (Core.getPreviousMeasurement env (h.pair.core 0 c) (m.val.time + 0) m.val.sensor >>= _) = _
    rw [Core.map_getPreviousMeasurement]
    refine bind_shift fun prev hprev => ?_
    have hsp := Core.getPreviousMeasurement_spec env hc hm prev hprev
    cases prev with
    | none => rfl
    | some prev =>
      obtain ⟨hp1, hp2⟩ := hsp prev rfl
      dsimp only [Option.map_some]
      by_cases hk : prev.key = invalidTime
      · rw [if_pos hk, if_pos (show (Node.shift (h.pair.meas 0) 0 prev).key = invalidTime from
          (Flow.hS0 prev.key trivial).1.2 hk)]; rfl
      · rw [if_neg hk, if_neg (show ¬ (Node.shift (h.pair.meas 0) 0 prev).key = invalidTime from
          fun e => hk ((Flow.hS0 prev.key trivial).1.1 e))]
        have ec : R'.cast (Node.shift (h.pair.meas 0) 0 prev).val.body = R.cast prev.val.body := h.cast _ _
        rw [ec]
        by_cases hca : R.cast prev.val.body = false
        · rw [if_pos hca, if_pos hca]; rfl
        · rw [if_neg hca, if_neg hca]
          have e3 : R'.closest env (h.pair.core 0 c) (prev.key + 0) =
              (R.closest env c prev.key).map
                (fun r => (h.pair.core 0 r.1, r.2.map (Node.shift h.pair.st 0))) :=
            Flow.map_getClosestState h.closestHom c env prev.key
          change (R'.closest env (h.pair.core 0 c) (prev.key + 0) >>= _) = _
          rw [e3]
          refine bind_shift fun r _ => ?_
          obtain ⟨c1, o⟩ := r
          cases o with
          | none => rfl
          | some old =>
            dsimp only [Option.map_some]
            by_cases ho : old.key = invalidTime
            · rw [if_pos ho, if_pos (show (Node.shift h.pair.st 0 old).key = invalidTime from
                (Flow.hS0 old.key trivial).1.2 ho)]; rfl
            · rw [if_neg ho, if_neg (show ¬ (Node.shift h.pair.st 0 old).key = invalidTime from
                fun e => ho ((Flow.hS0 old.key trivial).1.1 e))]
              exact h.map_relApply c1 prev.val m.val old s (hc.keyed prev hp1).2 (hc.keyed m hm).2 hp2
                (by simpa using hr) (by simpa using hca)

/-- The morphism of the cores. -/
def flow : FHom Q R.flow R'.flow where
  toKHom := h.pair
  keeps := R.flow_keeps
  predict := h.map_predict
  apply := h.map_apply

/-- Runs are mapped to runs. -/
theorem run (env : Env) (os : List (Api A W X (C × F) M E)) (ho : ∀ o ∈ os, Flow.measOf Q o) :
    R'.run env (os.map (h.pair.api 0)) = (R.run env os).map (h.pair.core 0) :=
  Flow.map_run h.flow env os ho

end RHom
end MSF
