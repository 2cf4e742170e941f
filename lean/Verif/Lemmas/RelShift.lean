import Verif.Lemmas.FlowShift
import Verif.Lemmas.RelMap
import Verif.Props.TimeOrigin

/-! A shift of the time axis commutes with the runs of filters with relative measurements (compare
`Lemmas/RelMap`). -/

namespace MSF
variable {A W X C F M T E X' C' F' M' T' E' : Type}

namespace Core
variable {K : Kernel A W X C M T E} {K' : Kernel A W X' C' M' T' E'} (h : KHom K K') (d : ℚ)

theorem shift_prevLoop (env : Env) (c : Core A W X C M T) (t : ℚ) (sensor : Int) (bb : Iter) (fuel : Nat) :
    ∀ it, prevLoop (env.shift d) (h.core d c) (t + d) sensor (bb.shift d) fuel (it.shift d) =
      (prevLoop env c t sensor bb fuel it).map (Iter.shift d) := by
  induction fuel with
  | zero => intro it; rfl
  | succ fuel ih =>
    intro it
    unfold prevLoop
    by_cases hb : it = bb
    · rw [if_pos hb, if_pos ((Iter.shift_inj d it bb).2 hb)]; rfl
    · rw [if_neg hb, if_neg fun e => hb ((Iter.shift_inj d it bb).1 e)]
      change ((c.meas.shift (h.meas d) d).deref (it.shift d) >>= _) = _
      rw [Buf.shift_deref]
      refine bind_shift fun n _ => ?_
      have e : ((n.shift (h.meas d) d).key ≠ t + d ∧ (n.shift (h.meas d) d).val.sensor ≠ sensor) ↔
          (n.key ≠ t ∧ n.val.sensor ≠ sensor) := by
        simp [Node.shift, KHom.meas]
      by_cases hn : n.key ≠ t ∧ n.val.sensor ≠ sensor
      · rw [if_pos hn, if_pos (e.2 hn)]
        change ((c.meas.shift (h.meas d) d).decr (env.shift d).pm (it.shift d) >>= _) = _
        have e0 := Buf.shift_decr (h.meas d) d env.pm c.meas it
        rw [show (env.shift d).pm = env.pm.shift d from rfl, e0]
        exact bind_shift fun i _ => ih i
      · rw [if_neg hn, if_neg fun a => hn (e.1 a)]; rfl

theorem shift_getPreviousMeasurement (env : Env) (c : Core A W X C M T) (t : ℚ) (sensor : Int) :
    getPreviousMeasurement (env.shift d) (h.core d c) (t + d) sensor =
      (getPreviousMeasurement env c t sensor).map (Option.map (Node.shift (h.meas d) d)) := by
  unfold getPreviousMeasurement
  have e1 : (h.core d c).meas.iterAtValue (t + d) = (c.meas.iterAtValue t).shift d :=
    Buf.shift_iterAtValue _ _ _ _
  rw [e1]
  change ((c.meas.shift (h.meas d) d).deref ((c.meas.iterAtValue t).shift d) >>= _) = _
  rw [Buf.shift_deref]
  refine bind_shift fun n _ => ?_
  by_cases hn : n.key ≠ t
  · rw [if_pos hn, if_pos (by simpa using hn)]; rfl
  · rw [if_neg hn, if_neg (by simpa using hn)]
    have e0 := Buf.shift_decr (h.meas d) d env.pm c.meas (c.meas.iterAtValue t)
    have e2 := Buf.shift_decBegin (h.meas d) d env.pm c.meas
    change ((c.meas.shift (h.meas d) d).decr (env.shift d).pm ((c.meas.iterAtValue t).shift d) >>= _) = _
    rw [show (env.shift d).pm = env.pm.shift d from rfl, e0]
    refine bind_shift fun it _ => ?_
    change ((c.meas.shift (h.meas d) d).decBegin (env.shift d).pm >>= _) = _
    rw [show (env.shift d).pm = env.pm.shift d from rfl, e2]
    refine bind_shift fun bb _ => ?_
    have es : (h.core d c).meas.size = c.meas.size := Buf.shift_size _ _ _
    rw [es, shift_prevLoop h d env c t sensor bb _ it]
    refine bind_shift fun i _ => ?_
    by_cases hb : i = bb
    · rw [if_pos hb, if_pos ((Iter.shift_inj d i bb).2 hb)]; rfl
    · rw [if_neg hb, if_neg fun e => hb ((Iter.shift_inj d i bb).1 e)]
      change ((c.meas.shift (h.meas d) d).deref (i.shift d) >>= _) = _
      rw [Buf.shift_deref]
      exact bind_shift fun n _ => rfl

end Core

namespace RHom
variable {R : RelKernel A W X C F M T E} {R' : RelKernel A W X' C' F' M' T' E'}
  (h : RHom (fun _ => True) R R') (d : ℚ)

/-- The relative update is mapped whatever the two measurements are. -/
def Full : Prop := ∀ (m1 m2 : Meas M) tr xo Po G s P,
  R'.relUpdate (h.t tr) (h.m m1.sensor m1.body) (h.m m2.sensor m2.body) (h.x xo) (h.c (R.clear m2.body Po)) (h.g G)
    (h.x s) (h.c (R.clear m2.body P)) =
  (fun r : Upd X C T => ⟨h.t r.tr, h.x r.x, h.c r.P, r.applied, h.f r.fuzzy⟩)
    (R.relUpdate tr m1.body m2.body xo (R.clear m2.body Po) G s (R.clear m2.body P))

theorem shift_predict (c : Core A W X (C × F) M T) (o n : Node (St A W X (C × F))) :
    R'.predict (h.pair.core d c) (o.shift h.pair.st d) (n.shift h.pair.st d) =
      h.pair.core d (R.predict c o n) := by
  unfold RelKernel.predict
  simp only [Node.shift_key, Node.shift_val, add_sub_add_right_eq_sub]
  split
  · rfl
  · simp only [KHom.core, Core.mk.injEq, and_true]
    rw [← Buf.shift_modify h.pair.st d _ _ (f' := fun s => { s with P :=
        (R'.predP (n.key - o.key) (h.pair.st o.val).P.1 s.u s.x, s.P.2) }),
      ← Buf.shift_modify h.pair.st d _ _ (f' := fun s => { s with P :=
        (s.P.1, R'.fd (n.key - o.key) (h.pair.st n.val).u (h.pair.st n.val).x) })]
    · intro v
      change (⟨v.u, h.x v.x, (h.c v.P.1, h.g (R.fd _ _ _))⟩ : St A W X' (C' × F')) =
        ⟨v.u, h.x v.x, (h.c v.P.1, R'.fd _ _ (h.x n.val.x))⟩
      rw [h.fd]
      rfl
    · intro v
      change (⟨v.u, h.x v.x, (h.c (R.predP _ _ _ _), h.g v.P.2)⟩ : St A W X' (C' × F')) =
        ⟨v.u, h.x v.x, (R'.predP _ (h.c o.val.P.1) v.u (h.x v.x), h.g v.P.2)⟩
      rw [h.predP]

theorem shift_deref_core (c : Core A W X (C × F) M T) (n : Node (St A W X (C × F))) :
    (h.pair.core d c).states.deref (n.shift h.pair.st d).iter =
      (c.states.deref n.iter).map (Node.shift h.pair.st d) := by
  rw [Node.shift_iter]
  exact Buf.shift_deref _ _ _ _

theorem shift_current (c : Core A W X (C × F) M T) (n : Node (St A W X (C × F))) :
    RelKernel.current (h.pair.core d c) (n.shift h.pair.st d) =
      (RelKernel.current c n).shift h.pair.st d := by
  unfold RelKernel.current
  rw [h.shift_deref_core d]
  cases c.states.deref n.iter <;> rfl

theorem shift_write (c : Core A W X (C × F) M T) (n : Node (St A W X (C × F)))
    {u : St A W X (C × F) → St A W X (C × F)} {u' : St A W X' (C' × F') → St A W X' (C' × F')}
    (hu : ∀ v, h.pair.st (u v) = u' (h.pair.st v)) :
    RelKernel.write (h.pair.core d c) (n.shift h.pair.st d) u' =
      h.pair.core d (RelKernel.write c n u) := by
  unfold RelKernel.write
  rw [h.shift_deref_core d]
  cases c.states.deref n.iter with
  | error _ => rfl
  | ok _ =>
    simp only [Except.map, KHom.core, Core.mk.injEq, and_true]
    exact Buf.shift_modify h.pair.st d _ _ hu

theorem shift_accumulate (c : Core A W X (C × F) M T) (stop : Iter) (fuel : Nat) :
    ∀ (it : Iter) (acc : F),
    R'.accumulate (h.pair.core d c) (stop.shift d) fuel (it.shift d) (h.g acc) =
      (R.accumulate c stop fuel it acc).map h.g := by
  induction fuel with
  | zero => intro it acc; rfl
  | succ fuel ih =>
    intro it acc
    unfold RelKernel.accumulate
    by_cases hs : it = stop
    · rw [if_pos hs, if_pos ((Iter.shift_inj d it stop).2 hs)]; rfl
    · rw [if_neg hs, if_neg fun e => hs ((Iter.shift_inj d it stop).1 e)]
      change ((c.states.shift h.pair.st d).deref (it.shift d) >>= _) = _
      rw [Buf.shift_deref]
      refine bind_shift fun n _ => ?_
      change ((c.states.shift h.pair.st d).incr (it.shift d) >>= _) = _
      rw [Buf.shift_incr]
      refine bind_shift fun i _ => ?_
      change R'.accumulate _ _ _ _ (R'.mulF (h.g acc) (h.g n.val.P.2)) = _
      rw [h.mulF]
      exact ih i _

theorem shift_relApply (c : Core A W X (C × F) M T) (prev m : Meas M)
    (old s : Node (St A W X (C × F)))
    (hr : R.isRel m.body = true) (hu : h.Full) :
    RelKernel.relApply R' (h.pair.core d c) (h.pair.meas d prev) (h.pair.meas d m)
        (old.shift h.pair.st d) (s.shift h.pair.st d) =
      (RelKernel.relApply R c prev m old s).map (h.pair.core d) := by
  unfold RelKernel.relApply
  have hcl : ∀ v : St A W X (C × F), h.pair.st { v with P := (R.clear m.body v.P.1, v.P.2) } =
      (fun v : St A W X' (C' × F') => { v with
        P := (R'.clear (h.pair.meas d m).body v.P.1, v.P.2) }) (h.pair.st v) := by
    intro v
    change (⟨v.u, h.x v.x, (h.c (R.clear m.body v.P.1), h.g v.P.2)⟩ : St A W X' (C' × F')) =
      ⟨v.u, h.x v.x, (R'.clear (h.m m.sensor m.body) (h.c v.P.1), h.g v.P.2)⟩
    rw [h.clear _ _ _ hr]
  rw [h.shift_current d, h.shift_current d]
  generalize RelKernel.current c old = o
  generalize RelKernel.current c s = n
  rw [h.shift_write d c old hcl]
  dsimp only
  generalize RelKernel.write c old _ = c1
  rw [h.shift_write d c1 s hcl]
  generalize RelKernel.write c1 s _ = c2
  have e1 : ∀ k : ℚ, (h.pair.core d c2).states.iterAtValue (k + d) = (c2.states.iterAtValue k).shift d :=
    fun k => Buf.shift_iterAtValue _ _ _ _
  have e2 : (h.pair.core d c2).states.size = c2.states.size := Buf.shift_size _ _ _
  rw [Node.shift_key, Node.shift_key, e1, e1, e2, h.fd0, h.shift_accumulate d]
  refine bind_shift fun G _ => ?_
  have eu := hu prev m c2.tracker o.val.x o.val.P.1 G n.val.x n.val.P.1
  change Except.ok (relFinish (h.pair.core d c2) (s.shift h.pair.st d) (n.shift h.pair.st d)
      (R'.relUpdate (h.t c2.tracker) (h.m prev.sensor prev.body) (h.m m.sensor m.body)
        (h.x o.val.x) (R'.clear (h.m m.sensor m.body) (h.c o.val.P.1)) (h.g G) (h.x n.val.x)
        (R'.clear (h.m m.sensor m.body) (h.c n.val.P.1)))) =
    Except.ok (h.pair.core d (relFinish c2 s n
      (R.relUpdate c2.tracker prev.body m.body o.val.x (R.clear m.body o.val.P.1) G n.val.x
        (R.clear m.body n.val.P.1))))
  rw [h.clear _ _ _ hr, h.clear _ _ _ hr, eu]
  generalize R.relUpdate c2.tracker prev.body m.body o.val.x (R.clear m.body o.val.P.1) G n.val.x
    (R.clear m.body n.val.P.1) = r
  congr 1
  unfold relFinish
  rw [h.shift_write d c2 s (u := fun v => { v with x := r.x, P := (r.P, v.P.2) }) (fun v => rfl)]
  generalize RelKernel.write c2 s _ = c3
  simp only [KHom.core, Core.mk.injEq, true_and, and_true]
  refine ⟨?_, ?_, rfl⟩
  · split <;> rfl
  · exact (h.f_or _ _).symm

variable [AddCommGroup A] [Module ℚ A] [AddCommGroup W] [Module ℚ W]

/-- `closest` applies no measurement. -/
def shiftClosest (S : Set ℚ) : FSHom S d
    ({ toKernel := R.pair, predict := R.predict, apply := fun _ c _ _ => .ok c } : Flow A W X (C × F) M T E)
    ({ toKernel := R'.pair, predict := R'.predict, apply := fun _ c _ _ => .ok c } :
      Flow A W X' (C' × F') M' T' E') where
  toKHom := h.pair
  keeps := ⟨fun _ o n h => RelKernel.tin_predict h o n, fun _ _ _ _ h => Post.ok h⟩
  predict := h.shift_predict d
  apply _ _ _ _ _ := rfl

theorem shift_apply {S : Set ℚ} (hS : Shiftable d S) (hu : h.Full) (env : Env) (c : Core A W X (C × F) M T)
    (m : Meas M) (s : Node (St A W X (C × F))) (hc : c.TimesIn S) :
    R'.apply (env.shift d) (h.pair.core d c) (h.pair.meas d m) (s.shift h.pair.st d) =
      (R.apply env c m s).map (h.pair.core d) := by
  unfold RelKernel.apply
  have er : R'.isRel (h.pair.meas d m).body = R.isRel m.body := h.isRel _ _
  rw [er]
  by_cases hr : R.isRel m.body = false
  · rw [if_pos hr, if_pos hr]
    exact congrArg Except.ok (Core.map_applyMeas h.pair d c m s)
  · rw [if_neg hr, if_neg hr]
    change (Core.getPreviousMeasurement (env.shift d) (h.pair.core d c) (m.time + d) m.sensor >>= _) = _
    rw [Core.shift_getPreviousMeasurement]
    refine bind_shift fun prev hprev => ?_
    have hsp := RelKernel.tin_previous hc env _ _ prev hprev
    cases prev with
    | none => rfl
    | some prev =>
      have hp := hsp prev rfl
      dsimp only [Option.map_some]
      by_cases hk : prev.key = invalidTime
      · rw [if_pos hk, if_pos (show (Node.shift (h.pair.meas d) d prev).key = invalidTime from
          (hS prev.key hp).1.2 hk)]; rfl
      · rw [if_neg hk, if_neg (show ¬ (Node.shift (h.pair.meas d) d prev).key = invalidTime from
          fun e => hk ((hS prev.key hp).1.1 e))]
        have ec : R'.cast (Node.shift (h.pair.meas d) d prev).val.body = R.cast prev.val.body := h.cast _ _
        rw [ec]
        by_cases hca : R.cast prev.val.body = false
        · rw [if_pos hca, if_pos hca]; rfl
        · rw [if_neg hca, if_neg hca]
          have e3 : R'.closest (env.shift d) (h.pair.core d c) (prev.key + d) =
              (R.closest env c prev.key).map
                (fun r => (h.pair.core d r.1, r.2.map (Node.shift h.pair.st d))) :=
            FSHom.map_getClosestState (h.shiftClosest d S) env hS hc hp
          change (R'.closest (env.shift d) (h.pair.core d c) (prev.key + d) >>= _) = _
          rw [e3]
          refine bind_shift fun r hr0 => ?_
          have hr1 := RelKernel.tin_closest hc env hp r hr0
          obtain ⟨c1, o⟩ := r
          cases o with
          | none => rfl
          | some old =>
            dsimp only [Option.map_some]
            by_cases ho : old.key = invalidTime
            · rw [if_pos ho, if_pos (show (Node.shift h.pair.st d old).key = invalidTime from
                (hS old.key (hr1.2 old rfl)).1.2 ho)]; rfl
            · rw [if_neg ho, if_neg (show ¬ (Node.shift h.pair.st d old).key = invalidTime from
                fun e => ho ((hS old.key (hr1.2 old rfl)).1.1 e))]
              exact h.shift_relApply d c1 prev.val m old s (by simpa using hr) hu

/-- The morphism of the cores. -/
def shiftFlow {S : Set ℚ} (hS : Shiftable d S) (hu : h.Full) : FSHom S d R.flow R'.flow where
  toKHom := h.pair
  keeps := R.flow_keepsTimes
  predict := h.shift_predict d
  apply := h.shift_apply d hS hu

end RHom
end MSF
