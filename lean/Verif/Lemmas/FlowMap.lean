import Verif.Lemmas.FlowInv
import Verif.Lemmas.CoreMap
import Verif.Lemmas.Skeleton

/-! A change of representation of the numerical values commutes with every function of the core with
relative measurements (compare `Lemmas/CoreMap`). -/

namespace MSF
variable {A W X C M T E X' C' M' T' E' : Type}

/-- A morphism of kernels that commutes with `predict`, and with `apply` for the buffered measurements of a
core whose measurements satisfy `Q`. -/
structure FHom (Q : Meas M → Prop) (fl : Flow A W X C M T E) (fl' : Flow A W X' C' M' T' E') extends
    KHom fl.toKernel fl'.toKernel where
  keeps : fl.Keeps Q
  predict : ∀ (c : Core A W X C M T) (o n : Node (St A W X C)),
    fl'.predict (toKHom.core 0 c) (o.shift toKHom.st 0) (n.shift toKHom.st 0) =
      toKHom.core 0 (fl.predict c o n)
  apply : ∀ (env : Env) (c : Core A W X C M T) (m : Node (Meas M)) (s : Node (St A W X C)),
    c.MeasOk Q → m ∈ c.meas.nodes →
    fl'.apply env (toKHom.core 0 c) (toKHom.meas 0 m.val) (s.shift toKHom.st 0) =
      (fl.apply env c m.val s).map (toKHom.core 0)

namespace Flow
variable {fl : Flow A W X C M T E} {fl' : Flow A W X' C' M' T' E'}
  {Q : Meas M → Prop} (h : FHom Q fl fl')

theorem hS0 : Shiftable 0 Set.univ := Shiftable.zero Set.univ

theorem plat_zero (p : Plat) : p.shift 0 = p := by
  cases p with
  | std => rfl
  | gnu f => simp [Plat.shift]

theorem map_propagatePOneStep (c : Core A W X C M T) :
    propagatePOneStep fl' (h.core 0 c) = (propagatePOneStep fl c).map (h.core 0) := by
  unfold propagatePOneStep
  simp only [KHom.core, Buf.shift_iterAtValue, Buf.shift_incr]
  refine bind_shift fun next _ => ?_
  rw [Buf.shift_deref, Buf.shift_deref]
  by_cases hn : next = .fin
  · rw [if_pos hn, if_pos ((Iter.shift_fin (0 : ℚ) next).2 hn)]; rfl
  · rw [if_neg hn, if_neg (fun e => hn ((Iter.shift_fin (0 : ℚ) next).1 e))]
    refine bind_shift fun o _ => bind_shift fun n _ => ?_
    have e := h.predict c o n
    have e2 : fl'.numPos (n.shift h.st 0).val.x = fl.numPos n.val.x := h.numPos _
    rw [e2]
    change (if fl.numPos n.val.x = true then pure (fl'.predict (h.core 0 c) _ _) else
      pure ({ fl'.predict (h.core 0 c) _ _ with predMade := false, inited := false })) = _
    rw [e]
    split <;> rfl

theorem map_propPLoop (t : ℚ) (fuel : Nat) : ∀ (c : Core A W X C M T) (it itm : Iter),
    propPLoop fl' (t + 0) fuel (h.core 0 c) (it.shift 0) (itm.shift 0) =
      (propPLoop fl t fuel c it itm).map (h.core 0) := by
  induction fuel with
  | zero => intro c it itm; rfl
  | succ fuel ih =>
    intro c it itm
    unfold propPLoop
    by_cases hi : it = .fin
    · rw [if_pos hi, if_pos ((Iter.shift_fin (0 : ℚ) it).2 hi)]; rfl
    · rw [if_neg hi, if_neg (fun e => hi ((Iter.shift_fin (0 : ℚ) it).1 e))]
      have e1 := Buf.shift_deref h.st 0 c.states it
      have e2 := Buf.shift_deref h.st 0 c.states itm
      change ((c.states.shift h.st 0).deref (it.shift 0) >>= _) = _
      rw [e1]
      refine bind_shift fun n _ => ?_
      simp only [Node.shift_key, add_le_add_iff_right]
      split
      · change ((c.states.shift h.st 0).deref (itm.shift 0) >>= _) = _
        rw [e2]
        refine bind_shift fun m _ => ?_
        have e := h.predict c m n
        rw [e]
        generalize fl.predict c m n = c1
        change ((c1.states.shift h.st 0).incr (it.shift 0) >>= _) = _
        rw [Buf.shift_incr]
        refine bind_shift fun i _ => ?_
        change ((c1.states.shift h.st 0).incr (itm.shift 0) >>= _) = _
        rw [Buf.shift_incr]
        exact bind_shift fun j _ => ih c1 i j
      · rfl

theorem map_propPToState (c : Core A W X C M T) (t t' : ℚ)
    (ht : t' = t + 0 ∨ c.states.nodes = []) :
    propPToState fl' (h.core 0 c) t' = (propPToState fl c t).map (h.core 0) := by
  rcases ht with rfl | hc
  · unfold propPToState
    change ((c.states.shift h.st 0).incr ((c.states.shift h.st 0).iterAtValue (c.tP + 0)) >>= _) = _
    rw [Buf.shift_iterAtValue, Buf.shift_incr]
    refine bind_shift fun it _ => ?_
    have e : (h.core 0 c).states.size = c.states.size := Buf.shift_size _ _ _
    rw [e]
    have e2 : (h.core 0 c).states.iterAtValue (h.core 0 c).tP =
        (c.states.iterAtValue c.tP).shift 0 := Buf.shift_iterAtValue _ _ _ _
    rw [e2]
    exact map_propPLoop h t _ c it _
  · unfold propPToState
    have e : ∀ (b : Buf (St A W X C)) x, b.nodes = [] → b.iterAtValue x = .fin := by
      intro b x hb
      simp [Buf.iterAtValue, Buf.find, Buf.lowerBound, Buf.toIter, hb]
    have e' : ∀ (b : Buf (St A W X' C')) x, b.nodes = [] → b.iterAtValue x = .fin := by
      intro b x hb
      simp [Buf.iterAtValue, Buf.find, Buf.lowerBound, Buf.toIter, hb]
    have hc' : (h.core 0 c).states.nodes = [] := by simp [KHom.core, Buf.shift, hc]
    dsimp only
    rw [e _ _ hc, e' _ _ hc']
    rfl

variable [AddCommGroup A] [Module ℚ A] [AddCommGroup W] [Module ℚ W]

theorem map_getClosestState (c : Core A W X C M T) (env : Env) (t : ℚ) :
    getClosestState env fl' (h.core 0 c) (t + 0) =
      (getClosestState env fl c t).map
        (fun r => (h.core 0 r.1, r.2.map (Node.shift h.st 0))) := by
  unfold getClosestState
  have e0 := Buf.shift_iterClosest h.st 0 env.ps c.states t
  rw [plat_zero] at e0
  change ((c.states.shift h.st 0).iterClosest env.ps (t + 0) >>= _) = _
  rw [e0]
  refine bind_shift fun it _ => ?_
  change ((c.states.shift h.st 0).deref (it.shift 0) >>= _) = _
  rw [Buf.shift_deref]
  refine bind_shift fun n hn => ?_
  have sn := (hS0 n.key trivial).1
  simp only [Node.shift_key, sn, add_sub_add_right_eq_sub]
  split
  · rfl
  · rw [Core.map_interpolate h.toKHom 0 hS0 (Core.timesIn_univ c) n t]
    generalize Core.interpolate fl.toKernel c n t = r
    obtain ⟨c1, i⟩ := r
    dsimp only
    change ((c1.states.shift h.st 0).deref (i.shift 0) >>= _) = _
    rw [Buf.shift_deref]
    refine bind_shift fun n1 _ => ?_
    rw [map_propPToState h c1 n1.key (n1.shift h.st 0).key (.inl rfl)]
    refine bind_shift fun c2 _ => ?_
    change ((c2.states.shift h.st 0).deref (i.shift 0) >>= _) = _
    rw [Buf.shift_deref]
    refine bind_shift fun n2 _ => ?_
    have e : fl'.numX (n2.shift h.st 0).val.x = fl.numX n2.val.x := h.numX _
    rw [e]
    by_cases hx : fl.numX n2.val.x = true
    · rw [if_pos hx, if_pos hx]
      by_cases hj : c2.janitor > 100
      · rw [if_pos hj, if_pos (show (h.core 0 c2).janitor > 100 from hj)]
        have e3 := Core.map_cleanUp h.toKHom 0 env { c2 with janitor := 0 }
        rw [Env.shift_zero] at e3
        change (Core.cleanUp env (h.core 0 { c2 with janitor := 0 }) >>= _) = _
        rw [e3]
        exact bind_shift fun c3 _ => rfl
      · rw [if_neg hj, if_neg (show ¬ (h.core 0 c2).janitor > 100 from hj)]
        rfl
    · rw [if_neg hx, if_neg hx]
      rfl

theorem map_measLoop (env : Env) (fuel : Nat) :
    ∀ (c : Core A W X C M T) (_ : c.MeasOk Q) (it : Iter) (ap : Bool),
    measLoop env fl' fuel (h.core 0 c) (it.shift 0) ap =
      (measLoop env fl fuel c it ap).map (fun r => (h.core 0 r.1, r.2)) := by
  induction fuel with
  | zero => intro c _ it ap; rfl
  | succ fuel ih =>
    intro c hc it ap
    unfold measLoop
    by_cases hi : it = .fin
    · rw [if_pos hi, if_pos ((Iter.shift_fin (0 : ℚ) it).2 hi)]; rfl
    · rw [if_neg hi, if_neg (fun e => hi ((Iter.shift_fin (0 : ℚ) it).1 e))]
      have skip : ∀ c1 : Core A W X C M T, c1.MeasOk Q →
          ((h.core 0 c1).meas.incr (it.shift 0) >>= fun j =>
            measLoop env fl' fuel (h.core 0 c1) j ap) =
          (c1.meas.incr it >>= fun j => measLoop env fl fuel c1 j ap).map
            (fun r => (h.core 0 r.1, r.2)) := by
        intro c1 hc1
        change ((c1.meas.shift (h.meas 0) 0).incr (it.shift 0) >>= _) = _
        rw [Buf.shift_incr]
        exact bind_shift fun j _ => ih c1 hc1 j ap
      change ((c.meas.shift (h.meas 0) 0).deref (it.shift 0) >>= _) = _
      rw [Buf.shift_deref]
      refine bind_shift fun m hm => ?_
      simp only [Node.shift_key, (hS0 m.key trivial).2.1]
      split
      · exact skip c hc
      · rw [map_getClosestState h c env]
        refine bind_shift fun r hr => ?_
        have hc1 := ok_getClosestState h.keeps hc env _ r hr
        obtain ⟨c1, st⟩ := r
        dsimp only at hc1 ⊢
        cases st with
        | none => exact skip c1 hc1
        | some s =>
          dsimp only [Option.map_some]
          simp only [Node.shift_key, (hS0 s.key trivial).2.1]
          split
          · exact skip c1 hc1
          · change ((c1.meas.shift (h.meas 0) 0).deref (it.shift 0) >>= _) = _
            rw [Buf.shift_deref]
            refine bind_shift fun m2 hm2 => ?_
            simp only [Node.shift_val]
            rw [h.apply env c1 m2 s hc1 (Buf.deref_mem_nodes hm2)]
            refine bind_shift fun c2 hc2 => ?_
            change ((c2.meas.shift (h.meas 0) 0).incr (it.shift 0) >>= _) = _
            rw [Buf.shift_incr]
            refine bind_shift fun j _ => ?_
            rw [Core.map_repropagate h.toKHom 0 hS0 (Core.timesIn_univ c2)]
            refine bind_shift fun r2 hr2 => ?_
            have hc3 := ok_repropagate (h.keeps.apply env c1 m2.val s hc1 c2 hc2) s.key j r2 hr2
            obtain ⟨c3, ab⟩ := r2
            dsimp only at hc3 ⊢
            split
            · rfl
            · exact ih c3 hc3 j true

omit [AddCommGroup A] [Module ℚ A] [AddCommGroup W] [Module ℚ W] in
theorem map_finishMeas (c : Core A W X C M T) :
    finishMeas fl' (h.core 0 c) = (finishMeas fl c).map (h.core 0) := by
  unfold finishMeas
  have e : (h.core 0 c).states.last = c.states.last.map (Node.shift h.st 0) := Buf.shift_last _ _ _
  rw [map_propPToState h c (timeOf c.states.last)]
  · refine bind_shift fun c1 _ => ?_
    have e1 : (h.core 0 c1).states.last = c1.states.last.map (Node.shift h.st 0) :=
      Buf.shift_last _ _ _
    rw [e1]
    cases c1.states.last with
    | none => rfl
    | some n =>
      simp only [Option.map_some, pure, Except.pure, Except.map, KHom.core, List.map_append]
      rfl
  · rw [e]
    cases hl : c.states.last with
    | none => exact .inr (List.getLast?_eq_none_iff.1 hl)
    | some n => exact .inl rfl

theorem map_addMeasurement (c : Core A W X C M T) (hc : c.MeasOk Q) (env : Env) (m : Meas M) (hm : Q m) :
    addMeasurement env fl' (h.core 0 c) (h.meas 0 m) =
      (addMeasurement env fl c m).map (h.core 0) := by
  unfold addMeasurement
  by_cases hp : c.inited = false ∨ c.predMade = false
  · rw [if_pos hp, if_pos (show (h.core 0 c).inited = false ∨ (h.core 0 c).predMade = false from hp)]
    rfl
  · rw [if_neg hp, if_neg (show ¬((h.core 0 c).inited = false ∨ (h.core 0 c).predMade = false)
      from hp)]
    have e1 : (h.core 0 c).states.last = c.states.last.map (Node.shift h.st 0) :=
      Buf.shift_last _ _ _
    have e2 : (h.core 0 c).states.first = c.states.first.map (Node.shift h.st 0) :=
      Buf.shift_first _ _ _
    have sm := hS0 m.time trivial
    have g1 : (h.meas 0 m).time > timeOf (h.core 0 c).states.last ↔
        m.time > timeOf c.states.last := by
      rw [e1]
      cases c.states.last with
      | none => exact sm.2.2
      | some n => exact add_lt_add_iff_right (0 : ℚ)
    have g2 : (h.meas 0 m).time < timeOf (h.core 0 c).states.first ↔
        m.time < timeOf c.states.first := by
      rw [e2]
      cases c.states.first with
      | none =>
        have a := sm.1
        have b := sm.2.2
        change m.time + 0 < invalidTime ↔ m.time < invalidTime
        rw [← not_le, ← not_le, le_iff_lt_or_eq, le_iff_lt_or_eq, b, eq_comm, a, eq_comm]
      | some n => exact add_lt_add_iff_right (0 : ℚ)
    by_cases k1 : m.time > timeOf c.states.last
    · rw [if_pos k1, if_pos (g1.2 k1)]
      simp only [pure, Except.pure, Except.map, KHom.core, List.map_append]
      rfl
    · rw [if_neg k1, if_neg (fun e => k1 (g1.1 e))]
      by_cases k2 : m.time < timeOf c.states.first
      · rw [if_pos k2, if_pos (g2.2 k2)]
        rfl
      · rw [if_neg k2, if_neg (fun e => k2 (g2.1 e))]
        have ei := Buf.shift_insert (h.meas 0) 0 c.meas m.time m
        have ef := map_measLoop h env ((c.meas.insert m.time m).1.size + 1)
          { c with meas := (c.meas.insert m.time m).1, fuzzy := false }
          (ok_insert hc hm rfl rfl) (c.meas.insert m.time m).2 false
        have es : ((h.core 0 c).meas.insert (h.meas 0 m).time (h.meas 0 m)).1.size =
            (c.meas.insert m.time m).1.size := by
          change ((c.meas.shift (h.meas 0) 0).insert (m.time + 0) (h.meas 0 m)).1.size = _
          rw [ei]
          exact Buf.shift_size _ _ _
        change (measLoop env fl'
          (((h.core 0 c).meas.insert (h.meas 0 m).time (h.meas 0 m)).1.size + 1)
          { h.core 0 c with
            meas := ((c.meas.shift (h.meas 0) 0).insert (m.time + 0) (h.meas 0 m)).1
            fuzzy := false }
          ((c.meas.shift (h.meas 0) 0).insert (m.time + 0) (h.meas 0 m)).2 false >>= _) = _
        rw [es, ei]
        have eh : h.core 0 { c with meas := (c.meas.insert m.time m).1, fuzzy := false } =
            { h.core 0 c with meas := (c.meas.insert m.time m).1.shift (h.meas 0) 0
                              fuzzy := false } := by
          simp only [KHom.core, h.f_false]
        rw [eh] at ef
        rw [ef]
        refine bind_shift fun r _ => ?_
        obtain ⟨c1, ap, ab⟩ := r
        dsimp only
        split
        · rfl
        · exact map_finishMeas h c1

theorem map_handlePending (c : Core A W X C M T) (hc : c.MeasOk Q) (env : Env) :
    handlePending env fl' (h.core 0 c) = (handlePending env fl c).map (h.core 0) := by
  unfold handlePending
  cases hq : c.queue with
  | nil =>
    have e : (h.core 0 c).queue = [] := by simp [KHom.core, hq]
    rw [e]
    rfl
  | cons m q =>
    have e : (h.core 0 c).queue = h.meas 0 m :: q.map (h.meas 0) := by simp [KHom.core, hq]
    rw [e]
    have hq2 := hc.queue
    rw [hq] at hq2
    exact map_addMeasurement h { c with queue := q }
      ⟨hc.sorted, hc.keyed, fun m' hm' => hq2 m' (List.mem_cons_of_mem _ hm')⟩ env m
      (hq2 m (List.mem_cons_self ..))

theorem map_imuEnd (c : Core A W X C M T) (hc : c.MeasOk Q) (env : Env)
    (t : ℚ) (cur : St A W X C) :
    imuEnd env fl' (h.core 0 c) (t + 0) (h.st cur) = (imuEnd env fl c t cur).map (h.core 0) := by
  unfold imuEnd
  have e : (h.core 0 c).states.size = c.states.size := Buf.shift_size _ _ _
  have e2 : (h.core 0 c).predMade = c.predMade := rfl
  rw [e, e2]
  have eo : (h.core 0 c).out ++ [Event.afterPropagation (t + 0) (h.st cur).x (h.st cur).P] =
      (c.out ++ [Event.afterPropagation t cur.x cur.P]).map (h.event 0) := by
    rw [List.map_append]; rfl
  rw [eo]
  split
  · exact map_handlePending h { c with
        out := c.out ++ [Event.afterPropagation t cur.x cur.P], predMade := true }
      ⟨hc.sorted, hc.keyed, hc.queue⟩ env
  · rfl

theorem map_imuPropagate (c : Core A W X C M T) (hc : c.MeasOk Q) (env : Env)
    (last : Node (St A W X C)) (t : ℚ) (u : Input A W) :
    imuPropagate env fl' (h.core 0 c) (last.shift h.st 0) (t + 0) u =
      (imuPropagate env fl c last t u).map (h.core 0) := by
  rw [imuPropagate_form, imuPropagate_form]
  have es : Core.imuState fl'.toKernel (last.shift h.st 0) (t + 0) u = h.st (Core.imuState fl.toKernel last t u) := by
    simp only [Core.imuState, KHom.st, Node.shift_key, Node.shift_val, add_sub_add_right_eq_sub, h.prop,
      h.P0]
  have ef : ((h.core 0 c).states.find (t + 0)).isSome = (c.states.find t).isSome := by
    change ((c.states.shift h.st 0).find (t + 0)).isSome = _
    rw [Buf.shift_find]
    cases c.states.find t <;> rfl
  rw [es, ef]
  generalize Core.imuState fl.toKernel last t u = s
  change (propagatePOneStep fl' { h.core 0 c with
      states := ((c.states.shift h.st 0).insert (t + 0) (h.st s)).1
      itImu := ((c.states.shift h.st 0).insert (t + 0) (h.st s)).2 } >>= fun c1 =>
        Core.published c1 (c.states.find t).isSome (h.st s)
          ((c.states.shift h.st 0).insert (t + 0) (h.st s)).2 >>= fun cur =>
            imuEnd env fl' c1 (t + 0) cur) = _
  rw [Core.map_insert]
  have e1 := map_propagatePOneStep h { c with
      states := (c.states.insert t s).1
      itImu := (c.states.insert t s).2 }
  change (propagatePOneStep fl' (h.core 0 { c with
      states := (c.states.insert t s).1
      itImu := (c.states.insert t s).2 }) >>= _) = _
  rw [e1]
  refine bind_shift fun c1 hc1 => ?_
  rw [Core.map_published]
  exact bind_shift fun cur _ => map_imuEnd h c1
    (ok_propagatePOneStep h.keeps (c := { c with
      states := (c.states.insert t s).1
      itImu := (c.states.insert t s).2 }) ⟨hc.sorted, hc.keyed, hc.queue⟩ c1 hc1) env t cur

theorem map_processIMU (c : Core A W X C M T) (hc : c.MeasOk Q) (env : Env)
    (t : ℚ) (u : Input A W) :
    processIMU env fl' (h.core 0 c) (t + 0) u =
      (processIMU env fl c t u).map (h.core 0) := by
  rw [processIMU_form, processIMU_form]
  by_cases hi : c.inited = false
  · rw [if_pos hi, if_pos (show (h.core 0 c).inited = false from hi)]; rfl
  · rw [if_neg hi, if_neg (show ¬ (h.core 0 c).inited = false from hi)]
    have e : Core.imuStart env (h.core 0 c) (t + 0) = (Core.imuStart env c t).map (Iter.shift 0) := by
      unfold Core.imuStart
      by_cases hf : c.itImu = .fin
      · rw [if_pos hf, if_pos (show (h.core 0 c).itImu = .fin from (Iter.shift_fin (0 : ℚ) _).2 hf)]
        have e0 := Buf.shift_iterClosestBefore h.st 0 env.ps c.states t
        rw [plat_zero] at e0
        exact e0
      · rw [if_neg hf, if_neg (show ¬ (h.core 0 c).itImu = .fin from
          fun e => hf ((Iter.shift_fin (0 : ℚ) _).1 e))]
        rfl
    rw [e]
    refine bind_shift fun it _ => ?_
    change ((c.states.shift h.st 0).deref (it.shift 0) >>= _) = _
    rw [Buf.shift_deref]
    refine bind_shift fun last hl => ?_
    unfold imuBody
    simp only [Node.shift_key, (hS0 last.key trivial).1, add_sub_add_right_eq_sub,
      h.spike]
    split
    · rfl
    · by_cases k1 : t - last.key < -(1 / 100) ∧ c.predMade = true
      · rw [if_pos k1, if_pos (show t - last.key < -(1 / 100) ∧ (h.core 0 c).predMade = true from k1)]
        rfl
      · rw [if_neg k1,
          if_neg (show ¬ (t - last.key < -(1 / 100) ∧ (h.core 0 c).predMade = true) from k1)]
        by_cases k2 : c.predMade = false ∧ |t - last.key| > 1 / 10
        · rw [if_pos k2,
            if_pos (show (h.core 0 c).predMade = false ∧ |t - last.key| > 1 / 10 from k2)]
          have eu := Buf.shift_updateTime h.st 0 c.states last.key t
          change Except.ok ({ h.core 0 c with
            itImu := it.shift 0
            lastAmImu := _
            states := ((c.states.shift h.st 0).updateTime (last.key + 0) (t + 0)).1
            tP := t + 0 } : Core A W X' C' M' T') = _
          rw [eu]
          rfl
        · rw [if_neg k2,
            if_neg (show ¬ ((h.core 0 c).predMade = false ∧ |t - last.key| > 1 / 10) from k2)]
          exact map_imuPropagate h { c with
              itImu := it, lastAmImu := if fl.spike u.a = true then c.lastAmImu else last.val.u.a }
            ⟨hc.sorted, hc.keyed, hc.queue⟩ env last t _

theorem map_extEnd (c : Core A W X C M T) (hc : c.MeasOk Q) (env : Env)
    (t : ℚ) (s : St A W X C) :
    extEnd env fl' (h.core 0 c) (t + 0) (h.st s) = (extEnd env fl c t s).map (h.core 0) := by
  unfold extEnd
  have ef : ((h.core 0 c).states.find (t + 0)).isSome = (c.states.find t).isSome := by
    change ((c.states.shift h.st 0).find (t + 0)).isSome = _
    rw [Buf.shift_find]
    cases c.states.find t <;> rfl
  rw [ef]
  change (propagatePOneStep fl' { h.core 0 c with
      states := ((c.states.shift h.st 0).insert (t + 0) (h.st s)).1 } >>= fun c1 =>
        Core.published c1 (c.states.find t).isSome (h.st s)
          ((c.states.shift h.st 0).insert (t + 0) (h.st s)).2 >>= fun cur =>
            handlePending env fl' { c1 with
              predMade := true
              out := c1.out ++ [.afterPropagation (t + 0) cur.x cur.P] }) = _
  rw [Core.map_insert]
  have e1 := map_propagatePOneStep h { c with states := (c.states.insert t s).1 }
  change (propagatePOneStep fl' (h.core 0 { c with states := (c.states.insert t s).1 }) >>= _) = _
  rw [e1]
  refine bind_shift fun c1 hc1 => ?_
  rw [Core.map_published]
  refine bind_shift fun cur _ => ?_
  have eo : (h.core 0 c1).out ++ [Event.afterPropagation (t + 0) (h.st cur).x (h.st cur).P] =
      (c1.out ++ [Event.afterPropagation t cur.x cur.P]).map (h.event 0) := by
    rw [List.map_append]; rfl
  rw [eo]
  have hc2 := ok_propagatePOneStep h.keeps (c := { c with states := (c.states.insert t s).1 })
    ⟨hc.sorted, hc.keyed, hc.queue⟩ c1 hc1
  exact map_handlePending h { c1 with
      predMade := true, out := c1.out ++ [Event.afterPropagation t cur.x cur.P] }
    ⟨hc2.sorted, hc2.keyed, hc2.queue⟩ env

theorem map_processExternal (c : Core A W X C M T) (hc : c.MeasOk Q) (env : Env) (t : ℚ) (u : Input A W) (e : Option E) :
    processExternal env fl' (h.core 0 c) (t + 0) u (e.map h.e) =
      (processExternal env fl c t u e).map (h.core 0) := by
  rw [processExternal_form, processExternal_form]
  by_cases hi : c.inited = false
  · rw [if_pos hi, if_pos (show (h.core 0 c).inited = false from hi)]; rfl
  · rw [if_neg hi, if_neg (show ¬ (h.core 0 c).inited = false from hi)]
    have el : (h.core 0 c).states.last = c.states.last.map (Node.shift h.st 0) :=
      Buf.shift_last _ _ _
    rw [el]
    cases hl : c.states.last with
    | none => rfl
    | some last =>
      dsimp only [Option.map_some]
      have eu : Core.extInput fl'.toKernel (h.core 0 c) u = Core.extInput fl.toKernel c u := by
        simp only [Core.extInput, h.spike]
        rfl
      have em : Core.extMean fl'.toKernel (last.shift h.st 0) (t + 0) (Core.extInput fl.toKernel c u) (e.map h.e) =
          h.x (Core.extMean fl.toKernel last t (Core.extInput fl.toKernel c u) e) := by
        cases e with
        | none =>
          simp only [Core.extMean, Option.map_none, Node.shift_key, Node.shift_val,
            add_sub_add_right_eq_sub, KHom.st, h.prop]
        | some e => exact h.extProp _ _
      rw [eu, em]
      simp only [Node.shift_key, (hS0 last.key trivial).1, add_sub_add_right_eq_sub]
      split
      · rfl
      · by_cases k1 : c.predMade = false ∧ |t - last.key| > 5
        · rw [if_pos k1, if_pos (show (h.core 0 c).predMade = false ∧ |t - last.key| > 5 from k1)]
          have eu := Buf.shift_updateTime h.st 0 c.states last.key t
          change Except.ok ({ h.core 0 c with
            lastAmExt := _
            states := ((c.states.shift h.st 0).updateTime (last.key + 0) (t + 0)).1 } :
            Core A W X' C' M' T') = _
          rw [eu]
          rfl
        · rw [if_neg k1,
            if_neg (show ¬ ((h.core 0 c).predMade = false ∧ |t - last.key| > 5) from k1)]
          by_cases k2 : c.predMade = false
          · rw [if_pos k2, if_pos (show (h.core 0 c).predMade = false from k2)]
            exact map_extEnd h { c with
                lastAmExt := (Core.extInput fl.toKernel c u).a, tP := t, states := c.states.clear
                meas := c.meas.clear, queue := [] } (ok_clear hc rfl rfl) env t
              ⟨Core.extInput fl.toKernel c u, Core.extMean fl.toKernel last t (Core.extInput fl.toKernel c u) e, last.val.P⟩
          · rw [if_neg k2, if_neg (show ¬ (h.core 0 c).predMade = false from k2)]
            rw [h.P0]
            exact map_extEnd h { c with lastAmExt := (Core.extInput fl.toKernel c u).a }
              ⟨hc.sorted, hc.keyed, hc.queue⟩ env t
              ⟨Core.extInput fl.toKernel c u, Core.extMean fl.toKernel last t (Core.extInput fl.toKernel c u) e, fl.P0⟩

theorem map_api (c : Core A W X C M T) (hc : c.MeasOk Q) (env : Env)
    (o : Api A W X C M E) (ho : measOf Q o) :
    api env fl' (h.core 0 c) (h.api 0 o) = (api env fl c o).map (h.core 0) := by
  cases o with
  | init t s =>
    change Except.ok (Core.init fl'.toKernel (h.core 0 c) (t + 0) (h.st s)) = _
    rw [Core.map_init]
    rfl
  | imu t u => exact map_processIMU h c hc env t u
  | ext t u e => exact map_processExternal h c hc env t u e
  | meas m => exact map_addMeasurement h c hc env m ho

theorem map_apis (env : Env) (os : List (Api A W X C M E)) :
    ∀ (c : Core A W X C M T) (_ : c.MeasOk Q) (_ : ∀ o ∈ os, measOf Q o),
    apis env fl' (h.core 0 c) (os.map (h.api 0)) =
      (apis env fl c os).map (h.core 0) := by
  induction os with
  | nil => intro c _ _; rfl
  | cons o os ih =>
    intro c hc ho
    change (api env fl' (h.core 0 c) (h.api 0 o) >>= fun c1 =>
      apis env fl' c1 (os.map (h.api 0))) =
      (api env fl c o >>= fun c1 => apis env fl c1 os).map (h.core 0)
    rw [map_api h c hc env o (ho o (List.mem_cons_self ..))]
    exact bind_shift fun c1 hc1 => ih c1 (ok_api h.keeps hc env (ho o (List.mem_cons_self ..)) c1 hc1)
      fun o' ho' => ho o' (List.mem_cons_of_mem _ ho')

theorem map_new : Core.new fl'.toKernel = h.core 0 (Core.new fl.toKernel) := by
  simp only [Core.new, KHom.core, h.tr0, h.f_false, add_zero]
  rfl

/-- A sequence of calls on a new core. -/
theorem map_run (env : Env) (os : List (Api A W X C M E)) (ho : ∀ o ∈ os, measOf Q o) :
    apis env fl' (Core.new fl'.toKernel) (os.map (h.api 0)) =
      (apis env fl (Core.new fl.toKernel) os).map (h.core 0) := by
  rw [map_new h]
  exact map_apis h env os _ (ok_new _) ho

end Flow
end MSF
