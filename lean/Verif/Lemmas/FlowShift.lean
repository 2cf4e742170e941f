import Verif.Lemmas.FlowTimes

/-! A shift of the time axis commutes with every function of the core with relative measurements (compare
`Lemmas/CoreMap`). -/

namespace MSF
variable {A W X C M T E X' C' M' T' E' : Type}

/-- A morphism of kernels that commutes with `predict` and `apply` when the times in `S` are shifted by `d`. -/
structure FSHom (S : Set ℚ) (d : ℚ) (fl : Flow A W X C M T E) (fl' : Flow A W X' C' M' T' E') extends
    KHom fl.toKernel fl'.toKernel where
  keeps : fl.KeepsTimes S
  predict : ∀ (c : Core A W X C M T) (o n : Node (St A W X C)),
    fl'.predict (toKHom.core d c) (o.shift toKHom.st d) (n.shift toKHom.st d) =
      toKHom.core d (fl.predict c o n)
  apply : ∀ (env : Env) (c : Core A W X C M T) (m : Meas M) (s : Node (St A W X C)), c.TimesIn S →
    fl'.apply (env.shift d) (toKHom.core d c) (toKHom.meas d m) (s.shift toKHom.st d) =
      (fl.apply env c m s).map (toKHom.core d)

namespace FSHom
open Flow
variable {S : Set ℚ} {d : ℚ} {fl : Flow A W X C M T E} {fl' : Flow A W X' C' M' T' E'} (h : FSHom S d fl fl')

theorem map_propagatePOneStep (c : Core A W X C M T) :
    propagatePOneStep fl' (h.core d c) = (propagatePOneStep fl c).map (h.core d) := by
  unfold propagatePOneStep
  simp only [KHom.core, Buf.shift_iterAtValue, Buf.shift_incr]
  refine bind_shift fun next _ => ?_
  rw [Buf.shift_deref, Buf.shift_deref]
  by_cases hn : next = .fin
  · rw [if_pos hn, if_pos ((Iter.shift_fin d next).2 hn)]; rfl
  · rw [if_neg hn, if_neg (fun e => hn ((Iter.shift_fin d next).1 e))]
    refine bind_shift fun o _ => bind_shift fun n _ => ?_
    have e := h.predict c o n
    have e2 : fl'.numPos (n.shift h.st d).val.x = fl.numPos n.val.x := h.numPos _
    rw [e2]
    change (if fl.numPos n.val.x = true then pure (fl'.predict (h.core d c) _ _) else
      pure ({ fl'.predict (h.core d c) _ _ with predMade := false, inited := false })) = _
    rw [e]
    split <;> rfl

theorem map_propPLoop (t : ℚ) (fuel : Nat) : ∀ (c : Core A W X C M T) (it itm : Iter),
    propPLoop fl' (t + d) fuel (h.core d c) (it.shift d) (itm.shift d) =
      (propPLoop fl t fuel c it itm).map (h.core d) := by
  induction fuel with
  | zero => intro c it itm; rfl
  | succ fuel ih =>
    intro c it itm
    unfold propPLoop
    by_cases hi : it = .fin
    · rw [if_pos hi, if_pos ((Iter.shift_fin d it).2 hi)]; rfl
    · rw [if_neg hi, if_neg (fun e => hi ((Iter.shift_fin d it).1 e))]
      have e1 := Buf.shift_deref h.st d c.states it
      have e2 := Buf.shift_deref h.st d c.states itm
      change ((c.states.shift h.st d).deref (it.shift d) >>= _) = _
      rw [e1]
      refine bind_shift fun n _ => ?_
      simp only [Node.shift_key, add_le_add_iff_right]
      split
      · change ((c.states.shift h.st d).deref (itm.shift d) >>= _) = _
        rw [e2]
        refine bind_shift fun m _ => ?_
        have e := h.predict c m n
        rw [e]
        generalize fl.predict c m n = c1
        change ((c1.states.shift h.st d).incr (it.shift d) >>= _) = _
        rw [Buf.shift_incr]
        refine bind_shift fun i _ => ?_
        change ((c1.states.shift h.st d).incr (itm.shift d) >>= _) = _
        rw [Buf.shift_incr]
        exact bind_shift fun j _ => ih c1 i j
      · rfl

theorem map_propPToState (c : Core A W X C M T) (t t' : ℚ)
    (ht : t' = t + d ∨ c.states.nodes = []) :
    propPToState fl' (h.core d c) t' = (propPToState fl c t).map (h.core d) := by
  rcases ht with rfl | hc
  · unfold propPToState
    change ((c.states.shift h.st d).incr ((c.states.shift h.st d).iterAtValue (c.tP + d)) >>= _) = _
    rw [Buf.shift_iterAtValue, Buf.shift_incr]
    refine bind_shift fun it _ => ?_
    have e : (h.core d c).states.size = c.states.size := Buf.shift_size _ _ _
    rw [e]
    have e2 : (h.core d c).states.iterAtValue (h.core d c).tP =
        (c.states.iterAtValue c.tP).shift d := Buf.shift_iterAtValue _ _ _ _
    rw [e2]
    exact map_propPLoop h t _ c it _
  · unfold propPToState
    have e : ∀ (b : Buf (St A W X C)) x, b.nodes = [] → b.iterAtValue x = .fin := by
      intro b x hb
      simp [Buf.iterAtValue, Buf.find, Buf.lowerBound, Buf.toIter, hb]
    have e' : ∀ (b : Buf (St A W X' C')) x, b.nodes = [] → b.iterAtValue x = .fin := by
      intro b x hb
      simp [Buf.iterAtValue, Buf.find, Buf.lowerBound, Buf.toIter, hb]
    have hc' : (h.core d c).states.nodes = [] := by simp [KHom.core, Buf.shift, hc]
    dsimp only
    rw [e _ _ hc, e' _ _ hc']
    rfl

variable [AddCommGroup A] [Module ℚ A] [AddCommGroup W] [Module ℚ W]

theorem map_getClosestState {c : Core A W X C M T} (env : Env) (hS : Shiftable d S)
    (hc : c.TimesIn S) {t : ℚ} (ht : t ∈ S) :
    getClosestState (env.shift d) fl' (h.core d c) (t + d) =
      (getClosestState env fl c t).map
        (fun r => (h.core d r.1, r.2.map (Node.shift h.st d))) := by
  unfold getClosestState
  change ((c.states.shift h.st d).iterClosest (env.ps.shift d) (t + d) >>= _) = _
  rw [Buf.shift_iterClosest]
  refine bind_shift fun it _ => ?_
  change ((c.states.shift h.st d).deref (it.shift d) >>= _) = _
  rw [Buf.shift_deref]
  refine bind_shift fun n hn => ?_
  have sn := (hS n.key (hc.states.deref hn)).1
  simp only [Node.shift_key, sn, add_sub_add_right_eq_sub]
  split
  · rfl
  · have h1 := hc.interpolate (K := fl.toKernel) n ht
    rw [Core.map_interpolate h.toKHom d hS hc n t]
    generalize Core.interpolate fl.toKernel c n t = r at h1 ⊢
    obtain ⟨c1, i⟩ := r
    dsimp only at h1 ⊢
    change ((c1.states.shift h.st d).deref (i.shift d) >>= _) = _
    rw [Buf.shift_deref]
    refine bind_shift fun n1 _ => ?_
    rw [map_propPToState h c1 n1.key (n1.shift h.st d).key (.inl rfl)]
    refine bind_shift fun c2 _ => ?_
    change ((c2.states.shift h.st d).deref (i.shift d) >>= _) = _
    rw [Buf.shift_deref]
    refine bind_shift fun n2 _ => ?_
    have e : fl'.numX (n2.shift h.st d).val.x = fl.numX n2.val.x := h.numX _
    rw [e]
    by_cases hx : fl.numX n2.val.x = true
    · rw [if_pos hx, if_pos hx]
      by_cases hj : c2.janitor > 100
      · rw [if_pos hj, if_pos (show (h.core d c2).janitor > 100 from hj)]
        have e3 := Core.map_cleanUp h.toKHom d env { c2 with janitor := 0 }
        change (Core.cleanUp (env.shift d) (h.core d { c2 with janitor := 0 }) >>= _) = _
        rw [e3]
        exact bind_shift fun c3 _ => rfl
      · rw [if_neg hj, if_neg (show ¬ (h.core d c2).janitor > 100 from hj)]
        rfl
    · rw [if_neg hx, if_neg hx]
      rfl

theorem map_measLoop (env : Env) (hS : Shiftable d S) (fuel : Nat) :
    ∀ (c : Core A W X C M T) (_ : c.TimesIn S) (it : Iter) (ap : Bool),
    measLoop (env.shift d) fl' fuel (h.core d c) (it.shift d) ap =
      (measLoop env fl fuel c it ap).map (fun r => (h.core d r.1, r.2)) := by
  induction fuel with
  | zero => intro c _ it ap; rfl
  | succ fuel ih =>
    intro c hc it ap
    unfold measLoop
    by_cases hi : it = .fin
    · rw [if_pos hi, if_pos ((Iter.shift_fin d it).2 hi)]; rfl
    · rw [if_neg hi, if_neg (fun e => hi ((Iter.shift_fin d it).1 e))]
      have skip : ∀ c1 : Core A W X C M T, c1.TimesIn S →
          ((h.core d c1).meas.incr (it.shift d) >>= fun j =>
            measLoop (env.shift d) fl' fuel (h.core d c1) j ap) =
          (c1.meas.incr it >>= fun j => measLoop env fl fuel c1 j ap).map
            (fun r => (h.core d r.1, r.2)) := by
        intro c1 hc1
        change ((c1.meas.shift (h.meas d) d).incr (it.shift d) >>= _) = _
        rw [Buf.shift_incr]
        exact bind_shift fun j _ => ih c1 hc1 j ap
      change ((c.meas.shift (h.meas d) d).deref (it.shift d) >>= _) = _
      rw [Buf.shift_deref]
      refine bind_shift fun m hm => ?_
      have hmS := hc.meas.deref hm
      simp only [Node.shift_key, (hS m.key hmS).2.1]
      split
      · exact skip c hc
      · rw [map_getClosestState h env hS hc hmS]
        refine bind_shift fun r hr => ?_
        obtain ⟨c1, st⟩ := r
        obtain ⟨hc1, hst⟩ := tin_getClosestState h.keeps hc env hmS _ hr
        dsimp only at hc1 hst ⊢
        cases st with
        | none => exact skip c1 hc1
        | some s =>
          dsimp only [Option.map_some]
          simp only [Node.shift_key, (hS s.key (hst s rfl)).2.1]
          split
          · exact skip c1 hc1
          · change ((c1.meas.shift (h.meas d) d).deref (it.shift d) >>= _) = _
            rw [Buf.shift_deref]
            refine bind_shift fun m2 _ => ?_
            simp only [Node.shift_val]
            rw [h.apply env c1 m2.val s hc1]
            refine bind_shift fun c2 hc2' => ?_
            have hc2 := h.keeps.apply env c1 m2.val s hc1 c2 hc2'
            change ((c2.meas.shift (h.meas d) d).incr (it.shift d) >>= _) = _
            rw [Buf.shift_incr]
            refine bind_shift fun j _ => ?_
            rw [Core.map_repropagate h.toKHom d hS hc2]
            refine bind_shift fun r2 hr2 => ?_
            have hc3 := hc2.repropagate s.key j r2 hr2
            obtain ⟨c3, ab⟩ := r2
            dsimp only at hc3 ⊢
            split
            · rfl
            · exact ih c3 hc3 j true

omit [AddCommGroup A] [Module ℚ A] [AddCommGroup W] [Module ℚ W] in
theorem map_finishMeas (c : Core A W X C M T) :
    finishMeas fl' (h.core d c) = (finishMeas fl c).map (h.core d) := by
  unfold finishMeas
  have e : (h.core d c).states.last = c.states.last.map (Node.shift h.st d) := Buf.shift_last _ _ _
  rw [map_propPToState h c (timeOf c.states.last)]
  · refine bind_shift fun c1 _ => ?_
    have e1 : (h.core d c1).states.last = c1.states.last.map (Node.shift h.st d) :=
      Buf.shift_last _ _ _
    rw [e1]
    cases c1.states.last with
    | none => rfl
    | some n =>
      simp only [Option.map_some, pure, Except.pure, Except.map, KHom.core, List.map_append]
      rfl
  · rw [e]
    cases hl : c.states.last with
    | none => exact .inr (List.getLast?_eq_none_iff.1 hl)
    | some n => exact .inl rfl

theorem map_addMeasurement {c : Core A W X C M T} (env : Env) (hS : Shiftable d S)
    (hc : c.TimesIn S) {m : Meas M} (hm : m.time ∈ S) :
    addMeasurement (env.shift d) fl' (h.core d c) (h.meas d m) =
      (addMeasurement env fl c m).map (h.core d) := by
  unfold addMeasurement
  by_cases hp : c.inited = false ∨ c.predMade = false
  · rw [if_pos hp, if_pos (show (h.core d c).inited = false ∨ (h.core d c).predMade = false from hp)]
    rfl
  · rw [if_neg hp, if_neg (show ¬((h.core d c).inited = false ∨ (h.core d c).predMade = false)
      from hp)]
    have e1 : (h.core d c).states.last = c.states.last.map (Node.shift h.st d) :=
      Buf.shift_last _ _ _
    have e2 : (h.core d c).states.first = c.states.first.map (Node.shift h.st d) :=
      Buf.shift_first _ _ _
    have sm := hS m.time hm
    have g1 : (h.meas d m).time > timeOf (h.core d c).states.last ↔
        m.time > timeOf c.states.last := by
      rw [e1]
      cases c.states.last with
      | none => exact sm.2.2
      | some n => exact add_lt_add_iff_right d
    have g2 : (h.meas d m).time < timeOf (h.core d c).states.first ↔
        m.time < timeOf c.states.first := by
      rw [e2]
      cases c.states.first with
      | none =>
        have a := sm.1
        have b := sm.2.2
        change m.time + d < invalidTime ↔ m.time < invalidTime
        rw [← not_le, ← not_le, le_iff_lt_or_eq, le_iff_lt_or_eq, b, eq_comm, a, eq_comm]
      | some n => exact add_lt_add_iff_right d
    by_cases k1 : m.time > timeOf c.states.last
    · rw [if_pos k1, if_pos (g1.2 k1)]
      simp only [pure, Except.pure, Except.map, KHom.core, List.map_append]
      rfl
    · rw [if_neg k1, if_neg (fun e => k1 (g1.1 e))]
      by_cases k2 : m.time < timeOf c.states.first
      · rw [if_pos k2, if_pos (g2.2 k2)]
        rfl
      · rw [if_neg k2, if_neg (fun e => k2 (g2.1 e))]
        have ei := Buf.shift_insert (h.meas d) d c.meas m.time m
        have hc1 : Core.TimesIn S { c with meas := (c.meas.insert m.time m).1, fuzzy := false } :=
          ⟨hc.states, hc.meas.insert hm m, hc.queue, hc.out⟩
        have ef := map_measLoop h env hS ((c.meas.insert m.time m).1.size + 1) _ hc1
          (c.meas.insert m.time m).2 false
        have es : ((h.core d c).meas.insert (h.meas d m).time (h.meas d m)).1.size =
            (c.meas.insert m.time m).1.size := by
          change ((c.meas.shift (h.meas d) d).insert (m.time + d) (h.meas d m)).1.size = _
          rw [ei]
          exact Buf.shift_size _ _ _
        change (measLoop (env.shift d) fl'
          (((h.core d c).meas.insert (h.meas d m).time (h.meas d m)).1.size + 1)
          { h.core d c with
            meas := ((c.meas.shift (h.meas d) d).insert (m.time + d) (h.meas d m)).1
            fuzzy := false }
          ((c.meas.shift (h.meas d) d).insert (m.time + d) (h.meas d m)).2 false >>= _) = _
        rw [es, ei]
        have eh : h.core d { c with meas := (c.meas.insert m.time m).1, fuzzy := false } =
            { h.core d c with meas := (c.meas.insert m.time m).1.shift (h.meas d) d
                              fuzzy := false } := by
          simp only [KHom.core, h.f_false]
        rw [eh] at ef
        rw [ef]
        refine bind_shift fun r _ => ?_
        obtain ⟨c1, ap, ab⟩ := r
        dsimp only
        split
        · rfl
        · exact map_finishMeas h c1

theorem map_handlePending {c : Core A W X C M T} (env : Env) (hS : Shiftable d S)
    (hc : c.TimesIn S) :
    handlePending (env.shift d) fl' (h.core d c) = (handlePending env fl c).map (h.core d) := by
  unfold handlePending
  cases hq : c.queue with
  | nil =>
    have e : (h.core d c).queue = [] := by simp [KHom.core, hq]
    rw [e]
    rfl
  | cons m q =>
    have e : (h.core d c).queue = h.meas d m :: q.map (h.meas d) := by simp [KHom.core, hq]
    rw [e]
    have hm : m.time ∈ S := hc.queue m (by rw [hq]; exact List.mem_cons_self ..)
    exact map_addMeasurement h (c := { c with queue := q }) env hS
      ⟨hc.states, hc.meas, fun m' hm' => hc.queue m' (by rw [hq]; exact List.mem_cons_of_mem _ hm'),
        hc.out⟩
      hm

theorem map_imuEnd {c : Core A W X C M T} (env : Env) (hS : Shiftable d S) (hc : c.TimesIn S)
    {t : ℚ} (ht : t ∈ S) (cur : St A W X C) :
    imuEnd (env.shift d) fl' (h.core d c) (t + d) (h.st cur) = (imuEnd env fl c t cur).map (h.core d) := by
  unfold imuEnd
  have e : (h.core d c).states.size = c.states.size := Buf.shift_size _ _ _
  have e2 : (h.core d c).predMade = c.predMade := rfl
  rw [e, e2]
  have eo : (h.core d c).out ++ [Event.afterPropagation (t + d) (h.st cur).x (h.st cur).P] =
      (c.out ++ [Event.afterPropagation t cur.x cur.P]).map (h.event d) := by
    rw [List.map_append]; rfl
  rw [eo]
  split
  · have hc' : Core.TimesIn S { c with
        out := c.out ++ [Event.afterPropagation t cur.x cur.P], predMade := true } :=
      ⟨hc.states, hc.meas, hc.queue, Core.TimesIn.out_snoc hc.out ht⟩
    exact map_handlePending h env hS hc'
  · rfl

theorem map_imuPropagate {c : Core A W X C M T} (env : Env) (hS : Shiftable d S) (hc : c.TimesIn S)
    (last : Node (St A W X C)) {t : ℚ} (ht : t ∈ S) (u : Input A W) :
    imuPropagate (env.shift d) fl' (h.core d c) (last.shift h.st d) (t + d) u =
      (imuPropagate env fl c last t u).map (h.core d) := by
  rw [imuPropagate_form, imuPropagate_form]
  have es : Core.imuState fl'.toKernel (last.shift h.st d) (t + d) u = h.st (Core.imuState fl.toKernel last t u) := by
    simp only [Core.imuState, KHom.st, Node.shift_key, Node.shift_val, add_sub_add_right_eq_sub, h.prop,
      h.P0]
  have ef : ((h.core d c).states.find (t + d)).isSome = (c.states.find t).isSome := by
    change ((c.states.shift h.st d).find (t + d)).isSome = _
    rw [Buf.shift_find]
    cases c.states.find t <;> rfl
  rw [es, ef]
  generalize Core.imuState fl.toKernel last t u = s
  change (propagatePOneStep fl' { h.core d c with
      states := ((c.states.shift h.st d).insert (t + d) (h.st s)).1
      itImu := ((c.states.shift h.st d).insert (t + d) (h.st s)).2 } >>= fun c1 =>
        Core.published c1 (c.states.find t).isSome (h.st s)
          ((c.states.shift h.st d).insert (t + d) (h.st s)).2 >>= fun cur =>
            imuEnd (env.shift d) fl' c1 (t + d) cur) = _
  rw [Core.map_insert]
  have e1 := map_propagatePOneStep h { c with
      states := (c.states.insert t s).1
      itImu := (c.states.insert t s).2 }
  have hc0 : Core.TimesIn S { c with
      states := (c.states.insert t s).1
      itImu := (c.states.insert t s).2 } :=
    ⟨hc.states.insert ht s, hc.meas, hc.queue, hc.out⟩
  change (propagatePOneStep fl' (h.core d { c with
      states := (c.states.insert t s).1
      itImu := (c.states.insert t s).2 }) >>= _) = _
  rw [e1]
  refine bind_shift fun c1 hc1 => ?_
  rw [Core.map_published]
  exact bind_shift fun cur _ => map_imuEnd h env hS (tin_propagatePOneStep h.keeps hc0 c1 hc1) ht cur

theorem map_processIMU {c : Core A W X C M T} (env : Env) (hS : Shiftable d S) (hc : c.TimesIn S)
    {t : ℚ} (ht : t ∈ S) (u : Input A W) :
    processIMU (env.shift d) fl' (h.core d c) (t + d) u =
      (processIMU env fl c t u).map (h.core d) := by
  rw [processIMU_form, processIMU_form]
  by_cases hi : c.inited = false
  · rw [if_pos hi, if_pos (show (h.core d c).inited = false from hi)]; rfl
  · rw [if_neg hi, if_neg (show ¬ (h.core d c).inited = false from hi)]
    have e : Core.imuStart (env.shift d) (h.core d c) (t + d) = (Core.imuStart env c t).map (Iter.shift d) := by
      unfold Core.imuStart
      by_cases hf : c.itImu = .fin
      · rw [if_pos hf, if_pos (show (h.core d c).itImu = .fin from (Iter.shift_fin d _).2 hf)]
        exact Buf.shift_iterClosestBefore _ _ _ _ _
      · rw [if_neg hf, if_neg (show ¬ (h.core d c).itImu = .fin from
          fun e => hf ((Iter.shift_fin d _).1 e))]
        rfl
    rw [e]
    refine bind_shift fun it _ => ?_
    change ((c.states.shift h.st d).deref (it.shift d) >>= _) = _
    rw [Buf.shift_deref]
    refine bind_shift fun last hl => ?_
    unfold imuBody
    simp only [Node.shift_key, (hS last.key (hc.states.deref hl)).1, add_sub_add_right_eq_sub,
      h.spike]
    split
    · rfl
    · by_cases k1 : t - last.key < -(1 / 100) ∧ c.predMade = true
      · rw [if_pos k1, if_pos (show t - last.key < -(1 / 100) ∧ (h.core d c).predMade = true from k1)]
        rfl
      · rw [if_neg k1,
          if_neg (show ¬ (t - last.key < -(1 / 100) ∧ (h.core d c).predMade = true) from k1)]
        by_cases k2 : c.predMade = false ∧ |t - last.key| > 1 / 10
        · rw [if_pos k2,
            if_pos (show (h.core d c).predMade = false ∧ |t - last.key| > 1 / 10 from k2)]
          have eu := Buf.shift_updateTime h.st d c.states last.key t
          change Except.ok ({ h.core d c with
            itImu := it.shift d
            lastAmImu := _
            states := ((c.states.shift h.st d).updateTime (last.key + d) (t + d)).1
            tP := t + d } : Core A W X' C' M' T') = _
          rw [eu]
          rfl
        · rw [if_neg k2,
            if_neg (show ¬ ((h.core d c).predMade = false ∧ |t - last.key| > 1 / 10) from k2)]
          have hc0 : Core.TimesIn S { c with
              itImu := it, lastAmImu := if fl.spike u.a = true then c.lastAmImu else last.val.u.a } :=
            ⟨hc.states, hc.meas, hc.queue, hc.out⟩
          exact map_imuPropagate h env hS hc0 last ht _

theorem map_extEnd {c : Core A W X C M T} (env : Env) (hS : Shiftable d S) (hc : c.TimesIn S)
    {t : ℚ} (ht : t ∈ S) (s : St A W X C) :
    extEnd (env.shift d) fl' (h.core d c) (t + d) (h.st s) = (extEnd env fl c t s).map (h.core d) := by
  unfold extEnd
  have ef : ((h.core d c).states.find (t + d)).isSome = (c.states.find t).isSome := by
    change ((c.states.shift h.st d).find (t + d)).isSome = _
    rw [Buf.shift_find]
    cases c.states.find t <;> rfl
  rw [ef]
  change (propagatePOneStep fl' { h.core d c with
      states := ((c.states.shift h.st d).insert (t + d) (h.st s)).1 } >>= fun c1 =>
        Core.published c1 (c.states.find t).isSome (h.st s)
          ((c.states.shift h.st d).insert (t + d) (h.st s)).2 >>= fun cur =>
            handlePending (env.shift d) fl' { c1 with
              predMade := true
              out := c1.out ++ [.afterPropagation (t + d) cur.x cur.P] }) = _
  rw [Core.map_insert]
  have e1 := map_propagatePOneStep h { c with states := (c.states.insert t s).1 }
  have hc0 : Core.TimesIn S { c with states := (c.states.insert t s).1 } :=
    ⟨hc.states.insert ht s, hc.meas, hc.queue, hc.out⟩
  change (propagatePOneStep fl' (h.core d { c with states := (c.states.insert t s).1 }) >>= _) = _
  rw [e1]
  refine bind_shift fun c1 hc1 => ?_
  rw [Core.map_published]
  refine bind_shift fun cur _ => ?_
  have h1 := tin_propagatePOneStep h.keeps hc0 c1 hc1
  have hc2 : Core.TimesIn S { c1 with
      predMade := true, out := c1.out ++ [Event.afterPropagation t cur.x cur.P] } :=
    ⟨h1.states, h1.meas, h1.queue, Core.TimesIn.out_snoc h1.out ht⟩
  have eo : (h.core d c1).out ++ [Event.afterPropagation (t + d) (h.st cur).x (h.st cur).P] =
      (c1.out ++ [Event.afterPropagation t cur.x cur.P]).map (h.event d) := by
    rw [List.map_append]; rfl
  rw [eo]
  exact map_handlePending h env hS hc2

theorem map_processExternal {c : Core A W X C M T} (env : Env) (hS : Shiftable d S)
    (hc : c.TimesIn S) {t : ℚ} (ht : t ∈ S) (u : Input A W) (e : Option E) :
    processExternal (env.shift d) fl' (h.core d c) (t + d) u (e.map h.e) =
      (processExternal env fl c t u e).map (h.core d) := by
  rw [processExternal_form, processExternal_form]
  by_cases hi : c.inited = false
  · rw [if_pos hi, if_pos (show (h.core d c).inited = false from hi)]; rfl
  · rw [if_neg hi, if_neg (show ¬ (h.core d c).inited = false from hi)]
    have el : (h.core d c).states.last = c.states.last.map (Node.shift h.st d) :=
      Buf.shift_last _ _ _
    rw [el]
    cases hl : c.states.last with
    | none => rfl
    | some last =>
      have hlS := hc.states last (List.mem_of_getLast? hl)
      dsimp only [Option.map_some]
      have eu : Core.extInput fl'.toKernel (h.core d c) u = Core.extInput fl.toKernel c u := by
        simp only [Core.extInput, h.spike]
        rfl
      have em : Core.extMean fl'.toKernel (last.shift h.st d) (t + d) (Core.extInput fl.toKernel c u) (e.map h.e) =
          h.x (Core.extMean fl.toKernel last t (Core.extInput fl.toKernel c u) e) := by
        cases e with
        | none =>
          simp only [Core.extMean, Option.map_none, Node.shift_key, Node.shift_val,
            add_sub_add_right_eq_sub, KHom.st, h.prop]
        | some e => exact h.extProp _ _
      rw [eu, em]
      simp only [Node.shift_key, (hS last.key hlS).1, add_sub_add_right_eq_sub]
      split
      · rfl
      · by_cases k1 : c.predMade = false ∧ |t - last.key| > 5
        · rw [if_pos k1, if_pos (show (h.core d c).predMade = false ∧ |t - last.key| > 5 from k1)]
          have eu := Buf.shift_updateTime h.st d c.states last.key t
          change Except.ok ({ h.core d c with
            lastAmExt := _
            states := ((c.states.shift h.st d).updateTime (last.key + d) (t + d)).1 } :
            Core A W X' C' M' T') = _
          rw [eu]
          rfl
        · rw [if_neg k1,
            if_neg (show ¬ ((h.core d c).predMade = false ∧ |t - last.key| > 5) from k1)]
          by_cases k2 : c.predMade = false
          · rw [if_pos k2, if_pos (show (h.core d c).predMade = false from k2)]
            have hc0 : Core.TimesIn S { c with
                lastAmExt := (Core.extInput fl.toKernel c u).a, tP := t, states := c.states.clear
                meas := c.meas.clear, queue := [] } :=
              ⟨Buf.KeysIn.clear _, Buf.KeysIn.clear _, by simp, hc.out⟩
            exact map_extEnd h env hS hc0 ht
              ⟨Core.extInput fl.toKernel c u, Core.extMean fl.toKernel last t (Core.extInput fl.toKernel c u) e, last.val.P⟩
          · rw [if_neg k2, if_neg (show ¬ (h.core d c).predMade = false from k2)]
            have hc0 : Core.TimesIn S { c with lastAmExt := (Core.extInput fl.toKernel c u).a } :=
              ⟨hc.states, hc.meas, hc.queue, hc.out⟩
            rw [h.P0]
            exact map_extEnd h env hS hc0 ht
              ⟨Core.extInput fl.toKernel c u, Core.extMean fl.toKernel last t (Core.extInput fl.toKernel c u) e, fl.P0⟩

theorem map_api {c : Core A W X C M T} (env : Env) (hS : Shiftable d S) (hc : c.TimesIn S)
    {o : Api A W X C M E} (ho : o.time ∈ S) :
    api (env.shift d) fl' (h.core d c) (h.api d o) = (api env fl c o).map (h.core d) := by
  cases o with
  | init t s =>
    change Except.ok (Core.init fl'.toKernel (h.core d c) (t + d) (h.st s)) = _
    rw [Core.map_init]
    rfl
  | imu t u => exact map_processIMU h env hS hc ho u
  | ext t u e => exact map_processExternal h env hS hc ho u e
  | meas m => exact map_addMeasurement h env hS hc ho

theorem map_apis (env : Env) (hS : Shiftable d S) (os : List (Api A W X C M E)) :
    ∀ (c : Core A W X C M T) (_ : c.TimesIn S) (_ : ∀ o ∈ os, o.time ∈ S),
    apis (env.shift d) fl' (h.core d c) (os.map (h.api d)) =
      (apis env fl c os).map (h.core d) := by
  induction os with
  | nil => intro c _ _; rfl
  | cons o os ih =>
    intro c hc ho
    have ho1 := ho o (List.mem_cons_self ..)
    change (api (env.shift d) fl' (h.core d c) (h.api d o) >>= fun c1 =>
      apis (env.shift d) fl' c1 (os.map (h.api d))) =
      (api env fl c o >>= fun c1 => apis env fl c1 os).map (h.core d)
    rw [map_api h env hS hc ho1]
    exact bind_shift fun c1 hc1 => ih c1 (tin_api h.keeps hc env ho1 c1 hc1)
      fun o' ho' => ho o' (List.mem_cons_of_mem _ ho')

end FSHom
end MSF
