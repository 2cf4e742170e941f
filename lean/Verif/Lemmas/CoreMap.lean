import Verif.Lemmas.CoreTimes

/-! A change of representation of the numerical values, together with a shift of the time axis, commutes
with every function of the core. -/

namespace MSF
variable {A W X C M T E X' C' M' T' E' : Type}

/-- Maps between the values of two kernels that commute with all operations of the kernels; readings may be
mapped differently for every sensor.  The map `f` of the flag `isfuzzyState_`, which the core never reads, is the identity or forgets it. -/
structure KHom (K : Kernel A W X C M T E) (K' : Kernel A W X' C' M' T' E') where
  x : X → X'
  c : C → C'
  m : Int → M → M'
  t : T → T'
  e : E → E'
  f : Bool → Bool := id
  f_false : f false = false := by rfl
  f_or : ∀ a b, f (a || b) = (f a || f b) := by intro _ _; rfl
  prop : ∀ dt u s u', K'.prop dt u (x s) u' = x (K.prop dt u s u')
  extProp : ∀ a s, K'.extProp (e a) (x s) = x (K.extProp a s)
  predP : ∀ dt P u s, K'.predP dt (c P) u (x s) = c (K.predP dt P u s)
  update : ∀ i tr b s P, K'.update (t tr) (m i b) (x s) (c P) =
    ⟨t (K.update tr b s P).tr, x (K.update tr b s P).x, c (K.update tr b s P).P,
      (K.update tr b s P).applied, f (K.update tr b s P).fuzzy⟩
  P0 : K'.P0 = c K.P0
  tr0 : K'.tr0 = t K.tr0
  spike : ∀ a, K'.spike a = K.spike a
  numX : ∀ s, K'.numX (x s) = K.numX s
  numPos : ∀ s, K'.numPos (x s) = K.numPos s

/-- On a set of times, shifting by `d` does not change the outcome of the comparisons with the two
fixed times of the code, `INVALID_TIME = -1` and `0`. -/
def Shiftable (d : ℚ) (S : Set ℚ) : Prop :=
  ∀ t ∈ S, (t + d = invalidTime ↔ t = invalidTime) ∧ (t + d ≤ 0 ↔ t ≤ 0) ∧
    (invalidTime < t + d ↔ invalidTime < t)

theorem Shiftable.zero (S : Set ℚ) : Shiftable 0 S := by
  intro t _
  simp

theorem Shiftable.pos (d : ℚ) : Shiftable d {t | 0 < t ∧ 0 < t + d} := by
  rintro t ⟨h1, h2⟩
  unfold invalidTime
  refine ⟨⟨fun h => ?_, fun h => ?_⟩, ⟨fun h => ?_, fun h => ?_⟩, ⟨fun h => ?_, fun h => ?_⟩⟩ <;>
    linarith

namespace KHom
variable {K : Kernel A W X C M T E} {K' : Kernel A W X' C' M' T' E'} (h : KHom K K') (d : ℚ)

def st (s : St A W X C) : St A W X' C' := ⟨s.u, h.x s.x, h.c s.P⟩

def meas (m : Meas M) : Meas M' := ⟨m.time + d, m.sensor, h.m m.sensor m.body⟩

def event : Event X C → Event X' C'
  | .initial t x P => .initial (t + d) (h.x x) (h.c P)
  | .afterPropagation t x P => .afterPropagation (t + d) (h.x x) (h.c P)
  | .afterUpdate t x P => .afterUpdate (t + d) (h.x x) (h.c P)

def core (c : Core A W X C M T) : Core A W X' C' M' T' where
  states := c.states.shift h.st d
  meas := c.meas.shift (h.meas d) d
  queue := c.queue.map (h.meas d)
  tP := c.tP + d
  itImu := c.itImu.shift d
  inited := c.inited
  predMade := c.predMade
  fuzzy := h.f c.fuzzy
  tracker := h.t c.tracker
  lastAmImu := c.lastAmImu
  lastAmExt := c.lastAmExt
  janitor := c.janitor
  out := c.out.map (h.event d)

def api : Api A W X C M E → Api A W X' C' M' E'
  | .init t s => .init (t + d) (h.st s)
  | .imu t u => .imu (t + d) u
  | .ext t u e => .ext (t + d) u (e.map h.e)
  | .meas m => .meas (h.meas d m)

end KHom

def Env.shift (env : Env) (d : ℚ) : Env := ⟨env.ps.shift d, env.pm.shift d⟩

theorem Env.shift_zero (env : Env) : env.shift 0 = env := by
  have : ∀ p : Plat, p.shift 0 = p := by
    intro p
    cases p with
    | std => rfl
    | gnu f => simp [Plat.shift]
  simp [Env.shift, this]

theorem bind_shift {α α' β β' : Type} {x : Except UB α} {f : α → α'} {k : α → Except UB β}
    {k' : α' → Except UB β'} {F : β → β'} (h : ∀ a, x = .ok a → k' (f a) = (k a).map F) :
    (x.map f >>= k') = (x >>= k).map F := by
  cases x with
  | error e => rfl
  | ok a => exact h a rfl

namespace Core
variable {K : Kernel A W X C M T E} {K' : Kernel A W X' C' M' T' E'} (h : KHom K K') (d : ℚ)

theorem map_predictCov (c : Core A W X C M T) (o n : Node (St A W X C)) :
    predictCov K' (h.core d c) (o.shift h.st d) (n.shift h.st d) =
      h.core d (predictCov K c o n) := by
  unfold predictCov
  simp only [Node.shift_key, Node.shift_val, add_sub_add_right_eq_sub]
  split
  · rfl
  · simp only [KHom.core, Core.mk.injEq, and_true]
    refine Buf.shift_modify _ _ _ _ fun v => ?_
    simp only [KHom.st, h.predP]

theorem map_propagatePOneStep (c : Core A W X C M T) :
    propagatePOneStep K' (h.core d c) = (propagatePOneStep K c).map (h.core d) := by
  unfold propagatePOneStep
  simp only [KHom.core, Buf.shift_iterAtValue, Buf.shift_incr]
  refine bind_shift fun next _ => ?_
  rw [Buf.shift_deref, Buf.shift_deref]
  by_cases hn : next = .fin
  · rw [if_pos hn, if_pos ((Iter.shift_fin d next).2 hn)]; rfl
  · rw [if_neg hn, if_neg (fun e => hn ((Iter.shift_fin d next).1 e))]
    refine bind_shift fun o _ => bind_shift fun n _ => ?_
    have e := map_predictCov h d c o n
    have e2 : K'.numPos (n.shift h.st d).val.x = K.numPos n.val.x := h.numPos _
    rw [e2]
    change (if K.numPos n.val.x = true then pure (predictCov K' (h.core d c) _ _) else
      pure ({ predictCov K' (h.core d c) _ _ with predMade := false, inited := false })) = _
    rw [e]
    split <;> rfl

theorem map_propPLoop (t : ℚ) (fuel : Nat) : ∀ (c : Core A W X C M T) (it itm : Iter),
    propPLoop K' (t + d) fuel (h.core d c) (it.shift d) (itm.shift d) =
      (propPLoop K t fuel c it itm).map (h.core d) := by
  induction fuel with
  | zero => intro c it itm; rfl
  | succ fuel ih =>
    intro c it itm
    unfold propPLoop
    by_cases hi : it = .fin
    · rw [if_pos hi, if_pos ((Iter.shift_fin d it).2 hi)]; rfl
    · rw [if_neg hi, if_neg (fun e => hi ((Iter.shift_fin d it).1 e))]
      have e1 := Buf.shift_deref h.st d c.states it
      have e2 := Buf.shift_deref h.st d c.states itm
      change ((c.states.shift h.st d).deref (it.shift d) >>= _) = _
      rw [e1]
      refine bind_shift fun n _ => ?_
      simp only [Node.shift_key, add_le_add_iff_right]
      split
      · change ((c.states.shift h.st d).deref (itm.shift d) >>= _) = _
        rw [e2]
        refine bind_shift fun m _ => ?_
        have e := map_predictCov h d c m n
        rw [e]
        generalize predictCov K c m n = c1
        change ((c1.states.shift h.st d).incr (it.shift d) >>= _) = _
        rw [Buf.shift_incr]
        refine bind_shift fun i _ => ?_
        change ((c1.states.shift h.st d).incr (itm.shift d) >>= _) = _
        rw [Buf.shift_incr]
        exact bind_shift fun j _ => ih c1 i j
      · rfl

/-- An empty state buffer: the covariance propagation runs past its end. -/
theorem map_propPToState (c : Core A W X C M T) (t t' : ℚ)
    (ht : t' = t + d ∨ c.states.nodes = []) :
    propPToState K' (h.core d c) t' = (propPToState K c t).map (h.core d) := by
  rcases ht with rfl | hc
  · unfold propPToState
    change ((c.states.shift h.st d).incr ((c.states.shift h.st d).iterAtValue (c.tP + d)) >>= _) = _
    rw [Buf.shift_iterAtValue, Buf.shift_incr]
    refine bind_shift fun it _ => ?_
    have e : (h.core d c).states.size = c.states.size := Buf.shift_size _ _ _
    rw [e]
    have e2 : (h.core d c).states.iterAtValue (h.core d c).tP =
        (c.states.iterAtValue c.tP).shift d := Buf.shift_iterAtValue _ _ _ _
    rw [e2]
    exact map_propPLoop h d t _ c it _
  · unfold propPToState
    have e : ∀ (b : Buf (St A W X C)) x, b.nodes = [] → b.iterAtValue x = .fin := by
      intro b x hb
      simp [Buf.iterAtValue, Buf.find, Buf.lowerBound, Buf.toIter, hb]
    have e' : ∀ (b : Buf (St A W X' C')) x, b.nodes = [] → b.iterAtValue x = .fin := by
      intro b x hb
      simp [Buf.iterAtValue, Buf.find, Buf.lowerBound, Buf.toIter, hb]
    have hc' : (h.core d c).states.nodes = [] := by simp [KHom.core, Buf.shift, hc]
    dsimp only
    rw [e _ _ hc, e' _ _ hc']
    rfl

theorem map_cleanUp (env : Env) (c : Core A W X C M T) :
    cleanUp (env.shift d) (h.core d c) = (cleanUp env c).map (h.core d) := by
  unfold cleanUp
  change ((c.states.shift h.st d).clearOlderThan (env.ps.shift d) 60 >>= _) = _
  rw [Buf.shift_clearOlderThan]
  refine bind_shift fun s _ => ?_
  change ((c.meas.shift (h.meas d) d).clearOlderThan (env.pm.shift d) 60 >>= _) = _
  rw [Buf.shift_clearOlderThan]
  exact bind_shift fun m _ => rfl

variable [AddCommGroup A] [Module ℚ A] [AddCommGroup W] [Module ℚ W]

omit [AddCommGroup W] [Module ℚ W] in
theorem lerp_shift (tl tr : ℚ) (al ar : A) (t : ℚ) :
    lerp (tl + d) (tr + d) al ar (t + d) = lerp tl tr al ar t := by
  simp [lerp]

theorem lerpInput_shift (tl tr : ℚ) (ul ur : Input A W) (t : ℚ) :
    lerpInput (tl + d) (tr + d) ul ur (t + d) = lerpInput tl tr ul ur t := by
  simp [lerpInput, lerp_shift]

theorem closestBefore_mem {V : Type} {b : Buf V} {t : ℚ} {n : Node V}
    (hn : b.closestBefore t = some n) : n ∈ b.nodes := by
  obtain ⟨nodes, fresh⟩ := b
  cases nodes with
  | nil => cases hn
  | cons m l =>
    simp only [Buf.closestBefore] at hn
    cases hp : (Buf.mk (m :: l) fresh).pred t with
    | none =>
      rw [hp] at hn
      cases hn
      exact List.mem_cons_self ..
    | some k =>
      rw [hp] at hn
      cases hn
      exact (List.mem_filter.1 (List.mem_of_getLast? hp)).1

theorem closestAfter_mem {V : Type} {b : Buf V} {t : ℚ} {n : Node V}
    (hn : b.closestAfter t = some n) : n ∈ b.nodes := List.mem_of_find?_eq_some hn

variable {S : Set ℚ}

theorem map_interpolate {c : Core A W X C M T} (hS : Shiftable d S) (hc : c.TimesIn S)
    (n : Node (St A W X C)) (t : ℚ) :
    interpolate K' (h.core d c) (n.shift h.st d) (t + d) =
      (h.core d (interpolate K c n t).1, (interpolate K c n t).2.shift d) := by
  unfold interpolate
  simp only [Node.shift_key, add_sub_add_right_eq_sub]
  by_cases hf : |n.key - t| > 1 / 1000
  · rw [if_pos hf, if_pos hf]
    have e1 : (h.core d c).states.closestBefore (t + d) =
      (c.states.closestBefore t).map (Node.shift h.st d) := Buf.shift_closestBefore _ _ _ _
    have e2 : (h.core d c).states.closestAfter (t + d) =
      (c.states.closestAfter t).map (Node.shift h.st d) := Buf.shift_closestAfter _ _ _ _
    rw [e1, e2]
    cases hl : c.states.closestBefore t with
    | none => cases c.states.closestAfter t <;> rfl
    | some l =>
      cases hr : c.states.closestAfter t with
      | none => rfl
      | some r =>
        have sl := (hS l.key (hc.states l (closestBefore_mem hl))).1
        have sr := (hS r.key (hc.states r (closestAfter_mem hr))).1
        have xl : K'.numX (l.shift h.st d).val.x = K.numX l.val.x := h.numX _
        have xr : K'.numX (r.shift h.st d).val.x = K.numX r.val.x := h.numX _
        simp only [Option.map_some, Node.shift_key, ne_eq, sl, sr, xl, xr, add_left_inj,
          lerpInput_shift, add_sub_add_right_eq_sub]
        split
        · have ei := Buf.shift_insert h.st d c.states t
            ⟨lerpInput l.key r.key l.val.u r.val.u t,
              K.prop (t - l.key) l.val.u l.val.x (lerpInput l.key r.key l.val.u r.val.u t), K.P0⟩
          have es : h.st ⟨lerpInput l.key r.key l.val.u r.val.u t,
              K.prop (t - l.key) l.val.u l.val.x (lerpInput l.key r.key l.val.u r.val.u t), K.P0⟩ =
              ⟨lerpInput l.key r.key l.val.u r.val.u t,
                K'.prop (t - l.key) l.val.u (h.x l.val.x)
                  (lerpInput l.key r.key l.val.u r.val.u t), K'.P0⟩ := by
            simp only [KHom.st, h.prop, h.P0]
          rw [es] at ei
          simp only [KHom.core, gt_iff_lt, add_lt_add_iff_right]
          change (({ states := ((c.states.shift h.st d).insert (t + d)
              ⟨lerpInput l.key r.key l.val.u r.val.u t,
                K'.prop (t - l.key) l.val.u (h.x l.val.x)
                  (lerpInput l.key r.key l.val.u r.val.u t), K'.P0⟩).1, .. } :
            Core A W X' C' M' T'), ((c.states.shift h.st d).insert (t + d)
              ⟨lerpInput l.key r.key l.val.u r.val.u t,
                K'.prop (t - l.key) l.val.u (h.x l.val.x)
                  (lerpInput l.key r.key l.val.u r.val.u t), K'.P0⟩).2) = _
          rw [ei]
          simp only [Prod.mk.injEq, Core.mk.injEq, and_true, true_and]
          split <;> rfl
        · rfl
  · rw [if_neg hf, if_neg hf]
    rfl

theorem map_getClosestState {c : Core A W X C M T} (env : Env) (hS : Shiftable d S)
    (hc : c.TimesIn S) {t : ℚ} (ht : t ∈ S) :
    getClosestState (env.shift d) K' (h.core d c) (t + d) =
      (getClosestState env K c t).map
        (fun r => (h.core d r.1, r.2.map (Node.shift h.st d))) := by
  unfold getClosestState
  change ((c.states.shift h.st d).iterClosest (env.ps.shift d) (t + d) >>= _) = _
  rw [Buf.shift_iterClosest]
  refine bind_shift fun it _ => ?_
  change ((c.states.shift h.st d).deref (it.shift d) >>= _) = _
  rw [Buf.shift_deref]
  refine bind_shift fun n hn => ?_
  have sn := (hS n.key (hc.states.deref hn)).1
  simp only [Node.shift_key, sn, add_sub_add_right_eq_sub]
  split
  · rfl
  · have h1 := hc.interpolate (K := K) n ht
    rw [map_interpolate h d hS hc n t]
    generalize interpolate K c n t = r at h1 ⊢
    obtain ⟨c1, i⟩ := r
    dsimp only at h1 ⊢
    change ((c1.states.shift h.st d).deref (i.shift d) >>= _) = _
    rw [Buf.shift_deref]
    refine bind_shift fun n1 _ => ?_
    rw [map_propPToState h d c1 n1.key (n1.shift h.st d).key (.inl rfl)]
    refine bind_shift fun c2 _ => ?_
    change ((c2.states.shift h.st d).deref (i.shift d) >>= _) = _
    rw [Buf.shift_deref]
    refine bind_shift fun n2 _ => ?_
    have e : K'.numX (n2.shift h.st d).val.x = K.numX n2.val.x := h.numX _
    rw [e]
    by_cases hx : K.numX n2.val.x = true
    · rw [if_pos hx, if_pos hx]
      by_cases hj : c2.janitor > 100
      · rw [if_pos hj, if_pos (show (h.core d c2).janitor > 100 from hj)]
        have e3 := map_cleanUp h d env { c2 with janitor := 0 }
        change (cleanUp (env.shift d) (h.core d { c2 with janitor := 0 }) >>= _) = _
        rw [e3]
        exact bind_shift fun c3 _ => rfl
      · rw [if_neg hj, if_neg (show ¬ (h.core d c2).janitor > 100 from hj)]
        rfl
    · rw [if_neg hx, if_neg hx]
      rfl

omit [AddCommGroup A] [Module ℚ A] [AddCommGroup W] [Module ℚ W] in
theorem map_propLoop (hS : Shiftable d S) (fuel : Nat) : ∀ (c : Core A W X C M T) (_ : c.TimesIn S)
    (cur next stop : Iter),
    propLoop K' fuel (h.core d c) (cur.shift d) (next.shift d) (stop.shift d) =
      (propLoop K fuel c cur next stop).map (fun r => (h.core d r.1, r.2)) := by
  induction fuel with
  | zero => intro c _ cur next stop; rfl
  | succ fuel ih =>
    intro c hc cur next stop
    unfold propLoop
    simp only [Iter.shift_inj]
    by_cases hi : cur = stop ∨ next = stop
    · rw [if_pos hi, if_pos hi]; rfl
    · rw [if_neg hi, if_neg hi]
      change ((c.states.shift h.st d).deref (cur.shift d) >>= _) = _
      rw [Buf.shift_deref]
      refine bind_shift fun a ha => ?_
      change ((c.states.shift h.st d).deref (next.shift d) >>= _) = _
      rw [Buf.shift_deref]
      refine bind_shift fun b hb => ?_
      have sa := (hS a.key (hc.states.deref ha)).1
      have sb := (hS b.key (hc.states.deref hb)).1
      simp only [Node.shift_key, sa, sb, add_sub_add_right_eq_sub]
      split
      · rfl
      · by_cases hp : c.inited = false ∨ c.predMade = false
        · rw [if_pos hp, if_pos (show (h.core d c).inited = false ∨ (h.core d c).predMade = false
            from hp)]
          rfl
        · rw [if_neg hp, if_neg (show ¬((h.core d c).inited = false ∨ (h.core d c).predMade = false)
            from hp)]
          have e : ((h.core d c).states.modify (b.key + d) fun s =>
                { s with
                  x := K'.prop (b.key - a.key) (a.shift h.st d).val.u (a.shift h.st d).val.x s.u }) =
              (c.states.modify b.key fun s =>
                { s with x := K.prop (b.key - a.key) a.val.u a.val.x s.u }).shift h.st d := by
            refine Buf.shift_modify _ _ _ _ fun v => ?_
            simp only [KHom.st, Node.shift_val, h.prop]
          rw [e]
          have hc1 : Core.TimesIn S ({ c with
                states := c.states.modify b.key fun s =>
                  { s with x := K.prop (b.key - a.key) a.val.u a.val.x s.u } }) :=
            ⟨hc.states.modify _ _, hc.meas, hc.queue, hc.out⟩
          rw [Buf.shift_incr]
          refine bind_shift fun i _ => ?_
          rw [Buf.shift_incr]
          exact bind_shift fun j _ => ih _ hc1 i j stop

omit [AddCommGroup A] [Module ℚ A] [AddCommGroup W] [Module ℚ W] in
theorem map_applyMeas (c : Core A W X C M T) (m : Meas M) (s : Node (St A W X C)) :
    applyMeas K' (h.core d c) (h.meas d m) (s.shift h.st d) = h.core d (applyMeas K c m s) := by
  unfold applyMeas
  have e : K'.update (h.core d c).tracker (h.meas d m).body (s.shift h.st d).val.x
      (s.shift h.st d).val.P = _ := h.update m.sensor c.tracker m.body s.val.x s.val.P
  have e2 : (h.core d c).states.deref (s.shift h.st d).iter =
      (c.states.deref s.iter).map (Node.shift h.st d) := by
    rw [Node.shift_iter]
    exact Buf.shift_deref _ _ _ _
  rw [e, e2]
  simp only [KHom.core, Core.mk.injEq, true_and, and_true]
  refine ⟨?_, ?_⟩
  · cases c.states.deref s.iter with
    | error _ => rfl
    | ok _ =>
      refine Buf.shift_modify _ _ _ _ fun v => ?_
      rfl
  · rw [h.f_or]
    split <;> exact ⟨rfl, rfl⟩

omit [AddCommGroup A] [Module ℚ A] [AddCommGroup W] [Module ℚ W] in
theorem map_stopAt (c : Core A W X C M T) (it : Iter) :
    stopAt (h.core d c) (it.shift d) = (stopAt c it).map (Iter.shift d) := by
  cases it with
  | fin => rfl
  | «at» k i =>
    have e := Buf.shift_deref (h.meas d) d c.meas (.at k i)
    unfold stopAt
    change ((c.meas.shift (h.meas d) d).deref ((Iter.at k i).shift d) >>= _) = _
    rw [e]
    refine bind_shift fun nm _ => ?_
    have e2 : (h.core d c).states.iterClosestAfter (nm.shift (h.meas d) d).key =
      (c.states.iterClosestAfter nm.key).shift d := Buf.shift_iterClosestAfter _ _ _ _
    rw [e2]
    by_cases hf : c.states.iterClosestAfter nm.key = .fin
    · rw [hf]; rfl
    · rw [if_pos hf, if_pos (fun e => hf ((Iter.shift_fin d _).1 e))]
      exact Buf.shift_incr _ _ _ _

omit [AddCommGroup A] [Module ℚ A] [AddCommGroup W] [Module ℚ W] in
theorem map_repropagate {c : Core A W X C M T} (hS : Shiftable d S) (hc : c.TimesIn S) (k : ℚ)
    (it : Iter) :
    repropagate K' (h.core d c) (k + d) (it.shift d) =
      (repropagate K c k it).map (fun r => (h.core d r.1, r.2)) := by
  rw [repropagate_form, repropagate_form, map_stopAt]
  refine bind_shift fun stop _ => ?_
  have e : (h.core d c).states.iterAtValue (k + d) = (c.states.iterAtValue k).shift d :=
    Buf.shift_iterAtValue _ _ _ _
  have e2 : (h.core d c).states.size = c.states.size := Buf.shift_size _ _ _
  rw [e, e2]
  change ((c.states.shift h.st d).incr _ >>= _) = _
  rw [Buf.shift_incr]
  exact bind_shift fun next _ => map_propLoop h d hS _ c hc _ _ _

theorem map_measLoop (env : Env) (hS : Shiftable d S) (fuel : Nat) :
    ∀ (c : Core A W X C M T) (_ : c.TimesIn S) (it : Iter) (ap : Bool),
    measLoop (env.shift d) K' fuel (h.core d c) (it.shift d) ap =
      (measLoop env K fuel c it ap).map (fun r => (h.core d r.1, r.2)) := by
  induction fuel with
  | zero => intro c _ it ap; rfl
  | succ fuel ih =>
    intro c hc it ap
    unfold measLoop
    by_cases hi : it = .fin
    · rw [if_pos hi, if_pos ((Iter.shift_fin d it).2 hi)]; rfl
    · rw [if_neg hi, if_neg (fun e => hi ((Iter.shift_fin d it).1 e))]
      have skip : ∀ c1 : Core A W X C M T, c1.TimesIn S →
          ((h.core d c1).meas.incr (it.shift d) >>= fun j =>
            measLoop (env.shift d) K' fuel (h.core d c1) j ap) =
          (c1.meas.incr it >>= fun j => measLoop env K fuel c1 j ap).map
            (fun r => (h.core d r.1, r.2)) := by
        intro c1 hc1
        change ((c1.meas.shift (h.meas d) d).incr (it.shift d) >>= _) = _
        rw [Buf.shift_incr]
        exact bind_shift fun j _ => ih c1 hc1 j ap
      change ((c.meas.shift (h.meas d) d).deref (it.shift d) >>= _) = _
      rw [Buf.shift_deref]
      refine bind_shift fun m hm => ?_
      have hmS := hc.meas.deref hm
      simp only [Node.shift_key, (hS m.key hmS).2.1]
      split
      · exact skip c hc
      · rw [map_getClosestState h d env hS hc hmS]
        refine bind_shift fun r hr => ?_
        obtain ⟨c1, st⟩ := r
        obtain ⟨hc1, hst⟩ := hc.getClosestState env hmS _ hr
        dsimp only at hc1 hst ⊢
        cases st with
        | none => exact skip c1 hc1
        | some s =>
          dsimp only [Option.map_some]
          simp only [Node.shift_key, (hS s.key (hst s rfl)).2.1]
          split
          · exact skip c1 hc1
          · change ((c1.meas.shift (h.meas d) d).deref (it.shift d) >>= _) = _
            rw [Buf.shift_deref]
            refine bind_shift fun m2 _ => ?_
            have e := map_applyMeas h d c1 m2.val s
            simp only [Node.shift_val]
            rw [e]
            have hc2 := hc1.applyMeas (K := K) m2.val s
            generalize applyMeas K c1 m2.val s = c2 at hc2 ⊢
            change ((c2.meas.shift (h.meas d) d).incr (it.shift d) >>= _) = _
            rw [Buf.shift_incr]
            refine bind_shift fun j _ => ?_
            rw [map_repropagate h d hS hc2]
            refine bind_shift fun r2 hr2 => ?_
            have hc3 := hc2.repropagate s.key j r2 hr2
            obtain ⟨c3, ab⟩ := r2
            dsimp only at hc3 ⊢
            split
            · rfl
            · exact ih c3 hc3 j true

omit [AddCommGroup A] [Module ℚ A] [AddCommGroup W] [Module ℚ W] in
theorem map_finishMeas (c : Core A W X C M T) :
    finishMeas K' (h.core d c) = (finishMeas K c).map (h.core d) := by
  unfold finishMeas
  have e : (h.core d c).states.last = c.states.last.map (Node.shift h.st d) := Buf.shift_last _ _ _
  rw [map_propPToState h d c (timeOf c.states.last)]
  · refine bind_shift fun c1 _ => ?_
    have e1 : (h.core d c1).states.last = c1.states.last.map (Node.shift h.st d) :=
      Buf.shift_last _ _ _
    rw [e1]
    cases c1.states.last with
    | none => rfl
    | some n =>
      simp only [Option.map_some, pure, Except.pure, Except.map, KHom.core, List.map_append]
      rfl
  · rw [e]
    cases hl : c.states.last with
    | none => exact .inr (List.getLast?_eq_none_iff.1 hl)
    | some n => exact .inl rfl

theorem map_addMeasurement {c : Core A W X C M T} (env : Env) (hS : Shiftable d S)
    (hc : c.TimesIn S) {m : Meas M} (hm : m.time ∈ S) :
    addMeasurement (env.shift d) K' (h.core d c) (h.meas d m) =
      (addMeasurement env K c m).map (h.core d) := by
  unfold addMeasurement
  by_cases hp : c.inited = false ∨ c.predMade = false
  · rw [if_pos hp, if_pos (show (h.core d c).inited = false ∨ (h.core d c).predMade = false from hp)]
    rfl
  · rw [if_neg hp, if_neg (show ¬((h.core d c).inited = false ∨ (h.core d c).predMade = false)
      from hp)]
    have e1 : (h.core d c).states.last = c.states.last.map (Node.shift h.st d) :=
      Buf.shift_last _ _ _
    have e2 : (h.core d c).states.first = c.states.first.map (Node.shift h.st d) :=
      Buf.shift_first _ _ _
    have sm := hS m.time hm
    have g1 : (h.meas d m).time > timeOf (h.core d c).states.last ↔
        m.time > timeOf c.states.last := by
      rw [e1]
      cases c.states.last with
      | none => exact sm.2.2
      | some n => exact add_lt_add_iff_right d
    have g2 : (h.meas d m).time < timeOf (h.core d c).states.first ↔
        m.time < timeOf c.states.first := by
      rw [e2]
      cases c.states.first with
      | none =>
        have a := sm.1
        have b := sm.2.2
        change m.time + d < invalidTime ↔ m.time < invalidTime
        rw [← not_le, ← not_le, le_iff_lt_or_eq, le_iff_lt_or_eq, b, eq_comm, a, eq_comm]
      | some n => exact add_lt_add_iff_right d
    by_cases k1 : m.time > timeOf c.states.last
    · rw [if_pos k1, if_pos (g1.2 k1)]
      simp only [pure, Except.pure, Except.map, KHom.core, List.map_append]
      rfl
    · rw [if_neg k1, if_neg (fun e => k1 (g1.1 e))]
      by_cases k2 : m.time < timeOf c.states.first
      · rw [if_pos k2, if_pos (g2.2 k2)]
        rfl
      · rw [if_neg k2, if_neg (fun e => k2 (g2.1 e))]
        have ei := Buf.shift_insert (h.meas d) d c.meas m.time m
        have hc1 : Core.TimesIn S { c with meas := (c.meas.insert m.time m).1, fuzzy := false } :=
          ⟨hc.states, hc.meas.insert hm m, hc.queue, hc.out⟩
        have ef := map_measLoop h d env hS ((c.meas.insert m.time m).1.size + 1) _ hc1
          (c.meas.insert m.time m).2 false
        have es : ((h.core d c).meas.insert (h.meas d m).time (h.meas d m)).1.size =
            (c.meas.insert m.time m).1.size := by
          change ((c.meas.shift (h.meas d) d).insert (m.time + d) (h.meas d m)).1.size = _
          rw [ei]
          exact Buf.shift_size _ _ _
        change (measLoop (env.shift d) K'
          (((h.core d c).meas.insert (h.meas d m).time (h.meas d m)).1.size + 1)
          { h.core d c with
            meas := ((c.meas.shift (h.meas d) d).insert (m.time + d) (h.meas d m)).1
            fuzzy := false }
          ((c.meas.shift (h.meas d) d).insert (m.time + d) (h.meas d m)).2 false >>= _) = _
        rw [es, ei]
        have eh : h.core d { c with meas := (c.meas.insert m.time m).1, fuzzy := false } =
            { h.core d c with meas := (c.meas.insert m.time m).1.shift (h.meas d) d
                              fuzzy := false } := by
          simp only [KHom.core, h.f_false]
        rw [eh] at ef
        rw [ef]
        refine bind_shift fun r _ => ?_
        obtain ⟨c1, ap, ab⟩ := r
        dsimp only
        split
        · rfl
        · exact map_finishMeas h d c1

theorem map_handlePending {c : Core A W X C M T} (env : Env) (hS : Shiftable d S)
    (hc : c.TimesIn S) :
    handlePending (env.shift d) K' (h.core d c) = (handlePending env K c).map (h.core d) := by
  unfold handlePending
  cases hq : c.queue with
  | nil =>
    have e : (h.core d c).queue = [] := by simp [KHom.core, hq]
    rw [e]
    rfl
  | cons m q =>
    have e : (h.core d c).queue = h.meas d m :: q.map (h.meas d) := by simp [KHom.core, hq]
    rw [e]
    have hm : m.time ∈ S := hc.queue m (by rw [hq]; exact List.mem_cons_self ..)
    exact map_addMeasurement h d (c := { c with queue := q }) env hS
      ⟨hc.states, hc.meas, fun m' hm' => hc.queue m' (by rw [hq]; exact List.mem_cons_of_mem _ hm'),
        hc.out⟩
      hm

omit [AddCommGroup A] [Module ℚ A] [AddCommGroup W] [Module ℚ W] in
theorem map_published (c : Core A W X C M T) (was : Bool) (s : St A W X C) (it : Iter) :
    published (h.core d c) was (h.st s) (it.shift d) = (published c was s it).map h.st := by
  unfold published
  cases was with
  | true => rfl
  | false =>
    have e : (h.core d c).states.deref (it.shift d) = (c.states.deref it).map (Node.shift h.st d) :=
      Buf.shift_deref _ _ _ _
    rw [e]
    cases c.states.deref it <;> rfl

theorem map_imuEnd {c : Core A W X C M T} (env : Env) (hS : Shiftable d S) (hc : c.TimesIn S)
    {t : ℚ} (ht : t ∈ S) (cur : St A W X C) :
    imuEnd (env.shift d) K' (h.core d c) (t + d) (h.st cur) = (imuEnd env K c t cur).map (h.core d) := by
  unfold imuEnd
  have e : (h.core d c).states.size = c.states.size := Buf.shift_size _ _ _
  have e2 : (h.core d c).predMade = c.predMade := rfl
  rw [e, e2]
  have eo : (h.core d c).out ++ [Event.afterPropagation (t + d) (h.st cur).x (h.st cur).P] =
      (c.out ++ [Event.afterPropagation t cur.x cur.P]).map (h.event d) := by
    rw [List.map_append]; rfl
  rw [eo]
  split
  · have hc' : Core.TimesIn S { c with
        out := c.out ++ [Event.afterPropagation t cur.x cur.P], predMade := true } :=
      ⟨hc.states, hc.meas, hc.queue, TimesIn.out_snoc hc.out ht⟩
    exact map_handlePending h d env hS hc'
  · rfl

omit [AddCommGroup A] [Module ℚ A] [AddCommGroup W] [Module ℚ W] in
theorem map_insert (b : Buf (St A W X C)) (t : ℚ) (s : St A W X C) :
    (b.shift h.st d).insert (t + d) (h.st s) =
      ((b.insert t s).1.shift h.st d, (b.insert t s).2.shift d) := Buf.shift_insert _ _ _ _ _

theorem map_imuPropagate {c : Core A W X C M T} (env : Env) (hS : Shiftable d S) (hc : c.TimesIn S)
    (last : Node (St A W X C)) {t : ℚ} (ht : t ∈ S) (u : Input A W) :
    imuPropagate (env.shift d) K' (h.core d c) (last.shift h.st d) (t + d) u =
      (imuPropagate env K c last t u).map (h.core d) := by
  rw [imuPropagate_form, imuPropagate_form]
  have es : imuState K' (last.shift h.st d) (t + d) u = h.st (imuState K last t u) := by
    simp only [imuState, KHom.st, Node.shift_key, Node.shift_val, add_sub_add_right_eq_sub, h.prop,
      h.P0]
  have ef : ((h.core d c).states.find (t + d)).isSome = (c.states.find t).isSome := by
    change ((c.states.shift h.st d).find (t + d)).isSome = _
    rw [Buf.shift_find]
    cases c.states.find t <;> rfl
  rw [es, ef]
  generalize imuState K last t u = s
  change (propagatePOneStep K' { h.core d c with
      states := ((c.states.shift h.st d).insert (t + d) (h.st s)).1
      itImu := ((c.states.shift h.st d).insert (t + d) (h.st s)).2 } >>= fun c1 =>
        published c1 (c.states.find t).isSome (h.st s)
          ((c.states.shift h.st d).insert (t + d) (h.st s)).2 >>= fun cur =>
            imuEnd (env.shift d) K' c1 (t + d) cur) = _
  rw [map_insert]
  have e1 := map_propagatePOneStep h d { c with states := (c.states.insert t s).1,
                                                itImu := (c.states.insert t s).2 }
  have hc0 : Core.TimesIn S { c with states := (c.states.insert t s).1,
                                     itImu := (c.states.insert t s).2 } :=
    ⟨hc.states.insert ht s, hc.meas, hc.queue, hc.out⟩
  change (propagatePOneStep K' (h.core d { c with states := (c.states.insert t s).1,
                                                  itImu := (c.states.insert t s).2 }) >>= _) = _
  rw [e1]
  refine bind_shift fun c1 hc1 => ?_
  rw [map_published]
  exact bind_shift fun cur _ => map_imuEnd h d env hS (hc0.propagatePOneStep c1 hc1) ht cur

theorem map_processIMU {c : Core A W X C M T} (env : Env) (hS : Shiftable d S) (hc : c.TimesIn S)
    {t : ℚ} (ht : t ∈ S) (u : Input A W) :
    processIMU (env.shift d) K' (h.core d c) (t + d) u =
      (processIMU env K c t u).map (h.core d) := by
  rw [processIMU_form, processIMU_form]
  by_cases hi : c.inited = false
  · rw [if_pos hi, if_pos (show (h.core d c).inited = false from hi)]; rfl
  · rw [if_neg hi, if_neg (show ¬ (h.core d c).inited = false from hi)]
    have e : imuStart (env.shift d) (h.core d c) (t + d) = (imuStart env c t).map (Iter.shift d) := by
      unfold imuStart
      by_cases hf : c.itImu = .fin
      · rw [if_pos hf, if_pos (show (h.core d c).itImu = .fin from (Iter.shift_fin d _).2 hf)]
        exact Buf.shift_iterClosestBefore _ _ _ _ _
      · rw [if_neg hf, if_neg (show ¬ (h.core d c).itImu = .fin from
          fun e => hf ((Iter.shift_fin d _).1 e))]
        rfl
    rw [e]
    refine bind_shift fun it _ => ?_
    change ((c.states.shift h.st d).deref (it.shift d) >>= _) = _
    rw [Buf.shift_deref]
    refine bind_shift fun last hl => ?_
    unfold imuBody
    simp only [Node.shift_key, (hS last.key (hc.states.deref hl)).1, add_sub_add_right_eq_sub,
      h.spike]
    split
    · rfl
    · by_cases k1 : t - last.key < -(1 / 100) ∧ c.predMade = true
      · rw [if_pos k1, if_pos (show t - last.key < -(1 / 100) ∧ (h.core d c).predMade = true from k1)]
        rfl
      · rw [if_neg k1,
          if_neg (show ¬ (t - last.key < -(1 / 100) ∧ (h.core d c).predMade = true) from k1)]
        by_cases k2 : c.predMade = false ∧ |t - last.key| > 1 / 10
        · rw [if_pos k2,
            if_pos (show (h.core d c).predMade = false ∧ |t - last.key| > 1 / 10 from k2)]
          have eu := Buf.shift_updateTime h.st d c.states last.key t
          change Except.ok ({ h.core d c with
            itImu := it.shift d
            lastAmImu := _
            states := ((c.states.shift h.st d).updateTime (last.key + d) (t + d)).1
            tP := t + d } : Core A W X' C' M' T') = _
          rw [eu]
          rfl
        · rw [if_neg k2,
            if_neg (show ¬ ((h.core d c).predMade = false ∧ |t - last.key| > 1 / 10) from k2)]
          have hc0 : Core.TimesIn S { c with
              itImu := it, lastAmImu := if K.spike u.a = true then c.lastAmImu else last.val.u.a } :=
            ⟨hc.states, hc.meas, hc.queue, hc.out⟩
          exact map_imuPropagate h d env hS hc0 last ht _

theorem map_extEnd {c : Core A W X C M T} (env : Env) (hS : Shiftable d S) (hc : c.TimesIn S)
    {t : ℚ} (ht : t ∈ S) (s : St A W X C) :
    extEnd (env.shift d) K' (h.core d c) (t + d) (h.st s) = (extEnd env K c t s).map (h.core d) := by
  unfold extEnd
  have ef : ((h.core d c).states.find (t + d)).isSome = (c.states.find t).isSome := by
    change ((c.states.shift h.st d).find (t + d)).isSome = _
    rw [Buf.shift_find]
    cases c.states.find t <;> rfl
  rw [ef]
  change (propagatePOneStep K' { h.core d c with
      states := ((c.states.shift h.st d).insert (t + d) (h.st s)).1 } >>= fun c1 =>
        published c1 (c.states.find t).isSome (h.st s)
          ((c.states.shift h.st d).insert (t + d) (h.st s)).2 >>= fun cur =>
            handlePending (env.shift d) K' { c1 with
              predMade := true
              out := c1.out ++ [.afterPropagation (t + d) cur.x cur.P] }) = _
  rw [map_insert]
  have e1 := map_propagatePOneStep h d { c with states := (c.states.insert t s).1 }
  have hc0 : Core.TimesIn S { c with states := (c.states.insert t s).1 } :=
    ⟨hc.states.insert ht s, hc.meas, hc.queue, hc.out⟩
  change (propagatePOneStep K' (h.core d { c with states := (c.states.insert t s).1 }) >>= _) = _
  rw [e1]
  refine bind_shift fun c1 hc1 => ?_
  rw [map_published]
  refine bind_shift fun cur _ => ?_
  have h1 := hc0.propagatePOneStep (K := K) c1 hc1
  have hc2 : Core.TimesIn S { c1 with
      predMade := true, out := c1.out ++ [Event.afterPropagation t cur.x cur.P] } :=
    ⟨h1.states, h1.meas, h1.queue, TimesIn.out_snoc h1.out ht⟩
  have eo : (h.core d c1).out ++ [Event.afterPropagation (t + d) (h.st cur).x (h.st cur).P] =
      (c1.out ++ [Event.afterPropagation t cur.x cur.P]).map (h.event d) := by
    rw [List.map_append]; rfl
  rw [eo]
  exact map_handlePending h d env hS hc2

theorem map_processExternal {c : Core A W X C M T} (env : Env) (hS : Shiftable d S)
    (hc : c.TimesIn S) {t : ℚ} (ht : t ∈ S) (u : Input A W) (e : Option E) :
    processExternal (env.shift d) K' (h.core d c) (t + d) u (e.map h.e) =
      (processExternal env K c t u e).map (h.core d) := by
  rw [processExternal_form, processExternal_form]
  by_cases hi : c.inited = false
  · rw [if_pos hi, if_pos (show (h.core d c).inited = false from hi)]; rfl
  · rw [if_neg hi, if_neg (show ¬ (h.core d c).inited = false from hi)]
    have el : (h.core d c).states.last = c.states.last.map (Node.shift h.st d) :=
      Buf.shift_last _ _ _
    rw [el]
    cases hl : c.states.last with
    | none => rfl
    | some last =>
      have hlS := hc.states last (List.mem_of_getLast? hl)
      dsimp only [Option.map_some]
      have eu : extInput K' (h.core d c) u = extInput K c u := by
        simp only [extInput, h.spike]
        rfl
      have em : extMean K' (last.shift h.st d) (t + d) (extInput K c u) (e.map h.e) =
          h.x (extMean K last t (extInput K c u) e) := by
        cases e with
        | none =>
          simp only [extMean, Option.map_none, Node.shift_key, Node.shift_val,
            add_sub_add_right_eq_sub, KHom.st, h.prop]
        | some e => exact h.extProp _ _
      rw [eu, em]
      simp only [Node.shift_key, (hS last.key hlS).1, add_sub_add_right_eq_sub]
      split
      · rfl
      · by_cases k1 : c.predMade = false ∧ |t - last.key| > 5
        · rw [if_pos k1, if_pos (show (h.core d c).predMade = false ∧ |t - last.key| > 5 from k1)]
          have eu := Buf.shift_updateTime h.st d c.states last.key t
          change Except.ok ({ h.core d c with
            lastAmExt := _
            states := ((c.states.shift h.st d).updateTime (last.key + d) (t + d)).1 } :
            Core A W X' C' M' T') = _
          rw [eu]
          rfl
        · rw [if_neg k1,
            if_neg (show ¬ ((h.core d c).predMade = false ∧ |t - last.key| > 5) from k1)]
          by_cases k2 : c.predMade = false
          · rw [if_pos k2, if_pos (show (h.core d c).predMade = false from k2)]
            have hc0 : Core.TimesIn S { c with
                lastAmExt := (extInput K c u).a, tP := t, states := c.states.clear
                meas := c.meas.clear, queue := [] } :=
              ⟨Buf.KeysIn.clear _, Buf.KeysIn.clear _, by simp, hc.out⟩
            exact map_extEnd h d env hS hc0 ht
              ⟨extInput K c u, extMean K last t (extInput K c u) e, last.val.P⟩
          · rw [if_neg k2, if_neg (show ¬ (h.core d c).predMade = false from k2)]
            have hc0 : Core.TimesIn S { c with lastAmExt := (extInput K c u).a } :=
              ⟨hc.states, hc.meas, hc.queue, hc.out⟩
            rw [h.P0]
            exact map_extEnd h d env hS hc0 ht
              ⟨extInput K c u, extMean K last t (extInput K c u) e, K.P0⟩

omit [AddCommGroup A] [Module ℚ A] [AddCommGroup W] [Module ℚ W] in
theorem map_init (c : Core A W X C M T) (t : ℚ) (s : St A W X C) :
    init K' (h.core d c) (t + d) (h.st s) = h.core d (init K c t s) := by
  unfold init
  have e := map_insert h d c.states.clear t s
  change ({ h.core d c with
    inited := true
    predMade := false
    meas := (h.core d c).meas.clear
    states := ((c.states.clear.shift h.st d).insert (t + d) (h.st s)).1
    tracker := K'.tr0
    queue := []
    out := (h.core d c).out ++ [.initial (t + d) (h.st s).x (h.st s).P]
    itImu := ((c.states.clear.shift h.st d).insert (t + d) (h.st s)).2
    tP := t + d } : Core A W X' C' M' T') = _
  rw [e, h.tr0]
  simp only [KHom.core, List.map_append]
  rfl

theorem map_api {c : Core A W X C M T} (env : Env) (hS : Shiftable d S) (hc : c.TimesIn S)
    {o : Api A W X C M E} (ho : o.time ∈ S) :
    Core.api (env.shift d) K' (h.core d c) (h.api d o) = (Core.api env K c o).map (h.core d) := by
  cases o with
  | init t s =>
    change Except.ok (init K' (h.core d c) (t + d) (h.st s)) = _
    rw [map_init]
    rfl
  | imu t u => exact map_processIMU h d env hS hc ho u
  | ext t u e => exact map_processExternal h d env hS hc ho u e
  | meas m => exact map_addMeasurement h d env hS hc ho

theorem map_apis (env : Env) (hS : Shiftable d S) (os : List (Api A W X C M E)) :
    ∀ (c : Core A W X C M T) (_ : c.TimesIn S) (_ : ∀ o ∈ os, o.time ∈ S),
    Core.apis (env.shift d) K' (h.core d c) (os.map (h.api d)) =
      (Core.apis env K c os).map (h.core d) := by
  induction os with
  | nil => intro c _ _; rfl
  | cons o os ih =>
    intro c hc ho
    have ho1 := ho o (List.mem_cons_self ..)
    change (Core.api (env.shift d) K' (h.core d c) (h.api d o) >>= fun c1 =>
      Core.apis (env.shift d) K' c1 (os.map (h.api d))) =
      (Core.api env K c o >>= fun c1 => Core.apis env K c1 os).map (h.core d)
    rw [map_api h d env hS hc ho1]
    exact bind_shift fun c1 hc1 => ih c1 (hc.api env ho1 c1 hc1)
      fun o' ho' => ho o' (List.mem_cons_of_mem _ ho')

end Core
end MSF
