import Verif.Model.Core

/-! The longer functions of the core, cut into pieces (used to reason about them step by step). -/

namespace MSF.Core
variable {A W X C M T E : Type}

/-- The bound of the re-propagation, first part of `repropagate`. -/
def stopAt (c : Core A W X C M T) : Iter → Except UB Iter
  | .fin => .ok .fin
  | .at k i => c.meas.deref (.at k i) >>= fun nm =>
      if c.states.iterClosestAfter nm.key ≠ .fin then c.states.incr (c.states.iterClosestAfter nm.key)
      else .ok (c.states.iterClosestAfter nm.key)

theorem repropagate_form (K : Kernel A W X C M T E) (c : Core A W X C M T) (k : ℚ) (it : Iter) :
    repropagate K c k it = stopAt c it >>= fun stop =>
      c.states.incr (c.states.iterAtValue k) >>= fun next =>
        propLoop K (c.states.size + 1) c (c.states.iterAtValue k) next stop := by
  unfold repropagate stopAt
  cases it with
  | fin => rfl
  | «at» k i =>
    simp only
    cases c.meas.deref (.at k i) with
    | error e => rfl
    | ok nm =>
      simp only [bind, Except.bind]
      split <;> rfl

/-- The state object that is published. -/
def published (c : Core A W X C M T) (was : Bool) (s : St A W X C) (it : Iter) :
    Except UB (St A W X C) :=
  if was then .ok s else (c.states.deref it).map Node.val

variable [AddCommGroup A] [Module ℚ A] [AddCommGroup W] [Module ℚ W]

/-- End of `imuPropagate`. -/
def imuEnd (env : Env) (K : Kernel A W X C M T E) (c : Core A W X C M T) (t : ℚ)
    (cur : St A W X C) : Except UB (Core A W X C M T) :=
  if (c.predMade || decide (c.states.size > 3)) then
    handlePending env K { c with out := c.out ++ [.afterPropagation t cur.x cur.P], predMade := true }
  else .ok { c with out := c.out ++ [.afterPropagation t cur.x cur.P] }

/-- The new state object of `imuPropagate`. -/
def imuState (K : Kernel A W X C M T E) (last : Node (St A W X C)) (t : ℚ) (u : Input A W) :
    St A W X C := ⟨u, K.prop (t - last.key) last.val.u last.val.x u, K.P0⟩

theorem imuPropagate_form (env : Env) (K : Kernel A W X C M T E) (c : Core A W X C M T)
    (last : Node (St A W X C)) (t : ℚ) (u : Input A W) :
    imuPropagate env K c last t u =
      propagatePOneStep K { c with states := (c.states.insert t (imuState K last t u)).1,
                                   itImu := (c.states.insert t (imuState K last t u)).2 } >>= fun c1 =>
        published c1 (c.states.find t).isSome (imuState K last t u)
          (c.states.insert t (imuState K last t u)).2 >>= fun cur => imuEnd env K c1 t cur := by
  unfold imuPropagate
  change (propagatePOneStep K
    { c with
      states := (c.states.insert t (imuState K last t u)).1
      itImu := (c.states.insert t (imuState K last t u)).2 } >>= _) = _
  refine bind_congr fun c1 => ?_
  unfold published imuEnd
  have key : ∀ cur : St A W X C,
      (let c2 : Core A W X C M T := { c1 with out := c1.out ++ [.afterPropagation t cur.x cur.P] }
       let c3 : Core A W X C M T := if c2.states.size > 3 then { c2 with predMade := true } else c2
       if c3.predMade = true then handlePending env K c3 else pure c3) =
      if (c1.predMade || decide (c1.states.size > 3)) then
        handlePending env K
          { c1 with out := c1.out ++ [.afterPropagation t cur.x cur.P], predMade := true }
      else .ok { c1 with out := c1.out ++ [.afterPropagation t cur.x cur.P] } := by
    intro cur
    dsimp only
    by_cases h1 : c1.states.size > 3
    · simp [h1]
    · by_cases h2 : c1.predMade = true
      · simp only [h1, if_false, h2, decide_false, Bool.or_false, if_true]
      · simp only [h1, if_false, h2, decide_false, Bool.or_false]
        rfl
  cases (c.states.find t).isSome with
  | true => exact key _
  | false =>
    simp only [Bool.false_eq_true, if_false]
    exact bind_congr fun cur => key cur

/-- The iterator `ProcessIMU` starts from. -/
def imuStart (env : Env) (c : Core A W X C M T) (t : ℚ) : Except UB Iter :=
  if c.itImu = .fin then c.states.iterClosestBefore env.ps t else .ok c.itImu

/-- `processIMU` from line 108 on. -/
def imuBody (env : Env) (K : Kernel A W X C M T E) (c : Core A W X C M T)
    (last : Node (St A W X C)) (t : ℚ) (u : Input A W) : Except UB (Core A W X C M T) :=
  if last.key = invalidTime then .ok c
  else if t - last.key < -(1 / 100) ∧ c.predMade = true then
    .ok { c with inited := false, predMade := false }
  else if c.predMade = false ∧ |t - last.key| > 1 / 10 then
    .ok { c with lastAmImu := if K.spike u.a then c.lastAmImu else last.val.u.a,
                 states := (c.states.updateTime last.key t).1, tP := t }
  else imuPropagate env K { c with lastAmImu := if K.spike u.a then c.lastAmImu else last.val.u.a }
    last t (if K.spike u.a then { u with a := c.lastAmImu } else u)

theorem processIMU_form (env : Env) (K : Kernel A W X C M T E) (c : Core A W X C M T) (t : ℚ)
    (u : Input A W) :
    processIMU env K c t u =
      if c.inited = false then .ok c
      else imuStart env c t >>= fun it =>
        c.states.deref it >>= fun last => imuBody env K { c with itImu := it } last t u := by
  unfold processIMU imuStart
  by_cases hi : c.inited = false
  · rw [if_pos hi, if_pos hi]; rfl
  · rw [if_neg hi, if_neg hi]
    have key : ∀ it last, (if last.key = invalidTime then (pure { c with itImu := it } : Except UB _)
        else if t - last.key < -(1 / 100) ∧ c.predMade = true then
          pure { c with itImu := it, inited := false, predMade := false }
        else
          let spiky := K.spike u.a
          let u : Input A W := if spiky then { u with a := c.lastAmImu } else u
          let c : Core A W X C M T := if spiky then { c with itImu := it }
            else { c with itImu := it, lastAmImu := last.val.u.a }
          if c.predMade = false ∧ |t - last.key| > 1 / 10 then
            pure { c with states := (c.states.updateTime last.key t).1, tP := t }
          else imuPropagate env K c last t u) =
        imuBody env K { c with itImu := it } last t u := by
      intro it last
      unfold imuBody
      by_cases hs : K.spike u.a = true
      · simp only [hs, if_true]
        rfl
      · simp only [hs]
        rfl
    by_cases h : c.itImu = .fin
    · dsimp only
      rw [if_pos h, if_pos h]
      exact bind_congr fun it => bind_congr fun last => key it last
    · dsimp only
      rw [if_neg h, if_neg h]
      change (c.states.deref c.itImu >>= _) = (c.states.deref c.itImu >>= _)
      exact bind_congr fun last => key c.itImu last

/-- The input and mean of the new state of `processExternal`. -/
def extInput (K : Kernel A W X C M T E) (c : Core A W X C M T) (u : Input A W) : Input A W :=
  if K.spike u.a then { u with a := c.lastAmExt } else u

def extMean (K : Kernel A W X C M T E) (last : Node (St A W X C)) (t : ℚ) (u : Input A W) :
    Option E → X
  | some e => K.extProp e last.val.x
  | none => K.prop (t - last.key) last.val.u last.val.x u

/-- `processExternal` from the insertion on. -/
def extEnd (env : Env) (K : Kernel A W X C M T E) (c : Core A W X C M T) (t : ℚ)
    (s : St A W X C) : Except UB (Core A W X C M T) :=
  propagatePOneStep K { c with states := (c.states.insert t s).1 } >>= fun c1 =>
    published c1 (c.states.find t).isSome s (c.states.insert t s).2 >>= fun cur =>
      handlePending env K { c1 with predMade := true,
                                    out := c1.out ++ [.afterPropagation t cur.x cur.P] }

theorem processExternal_form (env : Env) (K : Kernel A W X C M T E) (c : Core A W X C M T) (t : ℚ)
    (u : Input A W) (ext : Option E) :
    processExternal env K c t u ext =
      if c.inited = false then .ok c
      else match c.states.last with
        | none => .ok c
        | some last =>
          if last.key = invalidTime then .ok c
          else if c.predMade = false ∧ |t - last.key| > 5 then
            .ok { c with lastAmExt := (extInput K c u).a,
                         states := (c.states.updateTime last.key t).1 }
          else if c.predMade = false then
            extEnd env K { c with lastAmExt := (extInput K c u).a, tP := t, states := c.states.clear,
                                  meas := c.meas.clear, queue := [] } t
              ⟨extInput K c u, extMean K last t (extInput K c u) ext, last.val.P⟩
          else extEnd env K { c with lastAmExt := (extInput K c u).a } t
            ⟨extInput K c u, extMean K last t (extInput K c u) ext, K.P0⟩ := by
  unfold processExternal
  by_cases hi : c.inited = false
  · rw [if_pos hi, if_pos hi]; rfl
  · rw [if_neg hi, if_neg hi]
    cases c.states.last with
    | none => rfl
    | some last =>
      dsimp only
      by_cases hl : last.key = invalidTime
      · rw [if_pos hl, if_pos hl]; rfl
      · rw [if_neg hl, if_neg hl]
        by_cases h5 : c.predMade = false ∧ |t - last.key| > 5
        · rw [if_pos h5, if_pos h5]; rfl
        · rw [if_neg h5, if_neg h5]
          by_cases hp : c.predMade = false
          · rw [if_pos hp, if_pos hp]
            cases ext with
            | some e =>
              refine bind_congr fun c1 => ?_
              unfold published
              dsimp only
              cases hf : (c.states.clear.find t).isSome <;> rfl
            | none =>
              refine bind_congr fun c1 => ?_
              unfold published
              dsimp only
              cases hf : (c.states.clear.find t).isSome <;> rfl
          · rw [if_neg hp, if_neg hp]
            cases ext with
            | some e =>
              refine bind_congr fun c1 => ?_
              unfold published
              dsimp only
              cases hf : (c.states.find t).isSome <;> rfl
            | none =>
              refine bind_congr fun c1 => ?_
              unfold published
              dsimp only
              cases hf : (c.states.find t).isSome <;> rfl

end MSF.Core
