import Verif.Model.Relative
import Verif.Lemmas.CoreForms

/-! The longer functions of the core with relative measurements, cut into pieces. -/

namespace MSF.Flow
variable {A W X C M T E : Type}
variable [AddCommGroup A] [Module ℚ A] [AddCommGroup W] [Module ℚ W]

/-- End of `imuPropagate`. -/
def imuEnd (env : Env) (f : Flow A W X C M T E) (c : Core A W X C M T) (t : ℚ)
    (cur : St A W X C) : Except UB (Core A W X C M T) :=
  if (c.predMade || decide (c.states.size > 3)) then
    handlePending env f { c with out := c.out ++ [.afterPropagation t cur.x cur.P], predMade := true }
  else .ok { c with out := c.out ++ [.afterPropagation t cur.x cur.P] }

theorem imuPropagate_form (env : Env) (f : Flow A W X C M T E) (c : Core A W X C M T)
    (last : Node (St A W X C)) (t : ℚ) (u : Input A W) :
    imuPropagate env f c last t u =
      propagatePOneStep f { c with states := (c.states.insert t (Core.imuState f.toKernel last t u)).1,
                                   itImu := (c.states.insert t (Core.imuState f.toKernel last t u)).2 } >>= fun c1 =>
        Core.published c1 (c.states.find t).isSome (Core.imuState f.toKernel last t u)
          (c.states.insert t (Core.imuState f.toKernel last t u)).2 >>= fun cur => imuEnd env f c1 t cur := by
  unfold imuPropagate
  change (propagatePOneStep f
    { c with
      states := (c.states.insert t (Core.imuState f.toKernel last t u)).1
      itImu := (c.states.insert t (Core.imuState f.toKernel last t u)).2 } >>= _) = _
  refine bind_congr fun c1 => ?_
  unfold Core.published imuEnd
  have key : ∀ cur : St A W X C,
      (let c2 : Core A W X C M T := { c1 with out := c1.out ++ [.afterPropagation t cur.x cur.P] }
       let c3 : Core A W X C M T := if c2.states.size > 3 then { c2 with predMade := true } else c2
       if c3.predMade = true then handlePending env f c3 else pure c3) =
      if (c1.predMade || decide (c1.states.size > 3)) then
        handlePending env f
          { c1 with out := c1.out ++ [.afterPropagation t cur.x cur.P], predMade := true }
      else .ok { c1 with out := c1.out ++ [.afterPropagation t cur.x cur.P] } := by
    intro cur
    dsimp only
    by_cases h1 : c1.states.size > 3
    · simp [h1]
    · by_cases h2 : c1.predMade = true
      · simp only [h1, if_false, h2, decide_false, Bool.or_false, if_true]
      · simp only [h1, if_false, h2, decide_false, Bool.or_false]
        rfl
  cases (c.states.find t).isSome with
  | true => exact key _
  | false =>
    simp only [Bool.false_eq_true, if_false]
    exact bind_congr fun cur => key cur

/-- `processIMU` from line 108 on. -/
def imuBody (env : Env) (f : Flow A W X C M T E) (c : Core A W X C M T)
    (last : Node (St A W X C)) (t : ℚ) (u : Input A W) : Except UB (Core A W X C M T) :=
  if last.key = invalidTime then .ok c
  else if t - last.key < -(1 / 100) ∧ c.predMade = true then
    .ok { c with inited := false, predMade := false }
  else if c.predMade = false ∧ |t - last.key| > 1 / 10 then
    .ok { c with lastAmImu := if f.spike u.a then c.lastAmImu else last.val.u.a,
                 states := (c.states.updateTime last.key t).1, tP := t }
  else imuPropagate env f { c with lastAmImu := if f.spike u.a then c.lastAmImu else last.val.u.a }
    last t (if f.spike u.a then { u with a := c.lastAmImu } else u)

theorem processIMU_form (env : Env) (f : Flow A W X C M T E) (c : Core A W X C M T) (t : ℚ)
    (u : Input A W) :
    processIMU env f c t u =
      if c.inited = false then .ok c
      else Core.imuStart env c t >>= fun it =>
        c.states.deref it >>= fun last => imuBody env f { c with itImu := it } last t u := by
  unfold processIMU Core.imuStart
  by_cases hi : c.inited = false
  · rw [if_pos hi, if_pos hi]; rfl
  · rw [if_neg hi, if_neg hi]
    have key : ∀ it last, (if last.key = invalidTime then (pure { c with itImu := it } : Except UB _)
        else if t - last.key < -(1 / 100) ∧ c.predMade = true then
          pure { c with itImu := it, inited := false, predMade := false }
        else
          let spiky := f.spike u.a
          let u : Input A W := if spiky then { u with a := c.lastAmImu } else u
          let c : Core A W X C M T := if spiky then { c with itImu := it }
            else { c with itImu := it, lastAmImu := last.val.u.a }
          if c.predMade = false ∧ |t - last.key| > 1 / 10 then
            pure { c with states := (c.states.updateTime last.key t).1, tP := t }
          else imuPropagate env f c last t u) =
        imuBody env f { c with itImu := it } last t u := by
      intro it last
      unfold imuBody
      by_cases hs : f.spike u.a = true
      · simp only [hs, if_true]
        rfl
      · simp only [hs]
        rfl
    by_cases h : c.itImu = .fin
    · dsimp only
      rw [if_pos h, if_pos h]
      exact bind_congr fun it => bind_congr fun last => key it last
    · dsimp only
      rw [if_neg h, if_neg h]
      change (c.states.deref c.itImu >>= _) = (c.states.deref c.itImu >>= _)
      exact bind_congr fun last => key c.itImu last

/-- `processExternal` from the insertion on. -/
def extEnd (env : Env) (f : Flow A W X C M T E) (c : Core A W X C M T) (t : ℚ)
    (s : St A W X C) : Except UB (Core A W X C M T) :=
  propagatePOneStep f { c with states := (c.states.insert t s).1 } >>= fun c1 =>
    Core.published c1 (c.states.find t).isSome s (c.states.insert t s).2 >>= fun cur =>
      handlePending env f { c1 with predMade := true,
                                    out := c1.out ++ [.afterPropagation t cur.x cur.P] }

theorem processExternal_form (env : Env) (f : Flow A W X C M T E) (c : Core A W X C M T) (t : ℚ)
    (u : Input A W) (ext : Option E) :
    processExternal env f c t u ext =
      if c.inited = false then .ok c
      else match c.states.last with
        | none => .ok c
        | some last =>
          if last.key = invalidTime then .ok c
          else if c.predMade = false ∧ |t - last.key| > 5 then
            .ok { c with lastAmExt := (Core.extInput f.toKernel c u).a,
                         states := (c.states.updateTime last.key t).1 }
          else if c.predMade = false then
            extEnd env f { c with lastAmExt := (Core.extInput f.toKernel c u).a, tP := t, states := c.states.clear,
                                  meas := c.meas.clear, queue := [] } t
              ⟨Core.extInput f.toKernel c u, Core.extMean f.toKernel last t (Core.extInput f.toKernel c u) ext, last.val.P⟩
          else extEnd env f { c with lastAmExt := (Core.extInput f.toKernel c u).a } t
            ⟨Core.extInput f.toKernel c u, Core.extMean f.toKernel last t (Core.extInput f.toKernel c u) ext, f.P0⟩ := by
  unfold processExternal
  by_cases hi : c.inited = false
  · rw [if_pos hi, if_pos hi]; rfl
  · rw [if_neg hi, if_neg hi]
    cases c.states.last with
    | none => rfl
    | some last =>
      dsimp only
      by_cases hl : last.key = invalidTime
      · rw [if_pos hl, if_pos hl]; rfl
      · rw [if_neg hl, if_neg hl]
        by_cases h5 : c.predMade = false ∧ |t - last.key| > 5
        · rw [if_pos h5, if_pos h5]; rfl
        · rw [if_neg h5, if_neg h5]
          by_cases hp : c.predMade = false
          · rw [if_pos hp, if_pos hp]
            cases ext with
            | some e =>
              refine bind_congr fun c1 => ?_
              unfold Core.published
              dsimp only
              cases hf : (c.states.clear.find t).isSome <;> rfl
            | none =>
              refine bind_congr fun c1 => ?_
              unfold Core.published
              dsimp only
              cases hf : (c.states.clear.find t).isSome <;> rfl
          · rw [if_neg hp, if_neg hp]
            cases ext with
            | some e =>
              refine bind_congr fun c1 => ?_
              unfold Core.published
              dsimp only
              cases hf : (c.states.find t).isSome <;> rfl
            | none =>
              refine bind_congr fun c1 => ?_
              unfold Core.published
              dsimp only
              cases hf : (c.states.find t).isSome <;> rfl

end MSF.Flow
