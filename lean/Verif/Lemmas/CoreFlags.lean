import Verif.Lemmas.CoreTimes

/-! How `initialized_` and `predictionMade_` change. -/

namespace MSF
namespace Core
variable {A W X C M T E : Type}

/-- The two flags of the core. -/
structure Flags (i p : Bool) (c : Core A W X C M T) : Prop where
  inited : c.inited = i
  pred : c.predMade = p

section
variable {i p : Bool} {c : Core A W X C M T} {K : Kernel A W X C M T E}

theorem Flags.predictCov (h : c.Flags i p) (o n : Node (St A W X C)) :
    (predictCov K c o n).Flags i p := by
  unfold Core.predictCov
  split
  · exact h
  · exact ⟨h.1, h.2⟩

theorem Flags.propagatePOneStep (hK : ∀ x, K.numPos x = true) (h : c.Flags i p) :
    Post (propagatePOneStep K c) (Flags i p) := by
  unfold Core.propagatePOneStep
  refine Post.bind fun next _ => ?_
  split
  · exact Post.ret h
  · refine Post.bind fun o _ => Post.bind fun n _ => ?_
    have h' := h.predictCov (K := K) o n
    simp only [hK, if_true]
    exact Post.ret h'

theorem Flags.propPLoop (t : ℚ) (fuel : Nat) : ∀ {c : Core A W X C M T} (_ : c.Flags i p)
    (it itm : Iter), Post (propPLoop K t fuel c it itm) (Flags i p) := by
  induction fuel with
  | zero => intro c _ it itm; exact Post.err
  | succ fuel ih =>
    intro c h it itm
    unfold Core.propPLoop
    split
    · exact Post.ok h
    · refine Post.bind fun n _ => ?_
      split
      · exact Post.bind fun m _ => Post.bind fun i _ => Post.bind fun j _ =>
          ih (h.predictCov m n) i j
      · exact Post.ret h

theorem Flags.propPToState (h : c.Flags i p) (t : ℚ) : Post (propPToState K c t) (Flags i p) := by
  unfold Core.propPToState
  exact Post.bind fun i _ => Flags.propPLoop t _ h _ _

theorem Flags.cleanUp (h : c.Flags i p) (env : Env) : Post (cleanUp env c) (Flags i p) := by
  unfold Core.cleanUp
  exact Post.bind fun s hs => Post.bind fun m hm => Post.ret ⟨h.1, h.2⟩

theorem Flags.propLoop (fuel : Nat) : ∀ {c : Core A W X C M T} (_ : c.Flags i p)
    (cur next stop : Iter), Post (propLoop K fuel c cur next stop) (fun r => r.1.Flags i p) := by
  induction fuel with
  | zero => intro c _ _ _ _; exact Post.err
  | succ fuel ih =>
    intro c h cur next stop
    unfold Core.propLoop
    split
    · exact Post.ok h
    · refine Post.bind fun a _ => Post.bind fun b _ => ?_
      split
      · exact Post.ret h
      · split
        · exact Post.ret h
        · refine Post.bind fun i _ => Post.bind fun j _ => ih ?_ i j stop
          exact ⟨h.1, h.2⟩

theorem Flags.repropagate (h : c.Flags i p) (k : ℚ) (it : Iter) :
    Post (repropagate K c k it) (fun r => r.1.Flags i p) := by
  rw [repropagate_form]
  exact Post.bind fun a _ => Post.bind fun b _ => Flags.propLoop _ h _ _ _

theorem Flags.finishMeas (h : c.Flags i p) : Post (finishMeas K c) (Flags i p) := by
  unfold Core.finishMeas
  refine Post.bind fun c1 hc1 => ?_
  have h1 := h.propPToState _ c1 hc1
  split
  · exact Post.ret h1
  · exact Post.ret ⟨h1.1, h1.2⟩

variable [AddCommGroup A] [Module ℚ A] [AddCommGroup W] [Module ℚ W]

theorem Flags.interpolate (h : c.Flags i p) (n : Node (St A W X C)) (t : ℚ) :
    (interpolate K c n t).1.Flags i p := by
  unfold Core.interpolate
  split
  · split
    · split
      · exact ⟨h.1, h.2⟩
      · exact h
    · exact h
  · exact h

theorem Flags.getClosestState (h : c.Flags i p) (env : Env) (t : ℚ) :
    Post (getClosestState env K c t) (fun r => r.1.Flags i p) := by
  unfold Core.getClosestState
  refine Post.bind fun it _ => Post.bind fun n _ => ?_
  split
  · exact Post.ret h
  · have h1 := h.interpolate (K := K) n t
    generalize Core.interpolate K c n t = r at h1 ⊢
    obtain ⟨c1, it⟩ := r
    simp only at h1 ⊢
    refine Post.bind fun n1 _ => Post.bind fun c2 hc2 => Post.bind fun n2 hn2 => ?_
    have h2 := h1.propPToState _ c2 hc2
    split
    · split
      · refine Post.bind fun c3 hc3 => Post.ret ?_
        exact Flags.cleanUp (c := { c2 with janitor := 0 }) ⟨h2.1, h2.2⟩ env c3 hc3
      · exact Post.ret ⟨h2.1, h2.2⟩
    · exact Post.ret h2

theorem Flags.measLoop (env : Env) (fuel : Nat) : ∀ {c : Core A W X C M T} (_ : c.Flags i p)
    (it : Iter) (ap : Bool), Post (measLoop env K fuel c it ap) (fun r => r.1.Flags i p) := by
  induction fuel with
  | zero => intro c _ _ _; exact Post.err
  | succ fuel ih =>
    intro c h it ap
    unfold Core.measLoop
    split
    · exact Post.ok h
    · refine Post.bind fun m hm => ?_
      split
      · exact Post.bind fun i _ => ih h i ap
      · refine Post.bind fun r hr => ?_
        have h1 := h.getClosestState env _ r hr
        obtain ⟨c1, st⟩ := r
        simp only at h1 ⊢
        cases st with
        | none => exact Post.bind fun i _ => ih h1 i ap
        | some s =>
          simp only
          split
          · exact Post.bind fun i _ => ih h1 i ap
          · refine Post.bind fun m2 _ => Post.bind fun i _ => Post.bind fun r2 hr2 => ?_
            have h2 := Flags.repropagate (c := applyMeas K c1 m2.val s) ⟨h1.1, h1.2⟩ s.key i r2 hr2
            split
            · exact Post.ret h2
            · exact ih h2 i true

theorem Flags.addMeasurement (h : c.Flags i p) (env : Env) (m : Meas M) :
    Post (addMeasurement env K c m) (Flags i p) := by
  unfold Core.addMeasurement
  split
  · exact Post.ret h
  · split
    · exact Post.ret ⟨h.1, h.2⟩
    · split
      · exact Post.ret h
      · refine Post.bind fun r hr => ?_
        obtain ⟨c1, ap, ab⟩ := r
        have h1 : c1.Flags i p := by
          refine Flags.measLoop env _ ?_ _ _ _ hr
          exact ⟨h.1, h.2⟩
        dsimp only at h1 ⊢
        split
        · exact Post.ret h1
        · exact h1.finishMeas

theorem Flags.handlePending (h : c.Flags i p) (env : Env) :
    Post (handlePending env K c) (Flags i p) := by
  unfold Core.handlePending
  split
  · exact Post.ok h
  · refine Flags.addMeasurement ?_ env _
    exact ⟨h.1, h.2⟩

theorem Flags.imuPropagate (hK : ∀ x, K.numPos x = true) (h : c.Flags i p) (env : Env)
    (last : Node (St A W X C)) (t : ℚ) (u : Input A W) :
    Post (imuPropagate env K c last t u) (fun c' => c'.inited = i ∧ (p = true → c'.predMade = true)) := by
  rw [imuPropagate_form]
  refine Post.bind fun c1 hc1 => Post.bind fun cur _ => ?_
  have h1 : c1.Flags i p := by
    refine Flags.propagatePOneStep hK ?_ c1 hc1
    exact ⟨h.1, h.2⟩
  unfold imuEnd
  split
  · intro c' hc'
    have : c'.Flags i true := by
      refine Flags.handlePending ?_ env c' hc'
      exact ⟨h1.1, rfl⟩
    exact ⟨this.1, fun _ => this.2⟩
  · exact Post.ok ⟨h1.1, fun hp => h1.2.trans hp⟩

end
end Core
end MSF
