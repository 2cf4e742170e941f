import Verif.Lemmas.RelMap
import Verif.Lemmas.KernelInv

/-! Invariants of the numerical operations are invariants of every run with relative measurements. -/

namespace MSF

variable {A W X C F M T E : Type}

/-- A property of means, covariances and transitions that all operations keep, given a property of the
measurements and of the externally propagated states. -/
structure RelInv (R : RelKernel A W X C F M T E) (Ix : X → Prop) (Ic : C → Prop) (Ig : F → Prop)
    (Im : M → Prop) (Ie : E → Prop) : Prop where
  kernel : KernelInv R.toKernel Ix Ic Im Ie
  fd : ∀ dt u x, Ix x → Ig (R.fd dt u x)
  fd0 : Ig R.fd0
  mulF : ∀ a b, Ig a → Ig b → Ig (R.mulF a b)
  idem : ∀ m P, R.clear m (R.clear m P) = R.clear m P
  clear : ∀ m P, Im m → R.isRel m = true → Ic P → Ic (R.clear m P)
  relUpdate : ∀ t m1 m2 xo Po G x P, Im m1 → Im m2 → R.isRel m2 = true → R.cast m1 = true →
    Ix xo → Ic Po → Ig G → Ix x → Ic P →
    Ix (R.relUpdate t m1 m2 xo (R.clear m2 Po) G x (R.clear m2 P)).x ∧
      Ic (R.relUpdate t m1 m2 xo (R.clear m2 Po) G x (R.clear m2 P)).P

namespace RelInv
variable {R : RelKernel A W X C F M T E} {Ix : X → Prop} {Ic : C → Prop} {Ig : F → Prop} {Im : M → Prop}
  {Ie : E → Prop}

/-- The operations on values that meet the invariant. -/
def restrict (h : RelInv R Ix Ic Ig Im Ie) :
    RelKernel A W {x // Ix x} {P // Ic P} {G // Ig G} {m // Im m} T {e // Ie e} :=
  { h.kernel.restrict with
    fd := fun dt u x => ⟨R.fd dt u x.1, h.fd dt u x.1 x.2⟩
    fd0 := ⟨R.fd0, h.fd0⟩
    mulF := fun a b => ⟨R.mulF a.1 b.1, h.mulF a.1 b.1 a.2 b.2⟩
    isRel := fun m => R.isRel m.1
    cast := fun m => R.cast m.1
    clear := fun m P => if hr : R.isRel m.1 = true then ⟨R.clear m.1 P.1, h.clear m.1 P.1 m.2 hr P.2⟩ else P
    relUpdate := fun t m1 m2 xo Po G x P =>
      if hr : R.isRel m2.1 = true ∧ R.cast m1.1 = true then
        have k := h.relUpdate t m1.1 m2.1 xo.1 Po.1 G.1 x.1 P.1 m1.2 m2.2 hr.1 hr.2 xo.2 Po.2 G.2 x.2 P.2
        ⟨(R.relUpdate t m1.1 m2.1 xo.1 (R.clear m2.1 Po.1) G.1 x.1 (R.clear m2.1 P.1)).tr, ⟨_, k.1⟩, ⟨_, k.2⟩,
          (R.relUpdate t m1.1 m2.1 xo.1 (R.clear m2.1 Po.1) G.1 x.1 (R.clear m2.1 P.1)).applied,
          (R.relUpdate t m1.1 m2.1 xo.1 (R.clear m2.1 Po.1) G.1 x.1 (R.clear m2.1 P.1)).fuzzy⟩
      else ⟨t, x, P, false, false⟩ }

def hom (h : RelInv R Ix Ic Ig Im Ie) : RHom (fun _ => True) h.restrict R :=
  { h.kernel.hom with
    g := Subtype.val
    fd := fun _ _ _ => rfl
    fd0 := rfl
    mulF := fun _ _ => rfl
    isRel := fun _ _ => rfl
    cast := fun _ _ => rfl
    clear := fun i b P hr => by
      change R.isRel b.1 = true at hr
      change R.clear b.1 P.1 = (if hr : R.isRel b.1 = true then
        (⟨R.clear b.1 P.1, h.clear b.1 P.1 b.2 hr P.2⟩ : {P // Ic P}) else P).1
      rw [dif_pos hr]
    relUpdate := fun m1 m2 _ _ _ hr hca tr xo Po G s P => by
      change R.isRel m2.body.1 = true at hr
      change R.cast m1.body.1 = true at hca
      have e : ∀ P : {P // Ic P}, (h.restrict.clear m2.body P).1 = R.clear m2.body.1 P.1 := by
        intro P
        change (if hr : R.isRel m2.body.1 = true then
          (⟨R.clear m2.body.1 P.1, h.clear m2.body.1 P.1 m2.body.2 hr P.2⟩ : {P // Ic P}) else P).1 = _
        rw [dif_pos hr]
      have e2 : ∀ P : {P // Ic P}, R.clear m2.body.1 (h.restrict.clear m2.body P).1 =
          R.clear m2.body.1 P.1 := fun P => by rw [e, h.idem]
      change R.relUpdate tr m1.body.1 m2.body.1 xo.1 (h.restrict.clear m2.body Po).1 G.1 s.1
        (h.restrict.clear m2.body P).1 = _
      generalize hPo : h.restrict.clear m2.body Po = Po1
      generalize hP : h.restrict.clear m2.body P = P1
      have e3 : R.clear m2.body.1 Po1.1 = Po1.1 := by rw [← hPo, e2, e]
      have e4 : R.clear m2.body.1 P1.1 = P1.1 := by rw [← hP, e2, e]
      have e5 : h.restrict.relUpdate tr m1.body m2.body xo Po1 G s P1 =
        (have k := h.relUpdate tr m1.body.1 m2.body.1 xo.1 Po1.1 G.1 s.1 P1.1 m1.body.2 m2.body.2 hr hca
          xo.2 Po1.2 G.2 s.2 P1.2
        ⟨(R.relUpdate tr m1.body.1 m2.body.1 xo.1 (R.clear m2.body.1 Po1.1) G.1 s.1
            (R.clear m2.body.1 P1.1)).tr, ⟨_, k.1⟩, ⟨_, k.2⟩,
          (R.relUpdate tr m1.body.1 m2.body.1 xo.1 (R.clear m2.body.1 Po1.1) G.1 s.1
            (R.clear m2.body.1 P1.1)).applied,
          (R.relUpdate tr m1.body.1 m2.body.1 xo.1 (R.clear m2.body.1 Po1.1) G.1 s.1
            (R.clear m2.body.1 P1.1)).fuzzy⟩) := dif_pos ⟨hr, hca⟩
      rw [e5]
      change _ = (fun r : Upd X C T => (⟨r.tr, r.x, r.P, r.applied, r.fuzzy⟩ : Upd X C T))
        (R.relUpdate tr m1.body.1 m2.body.1 xo.1 (R.clear m2.body.1 Po1.1) G.1 s.1 (R.clear m2.body.1 P1.1))
      rw [e3, e4] }

theorem lift_api (h : RelInv R Ix Ic Ig Im Ie) (o : Api A W X (C × F) M E)
    (ho : o.Meets Ix (fun P => Ic P.1 ∧ Ig P.2) Im Ie) : ∃ o', h.hom.pair.api 0 o' = o := by
  cases o with
  | init t s =>
    refine ⟨.init t ⟨s.u, ⟨s.x, ho.1⟩, (⟨s.P.1, ho.2.1⟩, ⟨s.P.2, ho.2.2⟩)⟩, ?_⟩
    exact congrArg (Api.init · s) (add_zero t)
  | imu t u => exact ⟨.imu t u, congrArg (Api.imu · u) (add_zero t)⟩
  | ext t u e =>
    cases e with
    | none => exact ⟨.ext t u none, congrArg (Api.ext · u none) (add_zero t)⟩
    | some a => exact ⟨.ext t u (some ⟨a, ho a rfl⟩), congrArg (Api.ext · u (some a)) (add_zero t)⟩
  | meas m =>
    refine ⟨.meas ⟨m.time, m.sensor, ⟨m.body, ho⟩⟩, ?_⟩
    change Api.meas ⟨m.time + 0, m.sensor, m.body⟩ = Api.meas m
    rw [add_zero]

theorem lift_apis (h : RelInv R Ix Ic Ig Im Ie) (os : List (Api A W X (C × F) M E))
    (ho : ∀ o ∈ os, o.Meets Ix (fun P => Ic P.1 ∧ Ig P.2) Im Ie) :
    ∃ os' : List (Api A W _ _ _ _), os'.map (h.hom.pair.api 0) = os := by
  induction os with
  | nil => exact ⟨[], rfl⟩
  | cons o os ih =>
    obtain ⟨o', e⟩ := h.lift_api o (ho o (List.mem_cons_self ..))
    obtain ⟨os', es⟩ := ih fun o ho' => ho o (List.mem_cons_of_mem _ ho')
    exact ⟨o' :: os', by rw [List.map_cons, e, es]⟩

variable [AddCommGroup A] [Module ℚ A] [AddCommGroup W] [Module ℚ W]

/-- Every buffered and every published state of every run meets the invariant. -/
theorem run (h : RelInv R Ix Ic Ig Im Ie) (env : Env) (os : List (Api A W X (C × F) M E))
    (ho : ∀ o ∈ os, o.Meets Ix (fun P => Ic P.1 ∧ Ig P.2) Im Ie) (c : Core A W X (C × F) M T)
    (hc : R.run env os = .ok c) :
    (∀ n ∈ c.states.nodes, Ix n.val.x ∧ Ic n.val.P.1) ∧ ∀ e ∈ c.out, Ix e.mean ∧ Ic e.cov.1 := by
  obtain ⟨os', rfl⟩ := h.lift_apis os ho
  have key := h.hom.run env os' (fun o _ => by cases o <;> trivial)
  rw [hc] at key
  cases hx : h.restrict.run env os' with
  | error e => rw [hx] at key; cases key
  | ok c' =>
    rw [hx] at key
    obtain rfl : c = h.hom.pair.core 0 c' := by cases key; rfl
    constructor
    · intro n hn
      simp only [KHom.core, Buf.shift, List.mem_map] at hn
      obtain ⟨m, -, rfl⟩ := hn
      exact ⟨m.val.x.2, m.val.P.1.2⟩
    · intro e he
      simp only [KHom.core, List.mem_map] at he
      obtain ⟨e', -, rfl⟩ := he
      cases e' with
      | initial t x P => exact ⟨x.2, P.1.2⟩
      | afterPropagation t x P => exact ⟨x.2, P.1.2⟩
      | afterUpdate t x P => exact ⟨x.2, P.1.2⟩

end RelInv
end MSF
