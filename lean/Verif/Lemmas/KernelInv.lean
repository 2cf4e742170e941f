import Verif.Props.TimeOrigin

/-!
Invariants of the numerical kernel are invariants of every run of the core.

The kernel restricted to the values that meet an invariant is again a kernel, and forgetting the
restriction is a morphism of kernels.
-/

namespace MSF

open Core

variable {A W X C M T E : Type}

/-- A property of means and covariances that all operations of a kernel keep, given a property of the
measurements and of the externally propagated states. -/
structure KernelInv (K : Kernel A W X C M T E) (Ix : X → Prop) (Ic : C → Prop) (Im : M → Prop)
    (Ie : E → Prop) : Prop where
  prop : ∀ dt u x u', Ix x → Ix (K.prop dt u x u')
  extProp : ∀ e x, Ie e → Ix x → Ix (K.extProp e x)
  predP : ∀ dt P u x, Ic P → Ix x → Ic (K.predP dt P u x)
  update : ∀ t m x P, Im m → Ix x → Ic P → Ix (K.update t m x P).x ∧ Ic (K.update t m x P).P
  P0 : Ic K.P0

/-- What a call brings in meets the invariant. -/
def Api.Meets (Ix : X → Prop) (Ic : C → Prop) (Im : M → Prop) (Ie : E → Prop) :
    Api A W X C M E → Prop
  | .init _ s => Ix s.x ∧ Ic s.P
  | .imu _ _ => True
  | .ext _ _ e => ∀ a, e = some a → Ie a
  | .meas m => Im m.body

/-- The published mean. -/
def Event.mean : Event X C → X
  | .initial _ x _ => x
  | .afterPropagation _ x _ => x
  | .afterUpdate _ x _ => x

/-- The published covariance. -/
def Event.cov : Event X C → C
  | .initial _ _ P => P
  | .afterPropagation _ _ P => P
  | .afterUpdate _ _ P => P

namespace KernelInv
variable {K : Kernel A W X C M T E} {Ix : X → Prop} {Ic : C → Prop} {Im : M → Prop} {Ie : E → Prop}

/-- The kernel on values that meet the invariant. -/
def restrict (h : KernelInv K Ix Ic Im Ie) :
    Kernel A W {x // Ix x} {P // Ic P} {m // Im m} T {e // Ie e} where
  prop dt u x u' := ⟨K.prop dt u x.1 u', h.prop _ _ _ _ x.2⟩
  extProp e x := ⟨K.extProp e.1 x.1, h.extProp _ _ e.2 x.2⟩
  predP dt P u x := ⟨K.predP dt P.1 u x.1, h.predP _ _ _ _ P.2 x.2⟩
  update t m x P :=
    ⟨(K.update t m.1 x.1 P.1).tr, ⟨_, (h.update t m.1 x.1 P.1 m.2 x.2 P.2).1⟩,
      ⟨_, (h.update t m.1 x.1 P.1 m.2 x.2 P.2).2⟩, (K.update t m.1 x.1 P.1).applied,
      (K.update t m.1 x.1 P.1).fuzzy⟩
  P0 := ⟨K.P0, h.P0⟩
  tr0 := K.tr0
  spike := K.spike
  numX x := K.numX x.1
  numPos x := K.numPos x.1

def hom (h : KernelInv K Ix Ic Im Ie) : KHom h.restrict K where
  x := Subtype.val
  c := Subtype.val
  m _ := Subtype.val
  t := id
  e := Subtype.val
  prop _ _ _ _ := rfl
  extProp _ _ := rfl
  predP _ _ _ _ := rfl
  update _ _ _ _ _ := rfl
  P0 := rfl
  tr0 := rfl
  spike _ := rfl
  numX _ := rfl
  numPos _ := rfl

theorem lift_api (h : KernelInv K Ix Ic Im Ie) (o : Api A W X C M E) (ho : o.Meets Ix Ic Im Ie) :
    ∃ o', h.hom.api 0 o' = o := by
  cases o with
  | init t s => exact ⟨.init t ⟨s.u, ⟨s.x, ho.1⟩, ⟨s.P, ho.2⟩⟩, by simp [KHom.api, KHom.st, hom]⟩
  | imu t u => exact ⟨.imu t u, by simp [KHom.api]⟩
  | ext t u e =>
    cases e with
    | none => exact ⟨.ext t u none, by simp [KHom.api]⟩
    | some a => exact ⟨.ext t u (some ⟨a, ho a rfl⟩), by simp [KHom.api, hom]⟩
  | meas m =>
    exact ⟨.meas ⟨m.time, m.sensor, ⟨m.body, ho⟩⟩, by simp [KHom.api, KHom.meas, hom]⟩

theorem lift_apis (h : KernelInv K Ix Ic Im Ie) (os : List (Api A W X C M E))
    (ho : ∀ o ∈ os, o.Meets Ix Ic Im Ie) : ∃ os' : List (Api A W _ _ _ _), os'.map (h.hom.api 0) = os := by
  induction os with
  | nil => exact ⟨[], rfl⟩
  | cons o os ih =>
    obtain ⟨o', e⟩ := h.lift_api o (ho o (List.mem_cons_self ..))
    obtain ⟨os', es⟩ := ih fun o ho' => ho o (List.mem_cons_of_mem _ ho')
    exact ⟨o' :: os', by rw [List.map_cons, e, es]⟩

variable [AddCommGroup A] [Module ℚ A] [AddCommGroup W] [Module ℚ W]

/-- Every buffered and every published state of every run meets the invariant. -/
theorem run (h : KernelInv K Ix Ic Im Ie) (env : Env) (os : List (Api A W X C M E))
    (ho : ∀ o ∈ os, o.Meets Ix Ic Im Ie) (c : Core A W X C M T)
    (hc : Core.apis env K (Core.new K) os = .ok c) :
    (∀ n ∈ c.states.nodes, Ix n.val.x ∧ Ic n.val.P) ∧ ∀ e ∈ c.out, Ix e.mean ∧ Ic e.cov := by
  obtain ⟨os', rfl⟩ := h.lift_apis os ho
  have key := map_apis h.hom 0 env (Shiftable.zero Set.univ) os' (Core.new h.restrict)
    (TimesIn.new _ _) (fun _ _ => trivial)
  have hn : h.hom.core 0 (Core.new h.restrict) = Core.new K := by
    simp [KHom.core, Core.new, Buf.shift, hom, restrict, Iter.shift]
  rw [Env.shift_zero, hn, hc] at key
  cases hx : Core.apis env h.restrict (Core.new h.restrict) os' with
  | error e => rw [hx] at key; cases key
  | ok c' =>
    rw [hx] at key
    obtain rfl : c = h.hom.core 0 c' := by cases key; rfl
    constructor
    · intro n hn
      simp only [KHom.core, Buf.shift, List.mem_map] at hn
      obtain ⟨m, -, rfl⟩ := hn
      exact ⟨m.val.x.2, m.val.P.2⟩
    · intro e he
      simp only [KHom.core, List.mem_map] at he
      obtain ⟨e', -, rfl⟩ := he
      cases e' with
      | initial t x P => exact ⟨x.2, P.2⟩
      | afterPropagation t x P => exact ⟨x.2, P.2⟩
      | afterUpdate t x P => exact ⟨x.2, P.2⟩

end KernelInv
end MSF
