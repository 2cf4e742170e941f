import Verif.Lemmas.KernelQuot
import Verif.Lemmas.RelMap

/-! Runs with relative measurements on equivalent inputs, as in `Verif.Lemmas.KernelQuot`. -/

namespace MSF

open Core

variable {A W X C F M T E : Type}

/-- The operations of a kernel with relative measurements respect equivalences. -/
structure RCongr [AddCommGroup A] [Module ℚ A] [AddCommGroup W] [Module ℚ W]
    (R : RelKernel A W X C F M T E) (rx : Setoid X) (rm : Setoid M) (re : Setoid E) : Prop where
  kernel : KCongr R.toKernel rx rm re
  fd : ∀ dt u s s', rx s s' → R.fd dt u s = R.fd dt u s'
  isRel : ∀ m m', rm m m' → R.isRel m = R.isRel m'
  cast : ∀ m m', rm m m' → R.cast m = R.cast m'
  clear : ∀ m m' P, rm m m' → R.clear m P = R.clear m' P
  relUpdate : ∀ tr m1 m1' m2 m2' xo xo' Po G s s' P, rm m1 m1' → rm m2 m2' → rx xo xo' → rx s s' →
    (R.relUpdate tr m1 m2 xo Po G s P).tr = (R.relUpdate tr m1' m2' xo' Po G s' P).tr ∧
    rx (R.relUpdate tr m1 m2 xo Po G s P).x (R.relUpdate tr m1' m2' xo' Po G s' P).x ∧
    (R.relUpdate tr m1 m2 xo Po G s P).P = (R.relUpdate tr m1' m2' xo' Po G s' P).P ∧
    (R.relUpdate tr m1 m2 xo Po G s P).applied = (R.relUpdate tr m1' m2' xo' Po G s' P).applied ∧
    (R.relUpdate tr m1 m2 xo Po G s P).fuzzy = (R.relUpdate tr m1' m2' xo' Po G s' P).fuzzy

namespace RCongr
variable [AddCommGroup A] [Module ℚ A] [AddCommGroup W] [Module ℚ W]
variable {R : RelKernel A W X C F M T E} {rx : Setoid X} {rm : Setoid M} {re : Setoid E}

/-- The kernel on classes. -/
noncomputable def quot (h : RCongr R rx rm re) :
    RelKernel A W (Quotient rx) C F (Quotient rm) T (Quotient re) :=
  { h.kernel.quot with
    fd := fun dt u s => Quotient.lift (R.fd dt u) (fun _ _ hs => h.fd _ _ _ _ hs) s
    fd0 := R.fd0
    mulF := R.mulF
    isRel := Quotient.lift R.isRel fun _ _ hm => h.isRel _ _ hm
    cast := Quotient.lift R.cast fun _ _ hm => h.cast _ _ hm
    clear := fun m P => Quotient.lift (R.clear · P) (fun _ _ hm => h.clear _ _ _ hm) m
    relUpdate := fun tr m1 m2 xo Po G s P =>
      let r := R.relUpdate tr m1.out m2.out xo.out Po G s.out P
      ⟨r.tr, Quotient.mk rx r.x, r.P, r.applied, r.fuzzy⟩ }

/-- Taking classes. -/
noncomputable def hom (h : RCongr R rx rm re) : RHom (fun _ => True) R h.quot :=
  { h.kernel.hom with
    g := id
    fd := fun _ _ _ => rfl
    fd0 := rfl
    mulF := fun _ _ => rfl
    isRel := fun _ _ => rfl
    cast := fun _ _ => rfl
    clear := fun _ _ _ _ => rfl
    relUpdate := fun m1 m2 _ _ _ _ _ tr xo Po G s P => by
      obtain ⟨h1, h2, h3, h4, h5⟩ := h.relUpdate tr _ _ _ _ _ _ (R.clear m2.body Po) G _ _ (R.clear m2.body P)
        (Quotient.mk_out (s := rm) m1.body) (Quotient.mk_out (s := rm) m2.body)
        (Quotient.mk_out (s := rx) xo) (Quotient.mk_out (s := rx) s)
      have e : ∀ {t t' : T} {x x' : X} {P P' : C} {a a' f f' : Bool}, t = t' → rx x x' → P = P' → a = a' →
          f = f' → (⟨t, Quotient.mk rx x, P, a, f⟩ : Upd (Quotient rx) C T) =
            ⟨t', Quotient.mk rx x', P', a', f'⟩ := by
        intro t t' x x' P P' a a' f f' e1 e2 e3 e4 e5
        subst e1 e3 e4 e5
        rw [Quotient.sound e2]
      exact e h1 h2 h3 h4 h5 }

theorem api_eq (h : RCongr R rx rm re) {o o' : Api A W X (C × F) M E} (ho : Api.Equiv rx rm re o o') :
    h.hom.pair.api 0 o = h.hom.pair.api 0 o' := by
  cases ho with
  | init t u x x' P hx =>
    exact congrArg (fun y => Api.init (t + 0) (⟨u, y, P⟩ : St A W (Quotient rx) (C × F))) (Quotient.sound hx)
  | imu => rfl
  | ext t u e e' he =>
    exact congrArg (fun y => Api.ext (t + 0) u (some y)) (Quotient.sound he)
  | noExt => rfl
  | meas t s m m' hm =>
    exact congrArg (fun y => Api.meas (⟨t + 0, s, y⟩ : Meas (Quotient rm))) (Quotient.sound hm)

theorem event_eq (h : RCongr R rx rm re) {o o' : Event X (C × F)}
    (ho : h.hom.pair.event 0 o = h.hom.pair.event 0 o') : Event.Equiv rx o o' := by
  cases o with
  | initial t x P =>
    cases o' with
    | initial t' x' P' =>
      change Event.initial (t + 0) (Quotient.mk rx x) P = Event.initial (t' + 0) (Quotient.mk rx x') P' at ho
      simp only [add_zero, Event.initial.injEq] at ho
      obtain ⟨rfl, hx, rfl⟩ := ho
      exact .initial _ _ _ _ (Quotient.exact hx)
    | afterPropagation => cases ho
    | afterUpdate => cases ho
  | afterPropagation t x P =>
    cases o' with
    | afterPropagation t' x' P' =>
      change Event.afterPropagation (t + 0) (Quotient.mk rx x) P =
        Event.afterPropagation (t' + 0) (Quotient.mk rx x') P' at ho
      simp only [add_zero, Event.afterPropagation.injEq] at ho
      obtain ⟨rfl, hx, rfl⟩ := ho
      exact .afterPropagation _ _ _ _ (Quotient.exact hx)
    | initial => cases ho
    | afterUpdate => cases ho
  | afterUpdate t x P =>
    cases o' with
    | afterUpdate t' x' P' =>
      change Event.afterUpdate (t + 0) (Quotient.mk rx x) P =
        Event.afterUpdate (t' + 0) (Quotient.mk rx x') P' at ho
      simp only [add_zero, Event.afterUpdate.injEq] at ho
      obtain ⟨rfl, hx, rfl⟩ := ho
      exact .afterUpdate _ _ _ _ (Quotient.exact hx)
    | initial => cases ho
    | afterPropagation => cases ho

theorem events_eq (h : RCongr R rx rm re) : ∀ {l l' : List (Event X (C × F))},
    l.map (h.hom.pair.event 0) = l'.map (h.hom.pair.event 0) → List.Forall₂ (Event.Equiv rx) l l'
  | [], [], _ => .nil
  | [], _ :: _, e => by cases e
  | _ :: _, [], e => by cases e
  | a :: l, b :: l', e => by
    simp only [List.map_cons, List.cons.injEq] at e
    exact .cons (h.event_eq e.1) (h.events_eq e.2)

/-- Runs on equivalent calls. -/
theorem run (h : RCongr R rx rm re) (env : Env) {cs cs' : List (Api A W X (C × F) M E)}
    (hc : List.Forall₂ (Api.Equiv rx rm re) cs cs') : SameOutcome rx (R.run env cs) (R.run env cs') := by
  have hl : cs.map (h.hom.pair.api 0) = cs'.map (h.hom.pair.api 0) := by
    induction hc with
    | nil => rfl
    | cons ho _ ih => simp only [List.map_cons, h.api_eq ho, ih]
  have h1 := h.hom.run env cs (fun o _ => by cases o <;> trivial)
  have h2 := h.hom.run env cs' (fun o _ => by cases o <;> trivial)
  rw [hl, h2] at h1
  generalize R.run env cs = a at h1 ⊢
  generalize R.run env cs' = b at h1 ⊢
  cases a with
  | error e => cases b with
    | error e' => cases h1; rfl
    | ok c => cases h1
  | ok c => cases b with
    | error e' => cases h1
    | ok c' =>
      simp only [Except.map, Except.ok.injEq] at h1
      have := congrArg Core.out h1
      exact h.events_eq this.symm

end RCongr
end MSF
