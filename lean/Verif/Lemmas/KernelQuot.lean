import Verif.Props.TimeOrigin
import Verif.Spec.Signs

/-!
Runs on equivalent inputs.  If the operations of a kernel respect equivalences of states, measurements
and external states, then two runs whose calls are equivalent publish equivalent states.
-/

namespace MSF

open Core

variable {A W X C M T E : Type} [AddCommGroup A] [Module ℚ A] [AddCommGroup W] [Module ℚ W]

/-- The operations of a kernel respect equivalences. -/
structure KCongr (K : Kernel A W X C M T E) (rx : Setoid X) (rm : Setoid M) (re : Setoid E) : Prop where
  prop : ∀ dt u s s' u', rx s s' → rx (K.prop dt u s u') (K.prop dt u s' u')
  extProp : ∀ e e' s s', re e e' → rx s s' → rx (K.extProp e s) (K.extProp e' s')
  predP : ∀ dt P u s s', rx s s' → K.predP dt P u s = K.predP dt P u s'
  update : ∀ tr m m' s s' P, rm m m' → rx s s' →
    (K.update tr m s P).tr = (K.update tr m' s' P).tr ∧
    rx (K.update tr m s P).x (K.update tr m' s' P).x ∧
    (K.update tr m s P).P = (K.update tr m' s' P).P ∧
    (K.update tr m s P).applied = (K.update tr m' s' P).applied ∧
    (K.update tr m s P).fuzzy = (K.update tr m' s' P).fuzzy
  numX : ∀ s s', rx s s' → K.numX s = K.numX s'
  numPos : ∀ s s', rx s s' → K.numPos s = K.numPos s'

namespace KCongr
variable {K : Kernel A W X C M T E} {rx : Setoid X} {rm : Setoid M} {re : Setoid E}

/-- The kernel on classes. -/
def quot (h : KCongr K rx rm re) :
    Kernel A W (Quotient rx) C (Quotient rm) T (Quotient re) where
  prop dt u s u' := Quotient.map (fun s => K.prop dt u s u') (fun _ _ hs => h.prop _ _ _ _ _ hs) s
  extProp e s := Quotient.map₂ K.extProp (fun _ _ he _ _ hs => h.extProp _ _ _ _ he hs) e s
  predP dt P u s := Quotient.lift (K.predP dt P u) (fun _ _ hs => h.predP _ _ _ _ _ hs) s
  update tr m s P := Quotient.lift₂
    (fun m s => (⟨(K.update tr m s P).tr, Quotient.mk rx (K.update tr m s P).x, (K.update tr m s P).P,
      (K.update tr m s P).applied, (K.update tr m s P).fuzzy⟩ : Upd (Quotient rx) C T))
    (fun m s m' s' hm hs => by
      obtain ⟨h1, h2, h3, h4, h5⟩ := h.update tr m m' s s' P hm hs
      simp only [h1, Quotient.sound h2, h3, h4, h5]) m s
  P0 := K.P0
  tr0 := K.tr0
  spike := K.spike
  numX := Quotient.lift K.numX fun _ _ hs => h.numX _ _ hs
  numPos := Quotient.lift K.numPos fun _ _ hs => h.numPos _ _ hs

/-- Taking classes. -/
def hom (h : KCongr K rx rm re) : KHom K h.quot where
  x := Quotient.mk rx
  c := id
  m _ := Quotient.mk rm
  t := id
  e := Quotient.mk re
  prop _ _ _ _ := rfl
  extProp _ _ := rfl
  predP _ _ _ _ := rfl
  update _ _ _ _ _ := rfl
  P0 := rfl
  tr0 := rfl
  spike _ := rfl
  numX _ := rfl
  numPos _ := rfl

theorem api_eq (h : KCongr K rx rm re) {o o' : Api A W X C M E} (ho : Api.Equiv rx rm re o o') :
    h.hom.api 0 o = h.hom.api 0 o' := by
  cases ho with
  | init t u x x' P hx => simp only [KHom.api, KHom.st, hom, Quotient.sound hx]
  | imu => rfl
  | ext t u e e' he => simp only [KHom.api, hom, Option.map_some, Quotient.sound he]
  | noExt => rfl
  | meas t s m m' hm => simp only [KHom.api, KHom.meas, hom, Quotient.sound hm]

theorem event_eq (h : KCongr K rx rm re) {o o' : Event X C} (ho : h.hom.event 0 o = h.hom.event 0 o') :
    Event.Equiv rx o o' := by
  cases o with
  | initial t x P =>
    cases o' with
    | initial t' x' P' =>
      simp only [KHom.event, hom, id, add_zero, Event.initial.injEq] at ho
      obtain ⟨rfl, hx, rfl⟩ := ho
      exact .initial _ _ _ _ (Quotient.exact hx)
    | afterPropagation => cases ho
    | afterUpdate => cases ho
  | afterPropagation t x P =>
    cases o' with
    | afterPropagation t' x' P' =>
      simp only [KHom.event, hom, id, add_zero, Event.afterPropagation.injEq] at ho
      obtain ⟨rfl, hx, rfl⟩ := ho
      exact .afterPropagation _ _ _ _ (Quotient.exact hx)
    | initial => cases ho
    | afterUpdate => cases ho
  | afterUpdate t x P =>
    cases o' with
    | afterUpdate t' x' P' =>
      simp only [KHom.event, hom, id, add_zero, Event.afterUpdate.injEq] at ho
      obtain ⟨rfl, hx, rfl⟩ := ho
      exact .afterUpdate _ _ _ _ (Quotient.exact hx)
    | initial => cases ho
    | afterPropagation => cases ho

theorem events_eq (h : KCongr K rx rm re) : ∀ {l l' : List (Event X C)},
    l.map (h.hom.event 0) = l'.map (h.hom.event 0) → List.Forall₂ (Event.Equiv rx) l l'
  | [], [], _ => .nil
  | [], _ :: _, e => by cases e
  | _ :: _, [], e => by cases e
  | a :: l, b :: l', e => by
    simp only [List.map_cons, List.cons.injEq] at e
    exact .cons (h.event_eq e.1) (h.events_eq e.2)

/-- Runs on equivalent calls. -/
theorem apis (h : KCongr K rx rm re) (env : Env) {cs cs' : List (Api A W X C M E)}
    (hc : List.Forall₂ (Api.Equiv rx rm re) cs cs') :
    SameOutcome rx (Core.apis env K (Core.new K) cs) (Core.apis env K (Core.new K) cs') := by
  have hl : cs.map (h.hom.api 0) = cs'.map (h.hom.api 0) := by
    induction hc with
    | nil => rfl
    | cons ho _ ih => simp only [List.map_cons, h.api_eq ho, ih]
  have h1 := apis_new_map h.hom 0 (Shiftable.zero Set.univ) env cs (fun _ _ => trivial)
  have h2 := apis_new_map h.hom 0 (Shiftable.zero Set.univ) env cs' (fun _ _ => trivial)
  rw [hl, h2] at h1
  generalize Core.apis env K (Core.new K) cs = a at h1 ⊢
  generalize Core.apis env K (Core.new K) cs' = b at h1 ⊢
  cases a with
  | error e => cases b with
    | error e' => cases h1; rfl
    | ok c => cases h1
  | ok c => cases b with
    | error e' => cases h1
    | ok c' =>
      simp only [Except.map, Except.ok.injEq] at h1
      exact h.events_eq h1.symm

end KCongr

end MSF
