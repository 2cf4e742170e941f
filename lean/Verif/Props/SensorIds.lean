import Verif.Lemmas.FlowSpikes
import Verif.Props.Relative

/-!
# C131: the numbering of the sensors does not matter

The ids are handed out in the order in which the handlers are registered (msf_sensormanager.h:74-77).  They are
compared in `GetPreviousMeasurement` only (msf_core_inl.h:722-738).
-/

namespace MSF

open Core

variable {A W X C F M T E : Type}

/-- The same call, with the sensors numbered differently. -/
def Api.renumber (ρ : Int → Int) : Api A W X C M E → Api A W X C M E
  | .meas m => .meas ⟨m.time, ρ m.sensor, m.body⟩
  | o => o

/-- Different sensors that occur in the calls get different numbers. -/
def KeepsApart (ρ : Int → Int) (calls : List (Api A W X C M E)) : Prop :=
  ∀ m m', Api.meas m ∈ calls → Api.meas m' ∈ calls → ρ m.sensor = ρ m'.sensor → m.sensor = m'.sensor

section
variable [AddCommGroup A] [Module ℚ A] [AddCommGroup W] [Module ℚ W]

def idHom (ρ : Int → Int) (K : Kernel A W X C M T E) : IHom K K :=
  { IHom.refl K with r := ρ }

theorem idHom_api (ρ : Int → Int) (K : Kernel A W X C M T E) :
    ((idHom ρ K).api 0 : Api A W X C M E → _) = Api.renumber ρ := by
  funext o
  cases o with
  | init t s => simp only [IHom.api, Api.renumber, add_zero]; rfl
  | imu t u => simp only [IHom.api, Api.renumber, add_zero]; rfl
  | ext t u e =>
    have : e.map (idHom ρ K).e = e := by cases e <;> rfl
    simp only [IHom.api, Api.renumber, add_zero, this]; rfl
  | meas m => simp only [IHom.api, IHom.meas, Api.renumber, add_zero]; rfl

/-- **C131, absolute measurements.** Whatever numbers the sensors get, even the same number for several, what is
published is the same: for every filter, all trees of the buffers, and all sequences of calls. -/
theorem C131_absolute (K : Kernel A W X C M T E) (env : Env) (ρ : Int → Int)
    (calls : List (Api A W X C M E)) :
    (Core.apis env K (Core.new K) (calls.map (Api.renumber ρ))).map Core.out =
      (Core.apis env K (Core.new K) calls).map Core.out := by
  have e := IHom.map_out_zero (idHom ρ K) (F := id) (fun _ => rfl) (fun _ _ => rfl) rfl env calls
    (fun _ => rfl)
  rw [idHom_api] at e
  rw [e]
  congr 1
  funext c
  exact Event.map_id _ (fun _ _ _ => rfl) (fun _ _ _ => rfl) (fun _ _ _ => rfl) _

def idRHom {ρ : Int → Int} (hρ : Function.Injective ρ) (R : RelKernel A W X C F M T E) :
    RIHom (fun _ => True) R R :=
  { RIHom.refl R (fun _ => True) with r := ρ, r_inj := hρ }

theorem idRHom_api {ρ : Int → Int} (hρ : Function.Injective ρ) (R : RelKernel A W X C F M T E) :
    ((idRHom hρ R).pair.api 0 : Api A W X (C × F) M E → _) = Api.renumber ρ := by
  funext o
  cases o with
  | init t s => simp only [IHom.api, Api.renumber, add_zero]; rfl
  | imu t u => simp only [IHom.api, Api.renumber, add_zero]; rfl
  | ext t u e =>
    have : e.map (idRHom hρ R).pair.e = e := by cases e <;> rfl
    simp only [IHom.api, Api.renumber, add_zero, this]; rfl
  | meas m => simp only [IHom.api, IHom.meas, Api.renumber, add_zero]; rfl

theorem renumber_injective {ρ : Int → Int} (hρ : Function.Injective ρ) (R : RelKernel A W X C F M T E)
    (env : Env) (calls : List (Api A W X (C × F) M E)) :
    (R.run env (calls.map (Api.renumber ρ))).map Core.out = (R.run env calls).map Core.out := by
  have e := RIHom.run_zero (idRHom hρ R) (Fa := id) (fun _ => rfl) (fun _ _ => rfl) rfl env calls
    (fun o _ => by cases o <;> trivial) (fun _ => rfl)
  rw [idRHom_api] at e
  rw [e]
  congr 1
  funext c
  exact Event.map_id _ (fun _ _ _ => rfl) (fun _ _ _ => rfl) (fun _ _ _ => rfl) _

end

/-- A numbering that keeps a finite set apart agrees there with one that keeps everything apart. -/
theorem exists_injective (S : Finset Int) (ρ : Int → Int) (h : ∀ i ∈ S, ∀ j ∈ S, ρ i = ρ j → i = j) :
    ∃ σ : Int → Int, Function.Injective σ ∧ ∀ i ∈ S, σ i = ρ i := by
  classical
  obtain ⟨N, hN⟩ : ∃ N : Int, ∀ i ∈ S, ρ i < N := by
    induction S using Finset.induction_on with
    | empty => exact ⟨0, fun i hi => absurd hi (Finset.notMem_empty i)⟩
    | insert a s _ ih =>
      obtain ⟨N, hN⟩ := ih fun i hi j hj =>
        h i (Finset.mem_insert_of_mem hi) j (Finset.mem_insert_of_mem hj)
      refine ⟨max N (ρ a + 1), fun i hi => ?_⟩
      rcases Finset.mem_insert.1 hi with rfl | hi
      · exact lt_max_of_lt_right (by omega)
      · exact lt_max_of_lt_left (hN i hi)
  refine ⟨fun i => if i ∈ S then ρ i else N + Encodable.encode i, fun i j e => ?_, fun i hi => if_pos hi⟩
  by_cases hi : i ∈ S <;> by_cases hj : j ∈ S <;> simp only [hi, hj, if_true, if_false] at e
  · exact h i hi j hj e
  · have := hN i hi
    omega
  · have := hN j hj
    omega
  · exact Encodable.encode_injective (by omega)

/-- The ids of the measurements. -/
def idsOf : List (Api A W X C M E) → List Int
  | [] => []
  | .meas m :: l => m.sensor :: idsOf l
  | .init _ _ :: l => idsOf l
  | .imu _ _ :: l => idsOf l
  | .ext _ _ _ :: l => idsOf l

theorem mem_idsOf {i : Int} : ∀ {l : List (Api A W X C M E)}, i ∈ idsOf l ↔
    ∃ m, Api.meas m ∈ l ∧ m.sensor = i
  | [] => by simp [idsOf]
  | o :: l => by
    cases o <;> simp only [idsOf, List.mem_cons, mem_idsOf (l := l), reduceCtorEq, false_or]
    case meas m =>
      constructor
      · rintro (rfl | ⟨m', h, rfl⟩)
        · exact ⟨m, .inl rfl, rfl⟩
        · exact ⟨m', .inr h, rfl⟩
      · rintro ⟨m', h | h, rfl⟩
        · cases h
          exact .inl rfl
        · exact .inr ⟨m', h, rfl⟩

/-- **C131, relative measurements.** If different sensors get different numbers, what is published does not depend
on which numbers: for every filter with absolute and relative measurements, all trees of the buffers, and all
sequences of calls. -/
theorem C131_relative [AddCommGroup A] [Module ℚ A] [AddCommGroup W] [Module ℚ W]
    (R : RelKernel A W X C F M T E) (env : Env) (ρ : Int → Int) (calls : List (Api A W X (C × F) M E))
    (h : KeepsApart ρ calls) :
    (R.run env (calls.map (Api.renumber ρ))).map Core.out = (R.run env calls).map Core.out := by
  obtain ⟨σ, hσ, e⟩ := exists_injective (idsOf calls).toFinset ρ fun i hi j hj hij => by
    obtain ⟨m, hm, rfl⟩ := mem_idsOf.1 (List.mem_toFinset.1 hi)
    obtain ⟨m', hm', rfl⟩ := mem_idsOf.1 (List.mem_toFinset.1 hj)
    exact h m m' hm hm' hij
  rw [← renumber_injective hσ R env calls]
  congr 2
  refine List.map_congr_left fun o ho => ?_
  cases o with
  | meas m =>
    have := e m.sensor (List.mem_toFinset.2 (mem_idsOf.2 ⟨m, ho, rfl⟩))
    simp only [Api.renumber, this]
  | _ => rfl

namespace Demo

/-- Two relative sensors, the first of which has measured twice. -/
def idsRun (i : Int) : List (Api ℚ ℚ ℚ (ℚ × ℚ) (ℚ × Bool) Unit) :=
  [.init 1 ⟨⟨0, 0⟩, 0, (1, 1)⟩, relImu (101 / 100), relImu (102 / 100), relImu (103 / 100),
    relImu (104 / 100), relImu (105 / 100), relImu (106 / 100), .meas ⟨102 / 100, 0, (1, true)⟩,
    .meas ⟨103 / 100, i, (7, true)⟩, .meas ⟨105 / 100, 0, (2, true)⟩]

def idsNewest (i : Int) : Option (Event ℚ (ℚ × ℚ)) :=
  match relK.run ⟨.gnu fun _ _ => false, .gnu fun _ _ => false⟩ (idsRun i) with
  | .ok c => c.out.getLast?
  | .error _ => none

/-- Calls of two sensors and a numbering that exchanges them. -/
example : KeepsApart (fun i => 1 - i) (idsRun 1) ∧ (idsRun 1).map (Api.renumber fun i => 1 - i) ≠ idsRun 1 := by
  constructor
  · intro m m' _ _ e
    change 1 - m.sensor = 1 - m'.sensor at e
    omega
  · intro e
    have := congrArg idsOf e
    revert this
    decide +kernel

/-- The condition is needed: with the same number for both sensors something else is published. -/
example : idsRun 0 = (idsRun 1).map (Api.renumber fun _ => 0) ∧ idsNewest 0 ≠ idsNewest 1 ∧
    (idsNewest 1).isSome = true := ⟨rfl, by decide +kernel, by decide +kernel⟩

end Demo
end MSF
