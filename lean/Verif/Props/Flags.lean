import Verif.Lemmas.CoreFlags
import Verif.Props.Core
import Verif.Props.Demo

/-!
# C07 and C17: when the filter starts and stops listening
-/

namespace MSF
open Core

variable {A W X C M T E : Type} [AddCommGroup A] [Module ℚ A] [AddCommGroup W] [Module ℚ W]

/-- **C17, nothing else stops the filter.**  As long as positions contain no NaN, the only call that
un-initialises a running filter is an IMU reading more than 10 ms older than the state it continues
(the last IMU state, or the closest earlier state when there is none), while predictions are
running. -/
theorem C17_only_backward_jump_stops (env : Env) (K : Kernel A W X C M T E)
    (hK : ∀ x, K.numPos x = true) (c c' : Core A W X C M T) (hi : c.inited = true)
    (o : Api A W X C M E) (h : Core.api env K c o = .ok c') (hs : c'.inited = false) :
    ∃ t u it last, o = .imu t u ∧ c.predMade = true ∧
      (it = c.itImu ∨ c.itImu = .fin ∧ c.states.iterClosestBefore env.ps t = .ok it) ∧
      c.states.deref it = .ok last ∧ t < last.key - 1 / 100 := by
  have hf : c.Flags true c.predMade := ⟨hi, rfl⟩
  cases o with
  | init t s => cases h; cases hs
  | meas m =>
    have := hf.addMeasurement env m c' h
    exact absurd (this.1.symm.trans hs) (by decide)
  | ext t u e =>
    exfalso
    have key : Post (processExternal env K c t u e) (fun c' => c'.inited = true) := by
      have hend : ∀ (c1 : Core A W X C M T) (s : St A W X C), c1.inited = true →
          Post (extEnd env K c1 t s) (fun c' => c'.inited = true) := by
        intro c1 s h1
        unfold extEnd
        refine Post.bind fun c2 hc2 => Post.bind fun cur _ => ?_
        have h2 : c2.Flags true c1.predMade := by
          refine Flags.propagatePOneStep hK ?_ c2 hc2
          exact ⟨h1, rfl⟩
        intro c' hc'
        have h3 : c'.Flags true true := by
          refine Flags.handlePending ?_ env c' hc'
          exact ⟨h2.1, rfl⟩
        exact h3.1
      rw [processExternal_form]
      split
      · exact Post.ok hi
      · split
        · exact Post.ok hi
        · split
          · exact Post.ok hi
          · split
            · exact Post.ok hi
            · split
              · exact hend _ _ hi
              · exact hend _ _ hi
    exact absurd ((key c' h).symm.trans hs) (by decide)
  | imu t u =>
    change processIMU env K c t u = .ok c' at h
    rw [processIMU_form, if_neg (by simp [hi])] at h
    obtain ⟨it, hit, h⟩ : ∃ it, imuStart env c t = .ok it ∧
        (c.states.deref it >>= fun last => imuBody env K { c with itImu := it } last t u) = .ok c' := by
      cases hx : imuStart env c t with
      | error e => rw [hx] at h; cases h
      | ok it => rw [hx] at h; exact ⟨it, rfl, h⟩
    obtain ⟨last, hlast, h⟩ : ∃ last, c.states.deref it = .ok last ∧
        imuBody env K { c with itImu := it } last t u = .ok c' := by
      cases hx : c.states.deref it with
      | error e => rw [hx] at h; cases h
      | ok l => rw [hx] at h; exact ⟨l, rfl, h⟩
    have hit' : it = c.itImu ∨ c.itImu = .fin ∧ c.states.iterClosestBefore env.ps t = .ok it := by
      unfold imuStart at hit
      split at hit
      · exact .inr ⟨by assumption, hit⟩
      · exact .inl (by cases hit; rfl)
    unfold imuBody at h
    split at h
    · cases h; exact absurd (hi.symm.trans hs) (by decide)
    · split at h
      · rename_i hj
        exact ⟨t, u, it, last, rfl, hj.2, hit', hlast, by linarith [hj.1]⟩
      · split at h
        · cases h; exact absurd (hi.symm.trans hs) (by decide)
        · have := Flags.imuPropagate hK (i := true) (p := c.predMade)
            (c := { c with itImu := it, lastAmImu := if K.spike u.a then c.lastAmImu else last.val.u.a })
            ⟨hi, rfl⟩ env last t _ c' h
          exact absurd (this.1.symm.trans hs) (by decide)

/-- **C17, predictions keep running**: no call but `Init` and such a jump makes the filter ignore
measurements again. -/
theorem C17_predictions_keep_running (env : Env) (K : Kernel A W X C M T E)
    (hK : ∀ x, K.numPos x = true) (c c' : Core A W X C M T) (hi : c.inited = true)
    (hp : c.predMade = true) (o : Api A W X C M E) (h : Core.api env K c o = .ok c')
    (hs : c'.inited = true) (ho : ∀ t s, o ≠ .init t s) : c'.predMade = true := by
  have hf : c.Flags true true := ⟨hi, hp⟩
  cases o with
  | init t s => exact absurd rfl (ho t s)
  | meas m => exact (hf.addMeasurement env m c' h).2
  | ext t u e =>
    have key : Post (processExternal env K c t u e) (fun c' => c'.predMade = true) := by
      have hend : ∀ (c1 : Core A W X C M T) (s : St A W X C), c1.inited = true →
          Post (extEnd env K c1 t s) (fun c' => c'.predMade = true) := by
        intro c1 s h1
        unfold extEnd
        refine Post.bind fun c2 hc2 => Post.bind fun cur _ => ?_
        have h2 : c2.Flags true c1.predMade := by
          refine Flags.propagatePOneStep hK ?_ c2 hc2
          exact ⟨h1, rfl⟩
        intro c' hc'
        have h3 : c'.Flags true true := by
          refine Flags.handlePending ?_ env c' hc'
          exact ⟨h2.1, rfl⟩
        exact h3.2
      rw [processExternal_form]
      split
      · exact Post.ok hp
      · split
        · exact Post.ok hp
        · split
          · exact Post.ok hp
          · split
            · exact Post.ok hp
            · split
              · exact hend _ _ hi
              · exact hend _ _ hi
    exact key c' h
  | imu t u =>
    have key : Post (processIMU env K c t u) (fun c' => c'.inited = true → c'.predMade = true) := by
      rw [processIMU_form, if_neg (by simp [hi])]
      refine Post.bind fun it _ => Post.bind fun last _ => ?_
      unfold imuBody
      split
      · exact Post.ok fun _ => hp
      · split
        · exact Post.ok fun h => by cases h
        · split
          · exact Post.ok fun _ => hp
          · intro c' hc' _
            exact (Flags.imuPropagate hK (i := true) (p := true)
              (c := { c with itImu := it, lastAmImu := if K.spike u.a then c.lastAmImu else last.val.u.a })
              ⟨hi, hp⟩ env last t _ c' hc').2 rfl
    exact key c' h hs

theorem length_insertNode {V : Type} (n : Node V) (l : List (Node V)) :
    (insertNode n l).length = l.length + 1 := by
  induction l with
  | nil => rfl
  | cons m l ih =>
    unfold insertNode
    split
    · rfl
    · simp [ih]

theorem size_insert_le {V : Type} (b : Buf V) (t : ℚ) (v : V) : (b.insert t v).1.size ≤ b.size + 1 := by
  unfold Buf.insert
  split
  · simp
  · simp [Buf.size, length_insertNode]

theorem size_updateTime_le {V : Type} (b : Buf V) (s t : ℚ) : (b.updateTime s t).1.size ≤ b.size := by
  unfold Buf.updateTime
  cases h : b.find s with
  | none => exact le_rfl
  | some n =>
    simp only
    refine (size_insert_le _ _ _).trans ?_
    have hm : n ∈ b.nodes := List.mem_of_find?_eq_some h
    have : (b.nodes.filter fun m => m.key ≠ n.key).length < b.nodes.length :=
      List.length_filter_lt_length_iff_exists.2 ⟨n, hm, by simp⟩
    exact this

/-- How many IMU readings a sequence of calls contains. -/
def imuCount : List (Api A W X C M E) → Nat
  | [] => 0
  | .imu _ _ :: os => imuCount os + 1
  | _ :: os => imuCount os

/-- The calls without the measurements. -/
def withoutMeas : List (Api A W X C M E) → List (Api A W X C M E)
  | [] => []
  | .meas _ :: os => withoutMeas os
  | o :: os => o :: withoutMeas os

theorem early_imu (env : Env) (K : Kernel A W X C M T E) {c : Core A W X C M T} {n : Nat}
    (hK : ∀ x, K.numPos x = true) (hp : c.predMade = false) (hs : c.states.size ≤ n) (hn : n < 3)
    (t : ℚ) (u : Input A W) :
    Post (processIMU env K c t u) fun c' => c'.predMade = false ∧ c'.states.size ≤ n + 1 := by
  rw [processIMU_form]
  split
  · exact Post.ok ⟨hp, by omega⟩
  · refine Post.bind fun it _ => Post.bind fun last _ => ?_
    unfold imuBody
    split
    · exact Post.ok ⟨hp, by simpa using by omega⟩
    · split
      · exact Post.ok ⟨rfl, by simpa using by omega⟩
      · split
        · refine Post.ok ⟨hp, ?_⟩
          exact (size_updateTime_le c.states last.key t).trans (by omega)
        · rw [imuPropagate_form]
          refine Post.bind fun c1 hc1 => Post.bind fun cur _ => ?_
          have h1 : c1.predMade = false ∧ c1.states.size ≤ n + 1 := by
            have hins := size_insert_le c.states t (imuState K last t
              (if K.spike u.a then { u with a := c.lastAmImu } else u))
            revert hc1
            unfold propagatePOneStep
            refine fun hc1 => Post.bind (Q := fun c' : Core A W X C M T =>
              c'.predMade = false ∧ c'.states.size ≤ n + 1) (fun next _ => ?_) c1 hc1
            split
            · exact Post.ret ⟨hp, hins.trans (by omega)⟩
            · refine Post.bind fun o _ => Post.bind fun m _ => ?_
              simp only [hK, if_true]
              refine Post.ret ?_
              unfold predictCov
              split
              · exact ⟨hp, hins.trans (by omega)⟩
              · refine ⟨hp, ?_⟩
                simp only [Buf.size, Buf.modify, List.length_map]
                exact hins.trans (by omega)
          unfold imuEnd
          have : (c1.predMade || decide (c1.states.size > 3)) = false := by
            simp [h1.1]; omega
          rw [this]
          exact Post.ok h1

/-- **C07, how many predictions are enough.**  After `Init`, with at most two IMU readings the
measurements before, between and after them have no effect at all: the run is the same without
them.  (Externally propagated states start the processing of measurements immediately and are not
part of the statement.) -/
theorem C07_two_predictions_not_enough (env : Env) (K : Kernel A W X C M T E)
    (hK : ∀ x, K.numPos x = true) (c : Core A W X C M T) (t : ℚ) (s : St A W X C)
    (os : List (Api A W X C M E)) (hos : ∀ o ∈ os, (∃ t u, o = .imu t u) ∨ ∃ m, o = .meas m)
    (hn : imuCount os ≤ 2) :
    Core.apis env K c (.init t s :: os) = Core.apis env K c (.init t s :: withoutMeas os) := by
  have key : ∀ (os : List (Api A W X C M E)) (c : Core A W X C M T) (n : Nat),
      c.predMade = false → c.states.size ≤ n → n + imuCount os ≤ 3 →
      (∀ o ∈ os, (∃ t u, o = .imu t u) ∨ ∃ m, o = .meas m) →
      Core.apis env K c os = Core.apis env K c (withoutMeas os) := by
    intro os
    induction os with
    | nil => intros; rfl
    | cons o os ih =>
      intro c n hp hs hc hos
      have hos' := fun o' ho' => hos o' (List.mem_cons_of_mem _ ho')
      rcases hos o (List.mem_cons_self ..) with ⟨t, u, rfl⟩ | ⟨m, rfl⟩
      · simp only [imuCount] at hc
        simp only [withoutMeas, Core.apis]
        change (processIMU env K c t u >>= _) = (processIMU env K c t u >>= _)
        have := early_imu env K hK hp hs (by omega) t u
        cases hx : processIMU env K c t u with
        | error e => rfl
        | ok c1 =>
          have h1 := this c1 hx
          exact ih c1 (n + 1) h1.1 h1.2 (by omega) hos'
      · simp only [imuCount] at hc
        simp only [withoutMeas, Core.apis]
        have e : Core.api env K c (.meas m) = .ok c := by
          simp [Core.api, addMeasurement, hp, pure, Except.pure]
        rw [e]
        exact ih c n hp hs hc hos'
  simp only [Core.apis, Core.api]
  refine key os _ 1 rfl ?_ (by omega) hos
  simp [Core.init, Buf.size, Buf.insert, Buf.find, Buf.clear, insertNode]

section Witness
open Demo

/-- After two readings measurements are dropped, after three they count: the bound is sharp. -/
example : ((Core.apis env Demo.K (Core.new Demo.K) [.init 1 s0, .imu (101 / 100) ⟨1, 0⟩,
      .imu (102 / 100) ⟨1, 0⟩, .meas ⟨102 / 100, 0, 5⟩]).toOption.map fun c => c.out.length) = some 3 ∧
    ((Core.apis env Demo.K (Core.new Demo.K) [.init 1 s0, .imu (101 / 100) ⟨1, 0⟩,
      .imu (102 / 100) ⟨1, 0⟩, .imu (103 / 100) ⟨1, 0⟩, .meas ⟨102 / 100, 0, 5⟩]).toOption.map
        fun c => c.out.length) = some 5 := by
  constructor <;> decide +kernel

/-- A reading 10 ms late does not stop the filter, one 11 ms late does. -/
example : ((Core.apis env Demo.K (Core.new Demo.K) [.init 1 s0, .imu (101 / 100) ⟨1, 0⟩,
      .imu (102 / 100) ⟨1, 0⟩, .imu (103 / 100) ⟨1, 0⟩, .imu (104 / 100) ⟨1, 0⟩,
      .imu (103 / 100) ⟨1, 0⟩]).toOption.map Core.inited) = some true ∧
    ((Core.apis env Demo.K (Core.new Demo.K) [.init 1 s0, .imu (101 / 100) ⟨1, 0⟩,
      .imu (102 / 100) ⟨1, 0⟩, .imu (103 / 100) ⟨1, 0⟩, .imu (104 / 100) ⟨1, 0⟩,
      .imu (1029 / 1000) ⟨1, 0⟩]).toOption.map Core.inited) = some false := by
  constructor <;> decide +kernel

end Witness

end MSF
