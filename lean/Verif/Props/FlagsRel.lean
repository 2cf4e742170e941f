import Verif.Lemmas.FlowFlags
import Verif.Lemmas.FlowNewest
import Verif.Props.Flags
import Verif.Props.Stamps
import Verif.Props.Relative

/-!
# C07, C17 and C95 with relative measurements

The counterparts of `Props/Flags.lean` and `Props/Stamps.lean` for runs with absolute and relative
measurements.
-/

namespace MSF
open Core

variable {A W X C F M T E : Type} [AddCommGroup A] [Module ℚ A] [AddCommGroup W] [Module ℚ W]

/-- **C07 with relative measurements.** Before `Init` no other call changes or publishes anything. -/
theorem C07_relative_nothing_before_init (env : Env) (R : RelKernel A W X C F M T E) (c : Core A W X (C × F) M T)
    (hc : c.inited = false) (os : List (Api A W X (C × F) M E)) (hos : ∀ o ∈ os, ∀ t s, o ≠ .init t s) :
    Flow.apis env R.flow c os = .ok c := by
  induction os with
  | nil => rfl
  | cons o os ih =>
    have h1 : Flow.api env R.flow c o = .ok c := by
      cases o with
      | init t s => exact absurd rfl (hos _ (by simp) t s)
      | imu t u => simp [Flow.api, Flow.processIMU, hc, pure, Except.pure]
      | ext t u e => simp [Flow.api, Flow.processExternal, hc, pure, Except.pure]
      | meas m => simp [Flow.api, Flow.addMeasurement, hc, pure, Except.pure]
    simp only [Flow.apis, h1, bind, Except.bind]
    exact ih (fun o' ho' => hos o' (by simp [ho']))

/-- **C07 with relative measurements, before enough predictions.** Before predictions have been made no
sequence of measurements, absolute or relative, changes anything. -/
theorem C07_relative_no_measurement_before_prediction (env : Env) (R : RelKernel A W X C F M T E)
    (c : Core A W X (C × F) M T) (hc : c.predMade = false) (ms : List (Meas M)) :
    Flow.apis env R.flow c (ms.map .meas) = .ok c := by
  induction ms with
  | nil => rfl
  | cons m ms ih =>
    have h1 : Flow.api env R.flow c (.meas m) = .ok c := by
      simp [Flow.api, Flow.addMeasurement, hc, pure, Except.pure]
    simp only [List.map_cons, Flow.apis, h1, bind, Except.bind]
    exact ih

/-- **C17 with relative measurements.** An IMU reading more than 10 ms older than the last one, while
predictions are running, un-initialises the filter, changes no buffered state or measurement, publishes
nothing, and no further call other than `Init` has any effect. -/
theorem C17_relative_backward_jump_stops (env : Env) (R : RelKernel A W X C F M T E) (c : Core A W X (C × F) M T)
    (hi : c.inited = true) (hp : c.predMade = true) (last : Node (St A W X (C × F)))
    (hlast : c.states.deref c.itImu = .ok last) (hinv : last.key ≠ invalidTime)
    (t : ℚ) (u : Input A W) (ht : t < last.key - 1 / 100)
    (os : List (Api A W X (C × F) M E)) (hos : ∀ o ∈ os, ∀ t s, o ≠ .init t s) :
    Flow.apis env R.flow c (.imu t u :: os) = .ok { c with inited := false, predMade := false } := by
  have hne : c.itImu ≠ .fin := by
    intro h; rw [h] at hlast; simp [Buf.deref] at hlast
  have h1 : Flow.processIMU env R.flow c t u = .ok { c with inited := false, predMade := false } := by
    unfold Flow.processIMU
    simp only [hi, if_neg hne, bind, Except.bind, pure, Except.pure, hlast]
    rw [if_neg (by simp), if_neg hinv, if_pos ⟨by linarith, hp⟩]
  simp only [Flow.apis, Flow.api, h1, bind, Except.bind]
  exact C07_relative_nothing_before_init env R _ rfl os hos

/-- **C17 with relative measurements, nothing else stops the filter.**  As long as positions contain no
NaN, the only call that un-initialises a running filter is an IMU reading more than 10 ms older than the
state it continues, while predictions are running. -/
theorem C17_relative_only_backward_jump_stops (env : Env) (R : RelKernel A W X C F M T E)
    (hK : ∀ x, R.numPos x = true) (c c' : Core A W X (C × F) M T) (hi : c.inited = true)
    (o : Api A W X (C × F) M E) (h : Flow.api env R.flow c o = .ok c') (hs : c'.inited = false) :
    ∃ t u it last, o = .imu t u ∧ c.predMade = true ∧
      (it = c.itImu ∨ c.itImu = .fin ∧ c.states.iterClosestBefore env.ps t = .ok it) ∧
      c.states.deref it = .ok last ∧ t < last.key - 1 / 100 := by
  have hf : c.Flags true c.predMade := ⟨hi, rfl⟩
  cases o with
  | init t s => cases h; cases hs
  | meas m =>
    have := Flow.flags_addMeasurement R.flow_keepsFlags hf env m c' h
    exact absurd (this.1.symm.trans hs) (by decide)
  | ext t u e =>
    exfalso
    have key : Post (Flow.processExternal env R.flow c t u e) (fun c' => c'.inited = true) := by
      have hend : ∀ (c1 : Core A W X (C × F) M T) (s : St A W X (C × F)), c1.inited = true →
          Post (Flow.extEnd env R.flow c1 t s) (fun c' => c'.inited = true) := by
        intro c1 s h1
        unfold Flow.extEnd
        refine Post.bind fun c2 hc2 => Post.bind fun cur _ => ?_
        have h2 : c2.Flags true c1.predMade := by
          refine Flow.flags_propagatePOneStep R.flow_keepsFlags hK ?_ c2 hc2
          exact ⟨h1, rfl⟩
        intro c' hc'
        have h3 : c'.Flags true true := by
          refine Flow.flags_handlePending R.flow_keepsFlags ?_ env c' hc'
          exact ⟨h2.1, rfl⟩
        exact h3.1
      rw [Flow.processExternal_form]
      split
      · exact Post.ok hi
      · split
        · exact Post.ok hi
        · split
          · exact Post.ok hi
          · split
            · exact Post.ok hi
            · split
              · exact hend _ _ hi
              · exact hend _ _ hi
    exact absurd ((key c' h).symm.trans hs) (by decide)
  | imu t u =>
    change Flow.processIMU env R.flow c t u = .ok c' at h
    rw [Flow.processIMU_form, if_neg (by simp [hi])] at h
    obtain ⟨it, hit, h⟩ : ∃ it, imuStart env c t = .ok it ∧
        (c.states.deref it >>= fun last => Flow.imuBody env R.flow { c with itImu := it } last t u) = .ok c' := by
      cases hx : imuStart env c t with
      | error e => rw [hx] at h; cases h
      | ok it => rw [hx] at h; exact ⟨it, rfl, h⟩
    obtain ⟨last, hlast, h⟩ : ∃ last, c.states.deref it = .ok last ∧
        Flow.imuBody env R.flow { c with itImu := it } last t u = .ok c' := by
      cases hx : c.states.deref it with
      | error e => rw [hx] at h; cases h
      | ok l => rw [hx] at h; exact ⟨l, rfl, h⟩
    have hit' : it = c.itImu ∨ c.itImu = .fin ∧ c.states.iterClosestBefore env.ps t = .ok it := by
      unfold imuStart at hit
      split at hit
      · exact .inr ⟨by assumption, hit⟩
      · exact .inl (by cases hit; rfl)
    unfold Flow.imuBody at h
    split at h
    · cases h; exact absurd (hi.symm.trans hs) (by decide)
    · split at h
      · rename_i hj
        exact ⟨t, u, it, last, rfl, hj.2, hit', hlast, by linarith [hj.1]⟩
      · split at h
        · cases h; exact absurd (hi.symm.trans hs) (by decide)
        · have := Flow.flags_imuPropagate R.flow_keepsFlags hK (i := true) (p := c.predMade)
            (c := { c with itImu := it, lastAmImu := if R.spike u.a then c.lastAmImu else last.val.u.a })
            ⟨hi, rfl⟩ env last t _ c' h
          exact absurd (this.1.symm.trans hs) (by decide)

/-- **C17 with relative measurements, predictions keep running**: no call but `Init` and such a jump
makes the filter ignore measurements again. -/
theorem C17_relative_predictions_keep_running (env : Env) (R : RelKernel A W X C F M T E)
    (hK : ∀ x, R.numPos x = true) (c c' : Core A W X (C × F) M T) (hi : c.inited = true)
    (hp : c.predMade = true) (o : Api A W X (C × F) M E) (h : Flow.api env R.flow c o = .ok c')
    (hs : c'.inited = true) (ho : ∀ t s, o ≠ .init t s) : c'.predMade = true := by
  have hf : c.Flags true true := ⟨hi, hp⟩
  cases o with
  | init t s => exact absurd rfl (ho t s)
  | meas m => exact (Flow.flags_addMeasurement R.flow_keepsFlags hf env m c' h).2
  | ext t u e =>
    have key : Post (Flow.processExternal env R.flow c t u e) (fun c' => c'.predMade = true) := by
      have hend : ∀ (c1 : Core A W X (C × F) M T) (s : St A W X (C × F)), c1.inited = true →
          Post (Flow.extEnd env R.flow c1 t s) (fun c' => c'.predMade = true) := by
        intro c1 s h1
        unfold Flow.extEnd
        refine Post.bind fun c2 hc2 => Post.bind fun cur _ => ?_
        have h2 : c2.Flags true c1.predMade := by
          refine Flow.flags_propagatePOneStep R.flow_keepsFlags hK ?_ c2 hc2
          exact ⟨h1, rfl⟩
        intro c' hc'
        have h3 : c'.Flags true true := by
          refine Flow.flags_handlePending R.flow_keepsFlags ?_ env c' hc'
          exact ⟨h2.1, rfl⟩
        exact h3.2
      rw [Flow.processExternal_form]
      split
      · exact Post.ok hp
      · split
        · exact Post.ok hp
        · split
          · exact Post.ok hp
          · split
            · exact Post.ok hp
            · split
              · exact hend _ _ hi
              · exact hend _ _ hi
    exact key c' h
  | imu t u =>
    have key : Post (Flow.processIMU env R.flow c t u) (fun c' => c'.inited = true → c'.predMade = true) := by
      rw [Flow.processIMU_form, if_neg (by simp [hi])]
      refine Post.bind fun it _ => Post.bind fun last _ => ?_
      unfold Flow.imuBody
      split
      · exact Post.ok fun _ => hp
      · split
        · exact Post.ok fun h => by cases h
        · split
          · exact Post.ok fun _ => hp
          · intro c' hc' _
            exact (Flow.flags_imuPropagate R.flow_keepsFlags hK (i := true) (p := true)
              (c := { c with itImu := it, lastAmImu := if R.spike u.a then c.lastAmImu else last.val.u.a })
              ⟨hi, hp⟩ env last t _ c' hc').2 rfl
    exact key c' h hs

theorem rel_early_imu (env : Env) (R : RelKernel A W X C F M T E) {c : Core A W X (C × F) M T} {n : Nat}
    (hK : ∀ x, R.numPos x = true) (hp : c.predMade = false) (hs : c.states.size ≤ n) (hn : n < 3)
    (t : ℚ) (u : Input A W) :
    Post (Flow.processIMU env R.flow c t u) fun c' => c'.predMade = false ∧ c'.states.size ≤ n + 1 := by
  rw [Flow.processIMU_form]
  split
  · exact Post.ok ⟨hp, by omega⟩
  · refine Post.bind fun it _ => Post.bind fun last _ => ?_
    unfold Flow.imuBody
    split
    · exact Post.ok ⟨hp, by simpa using by omega⟩
    · split
      · exact Post.ok ⟨rfl, by simpa using by omega⟩
      · split
        · refine Post.ok ⟨hp, ?_⟩
          exact (size_updateTime_le c.states last.key t).trans (by omega)
        · rw [Flow.imuPropagate_form]
          refine Post.bind fun c1 hc1 => Post.bind fun cur _ => ?_
          have h1 : c1.predMade = false ∧ c1.states.size ≤ n + 1 := by
            have hins := size_insert_le c.states t (imuState R.pair last t
              (if R.spike u.a then { u with a := c.lastAmImu } else u))
            revert hc1
            unfold Flow.propagatePOneStep
            refine fun hc1 => Post.bind (Q := fun c' : Core A W X (C × F) M T =>
              c'.predMade = false ∧ c'.states.size ≤ n + 1) (fun next _ => ?_) c1 hc1
            split
            · exact Post.ret ⟨hp, hins.trans (by omega)⟩
            · refine Post.bind fun o _ => Post.bind fun m _ => ?_
              simp only [show ∀ x, R.flow.numPos x = true from hK, if_true]
              refine Post.ret ?_
              change (R.predict _ o m).predMade = false ∧ (R.predict _ o m).states.size ≤ n + 1
              unfold RelKernel.predict
              split
              · exact ⟨hp, hins.trans (by omega)⟩
              · refine ⟨hp, ?_⟩
                simp only [Buf.size, Buf.modify, List.length_map]
                exact hins.trans (by omega)
          unfold Flow.imuEnd
          have : (c1.predMade || decide (c1.states.size > 3)) = false := by
            simp [h1.1]; omega
          rw [this]
          exact Post.ok h1

/-- **C07 with relative measurements, how many predictions are enough.**  After `Init`, with at most two IMU
readings the measurements before, between and after them have no effect at all: the run is the same without
them. -/
theorem C07_relative_two_predictions_not_enough (env : Env) (R : RelKernel A W X C F M T E)
    (hK : ∀ x, R.numPos x = true) (c : Core A W X (C × F) M T) (t : ℚ) (s : St A W X (C × F))
    (os : List (Api A W X (C × F) M E)) (hos : ∀ o ∈ os, (∃ t u, o = .imu t u) ∨ ∃ m, o = .meas m)
    (hn : imuCount os ≤ 2) :
    Flow.apis env R.flow c (.init t s :: os) = Flow.apis env R.flow c (.init t s :: withoutMeas os) := by
  have key : ∀ (os : List (Api A W X (C × F) M E)) (c : Core A W X (C × F) M T) (n : Nat),
      c.predMade = false → c.states.size ≤ n → n + imuCount os ≤ 3 →
      (∀ o ∈ os, (∃ t u, o = .imu t u) ∨ ∃ m, o = .meas m) →
      Flow.apis env R.flow c os = Flow.apis env R.flow c (withoutMeas os) := by
    intro os
    induction os with
    | nil => intros; rfl
    | cons o os ih =>
      intro c n hp hs hc hos
      have hos' := fun o' ho' => hos o' (List.mem_cons_of_mem _ ho')
      rcases hos o (List.mem_cons_self ..) with ⟨t, u, rfl⟩ | ⟨m, rfl⟩
      · simp only [imuCount] at hc
        simp only [withoutMeas, Flow.apis]
        change (Flow.processIMU env R.flow c t u >>= _) = (Flow.processIMU env R.flow c t u >>= _)
        have := rel_early_imu env R hK hp hs (by omega) t u
        cases hx : Flow.processIMU env R.flow c t u with
        | error e => rfl
        | ok c1 =>
          have h1 := this c1 hx
          exact ih c1 (n + 1) h1.1 h1.2 (by omega) hos'
      · simp only [imuCount] at hc
        simp only [withoutMeas, Flow.apis]
        have e : Flow.api env R.flow c (.meas m) = .ok c := by
          simp [Flow.api, Flow.addMeasurement, hp, pure, Except.pure]
        rw [e]
        exact ih c n hp hs hc hos'
  simp only [Flow.apis, Flow.api]
  refine key os _ 1 rfl ?_ (by omega) hos
  simp [Core.init, Buf.size, Buf.insert, Buf.find, Buf.clear, insertNode]

/-- **C95 with relative measurements (partial).** If the stamps of initialisations, IMU readings and
external states do not go back, then nothing that is published goes back in time, whatever the absolute and
relative measurements (late, ahead of the IMU, rejected).  Full claim: without `hclock`; false by
`C95_imu_violated` and `C95_init_violated`, whose runs need no measurement of either kind to be relative. -/
theorem C95_relative_partial (env : Env) (R : RelKernel A W X C F M T E)
    (calls : List (Api A W X (C × F) M E)) (hclock : (calls.filterMap Api.clock).Pairwise (· ≤ ·))
    (c : Core A W X (C × F) M T) (hc : R.run env calls = .ok c) :
    (c.out.map Event.time).Pairwise (· ≤ ·) := by
  have h0 : ∀ b, (Core.new R.pair : Core A W X (C × F) M T).Ordered b := fun b =>
    ⟨List.Pairwise.nil, by simp [Core.new], fun h => by cases h⟩
  cases hl : calls.filterMap Api.clock with
  | nil => exact Flow.ord_apis R.flow_keepsNewest env calls (h0 0) (by simp [hl]) hclock c hc
  | cons b l =>
    refine Flow.ord_apis R.flow_keepsNewest env calls (h0 b) ?_ hclock c hc
    rw [hl] at hclock ⊢
    intro t ht
    rcases List.mem_cons.1 ht with rfl | ht
    · exact le_rfl
    · exact (List.pairwise_cons.1 hclock).1 t ht

namespace Demo

/-- A run that applies a relative measurement and whose stamps do not go back; it publishes nine states. -/
example : ((relRun 1).filterMap Api.clock).Pairwise (· ≤ ·) ∧
    (relK.run ⟨.gnu fun _ _ => false, .gnu fun _ _ => false⟩ (relRun 1)).toOption.map
      (fun c => (c.out.map Event.time, c.inited, c.predMade)) = some
        ([1, 101 / 100, 102 / 100, 103 / 100, 104 / 100, 105 / 100, 106 / 100, 106 / 100, 106 / 100], true, true) := by
  constructor <;> decide +kernel

/-- With two readings a relative measurement is dropped, with three it counts: the bound is sharp. -/
example : let env : Env := ⟨.gnu fun _ _ => false, .gnu fun _ _ => false⟩
    (relK.run env ((relRun 1).take 3 ++ [relMeas (102 / 100) 1])).toOption.map (fun c => c.out.length) = some 3 ∧
    (relK.run env ((relRun 1).take 4 ++ [relMeas (102 / 100) 1])).toOption.map (fun c => c.out.length) = some 5 := by
  constructor <;> decide +kernel

/-- After a relative update a reading 10 ms late does not stop the filter, one 11 ms late does. -/
example : let env : Env := ⟨.gnu fun _ _ => false, .gnu fun _ _ => false⟩
    (relK.run env (relRun 1 ++ [relImu (105 / 100)])).toOption.map Core.inited = some true ∧
    (relK.run env (relRun 1 ++ [relImu (1049 / 1000)])).toOption.map Core.inited = some false ∧
    ∀ x, relK.numPos x = true := by
  refine ⟨?_, ?_, fun _ => rfl⟩ <;> decide +kernel

end Demo
end MSF
