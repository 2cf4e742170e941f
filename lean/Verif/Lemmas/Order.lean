import Verif.Lemmas.BatchEq
import Mathlib.Data.List.Perm.Basic

/-!
# The batch filter does not depend on the arrival order
-/

set_option linter.unusedSectionVars false

namespace MSF
open Spec
variable {A W X C M T E : Type}

/-- At most one element satisfies the predicate: `find?` does not depend on the order. -/
theorem find?_perm {α : Type} {p : α → Bool} {l l' : List α} (h : l.Perm l')
    (hu : l.Pairwise (fun a b => ¬ (p a = true ∧ p b = true))) : l.find? p = l'.find? p := by
  induction h with
  | nil => rfl
  | cons x _ ih =>
    rw [List.pairwise_cons] at hu
    simp only [List.find?_cons]
    rw [ih hu.2]
  | swap x y l =>
    have h1 := (List.pairwise_cons.1 hu).1 x (by simp)
    simp only [List.find?_cons]
    cases hx : p x <;> cases hy : p y <;> simp_all
  | trans h1 _ ih1 ih2 =>
    rw [ih1 hu]
    refine ih2 ?_
    exact (h1.pairwise_iff (fun {a b} hab hba => hab ⟨hba.2, hba.1⟩)).1 hu

theorem measAt_perm {ks : List ℚ} {h h' : List (Meas M)} (hp : h.Perm h')
    (hu : h.Pairwise (fun a b => target ks a.time ≠ target ks b.time)) :
    measAt ks h = measAt ks h' := by
  funext t
  unfold measAt
  rw [find?_perm hp]
  refine hu.imp ?_
  intro a b hab ⟨h1, h2⟩
  simp only [decide_eq_true_eq] at h1 h2
  exact hab (h1.trans h2.symm)

section
variable [AddCommGroup A] [Module ℚ A] [AddCommGroup W] [Module ℚ W]

theorem times_perm {L L' : Log A W M} (hi : L.imu = L'.imu) (hp : L.hist.Perm L'.hist) :
    times L = times L' := by
  have : L.stamps = L'.stamps := by unfold Log.stamps; rw [hi]
  refine List.SortedLT.eq_of_mem_iff (times_sortedLT L) (times_sortedLT L') ?_
  intro k
  rw [mem_times, mem_times, this]
  constructor
  · rintro (h | ⟨m, hm, e⟩)
    · exact Or.inl h
    · exact Or.inr ⟨m, hp.mem_iff.1 hm, e⟩
  · rintro (h | ⟨m, hm, e⟩)
    · exact Or.inl h
    · exact Or.inr ⟨m, hp.mem_iff.2 hm, e⟩

theorem batch_perm (K : Kernel A W X C M T E) (x0 : X) (P0 : C) {L L' : Log A W M}
    (hi : L.imu = L'.imu) (hp : L.hist.Perm L'.hist)
    (hu : L.hist.Pairwise (fun a b => target L.stamps a.time ≠ target L.stamps b.time)) :
    batch K x0 P0 L = batch K x0 P0 L' := by
  have hs : L.stamps = L'.stamps := by unfold Log.stamps; rw [hi]
  unfold batch
  rw [times_perm hi hp, measAt_perm hp hu, hs, hi]

theorem Inv.targets_ne {K : Kernel A W X C M T E} {s0 : X × C} {c : Core A W X C M T}
    {L : Log A W M} {D : List (SN A W X C)} (h : Inv K s0 c L D) :
    L.hist.Pairwise (fun a b => target L.stamps a.time ≠ target L.stamps b.time) :=
  by
  refine h.sep.imp ?_
  intro a b hab
  exact target_ne h.stamps hab
end

namespace Spec.Log
variable [Zero A] {sp : A → Bool}

@[simp] theorem deliver_imu (L : Log A W M) (m) : (L.deliver m).imu = L.imu := by
  unfold deliver; split_ifs <;> rfl

@[simp] theorem deliver_am (L : Log A W M) (m) : (L.deliver m).am = L.am := by
  unfold deliver; split_ifs <;> rfl

@[simp] theorem pop_imu (L : Log A W M) : L.pop.imu = L.imu := by
  unfold pop; split <;> simp

@[simp] theorem pop_am (L : Log A W M) : L.pop.am = L.am := by
  unfold pop; split <;> simp

theorem addImu_congr {L L' : Log A W M} (hi : L.imu = L'.imu) (ha : L.am = L'.am) (t u) :
    (L.addImu sp t u).imu = (L'.addImu sp t u).imu ∧ (L.addImu sp t u).am = (L'.addImu sp t u).am := by
  unfold addImu lastAcc
  split_ifs <;> simp [hi, ha]

theorem step_imu (L : Log A W M) (t u) : (L.step sp (.imu t u)).imu = (L.addImu sp t u).imu ∧
    (L.step sp (.imu t u)).am = (L.addImu sp t u).am := by
  unfold step; simp only; split_ifs <;> simp

theorem step_meas (L : Log A W M) (m) : (L.step sp (.meas m)).imu = L.imu ∧
    (L.step sp (.meas m)).am = L.am := by
  unfold step; simp only; split_ifs <;> simp

/-- The recorded IMU readings depend only on the IMU calls. -/
theorem run_imu_aux : ∀ (ops : List (Op A W M)) (L L' : Log A W M), L.imu = L'.imu → L.am = L'.am →
    (L.run sp ops).imu = ((L'.run sp ((imuOps ops).map (fun r => .imu r.1 r.2)))).imu
  | [], L, L', h1, _ => h1
  | .imu t u :: ops, L, L', h1, h2 => by
    change ((L.step sp (.imu t u)).run sp ops).imu =
      ((L'.step sp (.imu t u)).run sp ((imuOps ops).map (fun r => .imu r.1 r.2))).imu
    refine run_imu_aux ops _ _ ?_ ?_
    · rw [(step_imu L t u).1, (step_imu L' t u).1, (addImu_congr h1 h2 t u).1]
    · rw [(step_imu L t u).2, (step_imu L' t u).2, (addImu_congr h1 h2 t u).2]
  | .meas m :: ops, L, L', h1, h2 => by
    change ((L.step sp (.meas m)).run sp ops).imu = _
    refine run_imu_aux ops _ _ ?_ ?_
    · rw [(step_meas L m).1, h1]
    · rw [(step_meas L m).2, h2]

theorem run_imu_congr {L : Log A W M} {ops ops' : List (Op A W M)} (h : imuOps ops = imuOps ops') :
    (L.run sp ops).imu = (L.run sp ops').imu := by
  rw [run_imu_aux ops L L rfl rfl, run_imu_aux ops' L L rfl rfl, h]

theorem deliver_perm (L : Log A W M) {m : Meas M} (h : L.start ≤ m.time) :
    ((L.deliver m).hist ++ (L.deliver m).queue).Perm (L.hist ++ L.queue ++ [m]) := by
  unfold deliver
  split_ifs with h1 h2
  · simp
  · exact absurd h2 (not_lt.2 h)
  · simp only
    rw [List.append_assoc, List.append_assoc]
    exact List.Perm.append_left _ List.perm_append_comm

@[simp] theorem deliver_start (L : Log A W M) (m) : (L.deliver m).start = L.start := by
  unfold start stamps; simp

theorem addImu_start {L : Log A W M} (h : L.imu ≠ []) (t u) : (L.addImu sp t u).start = L.start := by
  unfold start stamps addImu
  cases e : L.imu with
  | nil => exact absurd e h
  | cons a l => split_ifs <;> simp

@[simp] theorem addImu_hist (L : Log A W M) (t u) : (L.addImu sp t u).hist = L.hist := by
  unfold addImu; split_ifs <;> rfl

@[simp] theorem addImu_queue (L : Log A W M) (t u) : (L.addImu sp t u).queue = L.queue := by
  unfold addImu; split_ifs <;> rfl

theorem addImu_ne (L : Log A W M) (t u) : (L.addImu sp t u).imu ≠ [] := by
  unfold addImu; split_ifs <;> simp

theorem deliver_queue_mem {L : Log A W M} {m x : Meas M} (h : x ∈ (L.deliver m).queue) :
    x = m ∨ x ∈ L.queue := by
  unfold deliver at h
  split_ifs at h
  · simp at h; tauto
  · exact Or.inr h
  · exact Or.inr h

theorem pop_perm (L : Log A W M) (hq : ∀ m ∈ L.queue, L.start ≤ m.time) :
    (L.pop.hist ++ L.pop.queue).Perm (L.hist ++ L.queue) := by
  unfold pop
  split
  · exact List.Perm.refl _
  · rename_i m q hq'
    have := deliver_perm { L with queue := q } (m := m) (hq m (by rw [hq']; simp))
    rw [hq']
    refine this.trans ?_
    simp only
    rw [List.append_assoc]
    exact List.Perm.append_left _ List.perm_append_comm

theorem pop_queue_mem {L : Log A W M} {x : Meas M} (h : x ∈ L.pop.queue) : x ∈ L.queue := by
  unfold pop at h
  split at h
  · exact h
  · rename_i m q hq'
    rw [hq']
    rcases deliver_queue_mem h with h | h
    · simp [h]
    · simp at h; simp [h]

theorem pop_start (L : Log A W M) : L.pop.start = L.start := by
  unfold start stamps; simp

theorem addImu_imu_last (L : Log A W M) (t u) :
    ((L.addImu sp t u).imu.map Prod.fst).getLast? = some t := by
  unfold addImu; split_ifs <;> simp

/-- No measurement that counts is lost or duplicated: each is either applied or still waiting. -/
theorem run_perm {sure : M → Bool} : ∀ (ops : List (Op A W M)) (L : Log A W M), L.imu ≠ [] →
    (∀ m ∈ L.queue, L.start ≤ m.time) → L.start ≤ L.newest → L.okRun sp sure ops →
    ((L.run sp ops).hist ++ (L.run sp ops).queue).Perm (L.hist ++ L.queue ++ counted sp L ops)
  | [], L, _, _, _, _ => by simp [run, counted]
  | .imu t u :: ops, L, hne, hq, hsn, hok => by
    have hne' : (L.step sp (.imu t u)).imu ≠ [] := by
      rw [(step_imu L t u).1]; exact addImu_ne L t u
    have hst : (L.step sp (.imu t u)).start = L.start := by
      unfold step; simp only; split_ifs
      · rw [pop_start, addImu_start hne]
      · rw [addImu_start hne]
    have hq' : ∀ m ∈ (L.step sp (.imu t u)).queue, (L.step sp (.imu t u)).start ≤ m.time := by
      intro m hm
      rw [hst]
      unfold step at hm; simp only at hm
      split_ifs at hm
      · exact hq m (by simpa using pop_queue_mem hm)
      · exact hq m (by simpa using hm)
    have hsn' : (L.step sp (.imu t u)).start ≤ (L.step sp (.imu t u)).newest := by
      rw [hst]
      have : (L.step sp (.imu t u)).newest = t := by
        unfold newest stamps
        rw [(step_imu L t u).1, addImu_imu_last]
        rfl
      rw [this]
      exact hsn.trans hok.1.1.le
    refine (run_perm ops _ hne' hq' hsn' hok.2).trans ?_
    change List.Perm _ (L.hist ++ L.queue ++ counted sp (L.step sp (.imu t u)) ops)
    refine List.Perm.append_right _ ?_
    unfold step; simp only; split_ifs
    · refine (pop_perm _ ?_).trans ?_
      · intro m hm; rw [addImu_start hne]; exact hq m (by simpa using hm)
      · simp
    · simp
  | .meas m :: ops, L, hne, hq, hsn, hok => by
    have hne' : (L.step sp (.meas m)).imu ≠ [] := by rw [(step_meas L m).1]; exact hne
    have hst : (L.step sp (.meas m)).start = L.start := by
      unfold start stamps; rw [(step_meas L m).1]
    have hnw : (L.step sp (.meas m)).newest = L.newest := by
      unfold newest stamps; rw [(step_meas L m).1]
    by_cases h3 : 3 < L.imu.length
    · by_cases hs : L.start ≤ m.time
      · have hc : counted sp L (.meas m :: ops) = m :: counted sp (L.step sp (.meas m)) ops := by
          simp [counted, h3, hs]
        have e : L.step sp (.meas m) = L.deliver m := by simp [step, h3]
        have hq' : ∀ x ∈ (L.step sp (.meas m)).queue, (L.step sp (.meas m)).start ≤ x.time := by
          intro x hx
          rw [hst]
          rw [e] at hx
          rcases deliver_queue_mem hx with rfl | hx
          · exact hs
          · exact hq x hx
        refine (run_perm ops _ hne' hq' (by rw [hst, hnw]; exact hsn) hok.2).trans ?_
        rw [hc, e]
        refine ((deliver_perm L hs).append_right _).trans ?_
        simp
      · have hc : counted sp L (.meas m :: ops) = counted sp (L.step sp (.meas m)) ops := by
          simp [counted, hs]
        have e : L.step sp (.meas m) = L := by
          simp only [step, if_pos h3, deliver]
          rw [if_neg (by intro hx; exact hs (hsn.trans hx.le)), if_pos (not_le.1 hs)]
        have hok2 := hok.2
        rw [e] at hok2
        have := run_perm ops L hne hq hsn hok2
        rw [hc]
        change ((run sp (L.step sp (.meas m)) ops).hist ++
          (run sp (L.step sp (.meas m)) ops).queue).Perm _
        rw [e]
        exact this
    · have e : L.step sp (.meas m) = L := by simp [step, h3]
      have hc : counted sp L (.meas m :: ops) = counted sp L ops := by
        simp [counted, h3, e]
      have hok2 := hok.2
      rw [e] at hok2
      have := run_perm ops L hne hq hsn hok2
      rw [hc]
      change ((run sp (L.step sp (.meas m)) ops).hist ++
        (run sp (L.step sp (.meas m)) ops).queue).Perm _
      rw [e]
      exact this

theorem queue_start {sure : M → Bool} : ∀ (ops : List (Op A W M)) (L : Log A W M), L.imu ≠ [] →
    (∀ m ∈ L.queue, L.start ≤ m.time) → L.start ≤ L.newest → L.okRun sp sure ops →
    ∀ m ∈ (L.run sp ops).queue, (L.run sp ops).start ≤ m.time
  | [], _, _, hq, _, _ => hq
  | .imu t u :: ops, L, hne, hq, hsn, hok => by
    have hst : (L.step sp (.imu t u)).start = L.start := by
      unfold step; simp only; split_ifs
      · rw [pop_start, addImu_start hne]
      · rw [addImu_start hne]
    refine queue_start ops (L.step sp (.imu t u)) ?_ ?_ ?_ hok.2
    · rw [(step_imu L t u).1]; exact addImu_ne L t u
    · intro m hm
      rw [hst]
      unfold step at hm; simp only at hm
      split_ifs at hm
      · exact hq m (by simpa using pop_queue_mem hm)
      · exact hq m (by simpa using hm)
    · rw [hst]
      have : (L.step sp (.imu t u)).newest = t := by
        unfold newest stamps
        rw [(step_imu L t u).1, addImu_imu_last]
        rfl
      rw [this]
      exact hsn.trans hok.1.1.le
  | .meas m :: ops, L, hne, hq, hsn, hok => by
    have hst : (L.step sp (.meas m)).start = L.start := by
      unfold start stamps; rw [(step_meas L m).1]
    have hnw : (L.step sp (.meas m)).newest = L.newest := by
      unfold newest stamps; rw [(step_meas L m).1]
    refine queue_start ops (L.step sp (.meas m)) ?_ ?_ ?_ hok.2
    · rw [(step_meas L m).1]; exact hne
    · intro x hx
      rw [hst]
      unfold step deliver at hx; simp only at hx
      split_ifs at hx with h1 h2 h3
      · simp only [List.mem_append, List.mem_singleton] at hx
        rcases hx with hx | rfl
        · exact hq x hx
        · exact hsn.trans h2.le
      · exact hq x hx
      · exact hq x hx
      · exact hq x hx
    · rw [hst, hnw]; exact hsn

theorem deliver_hist (L : Log A W M) (m x : Meas M) (h : x ∈ L.hist) : x ∈ (L.deliver m).hist := by
  unfold deliver; split_ifs <;> simp [h]

theorem step_hist (L : Log A W M) (o) (x : Meas M) (h : x ∈ L.hist) : x ∈ (L.step sp o).hist := by
  cases o with
  | imu t u =>
    unfold step; simp only; split_ifs
    · unfold pop
      split
      · simpa using h
      · exact deliver_hist _ _ _ (by simpa using h)
    · simpa using h
  | meas m =>
    unfold step; simp only; split_ifs
    · exact deliver_hist _ _ _ h
    · exact h

theorem run_hist : ∀ (ops : List (Op A W M)) (L : Log A W M) (x : Meas M), x ∈ L.hist →
    x ∈ (L.run sp ops).hist
  | [], _, _, h => h
  | o :: ops, L, x, h => run_hist ops (L.step sp o) x (step_hist L o x h)

theorem deliver_queue (L : Log A W M) (m : Meas M) : ∃ l, (L.deliver m).queue = L.queue ++ l := by
  unfold deliver; split_ifs
  · exact ⟨[m], rfl⟩
  · exact ⟨[], by simp⟩
  · exact ⟨[], by simp⟩

theorem addImu_length (L : Log A W M) (t u) : (L.addImu sp t u).imu.length = L.imu.length + 1 := by
  unfold addImu; split_ifs <;> simp

/-- A waiting measurement at position `q1.length` of the queue is applied at the latest at that
many plus one IMU readings once the readings have reached its time. -/
theorem served : ∀ (ops : List (Op A W M)) (L : Log A W M) (q1 q2 : List (Meas M)) (m : Meas M),
    L.queue = q1 ++ m :: q2 → 3 < L.imu.length → L.start ≤ m.time →
    (∀ r ∈ imuOps ops, m.time ≤ r.1) → q1.length < (imuOps ops).length →
    m ∈ (L.run sp ops).hist
  | [], _, q1, _, _, _, _, _, _, hl => by simp [imuOps] at hl
  | .imu t u :: ops, L, q1, q2, m, hq, h3, hs, hr, hl => by
    have hlen : 3 < (L.addImu sp t u).imu.length := by rw [addImu_length]; omega
    have hne : L.imu ≠ [] := by intro h; rw [h] at h3; simp at h3
    have hnew : (L.addImu sp t u).newest = t := by
      unfold newest stamps; rw [addImu_imu_last]; rfl
    have hst := addImu_start (sp := sp) hne t u
    change m ∈ ((L.step sp (.imu t u)).run sp ops).hist
    have hstep : L.step sp (.imu t u) = (L.addImu sp t u).pop := by
      simp only [step, if_pos hlen]
    cases q1 with
    | nil =>
      refine run_hist _ _ _ ?_
      rw [hstep]
      unfold pop
      rw [addImu_queue, hq]
      simp only [List.nil_append, deliver]
      rw [if_neg, if_neg]
      · simp
      · have : ({ L.addImu sp t u with queue := q2 } : Log A W M).start = L.start := hst
        rw [this]; exact not_lt.2 hs
      · have : ({ L.addImu sp t u with queue := q2 } : Log A W M).newest = t := hnew
        rw [this]
        exact not_lt.2 (hr (t, u) (by simp [imuOps]))
    | cons a q1 =>
      obtain ⟨l, e⟩ := deliver_queue { L.addImu sp t u with queue := q1 ++ m :: q2 } a
      refine served ops _ q1 (q2 ++ l) m ?_ ?_ ?_ ?_ ?_
      · rw [hstep]
        unfold pop
        rw [addImu_queue, hq]
        simp only [List.cons_append]
        rw [e]; simp
      · rw [hstep, pop_imu]; exact hlen
      · rw [hstep, pop_start, hst]; exact hs
      · intro r hr'; exact hr r (by simp [imuOps, hr'])
      · simp [imuOps] at hl; exact hl
  | .meas x :: ops, L, q1, q2, m, hq, h3, hs, hr, hl => by
    have hstep : L.step sp (.meas x) = L.deliver x := by simp [step, h3]
    obtain ⟨l, e⟩ := deliver_queue L x
    change m ∈ ((L.step sp (.meas x)).run sp ops).hist
    refine served ops _ q1 (q2 ++ l) m ?_ ?_ ?_ ?_ ?_
    · rw [hstep, e, hq]; simp
    · rw [hstep, deliver_imu]; exact h3
    · rw [hstep, deliver_start]; exact hs
    · exact hr
    · exact hl

end Spec.Log
end MSF
