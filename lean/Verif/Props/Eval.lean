import Verif.Spec.Eval
import Verif.Lemmas.Eval

/-!
# C86 - C89: the trajectory evaluation
-/

namespace MSF
open Matrix
namespace Eval

theorem pairs_mem (start offset : ℚ) (gs : List GtMsg) (es : List EvalMsg)
    (hs : gs.Pairwise fun a b => a.time ≤ b.time) :
    ∀ p ∈ pairs start offset gs es, p.1 ∈ gs ∧ p.2 ∈ es := by
  intro p hp
  rw [← show pairSeq start offset gs es = pairs start offset gs es from
    pairSeq_sorted start offset gs hs [] es (by simp)] at hp
  exact ⟨(pairSeq_mem _ _ _ _ p hp).1, (pairSeq_mem _ _ _ _ p hp).2.1⟩

theorem pathLength_append (x : V3 ℝ) (l : List (V3 ℝ)) (a : V3 ℝ) :
    pathLength (x :: (a :: l)) = norm3 (a - x) + pathLength (a :: l) := rfl

/-- Rows written once the alignment is fixed. -/
theorem foldU_rows (b : Trafo) (start : ℚ) (ps : List (GtMsg × EvalMsg)) :
    ∀ v : Vars, v.ctr ≠ 0 → ∀ r ∈ (foldU b start ps v).2, ∃ l p l', ps = l ++ p :: l' ∧
      |p.1.stamp - p.2.time| < syncThreshold ∧
      r = rowOf v.align b start p.1 p.2
        (v.ds + pathLength (v.gtLast.t :: (l ++ [p]).map fun p => p.1.pose.t)) := by
  induction ps with
  | nil => intro v _ r hr; cases hr
  | cons p ps ih =>
    intro v hv r hr
    have ea : alignOf b p.1 p.2 v = v.align := if_neg hv
    have ed : dsOf p.1 v = v.ds + norm3 (p.1.pose.t - v.gtLast.t) := by
      unfold dsOf
      rw [if_neg hv]
    simp only [foldU, List.mem_append] at hr
    rcases hr with hr | hr
    · unfold compareU at hr
      simp only at hr
      split at hr
      · rename_i hw
        refine ⟨[], p, ps, rfl, hw.1, ?_⟩
        rw [List.mem_singleton.1 hr, ea, ed]
        simp [pathLength]
      · cases hr
    · obtain ⟨l, q, l', h1, h2, h3⟩ := ih _ (Nat.succ_ne_zero _) r hr
      refine ⟨p :: l, q, l', by rw [h1]; rfl, h2, ?_⟩
      rw [h3]
      simp only [compareU, ea, ed, List.cons_append, List.map_cons, pathLength, add_assoc]

/-- Rows of a run. -/
theorem foldU_init_rows (b : Trafo) (start : ℚ) (p₀ : GtMsg × EvalMsg) (ps : List (GtMsg × EvalMsg)) :
    ∀ r ∈ (foldU b start (p₀ :: ps) Vars.init).2, ∃ l p l', p₀ :: ps = l ++ p :: l' ∧
      |p.1.stamp - p.2.time| < syncThreshold ∧
      r = rowOf (alignment b p₀) b start p.1 p.2
        (pathLength ((l ++ [p]).map fun p => p.1.pose.t)) := by
  intro r hr
  have ea : alignOf b p₀.1 p₀.2 Vars.init = alignment b p₀ := rfl
  have ed : dsOf p₀.1 Vars.init = 0 := by
    simp [dsOf, Vars.init, norm3_zero]
  simp only [foldU, List.mem_append] at hr
  rcases hr with hr | hr
  · unfold compareU at hr
    simp only at hr
    split at hr
    · rename_i hw
      refine ⟨[], p₀, ps, rfl, hw.1, ?_⟩
      rw [List.mem_singleton.1 hr, ea, ed]
      simp [pathLength]
    · cases hr
  · obtain ⟨l, q, l', h1, h2, h3⟩ := foldU_rows b start ps _ (Nat.succ_ne_zero _) r hr
    refine ⟨p₀ :: l, q, l', by rw [h1]; rfl, h2, ?_⟩
    rw [h3]
    simp only [compareU, ea, ed, List.cons_append, List.map_cons, zero_add]

/-- **C88 (partial).** For ground truth in order of time, every row of a run compares a ground truth
message at least `offset` after the start with the first estimate not before it, the two being less
than 5 ms apart.  The row has the time of the ground truth since the start, the length of the ground
truth path since the first comparison, the distance of the two positions and the angles between the two
attitudes and between the two verticals after the frames were aligned at the first comparison, and the
covariance of the estimate. -/
theorem C88_rows_partial {b : Trafo} (hb : b.Unit) (start offset : ℚ) (gs : List GtMsg)
    (es : List EvalMsg) (hg : ∀ g ∈ gs, g.pose.Unit) (he : ∀ e ∈ es, e.pose.Unit)
    (hs : gs.Pairwise fun a b => a.time ≤ b.time) :
    ∃ v rows, loop b start offset gs es Vars.init = some (v, rows) ∧
      v.ctr = (pairs start offset gs es).length ∧
      ∀ r ∈ rows, ∃ p₀ l p l', (pairs start offset gs es).head? = some p₀ ∧
        pairs start offset gs es = l ++ p :: l' ∧ |p.1.stamp - p.2.time| < 5 / 1000 ∧
        r.time = p.1.stamp - start ∧ r.cov = p.2.cov ∧
        r.ds = pathLength ((l ++ [p]).map fun p => p.1.pose.t) ∧
        r.transErr = norm3 (p.2.pose.t - (expectedPose (alignment b p₀) b p.1).t) ∧
        r.rotErr = angle (p.2.pose.q.mul (expectedPose (alignment b p₀) b p.1).q.conj) ∧
        r.zErr = tilt (p.2.pose.q.mul (expectedPose (alignment b p₀) b p.1).q.conj) := by
  have hp : pairSeq start offset gs es = pairs start offset gs es :=
    pairSeq_sorted start offset gs hs [] es (by simp)
  refine ⟨_, _, loop_eq hb start offset gs hg es he _ Vars.init_ok, ?_, ?_⟩
  · rw [foldU_ctr, hp]
    simp [Vars.init]
  · rw [hp]
    intro r hr
    cases hc : pairs start offset gs es with
    | nil => rw [hc] at hr; cases hr
    | cons p₀ ps =>
      rw [hc] at hr
      obtain ⟨l, p, l', h1, h2, rfl⟩ := foldU_init_rows b start p₀ ps r hr
      exact ⟨p₀, l, p, l', rfl, h1, h2, rfl, rfl, rfl, rfl, rfl, rfl⟩

/-- Rows come more than 39 ms apart, and none before the last estimate written. -/
theorem foldU_spacing (b : Trafo) (start : ℚ) (ps : List (GtMsg × EvalMsg)) : ∀ v : Vars,
    (∀ r ∈ (foldU b start ps v).2, v.lastTime + rowStep - syncThreshold < r.time + start) ∧
    (foldU b start ps v).2.Pairwise fun r r' => r.time + (rowStep - 2 * syncThreshold) < r'.time := by
  induction ps with
  | nil => intro v; exact ⟨by simp [foldU], List.Pairwise.nil⟩
  | cons p ps ih =>
    intro v
    obtain ⟨h1, h2⟩ := ih (compareU b start p.1 p.2 v).1
    simp only [foldU]
    by_cases hw : Writes p.1 p.2 v
    · have e1 : (compareU b start p.1 p.2 v).1.lastTime = p.2.time := if_pos hw
      have e2 : (compareU b start p.1 p.2 v).2 =
          [rowOf (alignOf b p.1 p.2 v) b start p.1 p.2 (dsOf p.1 v)] := if_pos hw
      rw [e1] at h1
      obtain ⟨w1, w2⟩ := hw
      obtain ⟨w3, w4⟩ := abs_lt.1 w1
      rw [e2]
      refine ⟨?_, ?_⟩
      · intro r hr
        rcases List.mem_append.1 hr with hr | hr
        · rw [List.mem_singleton.1 hr]
          simp only [rowOf]
          linarith
        · have := h1 r hr
          have : (0 : ℚ) < rowStep := by decide +kernel
          linarith
      · rw [List.singleton_append, List.pairwise_cons]
        refine ⟨fun r hr => ?_, h2⟩
        have := h1 r hr
        simp only [rowOf]
        linarith
    · have e1 : (compareU b start p.1 p.2 v).1.lastTime = v.lastTime := if_neg hw
      have e2 : (compareU b start p.1 p.2 v).2 = [] := if_neg hw
      rw [e1] at h1
      rw [e2, List.nil_append]
      exact ⟨h1, h2⟩

/-- **C88, spacing (partial).** Two rows of one run are more than 39 ms apart (49 ms for the estimates,
less twice the synchronization threshold). -/
theorem C88_spacing_partial {b : Trafo} (hb : b.Unit) (start offset : ℚ) (gs : List GtMsg)
    (es : List EvalMsg) (hg : ∀ g ∈ gs, g.pose.Unit) (he : ∀ e ∈ es, e.pose.Unit) :
    ∃ v rows, loop b start offset gs es Vars.init = some (v, rows) ∧
      rows.Pairwise fun r r' => r.time + 39 / 1000 < r'.time := by
  refine ⟨_, _, loop_eq hb start offset gs hg es he _ Vars.init_ok, ?_⟩
  refine (foldU_spacing b start _ _).2.imp ?_
  intro r r' h
  have : (rowStep - 2 * syncThreshold : ℚ) = 39 / 1000 := by decide +kernel
  rwa [this] at h

/-- Every synchronized pair is written or follows soon after one that was. -/
theorem foldU_complete (b : Trafo) (start : ℚ) (ps : List (GtMsg × EvalMsg))
    (hs : ps.Pairwise fun p p' => p.1.stamp ≤ p'.1.stamp) : ∀ v : Vars,
    ∀ p ∈ ps, |p.1.stamp - p.2.time| < syncThreshold → v.lastTime + rowStep < p.2.time →
      ∃ r ∈ (foldU b start ps v).2, p.1.stamp - start - (rowStep + 2 * syncThreshold) ≤ r.time ∧
        r.time ≤ p.1.stamp - start := by
  induction ps with
  | nil => intro v p hp; cases hp
  | cons p ps ih =>
    obtain ⟨hs1, hs2⟩ := List.pairwise_cons.1 hs
    have hpos : (0 : ℚ) < rowStep := by decide +kernel
    have hpos' : (0 : ℚ) < syncThreshold := by decide +kernel
    intro v q hq hsync hlast
    simp only [foldU]
    by_cases hw : Writes p.1 p.2 v
    · have e1 : (compareU b start p.1 p.2 v).1.lastTime = p.2.time := if_pos hw
      have e2 : (compareU b start p.1 p.2 v).2 =
          [rowOf (alignOf b p.1 p.2 v) b start p.1 p.2 (dsOf p.1 v)] := if_pos hw
      rw [e2]
      rcases List.mem_cons.1 hq with rfl | hq
      · refine ⟨_, List.mem_append_left _ (List.mem_singleton_self _), ?_, le_rfl⟩
        simp only [rowOf]
        linarith
      · by_cases hn : p.2.time + rowStep < q.2.time
        · obtain ⟨r, hr, h1, h2⟩ := ih hs2 (compareU b start p.1 p.2 v).1 q hq hsync (by rwa [e1])
          exact ⟨r, List.mem_append_right _ hr, h1, h2⟩
        · refine ⟨_, List.mem_append_left _ (List.mem_singleton_self _), ?_, ?_⟩
          · obtain ⟨w3, w4⟩ := abs_lt.1 hw.1
            obtain ⟨w5, w6⟩ := abs_lt.1 hsync
            simp only [rowOf]
            linarith
          · simp only [rowOf]
            linarith [hs1 q hq]
    · have e1 : (compareU b start p.1 p.2 v).1.lastTime = v.lastTime := if_neg hw
      have e2 : (compareU b start p.1 p.2 v).2 = [] := if_neg hw
      rw [e2, List.nil_append]
      rcases List.mem_cons.1 hq with rfl | hq
      · exact (hw ⟨hsync, by linarith⟩).elim
      · exact ih hs2 _ q hq hsync (by rwa [e1])

theorem pairs_sorted (start offset : ℚ) (gs : List GtMsg) (es : List EvalMsg)
    (hs : gs.Pairwise fun a b => a.time ≤ b.time) :
    (pairs start offset gs es).Pairwise fun p p' => p.1.stamp ≤ p'.1.stamp := by
  unfold pairs
  refine List.Pairwise.filterMap _ ?_ hs
  intro a a' h p hp p' hp'
  have key : ∀ (x : GtMsg) (y : GtMsg × EvalMsg), (if offset ≤ x.stamp - start then
      (es.find? fun e => x.stamp ≤ e.time).map fun e => (x, e) else none) = some y → y.1 = x := by
    intro x y hy
    split at hy
    · obtain ⟨e, -, rfl⟩ := Option.map_eq_some_iff.1 hy
      rfl
    · cases hy
  rw [key a p hp, key a' p' hp']
  unfold GtMsg.stamp
  linarith

/-- **C88, completeness (partial).** For every ground truth message whose first estimate not before it
comes within 5 ms (and after the first 49 ms of the clock), a row was written at most 59 ms before. -/
theorem C88_complete_partial {b : Trafo} (hb : b.Unit) (start offset : ℚ) (gs : List GtMsg)
    (es : List EvalMsg) (hg : ∀ g ∈ gs, g.pose.Unit) (he : ∀ e ∈ es, e.pose.Unit)
    (hs : gs.Pairwise fun a b => a.time ≤ b.time) :
    ∃ v rows, loop b start offset gs es Vars.init = some (v, rows) ∧
      ∀ p ∈ pairs start offset gs es, |p.1.stamp - p.2.time| < 5 / 1000 → 49 / 1000 < p.2.time →
        ∃ r ∈ rows, p.1.stamp - start - 59 / 1000 ≤ r.time ∧ r.time ≤ p.1.stamp - start := by
  have hp : pairSeq start offset gs es = pairs start offset gs es :=
    pairSeq_sorted start offset gs hs [] es (by simp)
  refine ⟨_, _, loop_eq hb start offset gs hg es he _ Vars.init_ok, ?_⟩
  rw [hp]
  intro p hp h1 h2
  have e : (rowStep + 2 * syncThreshold : ℚ) = 59 / 1000 := by decide +kernel
  rw [← e]
  refine foldU_complete b start _ (pairs_sorted start offset gs es hs) _ p hp h1 ?_
  have e' : Vars.init.lastTime + rowStep = 49 / 1000 := by decide +kernel
  rwa [e']

/-- **C88 fails as stated.** The pairing does not look for the closest estimate.  Ground truth at
12.002 s; estimates at 12.001 s and 12.1 s.  The pair 1 ms apart is not compared: no row is written. -/
theorem C88_closest_violated :
    ∃ gs : List GtMsg, ∃ es : List EvalMsg, ∃ v, (∀ g ∈ gs, g.pose.Unit) ∧ (∀ e ∈ es, e.pose.Unit) ∧
      loop Trafo.one 1 10 gs es Vars.init = some (v, []) ∧ (∃ g ∈ gs, ∃ e ∈ es, 10 ≤ g.stamp - 1 ∧
        |g.stamp - e.time| < 5 / 1000 ∧ ∀ e' ∈ es, |g.stamp - e.time| ≤ |g.stamp - e'.time|) := by
  let g : GtMsg := ⟨12.002 - gtShift, Trafo.one⟩
  let e₁ : EvalMsg := ⟨12.001, Trafo.one, 0⟩
  let e₂ : EvalMsg := ⟨12.1, Trafo.one, 0⟩
  have hgs : g.stamp = 12.002 := by
    show (12.002 - gtShift : ℚ) + gtShift = 12.002
    ring
  have hg : ∀ x ∈ [g], x.pose.Unit := by simp [g, Trafo.unit_one]
  have he : ∀ x ∈ [e₁, e₂], x.pose.Unit := by simp [e₁, e₂, Trafo.unit_one]
  refine ⟨[g], [e₁, e₂], (compareU Trafo.one 1 g e₂ Vars.init).1, hg, he, ?_, g, by simp, e₁, by simp, ?_, ?_, ?_⟩
  · rw [loop_eq Trafo.unit_one 1 10 _ hg _ he _ Vars.init_ok, pairSeq_sorted 1 10 [g] (by simp) [] _ (by simp)]
    have : (([] ++ [e₁, e₂]).find? fun e => decide (g.stamp ≤ e.time)) = some e₂ := by
      rw [hgs]
      simp only [List.nil_append, List.find?, e₁, e₂]
      norm_num
    rw [List.filterMap_cons, this, if_pos (by rw [hgs]; norm_num)]
    have hw : ¬ Writes g e₂ Vars.init := by
      unfold Writes
      rw [hgs]
      norm_num [e₂, syncThreshold, abs_lt]
    have hw2 : (compareU Trafo.one 1 g e₂ Vars.init).2 = [] := if_neg hw
    simp only [Option.map_some, List.filterMap_nil, foldU, hw2, List.nil_append]
  · rw [hgs]; norm_num
  · rw [hgs]; norm_num [e₁, abs_lt]
  · rw [hgs]
    intro e' he'
    simp only [List.mem_cons, List.not_mem_nil, or_false] at he'
    rcases he' with rfl | rfl
    · exact le_rfl
    · norm_num [e₁, e₂, abs_le, le_abs]

/-- Non-vacuity of C88: a row is written. -/
example : ∃ v r, loop Trafo.one 1 10 [⟨12 - gtShift, Trafo.one⟩] [⟨12.001, Trafo.one, 0⟩] Vars.init =
    some (v, [r]) := by
  let g : GtMsg := ⟨12 - gtShift, Trafo.one⟩
  let e : EvalMsg := ⟨12.001, Trafo.one, 0⟩
  have hgs : g.stamp = 12 := by
    show (12 - gtShift : ℚ) + gtShift = 12
    ring
  have hg : ∀ x ∈ [g], x.pose.Unit := by simp [g, Trafo.unit_one]
  have he : ∀ x ∈ [e], x.pose.Unit := by simp [e, Trafo.unit_one]
  refine ⟨(compareU Trafo.one 1 g e Vars.init).1,
    rowOf (alignOf Trafo.one g e Vars.init) Trafo.one 1 g e (dsOf g Vars.init),
    (loop_eq Trafo.unit_one 1 10 _ hg _ he _ Vars.init_ok).trans ?_⟩
  rw [pairSeq_sorted 1 10 [g] (by simp) [] _ (by simp)]
  have : (([] ++ [e]).find? fun e => decide (g.stamp ≤ e.time)) = some e := by
    rw [hgs]
    simp only [List.nil_append, List.find?, e]
    norm_num
  rw [List.filterMap_cons, this, if_pos (by rw [hgs]; norm_num)]
  have hw : Writes g e Vars.init := by
    unfold Writes
    rw [hgs]
    constructor <;> norm_num [e, syncThreshold, abs_lt, Vars.init, rowStep]
  have hw2 : (compareU Trafo.one 1 g e Vars.init).2 =
      [rowOf (alignOf Trafo.one g e Vars.init) Trafo.one 1 g e (dsOf g Vars.init)] := if_pos hw
  simp only [Option.map_some, List.filterMap_nil, foldU, hw2, List.append_nil]

end Eval
end MSF
