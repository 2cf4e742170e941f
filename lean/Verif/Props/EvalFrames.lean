import Verif.Props.Eval

/-!
# C86, C87, C89: perfect estimates, frames and termination of the trajectory evaluation
-/

namespace MSF
open Matrix
namespace Eval

theorem angle_one : angle Quat.one = 0 := by simp [angle, Quat.one]

theorem tilt_one : tilt Quat.one = 0 := by simp [tilt, one_rot]

/-- **C86 (partial).** The ground truth is a motion `G`; the estimates are the same motion seen in
another world frame (`A`) and of another body frame (`b`).  If the estimate of the first comparison and
those of the comparisons written to the file are at exactly the time of the ground truth, then all
reported errors are zero. -/
theorem C86_perfect_partial {b A : Trafo} (hb : b.Unit) (hA : A.Unit) (G : ℚ → Trafo)
    (hGu : ∀ t, (G t).Unit) (start offset : ℚ) (gs : List GtMsg) (es : List EvalMsg)
    (hs : gs.Pairwise fun a b => a.time ≤ b.time)
    (hG : ∀ g ∈ gs, g.pose = G g.stamp) (hE : ∀ e ∈ es, e.pose = (A.mul (G e.time)).mul b.inv)
    (hfirst : ∀ p, (pairs start offset gs es).head? = some p → p.2.time = p.1.stamp)
    (hsync : ∀ p ∈ pairs start offset gs es, |p.1.stamp - p.2.time| < 5 / 1000 →
      p.2.time = p.1.stamp) :
    ∃ v rows, loop b start offset gs es Vars.init = some (v, rows) ∧
      ∀ r ∈ rows, r.transErr = 0 ∧ r.rotErr = 0 ∧ r.zErr = 0 := by
  have hg : ∀ g ∈ gs, g.pose.Unit := fun g h => by rw [hG g h]; exact hGu _
  have he : ∀ e ∈ es, e.pose.Unit := fun e h => by
    rw [hE e h]; exact Trafo.unit_mul (Trafo.unit_mul hA (hGu _)) (Trafo.unit_inv hb)
  obtain ⟨v, rows, h1, -, h2⟩ := C88_rows_partial hb start offset gs es hg he hs
  refine ⟨v, rows, h1, ?_⟩
  have hmem := pairs_mem start offset gs es hs
  intro r hr
  obtain ⟨p₀, l, p, l', q1, q2, q3, -, -, -, q4, q5, q6⟩ := h2 r hr
  have hp₀ := hmem p₀ (List.mem_of_mem_head? (by rw [q1]; rfl))
  have hpm : p ∈ pairs start offset gs es := by rw [q2]; simp
  have hp := hmem p hpm
  have ea : alignment b p₀ = A := by
    unfold alignment
    rw [hE _ hp₀.2, hG _ hp₀.1, hfirst p₀ q1]
    have u1 := Trafo.unit_mul hA (hGu p₀.1.stamp)
    rw [Trafo.mul_assoc u1 (Trafo.unit_inv hb), Trafo.inv_mul hb, Trafo.mul_one,
      Trafo.mul_assoc hA (hGu _), Trafo.mul_inv (hGu _), Trafo.mul_one]
  have ex : expectedPose A b p.1 = p.2.pose := by
    unfold expectedPose
    rw [hE _ hp.2, hG _ hp.1, hsync p hpm q3]
  have hq : p.2.pose.q.mul p.2.pose.q.conj = Quat.one := by
    rw [Quat.mul_conj_self, he _ hp.2]; rfl
  rw [q4, q5, q6, ea, ex, hq, sub_self, norm3_zero, angle_one, tilt_one]
  exact ⟨rfl, rfl, rfl⟩

/-- Straight motion along the first axis. -/
def straight (t : ℚ) : Trafo := ⟨Quat.one, ![t, 0, 0]⟩

/-- Non-vacuity of C86: one exactly synchronized pair of a moving body, the estimate in a shifted frame. -/
example : ∃ v rows, loop Trafo.one 1 10 [⟨12 - gtShift, straight 12⟩]
    [⟨12, ((straight 5).mul (straight 12)).mul Trafo.one.inv, 0⟩] Vars.init = some (v, rows) ∧
      ∀ r ∈ rows, r.transErr = 0 ∧ r.rotErr = 0 ∧ r.zErr = 0 := by
  have hst : (⟨12 - gtShift, straight 12⟩ : GtMsg).stamp = 12 := by
    show (12 - gtShift : ℚ) + gtShift = 12
    ring
  have hp : ∀ p ∈ pairs 1 10 [⟨12 - gtShift, straight 12⟩]
      [⟨12, ((straight 5).mul (straight 12)).mul Trafo.one.inv, 0⟩], p.2.time = p.1.stamp := by
    intro p hp
    obtain ⟨h1, h2⟩ := pairs_mem _ _ _ _ (by simp) p hp
    rw [List.mem_singleton.1 h1, List.mem_singleton.1 h2, hst]
  refine C86_perfect_partial (A := straight 5) Trafo.unit_one Quat.normSq_one straight
    (fun _ => Quat.normSq_one) 1 10 _ _ (by simp) ?_ ?_
    (fun p h => hp p (List.mem_of_mem_head? (by rw [h]; rfl))) (fun p h _ => hp p h)
  · intro g hg
    rw [List.mem_singleton.1 hg, hst]
  · intro e he
    rw [List.mem_singleton.1 he]

/-- **C86 fails as stated.** The frames are aligned at the first comparison even if its estimate is far
away in time.  A body moves at 1 m/s and the estimates are its exact poses; the first ground truth
message that counts has its next estimate one second later.  A later pair at exactly equal times gets
an error of 1 m. -/
theorem C86_first_pair_violated :
    ∃ (gs : List GtMsg) (es : List EvalMsg) (v : Vars) (r : Row),
      (∀ g ∈ gs, g.pose = straight g.stamp) ∧ (∀ e ∈ es, e.pose = straight e.time) ∧
      (gs.Pairwise fun a b => a.time ≤ b.time) ∧ (es.Pairwise fun a b => a.time ≤ b.time) ∧
      (∀ p ∈ pairs 1 10 gs es, |p.1.stamp - p.2.time| < 5 / 1000 → p.2.time = p.1.stamp) ∧
      loop Trafo.one 1 10 gs es Vars.init = some (v, [r]) ∧ r.transErr = 1 := by
  let g₁ : GtMsg := ⟨11 - gtShift, straight 11⟩
  let g₂ : GtMsg := ⟨13 - gtShift, straight 13⟩
  let e₁ : EvalMsg := ⟨12, straight 12, 0⟩
  let e₂ : EvalMsg := ⟨13, straight 13, 0⟩
  have hs₁ : g₁.stamp = 11 := by show (11 - gtShift : ℚ) + gtShift = 11; ring
  have hs₂ : g₂.stamp = 13 := by show (13 - gtShift : ℚ) + gtShift = 13; ring
  have hu : ∀ t, (straight t).Unit := fun t => Quat.normSq_one
  have hg : ∀ g ∈ [g₁, g₂], g.pose.Unit := by simp [g₁, g₂, hu]
  have he : ∀ e ∈ [e₁, e₂], e.pose.Unit := by simp [e₁, e₂, hu]
  have hs : [g₁, g₂].Pairwise fun a b => a.time ≤ b.time := by
    simp [g₁, g₂]; norm_num
  have f₁ : ([e₁, e₂].find? fun e => decide (g₁.stamp ≤ e.time)) = some e₁ := by
    rw [hs₁]; simp only [List.find?, e₁, e₂]; norm_num
  have f₂ : ([e₁, e₂].find? fun e => decide (g₂.stamp ≤ e.time)) = some e₂ := by
    rw [hs₂]; simp only [List.find?, e₁, e₂]; norm_num
  have hp : pairs 1 10 [g₁, g₂] [e₁, e₂] = [(g₁, e₁), (g₂, e₂)] := by
    unfold pairs
    rw [List.filterMap_cons, f₁, if_pos (by rw [hs₁]; norm_num), List.filterMap_cons, f₂,
      if_pos (by rw [hs₂]; norm_num)]
    rfl
  have hw₁ : ¬ Writes g₁ e₁ Vars.init := by
    unfold Writes
    rw [hs₁]
    norm_num [e₁, syncThreshold, abs_lt]
  have c₁ : (compareU Trafo.one 1 g₁ e₁ Vars.init).2 = [] := if_neg hw₁
  have c₁' : (compareU Trafo.one 1 g₁ e₁ Vars.init).1.lastTime = 0 := if_neg hw₁
  have hw₂ : Writes g₂ e₂ (compareU Trafo.one 1 g₁ e₁ Vars.init).1 := by
    unfold Writes
    rw [hs₂, c₁']
    constructor <;> norm_num [e₂, syncThreshold, rowStep]
  have c₂ : (compareU Trafo.one 1 g₂ e₂ (compareU Trafo.one 1 g₁ e₁ Vars.init).1).2 =
      [rowOf (alignOf Trafo.one g₂ e₂ (compareU Trafo.one 1 g₁ e₁ Vars.init).1) Trafo.one 1 g₂ e₂
        (dsOf g₂ (compareU Trafo.one 1 g₁ e₁ Vars.init).1)] := if_pos hw₂
  refine ⟨[g₁, g₂], [e₁, e₂],
    (compareU Trafo.one 1 g₂ e₂ (compareU Trafo.one 1 g₁ e₁ Vars.init).1).1,
    rowOf (alignOf Trafo.one g₂ e₂ (compareU Trafo.one 1 g₁ e₁ Vars.init).1) Trafo.one 1 g₂ e₂
        (dsOf g₂ (compareU Trafo.one 1 g₁ e₁ Vars.init).1), ?_, ?_, hs, ?_, ?_, ?_, ?_⟩
  · intro g hg
    simp only [List.mem_cons, List.not_mem_nil, or_false] at hg
    rcases hg with rfl | rfl
    · rw [hs₁]
    · rw [hs₂]
  · simp [e₁, e₂]
  · simp [e₁, e₂]; norm_num
  · rw [hp]
    intro p hp
    simp only [List.mem_cons, List.not_mem_nil, or_false] at hp
    rcases hp with rfl | rfl
    · rw [hs₁]
      norm_num [e₁, abs_lt]
    · intro _
      rw [hs₂]
  · rw [loop_eq Trafo.unit_one 1 10 _ hg _ he _ Vars.init_ok,
      show pairSeq 1 10 [g₁, g₂] [e₁, e₂] = pairs 1 10 [g₁, g₂] [e₁, e₂] from
        pairSeq_sorted 1 10 _ hs [] _ (by simp), hp]
    simp only [foldU, c₁, c₂, List.nil_append, List.append_nil]
  · have ha : alignOf Trafo.one g₂ e₂ (compareU Trafo.one 1 g₁ e₁ Vars.init).1 = straight 1 := by
      have : alignOf Trafo.one g₂ e₂ (compareU Trafo.one 1 g₁ e₁ Vars.init).1 =
          ((straight 12).mul Trafo.one).mul (straight 11).inv := if_neg (Nat.succ_ne_zero _)
      rw [this, Trafo.mul_one]
      ext i
      · simp [straight, Trafo.mul, Trafo.inv, Quat.one, Quat.mul, Quat.conj]
      · simp [straight, Trafo.mul, Trafo.inv, Quat.one, Quat.mul, Quat.conj]
      · simp [straight, Trafo.mul, Trafo.inv, Quat.one, Quat.mul, Quat.conj]
      · simp [straight, Trafo.mul, Trafo.inv, Quat.one, Quat.mul, Quat.conj]
      · have : (Quat.one : Quat ℝ).conj = Quat.one := by simp [Quat.one, Quat.conj]
        simp only [straight, Trafo.mul, Trafo.inv, this, one_rot, one_mulVec]
        fin_cases i <;> norm_num
    show norm3 ((straight 13).t - (expected (alignOf Trafo.one g₂ e₂ _) Trafo.one g₂).t) = 1
    rw [ha]
    have hx : (straight 13).t - (expected (straight 1) Trafo.one g₂).t = ![-1, 0, 0] := by
      have : Trafo.one.inv = Trafo.one := (Trafo.inv_unique Trafo.unit_one (Trafo.mul_one _)).symm
      simp only [expected, this, Trafo.mul_one]
      simp only [straight, Trafo.mul, one_rot, one_mulVec, g₂]
      funext i
      fin_cases i <;> norm_num
    rw [hx]
    have h2 : (![-1, 0, 0] : V3 ℝ) 2 = 0 := rfl
    norm_num [norm3, sqNorm3, h2]

/-- A ground truth message seen in another world frame. -/
def GtMsg.inFrame (A : Trafo) (g : GtMsg) : GtMsg := ⟨g.time, A.mul g.pose⟩

/-- An estimate seen in another world frame. -/
def EvalMsg.inFrame (A : Trafo) (e : EvalMsg) : EvalMsg := ⟨e.time, A.mul e.pose, e.cov⟩

theorem align_map (F : GtMsg → GtMsg) (hF : ∀ g, (F g).stamp = g.stamp) (t : ℚ) (gs : List GtMsg) :
    align t (gs.map F) = (align t gs).map fun l => l.map F := by
  induction gs with
  | nil => rfl
  | cons g gs ih =>
    simp only [List.map_cons, align, hF]
    split
    · exact ih
    · rfl

theorem seek_map (H : EvalMsg → EvalMsg) (hH : ∀ e, (H e).time = e.time) (t : ℚ) (es : List EvalMsg) :
    seek t (es.map H) = (seek t es).map H := by
  induction es with
  | nil => rfl
  | cons e es ih =>
    simp only [List.map_cons, seek, hH]
    split
    · exact ih
    · rfl

theorem pairSeq_map (F : GtMsg → GtMsg) (hF : ∀ g, (F g).stamp = g.stamp) (H : EvalMsg → EvalMsg)
    (hH : ∀ e, (H e).time = e.time) (start offset : ℚ) (gs : List GtMsg) : ∀ es,
    pairSeq start offset (gs.map F) (es.map H) =
      (pairSeq start offset gs es).map fun p => (F p.1, H p.2) := by
  induction gs with
  | nil => intro es; rfl
  | cons g gs ih =>
    intro es
    simp only [List.map_cons, pairSeq, hF, seek_map H hH]
    cases h : seek g.stamp es with
    | nil => rfl
    | cons e es' =>
      simp only [List.map_cons]
      have := ih (e :: es')
      rw [List.map_cons] at this
      split
      · rw [this]; rfl
      · exact this

/-- Outcome with changed rows. -/
def Outcome.mapRows (f : Row → Row) : Outcome → Outcome
  | .failed => .failed
  | .done runs => .done (runs.map fun rows => rows.map f)

theorem Outcome.mapRows_id (o : Option Outcome) : o.map (Outcome.mapRows id) = o := by
  cases o with
  | none => rfl
  | some o => cases o <;> simp [Outcome.mapRows]

/-- A change of the messages that changes the comparisons by `f` only changes the evaluation by `f`. -/
theorem foldU_map (b : Trafo) (start : ℚ) (F : GtMsg → GtMsg) (H : EvalMsg → EvalMsg) (f' f : Row → Row)
    (P : Vars → Vars → Prop) (hc : ∀ v v', P v v' → v'.ctr = v.ctr)
    (step : ∀ g e v v', g.pose.Unit → e.pose.Unit → v.Ok → P v v' →
      P (compareU b start g e v).1 (compareU b start (F g) (H e) v').1 ∧
      (compareU b start (F g) (H e) v').2.map f' = (compareU b start g e v).2.map f) (hb : b.Unit)
    (ps : List (GtMsg × EvalMsg)) : (∀ p ∈ ps, p.1.pose.Unit ∧ p.2.pose.Unit) → ∀ v v', v.Ok → P v v' →
      (foldU b start (ps.map fun p => (F p.1, H p.2)) v').1.ctr = (foldU b start ps v).1.ctr ∧
      (foldU b start (ps.map fun p => (F p.1, H p.2)) v').2.map f' = (foldU b start ps v).2.map f := by
  induction ps with
  | nil => intro _ v v' _ h; exact ⟨hc v v' h, rfl⟩
  | cons p ps ih =>
    intro hu v v' hv h
    obtain ⟨hg, he⟩ := hu p (by simp)
    obtain ⟨s1, s2⟩ := step p.1 p.2 v v' hg he hv h
    obtain ⟨i1, i2⟩ := ih (fun q hq => hu q (List.mem_cons_of_mem _ hq)) _ _
      (compareU_ok hb start hg he hv) s1
    simp only [List.map_cons, foldU, List.map_append]
    exact ⟨i1, by rw [i2, s2]⟩

/-- Lifting to the whole program. -/
theorem main_map {b : Trafo} (hb : b.Unit) (F : GtMsg → GtMsg) (hF : ∀ g, (F g).stamp = g.stamp)
    (hFu : ∀ g, g.pose.Unit → (F g).pose.Unit) (H : EvalMsg → EvalMsg) (hH : ∀ e, (H e).time = e.time)
    (hHu : ∀ e, e.pose.Unit → (H e).pose.Unit) (f' f : Row → Row) (P : Vars → Vars → Prop)
    (hc : ∀ v v', P v v' → v'.ctr = v.ctr) (h0 : P Vars.init Vars.init)
    (step : ∀ start g e v v', g.pose.Unit → e.pose.Unit → v.Ok → P v v' →
      P (compareU b start g e v).1 (compareU b start (F g) (H e) v').1 ∧
      (compareU b start (F g) (H e) v').2.map f' = (compareU b start g e v).2.map f)
    (single : Bool) (gts : List GtMsg) (es : List EvalMsg) (hg : ∀ g ∈ gts, g.pose.Unit)
    (he : ∀ e ∈ es, e.pose.Unit) (fuel : Nat) :
    (main b single (gts.map F) (es.map H) fuel).map (Outcome.mapRows f') =
      (main b single gts es fuel).map (Outcome.mapRows f) := by
  have hloop : ∀ start offset gs, (∀ g ∈ gs, g.pose.Unit) → ∃ v v' rows rows',
      loop b start offset gs es Vars.init = some (v, rows) ∧
      loop b start offset (gs.map F) (es.map H) Vars.init = some (v', rows') ∧
      v'.ctr = v.ctr ∧ rows'.map f' = rows.map f := by
    intro start offset gs hg
    have hg' : ∀ g ∈ gs.map F, g.pose.Unit := by
      intro g hgm
      obtain ⟨x, hx, rfl⟩ := List.mem_map.1 hgm
      exact hFu x (hg x hx)
    have he' : ∀ e ∈ es.map H, e.pose.Unit := by
      intro e hem
      obtain ⟨x, hx, rfl⟩ := List.mem_map.1 hem
      exact hHu x (he x hx)
    obtain ⟨m1, m2⟩ := foldU_map b start F H f' f P hc (step start) hb (pairSeq start offset gs es)
      (fun p hp => ⟨hg _ (pairSeq_mem _ _ _ _ p hp).1, he _ (pairSeq_mem _ _ _ _ p hp).2.1⟩)
      Vars.init Vars.init Vars.init_ok h0
    refine ⟨_, _, _, _, loop_eq hb start offset gs hg es he _ Vars.init_ok, ?_, m1, m2⟩
    rw [loop_eq hb start offset _ hg' _ he' _ Vars.init_ok, pairSeq_map F hF H hH]
  have hruns : ∀ start gs, (∀ g ∈ gs, g.pose.Unit) → ∀ fuel offset,
      (runs b single start (gs.map F) (es.map H) fuel offset).map (fun rs => rs.map fun rows => rows.map f') =
        (runs b single start gs es fuel offset).map fun rs => rs.map fun rows => rows.map f := by
    intro start gs hg fuel
    induction fuel with
    | zero => intro offset; rfl
    | succ n ih =>
      intro offset
      obtain ⟨v, v', rows, rows', l1, l2, l3, l4⟩ := hloop start offset gs hg
      simp only [runs, l1, l2, Option.bind_eq_bind, Option.bind_some, l3]
      split
      · simp [l4]
      · have := ih (offset + startStep)
        revert this
        cases runs b single start gs es n (offset + startStep) <;>
          cases runs b single start (gs.map F) (es.map H) n (offset + startStep) <;> intro this
        · rfl
        · cases this
        · cases this
        · simp only [Option.map_some, Option.some.injEq] at this
          simp [this, l4]
  cases es with
  | nil => rfl
  | cons e₀ es =>
    simp only [List.map_cons, main, hH, align_map F hF]
    cases ha : align e₀.time gts with
    | none => rfl
    | some l =>
      cases l with
      | nil => rfl
      | cons g gs =>
        have hsub : ∀ l l', align e₀.time l = some l' → ∀ x ∈ l', x ∈ l := by
          intro l
          induction l with
          | nil => intro l' h; cases h
          | cons a l ih =>
            intro l' h x hx
            simp only [align] at h
            split at h
            · exact List.mem_cons_of_mem _ (ih l' h x hx)
            · cases h; exact hx
        have := hruns g.stamp (g :: gs) (fun x hx => hg x (hsub _ _ ha x hx)) fuel startOffset₀
        simp only [List.map_cons] at this
        simp only [Option.map_some, List.map_cons, hF]
        revert this
        cases runs b single g.stamp (g :: gs) (e₀ :: es) fuel startOffset₀ <;>
          cases runs b single g.stamp (F g :: gs.map F) (H e₀ :: es.map H) fuel startOffset₀ <;>
          intro this
        · rfl
        · cases this
        · cases this
        · simp only [Option.map_some, Option.some.injEq] at this
          simp only [Option.map_some, Outcome.mapRows, this]

/-- **C87, ground truth.** The world frame in which the ground truth is given does not matter. -/
theorem C87_ground_truth_frame {b A : Trafo} (hb : b.Unit) (hA : A.Unit) (single : Bool)
    (gts : List GtMsg) (es : List EvalMsg) (hg : ∀ g ∈ gts, g.pose.Unit) (he : ∀ e ∈ es, e.pose.Unit)
    (fuel : Nat) :
    main b single (gts.map (GtMsg.inFrame A)) es fuel = main b single gts es fuel := by
  have key := main_map hb (GtMsg.inFrame A) (fun _ => rfl) (fun g h => Trafo.unit_mul hA h) id
    (fun _ => rfl) (fun _ h => h) id id
    (fun v v' => v'.ctr = v.ctr ∧ v'.ds = v.ds ∧ v'.lastTime = v.lastTime ∧
      (v.ctr ≠ 0 → v'.align = v.align.mul A.inv ∧ v'.gtLast = A.mul v.gtLast))
    (fun _ _ h => h.1) ⟨rfl, rfl, rfl, fun h => (h rfl).elim⟩ ?_ single gts es hg he fuel
  · rwa [List.map_id, Outcome.mapRows_id, Outcome.mapRows_id] at key
  · intro start g e v v' hgu heu hv hP
    obtain ⟨p1, p2, p3, p4⟩ := hP
    have hal := alignOf_unit hb hgu heu hv
    have ea : alignOf b (g.inFrame A) e v' = (alignOf b g e v).mul A.inv := by
      unfold alignOf
      rw [p1]
      split
      · simp only [GtMsg.inFrame]
        rw [Trafo.mul_inv_rev hA hgu, Trafo.mul_assoc (Trafo.unit_mul heu hb) (Trafo.unit_inv hgu)]
      · rename_i h
        exact (p4 h).1
    have ed : dsOf (g.inFrame A) v' = dsOf g v := by
      unfold dsOf
      rw [p1, p2]
      split
      · simp [GtMsg.inFrame, norm3_zero]
      · rename_i h
        rw [(p4 h).2]
        simp only [GtMsg.inFrame]
        rw [Trafo.mul_t_sub, norm3_rot hA]
    have ex : expected ((alignOf b g e v).mul A.inv) b (g.inFrame A) = expected (alignOf b g e v) b g := by
      unfold expected
      simp only [GtMsg.inFrame]
      rw [Trafo.mul_assoc hal (Trafo.unit_inv hA), ← Trafo.mul_assoc (Trafo.unit_inv hA) hA,
        Trafo.inv_mul hA, Trafo.one_mul]
    have ew : Writes (g.inFrame A) e v' ↔ Writes g e v := by
      unfold Writes
      rw [p3]
      rfl
    have er : rowOf (alignOf b (g.inFrame A) e v') b start (g.inFrame A) e (dsOf (g.inFrame A) v') =
        rowOf (alignOf b g e v) b start g e (dsOf g v) := by
      unfold rowOf
      rw [ea, ed, ex]
      rfl
    refine ⟨⟨?_, ed, ?_, fun _ => ⟨ea, rfl⟩⟩, ?_⟩
    · show v'.ctr + 1 = v.ctr + 1
      rw [p1]
    · show (if Writes (g.inFrame A) e v' then e.time else v'.lastTime) =
        if Writes g e v then e.time else v.lastTime
      simp only [ew, p3]
    · show List.map id (if Writes (g.inFrame A) e v' then
          [rowOf (alignOf b (g.inFrame A) e v') b start (g.inFrame A) e (dsOf (g.inFrame A) v')] else []) =
        List.map id (if Writes g e v then [_] else [])
      simp only [ew, er]

/-- The row without its last error angle, the one of the verticals. -/
def Row.noTilt (r : Row) : Row := { r with zErr := 0 }

theorem conj_w {A q : Quat ℝ} (hA : A.normSq = 1) : ((A.mul q).mul A.conj).w = q.w := by
  have : ((A.mul q).mul A.conj).w = A.normSq * q.w := by
    simp only [Quat.mul, Quat.conj, Quat.normSq]
    ring
  rw [this, hA, one_mul]

theorem estimate_step {b A : Trafo} (hb : b.Unit) (hA : A.Unit) (f' f : Row → Row)
    (hf : ∀ (t : ℚ) (ds tr : ℝ) (q : Quat ℝ) (c : Fin 6 → ℝ), q.normSq = 1 →
      f' (⟨t, ds, tr, angle ((A.q.mul q).mul A.q.conj), tilt ((A.q.mul q).mul A.q.conj), c⟩ : Row) =
        f ⟨t, ds, tr, angle q, tilt q, c⟩) (start : ℚ) (g : GtMsg) (e : EvalMsg) (v v' : Vars)
    (hgu : g.pose.Unit) (heu : e.pose.Unit) (hv : v.Ok)
    (hP : v'.ctr = v.ctr ∧ v'.ds = v.ds ∧ v'.lastTime = v.lastTime ∧
      (v.ctr ≠ 0 → v'.align = A.mul v.align ∧ v'.gtLast = v.gtLast)) :
    ((compareU b start g (e.inFrame A) v').1.ctr = (compareU b start g e v).1.ctr ∧
      (compareU b start g (e.inFrame A) v').1.ds = (compareU b start g e v).1.ds ∧
      (compareU b start g (e.inFrame A) v').1.lastTime = (compareU b start g e v).1.lastTime ∧
      ((compareU b start g e v).1.ctr ≠ 0 →
        (compareU b start g (e.inFrame A) v').1.align = A.mul (compareU b start g e v).1.align ∧
        (compareU b start g (e.inFrame A) v').1.gtLast = (compareU b start g e v).1.gtLast)) ∧
    (compareU b start g (e.inFrame A) v').2.map f' = (compareU b start g e v).2.map f := by
  obtain ⟨p1, p2, p3, p4⟩ := hP
  have hal := alignOf_unit hb hgu heu hv
  have ea : alignOf b g (e.inFrame A) v' = A.mul (alignOf b g e v) := by
    unfold alignOf
    rw [p1]
    split
    · simp only [EvalMsg.inFrame]
      rw [Trafo.mul_assoc hA heu, Trafo.mul_assoc hA (Trafo.unit_mul heu hb)]
    · rename_i h
      exact (p4 h).1
  have ed : dsOf g v' = dsOf g v := by
    unfold dsOf
    rw [p1, p2]
    split
    · rfl
    · rename_i h
      rw [(p4 h).2]
  have hag := Trafo.unit_mul hal hgu
  have hxu : (expected (alignOf b g e v) b g).Unit := Trafo.unit_mul hag (Trafo.unit_inv hb)
  have ex : expected (A.mul (alignOf b g e v)) b g = A.mul (expected (alignOf b g e v) b g) := by
    unfold expected
    rw [Trafo.mul_assoc hA hal, Trafo.mul_assoc hA hag]
  have ew : Writes g (e.inFrame A) v' ↔ Writes g e v := by
    unfold Writes
    rw [p3]
    rfl
  have er : f' (rowOf (alignOf b g (e.inFrame A) v') b start g (e.inFrame A) (dsOf g v')) =
      f (rowOf (alignOf b g e v) b start g e (dsOf g v)) := by
    have hq : ((e.inFrame A).pose.mul (A.mul (expected (alignOf b g e v) b g)).inv).q =
        (A.q.mul (e.pose.mul (expected (alignOf b g e v) b g).inv).q).mul A.q.conj := by
      simp only [EvalMsg.inFrame]
      rw [Trafo.mul_inv_rev hA hxu]
      simp only [Trafo.mul, Trafo.inv, Quat.mul_assoc']
    have ht : norm3 ((e.inFrame A).pose.t - (A.mul (expected (alignOf b g e v) b g)).t) =
        norm3 (e.pose.t - (expected (alignOf b g e v) b g).t) := by
      simp only [EvalMsg.inFrame]
      rw [Trafo.mul_t_sub, norm3_rot hA]
    have := hf (g.stamp - start) (dsOf g v) (norm3 (e.pose.t - (expected (alignOf b g e v) b g).t))
      (e.pose.mul (expected (alignOf b g e v) b g).inv).q e.cov
      (Trafo.unit_mul heu (Trafo.unit_inv hxu))
    unfold rowOf
    rw [ea, ed, ex, ht, hq]
    exact this
  refine ⟨⟨?_, ed, ?_, fun _ => ⟨ea, rfl⟩⟩, ?_⟩
  · show v'.ctr + 1 = v.ctr + 1
    rw [p1]
  · show (if Writes g (e.inFrame A) v' then e.time else v'.lastTime) =
      if Writes g e v then e.time else v.lastTime
    simp only [ew, p3]
  · show List.map f' (if Writes g (e.inFrame A) v' then [_] else []) =
      List.map f (if Writes g e v then [_] else [])
    simp only [ew]
    split
    · simp only [List.map_cons, er, List.map_nil]
    · rfl

/-- **C87, estimates.** The world frame of the estimates does not matter for the times, travelled
distances, position errors and attitude errors. -/
theorem C87_estimate_frame {b A : Trafo} (hb : b.Unit) (hA : A.Unit) (single : Bool)
    (gts : List GtMsg) (es : List EvalMsg) (hg : ∀ g ∈ gts, g.pose.Unit) (he : ∀ e ∈ es, e.pose.Unit)
    (fuel : Nat) :
    (main b single gts (es.map (EvalMsg.inFrame A)) fuel).map (Outcome.mapRows Row.noTilt) =
      (main b single gts es fuel).map (Outcome.mapRows Row.noTilt) := by
  have key := main_map hb id (fun _ => rfl) (fun g h => h) (EvalMsg.inFrame A)
    (fun _ => rfl) (fun _ h => Trafo.unit_mul hA h) Row.noTilt Row.noTilt
    (fun v v' => v'.ctr = v.ctr ∧ v'.ds = v.ds ∧ v'.lastTime = v.lastTime ∧
      (v.ctr ≠ 0 → v'.align = A.mul v.align ∧ v'.gtLast = v.gtLast))
    (fun _ _ h => h.1) ⟨rfl, rfl, rfl, fun h => (h rfl).elim⟩
    (fun start g e v v' hgu heu hv hP =>
      estimate_step hb hA Row.noTilt Row.noTilt ?_ start g e v v' hgu heu hv hP)
    single gts es hg he fuel
  · rwa [List.map_id] at key
  · intro t ds tr q c hq
    have e1 : angle ((A.q.mul q).mul A.q.conj) = angle q := by
      unfold angle
      rw [conj_w hA]
    simp only [Row.noTilt, e1]

/-- **C87, upright frames.** If the two world frames of the estimates have the same vertical, nothing
changes. -/
theorem C87_upright_frame {b A : Trafo} (hb : b.Unit) (hA : A.Unit) (hx : A.q.x = 0) (hy : A.q.y = 0)
    (single : Bool) (gts : List GtMsg) (es : List EvalMsg) (hg : ∀ g ∈ gts, g.pose.Unit)
    (he : ∀ e ∈ es, e.pose.Unit) (fuel : Nat) :
    main b single gts (es.map (EvalMsg.inFrame A)) fuel = main b single gts es fuel := by
  have key := main_map hb id (fun _ => rfl) (fun g h => h) (EvalMsg.inFrame A)
    (fun _ => rfl) (fun _ h => Trafo.unit_mul hA h) id id
    (fun v v' => v'.ctr = v.ctr ∧ v'.ds = v.ds ∧ v'.lastTime = v.lastTime ∧
      (v.ctr ≠ 0 → v'.align = A.mul v.align ∧ v'.gtLast = v.gtLast))
    (fun _ _ h => h.1) ⟨rfl, rfl, rfl, fun h => (h rfl).elim⟩
    (fun start g e v v' hgu heu hv hP => estimate_step hb hA id id ?_ start g e v v' hgu heu hv hP)
    single gts es hg he fuel
  · rwa [List.map_id, Outcome.mapRows_id, Outcome.mapRows_id] at key
  · intro t ds tr q c hq
    have e1 : angle ((A.q.mul q).mul A.q.conj) = angle q := by
      unfold angle
      rw [conj_w hA]
    have e2 : tilt ((A.q.mul q).mul A.q.conj) = tilt q := by
      have hA' : A.q.conj.normSq = 1 := by rw [Quat.normSq_conj]; exact hA
      have hz : A.q.conj.toRot *ᵥ (![0, 0, 1] : V3 ℝ) = ![0, 0, 1] := by
        funext i
        fin_cases i <;> simp [Quat.toRot, Quat.conj, mulVec, dotProduct, Fin.sum_univ_three, hx, hy]
      have hz' : (![0, 0, 1] : V3 ℝ) ᵥ* A.q.toRot = ![0, 0, 1] := by
        rw [← mulVec_transpose, ← toRot_conj, hz]
      unfold tilt
      rw [toRot_mul _ _ (by rw [Quat.normSq_mul, hA, hq, one_mul]) hA', toRot_mul _ _ hA hq,
        ← mulVec_mulVec, hz, ← mulVec_mulVec, dotProduct_mulVec, hz']
    rw [e1, e2]

/-- **C89.** The evaluation ends for every bag with unit quaternions: from some number of runs on, more
fuel changes nothing and there is a result. -/
theorem C89_ends {b : Trafo} (hb : b.Unit) (single : Bool) (gts : List GtMsg) (es : List EvalMsg)
    (hg : ∀ g ∈ gts, g.pose.Unit) (he : ∀ e ∈ es, e.pose.Unit) :
    ∃ N o, ∀ fuel, N ≤ fuel → main b single gts es fuel = some o := by
  have hrun : ∀ start gs, (∀ g ∈ gs, g.pose.Unit) → ∀ (n : ℕ) (offset : ℚ),
      (∀ g ∈ gs, g.stamp - start < offset + n * startStep) →
      ∃ rs, ∀ fuel, n + 1 ≤ fuel → runs b single start gs es fuel offset = some rs := by
    intro start gs hg n
    induction n with
    | zero =>
      intro offset h
      refine ⟨[[]], fun fuel hf => ?_⟩
      obtain ⟨k, rfl⟩ := Nat.exists_eq_add_of_le' hf
      have hnil : pairSeq start offset gs es = [] := by
        rw [List.eq_nil_iff_forall_not_mem]
        intro p hp
        obtain ⟨h1, -, h3⟩ := pairSeq_mem _ _ _ _ p hp
        have := h p.1 h1
        simp only [Nat.cast_zero, zero_mul, add_zero] at this
        linarith
      have hl := loop_eq hb start offset gs hg es he _ Vars.init_ok
      rw [hnil] at hl
      simp only [runs, hl, Option.bind_eq_bind, Option.bind_some, foldU]
      rw [if_pos (Or.inl (show Vars.init.ctr = 0 from rfl))]
      rfl
    | succ n ih =>
      intro offset h
      have hl := loop_eq hb start offset gs hg es he _ Vars.init_ok
      obtain ⟨rs, hrs⟩ := ih (offset + startStep) (fun g hg => by
        have := h g hg
        push_cast at this
        linarith)
      by_cases hc : (foldU b start (pairSeq start offset gs es) Vars.init).1.ctr = 0 ∨ single = true
      · refine ⟨[(foldU b start (pairSeq start offset gs es) Vars.init).2], fun fuel hf => ?_⟩
        obtain ⟨k, rfl⟩ := Nat.exists_eq_add_of_le' ((Nat.le_add_left 1 (n + 1)).trans hf)
        simp only [runs, hl, Option.bind_eq_bind, Option.bind_some]
        rw [if_pos hc]
        rfl
      · refine ⟨(foldU b start (pairSeq start offset gs es) Vars.init).2 :: rs, fun fuel hf => ?_⟩
        obtain ⟨k, rfl⟩ := Nat.exists_eq_add_of_le' ((Nat.le_add_left 1 (n + 1)).trans hf)
        simp only [runs, hl, Option.bind_eq_bind, Option.bind_some]
        rw [if_neg hc, hrs k (by omega)]
        rfl
  cases es with
  | nil => exact ⟨0, .failed, fun _ _ => rfl⟩
  | cons e₀ es =>
    cases ha : align e₀.time gts with
    | none => exact ⟨0, .failed, fun _ _ => by simp only [main, ha]⟩
    | some l =>
      cases l with
      | nil => exact ⟨0, .failed, fun _ _ => by simp only [main, ha]⟩
      | cons g gs =>
        have hsub : ∀ l l', align e₀.time l = some l' → ∀ x ∈ l', x ∈ l := by
          intro l
          induction l with
          | nil => intro l' h; cases h
          | cons a l ih =>
            intro l' h x hx
            simp only [align] at h
            split at h
            · exact List.mem_cons_of_mem _ (ih l' h x hx)
            · cases h; exact hx
        have hgs : ∀ x ∈ g :: gs, x.pose.Unit := fun x hx => hg x (hsub _ _ ha x hx)
        have hbound : ∃ n : Nat, ∀ x ∈ g :: gs, x.stamp - g.stamp < startOffset₀ + n * startStep := by
          have : ∀ l : List GtMsg, ∃ n : Nat, ∀ x ∈ l, x.stamp - g.stamp < startOffset₀ + n * startStep := by
            intro l
            induction l with
            | nil => exact ⟨0, by simp⟩
            | cons a l ih =>
              obtain ⟨n, hn⟩ := ih
              obtain ⟨m, hm⟩ := exists_nat_gt (a.stamp - g.stamp)
              refine ⟨max n m, fun x hx => ?_⟩
              have h10 : startStep = 10 := rfl
              have h10' : startOffset₀ = 10 := rfl
              rcases List.mem_cons.1 hx with rfl | hx
              · have : (m : ℚ) ≤ (max n m : ℕ) := by exact_mod_cast le_max_right n m
                have : (0 : ℚ) ≤ m := Nat.cast_nonneg m
                rw [h10, h10']
                linarith
              · have h1 := hn x hx
                have : (n : ℚ) ≤ (max n m : ℕ) := by exact_mod_cast le_max_left n m
                rw [h10, h10'] at h1 ⊢
                linarith
          exact this _
        obtain ⟨n, hn⟩ := hbound
        obtain ⟨rs, hrs⟩ := hrun g.stamp (g :: gs) hgs n startOffset₀ hn
        refine ⟨n + 1, .done rs, fun fuel hf => ?_⟩
        simp only [main, ha, hrs fuel hf, Option.map_some]

/-- Non-vacuity of C87 and C89: a bag with one pair, and a turned frame. -/
example : (∃ N o, ∀ fuel, N ≤ fuel → main Trafo.one false [⟨12, straight 12⟩] [⟨1, straight 1, 0⟩] fuel =
      some o) ∧
    ∀ fuel, main Trafo.one false [⟨12, (⟨⟨0, 1, 0, 0⟩, ![1, 2, 3]⟩ : Trafo).mul (straight 12)⟩]
      [⟨1, straight 1, 0⟩] fuel = main Trafo.one false [⟨12, straight 12⟩] [⟨1, straight 1, 0⟩] fuel := by
  have hu : ∀ t, (straight t).Unit := fun _ => Quat.normSq_one
  refine ⟨C89_ends Trafo.unit_one _ _ _ (by simp [hu]) (by simp [hu]), fun fuel => ?_⟩
  exact C87_ground_truth_frame (A := ⟨⟨0, 1, 0, 0⟩, ![1, 2, 3]⟩) Trafo.unit_one
    (by simp [Trafo.Unit, Quat.normSq]) false [⟨12, straight 12⟩] _ (by simp [hu]) (by simp [hu]) fuel

end Eval
end MSF
