import Verif.Model.Eval
import Verif.Lemmas.Gps
import Verif.Lemmas.Managers
import Verif.Props.Similarity

/-!
# Lemmas about rigid transformations and the evaluation loop
-/

namespace MSF
open Matrix

namespace Trafo

/-- The rotation is a unit quaternion. -/
def Unit (a : Trafo) : Prop := a.q.normSq = 1

def one : Trafo := ⟨Quat.one, 0⟩

theorem unit_mul {a b : Trafo} (ha : a.Unit) (hb : b.Unit) : (a.mul b).Unit := by
  unfold Unit mul
  rw [Quat.normSq_mul, ha, hb, one_mul]

theorem unit_inv {a : Trafo} (ha : a.Unit) : a.inv.Unit := by
  unfold Unit inv
  rw [Quat.normSq_conj, ha]

theorem mul_assoc {a b c : Trafo} (ha : a.Unit) (hb : b.Unit) :
    (a.mul b).mul c = a.mul (b.mul c) := by
  ext1
  · exact Quat.mul_assoc' _ _ _
  · simp only [mul, toRot_mul _ _ ha hb, mulVec_add, mulVec_mulVec, add_assoc]

theorem rot_inv {q : Quat ℝ} (h : q.normSq = 1) (v : V3 ℝ) : q.toRot *ᵥ (q.conj.toRot *ᵥ v) = v := by
  rw [mulVec_mulVec, ← toRot_mul _ _ h (by rw [Quat.normSq_conj, h]), Quat.mul_conj_self, h]
  rw [show (⟨1, 0, 0, 0⟩ : Quat ℝ) = Quat.one from rfl, one_rot, one_mulVec]

theorem rot_inv' {q : Quat ℝ} (h : q.normSq = 1) (v : V3 ℝ) : q.conj.toRot *ᵥ (q.toRot *ᵥ v) = v := by
  have := rot_inv (q := q.conj) (by rw [Quat.normSq_conj, h]) v
  rwa [Quat.conj_conj] at this

theorem mul_inv {a : Trafo} (ha : a.Unit) : a.mul a.inv = one := by
  ext1
  · simp only [mul, inv, Quat.mul_conj_self, one]
    rw [ha]
    rfl
  · simp only [mul, inv, mulVec_neg, rot_inv ha, one]
    simp

theorem inv_mul {a : Trafo} (ha : a.Unit) : a.inv.mul a = one := by
  ext1
  · simp only [mul, inv, Quat.conj_mul_self, one]
    rw [ha]
    rfl
  · simp only [mul, inv, one]
    simp

theorem mul_one (a : Trafo) : a.mul one = a := by
  ext1
  · exact Quat.mul_one' _
  · simp [mul, one]

theorem one_mul (a : Trafo) : one.mul a = a := by
  ext1
  · exact Quat.one_mul' _
  · simp [mul, one, one_rot]

theorem unit_one : one.Unit := Quat.normSq_one

theorem inv_unique {a b : Trafo} (ha : a.Unit) (h : a.mul b = one) : b = a.inv := by
  rw [← mul_one a.inv, ← h, ← mul_assoc (unit_inv ha) ha, inv_mul ha, one_mul]

theorem mul_inv_rev {a b : Trafo} (ha : a.Unit) (hb : b.Unit) :
    (a.mul b).inv = b.inv.mul a.inv := by
  refine (inv_unique (unit_mul ha hb) ?_).symm
  rw [mul_assoc ha hb, ← mul_assoc hb (unit_inv hb), mul_inv hb, one_mul, mul_inv ha]

theorem inv_inv {a : Trafo} (ha : a.Unit) : a.inv.inv = a :=
  (inv_unique (unit_inv ha) (inv_mul ha)).symm

theorem normalized_unit {a : Trafo} (ha : a.Unit) : a.normalized = some a := by
  unfold normalized
  rw [Quat.normalize_unit ha]
  rfl

/-- Rotations keep lengths. -/
theorem sqNorm3_rot {q : Quat ℝ} (h : q.normSq = 1) (v : V3 ℝ) : sqNorm3 (q.toRot *ᵥ v) = sqNorm3 v := by
  have e : ∀ u : V3 ℝ, sqNorm3 u = u ⬝ᵥ u := fun u => by simp [sqNorm3, dotProduct, Fin.sum_univ_three]
  rw [e, e, dotProduct_mulVec, vecMul_mulVec]
  rw [rot_transpose_mul h, vecMul_one]

theorem mul_t_sub (a b c : Trafo) : (a.mul b).t - (a.mul c).t = a.q.toRot *ᵥ (b.t - c.t) := by
  simp [mul, mulVec_sub]

end Trafo

namespace Eval

theorem norm3_rot {q : Quat ℝ} (h : q.normSq = 1) (v : V3 ℝ) : norm3 (q.toRot *ᵥ v) = norm3 v := by
  unfold norm3
  rw [Trafo.sqNorm3_rot h]

theorem norm3_zero : norm3 0 = 0 := by simp [norm3, sqNorm3]

/-- The world frame alignment used for a pair: fixed by the first pair of the run. -/
noncomputable def alignOf (b : Trafo) (g : GtMsg) (e : EvalMsg) (v : Vars) : Trafo :=
  if v.ctr = 0 then (e.pose.mul b).mul g.pose.inv else v.align

/-- The travelled distance after a pair. -/
noncomputable def dsOf (g : GtMsg) (v : Vars) : ℝ :=
  v.ds + norm3 (g.pose.t - (if v.ctr = 0 then g.pose else v.gtLast).t)

/-- The pair is written to the file. -/
def Writes (g : GtMsg) (e : EvalMsg) (v : Vars) : Prop :=
  |g.stamp - e.time| < syncThreshold ∧ e.time - v.lastTime > rowStep

instance (g : GtMsg) (e : EvalMsg) (v : Vars) : Decidable (Writes g e v) := by
  unfold Writes; infer_instance

/-- The pose the estimate should have, given an alignment `a`. -/
def expected (a b : Trafo) (g : GtMsg) : Trafo := (a.mul g.pose).mul b.inv

/-- The row for an alignment `a` and a travelled distance. -/
noncomputable def rowOf (a b : Trafo) (start : ℚ) (g : GtMsg) (e : EvalMsg) (ds : ℝ) : Row :=
  ⟨g.stamp - start, ds, norm3 (e.pose.t - (expected a b g).t),
    2 * Real.arccos (min 1 |(e.pose.mul (expected a b g).inv).q.w|),
    Real.arccos (min 1 (![0, 0, 1] ⬝ᵥ ((e.pose.mul (expected a b g).inv).q.toRot *ᵥ ![0, 0, 1]))), e.cov⟩

/-- The result of a comparison without the normalizations. -/
noncomputable def compareU (b : Trafo) (start : ℚ) (g : GtMsg) (e : EvalMsg) (v : Vars) : Vars × List Row :=
  (⟨v.ctr + 1, dsOf g v, if Writes g e v then e.time else v.lastTime, g.pose, alignOf b g e v⟩,
    if Writes g e v then [rowOf (alignOf b g e v) b start g e (dsOf g v)] else [])

/-- The stored alignment is a rigid transformation as soon as it is used. -/
def Vars.Ok (v : Vars) : Prop := v.ctr ≠ 0 → v.align.Unit

theorem Vars.init_ok : Vars.init.Ok := fun h => (h rfl).elim

theorem alignOf_unit {b : Trafo} (hb : b.Unit) {g : GtMsg} (hg : g.pose.Unit) {e : EvalMsg}
    (he : e.pose.Unit) {v : Vars} (hv : v.Ok) : (alignOf b g e v).Unit := by
  unfold alignOf
  split
  · exact Trafo.unit_mul (Trafo.unit_mul he hb) (Trafo.unit_inv hg)
  · rename_i h
    exact hv h

theorem compare_eq {b : Trafo} (hb : b.Unit) (start : ℚ) {g : GtMsg} (hg : g.pose.Unit) {e : EvalMsg}
    (he : e.pose.Unit) {v : Vars} (hv : v.Ok) :
    compare b start g e v = some (compareU b start g e v) := by
  have hu := alignOf_unit hb hg he hv
  have h2 : (expected (alignOf b g e v) b g).Unit :=
    Trafo.unit_mul (Trafo.unit_mul hu hg) (Trafo.unit_inv hb)
  have h1 := Trafo.unit_mul he (Trafo.unit_inv h2)
  have key : compare b start g e v = (do
      let dT ← (e.pose.mul (expected (alignOf b g e v) b g).inv).normalized
      let waBaGt ← (expected (alignOf b g e v) b g).normalized
      if Writes g e v then
        pure (⟨v.ctr + 1, dsOf g v, e.time, g.pose, alignOf b g e v⟩,
          [⟨g.stamp - start, dsOf g v, norm3 (e.pose.t - waBaGt.t), 2 * Real.arccos (min 1 |dT.q.w|),
            Real.arccos (min 1 (![0, 0, 1] ⬝ᵥ (dT.q.toRot *ᵥ ![0, 0, 1]))), e.cov⟩])
      else
        pure (⟨v.ctr + 1, dsOf g v, v.lastTime, g.pose, alignOf b g e v⟩, [])) := rfl
  rw [key]
  simp only [Trafo.normalized_unit h1, Trafo.normalized_unit h2, Option.bind_eq_bind, Option.bind_some,
    compareU]
  split <;> rfl

theorem compareU_ok {b : Trafo} (hb : b.Unit) (start : ℚ) {g : GtMsg} (hg : g.pose.Unit) {e : EvalMsg}
    (he : e.pose.Unit) {v : Vars} (hv : v.Ok) : (compareU b start g e v).1.Ok :=
  fun _ => alignOf_unit hb hg he hv

theorem seek_sub (t : ℚ) (es : List EvalMsg) : ∀ e ∈ seek t es, e ∈ es := by
  induction es with
  | nil => simp [seek]
  | cons a l ih =>
    intro e he
    unfold seek at he
    split at he
    · exact List.mem_cons_of_mem _ (ih e he)
    · exact he

/-- The pairs the loop compares. -/
def pairSeq (start offset : ℚ) : List GtMsg → List EvalMsg → List (GtMsg × EvalMsg)
  | [], _ => []
  | g :: gs, es =>
    match seek g.stamp es with
    | [] => []
    | e :: es' =>
      if offset ≤ g.stamp - start then (g, e) :: pairSeq start offset gs (e :: es')
      else pairSeq start offset gs (e :: es')

/-- Comparison of a list of pairs. -/
noncomputable def foldU (b : Trafo) (start : ℚ) : List (GtMsg × EvalMsg) → Vars → Vars × List Row
  | [], v => (v, [])
  | p :: ps, v =>
    ((foldU b start ps (compareU b start p.1 p.2 v).1).1,
      (compareU b start p.1 p.2 v).2 ++ (foldU b start ps (compareU b start p.1 p.2 v).1).2)

theorem loop_eq {b : Trafo} (hb : b.Unit) (start offset : ℚ) (gs : List GtMsg)
    (hg : ∀ g ∈ gs, g.pose.Unit) : ∀ (es : List EvalMsg), (∀ e ∈ es, e.pose.Unit) →
      ∀ v : Vars, v.Ok → loop b start offset gs es v = some (foldU b start (pairSeq start offset gs es) v) := by
  induction gs with
  | nil => intros; rfl
  | cons g gs ih =>
    intro es he v hv
    have hg' := fun x hx => hg x (List.mem_cons_of_mem _ hx)
    cases h : seek g.stamp es with
    | nil => simp only [loop, pairSeq, h, foldU]
    | cons e es' =>
      have hs : ∀ x ∈ e :: es', x.pose.Unit := fun x hx => he x (seek_sub _ _ x (h ▸ hx))
      have hgu := hg g (by simp)
      have heu := hs e (by simp)
      simp only [loop, pairSeq, h]
      split
      · simp only [compare_eq hb start hgu heu hv, Option.bind_eq_bind, Option.bind_some,
          ih hg' _ hs _ (compareU_ok hb start hgu heu hv)]
        rfl
      · exact ih hg' _ hs _ hv

theorem foldU_ctr (b : Trafo) (start : ℚ) (ps : List (GtMsg × EvalMsg)) :
    ∀ v, (foldU b start ps v).1.ctr = v.ctr + ps.length := by
  induction ps with
  | nil => intro v; rfl
  | cons p ps ih =>
    intro v
    simp only [foldU, ih, compareU, List.length_cons]
    omega

/-- Where the pairs come from: ground truth late enough, paired with an estimate not before it. -/
theorem pairSeq_mem (start offset : ℚ) (gs : List GtMsg) :
    ∀ es, ∀ p ∈ pairSeq start offset gs es, p.1 ∈ gs ∧ p.2 ∈ es ∧ offset ≤ p.1.stamp - start := by
  induction gs with
  | nil => intro es p hp; cases hp
  | cons g gs ih =>
    intro es p hp
    cases h : seek g.stamp es with
    | nil => simp [pairSeq, h] at hp
    | cons e es' =>
      have hs : ∀ x ∈ e :: es', x ∈ es := fun x hx => seek_sub _ _ x (h ▸ hx)
      simp only [pairSeq, h] at hp
      have rest : p ∈ pairSeq start offset gs (e :: es') →
          p.1 ∈ g :: gs ∧ p.2 ∈ es ∧ offset ≤ p.1.stamp - start := fun hp =>
        ⟨List.mem_cons_of_mem _ (ih _ p hp).1, hs _ (ih _ p hp).2.1, (ih _ p hp).2.2⟩
      split at hp
      · rename_i ho
        rcases List.mem_cons.1 hp with rfl | hp
        · exact ⟨by simp, hs e (by simp), ho⟩
        · exact rest hp
      · exact rest hp

theorem seek_eq (t : ℚ) (es : List EvalMsg) : (seek t es).head? = es.find? (fun e => t ≤ e.time) := by
  induction es with
  | nil => rfl
  | cons a l ih =>
    unfold seek
    split
    · rename_i h
      rw [ih, List.find?_cons_of_neg (by simpa using h)]
    · rename_i h
      rw [List.find?_cons_of_pos (by simpa using h)]
      rfl

theorem seek_split (t : ℚ) (es : List EvalMsg) : ∃ pre, es = pre ++ seek t es ∧ ∀ e ∈ pre, e.time < t := by
  induction es with
  | nil => exact ⟨[], rfl, by simp⟩
  | cons a l ih =>
    unfold seek
    split
    · rename_i h
      obtain ⟨pre, h1, h2⟩ := ih
      refine ⟨a :: pre, by rw [List.cons_append, ← h1], ?_⟩
      intro e he
      rcases List.mem_cons.1 he with rfl | he
      · exact h
      · exact h2 e he
    · exact ⟨[], rfl, by simp⟩

/-- For ground truth in order of time the pairs are: every ground truth message late enough, with the
first estimate that is not before it. -/
theorem pairSeq_sorted (start offset : ℚ) (gs : List GtMsg)
    (hs : gs.Pairwise fun a b => a.time ≤ b.time) : ∀ pre es : List EvalMsg,
      (∀ g ∈ gs, ∀ e ∈ pre, e.time < g.stamp) →
      pairSeq start offset gs es = gs.filterMap fun g =>
        if offset ≤ g.stamp - start then
          ((pre ++ es).find? fun e => g.stamp ≤ e.time).map fun e => (g, e) else none := by
  induction gs with
  | nil => intros; rfl
  | cons g gs ih =>
    intro pre es hp
    obtain ⟨hg, hs⟩ := List.pairwise_cons.1 hs
    obtain ⟨pre', e1, e2⟩ := seek_split g.stamp es
    have hmono : ∀ x ∈ g :: gs, g.stamp ≤ x.stamp := by
      intro x hx
      rcases List.mem_cons.1 hx with rfl | hx
      · exact le_rfl
      · unfold GtMsg.stamp
        linarith [hg x hx]
    have hpre : ∀ x ∈ g :: gs, ∀ e ∈ pre ++ pre', e.time < x.stamp := by
      intro x hx e he
      rcases List.mem_append.1 he with he | he
      · exact hp x hx e he
      · exact (e2 e he).trans_le (hmono x hx)
    have hfind : (pre ++ es).find? (fun e => g.stamp ≤ e.time) = (seek g.stamp es).head? := by
      rw [seek_eq, List.find?_append, List.find?_eq_none.2, Option.none_or]
      intro e he
      simpa using hp g (by simp) e he
    have ih' := ih hs (pre ++ pre') (seek g.stamp es)
      (fun x hx => hpre x (List.mem_cons_of_mem _ hx))
    rw [List.append_assoc, ← e1] at ih'
    rw [List.filterMap_cons, hfind]
    cases h : seek g.stamp es with
    | nil =>
      simp only [pairSeq, h, List.head?_nil, Option.map_none, ite_self]
      symm
      rw [List.filterMap_eq_nil_iff]
      intro x hx
      rw [h, List.append_nil] at e1
      have hn : (pre ++ es).find? (fun e => x.stamp ≤ e.time) = none := by
        rw [List.find?_eq_none]
        intro e he
        rw [e1] at he
        simpa using hpre x (List.mem_cons_of_mem _ hx) e he
      simp [hn]
    | cons e es' =>
      rw [h] at ih'
      simp only [pairSeq, h, List.head?_cons, Option.map_some]
      by_cases ho : offset ≤ g.stamp - start
      · rw [if_pos ho, if_pos ho, ih']
      · rw [if_neg ho, if_neg ho, ih']

end Eval

end MSF
