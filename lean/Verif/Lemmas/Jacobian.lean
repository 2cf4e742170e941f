import Verif.Lemmas.Sensors
import Mathlib.Analysis.Calculus.Deriv.Inv

/-!
# Derivatives of the predicted measurements and products with the measurement matrices
-/

namespace MSF

open Matrix

theorem DerivAlong.unique {D : List VarDesc} {m : Nat} {res : Vars ℝ D → Option (Fin m → ℝ)}
    {s : Vars ℝ D} {δ : Fin (total errLen D) → ℝ} {d d' : Fin m → ℝ}
    (h : DerivAlong res s δ d) (h' : DerivAlong res s δ d') : d = d' := by
  obtain ⟨f, hf, hd⟩ := h
  obtain ⟨g, hg, hd'⟩ := h'
  have e : f =ᶠ[nhds 0] g := by
    filter_upwards [hf, hg] with ε h1 h2
    rw [h1] at h2
    exact Option.some.inj h2
  exact hd.unique (hd'.congr_of_eventuallyEq e)

/-! ### Position -/

section
variable {aux : List VarDesc}

theorem sensorPos_deriv (pip : Nat) (s : Vars ℝ (coreDef aux)) (l : V3 ℝ)
    (hn : ∀ i (hi : i < (coreDef aux).length), (coreDef aux)[i].name = i)
    (hp : PlainVars (coreDef aux)) (hu : UnitQuats s) (hl : getVec s pip 3 = some l)
    (δ : Fin (total errLen (coreDef aux)) → ℝ) :
    DerivAlong (sensorPos pip) s δ (segOf δ 0 3 +
      ((EKFState.q s).toRot * skew (segOf δ 2 3)) *ᵥ l + (EKFState.q s).toRot *ᵥ segOf δ pip 3) := by
  have hq : (EKFState.q s).normSq = 1 := getQuat_unit hu (getQuat_q s)
  refine ⟨fun ε => (EKFState.p s + ε • segOf δ 0 3) +
    ((EKFState.q s).mul (quatFromSmallAngle (ε • segOf δ 2 3))).toRot *ᵥ (l + ε • segOf δ pip 3),
    Filter.Eventually.of_forall fun ε => ?_, ?_⟩
  · obtain ⟨s', e, hv, hq'⟩ := correct_reads s (ε • δ) hn hp hu
    rw [e, Option.bind_some, sensorPos, hv pip 3 l hl]
    have h0 := hv 0 3 _ (getVec_p s)
    rw [getVec_p, Option.some.injEq] at h0
    have h2 := hq' 2 _ (getQuat_q s)
    rw [getQuat_q, Option.some.injEq] at h2
    simp only [Option.bind_eq_bind, Option.bind_some, h0, h2, segOf_smul, toRot_conj,
      Matrix.transpose_transpose]
  · have d1 := line_deriv (EKFState.p s) (segOf δ 0 3)
    have d2 := hasDerivAt_mulVec (rot_deriv (EKFState.q s) hq (segOf δ 2 3))
      (line_deriv l (segOf δ pip 3))
    refine (d1.add d2).congr_deriv ?_
    simp only [zero_smul, add_zero, quatFromSmallAngle_zero, Quat.mul_one']
    rw [add_assoc]

theorem DerivAlong.map {D : List VarDesc} {m k : Nat} {res : Vars ℝ D → Option (Fin m → ℝ)}
    {s : Vars ℝ D} {δ : Fin (total errLen D) → ℝ} {d : Fin m → ℝ}
    (h : DerivAlong res s δ d) {x0 : Fin m → ℝ} (h0 : ∃ s0, correct s 0 = some s0 ∧ res s0 = some x0)
    (g : (Fin m → ℝ) → Option (Fin k → ℝ)) (g' : (Fin m → ℝ) → Fin k → ℝ)
    (hg : ∀ᶠ x in nhds x0, g x = some (g' x)) {e : Fin k → ℝ}
    (he : ∀ f : ℝ → Fin m → ℝ, f 0 = x0 → HasDerivAt f d 0 → HasDerivAt (fun ε => g' (f ε)) e 0) :
    DerivAlong (fun s => (res s).bind g) s δ e := by
  obtain ⟨f, hf, hd⟩ := h
  have hf0 : f 0 = x0 := by
    have := hf.self_of_nhds
    obtain ⟨s0, e0, e1⟩ := h0
    rw [zero_smul, e0, Option.bind_some, e1] at this
    exact (Option.some.inj this).symm
  refine ⟨fun ε => g' (f ε), ?_, he f hf0 hd⟩
  have hc : ∀ᶠ ε in nhds (0 : ℝ), g (f ε) = some (g' (f ε)) := by
    have := hd.continuousAt.tendsto
    rw [hf0] at this
    exact this.eventually hg
  filter_upwards [hf, hc] with ε h1 h2
  cases hcs : correct s (ε • δ) with
  | none => rw [hcs] at h1; cases h1
  | some s' =>
    rw [hcs, Option.bind_some] at h1
    rw [Option.bind_some, h1, Option.bind_some, h2]

theorem correct_zero (s : Vars ℝ (coreDef aux))
    (hn : ∀ i (hi : i < (coreDef aux).length), (coreDef aux)[i].name = i)
    (hp : PlainVars (coreDef aux)) (hu : UnitQuats s) :
    ∃ s0, correct s 0 = some s0 ∧ (∀ i n u, getVec s i n = some u → getVec s0 i n = some u) ∧
      (∀ i u, getQuat s i = some u → getQuat s0 i = some u) := by
  obtain ⟨s', e, hv, hq⟩ := correct_reads s 0 hn hp hu
  have z : ∀ i n, segOf (0 : Fin (total errLen (coreDef aux)) → ℝ) i n = 0 := by
    intro i n
    have := segOf_smul (0 : Fin (total errLen (coreDef aux)) → ℝ) i n 0
    simpa using this
  refine ⟨s', e, fun i n u h => ?_, fun i u h => ?_⟩
  · have := hv i n u h
    rwa [z, add_zero] at this
  · have := hq i u h
    rwa [z, quatFromSmallAngle_zero, Quat.mul_one'] at this

theorem sensorPos_reads {pip : Nat} {s s0 : Vars ℝ (coreDef aux)} {l : V3 ℝ}
    (hl : getVec s pip 3 = some l)
    (hv : ∀ i n u, getVec s i n = some u → getVec s0 i n = some u)
    (hq : ∀ i u, getQuat s i = some u → getQuat s0 i = some u) : sensorPos pip s0 = sensorPos pip s := by
  have h0 := hv 0 3 _ (getVec_p s)
  rw [getVec_p, Option.some.injEq] at h0
  have h2 := hq 2 _ (getQuat_q s)
  rw [getQuat_q, Option.some.injEq] at h2
  rw [sensorPos, sensorPos, hl, hv _ _ _ hl, h0, h2]

theorem errLen_vec {D : List VarDesc} {s : Vars ℝ D} {i n : Nat} {x : Fin n → ℝ}
    (h : getVec s i n = some x) (hi : i < D.length) : errLen D[i] = n := by
  obtain ⟨_, hk⟩ := getVec_kind s h
  have : (D[i]).kind = .vec n := hk
  rw [errLen, this]; rfl

theorem errLen_quat {D : List VarDesc} {s : Vars ℝ D} {i : Nat} {x : Quat ℝ}
    (h : getQuat s i = some x) (hi : i < D.length) : errLen D[i] = 3 := by
  obtain ⟨_, hk⟩ := getQuat_kind s h
  have : (D[i]).kind = .quat := hk
  rw [errLen, this]; rfl

theorem pad_zero_full {m : Nat} (u : Fin m → ℝ) : (pad 0 u : Fin m → ℝ) = u := by
  funext r
  have := r.2
  simp only [pad]
  rw [dif_pos ⟨by omega, by omega⟩]
  rfl

theorem positionH_mulVec (pip fixed : Nat) (s : Vars ℝ (coreDef aux)) (l : V3 ℝ)
    (hn : ∀ i (hi : i < (coreDef aux).length), (coreDef aux)[i].name = i)
    (hl : getVec s pip 3 = some l) (h0 : pip ≠ 0) :
    ∃ H, positionH pip fixed s = some H ∧ ∀ δ, H *ᵥ δ = segOf δ 0 3 +
      (-(EKFState.q s).toRot * skew l) *ᵥ segOf δ 2 3 +
      (if fixed.testBit pip then 0 else (EKFState.q s).toRot *ᵥ segOf δ pip 3) := by
  have hi := indexingErrors_eq_zero.2 hn
  obtain ⟨hlt, hk⟩ := getVec_kind s hl
  have h2 : pip ≠ 2 := by
    rintro rfl
    cases hk
  have l0 : 0 < (coreDef aux).length := by simp [coreDef, coreDescs]
  have l2 : 2 < (coreDef aux).length := by simp [coreDef, coreDescs]
  have c0 : errLen (coreDef aux)[0] = 3 := rfl
  have c2 : errLen (coreDef aux)[2] = 3 := rfl
  obtain ⟨H1, e1, m1, z1⟩ := putBlock_mulVec (m := 3) hi 0 0 0 l0 (1 : M33 ℝ) 0 (by rw [c0])
    (by norm_num) (zeroVar_zero _ _ _ _)
  obtain ⟨H2, e2, m2, z2⟩ := putBlock_mulVec hi H1 0 2 l2 (-(EKFState.q s).toRot * skew l) 0
    (by rw [c2]) (by norm_num) (z1 _ _ _ _ (zeroVar_zero _ _ _ _) (Or.inl (by decide)))
  obtain ⟨H3, e3, m3, z3⟩ := putBlock_mulVec hi H2 0 pip hlt
    (if fixed.testBit pip then 0 else (EKFState.q s).toRot) 0
    (by rw [errLen_vec hl hlt]) (by norm_num)
    (z2 _ _ _ _ (z1 _ _ _ _ (zeroVar_zero _ _ _ _) (Or.inl h0.symm)) (Or.inl h2.symm))
  refine ⟨H3, ?_, fun δ => ?_⟩
  · rw [positionH, hl]
    simp only [Option.bind_eq_bind, Option.bind_some, toRot_conj, Matrix.transpose_transpose, e1,
      e2, e3]
  · rw [m3, m2, m1]
    simp only [pad_zero_full, Matrix.one_mulVec, Matrix.zero_mulVec, zero_add, add_zero]
    split
    · rw [Matrix.zero_mulVec]; rfl
    · rfl

theorem pressureH_mulVec (bp : Nat) (s : Vars ℝ (coreDef aux)) (b : Fin 1 → ℝ)
    (hn : ∀ i (hi : i < (coreDef aux).length), (coreDef aux)[i].name = i)
    (hl : getVec s bp 1 = some b) :
    ∃ H, pressureH (R := ℝ) (aux := aux) bp = some H ∧
      ∀ δ, H *ᵥ δ = fun _ => segOf δ 0 3 2 - segOf δ bp 1 0 := by
  have hi := indexingErrors_eq_zero.2 hn
  obtain ⟨hlt, hk⟩ := getVec_kind s hl
  have h0 : bp ≠ 0 := by
    rintro rfl
    cases hk
  have l0 : 0 < (coreDef aux).length := by simp [coreDef, coreDescs]
  have c0 : errLen (coreDef aux)[0] = 3 := rfl
  obtain ⟨H1, e1, m1, z1⟩ := putBlock_mulVec (m := 1) hi 0 0 0 l0 (1 : Matrix (Fin 1) (Fin 1) ℝ) 2
    (by rw [c0]) (by norm_num) (zeroVar_zero _ _ _ _)
  obtain ⟨H2, e2, m2, z2⟩ := putBlock_mulVec hi H1 0 bp hlt (-1 : Matrix (Fin 1) (Fin 1) ℝ) 0
    (by rw [errLen_vec hl hlt]) (by norm_num)
    (z1 _ _ _ _ (zeroVar_zero _ _ _ _) (Or.inl h0.symm))
  refine ⟨H2, ?_, fun δ => ?_⟩
  · rw [pressureH]
    simp only [Option.bind_eq_bind, Option.bind_some, e1, e2]
  · rw [m2, m1]
    simp only [pad_zero_full, Matrix.one_mulVec, Matrix.zero_mulVec, zero_add, add_zero,
      Matrix.neg_mulVec]
    funext r
    have hr : r = 0 := Subsingleton.elim _ _
    subst hr
    simp only [Pi.add_apply, Pi.neg_apply, segOf, segD]
    rw [sub_eq_add_neg]
    rfl

/-! ### Pose -/

theorem poseView_reads {ix : PoseIdx} {s : Vars ℝ (coreDef aux)} {v : PoseView ℝ}
    (h : poseView ix s = some v) :
    v.p = EKFState.p s ∧ v.q = EKFState.q s ∧ getVec s ix.L 1 = some (fun _ => v.L) ∧
      getQuat s ix.qic = some v.qic ∧ getVec s ix.pic 3 = some v.pic ∧
      getQuat s ix.qwv = some v.qwv ∧ getVec s ix.pwv 3 = some v.pwv := by
  unfold poseView at h
  simp only [Option.bind_eq_bind] at h
  cases h1 : getVec s ix.L 1 with
  | none => rw [h1] at h; cases h
  | some L =>
  rw [h1, Option.bind_some] at h
  cases h2 : getQuat s ix.qic with
  | none => rw [h2] at h; cases h
  | some qic =>
  rw [h2, Option.bind_some] at h
  cases h3 : getVec s ix.pic 3 with
  | none => rw [h3] at h; cases h
  | some pic =>
  rw [h3, Option.bind_some] at h
  cases h4 : getQuat s ix.qwv with
  | none => rw [h4] at h; cases h
  | some qwv =>
  rw [h4, Option.bind_some] at h
  cases h5 : getVec s ix.pwv 3 with
  | none => rw [h5] at h; cases h
  | some pwv =>
  rw [h5, Option.bind_some] at h
  rw [← Option.some.inj h]
  refine ⟨rfl, rfl, ?_, rfl, rfl, rfl, rfl⟩
  congr 1
  funext j
  congr 1
  exact Subsingleton.elim _ _

theorem poseView_mk {ix : PoseIdx} {s : Vars ℝ (coreDef aux)} {L : Fin 1 → ℝ} {qic qwv : Quat ℝ}
    {pic pwv : V3 ℝ} (h1 : getVec s ix.L 1 = some L) (h2 : getQuat s ix.qic = some qic)
    (h3 : getVec s ix.pic 3 = some pic) (h4 : getQuat s ix.qwv = some qwv)
    (h5 : getVec s ix.pwv 3 = some pwv) :
    poseView ix s = some ⟨EKFState.p s, EKFState.q s, L 0, qic, pic, qwv, pwv⟩ := by
  unfold poseView
  simp only [Option.bind_eq_bind, h1, h2, h3, h4, h5, Option.bind_some]

/-- The product of the pose measurement matrix with an error state. -/
theorem poseH_mulVec (ix : PoseIdx) (fixed : Nat) (s : Vars ℝ (coreDef aux)) (v : PoseView ℝ)
    (hn : ∀ i (hi : i < (coreDef aux).length), (coreDef aux)[i].name = i)
    (hv : poseView ix s = some v)
    (hd : [0, 2, ix.L, ix.qic, ix.pic, ix.qwv, ix.pwv].Nodup) :
    ∃ H, poseH ix fixed s = some H ∧ ∀ δ, H *ᵥ δ =
      pad 0 ((v.L • v.qwv.toRot) *ᵥ segOf δ 0 3) +
      pad 0 ((v.L • (-v.qwv.toRot * v.q.toRot * skew v.pic)) *ᵥ segOf δ 2 3) +
      pad 0 ((if fixed.testBit ix.L then 0 else
        Matrix.of fun i (_ : Fin 1) => ((v.qwv.toRot * v.q.toRot) *ᵥ v.pic +
          v.qwv.toRot *ᵥ (-v.pwv + v.p)) i) *ᵥ segOf δ ix.L 1) +
      pad 0 ((if fixed.testBit ix.qwv then 0 else
        -v.qwv.toRot * skew (v.L • (-v.pwv + v.p + v.q.toRot *ᵥ v.pic))) *ᵥ segOf δ ix.qwv 3) +
      pad 0 ((if fixed.testBit ix.pic then 0 else v.L • (v.qwv.toRot * v.q.toRot)) *ᵥ
        segOf δ ix.pic 3) +
      pad 0 ((if fixed.testBit ix.pwv then 0 else (-1 : M33 ℝ)) *ᵥ segOf δ ix.pwv 3) +
      pad 3 (v.qic.conj.toRot *ᵥ segOf δ 2 3) +
      pad 3 ((if fixed.testBit ix.qwv then 0 else v.qic.conj.toRot * v.q.toRotᵀ) *ᵥ
        segOf δ ix.qwv 3) +
      pad 3 ((if fixed.testBit ix.qic then 0 else (1 : M33 ℝ)) *ᵥ segOf δ ix.qic 3) := by
  have hi := indexingErrors_eq_zero.2 hn
  obtain ⟨r1, r2, rL, rqic, rpic, rqwv, rpwv⟩ := poseView_reads hv
  obtain ⟨lL, -⟩ := getVec_kind s rL
  obtain ⟨lqic, -⟩ := getQuat_kind s rqic
  obtain ⟨lpic, -⟩ := getVec_kind s rpic
  obtain ⟨lqwv, -⟩ := getQuat_kind s rqwv
  obtain ⟨lpwv, -⟩ := getVec_kind s rpwv
  have l0 : 0 < (coreDef aux).length := by simp [coreDef, coreDescs]
  have l2 : 2 < (coreDef aux).length := by simp [coreDef, coreDescs]
  have c0 : errLen (coreDef aux)[0] = 3 := rfl
  have c2 : errLen (coreDef aux)[2] = 3 := rfl
  simp only [List.nodup_cons, List.mem_cons, List.not_mem_nil, or_false, not_or,
    not_false_eq_true, List.nodup_nil, and_true] at hd
  obtain ⟨⟨h02, h0L, h0qi, h0pi, h0qw, h0pw⟩, ⟨h2L, h2qi, h2pi, h2qw, h2pw⟩,
    ⟨hLqi, hLpi, hLqw, hLpw⟩, ⟨hqipi, hqiqw, hqipw⟩, ⟨hpiqw, hpipw⟩, hqwpw⟩ := hd
  obtain ⟨H1, e1, m1, z1⟩ := putBlock_mulVec (m := 7) hi 0 0 0 l0 (v.L • v.qwv.toRot) 0
    (by rw [c0]) (by norm_num) (zeroVar_zero _ _ _ _)
  obtain ⟨H2, e2, m2, z2⟩ := putBlock_mulVec hi H1 0 2 l2
    (v.L • (-v.qwv.toRot * v.q.toRot * skew v.pic)) 0 (by rw [c2]) (by norm_num)
    (z1 _ _ _ _ (zeroVar_zero _ _ _ _) (Or.inl h02))
  obtain ⟨H3, e3, m3, z3⟩ := putBlock_mulVec hi H2 0 ix.L lL
    (if fixed.testBit ix.L then 0 else
        Matrix.of fun i (_ : Fin 1) => ((v.qwv.toRot * v.q.toRot) *ᵥ v.pic +
          v.qwv.toRot *ᵥ (-v.pwv + v.p)) i) 0 (by rw [errLen_vec rL lL]) (by norm_num)
    (z2 _ _ _ _ (z1 _ _ _ _ (zeroVar_zero _ _ _ _) (Or.inl h0L)) (Or.inl h2L))
  obtain ⟨H4, e4, m4, z4⟩ := putBlock_mulVec hi H3 0 ix.qwv lqwv
    (if fixed.testBit ix.qwv then 0 else
        -v.qwv.toRot * skew (v.L • (-v.pwv + v.p + v.q.toRot *ᵥ v.pic))) 0
    (by rw [errLen_quat rqwv lqwv]) (by norm_num)
    (z3 _ _ _ _ (z2 _ _ _ _ (z1 _ _ _ _ (zeroVar_zero _ _ _ _) (Or.inl h0qw)) (Or.inl h2qw))
      (Or.inl hLqw))
  obtain ⟨H5, e5, m5, z5⟩ := putBlock_mulVec hi H4 0 ix.pic lpic
    (if fixed.testBit ix.pic then 0 else v.L • (v.qwv.toRot * v.q.toRot)) 0
    (by rw [errLen_vec rpic lpic]) (by norm_num)
    (z4 _ _ _ _ (z3 _ _ _ _ (z2 _ _ _ _ (z1 _ _ _ _ (zeroVar_zero _ _ _ _) (Or.inl h0pi))
      (Or.inl h2pi)) (Or.inl hLpi)) (Or.inl (Ne.symm hpiqw)))
  obtain ⟨H6, e6, m6, z6⟩ := putBlock_mulVec hi H5 0 ix.pwv lpwv
    (if fixed.testBit ix.pwv then 0 else (-1 : M33 ℝ)) 0
    (by rw [errLen_vec rpwv lpwv]) (by norm_num)
    (z5 _ _ _ _ (z4 _ _ _ _ (z3 _ _ _ _ (z2 _ _ _ _ (z1 _ _ _ _ (zeroVar_zero _ _ _ _)
      (Or.inl h0pw)) (Or.inl h2pw)) (Or.inl hLpw)) (Or.inl hqwpw)) (Or.inl hpipw))
  have zz : ∀ i (hi' : i < (coreDef aux).length), ZeroVar H6 3 3 i hi' := fun i hi' =>
    z6 _ _ _ _ (z5 _ _ _ _ (z4 _ _ _ _ (z3 _ _ _ _ (z2 _ _ _ _ (z1 _ _ _ _
      (zeroVar_zero _ _ _ _) (Or.inr (Or.inl (by norm_num)))) (Or.inr (Or.inl (by norm_num))))
      (Or.inr (Or.inl (by norm_num)))) (Or.inr (Or.inl (by norm_num))))
      (Or.inr (Or.inl (by norm_num)))) (Or.inr (Or.inl (by norm_num)))
  obtain ⟨H7, e7, m7, z7⟩ := putBlock_mulVec hi H6 3 2 l2 v.qic.conj.toRot 0
    (by rw [c2]) (by norm_num) (zz _ _)
  obtain ⟨H8, e8, m8, z8⟩ := putBlock_mulVec hi H7 3 ix.qwv lqwv
    (if fixed.testBit ix.qwv then 0 else v.qic.conj.toRot * v.q.toRotᵀ) 0
    (by rw [errLen_quat rqwv lqwv]) (by norm_num) (z7 _ _ _ _ (zz _ _) (Or.inl h2qw))
  obtain ⟨H9, e9, m9, z9⟩ := putBlock_mulVec hi H8 3 ix.qic lqic
    (if fixed.testBit ix.qic then 0 else (1 : M33 ℝ)) 0
    (by rw [errLen_quat rqic lqic]) (by norm_num)
    (z8 _ _ _ _ (z7 _ _ _ _ (zz _ _) (Or.inl h2qi)) (Or.inl (Ne.symm hqiqw)))
  refine ⟨H9, ?_, fun δ => ?_⟩
  · rw [poseH, hv]
    simp only [Option.bind_eq_bind, Option.bind_some, e1, e2, e3, e4, e5, e6, e7, e8, e9]
  · rw [m9, m8, m7, m6, m5, m4, m3, m2, m1]
    simp only [Matrix.zero_mulVec, zero_add, add_zero, segOf]

/-- Half of a vector as a pure quaternion. -/
noncomputable def pureH (u : V3 ℝ) : Quat ℝ := ⟨0, u 0 / 2, u 1 / 2, u 2 / 2⟩

theorem pureH_mul (a : Quat ℝ) (ha : a.normSq = 1) (u : V3 ℝ) :
    (pureH u).mul a = a.mul (pureH (a.toRotᵀ *ᵥ u)) := by
  have h : a.w * a.w + a.x * a.x + a.y * a.y + a.z * a.z = 1 := ha
  have e : (a.conj.mul (pureH u)).mul a = pureH (a.toRotᵀ *ᵥ u) := by
    ext
    · simp [pureH, Quat.mul, Quat.conj]; ring
    · simp [pureH, Quat.mul, Quat.conj, Quat.toRot, Matrix.mulVec, dotProduct, Fin.sum_univ_three]
      linear_combination (u 0 / 2) * h
    · simp [pureH, Quat.mul, Quat.conj, Quat.toRot, Matrix.mulVec, dotProduct, Fin.sum_univ_three]
      linear_combination (u 1 / 2) * h
    · simp [pureH, Quat.mul, Quat.conj, Quat.toRot, Matrix.mulVec, dotProduct, Fin.sum_univ_three]
      linear_combination (u 2 / 2) * h
  rw [← e, Quat.mul_assoc', ← Quat.mul_assoc', Quat.mul_conj_self, ha]
  exact (Quat.one_mul' _).symm

theorem qadd_pureH (a : Quat ℝ) (u v : V3 ℝ) :
    qadd (a.mul (pureH u)) (a.mul (pureH v)) = a.mul (pureH (u + v)) := by
  ext <;> simp [qadd, Quat.mul, pureH] <;> ring

theorem qadd_mul (a b c : Quat ℝ) : (qadd a b).mul c = qadd (a.mul c) (b.mul c) := by
  ext <;> simp [qadd, Quat.mul] <;> ring

theorem qadd_zero_mul (a b : Quat ℝ) : qadd ((⟨0, 0, 0, 0⟩ : Quat ℝ).mul a) b = b := by
  ext <;> simp [qadd, Quat.mul]

theorem smallAngle_deriv' (θ : V3 ℝ) :
    QDeriv (fun ε : ℝ => quatFromSmallAngle (ε • θ)) (pureH θ) 0 := smallAngle_deriv θ

theorem pert_deriv (q : Quat ℝ) (θ : V3 ℝ) :
    QDeriv (fun ε : ℝ => q.mul (quatFromSmallAngle (ε • θ))) (q.mul (pureH θ)) 0 := by
  have := (QDeriv.const q 0).mul (smallAngle_deriv' θ)
  rwa [qadd_zero_mul] at this

/-- The derivative of the predicted attitude. -/
theorem predAtt_deriv (qwv q qic : Quat ℝ) (hq : q.normSq = 1)
    (hic : qic.normSq = 1) (a b c : V3 ℝ) :
    QDeriv (fun ε : ℝ => ((qwv.mul (quatFromSmallAngle (ε • a))).mul
        (q.mul (quatFromSmallAngle (ε • b)))).mul (qic.mul (quatFromSmallAngle (ε • c))))
      (((qwv.mul q).mul qic).mul (pureH (qic.toRotᵀ *ᵥ (q.toRotᵀ *ᵥ a + b) + c))) 0 := by
  have d := ((pert_deriv qwv a).mul (pert_deriv q b)).mul (pert_deriv qic c)
  simp only [zero_smul, quatFromSmallAngle_zero, Quat.mul_one'] at d
  have e1 : qadd ((qwv.mul (pureH a)).mul q) (qwv.mul (q.mul (pureH b))) =
      (qwv.mul q).mul (pureH (q.toRotᵀ *ᵥ a + b)) := by
    rw [Quat.mul_assoc', pureH_mul q hq, ← Quat.mul_assoc', ← Quat.mul_assoc', qadd_pureH]
  rw [e1, Quat.mul_assoc', pureH_mul qic hic, ← Quat.mul_assoc', ← Quat.mul_assoc', qadd_pureH] at d
  exact d

theorem rows7_deriv {a b : ℝ → V3 ℝ} {c : ℝ → ℝ} {a' b' : V3 ℝ} {c' t : ℝ}
    (ha : HasDerivAt a a' t) (hb : HasDerivAt b b' t) (hc : HasDerivAt c c' t) :
    HasDerivAt (fun ε => rows7 (a ε) (b ε) (c ε)) (rows7 a' b' c') t := by
  rw [hasDerivAt_pi] at ha hb ⊢
  intro i
  fin_cases i
  · exact ha 0
  · exact ha 1
  · exact ha 2
  · exact hb 0
  · exact hb 1
  · exact hb 2
  · exact hc

/-- The derivative of the yaw residual for a rotation vector `θ` of `q_wv`. -/
noncomputable def yawDeriv (q : Quat ℝ) (θ : V3 ℝ) : ℝ :=
  let d := q.mul (pureH θ)
  let n := -2 * (q.w * q.z + q.x * q.y)
  let n' := -2 * (d.w * q.z + q.w * d.z + (d.x * q.y + q.x * d.y))
  let m := 1 - 2 * (q.y * q.y + q.z * q.z)
  let m' := -(2 * (d.y * q.y + q.y * d.y + (d.z * q.z + q.z * d.z)))
  (n' * m - n * m') / m ^ 2

/-- The derivative of the predicted position. -/
noncomputable def posDeriv (v : PoseView ℝ) (dp θq dpic θwv dpwv : V3 ℝ) (dL : ℝ) : V3 ℝ :=
  dL • (v.qwv.toRot *ᵥ (-v.pwv + v.p + v.q.toRot *ᵥ v.pic)) +
    v.L • ((v.qwv.toRot * skew θwv) *ᵥ (-v.pwv + v.p + v.q.toRot *ᵥ v.pic) +
      v.qwv.toRot *ᵥ (-dpwv + dp + ((v.q.toRot * skew θq) *ᵥ v.pic + v.q.toRot *ᵥ dpic)))

/-- The derivative of the pose residual at a state whose attitude residual is zero. -/
theorem pose_deriv (ix : PoseIdx) (s : Vars ℝ (coreDef aux)) (v : PoseView ℝ)
    (hn : ∀ i (hi : i < (coreDef aux).length), (coreDef aux)[i].name = i)
    (hp : PlainVars (coreDef aux)) (hu : UnitQuats s) (hv : poseView ix s = some v)
    (z_p : V3 ℝ) (z_q : Quat ℝ) (hz : attResidual (v.predAtt.conj.mul z_q) = some 0)
    (hy : 1 - 2 * (v.qwv.y * v.qwv.y + v.qwv.z * v.qwv.z) ≠ 0)
    (δ : Fin (total errLen (coreDef aux)) → ℝ) :
    DerivAlong (fun s => (poseView ix s).bind fun v => v.residual z_p z_q) s δ
      (rows7 (-posDeriv v (segOf δ 0 3) (segOf δ 2 3) (segOf δ ix.pic 3) (segOf δ ix.qwv 3)
          (segOf δ ix.pwv 3) (segOf δ ix.L 1 0))
        (-(v.qic.toRotᵀ *ᵥ (v.q.toRotᵀ *ᵥ segOf δ ix.qwv 3 + segOf δ 2 3) + segOf δ ix.qic 3))
        (yawDeriv v.qwv (segOf δ ix.qwv 3))) := by
  obtain ⟨r1, r2, rL, rqic, rpic, rqwv, rpwv⟩ := poseView_reads hv
  have uq : v.q.normSq = 1 := by rw [r2]; exact getQuat_unit hu (getQuat_q s)
  have uqic : v.qic.normSq = 1 := getQuat_unit hu rqic
  have uqwv : v.qwv.normSq = 1 := getQuat_unit hu rqwv
  -- the perturbed view
  let w : ℝ → PoseView ℝ := fun ε =>
    ⟨v.p + ε • segOf δ 0 3, v.q.mul (quatFromSmallAngle (ε • segOf δ 2 3)),
      v.L + ε * segOf δ ix.L 1 0, v.qic.mul (quatFromSmallAngle (ε • segOf δ ix.qic 3)),
      v.pic + ε • segOf δ ix.pic 3, v.qwv.mul (quatFromSmallAngle (ε • segOf δ ix.qwv 3)),
      v.pwv + ε • segOf δ ix.pwv 3⟩
  have hw : ∀ ε, (correct s (ε • δ)).bind (poseView ix) = some (w ε) := by
    intro ε
    obtain ⟨s', e, hv', hq'⟩ := correct_reads s (ε • δ) hn hp hu
    have h0 := hv' 0 3 _ (getVec_p s)
    rw [getVec_p, Option.some.injEq] at h0
    have h2 := hq' 2 _ (getQuat_q s)
    rw [getQuat_q, Option.some.injEq] at h2
    rw [e, Option.bind_some, poseView_mk (hv' _ _ _ rL) (hq' _ _ rqic) (hv' _ _ _ rpic)
      (hq' _ _ rqwv) (hv' _ _ _ rpwv), h0, h2, ← r1, ← r2]
    simp only [segOf_smul, w, Pi.add_apply, Pi.smul_apply, smul_eq_mul]
  -- attitude
  have hA : QDeriv (fun ε => (w ε).predAtt) (v.predAtt.mul (pureH (v.qic.toRotᵀ *ᵥ
      (v.q.toRotᵀ *ᵥ segOf δ ix.qwv 3 + segOf δ 2 3) + segOf δ ix.qic 3))) 0 :=
    predAtt_deriv v.qwv v.q v.qic uq uqic _ _ _
  have hE := hA.conj.mul (QDeriv.const z_q 0)
  set φ := v.qic.toRotᵀ *ᵥ (v.q.toRotᵀ *ᵥ segOf δ ix.qwv 3 + segOf δ 2 3) + segOf δ ix.qic 3
    with hφ
  have w0 : w 0 = v := by
    simp only [w, zero_smul, zero_mul, add_zero, quatFromSmallAngle_zero, Quat.mul_one']
  obtain ⟨c, hc, hE0⟩ : ∃ c : ℝ, c ≠ 0 ∧ v.predAtt.conj.mul z_q = ⟨c, 0, 0, 0⟩ := by
    generalize v.predAtt.conj.mul z_q = e at hz
    unfold attResidual at hz
    split at hz
    · cases hz
    · rename_i hw
      have := Option.some.inj hz
      have g : ∀ i, e.vec i = 0 := by
        intro i
        have := congrFun this i
        simp only [Pi.zero_apply] at this
        have h2 : e.vec i / e.w = 0 := by linarith
        rcases div_eq_zero_iff.1 h2 with h | h
        · exact h
        · exact absurd h hw
      refine ⟨e.w, hw, ?_⟩
      ext
      · rfl
      · exact g 0
      · exact g 1
      · exact g 2
  have hE' : qadd (((v.predAtt.mul (pureH φ)).conj).mul z_q)
      ((w 0).predAtt.conj.mul ⟨0, 0, 0, 0⟩) =
      ⟨0, -(c * φ 0 / 2), -(c * φ 1 / 2), -(c * φ 2 / 2)⟩ := by
    rw [Quat.conj_mul, Quat.mul_assoc', hE0]
    ext <;> simp [qadd, Quat.mul, Quat.conj, pureH] <;> ring
  rw [hE'] at hE
  have e0w : ((w 0).predAtt.conj.mul z_q) = ⟨c, 0, 0, 0⟩ := by rw [w0, hE0]
  have hatt : HasDerivAt (fun ε => fun i => ((w ε).predAtt.conj.mul z_q).vec i /
      ((w ε).predAtt.conj.mul z_q).w * 2) (-φ) 0 := by
    rw [hasDerivAt_pi]
    have hwne : ((w 0).predAtt.conj.mul z_q).w ≠ 0 := by rw [e0w]; exact hc
    intro i
    fin_cases i
    · refine ((hE.x.div hE.w hwne).mul_const 2).congr_deriv ?_
      rw [e0w]; simp; field_simp
    · refine ((hE.y.div hE.w hwne).mul_const 2).congr_deriv ?_
      rw [e0w]; simp; field_simp
    · refine ((hE.z.div hE.w hwne).mul_const 2).congr_deriv ?_
      rw [e0w]; simp; field_simp
  have hattne : ∀ᶠ ε in nhds (0 : ℝ), ((w ε).predAtt.conj.mul z_q).w ≠ 0 := by
    apply hE.w.continuousAt.eventually_ne
    rw [e0w]
    exact hc
  -- yaw
  have hY := pert_deriv v.qwv (segOf δ ix.qwv 3)
  have hden : HasDerivAt (fun ε => 1 - 2 * ((w ε).qwv.y * (w ε).qwv.y + (w ε).qwv.z * (w ε).qwv.z)) _ 0 :=
    (((hY.y.mul hY.y).add (hY.z.mul hY.z)).const_mul 2).const_sub 1
  have hnum : HasDerivAt (fun ε => -2 * ((w ε).qwv.w * (w ε).qwv.z + (w ε).qwv.x * (w ε).qwv.y)) _ 0 :=
    ((hY.w.mul hY.z).add (hY.x.mul hY.y)).const_mul (-2)
  have hy0 : 1 - 2 * ((w 0).qwv.y * (w 0).qwv.y + (w 0).qwv.z * (w 0).qwv.z) ≠ 0 := by
    rw [w0]; exact hy
  have hyaw := hnum.div hden hy0
  have hyne : ∀ᶠ ε in nhds (0 : ℝ),
      1 - 2 * ((w ε).qwv.y * (w ε).qwv.y + (w ε).qwv.z * (w ε).qwv.z) ≠ 0 :=
    hden.continuousAt.eventually_ne hy0
  -- position
  have dA := rot_deriv v.qwv uqwv (segOf δ ix.qwv 3)
  have dB := rot_deriv v.q uq (segOf δ 2 3)
  have d1 := hasDerivAt_mulVec dB (line_deriv v.pic (segOf δ ix.pic 3))
  have d2 := ((line_deriv v.pwv (segOf δ ix.pwv 3)).neg.add
    (line_deriv v.p (segOf δ 0 3))).add d1
  have d3 := hasDerivAt_mulVec dA d2
  have dL : HasDerivAt (fun ε : ℝ => v.L + ε * segOf δ ix.L 1 0) (segOf δ ix.L 1 0) 0 := by
    have := ((hasDerivAt_id (0 : ℝ)).mul_const (segOf δ ix.L 1 0)).const_add v.L
    rw [one_mul] at this
    exact this
  have d4 := (dL.smul d3).const_sub z_p
  have hpos : HasDerivAt (fun ε => z_p - (w ε).predPos) (-posDeriv v (segOf δ 0 3) (segOf δ 2 3)
      (segOf δ ix.pic 3) (segOf δ ix.qwv 3) (segOf δ ix.pwv 3) (segOf δ ix.L 1 0)) 0 := by
    refine (d4.congr_of_eventuallyEq (Filter.Eventually.of_forall fun ε => ?_)).congr_deriv ?_
    · simp only [PoseView.predPos, w, toRot_conj, Matrix.transpose_transpose]
      rfl
    · simp only [zero_smul, zero_mul, add_zero, quatFromSmallAngle_zero, Quat.mul_one',
        posDeriv, Pi.add_apply, Pi.neg_apply]
      rw [add_comm (v.L • _)]
  refine ⟨fun ε => rows7 (z_p - (w ε).predPos)
    (fun i => ((w ε).predAtt.conj.mul z_q).vec i / ((w ε).predAtt.conj.mul z_q).w * 2)
    (-2 * ((w ε).qwv.w * (w ε).qwv.z + (w ε).qwv.x * (w ε).qwv.y) /
      (1 - 2 * ((w ε).qwv.y * (w ε).qwv.y + (w ε).qwv.z * (w ε).qwv.z))), ?_, ?_⟩
  · filter_upwards [hattne, hyne] with ε h1 h2
    have := hw ε
    cases hcs : correct s (ε • δ) with
    | none => rw [hcs] at this; cases this
    | some s' =>
      rw [hcs, Option.bind_some] at this
      rw [Option.bind_some, this, Option.bind_some]
      unfold PoseView.residual attResidual yawResidual
      rw [if_neg h1, if_neg h2]
      rfl
  · refine rows7_deriv hpos hatt (hyaw.congr_deriv ?_)
    simp only [yawDeriv, w0, zero_smul, quatFromSmallAngle_zero, Quat.mul_one']

end

end MSF
