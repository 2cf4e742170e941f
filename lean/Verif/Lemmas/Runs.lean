import Verif.Lemmas.KernelInv
import Verif.Props.Readings
import Verif.Props.FixedStates

/-! Invariants of the concrete kernel. -/

namespace MSF

open Matrix EKFState Core

variable {aux : List VarDesc}

/-- The ways `Apply` of an absolute measurement can end. -/
theorem sensorUpdate_cases {uc : UserCalc (coreDef aux)} {tr : Tracker ℝ}
    {m : SensorMeas (coreDef aux)} {x : Values (coreDef aux)} {P : ErrMat ℝ (coreDef aux)}
    {u : Upd (Values (coreDef aux)) (ErrMat ℝ (coreDef aux)) (Tracker ℝ)}
    (h : sensorUpdate uc tr m x P = some u) :
    ∃ P1 H r, clearFixed m.fixed m.cleared P = some P1 ∧ m.H (toVars x) = some H ∧
      m.r (toVars x) = some r ∧
      ((calculateCorrection m.enable m.thr P1 H r m.R = some none ∧ u = ⟨tr, x, P1, false, false⟩) ∨
        ∃ c P' t' vars fz, calculateCorrection m.enable m.thr P1 H r m.R = some (some (c, P')) ∧
          applyCorrection uc tr (toVars x) c = some (t', vars, fz) ∧
          u = ⟨t', values vars, P', true, fz⟩) := by
  unfold sensorUpdate measUpdate at h
  simp only [Option.bind_eq_bind] at h
  obtain ⟨P1, hP1, h⟩ := Option.bind_eq_some_iff.1 h
  obtain ⟨H, hH, h⟩ := Option.bind_eq_some_iff.1 h
  obtain ⟨r, hr, h⟩ := Option.bind_eq_some_iff.1 h
  obtain ⟨o, ho, h⟩ := Option.bind_eq_some_iff.1 h
  refine ⟨P1, H, r, hP1, hH, hr, ?_⟩
  cases o with
  | none => cases h; exact .inl ⟨ho, rfl⟩
  | some cp =>
    obtain ⟨c, P'⟩ := cp
    obtain ⟨⟨t', vars, fz⟩, ha, h⟩ := Option.bind_eq_some_iff.1 h
    cases h
    exact .inr ⟨c, P', t', vars, fz, ho, ha, rfl⟩

theorem sensorUpdate_applied {uc : UserCalc (coreDef aux)} {tr : Tracker ℝ}
    {m : SensorMeas (coreDef aux)} {x : Values (coreDef aux)} {P P1 : ErrMat ℝ (coreDef aux)} {H r}
    {c P' t' vars fz} (h1 : clearFixed m.fixed m.cleared P = some P1) (hH : m.H (toVars x) = some H)
    (hr : m.r (toVars x) = some r)
    (hc : calculateCorrection m.enable m.thr P1 H r m.R = some (some (c, P')))
    (ha : applyCorrection uc tr (toVars x) c = some (t', vars, fz)) :
    sensorUpdate uc tr m x P = some ⟨t', values vars, P', true, fz⟩ := by
  unfold sensorUpdate measUpdate
  simp only [Option.bind_eq_bind, h1, Option.bind_some, hH, hr, hc, ha]

/-- A mean that is a number has the property. -/
def Sane {X : Type} (J : X → Prop) (o : Option X) : Prop := ∀ v, o = some v → J v

/-- The operations of the concrete kernel in terms of the modelled functions. -/
theorem readingKernel_inv (np : NoiseParams ℝ (coreDef aux)) (uc : UserCalc (coreDef aux))
    (J : Values (coreDef aux) → Prop) (Jc : ErrMat ℝ (coreDef aux) → Prop) (Im : Reading → Prop)
    (Ie : ExtState → Prop)
    (hp : ∀ s new s', J (values s.vars) → propagateState s new = some s' → J (values s'.vars))
    (he : ∀ x (e : ExtState), Ie e → J x →
      J (values (setQ (setV (setP (toVars x) e.p) e.v) e.q)))
    (hc : ∀ dt P u x r, Jc P → J x → predictProcessCovariance np (mkState (noInit _) ⟨0, 0⟩ 0 P)
      (mkState (toVars x) u dt 0) 0 = some r → Jc r.2.1.P)
    (hu : ∀ m tr x P u, Im m → J x → Jc P → sensorUpdate uc tr m.meas x P = some u →
      J u.x ∧ Jc u.P) (h0 : Jc 0) :
    KernelInv (readingKernel np uc) (Sane J) (Sane Jc) Im Ie where
  prop dt u x u' hx v hv := by
    simp only [readingKernel, sensorKernel, filterKernel, Option.bind_eq_bind] at hv
    obtain ⟨y, hy, hv1⟩ := Option.bind_eq_some_iff.1 hv
    obtain ⟨s, hs, hv2⟩ := Option.bind_eq_some_iff.1 hv1
    rw [← Option.some.inj hv2]
    exact hp (mkState (toVars y) _ 0 0) _ _ (hx y hy) hs
  extProp e x hie hx v hv := by
    obtain ⟨x, rfl, rfl⟩ := Option.map_eq_some_iff.1 hv
    exact he _ _ hie (hx x rfl)
  predP dt P u x hP hx v hv := by
    simp only [readingKernel, sensorKernel, filterKernel, Option.bind_eq_bind] at hv
    obtain ⟨P', hP', hv1⟩ := Option.bind_eq_some_iff.1 hv
    obtain ⟨y, hy, hv2⟩ := Option.bind_eq_some_iff.1 hv1
    obtain ⟨r, hr, hv3⟩ := Option.bind_eq_some_iff.1 hv2
    rw [← Option.some.inj hv3]
    exact hc _ _ _ _ _ (hP P' hP') (hx y hy) hr
  update tr m x P hm hx hP := by
    cases x with
    | none =>
      have : (readingKernel np uc).update tr m none P = ⟨tr, none, none, true, false⟩ := rfl
      rw [this]
      exact ⟨(fun _ h => by cases h), (fun _ h => by cases h)⟩
    | some x =>
      cases P with
      | none =>
        have : (readingKernel np uc).update tr m (some x) none = ⟨tr, none, none, true, false⟩ := rfl
        rw [this]
        exact ⟨(fun _ h => by cases h), (fun _ h => by cases h)⟩
      | some P =>
        have : (readingKernel np uc).update tr m (some x) (some P) =
            match sensorUpdate uc tr m.meas x P with
            | some u => ⟨u.tr, some u.x, some u.P, u.applied, u.fuzzy⟩
            | none => ⟨tr, none, none, true, false⟩ := rfl
        rw [this]
        cases hs : sensorUpdate uc tr m.meas x P with
        | none => exact ⟨(fun _ h => by cases h), (fun _ h => by cases h)⟩
        | some u =>
          obtain ⟨h1, h2⟩ := hu m tr x P u hm (hx x rfl) (hP P rfl) hs
          exact ⟨(fun _ h => by cases h; exact h1), (fun _ h => by cases h; exact h2)⟩
  P0 v hv := by cases hv; exact h0

/-- Corrections keep unit quaternions. -/
theorem applyCorrection_unit {uc : UserCalc (coreDef aux)} {t t' : Tracker ℝ}
    {s s' : Vars ℝ (coreDef aux)} {c : Fin (total errLen (coreDef aux)) → ℝ} {fz : Bool}
    (h : ∀ i (hi : i < (coreDef aux).length), (coreDef aux)[i].name = i)
    (hp : PlainQuats (coreDef aux)) (hu : UnitQuats s)
    (huc : ∀ a b c, UnitQuats a → UnitQuats (uc.sanity a b c))
    (e : applyCorrection uc t s c = some (t', s', fz)) : UnitQuats s' := by
  simp only [applyCorrection, Option.bind_eq_bind] at e
  obtain ⟨s1, hs1, e⟩ := Option.bind_eq_some_iff.1 e
  have hu1 := C33_corrected_unit s s1 _ h hp hu hs1
  have hu2 := huc s1 s (if uc.fixedBias then zeroBias (uc.augment c) else uc.augment c) hu1
  rcases fuzzyCheck'_vars _ _ _ _ _ _ _ e with rfl | rfl
  · exact hu2
  · intro j q hq
    by_cases hst : ((coreDef aux).get j).stype = .coreProp
    · have ej : copyNonPropagationStates s (uc.sanity s1 s
          (if uc.fixedBias then zeroBias (uc.augment c) else uc.augment c)) j = _ := if_pos hst
      rw [ej] at hq
      exact hu2 j q hq
    · have ej : copyNonPropagationStates s (uc.sanity s1 s
          (if uc.fixedBias then zeroBias (uc.augment c) else uc.augment c)) j = _ := if_neg hst
      rw [ej] at hq
      exact hu j q hq

/-- An externally propagated state replaces the first three variables only. -/
theorem ext_other (x : Values (coreDef aux)) (e : ExtState) (i : Fin (coreDef aux).length)
    (h0 : i ≠ ip) (h1 : i ≠ iv) (h2 : i ≠ iq) :
    values (setQ (setV (setP (toVars x) e.p) e.v) e.q) i = x i := by
  have a2 : values (setQ (setV (setP (toVars x) e.p) e.v) e.q) i
      = values (setV (setP (toVars x) e.p) e.v) i :=
    (congrFun (values_setQ _ _) i).trans (Function.update_of_ne h2 _ _)
  have a1 : values (setV (setP (toVars x) e.p) e.v) i = values (setP (toVars x) e.p) i :=
    (congrFun (values_setV _ _) i).trans (Function.update_of_ne h1 _ _)
  have a0 : values (setP (toVars x) e.p) i = x i :=
    (congrFun (values_setP _ _) i).trans (Function.update_of_ne h0 _ _)
  exact a2.trans (a1.trans a0)

/-- An externally propagated state with a unit attitude keeps unit quaternions. -/
theorem ext_unit {x : Values (coreDef aux)} (e : ExtState) (hq : e.q.normSq = 1)
    (hx : UnitQuats (toVars x)) :
    UnitQuats (toVars (values (setQ (setV (setP (toVars x) e.p) e.v) e.q))) := by
  intro i q h
  change quatOf _ (values (setQ (setV (setP (toVars x) e.p) e.v) e.q) i) = some q at h
  by_cases h2 : i = iq
  · subst h2
    have a : values (setQ (setV (setP (toVars x) e.p) e.v) e.q) iq = e.q :=
      (congrFun (values_setQ _ _) iq).trans (Function.update_self _ _ _)
    have : some e.q = some q := (congrArg some a.symm).trans h
    rw [← Option.some.inj this]; exact hq
  · by_cases h1 : i = iv
    · subst h1; cases h
    · by_cases h0 : i = ip
      · subst h0; cases h
      · rw [ext_other x e i h0 h1 h2] at h
        exact hx i q h

/-- Externally propagated states leave everything but position, velocity and attitude alone. -/
theorem ext_keeps {x : Values (coreDef aux)} (e : ExtState) {i : Nat} (hi : 3 ≤ i) :
    Keeps i (toVars x) (toVars (values (setQ (setV (setP (toVars x) e.p) e.v) e.q))) := by
  refine Keeps.of_eq fun hlt => ?_
  have := ext_other x e ⟨i, hlt⟩ (fun h => by simp [ip, Fin.ext_iff] at h; omega)
    (fun h => by simp [iv, Fin.ext_iff] at h; omega)
    (fun h => by simp [iq, Fin.ext_iff] at h; omega)
  exact congrArg (fun v => (⟨v, 0, false⟩ : StateVar ℝ _)) this

/-! ### A variable without cross covariances -/

/-- Variable `i` has no cross covariance with the others. -/
def Uncorrelated {D : List VarDesc} (i : Fin D.length) (P : ErrMat ℝ D) : Prop :=
  ∀ r c, Owns D i r → ¬ Owns D i c → P r c = 0 ∧ P c r = 0

theorem clearFixed_uncorrelated {D : List VarDesc} (h : ∀ i (hi : i < D.length), D[i].name = i)
    {fixed : Nat} {is : List Nat} (hl : ∀ i ∈ is, i < D.length) {P P' : ErrMat ℝ D}
    (e : clearFixed fixed is P = some P') (i : Fin D.length)
    (hP : Uncorrelated i P ∨ (i.val ∈ is ∧ fixed.testBit i = true)) : Uncorrelated i P' := by
  obtain ⟨P1, e1, h1, h2⟩ := clearFixed_spec2 h fixed is hl P
  rw [e, Option.some.injEq] at e1
  subst e1
  intro r c hr hc
  rcases hP with hP | ⟨ha, hb⟩
  · obtain ⟨z1, z2⟩ := hP r c hr hc
    constructor
    · rcases h1 r c with e | e
      · rw [e]; exact z1
      · exact e
    · rcases h1 c r with e | e
      · rw [e]; exact z2
      · exact e
  · exact h2 i i.2 ha hb r c hr hc

theorem symInPlace_zero {k : Nat} {P : Matrix (Fin k) (Fin k) ℝ} {a b : Fin k} (h1 : P a b = 0)
    (h2 : P b a = 0) : symInPlace P a b = 0 := by
  rcases lt_trichotomy a b with h | h | h
  · rw [symInPlace_upper P a b h, h1, h2]; norm_num
  · subst h
    rw [symInPlace_diag, h1]
  · rw [symInPlace_lower P a b h, h1, h2]; norm_num

theorem update_uncorrelated {D : List VarDesc} {m : Type} [Fintype m] [DecidableEq m] {P : ErrMat ℝ D}
    {i : Fin D.length} (hz : Uncorrelated i P) {H : Matrix m (Fin (total errLen D)) ℝ}
    (hH : ∀ a k, Owns D i k → H a k = 0) {r : m → ℝ} {R : Matrix m m ℝ} {en : Bool} {thr : ℝ}
    {c : Fin (total errLen D) → ℝ} {P' : ErrMat ℝ D}
    (h : calculateCorrection en thr P H r R = some (some (c, P'))) : Uncorrelated i P' := by
  classical
  have hK : ∀ k a, Owns D i k → gain P H R k a = 0 := by
    intro k a hk
    rw [gain, Matrix.mul_apply]
    refine Finset.sum_eq_zero fun b _ => ?_
    rw [Matrix.mul_apply, Finset.sum_eq_zero, zero_mul]
    intro l _
    rw [transpose_apply]
    by_cases hl : Owns D i l
    · rw [hH b l hl, mul_zero]
    · rw [(hz k l hk hl).1, zero_mul]
  simp only [calculateCorrection] at h
  split at h
  · cases h
  split at h
  · cases h
  simp only [Option.some.injEq, Prod.mk.injEq] at h
  rw [← h.2]
  generalize hG : (1 - gain P H R * H : ErrMat ℝ D) = G
  have hrow : ∀ a l, Owns D i a → G a l = (1 : ErrMat ℝ D) a l := by
    intro a l ha
    rw [← hG, Matrix.sub_apply, Matrix.mul_apply, Finset.sum_eq_zero, sub_zero]
    intro x _
    rw [hK a x ha, zero_mul]
  have hcol : ∀ b l, ¬ Owns D i b → Owns D i l → G b l = 0 := by
    intro b l hb hl
    rw [← hG, Matrix.sub_apply, Matrix.mul_apply, Finset.sum_eq_zero, sub_zero, Matrix.one_apply_ne]
    · rintro rfl; exact hb hl
    · intro x _
      rw [hH x l hl, mul_zero]
  have key : ∀ a b, Owns D i a → ¬ Owns D i b →
      (G * P * Gᵀ + gain P H R * R * (gain P H R)ᵀ) a b = 0 ∧
      (G * P * Gᵀ + gain P H R * R * (gain P H R)ᵀ) b a = 0 := by
    intro a b ha hb
    have h1 : ∀ l, (G * P) a l = P a l := by
      intro l
      rw [Matrix.mul_apply]
      simp only [hrow a _ ha]
      rw [← Matrix.mul_apply, Matrix.one_mul]
    have h1' : ∀ l, Owns D i l → (G * P) b l = 0 := by
      intro l hl
      rw [Matrix.mul_apply]
      refine Finset.sum_eq_zero fun x _ => ?_
      by_cases hx : Owns D i x
      · rw [hcol b x hb hx, zero_mul]
      · rw [(hz l x hl hx).2, mul_zero]
    have h2 : ∀ x, (gain P H R * R) a x = 0 := by
      intro x
      rw [Matrix.mul_apply]
      exact Finset.sum_eq_zero fun y _ => by rw [hK a y ha, zero_mul]
    constructor
    · rw [Matrix.add_apply, Matrix.mul_apply, Matrix.mul_apply (N := (gain P H R)ᵀ),
        Finset.sum_eq_zero, Finset.sum_eq_zero, add_zero]
      · intro x _
        rw [h2, zero_mul]
      · intro l _
        rw [h1, transpose_apply]
        by_cases hl : Owns D i l
        · rw [hcol b l hb hl, mul_zero]
        · rw [(hz a l ha hl).1, zero_mul]
    · rw [Matrix.add_apply, Matrix.mul_apply, Matrix.mul_apply (N := (gain P H R)ᵀ),
        Finset.sum_eq_zero, Finset.sum_eq_zero, add_zero]
      · intro x _
        rw [transpose_apply, hK a x ha, mul_zero]
      · intro l _
        rw [transpose_apply, hrow a l ha]
        by_cases hl : Owns D i l
        · rw [h1' l hl, zero_mul]
        · rw [Matrix.one_apply_ne, mul_zero]
          rintro rfl
          exact hl ha
  intro a b ha hb
  obtain ⟨k1, k2⟩ := key a b ha hb
  subst hG
  exact ⟨symInPlace_zero k1 k2, symInPlace_zero k2 k1⟩

theorem predict_uncorrelated
    (hn : ∀ i (hi : i < (coreDef aux).length), (coreDef aux)[i].name = i)
    (np : NoiseParams ℝ (coreDef aux)) {P : ErrMat ℝ (coreDef aux)}
    {dt : ℝ} {u : Input (V3 ℝ) (V3 ℝ)} {x : Values (coreDef aux)} {r}
    (i : Fin (coreDef aux).length) (hi : 5 ≤ i.val) (hP : Uncorrelated i P)
    (e : predictProcessCovariance np (mkState (noInit _) ⟨0, 0⟩ 0 P)
      (mkState (toVars x) u dt 0) 0 = some r) : Uncorrelated i r.2.1.P := by
  have hie := indexingErrors_eq_zero.2 hn
  by_cases hdt : dt - 0 ≤ 0
  · simp only [predictProcessCovariance] at e
    rw [if_pos (show (mkState (toVars x) u dt 0).time -
      (mkState (noInit (coreDef aux)) ⟨0, 0⟩ 0 P).time ≤ 0 from hdt)] at e
    cases e
    intro a b _ _
    exact ⟨rfl, rfl⟩
  · obtain ⟨Qd, e', hQ⟩ := predict_apply hie np (mkState (noInit _) ⟨0, 0⟩ 0 P)
      (mkState (toVars x) u dt 0) 0 hdt
    rw [e'] at e
    cases e
    have h15 : ∀ a, Owns (coreDef aux) i a → 15 ≤ a.val := by
      intro a ha
      have h15 : offset errLen (coreDef aux) 5 = 15 := rfl
      have := offset_mono (D := coreDef aux) errLen hi
      have := ((owns_iff hie i a).1 ha).1
      omega
    generalize hF : setFd (fun b => 3 * b.idx.val)
      (mkState (noInit (coreDef aux)) (⟨0, 0⟩ : Input (V3 ℝ) (V3 ℝ)) 0 P).Fd
      (EKFState.q (mkState (toVars x) u dt 0).vars).toRot
      ((mkState (toVars x) u dt 0).w_m - EKFState.b_w (mkState (toVars x) u dt 0).vars)
      ((mkState (toVars x) u dt 0).a_m - EKFState.b_a (mkState (toVars x) u dt 0).vars)
      ((mkState (toVars x) u dt 0).time -
        (mkState (noInit (coreDef aux)) (⟨0, 0⟩ : Input (V3 ℝ) (V3 ℝ)) 0 P).time) = F
    have hout : ∀ r c : Fin (total errLen (coreDef aux)), 15 ≤ r.val ∨ 15 ≤ c.val →
        F r c = (1 : ErrMat ℝ (coreDef aux)) r c := by
      intro r c h
      rw [← hF]
      exact setFd_outside _ (fun _ => rfl) _ _ _ _ _ r c h
    have hq : ∀ a b, 15 ≤ a.val ∨ 15 ≤ b.val → (∀ j : Fin (coreDef aux).length,
        ¬ (Owns (coreDef aux) j a ∧ Owns (coreDef aux) j b)) → Qd a b = 0 := by
      intro a b hab hno
      rw [(hQ a b).2]
      · generalize hl : CalcQ.lookup (CalcQ.mkIn ((mkState (toVars x) u dt 0).time -
          (mkState (noInit (coreDef aux)) (⟨0, 0⟩ : Input (V3 ℝ) (V3 ℝ)) 0 P).time)
          (EKFState.q (mkState (toVars x) u dt 0).vars)
          ((mkState (toVars x) u dt 0).w_m - EKFState.b_w (mkState (toVars x) u dt 0).vars)
          ((mkState (toVars x) u dt 0).a_m - EKFState.b_a (mkState (toVars x) u dt 0).vars)
          (fun _ => np.acc) (fun _ => np.accBias) (fun _ => np.gyr) (fun _ => np.gyrBias)) a b = o
        cases o with
        | none => rfl
        | some y =>
          have := lookup_core _ _ _ (by rw [hl]; rfl)
          omega
      · rintro j - ⟨h1, h2⟩
        exact hno j ⟨(owns_iff hie j a).2 h1, (owns_iff hie j b).2 h2⟩
    intro a b ha hb
    have hdis : ∀ j : Fin (coreDef aux).length, Owns (coreDef aux) j a → ¬ Owns (coreDef aux) j b := by
      intro j ja jb
      by_cases hj : j = i
      · subst hj; exact hb jb
      · exact Owns.disjoint hie hj ja ha
    have h1 : ∀ l, (F * P) a l = P a l := by
      intro l
      rw [Matrix.mul_apply]
      simp only [hout a _ (.inl (h15 a ha))]
      rw [← Matrix.mul_apply, Matrix.one_mul]
    have hFb : ∀ l, Owns (coreDef aux) i l → F b l = 0 := by
      intro l hl
      rw [hout b l (.inr (h15 l hl)), Matrix.one_apply_ne]
      rintro rfl
      exact hb hl
    change (F * P * Fᵀ + Qd) a b = 0 ∧ (F * P * Fᵀ + Qd) b a = 0
    constructor
    · rw [Matrix.add_apply, hq a b (.inl (h15 a ha)) (fun j h => hdis j h.1 h.2), add_zero,
        Matrix.mul_apply]
      refine Finset.sum_eq_zero fun l _ => ?_
      rw [h1, transpose_apply]
      by_cases hl : Owns (coreDef aux) i l
      · rw [hFb l hl, mul_zero]
      · rw [(hP a l ha hl).1, zero_mul]
    · rw [Matrix.add_apply, hq b a (.inr (h15 a ha)) (fun j h => hdis j h.2 h.1), add_zero,
        Matrix.mul_apply]
      refine Finset.sum_eq_zero fun l _ => ?_
      rw [transpose_apply, hout a l (.inl (h15 a ha))]
      by_cases hl : a = l
      · subst hl
        rw [Matrix.mul_apply, Finset.sum_eq_zero, zero_mul]
        intro x _
        by_cases hx : Owns (coreDef aux) i x
        · rw [hFb x hx, zero_mul]
        · rw [(hP a x ha hx).2, mul_zero]
      · rw [Matrix.one_apply_ne hl, mul_zero]

/-- The measurement does not estimate variable `i`: it does not use it, or has it fixed.  Spherical
measurements ignore the flag, so they are excluded. -/
def Reading.Spares (i : Nat) : Reading → Prop
  | .position pip fixed _ _ _ _ => 5 ≤ pip ∧ (pip = i → fixed.testBit i = true)
  | .pose ix fixed _ _ _ => ix.Distinct ∧
      (i ∈ [ix.L, ix.qic, ix.pic, ix.qwv, ix.pwv] → fixed.testBit i = true)
  | .pressure bp _ _ _ _ => bp ≠ i
  | .angle .. => False
  | .distance .. => False

/-- The measurement uses variable `i` and has it fixed. -/
def Reading.Fixes (i : Nat) : Reading → Prop
  | .position pip fixed _ _ _ _ => pip = i ∧ fixed.testBit i = true
  | .pose ix fixed _ _ _ => ix.Distinct ∧ i ∈ [ix.L, ix.qic, ix.pic, ix.qwv, ix.pwv] ∧
      fixed.testBit i = true
  | .pressure .. => False
  | .angle .. => False
  | .distance .. => False

theorem Reading.Fixes.spares {i : Nat} {rd : Reading} (hi : 5 ≤ i) (h : rd.Fixes i) : rd.Spares i := by
  cases rd with
  | position => exact ⟨h.1 ▸ hi, fun _ => h.2⟩
  | pose => exact ⟨h.1, fun _ => h.2.2⟩
  | pressure => exact h.elim
  | angle => exact h.elim
  | distance => exact h.elim

theorem mem_clearOrder {ix : PoseIdx} {i : Nat} :
    i ∈ ix.clearOrder ↔ i ∈ [ix.L, ix.qic, ix.pic, ix.qwv, ix.pwv] := by
  simp only [PoseIdx.clearOrder, List.mem_cons, List.not_mem_nil, or_false]
  tauto

theorem Reading.Fixes.cleared {i : Nat} {rd : Reading} (h : rd.Fixes i) :
    i ∈ (rd.meas (aux := aux)).cleared ∧ (rd.meas (aux := aux)).fixed.testBit i = true := by
  cases rd with
  | position pip => exact ⟨by simp [Reading.meas, h.1], h.2⟩
  | pose => exact ⟨mem_clearOrder.2 h.2.1, h.2.2⟩
  | pressure => exact h.elim
  | angle => exact h.elim
  | distance => exact h.elim

theorem positionH_spares {pip fixed : Nat} {s : Vars ℝ (coreDef aux)} {l : V3 ℝ}
    {H : Matrix (Fin 3) (Fin (total errLen (coreDef aux))) ℝ}
    (hn : ∀ i (hi : i < (coreDef aux).length), (coreDef aux)[i].name = i)
    {i : Fin (coreDef aux).length} (hi : 5 ≤ i.val)
    (hl : getVec s pip 3 = some l) (h5 : 5 ≤ pip) (hH : positionH pip fixed s = some H)
    (hf : pip = i.val → fixed.testBit i = true) (a : Fin 3)
    (k : Fin (total errLen (coreDef aux))) (hk : Owns (coreDef aux) i k) : H a k = 0 := by
  have hie := indexingErrors_eq_zero.2 hn
  have l0 : 0 < (coreDef aux).length := by simp [coreDef, coreDescs]
  have l2 : 2 < (coreDef aux).length := by simp [coreDef, coreDescs]
  obtain ⟨hlt, hkind⟩ := getVec_kind _ hl
  obtain ⟨H', hH', hm⟩ := positionH_mulVec pip fixed s l hn hl (by omega)
  rw [hH, Option.some.injEq] at hH'
  subst hH'
  have e := congrFun (hm (Pi.single k 1)) a
  rw [mulVec_single_one] at e
  have s0 := segOf_single hie i ⟨0, l0⟩ (fun e => by
    have := congrArg Fin.val e; simp only at this; omega) 3 rfl k hk
  have s2 := segOf_single hie i ⟨2, l2⟩ (fun e => by
    have := congrArg Fin.val e; simp only at this; omega) 3 rfl k hk
  simp only at s0 s2
  refine (Eq.trans e ?_ : H.col k a = 0)
  rw [s0, s2, mulVec_zero]
  by_cases hpi : pip = i.val
  · rw [if_pos (by rw [hpi]; exact hf hpi)]; simp
  · have sp := segOf_single hie i ⟨pip, hlt⟩ (fun e => hpi (congrArg Fin.val e)) 3
      (errLen_vec hl hlt).symm k hk
    simp only at sp
    rw [sp, mulVec_zero]
    simp

theorem pressureH_spares {bp : Nat} {s : Vars ℝ (coreDef aux)} {b : Fin 1 → ℝ}
    {H : Matrix (Fin 1) (Fin (total errLen (coreDef aux))) ℝ}
    (hn : ∀ i (hi : i < (coreDef aux).length), (coreDef aux)[i].name = i)
    {i : Fin (coreDef aux).length} (hi : 5 ≤ i.val)
    (hb : getVec s bp 1 = some b) (hH : pressureH (aux := aux) bp = some H) (h : bp ≠ i.val)
    (a : Fin 1) (k : Fin (total errLen (coreDef aux))) (hk : Owns (coreDef aux) i k) :
    H a k = 0 := by
  have hie := indexingErrors_eq_zero.2 hn
  have l0 : 0 < (coreDef aux).length := by simp [coreDef, coreDescs]
  obtain ⟨hlt, hkind⟩ := getVec_kind _ hb
  obtain ⟨H', hH', hm⟩ := pressureH_mulVec bp s b hn hb
  rw [hH, Option.some.injEq] at hH'
  subst hH'
  have e := congrFun (hm (Pi.single k 1)) a
  rw [mulVec_single_one] at e
  have s0 := segOf_single hie i ⟨0, l0⟩ (fun e => by
    have := congrArg Fin.val e; simp only at this; omega) 3 rfl k hk
  have sp := segOf_single hie i ⟨bp, hlt⟩ (fun e => h (congrArg Fin.val e)) 1
    (errLen_vec hb hlt).symm k hk
  simp only at s0 sp
  refine (Eq.trans e ?_ : H.col k a = 0)
  rw [s0, sp]
  simp

/-- The measurement matrix of a reading that spares a variable is zero there. -/
theorem Reading.Spares.column
    (hn : ∀ i (hi : i < (coreDef aux).length), (coreDef aux)[i].name = i)
    {i : Fin (coreDef aux).length} (hi : 5 ≤ i.val) {rd : Reading} (h : rd.Spares i)
    {s : Vars ℝ (coreDef aux)} {H r} (hH : (rd.meas (aux := aux)).H s = some H)
    (hr : (rd.meas (aux := aux)).r s = some r) :
    (∀ j ∈ (rd.meas (aux := aux)).cleared, j < (coreDef aux).length) ∧
      ∀ a k, Owns (coreDef aux) i k → H a k = 0 := by
  cases rd with
  | position pip fixed en thr z R =>
    obtain ⟨h5, hf⟩ := h
    obtain ⟨l, hl⟩ := positionH_reads (show positionH pip fixed s = some H from hH)
    obtain ⟨hlt, -⟩ := getVec_kind _ hl
    refine ⟨fun j hj => ?_, fun a k hk => positionH_spares hn hi hl h5 hH hf a k hk⟩
    rw [List.mem_singleton.1 (show j ∈ [pip] from hj)]
    exact hlt
  | pose ix fixed en thr z =>
    obtain ⟨hd, hf⟩ := h
    have hH' : poseH ix fixed s = some H := hH
    have hv : ∃ v, poseView ix s = some v := by
      unfold poseH at hH'
      simp only [Option.bind_eq_bind] at hH'
      obtain ⟨v, hv, -⟩ := Option.bind_eq_some_iff.1 hH'
      exact ⟨v, hv⟩
    obtain ⟨v, hv⟩ := hv
    exact ⟨clearOrder_lt hv, fun a k hk => poseH_spares hn hd hH' i ⟨by omega, by omega⟩
      (fun hm => hf (mem_clearOrder.1 hm)) a k hk⟩
  | pressure bp en thr z n =>
    have hr' : pressureResidual bp z s = some r := hr
    unfold pressureResidual at hr'
    simp only [Option.bind_eq_bind] at hr'
    obtain ⟨b, hb, -⟩ := Option.bind_eq_some_iff.1 hr'
    exact ⟨(fun j hj => by cases hj), fun a k hk => pressureH_spares hn hi hb hH h a k hk⟩
  | angle => exact h.elim
  | distance => exact h.elim

/-- A variable that is kept has the same value. -/
theorem Keeps.val {D : List VarDesc} {s s' : Vars ℝ D} {i : Fin D.length} (h : Keeps i s s') :
    (s' i).val = (s i).val := by
  have gen : ∀ (k : Kind) (a b : Val ℝ k), (∀ n u, vecOf n k a = some u → vecOf n k b = some u) →
      (∀ u, quatOf k a = some u → quatOf k b = some u) → b = a := by
    intro k a b h1 h2
    cases k with
    | vec n =>
      have := h1 n a (by simp [vecOf])
      simpa [vecOf] using this
    | quat =>
      have := h2 a rfl
      simpa [quatOf] using this
  refine gen _ _ _ (fun n u hu => ?_) fun u hu => ?_
  · have := h.1 n u
    unfold getVec at this
    rw [dif_pos i.2, dif_pos i.2] at this
    exact this hu
  · have := h.2 u
    unfold getQuat at this
    rw [dif_pos i.2, dif_pos i.2] at this
    exact this hu

/-- A kernel keeps a variable that its measurements spare. -/
theorem keeps_inv (np : NoiseParams ℝ (coreDef aux)) {uc : UserCalc (coreDef aux)}
    (hn : ∀ i (hi : i < (coreDef aux).length), (coreDef aux)[i].name = i)
    (hp : PlainVars (coreDef aux)) (ha : ∀ d ∈ aux, d.isAux) {i : Fin (coreDef aux).length}
    (hi : 5 ≤ i.val) {ok : Vars ℝ (coreDef aux) → Prop} (huc : uc.Keeping ok i)
    (v0 : Values (coreDef aux)) (hok : ∀ s, Keeps i (toVars v0) s → ok s)
    (Jc : ErrMat ℝ (coreDef aux) → Prop) (Im : Reading → Prop)
    (hsp : ∀ m, Im m → m.Spares i)
    (hun : ∀ m : Reading, Im m → ∀ P P1, Jc P →
      (∀ j ∈ (m.meas (aux := aux)).cleared, j < (coreDef aux).length) →
      clearFixed (m.meas (aux := aux)).fixed (m.meas (aux := aux)).cleared P = some P1 →
      Uncorrelated i P1)
    (hJ : ∀ P, Uncorrelated i P → Jc P)
    (hc : ∀ dt P u x r, Jc P → predictProcessCovariance np (mkState (noInit _) ⟨0, 0⟩ 0 P)
      (mkState (toVars x) u dt 0) 0 = some r → Jc r.2.1.P) :
    KernelInv (readingKernel np uc)
      (Sane fun v => UnitQuats (toVars v) ∧ Keeps i (toVars v0) (toVars v)) (Sane Jc) Im
      (fun e => e.q.normSq = 1) := by
  refine readingKernel_inv np uc _ _ _ _ (fun s new s' h e => ?_) (fun x e h1 h2 => ?_)
      (fun dt P u x r h _ e => hc dt P u x r h e) (fun m tr x P u hm h hP e => ?_)
      (hJ _ fun _ _ _ _ => ⟨rfl, rfl⟩)
  · obtain ⟨k1, u1⟩ := propagate_keeps ha h.1 e hi
    exact ⟨u1, h.2.trans k1⟩
  · exact ⟨ext_unit e h1 h2.1, h2.2.trans (ext_keeps e (by omega))⟩
  · obtain ⟨P1, H, r, hP1, hH, hr, h1⟩ := sensorUpdate_cases e
    obtain ⟨hcl, hcol⟩ := (hsp m hm).column hn hi hH hr
    have hu1 := hun m hm P P1 hP hcl hP1
    rcases h1 with h1 | ⟨c, P', t', vars, fz, hcc, hap, rfl⟩
    · rw [h1.2]; exact ⟨h, hJ _ hu1⟩
    · obtain ⟨k1, u1⟩ := applyCorrection_keeps hn hp h.1 (hok _ h.2) i huc
        (correction_zero _ i (fun r c hr hc => (hu1 r c hr hc).1) H hcol _ _ _ _ _ _ hcc) hap
      exact ⟨⟨u1, h.2.trans k1⟩, hJ _ (update_uncorrelated hu1 hcol hcc)⟩

end MSF
