import Verif.Lemmas.RelInv
import Verif.Lemmas.ClearIdem
import Verif.Lemmas.Runs
import Verif.Props.Predict

/-! Invariants of the concrete kernel with relative measurements. -/

namespace MSF

open Matrix EKFState Core

variable {aux : List VarDesc}

/-- The relative pose update in steps. -/
theorem relPoseUpdate_cases {uc : UserCalc (coreDef aux)} {tr : Tracker ℝ} {ix : PoseIdx} {fixed : Nat}
    {prev z : PoseMeas ℝ} {xo x : Values (coreDef aux)} {Po F P : ErrMat ℝ (coreDef aux)}
    {u : Upd (Values (coreDef aux)) (ErrMat ℝ (coreDef aux)) (Tracker ℝ)}
    (h : relPoseUpdate uc tr ix fixed prev z xo Po F x P = some u) :
    ∃ Ho Hn vo vn r c P' t' vars fz, poseH ix fixed (toVars xo) = some Ho ∧
      poseH ix fixed (toVars x) = some Hn ∧ poseView ix (toVars xo) = some vo ∧
      poseView ix (toVars x) = some vn ∧
      PoseView.relResidual vo vn (prev.z_p, prev.z_q) (z.z_p, z.z_q) = some r ∧
      calculateCorrectionRelative Po P F (-Ho) Hn r z.R_ = some (c, P') ∧
      applyCorrection uc tr (toVars x) c = some (t', vars, fz) ∧ u = ⟨t', values vars, P', true, fz⟩ := by
  unfold relPoseUpdate at h
  simp only [Option.bind_eq_bind] at h
  obtain ⟨Ho, h1, h⟩ := Option.bind_eq_some_iff.1 h
  obtain ⟨Hn, h2, h⟩ := Option.bind_eq_some_iff.1 h
  obtain ⟨vo, h3, h⟩ := Option.bind_eq_some_iff.1 h
  obtain ⟨vn, h4, h⟩ := Option.bind_eq_some_iff.1 h
  obtain ⟨r, h5, h⟩ := Option.bind_eq_some_iff.1 h
  obtain ⟨⟨c, P'⟩, h6, h⟩ := Option.bind_eq_some_iff.1 h
  obtain ⟨⟨t', vars, fz⟩, h7, h⟩ := Option.bind_eq_some_iff.1 h
  exact ⟨Ho, Hn, vo, vn, r, c, P', t', vars, fz, h1, h2, h3, h4, h5, h6, h7, (Option.some.inj h).symm⟩

theorem relKernel_inv (np : NoiseParams ℝ (coreDef aux)) (uc : UserCalc (coreDef aux))
    (J : Values (coreDef aux) → Prop) (Jc Jg : ErrMat ℝ (coreDef aux) → Prop) (Im : RelReading → Prop)
    (Ie : ExtState → Prop)
    (hp : ∀ s new s', J (values s.vars) → propagateState s new = some s' → J (values s'.vars))
    (he : ∀ x (e : ExtState), Ie e → J x →
      J (values (setQ (setV (setP (toVars x) e.p) e.v) e.q)))
    (hc : ∀ dt P u x r, Jc P → J x → predictProcessCovariance np (mkState (noInit _) ⟨0, 0⟩ 0 P)
      (mkState (toVars x) u dt 0) 0 = some r → Jc r.2.1.P)
    (hu : ∀ m tr x P u, Im m → m.ignored = false → J x → Jc P →
      sensorUpdate uc tr m.reading.meas x P = some u → J u.x ∧ Jc u.P) (h0 : Jc 0)
    (hfd : ∀ dt u x r, J x → predictProcessCovariance np (mkState (noInit _) ⟨0, 0⟩ 0 0)
      (mkState (toVars x) u dt 0) 0 = some r → Jg r.1.Fd)
    (h1 : Jg 1) (hmul : ∀ a b, Jg a → Jg b → Jg (a * b))
    (hcl : ∀ (m : RelReading) P P', Im m → m.relative = true → m.reading.isPose = true → Jc P →
      clearFixed (m.reading.meas (aux := aux)).fixed (m.reading.meas (aux := aux)).cleared P = some P' → Jc P')
    (hr : ∀ ix fixed en thr z prev tr xo Po0 Po F x P0 P u, Im ⟨.pose ix fixed en thr z, true⟩ → J xo → Jc Po0 →
      Jg F → J x → Jc P0 → clearFixed fixed ix.clearOrder Po0 = some Po →
      clearFixed fixed ix.clearOrder P0 = some P →
      relPoseUpdate uc tr ix fixed prev z xo Po F x P = some u → J u.x ∧ Jc u.P) :
    RelInv (relKernel np uc) (Sane J) (Sane Jc) (Sane Jg) Im Ie where
  kernel := by
    have h := readingKernel_inv np uc J Jc (fun m => ∃ b, Im ⟨m, b⟩ ∧ RelReading.ignored ⟨m, b⟩ = false) Ie hp he hc
      (fun m tr x P u ⟨b, hb, hi⟩ hx hP e => hu ⟨m, b⟩ tr x P u hb hi hx hP e) h0
    exact
      { prop := h.prop
        extProp := h.extProp
        predP := h.predP
        P0 := h.P0
        update := by
          intro t m x P hm hx hP
          change Sane J (if m.ignored then (⟨t, x, P, false, false⟩ : Upd _ _ _) else
            (readingKernel np uc).update t m.reading x P).x ∧
            Sane Jc (if m.ignored then (⟨t, x, P, false, false⟩ : Upd _ _ _) else
            (readingKernel np uc).update t m.reading x P).P
          split
          · exact ⟨hx, hP⟩
          · rename_i hi
            exact h.update t m.reading x P ⟨m.relative, hm, by simpa using hi⟩ hx hP }
  fd dt u x hx v hv := by
    simp only [relKernel, Option.bind_eq_bind] at hv
    obtain ⟨y, hy, hv1⟩ := Option.bind_eq_some_iff.1 hv
    obtain ⟨r, hr, hv2⟩ := Option.bind_eq_some_iff.1 hv1
    rw [← Option.some.inj hv2]
    exact hfd _ _ _ _ (hx y hy) hr
  fd0 v hv := by
    rw [← Option.some.inj hv]
    exact h1
  mulF a b ha hb v hv := by
    simp only [relKernel, Option.bind_eq_bind] at hv
    obtain ⟨a', ha', hv1⟩ := Option.bind_eq_some_iff.1 hv
    obtain ⟨b', hb', hv2⟩ := Option.bind_eq_some_iff.1 hv1
    rw [← Option.some.inj hv2]
    exact hmul _ _ (ha a' ha') (hb b' hb')
  idem m P := m.reading.clearP_idem P
  clear m P hm hrel hP v hv := by
    simp only [relKernel, Bool.and_eq_true] at hrel
    cases P with
    | none => cases hv
    | some P => exact hcl m P v hm hrel.1 hrel.2 (hP P rfl) hv
  relUpdate t m1 m2 xo Po G x P _ hm hrel _ hxo hPo hG hx hP := by
    obtain ⟨r2, b2⟩ := m2
    simp only [relKernel, Bool.and_eq_true] at hrel
    obtain ⟨hb, hpose⟩ := hrel
    subst hb
    obtain ⟨r1, b1⟩ := m1
    have nn : Sane J none ∧ Sane Jc none := ⟨(fun _ h => by cases h), (fun _ h => by cases h)⟩
    change Sane J (relReadingUpdate uc t ⟨r1, b1⟩ ⟨r2, true⟩ xo (r2.clearP Po) G x (r2.clearP P)).x ∧
      Sane Jc (relReadingUpdate uc t ⟨r1, b1⟩ ⟨r2, true⟩ xo (r2.clearP Po) G x (r2.clearP P)).P
    cases r2 with
    | pose ix fixed en thr z =>
      cases r1 with
      | pose ix1 f1 en1 thr1 zp =>
        have e : ∀ Po P, relReadingUpdate uc t ⟨.pose ix1 f1 en1 thr1 zp, b1⟩ ⟨.pose ix fixed en thr z, true⟩ xo
            Po G x P = match (do relPoseUpdate uc t ix fixed zp z (← xo) (← Po) (← G) (← x) (← P)) with
              | some u => ⟨u.tr, some u.x, some u.P, u.applied, u.fuzzy⟩
              | none => ⟨t, none, none, true, false⟩ := fun _ _ => rfl
        rw [e]
        generalize hg : (do
          relPoseUpdate uc t ix fixed zp z (← xo)
            (← (Reading.pose ix fixed en thr z).clearP Po) (← G) (← x)
            (← (Reading.pose ix fixed en thr z).clearP P)) = o
        cases o with
        | none => exact nn
        | some u =>
          simp only [Option.bind_eq_bind] at hg
          obtain ⟨xo', hxo', hg⟩ := Option.bind_eq_some_iff.1 hg
          obtain ⟨Po', hPo', hg⟩ := Option.bind_eq_some_iff.1 hg
          obtain ⟨G', hG', hg⟩ := Option.bind_eq_some_iff.1 hg
          obtain ⟨x', hx', hg⟩ := Option.bind_eq_some_iff.1 hg
          obtain ⟨P', hP', hg⟩ := Option.bind_eq_some_iff.1 hg
          obtain ⟨Po0, hPo0, hPo'⟩ := Option.bind_eq_some_iff.1 hPo'
          obtain ⟨P0, hP0, hP'⟩ := Option.bind_eq_some_iff.1 hP'
          obtain ⟨k1, k2⟩ := hr ix fixed en thr z zp t xo' Po0 Po' G' x' P0 P' u hm (hxo _ hxo') (hPo _ hPo0)
            (hG _ hG') (hx _ hx') (hP _ hP0) hPo' hP' hg
          exact ⟨(fun _ h => by cases h; exact k1), (fun _ h => by cases h; exact k2)⟩
      | _ =>
        exact ⟨hx, by
          intro v hv
          cases P with
          | none => cases hv
          | some P => exact hcl _ P v hm rfl rfl (hP P rfl) hv⟩
    | _ => cases hpose

/-- Setting entries to zero does not correlate variables. -/
theorem clearFixed_keeps_uncorrelated {D : List VarDesc} {fixed : Nat} {is : List Nat} {P P' : ErrMat ℝ D}
    {i : Fin D.length} (hP : Uncorrelated i P) (e : clearFixed fixed is P = some P') : Uncorrelated i P' := by
  rcases clearFixed_masks (D := D) fixed is with h | ⟨m, h⟩
  · have h' := h P
    dsimp only at h'
    rw [e] at h'
    cases h'
  · have h' := h P
    dsimp only at h'
    rw [e, Option.some.injEq] at h'
    subst h'
    have z : ∀ r c, P r c = 0 → maskWith m P r c = 0 := by
      intro r c h
      simp only [maskWith, Matrix.of_apply, h, ite_self]
    intro r c hr hc
    exact ⟨z r c (hP r c hr hc).1, z c r (hP r c hr hc).2⟩

/-- The transitions have the rows of the identity at variable `i`. -/
def RowsOne {D : List VarDesc} (i : Fin D.length) (F : ErrMat ℝ D) : Prop :=
  ∀ r c, Owns D i r → F r c = (1 : ErrMat ℝ D) r c

theorem RowsOne.mul {D : List VarDesc} {i : Fin D.length} {F G : ErrMat ℝ D} (hF : RowsOne i F) (hG : RowsOne i G) :
    RowsOne i (F * G) := by
  intro r c hr
  rw [Matrix.mul_apply]
  simp only [hF r _ hr, ← Matrix.mul_apply, Matrix.one_mul]
  exact hG r c hr

theorem fd_rowsOne
    (hn : ∀ i (hi : i < (coreDef aux).length), (coreDef aux)[i].name = i)
    (np : NoiseParams ℝ (coreDef aux)) {dt : ℝ} {u : Input (V3 ℝ) (V3 ℝ)} {x : Values (coreDef aux)} {r}
    (i : Fin (coreDef aux).length) (hi : 5 ≤ i.val)
    (e : predictProcessCovariance np (mkState (noInit _) ⟨0, 0⟩ 0 0)
      (mkState (toVars x) u dt 0) 0 = some r) : RowsOne i r.1.Fd := by
  have hie := indexingErrors_eq_zero.2 hn
  by_cases hdt : dt - 0 ≤ 0
  · simp only [predictProcessCovariance] at e
    rw [if_pos (show (mkState (toVars x) u dt 0).time -
      (mkState (noInit (coreDef aux)) ⟨0, 0⟩ 0 0).time ≤ 0 from hdt)] at e
    cases e
    intro a b _
    rfl
  · obtain ⟨Qd, e', hQ⟩ := predict_apply hie np (mkState (noInit _) ⟨0, 0⟩ 0 0)
      (mkState (toVars x) u dt 0) 0 hdt
    rw [e'] at e
    cases e
    intro a b ha
    have h15 : offset errLen (coreDef aux) 5 = 15 := rfl
    have h1 := offset_mono (D := coreDef aux) errLen hi
    have h2 := ((owns_iff hie i a).1 ha).1
    exact setFd_outside _ (fun _ => rfl) _ _ _ _ _ a b (.inl (by omega))

theorem relGain_zero {D : List VarDesc} {m : Type} [Fintype m] [DecidableEq m] {Po Pn F : ErrMat ℝ D}
    {i : Fin D.length} (ho : Uncorrelated i Po) (hn : Uncorrelated i Pn) (hF : RowsOne i F)
    {Ho Hn : Matrix m (Fin (total errLen D)) ℝ} (hHo : ∀ a k, Owns D i k → Ho a k = 0)
    (hHn : ∀ a k, Owns D i k → Hn a k = 0) (R : Matrix m m ℝ) (k : Fin (total errLen D))
    (hk : Owns D i k) (a : m) : relGain Po Pn F Ho Hn R k a = 0 := by
  have hFP : ∀ l, (F * Po) k l = Po k l := by
    intro l
    rw [Matrix.mul_apply]
    simp only [hF k _ hk, ← Matrix.mul_apply, Matrix.one_mul]
  have hsum : ∀ (Q : ErrMat ℝ D) (Hm : Matrix m (Fin (total errLen D)) ℝ),
      (∀ l, ¬ Owns D i l → Q k l = 0) → (∀ a l, Owns D i l → Hm a l = 0) → ∀ b,
      ∑ l, Q k l * Hm b l = 0 := by
    intro Q Hm hQ hHm b
    refine Finset.sum_eq_zero fun l _ => ?_
    by_cases hl : Owns D i l
    · rw [hHm b l hl, mul_zero]
    · rw [hQ l hl, zero_mul]
  simp only [relGain, toRows₂_apply]
  rw [Matrix.mul_apply]
  refine Finset.sum_eq_zero fun b _ => ?_
  rw [Matrix.mul_apply, Fintype.sum_sum_type]
  simp only [clonedCov, clonedH, fromBlocks_apply₂₁, fromBlocks_apply₂₂, transpose_apply,
    fromCols_apply_inl, fromCols_apply_inr, hFP]
  rw [hsum Po Ho (fun l hl => (ho k l hk hl).1) hHo b, hsum Pn Hn (fun l hl => (hn k l hk hl).1) hHn b,
    add_zero, zero_mul]

theorem relUpdate_uncorrelated {D : List VarDesc} {m : Type} [Fintype m] [DecidableEq m]
    {Po Pn F : ErrMat ℝ D} {i : Fin D.length} (ho : Uncorrelated i Po) (hn : Uncorrelated i Pn) (hF : RowsOne i F)
    {Ho Hn : Matrix m (Fin (total errLen D)) ℝ} (hHo : ∀ a k, Owns D i k → Ho a k = 0)
    (hHn : ∀ a k, Owns D i k → Hn a k = 0) {r : m → ℝ} {R : Matrix m m ℝ}
    {c : Fin (total errLen D) → ℝ} {P' : ErrMat ℝ D}
    (h : calculateCorrectionRelative Po Pn F Ho Hn r R = some (c, P')) : Uncorrelated i P' := by
  classical
  have hK := relGain_zero ho hn hF hHo hHn R
  simp only [calculateCorrectionRelative] at h
  split at h
  · cases h
  simp only [Option.some.injEq, Prod.mk.injEq] at h
  rw [← h.2]
  generalize relGain Po Pn F Ho Hn R = K at hK
  have key : ∀ a b, Owns D i a → ¬ Owns D i b →
      (Pn - K * relInnovCov Po Pn F Ho Hn R * Kᵀ) a b = 0 ∧
      (Pn - K * relInnovCov Po Pn F Ho Hn R * Kᵀ) b a = 0 := by
    intro a b ha hb
    constructor
    · rw [Matrix.sub_apply, (hn a b ha hb).1, Matrix.mul_apply, Finset.sum_eq_zero, sub_zero]
      intro l _
      rw [Matrix.mul_apply, Finset.sum_eq_zero, zero_mul]
      intro y _
      rw [hK a ha, zero_mul]
    · rw [Matrix.sub_apply, (hn a b ha hb).2, Matrix.mul_apply, Finset.sum_eq_zero, sub_zero]
      intro l _
      rw [transpose_apply, hK a ha, mul_zero]
  intro a b ha hb
  obtain ⟨k1, k2⟩ := key a b ha hb
  exact ⟨symInPlace_zero k1 k2, symInPlace_zero k2 k1⟩

/-- A kernel with relative measurements keeps a variable that its measurements spare. -/
theorem relKeeps_inv (np : NoiseParams ℝ (coreDef aux)) {uc : UserCalc (coreDef aux)}
    (hn : ∀ i (hi : i < (coreDef aux).length), (coreDef aux)[i].name = i)
    (hp : PlainVars (coreDef aux)) (ha : ∀ d ∈ aux, d.isAux) {i : Fin (coreDef aux).length}
    (hi : 5 ≤ i.val) {ok : Vars ℝ (coreDef aux) → Prop} (huc : uc.Keeping ok i)
    (v0 : Values (coreDef aux)) (hok : ∀ s, Keeps i (toVars v0) s → ok s)
    (Jc : ErrMat ℝ (coreDef aux) → Prop) (Im : RelReading → Prop)
    (hsp : ∀ m, Im m → m.reading.Spares i)
    (hun : ∀ m : RelReading, Im m → ∀ P P1, Jc P →
      (∀ j ∈ (m.reading.meas (aux := aux)).cleared, j < (coreDef aux).length) →
      clearFixed (m.reading.meas (aux := aux)).fixed (m.reading.meas (aux := aux)).cleared P = some P1 →
      Uncorrelated i P1)
    (hcl : ∀ (m : RelReading) P P', Im m → Jc P →
      clearFixed (m.reading.meas (aux := aux)).fixed (m.reading.meas (aux := aux)).cleared P = some P' → Jc P')
    (hJ : ∀ P, Uncorrelated i P → Jc P)
    (hc : ∀ dt P u x r, Jc P → predictProcessCovariance np (mkState (noInit _) ⟨0, 0⟩ 0 P)
      (mkState (toVars x) u dt 0) 0 = some r → Jc r.2.1.P) :
    RelInv (relKernel np uc)
      (Sane fun v => UnitQuats (toVars v) ∧ Keeps i (toVars v0) (toVars v)) (Sane Jc) (Sane (RowsOne i)) Im
      (fun e => e.q.normSq = 1) := by
  refine relKernel_inv np uc _ _ _ _ _ (fun s new s' h e => ?_) (fun x e h1 h2 => ?_)
      (fun dt P u x r h _ e => hc dt P u x r h e) (fun m tr x P u hm _ h hP e => ?_)
      (hJ _ fun _ _ _ _ => ⟨rfl, rfl⟩) (fun dt u x r _ e => fd_rowsOne hn np i hi e) (fun _ _ _ => rfl)
      (fun a b h1 h2 => h1.mul h2) (fun m P P' hm _ _ hP e => hcl m P P' hm hP e)
      (fun ix fixed en thr z prev tr xo Po0 Po F x P0 P u hm hxo hPo0 hF hx hP0 ePo eP e => ?_)
  · obtain ⟨k1, u1⟩ := propagate_keeps ha h.1 e hi
    exact ⟨u1, h.2.trans k1⟩
  · exact ⟨ext_unit e h1 h2.1, h2.2.trans (ext_keeps e (by omega))⟩
  · obtain ⟨P1, H, r, hP1, hH, hr, h1⟩ := sensorUpdate_cases e
    obtain ⟨hcl, hcol⟩ := (hsp m hm).column hn hi hH hr
    have hu1 := hun m hm P P1 hP hcl hP1
    rcases h1 with h1 | ⟨c, P', t', vars, fz, hcc, hap, rfl⟩
    · rw [h1.2]; exact ⟨h, hJ _ hu1⟩
    · obtain ⟨k1, u1⟩ := applyCorrection_keeps hn hp h.1 (hok _ h.2) i huc
        (correction_zero _ i (fun r c hr hc => (hu1 r c hr hc).1) H hcol _ _ _ _ _ _ hcc) hap
      exact ⟨⟨u1, h.2.trans k1⟩, hJ _ (update_uncorrelated hu1 hcol hcc)⟩
  · obtain ⟨Ho, Hn, vo, vn, r, c, P', t', vars, fz, hHo, hHn, hvo, hvn, hr, hcc, hap, rfl⟩ :=
      relPoseUpdate_cases e
    obtain ⟨hd, hf⟩ := hsp _ hm
    have hlt := clearOrder_lt hvn
    have hf' : i.val ∈ ix.clearOrder → fixed.testBit i = true := fun h => hf (mem_clearOrder.1 h)
    have cHo := poseH_spares hn hd hHo i ⟨by omega, by omega⟩ hf'
    have cHn := poseH_spares hn hd hHn i ⟨by omega, by omega⟩ hf'
    have uo : Uncorrelated i Po := hun _ hm Po0 Po hPo0 hlt ePo
    have un : Uncorrelated i P := hun _ hm P0 P hP0 hlt eP
    have cHo' : ∀ a k, Owns (coreDef aux) i k → (-Ho) a k = 0 := fun a k hk => by
      rw [Matrix.neg_apply, cHo a k hk, neg_zero]
    obtain ⟨k1, u1⟩ := applyCorrection_keeps hn hp hx.1 (hok _ hx.2) i huc
      (correction_zero_relative _ _ _ i (fun r c hr hc => (uo r c hr hc).1)
        (fun r c hr hc => (un r c hr hc).1) hF _ _ cHo' cHn _ _ _ _ hcc) hap
    exact ⟨⟨u1, hx.2.trans k1⟩, hJ _ (relUpdate_uncorrelated uo un hF cHo' cHn hcc)⟩

end MSF
