import Verif.Lemmas.StillRun
import Verif.Lemmas.FixedStates

/-! Measurements without residual leave the mean as it is. -/

namespace MSF

open Matrix EKFState Spec

section log
variable {A W M : Type}

/-- The IMU readings of a run as calls. -/
def imuOnly (ops : List (Op A W M)) : List (Op A W M) := (imuOps ops).map fun r => .imu r.1 r.2

/-- The log without measurements. -/
def _root_.MSF.Spec.Log.bare (L : Log A W M) : Log A W M := ⟨L.imu, [], [], L.am⟩

theorem deliver_imu (L : Log A W M) (m : Meas M) : (L.deliver m).imu = L.imu ∧
    (L.deliver m).am = L.am := by
  unfold Log.deliver
  split
  · exact ⟨rfl, rfl⟩
  · split <;> exact ⟨rfl, rfl⟩

theorem pop_imu (L : Log A W M) : L.pop.imu = L.imu ∧ L.pop.am = L.am := by
  unfold Log.pop
  split
  · exact ⟨rfl, rfl⟩
  · exact deliver_imu _ _

theorem run_imuOnly [Zero A] (spike : A → Bool) (ops : List (Op A W M)) :
    ∀ L : Log A W M, Log.run spike L.bare (imuOnly ops) =
      (Log.run spike L ops).bare := by
  induction ops with
  | nil => intro L; rfl
  | cons o ops ih =>
    intro L
    cases o with
    | meas m =>
      have h : (L.step spike (.meas m)).imu = L.imu ∧ (L.step spike (.meas m)).am = L.am := by
        unfold Log.step
        simp only
        split
        · exact deliver_imu _ _
        · exact ⟨rfl, rfl⟩
      have := ih (L.step spike (.meas m))
      have e : (L.step spike (.meas m)).bare = L.bare := by
        unfold Log.bare
        rw [h.1, h.2]
      rw [e] at this
      exact this
    | imu t u =>
      have e1 : Log.addImu spike L.bare t u =
          (L.addImu spike t u).bare := by
        unfold Log.addImu
        split <;> rfl
      have e2 : Log.step spike L.bare (.imu t u) =
          (L.step spike (.imu t u)).bare := by
        unfold Log.step
        simp only [e1]
        split
        · have := pop_imu (L.addImu spike t u)
          have e : (L.addImu spike t u).pop.bare = (L.addImu spike t u).bare := by
            unfold Log.bare
            rw [this.1, this.2]
          rw [if_pos (by assumption), e]
          rfl
        · rw [if_neg (by assumption)]
      change Log.run spike (Log.step spike L.bare (.imu t u))
        (imuOnly ops) = _
      rw [e2]
      exact ih _

theorem newest_bare (L : Log A W M) : L.bare.newest = L.newest := rfl

theorem okRun_imuOnly [Zero A] (spike : A → Bool) (sure : M → Bool) (ops : List (Op A W M)) :
    ∀ L : Log A W M, L.okRun spike sure ops → L.bare.okRun spike sure (imuOnly ops) := by
  induction ops with
  | nil => intro L _; trivial
  | cons o ops ih =>
    intro L h
    obtain ⟨h1, h2⟩ := h
    cases o with
    | meas m =>
      have := run_imuOnly spike [Op.meas m] L
      have e : (L.step spike (.meas m)).bare = L.bare := this.symm
      have := ih _ h2
      rw [e] at this
      exact this
    | imu t u =>
      have e : Log.step spike L.bare (.imu t u) = (L.step spike (.imu t u)).bare :=
        run_imuOnly spike [Op.imu t u] L
      refine ⟨⟨h1.1, h1.2.1, fun _ m q hq => ?_⟩, ?_⟩
      · exfalso
        revert hq
        unfold Log.addImu Log.bare
        split <;> simp
      · have := ih _ h2
        rw [← e] at this
        exact this

theorem measOps_imuOnly (ops : List (Op A W M)) : measOps (imuOnly ops) = [] := by
  unfold imuOnly
  generalize imuOps ops = l
  induction l with
  | nil => rfl
  | cons r l ih => exact ih

theorem nearestStamp_mem (t : ℚ) : ∀ (ks : List ℚ) (k : ℚ), nearestStamp t ks = some k →
    k ∈ ks ∧ ∀ k' ∈ ks, |k - t| ≤ |k' - t| := by
  intro ks
  induction ks with
  | nil => intro k h; cases h
  | cons a ks ih =>
    intro k h
    unfold nearestStamp at h
    cases e : nearestStamp t ks with
    | none =>
      rw [e] at h
      have h' : a = k := Option.some.inj h
      have hks : ks = [] := by
        cases ks with
        | nil => rfl
        | cons b ks =>
          unfold nearestStamp at e
          cases e' : nearestStamp t ks <;> rw [e'] at e
          · cases e
          · simp only at e
            split at e <;> cases e
      subst h' hks
      simp
    | some k' =>
      rw [e] at h
      obtain ⟨h1, h2⟩ := ih k' e
      simp only at h
      split at h
      · rename_i hlt
        have h' : k' = k := Option.some.inj h
        subst h'
        refine ⟨List.mem_cons_of_mem _ h1, fun j hj => ?_⟩
        rcases List.mem_cons.1 hj with rfl | hj
        · exact hlt.le
        · exact h2 j hj
      · rename_i hlt
        have h' : a = k := Option.some.inj h
        subst h'
        refine ⟨List.mem_cons_self, fun j hj => ?_⟩
        rcases List.mem_cons.1 hj with rfl | hj
        · exact le_refl _
        · exact (not_lt.1 hlt).trans (h2 j hj)

theorem target_near {ks : List ℚ} {t : ℚ} (h : ∃ k ∈ ks, |k - t| ≤ 1 / 1000) : target ks t ∈ ks := by
  obtain ⟨k, hk, hkt⟩ := h
  unfold target
  cases e : nearestStamp t ks with
  | none =>
    exfalso
    cases ks with
    | nil => cases hk
    | cons b ks =>
      unfold nearestStamp at e
      cases e' : nearestStamp t ks <;> rw [e'] at e
      · cases e
      · simp only at e
        split at e <;> cases e
  | some k' =>
    obtain ⟨h1, h2⟩ := nearestStamp_mem t ks k' e
    simp only
    rw [if_pos ((h2 k hk).trans hkt)]
    exact h1

/-- Measurements near IMU readings add no times. -/
theorem times_imuOnly (L : Log A W M) (h : ∀ m ∈ L.hist, ∃ k ∈ L.stamps, |k - m.time| ≤ 1 / 1000) :
    times L = times L.bare := by
  refine List.SortedLT.eq_of_mem_iff (times_sortedLT _) (times_sortedLT _) fun k => ?_
  rw [mem_times, mem_times]
  constructor
  · rintro (h1 | ⟨m, hm, rfl⟩)
    · exact .inl h1
    · exact .inl (target_near (h m hm))
  · rintro (h1 | ⟨m, hm, -⟩)
    · exact .inl h1
    · cases hm

end log

section rel
variable {A W X C M T E : Type}
variable [AddCommGroup A] [Module ℚ A] [AddCommGroup W] [Module ℚ W]

/-- Two trajectories with the same times and inputs and related means. -/
def SameTrack (R : X → X → Prop) (a b : ℚ × St A W X C) : Prop :=
  a.1 = b.1 ∧ a.2.u = b.2.u ∧ R a.2.x b.2.x

theorem forward_rel {K : Kernel A W X C M T E} {R : X → X → Prop}
    (hprop : ∀ dt u x y u', R x y → R (K.prop dt u x u') (K.prop dt u y u'))
    (input : ℚ → Input A W) (ms : ℚ → Option M) (ts : List ℚ) :
    ∀ (t : ℚ) (s s0 : St A W X C), s.u = s0.u → R s.x s0.x →
      (∀ e ∈ forward K input (fun _ => none) (t, s0) ts, ∀ m, ms e.1 = some m → ∀ x P,
        R x e.2.x → R (K.update K.tr0 m x P).x e.2.x) →
      List.Forall₂ (SameTrack R) (forward K input ms (t, s) ts)
        (forward K input (fun _ => none) (t, s0) ts) := by
  induction ts with
  | nil => intro t s s0 _ _ _; exact .nil
  | cons t' ts ih =>
    intro t s s0 hu hx hm
    have h1 : R (K.prop (t' - t) s.u s.x (input t')) (K.prop (t' - t) s0.u s0.x (input t')) := by
      rw [hu]; exact hprop _ _ _ _ _ hx
    have h2 : R (Spec.correct K (ms t') (K.prop (t' - t) s.u s.x (input t'),
        K.predP (t' - t) s.P (input t') (K.prop (t' - t) s.u s.x (input t')))).1
        (K.prop (t' - t) s0.u s0.x (input t')) := by
      cases e : ms t' with
      | none => exact h1
      | some m => exact hm _ List.mem_cons_self m e _ _ h1
    unfold forward
    refine List.Forall₂.cons ⟨rfl, rfl, h2⟩ (ih t' _ _ rfl h2 fun e he => ?_)
    exact hm e (List.mem_cons_of_mem _ he)

/-- The batch filter with measurements that do not move the mean, near IMU readings. -/
theorem batch_rel {K : Kernel A W X C M T E} {R : X → X → Prop} (hR : ∀ x, R x x)
    (hprop : ∀ dt u x y u', R x y → R (K.prop dt u x u') (K.prop dt u y u')) (x0 : X) (P0 : C)
    (L : Log A W M) (hn : ∀ m ∈ L.hist, ∃ k ∈ L.stamps, |k - m.time| ≤ 1 / 1000)
    (hm : ∀ m ∈ L.hist, ∀ e ∈ batch K x0 P0 L.bare,
      e.1 = target L.stamps m.time → ∀ x P, R x e.2.x → R (K.update K.tr0 m.body x P).x e.2.x) :
    List.Forall₂ (SameTrack R) (batch K x0 P0 L)
      (batch K x0 P0 L.bare) := by
  have hms : ∀ t m, measAt L.stamps L.hist t = some m → ∃ m' ∈ L.hist, m'.body = m ∧
      t = target L.stamps m'.time := by
    intro t m h
    obtain ⟨m', h1, h2⟩ := Option.map_eq_some_iff.1 h
    have h3 := List.find?_some h1
    exact ⟨m', List.mem_of_find?_eq_some h1, h2, by simpa using (of_decide_eq_true h3).symm⟩
  have hnone : measAt (M := M) L.stamps [] = fun _ => none := rfl
  revert hm
  unfold batch
  rw [← times_imuOnly L hn]
  cases times L with
  | nil => intro _; exact .nil
  | cons t ts =>
    intro hm
    have hm' : ∀ e ∈ (t, (⟨inputAt L.imu t, x0, P0⟩ : St A W X C)) ::
        forward K (inputAt L.imu) (fun _ => none) (t, ⟨inputAt L.imu t, x0, P0⟩) ts,
        ∀ m, measAt L.stamps L.hist e.1 = some m → ∀ x P, R x e.2.x →
          R (K.update K.tr0 m x P).x e.2.x := by
      intro e he m h x P hx
      obtain ⟨m', h1, rfl, h3⟩ := hms _ _ h
      exact hm m' h1 e he h3 x P hx
    have h2 : R (Spec.correct K (measAt L.stamps L.hist t) (x0, P0)).1 x0 := by
      cases e : measAt L.stamps L.hist t with
      | none => exact hR x0
      | some m => exact hm' _ List.mem_cons_self m e _ _ (hR x0)
    exact .cons ⟨rfl, rfl, h2⟩ (forward_rel hprop _ _ ts t _ _ rfl h2
      fun e he => hm' e (List.mem_cons_of_mem _ he))

/-- Without measurements, the measurement update does not matter. -/
theorem forward_none {K K' : Kernel A W X C M T E} (h1 : K.prop = K'.prop) (h2 : K.predP = K'.predP)
    (input : ℚ → Input A W) (ts : List ℚ) : ∀ p : ℚ × St A W X C,
      forward K input (fun _ => none) p ts = forward K' input (fun _ => none) p ts := by
  induction ts with
  | nil => intro p; rfl
  | cons t ts ih =>
    intro p
    unfold forward
    simp only [Spec.correct, h1, h2, ih]

theorem batch_bare {K K' : Kernel A W X C M T E} (h1 : K.prop = K'.prop) (h2 : K.predP = K'.predP)
    (x : X) (P : C) (L : Log A W M) : batch K x P L.bare = batch K' x P L.bare := by
  unfold batch
  cases times L.bare with
  | nil => rfl
  | cons t ts =>
    change _ :: forward K (inputAt L.imu) (fun _ => none) _ ts =
      _ :: forward K' (inputAt L.imu) (fun _ => none) _ ts
    rw [forward_none h1 h2]
    rfl

theorem forward_inv {K : Kernel A W X C M T E} {J : X → Prop}
    (hJ : ∀ dt u x u', J x → J (K.prop dt u x u')) (input : ℚ → Input A W) (ts : List ℚ) :
    ∀ p : ℚ × St A W X C, J p.2.x → ∀ e ∈ forward K input (fun _ => none) p ts, J e.2.x := by
  induction ts with
  | nil => intro p _ e he; cases he
  | cons t ts ih =>
    intro p hp e he
    unfold forward at he
    rcases List.mem_cons.1 he with rfl | he
    · exact hJ _ _ _ _ hp
    · exact ih _ (hJ _ _ _ _ hp) e he

theorem batch_inv {K : Kernel A W X C M T E} {J : X → Prop}
    (hJ : ∀ dt u x u', J x → J (K.prop dt u x u')) (x : X) (P : C) (hx : J x) (L : Log A W M) :
    ∀ e ∈ batch K x P L.bare, J e.2.x := by
  unfold batch
  cases times L.bare with
  | nil => intro e he; cases he
  | cons t ts =>
    intro e he
    rcases List.mem_cons.1 he with rfl | he
    · exact hx
    · exact forward_inv hJ _ ts _ hx e he

end rel

variable {aux : List VarDesc} {M : Type}

theorem correct_by_zero {D : List VarDesc} (s : Vars ℝ D)
    (h : ∀ i (hi : i < D.length), D[i].name = i) (hp : PlainVars D) (hu : UnitQuats s) :
    correct s 0 = some s := by
  obtain ⟨s', e, hs⟩ := C36_correct s 0 h hp.quats hu
  rw [e]
  congr 1
  funext i
  obtain ⟨h1, h2, h3⟩ := hs i
  have hv : (s' i).val = (s i).val := by
    have ho : (D.get i).multiplicative = false := by
      rw [VarDesc.multiplicative, hp _ (List.get_mem D i)]; rfl
    have key : ∀ (k : Kind) (hk : (D.get i).kind = k) (old new : Val ℝ k),
        CorrectedVal 0 i k hk old new → new = old := by
      intro k hk old new hc
      cases k with
      | vec n =>
        funext j
        have := hc j
        rw [ho] at this
        simpa [ownSegment] using this
      | quat =>
        have this : new = Quat.mul old (quatFromSmallAngle (0 : Fin 3 → ℝ)) := hc
        rw [quatFromSmallAngle_zero, Quat.mul_one'] at this
        exact this
    exact key _ rfl _ _ h1
  cases hsi : s' i with
  | mk v Q b =>
    cases hsj : s i with
    | mk v' Q' b' =>
      rw [hsi, hsj] at hv h2 h3
      simp only at hv h2 h3
      rw [hv, h2, h3]

theorem zeroBias_zero {n : Nat} : zeroBias (0 : Fin n → ℝ) = 0 := by
  funext i
  simp [zeroBias]

/-- An update with zero residual gives the same mean, unless it is NaN. -/
theorem unchecked_zero (np : NoiseParams ℝ (coreDef aux)) {uc : UserCalc (coreDef aux)}
    (ho : Ordered aux) (hp : PlainVars (coreDef aux)) (ha : uc.augment 0 = 0) (tr : Tracker ℝ)
    {m : SensorMeas (coreDef aux)} {x : Values (coreDef aux)} (hu : UnitQuats (toVars x))
    (hs : values (uc.sanity (toVars x) (toVars x) 0) = x) (hr : m.r (toVars x) = some 0)
    (y : Option (Values (coreDef aux))) (hy : y = none ∨ y = some x)
    (P : Option (ErrMat ℝ (coreDef aux))) :
    (unchecked np uc tr m y P).x = none ∨ (unchecked np uc tr m y P).x = some x := by
  rcases hy with rfl | rfl
  · exact .inl rfl
  cases P with
  | none => exact .inl rfl
  | some P =>
    cases e : uncheckedUpdate uc m x P with
    | none => left; simp only [unchecked, e]
    | some u =>
      right
      simp only [unchecked, e]
      congr 1
      unfold uncheckedUpdate at e
      simp only [Option.bind_eq_bind, hr, Option.bind_some] at e
      obtain ⟨P1, -, e⟩ := Option.bind_eq_some_iff.1 e
      obtain ⟨H, -, e⟩ := Option.bind_eq_some_iff.1 e
      obtain ⟨o, ho', e⟩ := Option.bind_eq_some_iff.1 e
      cases o with
      | none => rw [← Option.some.inj e]
      | some cp =>
        have hc0 : cp.1 = 0 := by
          unfold calculateCorrection at ho'
          split at ho'
          · cases ho'
          · split at ho'
            · cases ho'
            · rw [← Option.some.inj (Option.some.inj ho')]
              exact Matrix.mulVec_zero (gain P1 H m.R)
        have hcc : (if uc.fixedBias then zeroBias (uc.augment cp.1) else uc.augment cp.1) = 0 := by
          rw [hc0, ha, zeroBias_zero, ite_self]
        have hcorr := correct_by_zero (toVars x) ho hp hu
        simp only [hcc, hcorr, Option.bind_some] at e
        rw [← Option.some.inj e]
        exact hs

theorem forall₂_getLast? {α β : Type} {R : α → β → Prop} {l : List α} {l' : List β}
    (h : List.Forall₂ R l l') (hl : l ≠ []) : ∃ a b, l.getLast? = some a ∧ l'.getLast? = some b ∧
      R a b := by
  induction h with
  | nil => exact absurd rfl hl
  | @cons a b l l' hab h ih =>
    cases l with
    | nil => cases h; exact ⟨a, b, rfl, rfl, hab⟩
    | cons a' l =>
      cases h with
      | cons h1 h2 =>
        obtain ⟨x, y, e1, e2, e3⟩ := ih (by simp)
        exact ⟨x, y, by rw [List.getLast?_cons_cons]; exact e1,
          by rw [List.getLast?_cons_cons]; exact e2, e3⟩

/-- A prediction keeps unit quaternions. -/
theorem filter_prop_unit (ha : ∀ d ∈ aux, d.isAux) (np : NoiseParams ℝ (coreDef aux))
    (uc : UserCalc (coreDef aux)) (dt : ℚ) (u : Input (V3 ℝ) (V3 ℝ))
    (x : Option (Values (coreDef aux))) (u' : Input (V3 ℝ) (V3 ℝ))
    (hx : ∀ v, x = some v → UnitQuats (toVars v)) (v : Values (coreDef aux))
    (h : (filterKernel np uc).prop dt u x u' = some v) : UnitQuats (toVars v) := by
  cases x with
  | none => cases h
  | some v0 =>
    change (propagateState (mkState (toVars v0) u 0 0) (mkState (noInit _) u' (dt : ℝ) 0)).bind
      (fun s => some (values s.vars)) = some v at h
    obtain ⟨s, h1, h2⟩ := Option.bind_eq_some_iff.1 h
    rw [← Option.some.inj h2]
    exact (propagate_keeps (s := mkState (toVars v0) u 0 0) ha (hx v0 rfl) h1 (le_refl 5)).2

end MSF
