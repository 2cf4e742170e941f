import Verif.Lemmas.Predict2
import Verif.Lemmas.CalcQGen
import Verif.Props.Propagation
import Mathlib.Analysis.Calculus.Deriv.Pow
import Mathlib.Analysis.Calculus.Deriv.Mul
import Mathlib.Analysis.Calculus.Deriv.Add

/-!
# Properties of covariance prediction: C29, C59, C60, C61
-/

namespace MSF

open Matrix EKFState

/-- State definitions the code accepts: the variables are listed in the order of their enumerators
(the static check of `CheckCorrectIndexing`), the core states first. -/
def Ordered (aux : List VarDesc) : Prop :=
  ∀ i (hi : i < (coreDef aux).length), (coreDef aux)[i].name = i

/-- States whose `Fd` and `Qd` are what the filter made of them: identity and zero in a new state
(msf_state.h:155-166), changed by predictions from this state only.  Everything else may change
between the predictions. -/
inductive Live {aux : List VarDesc} : EKFState ℝ (coreDef aux) → Prop
  | fresh (x) : x.Fd = 1 → x.Qd = 0 → Live x
  | predicted {np old new t old' new' t'} : Live old →
      predictProcessCovariance np old new t = some (old', new', t') → Live old'
  | changed {x y} : Live x → y.Fd = x.Fd → y.Qd = x.Qd → Live y

/-- What `Live` means for the entries. -/
theorem Live.clean {aux : List VarDesc} (ho : Ordered aux) {x : EKFState ℝ (coreDef aux)}
    (h : Live x) :
    (∀ C w a dt, setFd (fun b => 3 * b.idx.val) x.Fd C w a dt =
      setFd (fun b => 3 * b.idx.val) 1 C w a dt) ∧
    (∀ r c, (∀ i, ((coreDef aux).get i).isAux →
        ¬ (InVar (coreDef aux) i r ∧ InVar (coreDef aux) i c)) →
      ∀ i : CalcQ.In ℝ, (CalcQ.lookup i r c).isSome = false → x.Qd r c = 0) := by
  have hi := indexingErrors_eq_zero.2 ho
  induction h with
  | fresh x h1 h2 => exact ⟨fun C w a dt => by rw [h1], fun r c _ i _ => by rw [h2]; rfl⟩
  | @predicted np old new t old' new' t' hl hp ih =>
    by_cases hdt : new.time - old.time ≤ 0
    · simp only [predictProcessCovariance, if_pos hdt, Option.some.injEq, Prod.mk.injEq] at hp
      rw [← hp.1]
      exact ih
    · obtain ⟨Qd, h1, h2⟩ := predict_apply hi np old new t hdt
      rw [h1, Option.some.injEq, Prod.mk.injEq] at hp
      rw [← hp.1]
      refine ⟨fun C w a dt => ?_, fun r c hno i hn => ?_⟩
      · simp only [setFd_setFd]
        exact ih.1 C w a dt
      · simp only
        rw [(h2 r c).2 hno]
        have hn' : ∀ i' : CalcQ.In ℝ, (CalcQ.lookup i' r c).isSome = false := fun i' =>
          (lookup_isSome i' i r c).trans hn
        have : ∀ (o : Option ℝ) (d : ℝ), o.isSome = false → o.getD d = d := by
          intro o d ho
          cases o with
          | none => rfl
          | some x => cases ho
        rw [this _ _ (hn' _)]
        exact ih.2 r c hno i hn
  | changed hl h1 h2 ih => rw [h1, h2]; exact ih

/-- **C61.**  For every state definition, all noise parameters and all inputs: what a prediction
writes to the next state depends on the covariance and the time of the state it starts from, not on
the earlier predictions made from that state.  Predicting again after a delayed measurement has
changed the state gives what a first prediction from the changed state would give. -/
theorem C61_predict_again {aux : List VarDesc} (ho : Ordered aux)
    (np : NoiseParams ℝ (coreDef aux)) (old old2 new : EKFState ℝ (coreDef aux)) (t : ℝ)
    (h : Live old) (h2 : Live old2) (hP : old.P = old2.P) (ht : old.time = old2.time) :
    (predictProcessCovariance np old new t).map Prod.snd =
      (predictProcessCovariance np old2 new t).map Prod.snd ∧
    (predictProcessCovariance np old new t).isSome := by
  have hi := indexingErrors_eq_zero.2 ho
  by_cases hdt : new.time - old.time ≤ 0
  · have hdt2 : new.time - old2.time ≤ 0 := by rw [← ht]; exact hdt
    simp [predictProcessCovariance, hdt, hdt2]
  · have hdt2 : ¬ new.time - old2.time ≤ 0 := by rw [← ht]; exact hdt
    obtain ⟨Q1, e1, q1⟩ := predict_apply hi np old new t hdt
    obtain ⟨Q2, e2, q2⟩ := predict_apply hi np old2 new t hdt2
    refine ⟨?_, by rw [e1]; rfl⟩
    rw [e1, e2, Option.map_some, Option.map_some, (h.clean ho).1, (h2.clean ho).1, hP, ht]
    have hQ : Q1 = Q2 := by
      ext r c
      by_cases hx : ∃ i, ((coreDef aux).get i).isAux ∧ InVar (coreDef aux) i r ∧
          InVar (coreDef aux) i c
      · obtain ⟨i, ha, hr, hc⟩ := hx
        rw [(q1 r c).1 i ha hr hc, (q2 r c).1 i ha hr hc, ht]
      · have hno : ∀ i, ((coreDef aux).get i).isAux →
            ¬ (InVar (coreDef aux) i r ∧ InVar (coreDef aux) i c) :=
          fun i ha hh => hx ⟨i, ha, hh⟩
        rw [(q1 r c).2 hno, (q2 r c).2 hno, ht]
        cases hl : CalcQ.lookup (CalcQ.mkIn (new.time - old2.time) (EKFState.q new.vars)
            (new.w_m - EKFState.b_w new.vars) (new.a_m - EKFState.b_a new.vars)
            (fun _ => np.acc) (fun _ => np.accBias) (fun _ => np.gyr) (fun _ => np.gyrBias))
            r c with
        | some x => rfl
        | none =>
          have hl' := congrArg Option.isSome hl
          exact ((h.clean ho).2 r c hno _ hl').trans ((h2.clean ho).2 r c hno _ hl').symm
    rw [hQ]

/-! ### Process noise -/

theorem toRot_orthogonal (q : Quat ℝ) (h : q.normSq = 1) : q.toRot * q.toRotᵀ = 1 := by
  rw [toRot_hom q h]
  have e : ∀ i j, (hrot q * (hrot q)ᵀ) i j = q.normSq ^ 2 * (1 : M33 ℝ) i j := by
    intro i j
    fin_cases i <;> fin_cases j <;>
      simp [hrot, Matrix.mul_apply, Fin.sum_univ_three, Quat.normSq] <;> ring
  ext i j
  rw [e, h]
  ring

/-- The core part of `Qd` after a prediction from a live state. -/
theorem core_noise {aux : List VarDesc} (ho : Ordered aux) (np : NoiseParams ℝ (coreDef aux))
    (old new : EKFState ℝ (coreDef aux)) (t : ℝ) (hl : Live old) (hdt : old.time < new.time)
    {old' new' : EKFState ℝ (coreDef aux)} {t' : ℝ}
    (h : predictProcessCovariance np old new t = some (old', new', t')) (b b' : Fin 5) :
    coreBlock old'.Qd b b' = CalcQ.qBlock (CalcQ.mkIn (new.time - old.time) (EKFState.q new.vars)
      (new.w_m - EKFState.b_w new.vars) (new.a_m - EKFState.b_a new.vars)
      (fun _ => np.acc) (fun _ => np.accBias) (fun _ => np.gyr) (fun _ => np.gyrBias)) b b' := by
  have hi := indexingErrors_eq_zero.2 ho
  obtain ⟨Qd, e, hq⟩ := predict_apply hi np old new t (by linarith)
  rw [e, Option.some.injEq, Prod.mk.injEq] at h
  rw [← h.1]
  ext i j
  simp only [coreBlock, CalcQ.qBlock, of_apply]
  have hno : ∀ k, ((coreDef aux).get k).isAux → ∀ c : Fin (total errLen (coreDef aux)),
      ¬ (InVar (coreDef aux) k ⟨3 * b + i, by have := core_le_total aux; omega⟩ ∧
        InVar (coreDef aux) k c) := by
    intro k hk c hh
    have := aux_inVar_ge k hk _ hh.1
    simp only at this
    omega
  rw [(hq _ _).2 fun k hk => hno k hk _]
  cases hlk : CalcQ.lookup (CalcQ.mkIn (new.time - old.time) (EKFState.q new.vars)
      (new.w_m - EKFState.b_w new.vars) (new.a_m - EKFState.b_a new.vars)
      (fun _ => np.acc) (fun _ => np.accBias) (fun _ => np.gyr) (fun _ => np.gyrBias))
      (3 * b + i) (3 * b' + j) with
  | some x => rfl
  | none =>
    exact (hl.clean ho).2 _ _ (fun k hk => hno k hk _) _ (congrArg Option.isSome hlk)

/-- **C59, partial: no gyro noise.**  For every state definition, attitude, body rate, specific
force, accelerometer noises and positive time step: the core blocks of the process noise are the
third-order expansion of the noise integral of the error dynamics.  Missing: gyro noise (see
`C59_violated_gyro_noise`). -/
theorem C59_noise_integral_no_gyro_noise_partial {aux : List VarDesc} (ho : Ordered aux)
    (np : NoiseParams ℝ (coreDef aux)) (hg : np.gyr = 0) (hgb : np.gyrBias = 0)
    (old new : EKFState ℝ (coreDef aux)) (t : ℝ) (hl : Live old) (hdt : old.time < new.time)
    (hq : (q new.vars).normSq = 1)
    {old' new' : EKFState ℝ (coreDef aux)} {t' : ℝ}
    (h : predictProcessCovariance np old new t = some (old', new', t')) (b b' : Fin 5) :
    coreBlock old'.Qd b b' =
      lyap3 (errDyn (q new.vars).toRot (new.w_m - b_w new.vars) (new.a_m - b_a new.vars))
        (noiseDensity (q new.vars).toRot (fun _ => np.acc) (fun _ => np.accBias)
          (fun _ => np.gyr) (fun _ => np.gyrBias)) (new.time - old.time) b b' := by
  have z : (fun _ => (0 : ℝ)) = (0 : V3 ℝ) := rfl
  rw [core_noise ho np old new t hl hdt h, hg, hgb, z, qBlock_acc, toRot_hom _ hq, lyap_acc]

/-- **C59, partial: at rest.**  The same for all noises when body rate and specific force, the
readings minus the biases, are zero. -/
theorem C59_noise_integral_at_rest_partial {aux : List VarDesc} (ho : Ordered aux)
    (np : NoiseParams ℝ (coreDef aux)) (old new : EKFState ℝ (coreDef aux)) (t : ℝ)
    (hl : Live old) (hdt : old.time < new.time) (hw : new.w_m = b_w new.vars)
    (ha : new.a_m = b_a new.vars) (hq : (q new.vars).normSq = 1)
    {old' new' : EKFState ℝ (coreDef aux)} {t' : ℝ}
    (h : predictProcessCovariance np old new t = some (old', new', t')) (b b' : Fin 5) :
    coreBlock old'.Qd b b' =
      lyap3 (errDyn (q new.vars).toRot (new.w_m - b_w new.vars) (new.a_m - b_a new.vars))
        (noiseDensity (q new.vars).toRot (fun _ => np.acc) (fun _ => np.accBias)
          (fun _ => np.gyr) (fun _ => np.gyrBias)) (new.time - old.time) b b' := by
  rw [core_noise ho np old new t hl hdt h, hw, ha, sub_self, sub_self, qBlock_rest,
    toRot_hom _ hq, lyap_rest]

/-- **C59, partial: blocks that are right for all inputs.**  The position block, all blocks of the
biases with each other and of the accelerometer bias with everything, and the position – gyro bias
blocks are the expansion for every motion and all noises.  Missing: the blocks of velocity and
attitude, and attitude with position and gyro bias. -/
theorem C59_noise_integral_blocks_partial {aux : List VarDesc} (ho : Ordered aux)
    (np : NoiseParams ℝ (coreDef aux)) (old new : EKFState ℝ (coreDef aux)) (t : ℝ)
    (hl : Live old) (hdt : old.time < new.time) (hq : (q new.vars).normSq = 1)
    {old' new' : EKFState ℝ (coreDef aux)} {t' : ℝ}
    (h : predictProcessCovariance np old new t = some (old', new', t')) (b b' : Fin 5)
    (hb : b = 4 ∨ b' = 4 ∨ ((b = 0 ∨ b = 3) ∧ (b' = 0 ∨ b' = 3))) :
    coreBlock old'.Qd b b' =
      lyap3 (errDyn (q new.vars).toRot (new.w_m - b_w new.vars) (new.a_m - b_a new.vars))
        (noiseDensity (q new.vars).toRot (fun _ => np.acc) (fun _ => np.accBias)
          (fun _ => np.gyr) (fun _ => np.gyrBias)) (new.time - old.time) b b' := by
  rw [core_noise ho np old new t hl hdt h, toRot_hom _ hq, noiseDensity, lyap_blocks, lyapBlocks]
  have hall : (b = 0 ∧ b' = 0) ∨ (b = 0 ∧ b' = 3) ∨ (b = 3 ∧ b' = 0) ∨ (b = 3 ∧ b' = 3) ∨
      (b = 0 ∧ b' = 4) ∨ (b = 1 ∧ b' = 4) ∨ (b = 2 ∧ b' = 4) ∨ (b = 3 ∧ b' = 4) ∨
      (b = 4 ∧ b' = 0) ∨ (b = 4 ∧ b' = 1) ∨ (b = 4 ∧ b' = 2) ∨ (b = 4 ∧ b' = 3) ∨
      (b = 4 ∧ b' = 4) := by
    revert hb
    revert b b'
    decide
  rcases hall with ⟨rfl, rfl⟩ | ⟨rfl, rfl⟩ | ⟨rfl, rfl⟩ | ⟨rfl, rfl⟩ | ⟨rfl, rfl⟩ | ⟨rfl, rfl⟩ |
    ⟨rfl, rfl⟩ | ⟨rfl, rfl⟩ | ⟨rfl, rfl⟩ | ⟨rfl, rfl⟩ | ⟨rfl, rfl⟩ | ⟨rfl, rfl⟩ | ⟨rfl, rfl⟩
  · exact gen_00 ..
  · exact gen_03 ..
  · exact gen_30 ..
  · exact gen_33 ..
  · exact gen_04 ..
  · exact gen_14 ..
  · exact gen_24 ..
  · exact gen_34 ..
  · exact gen_40 ..
  · exact gen_41 ..
  · exact gen_42 ..
  · exact gen_43 ..
  · exact gen_44 ..

/-- The expansion does solve the differential equation of the accumulated covariance,
`Q' = F Q + Q Fᵀ + G`, up to a term of third order in the time step. -/
theorem lyap3_solves (F G : BM ℝ) : ∃ M : BM ℝ, ∀ (t : ℝ) (b b' : Fin 5) (i j : Fin 3),
    HasDerivAt (fun s => lyap3 F G s b b' i j)
      ((F * lyap3 F G t + lyap3 F G t * bT F + G - t ^ 3 • M) b b' i j) t := by
  let T := F * F * G + (2 : ℝ) • (F * G * bT F) + G * bT F * bT F
  refine ⟨(1 / 6 : ℝ) • (F * T + T * bT F), fun t b b' i j => ?_⟩
  have e : F * lyap3 F G t + lyap3 F G t * bT F + G - t ^ 3 • ((1 / 6 : ℝ) • (F * T + T * bT F)) =
      G + t • (F * G + G * bT F) + (t ^ 2 / 2) • T := by
    simp only [lyap3, T, Matrix.mul_add, Matrix.add_mul, Matrix.mul_smul, Matrix.smul_mul,
      ← Matrix.mul_assoc]
    module
  rw [e]
  simp only [lyap3, Matrix.add_apply, Matrix.smul_apply, smul_eq_mul]
  have h1 : HasDerivAt (fun s : ℝ => s * G b b' i j) (1 * G b b' i j) t :=
    (hasDerivAt_id t).mul_const _
  have h2 : HasDerivAt (fun s : ℝ => s ^ 2 / 2 * (F * G + G * bT F) b b' i j)
      (2 * t / 2 * (F * G + G * bT F) b b' i j) t := by
    have := ((hasDerivAt_pow 2 t).div_const 2).mul_const ((F * G + G * bT F) b b' i j)
    simpa using this
  have h3 : HasDerivAt (fun s : ℝ => s ^ 3 / 6 * T b b' i j) (3 * t ^ 2 / 6 * T b b' i j) t := by
    have := ((hasDerivAt_pow 3 t).div_const 6).mul_const (T b b' i j)
    simpa using this
  have := (h1.add h2).add h3
  refine (this.congr_deriv ?_)
  simp only [T, Matrix.add_apply, Matrix.smul_apply, smul_eq_mul]
  ring

/-! ### Positive semidefiniteness -/

/-- The noise of all auxiliary states and of the core as a sum of embedded blocks. -/
theorem noise_psd {aux : List VarDesc} (Qd : ErrMat ℝ (coreDef aux))
    (core : BM ℝ) (hcore : (comp (Fin 5) (Fin 5) (Fin 3) (Fin 3) ℝ core).PosSemidef)
    (s : Vars ℝ (coreDef aux)) (hs : ∀ i, ((coreDef aux).get i).isAux → (s i).Q.PosSemidef)
    (h1 : ∀ b b', coreBlock Qd b b' = core b b')
    (h2 : ∀ i, ((coreDef aux).get i).isAux → ∀ r c (hr : InVar (coreDef aux) i r)
      (hc : InVar (coreDef aux) i c), Qd r c = (s i).Q
        ⟨r - offset errLen (coreDef aux) i, by have := hr.1; have := hr.2; omega⟩
        ⟨c - offset errLen (coreDef aux) i, by have := hc.1; have := hc.2; omega⟩)
    (h3 : ∀ r c : Fin (total errLen (coreDef aux)), ¬ (r.val < 15 ∧ c.val < 15) →
      (∀ i, ((coreDef aux).get i).isAux →
        ¬ (InVar (coreDef aux) i r ∧ InVar (coreDef aux) i c)) → Qd r c = 0) :
    Qd.PosSemidef := by
  classical
  let f : Fin 5 × Fin 3 → Fin (total errLen (coreDef aux)) := fun x =>
    ⟨3 * x.1 + x.2, by have := core_le_total aux; omega⟩
  have hf : Function.Injective f := by
    rintro ⟨b, i⟩ ⟨b', i'⟩ h
    have h := congrArg Fin.val h
    simp only [f] at h
    rw [Prod.mk.injEq]
    exact ⟨Fin.ext (by omega), Fin.ext (by omega)⟩
  have hrange : ∀ r : Fin (total errLen (coreDef aux)), r ∈ Set.range f ↔ r.val < 15 := by
    intro r
    constructor
    · rintro ⟨⟨b, i⟩, rfl⟩
      simp only [f]
      omega
    · intro h
      exact ⟨(⟨r / 3, by omega⟩, ⟨r % 3, by omega⟩), Fin.ext (by simp only [f]; omega)⟩
  obtain ⟨M, hM, hM1, hM2⟩ := embed_psd f hf _ hcore
  have haux : ∀ i, ∃ N : ErrMat ℝ (coreDef aux), N.PosSemidef ∧
      (((coreDef aux).get i).isAux → ∀ r c (hr : InVar (coreDef aux) i r)
        (hc : InVar (coreDef aux) i c), N r c = (s i).Q
        ⟨r - offset errLen (coreDef aux) i, by have := hr.1; have := hr.2; omega⟩
        ⟨c - offset errLen (coreDef aux) i, by have := hc.1; have := hc.2; omega⟩) ∧
      (∀ r c, ¬ (((coreDef aux).get i).isAux ∧ InVar (coreDef aux) i r ∧ InVar (coreDef aux) i c) →
        N r c = 0) := by
    intro i
    by_cases ha : ((coreDef aux).get i).isAux
    · have hle : offset errLen (coreDef aux) i + ((coreDef aux).get i).kind.errLen ≤
          total errLen (coreDef aux) := offset_add_len_le errLen i i.2
      let g : Fin ((coreDef aux).get i).kind.errLen → Fin (total errLen (coreDef aux)) := fun k =>
        ⟨offset errLen (coreDef aux) i + k, by have := k.2; omega⟩
      have hg : Function.Injective g := by
        intro k k' h
        have h := congrArg Fin.val h
        simp only [g] at h
        exact Fin.ext (by omega)
      obtain ⟨N, hN, hN1, hN2⟩ := embed_psd g hg _ (hs i ha)
      refine ⟨N, hN, fun _ r c hr hc => ?_, fun r c hno => ?_⟩
      · rw [← hN1]
        congr 1 <;> refine Fin.ext ?_ <;> simp only [g]
        · have := hr.1; omega
        · have := hc.1; omega
      · apply hN2
        by_contra hcon
        rw [not_or, not_not, not_not] at hcon
        obtain ⟨⟨k, hk⟩, ⟨k', hk'⟩⟩ := hcon
        refine hno ⟨ha, ?_, ?_⟩
        · rw [← hk]; exact ⟨by simp only [g]; omega, by simp only [g]; have := k.2; omega⟩
        · rw [← hk']; exact ⟨by simp only [g]; omega, by simp only [g]; have := k'.2; omega⟩
    · exact ⟨0, PosSemidef.zero, fun h => absurd h ha, fun r c _ => rfl⟩
  choose N hN hN1 hN2 using haux
  have key : Qd = M + ∑ i, N i := by
    ext r c
    rw [Matrix.add_apply, Matrix.sum_apply]
    by_cases hx : ∃ i, ((coreDef aux).get i).isAux ∧ InVar (coreDef aux) i r ∧
        InVar (coreDef aux) i c
    · obtain ⟨i, ha, hr, hc⟩ := hx
      have hM0 : M r c = 0 := by
        apply hM2
        left
        rw [hrange]
        have := aux_inVar_ge i ha r hr
        omega
      rw [hM0, zero_add, Finset.sum_eq_single i, hN1 i ha r c hr hc, h2 i ha r c hr hc]
      · intro j _ hj
        apply hN2
        rintro ⟨-, hjr, -⟩
        exact hj (inVar_unique hjr hr)
      · intro h; exact absurd (Finset.mem_univ i) h
    · have hno : ∀ i, ((coreDef aux).get i).isAux →
          ¬ (InVar (coreDef aux) i r ∧ InVar (coreDef aux) i c) :=
        fun i ha hh => hx ⟨i, ha, hh⟩
      rw [Finset.sum_eq_zero fun i _ => hN2 i r c fun hh => hno i hh.1 hh.2, add_zero]
      by_cases hc : r.val < 15 ∧ c.val < 15
      · obtain ⟨⟨b, i⟩, rfl⟩ := (hrange r).2 hc.1
        obtain ⟨⟨b', j⟩, rfl⟩ := (hrange c).2 hc.2
        rw [hM1, comp_apply, ← h1]
        rfl
      · rw [h3 r c hc hno, hM2]
        rw [hrange, hrange]
        omega
  rw [key]
  exact hM.add (posSemidef_sum _ fun i _ => hN i)

/-- **C29, partial.**  For every state definition, live state, unit attitude and time step:
covariance prediction keeps the covariance positive semidefinite, provided the noises of the
auxiliary states are positive semidefinite, the accelerometer bias noise is small against the
accelerometer noise (`n_ba dt ≤ 3 n_a`), and either there is no gyro noise or body rate and
specific force vanish.  Missing: gyro noise during motion and large bias noise, where the claim is
false (`C29_violated_hover`, `C29_violated_bias_noise`). -/
theorem C29_prediction_psd_partial {aux : List VarDesc} (ho : Ordered aux)
    (np : NoiseParams ℝ (coreDef aux)) (old new : EKFState ℝ (coreDef aux)) (t : ℝ)
    (hl : Live old) (hP : old.P.PosSemidef) (hnew : new.P.PosSemidef)
    (hq : (q new.vars).normSq = 1)
    (haux : ∀ dt i, ((coreDef aux).get i).isAux → (np.qAux new.vars dt i).Q.PosSemidef)
    (hn : np.accBias ^ 2 * (new.time - old.time) ^ 2 ≤ 9 * np.acc ^ 2)
    (hcase : (np.gyr = 0 ∧ np.gyrBias = 0) ∨
      (new.w_m = b_w new.vars ∧ new.a_m = b_a new.vars))
    {old' new' : EKFState ℝ (coreDef aux)} {t' : ℝ}
    (h : predictProcessCovariance np old new t = some (old', new', t')) : new'.P.PosSemidef := by
  have hi := indexingErrors_eq_zero.2 ho
  by_cases hdt : new.time - old.time ≤ 0
  · simp only [predictProcessCovariance, if_pos hdt, Option.some.injEq, Prod.mk.injEq] at h
    rw [← h.2.1]
    exact hnew
  · have hdt' : old.time < new.time := by linarith [not_le.1 hdt]
    have hcn := fun b b' => core_noise ho np old new t hl hdt' h b b'
    obtain ⟨Qd, e, hQ⟩ := predict_apply hi np old new t hdt
    rw [e, Option.some.injEq, Prod.mk.injEq, Prod.mk.injEq] at h
    rw [← h.2.1]
    refine (psd_congr hP _).add ?_
    rw [← h.1] at hcn
    refine noise_psd Qd (simpleQ (hrot (q new.vars)) (fun _ => np.acc) (fun _ => np.accBias)
      (fun _ => np.gyr) (fun _ => np.gyrBias) (new.time - old.time)) ?_ _
      (haux (new.time - old.time)) ?_ (fun i hi r c => (hQ r c).1 i hi) ?_
    · refine simpleQ_psd _ ?_ _ _ _ _ _ (by linarith) hn
      rw [← toRot_hom _ hq]
      exact toRot_orthogonal _ hq
    · intro b b'
      rw [hcn]
      rcases hcase with ⟨h1, h2⟩ | ⟨h1, h2⟩
      · have z : (fun _ => (0 : ℝ)) = (0 : V3 ℝ) := rfl
        rw [h1, h2, z, qBlock_acc]
      · rw [h1, h2, sub_self, sub_self, qBlock_rest]
    · intro r c hrc hno
      rw [(hQ r c).2 hno]
      cases hlk : CalcQ.lookup (CalcQ.mkIn (new.time - old.time) (EKFState.q new.vars)
          (new.w_m - EKFState.b_w new.vars) (new.a_m - EKFState.b_a new.vars)
          (fun _ => np.acc) (fun _ => np.accBias) (fun _ => np.gyr) (fun _ => np.gyrBias))
          r c with
      | some x => exact absurd (lookup_core _ _ _ (by rw [hlk]; rfl)) hrc
      | none => exact (hl.clean ho).2 r c hno _ (congrArg Option.isSome hlk)

/-! ### Violations of C29 and C59 -/

/-- Noise parameters without auxiliary noise. -/
noncomputable def plainNoise (acc accBias gyr gyrBias : ℝ) : NoiseParams ℝ (coreDef []) :=
  ⟨acc, accBias, gyr, gyrBias, fun s _ => s⟩

theorem ordered_core : Ordered [] := by
  intro i hi
  have h5 : i < 5 := by simpa [coreDef, coreDescs] using hi
  interval_cases i <;> rfl

theorem live_blank (aux : List VarDesc) (t : ℝ) (a w : V3 ℝ) : Live (blankState aux t a w) :=
  Live.fresh _ rfl rfl

/-- A prediction from a zero covariance leaves the process noise. -/
theorem predict_from_zero (np : NoiseParams ℝ (coreDef [])) (T : ℝ) (hT : 0 < T) (a w : V3 ℝ) :
    ∃ old' new', predictProcessCovariance np (blankState [] 0 0 0) (blankState [] T a w) 0 =
      some (old', new', T) ∧ new'.P = old'.Qd ∧
      ∀ b b', coreBlock old'.Qd b b' = CalcQ.qBlock (CalcQ.mkIn T Quat.one w a
        (fun _ => np.acc) (fun _ => np.accBias) (fun _ => np.gyr) (fun _ => np.gyrBias)) b b' := by
  obtain ⟨Qd, e, -⟩ := predict_apply (indexingErrors_eq_zero.2 ordered_core) np
    (blankState [] 0 0 0) (blankState [] T a w) 0 (by simpa [blankState] using hT)
  have hc := fun b b' => core_noise ordered_core np (blankState [] 0 0 0) (blankState [] T a w) 0
    (live_blank [] 0 0 0) (by simpa [blankState] using hT) e b b'
  refine ⟨_, _, e, ?_, fun b b' => (hc b b').trans ?_⟩
  · simp [blankState]
  · have e1 : b_w (blankState [] T a w).vars = 0 := rfl
    have e2 : b_a (blankState [] T a w).vars = 0 := rfl
    have e3 : q (blankState [] T a w).vars = Quat.one := rfl
    have e4 : (blankState [] T a w).time - (blankState [] 0 0 0).time = T := sub_zero T
    rw [e1, e2, e3, e4, sub_zero, sub_zero]
    rfl

/-- Entry of the core part of a symmetric matrix. -/
theorem coreBlock_symm {aux : List VarDesc} {M : ErrMat ℝ (coreDef aux)} (h : Mᵀ = M)
    (b b' : Fin 5) (i j : Fin 3) : coreBlock M b b' i j = coreBlock M b' b j i :=
  (congrFun (congrFun h _) _).symm

/-- A zero variance forces zero covariances. -/
theorem psd_zero_diag {n : Type} [Fintype n] {M : Matrix n n ℝ} (hM : M.PosSemidef)
    {i : n} (h : M i i = 0) (j : n) : M i j = 0 := by
  have hs : M j i = M i j := congrFun (congrFun (psd_transpose_eq hM) i) j
  by_contra h0
  have hd := (hM.submatrix ![i, j]).dotProduct_mulVec_nonneg ![-(M j j + 1) / (2 * M i j), 1]
  have e : star ![-(M j j + 1) / (2 * M i j), 1] ⬝ᵥ
      (M.submatrix ![i, j] ![i, j] *ᵥ ![-(M j j + 1) / (2 * M i j), 1]) = -1 := by
    simp [dotProduct, mulVec, Fin.sum_univ_two, h, hs]
    field_simp
    ring
  rw [e] at hd
  linarith

set_option maxRecDepth 4000 in
/-- **C29 and C59 are violated in hover.**  Unit attitude, no rotation, the accelerometer reading of
gravity, gyro noise 0.01, all other noises zero, a step of 10 ms from a zero covariance: the
predicted covariance is not symmetric, so it is no covariance.  The velocity – attitude entry is
set and its mirror image is never assigned. -/
theorem C29_violated_hover : ∃ (np : NoiseParams ℝ (coreDef [])) (old new : EKFState ℝ (coreDef []))
    (old' new' : EKFState ℝ (coreDef [])) (t' : ℝ), Live old ∧ old.P.PosSemidef ∧
      (q new.vars).normSq = 1 ∧ new.w_m = b_w new.vars ∧ 0 ≤ np.acc ∧ 0 ≤ np.accBias ∧
      0 ≤ np.gyr ∧ 0 ≤ np.gyrBias ∧
      predictProcessCovariance np old new 0 = some (old', new', t') ∧ new'.Pᵀ ≠ new'.P := by
  obtain ⟨old', new', h, hP, hb⟩ := predict_from_zero (plainNoise 0 0 (1 / 100) 0) (1 / 100)
    (by norm_num) ![0, 0, 981 / 100] 0
  refine ⟨_, blankState [] 0 0 0, blankState [] _ _ _, old', new', _, live_blank [] 0 0 0, PosSemidef.zero, Quat.normSq_one, rfl,
    le_refl _, le_refl _, by simp [plainNoise], le_refl _, h, fun hs => ?_⟩
  rw [hP] at hs
  have := coreBlock_symm hs 1 2 1 0
  rw [hb, hb, CalcQ.qBlock_1_2, CalcQ.qBlock_2_1] at this
  simp only [of_apply, cons_val] at this
  revert this
  unfold_tmp
  simp [plainNoise, Quat.one]
  try norm_num

set_option maxRecDepth 4000 in
/-- **C29 is violated without gyro noise as well.**  Accelerometer bias noise alone: the position
variance is zero and its covariance with the bias is not. -/
theorem C29_violated_bias_noise : ∃ (np : NoiseParams ℝ (coreDef []))
    (old new : EKFState ℝ (coreDef []))
    (old' new' : EKFState ℝ (coreDef [])) (t' : ℝ), Live old ∧ old.P.PosSemidef ∧
      (q new.vars).normSq = 1 ∧ new.w_m = b_w new.vars ∧ new.a_m = b_a new.vars ∧
      0 ≤ np.acc ∧ 0 ≤ np.accBias ∧ np.gyr = 0 ∧ np.gyrBias = 0 ∧
      predictProcessCovariance np old new 0 = some (old', new', t') ∧ ¬ new'.P.PosSemidef := by
  obtain ⟨old', new', h, hP, hb⟩ := predict_from_zero (plainNoise 0 1 0 0) 1 one_pos 0 0
  refine ⟨_, blankState [] 0 0 0, blankState [] _ _ _, old', new', _, live_blank [] 0 0 0, PosSemidef.zero, Quat.normSq_one, rfl, rfl,
    le_refl _, zero_le_one, rfl, rfl, h, fun hs => ?_⟩
  rw [hP] at hs
  have h00 : old'.Qd ⟨0, by decide⟩ ⟨0, by decide⟩ = 0 := by
    have : coreBlock old'.Qd 0 0 0 0 = 0 := by
      rw [hb, CalcQ.qBlock_0_0]
      simp only [of_apply, cons_val]
      unfold_tmp
      simp [plainNoise]
    exact this
  have h04 : old'.Qd ⟨0, by decide⟩ ⟨12, by decide⟩ ≠ 0 := by
    have : coreBlock old'.Qd 0 4 0 0 ≠ 0 := by
      rw [hb, CalcQ.qBlock_0_4]
      simp only [of_apply, cons_val]
      unfold_tmp
      simp [plainNoise, Quat.one]
    exact this
  exact h04 (psd_zero_diag hs h00 _)

set_option maxRecDepth 4000 in
/-- **C59 is violated with gyro noise.**  In hover, with gyro noise alone, the velocity variance
grows with the time step in place of its cube: for a unit gyro noise, specific force `g` and step
`T` the code adds `g² T` where the expansion has `g² T³ / 3`. -/
theorem C59_violated_gyro_noise (g T : ℝ) (hT : 0 < T) :
    ∃ (np : NoiseParams ℝ (coreDef [])) (old new old' new' : EKFState ℝ (coreDef [])) (t' : ℝ),
      Live old ∧ (q new.vars).normSq = 1 ∧ new.time - old.time = T ∧
      predictProcessCovariance np old new 0 = some (old', new', t') ∧
      coreBlock old'.Qd 1 1 1 1 = g ^ 2 * T ∧
      lyap3 (errDyn (q new.vars).toRot (new.w_m - b_w new.vars) (new.a_m - b_a new.vars))
        (noiseDensity (q new.vars).toRot (fun _ => np.acc) (fun _ => np.accBias)
          (fun _ => np.gyr) (fun _ => np.gyrBias)) T 1 1 1 1 = g ^ 2 * (T ^ 3 / 3) := by
  obtain ⟨old', new', h, hP, hb⟩ := predict_from_zero (plainNoise 0 0 1 0) T hT ![0, 0, g] 0
  refine ⟨_, blankState [] 0 0 0, blankState [] _ _ _, old', new', _, live_blank [] 0 0 0,
    Quat.normSq_one, sub_zero _, h, ?_, ?_⟩
  · rw [hb, CalcQ.qBlock_1_1]
    simp only [of_apply, cons_val]
    unfold_tmp
    simp [plainNoise, Quat.one]
    try ring
  · have e1 : b_w (blankState [] T ![0, 0, g] 0).vars = 0 := rfl
    have e2 : b_a (blankState [] T ![0, 0, g] 0).vars = 0 := rfl
    have e3 : q (blankState [] T ![0, 0, g] 0).vars = Quat.one := rfl
    rw [e1, e2, e3, sub_zero, sub_zero, toRot_hom _ Quat.normSq_one, noiseDensity, lyap_blocks,
      lyapBlocks]
    simp [plainNoise, Quat.one, blankState, hrot, skew, vecMul, dotProduct, vecHead,
      vecTail, diagonal]
    ring

/-! ### Transition matrix -/

theorem coreBlock_one (aux : List VarDesc) (b b' : Fin 5) :
    coreBlock (1 : ErrMat ℝ (coreDef aux)) b b' = (1 : BM ℝ) b b' := by
  ext i j
  by_cases h : b = b'
  · subst h
    rw [Matrix.one_apply_eq]
    simp only [coreBlock, of_apply, Matrix.one_apply, Fin.mk.injEq]
    congr 1
    rw [eq_iff_iff]
    exact ⟨fun h => Fin.ext (by omega), fun h => by rw [h]⟩
  · rw [Matrix.one_apply_ne h]
    simp only [coreBlock, of_apply, Matrix.one_apply, Fin.mk.injEq, Matrix.zero_apply]
    rw [if_neg]
    intro h'
    exact h (Fin.ext (by omega))

/-- The core part of `Fd` after a prediction from a live state. -/
theorem core_transition {aux : List VarDesc} (ho : Ordered aux) (np : NoiseParams ℝ (coreDef aux))
    (old new : EKFState ℝ (coreDef aux)) (t : ℝ) (hl : Live old) (hdt : old.time < new.time)
    {old' new' : EKFState ℝ (coreDef aux)} {t' : ℝ}
    (h : predictProcessCovariance np old new t = some (old', new', t')) (b b' : Fin 5) :
    let S := (q new.vars).toRot * skew (new.a_m - b_a new.vars)
    let k := skew (new.w_m - b_w new.vars)
    let C := (q new.vars).toRot
    let dt := new.time - old.time
    coreBlock old'.Fd b b' =
      (!![1, dt • 1, -(dt ^ 2 / 2) • S + (dt ^ 3 / 6) • (S * k) - (dt ^ 4 / 24) • (S * k * k),
            (dt ^ 3 / 6) • S - (dt ^ 4 / 24) • (S * k) + (dt ^ 5 / 120) • (S * k * k),
            -(dt ^ 2 / 2) • C;
          0, 1, -dt • S + (dt ^ 2 / 2) • (S * k) - (dt ^ 3 / 6) • (S * k * k),
            (dt ^ 2 / 2) • S - (dt ^ 3 / 6) • (S * k) + (dt ^ 4 / 24) • (S * k * k), -dt • C;
          0, 0, 1 - dt • k + (dt ^ 2 / 2) • (k * k),
            -dt • 1 + (dt ^ 2 / 2) • k - (dt ^ 3 / 6) • (k * k), 0;
          0, 0, 0, 1, 0;
          0, 0, 0, 0, 1] : BM ℝ) b b' := by
  intro S k C dt
  have hi := indexingErrors_eq_zero.2 ho
  obtain ⟨Qd, e, -⟩ := predict_apply hi np old new t (by linarith)
  rw [e, Option.some.injEq, Prod.mk.injEq] at h
  rw [← h.1]
  simp only
  rw [(hl.clean ho).1, coreBlock_setFd _ (fun _ => rfl), coreBlock_one]
  simp only [fdBlocks]
  have hS : (q new.vars).toRot * skew (new.a_m - b_a new.vars) = S := rfl
  have hk : skew (new.w_m - b_w new.vars) = k := rfl
  have hC : (q new.vars).toRot = C := rfl
  have hd : new.time - old.time = dt := rfl
  rw [hS, hk, hC, hd]
  clear_value S k C dt
  clear h e hS hk hC hd
  have e2 : dt * dt * (1 / 2) = dt ^ 2 / 2 := by ring
  have e3 : dt ^ 2 / 2 * dt / 3 = dt ^ 3 / 6 := by ring
  have e4 : dt ^ 3 / 6 * dt * (1 / 4) = dt ^ 4 / 24 := by ring
  have e5 : dt ^ 4 / 24 * dt * (1 / 5) = dt ^ 5 / 120 := by ring
  simp only [e2, e3, e4, e5]
  match b, b' with
  | 0, 0 => simp
  | 0, 1 => simp
  | 0, 2 => simp [Matrix.mul_add, Matrix.mul_sub, Matrix.mul_assoc]
  | 0, 3 => simp [Matrix.mul_add, Matrix.mul_sub, Matrix.mul_assoc]
  | 0, 4 => simp
  | 1, 0 => simp
  | 1, 1 => simp
  | 1, 2 => simp [Matrix.mul_add, Matrix.mul_sub, Matrix.mul_assoc]
  | 1, 3 => simp [Matrix.mul_add, Matrix.mul_sub, Matrix.mul_assoc]; try module
  | 1, 4 => simp
  | 2, 0 => simp
  | 2, 1 => simp
  | 2, 2 => simp
  | 2, 3 => simp
  | 2, 4 => simp
  | 3, 0 => simp
  | 3, 1 => simp
  | 3, 2 => simp
  | 3, 3 => simp
  | 3, 4 => simp
  | 4, 0 => simp
  | 4, 1 => simp
  | 4, 2 => simp
  | 4, 3 => simp
  | 4, 4 => simp

/-- Powers of the error dynamics. -/
theorem errDyn_sq (C : M33 ℝ) (w a : V3 ℝ) : errDyn C w a * errDyn C w a =
    !![0, 0, -(C * skew a), 0, -C;
       0, 0, C * skew a * skew w, C * skew a, 0;
       0, 0, skew w * skew w, skew w, 0;
       0, 0, 0, 0, 0;
       0, 0, 0, 0, 0] := by
  unfold errDyn
  generalize C * skew a = S
  generalize skew w = k
  refine Matrix.ext fun b b' => ?_
  fin_cases b <;> fin_cases b' <;> simp [Matrix.vecHead, Matrix.vecTail]

theorem errDyn_cube (C : M33 ℝ) (w a : V3 ℝ) : errDyn C w a * errDyn C w a * errDyn C w a =
    !![0, 0, C * skew a * skew w, C * skew a, 0;
       0, 0, -(C * skew a * skew w * skew w), -(C * skew a * skew w), 0;
       0, 0, -(skew w * skew w * skew w), -(skew w * skew w), 0;
       0, 0, 0, 0, 0;
       0, 0, 0, 0, 0] := by
  rw [errDyn_sq]
  unfold errDyn
  generalize C * skew a = S
  generalize skew w = k
  refine Matrix.ext fun b b' => ?_
  fin_cases b <;> fin_cases b' <;> simp [Matrix.vecHead, Matrix.vecTail]

/-- **C60.**  For every state definition and every motion: the core part of the transition matrix
is the second-order expansion of the exponential of the error dynamics, with remainders of third,
fourth and fifth order whose coefficients do not depend on the time step. -/
theorem C60_transition_second_order {aux : List VarDesc} (ho : Ordered aux)
    (vars : Vars ℝ (coreDef aux)) (w_m a_m : V3 ℝ) : ∃ R3 R4 R5 : BM ℝ,
    ∀ (np : NoiseParams ℝ (coreDef aux)) (old new : EKFState ℝ (coreDef aux)) (t : ℝ)
      (old' new' : EKFState ℝ (coreDef aux)) (t' : ℝ), Live old → old.time < new.time →
      new.vars = vars → new.w_m = w_m → new.a_m = a_m →
      predictProcessCovariance np old new t = some (old', new', t') →
      ∀ b b', coreBlock old'.Fd b b' =
        (trans2 (errDyn (q vars).toRot (w_m - b_w vars) (a_m - b_a vars)) (new.time - old.time) +
          (new.time - old.time) ^ 3 • R3 + (new.time - old.time) ^ 4 • R4 +
          (new.time - old.time) ^ 5 • R5) b b' := by
  let S := (q vars).toRot * skew (a_m - b_a vars)
  let k := skew (w_m - b_w vars)
  refine ⟨(1 / 6 : ℝ) • !![0, 0, S * k, S, 0; 0, 0, -(S * k * k), -(S * k), 0;
      0, 0, 0, -(k * k), 0; 0, 0, 0, 0, 0; 0, 0, 0, 0, 0],
    (1 / 24 : ℝ) • !![0, 0, -(S * k * k), -(S * k), 0; 0, 0, 0, S * k * k, 0;
      0, 0, 0, 0, 0; 0, 0, 0, 0, 0; 0, 0, 0, 0, 0],
    (1 / 120 : ℝ) • !![0, 0, 0, S * k * k, 0; 0, 0, 0, 0, 0;
      0, 0, 0, 0, 0; 0, 0, 0, 0, 0; 0, 0, 0, 0, 0], ?_⟩
  rintro np old new t old' new' t' hl hdt rfl rfl rfl h b b'
  rw [core_transition ho np old new t hl hdt h, trans2, errDyn_sq, errDyn]
  have hS : (q new.vars).toRot * skew (new.a_m - b_a new.vars) = S := rfl
  have hk : skew (new.w_m - b_w new.vars) = k := rfl
  rw [hS, hk]
  generalize new.time - old.time = dt
  generalize (q new.vars).toRot = C
  clear_value S k
  match b, b' with
  | 0, 0 => simp
  | 0, 1 => simp
  | 0, 2 => simp; module
  | 0, 3 => simp; module
  | 0, 4 => simp
  | 1, 0 => simp
  | 1, 1 => simp
  | 1, 2 => simp; module
  | 1, 3 => simp; module
  | 1, 4 => simp
  | 2, 0 => simp
  | 2, 1 => simp
  | 2, 2 => simp; try module
  | 2, 3 => simp; module
  | 2, 4 => simp
  | 3, 0 => simp
  | 3, 1 => simp
  | 3, 2 => simp
  | 3, 3 => simp
  | 3, 4 => simp
  | 4, 0 => simp
  | 4, 1 => simp
  | 4, 2 => simp
  | 4, 3 => simp
  | 4, 4 => simp

/-- **C60, without rotation.**  If the body rate vanishes, the core part of the transition matrix is
the exponential itself: the series ends after the third power. -/
theorem C60_transition_exact_without_rotation {aux : List VarDesc} (ho : Ordered aux)
    (np : NoiseParams ℝ (coreDef aux)) (old new : EKFState ℝ (coreDef aux)) (t : ℝ) (hl : Live old)
    (hdt : old.time < new.time) (hw : new.w_m = b_w new.vars)
    {old' new' : EKFState ℝ (coreDef aux)} {t' : ℝ}
    (h : predictProcessCovariance np old new t = some (old', new', t')) (b b' : Fin 5) :
    let F := errDyn (q new.vars).toRot (new.w_m - b_w new.vars) (new.a_m - b_a new.vars)
    coreBlock old'.Fd b b' = trans3 F (new.time - old.time) b b' ∧ F * F * F * F = 0 := by
  intro F
  constructor
  · rw [core_transition ho np old new t hl hdt h, trans3, trans2, errDyn_cube, errDyn_sq]
    simp only [F, errDyn, hw, sub_self, skew_zero]
    generalize (q new.vars).toRot * skew (new.a_m - b_a new.vars) = S
    generalize new.time - old.time = dt
    generalize (q new.vars).toRot = C
    match b, b' with
    | 0, 0 => simp
    | 0, 1 => simp
    | 0, 2 => simp
    | 0, 3 => simp
    | 0, 4 => simp
    | 1, 0 => simp
    | 1, 1 => simp
    | 1, 2 => simp
    | 1, 3 => simp
    | 1, 4 => simp
    | 2, 0 => simp
    | 2, 1 => simp
    | 2, 2 => simp
    | 2, 3 => simp
    | 2, 4 => simp
    | 3, 0 => simp
    | 3, 1 => simp
    | 3, 2 => simp
    | 3, 3 => simp
    | 3, 4 => simp
    | 4, 0 => simp
    | 4, 1 => simp
    | 4, 2 => simp
    | 4, 3 => simp
    | 4, 4 => simp
  · simp only [F]
    rw [errDyn_cube, errDyn, hw, sub_self, skew_zero]
    refine Matrix.ext fun b b' => ?_
    fin_cases b <;> fin_cases b' <;> simp [Matrix.vecHead, Matrix.vecTail]

/-- The rows and columns of the auxiliary states in `Fd` are those of the identity: predictions
keep the auxiliary states. -/
theorem C60_auxiliary_constant {aux : List VarDesc} (ho : Ordered aux)
    (np : NoiseParams ℝ (coreDef aux)) (old new : EKFState ℝ (coreDef aux)) (t : ℝ) (hl : Live old)
    (hdt : old.time < new.time) {old' new' : EKFState ℝ (coreDef aux)} {t' : ℝ}
    (h : predictProcessCovariance np old new t = some (old', new', t'))
    (r c : Fin (total errLen (coreDef aux))) (hrc : 15 ≤ r.val ∨ 15 ≤ c.val) :
    old'.Fd r c = (1 : ErrMat ℝ (coreDef aux)) r c := by
  have hi := indexingErrors_eq_zero.2 ho
  obtain ⟨Qd, e, -⟩ := predict_apply hi np old new t (by linarith)
  rw [e, Option.some.injEq, Prod.mk.injEq] at h
  rw [← h.1]
  simp only
  rw [(hl.clean ho).1, setFd_outside _ (fun _ => rfl) _ _ _ _ _ _ _ hrc]

/-! ### The hypotheses can be met -/

/-- Noise parameters of a pose filter, with noise on every auxiliary state. -/
noncomputable def poseNoise (gyr : ℝ) : NoiseParams ℝ (coreDef poseAux) :=
  ⟨1 / 10, 1 / 100, gyr, 0, fun s dt i => { s i with Q := (dt ^ 2) • 1 }⟩

theorem ordered_pose : Ordered poseAux := by
  intro i hi
  have h : i < 10 := by simpa [coreDef, coreDescs, poseAux] using hi
  interval_cases i <;> rfl

/-- Two states of a pose filter 10 ms apart, moving and turning. -/
noncomputable def poseOld : EKFState ℝ (coreDef poseAux) :=
  { demoState 0 ![1, 2, 3] ![1, 0, 2] with P := 1 }

noncomputable def poseNew : EKFState ℝ (coreDef poseAux) := demoState (1 / 100) ![1, 2, 4] ![1, 1, 2]

theorem poseOld_live : Live poseOld := Live.fresh _ rfl rfl

example : ∃ old' new' t', predictProcessCovariance (poseNoise 0) poseOld poseNew 0 =
    some (old', new', t') ∧ new'.P.PosSemidef := by
  have h := (C61_predict_again ordered_pose (poseNoise 0) poseOld poseOld poseNew 0 poseOld_live
    poseOld_live rfl rfl).2
  obtain ⟨⟨old', new', t'⟩, h⟩ := Option.isSome_iff_exists.1 h
  refine ⟨old', new', t', h, C29_prediction_psd_partial ordered_pose (poseNoise 0) poseOld poseNew 0
    poseOld_live PosSemidef.one PosSemidef.zero (demoState_unit _ _ _) ?_ ?_ (Or.inl ⟨rfl, rfl⟩) h⟩
  · intro dt i _
    exact PosSemidef.one.smul (sq_nonneg dt)
  · have e : poseNew.time - poseOld.time = 1 / 100 := sub_zero _
    rw [e]
    norm_num [poseNoise]

/-- A state that has been the start of a prediction is live again after a correction of its
covariance. -/
example : ∃ x : EKFState ℝ (coreDef poseAux), Live x ∧ x.P = 2 ∧ x.Fd ≠ 1 := by
  have h := (C61_predict_again ordered_pose (poseNoise 1) poseOld poseOld poseNew 0 poseOld_live
    poseOld_live rfl rfl).2
  obtain ⟨⟨old', new', t'⟩, h⟩ := Option.isSome_iff_exists.1 h
  have hlive := Live.predicted poseOld_live h
  refine ⟨{ old' with P := 2 }, Live.changed hlive rfl rfl, rfl, fun hF => ?_⟩
  have e : poseNew.time - poseOld.time = 1 / 100 := sub_zero _
  have hc := core_transition ordered_pose (poseNoise 1) poseOld poseNew 0 poseOld_live
    (by rw [← sub_pos, e]; norm_num) h 0 1
  have hF' : old'.Fd = 1 := hF
  rw [hF', coreBlock_one] at hc
  have := congrFun (congrFun hc 0) 0
  simp [e] at this

end MSF
