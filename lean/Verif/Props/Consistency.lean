import Verif.Spec.Moments
import Verif.Props.Covariance
import Verif.Props.Predict
import Mathlib.MeasureTheory.Integral.Bochner.SumMeasure

/-!
# C112, C113: the covariance of the filter is the covariance of its error
-/

namespace MSF

open Matrix MeasureTheory

variable {Ω : Type} [MeasurableSpace Ω] {μ : Measure Ω}

/-- Covariance of a combination of two uncorrelated vectors. -/
theorem moment_comb {k n d : Type} [Fintype k] [Fintype n] {e : Ω → k → ℝ} {v : Ω → n → ℝ}
    (he : SqInt μ e) (hv : SqInt μ v) (hn : NoCorrelation μ e v) (A : Matrix d k ℝ) (B : Matrix d n ℝ) :
    moment μ (fun ω => A *ᵥ e ω + B *ᵥ v ω) (fun ω => A *ᵥ e ω + B *ᵥ v ω) =
      A * moment μ e e * Aᵀ + B * moment μ v v * Bᵀ := by
  have hA := he.mulVec A
  have hB := hv.mulVec B
  have hn' : moment μ v e = 0 := hn.symm
  have hn'' : moment μ e v = 0 := hn
  rw [moment_add_left hA hB (hA.add hB), moment_add_right hA hA hB, moment_add_right hB hA hB,
    moment_mulVec_left he hA, moment_mulVec_left he hB, moment_mulVec_left hv hA, moment_mulVec_left hv hB,
    moment_mulVec_right he he, moment_mulVec_right he hv, moment_mulVec_right hv he, moment_mulVec_right hv hv,
    hn', hn'']
  simp [Matrix.mul_assoc]

/-! ### Single steps of the code -/

/-- **C112, prediction, partial.**  Let the error of the older state have the covariance the filter holds, let it be
carried on by the transition `Fd` that `PredictProcessCovariance` computes, and let noise with the covariance
`Qd` it computes come in, not correlated with the error.  Then the error of the newer state has the covariance
that the filter holds afterwards.
Missing: process noises `Qd` that are no covariances, with gyro noise (`C112_process_noise_violated`). -/
theorem C112_prediction_partial {aux : List VarDesc} (np : NoiseParams ℝ (coreDef aux))
    (old new old' new' : EKFState ℝ (coreDef aux)) (t t' : ℝ) (ht : old.time < new.time)
    (h : predictProcessCovariance np old new t = some (old', new', t'))
    (e w : Ω → Fin (total errLen (coreDef aux)) → ℝ) (se : SqInt μ e) (sw : SqInt μ w)
    (he : moment μ e e = old.P) (hw : moment μ w w = old'.Qd) (hn : NoCorrelation μ e w) :
    moment μ (fun ω => old'.Fd *ᵥ e ω + w ω) (fun ω => old'.Fd *ᵥ e ω + w ω) = new'.P := by
  have hc := moment_comb se sw hn old'.Fd (1 : Matrix _ _ ℝ)
  simp only [one_mulVec, Matrix.one_mul, transpose_one, Matrix.mul_one, he, hw] at hc
  rw [hc]
  have hdt : ¬ new.time - old.time ≤ 0 := by linarith
  simp only [predictProcessCovariance, if_neg hdt, Option.bind_eq_bind, Option.bind_eq_some_iff] at h
  obtain ⟨s, -, Q, -, Q', -, h⟩ := h
  cases h
  rfl

/-- **C112 is violated with gyro noise.**  After one step in hover from a state known exactly the filter holds a
matrix that is the covariance of no error whatsoever, because it is not symmetric. -/
theorem C112_process_noise_violated : ∃ (np : NoiseParams ℝ (coreDef [])) (old new old' new' : EKFState ℝ (coreDef []))
    (t' : ℝ), Live old ∧ old.P.PosSemidef ∧ (EKFState.q new.vars).normSq = 1 ∧
      predictProcessCovariance np old new 0 = some (old', new', t') ∧
      ∀ (Ω : Type) (_ : MeasurableSpace Ω) (μ : Measure Ω) (e : Ω → Fin (total errLen (coreDef [])) → ℝ),
        moment μ e e ≠ new'.P := by
  obtain ⟨np, old, new, old', new', t', hl, hP, hq, -, -, -, -, -, h, hs⟩ := C29_violated_hover
  refine ⟨np, old, new, old', new', t', hl, hP, hq, h, fun Ω _ μ e he => hs ?_⟩
  rw [← he, moment_transpose]

section
variable {k : Nat} {m : Type} [Fintype m] [DecidableEq m]

/-- The innovation of a consistent filter has the covariance `S`. -/
theorem moment_innovation {e : Ω → Fin k → ℝ} {v : Ω → m → ℝ} (se : SqInt μ e) (sv : SqInt μ v)
    (hn : NoCorrelation μ e v) (H : Matrix m (Fin k) ℝ) :
    moment μ (fun ω => H *ᵥ e ω + v ω) (fun ω => H *ᵥ e ω + v ω) =
      innovCov (moment μ e e) H (moment μ v v) := by
  have hc := moment_comb se sv hn H (1 : Matrix m m ℝ)
  simpa only [one_mulVec, Matrix.one_mul, transpose_one, Matrix.mul_one, innovCov] using hc

/-- Error after an update with any gain. -/
theorem moment_update {e : Ω → Fin k → ℝ} {v : Ω → m → ℝ} (se : SqInt μ e) (sv : SqInt μ v)
    (hn : NoCorrelation μ e v) (H : Matrix m (Fin k) ℝ) (K : Matrix (Fin k) m ℝ) :
    moment μ (fun ω => e ω - K *ᵥ (H *ᵥ e ω + v ω)) (fun ω => e ω - K *ᵥ (H *ᵥ e ω + v ω)) =
      (1 - K * H) * moment μ e e * (1 - K * H)ᵀ + K * moment μ v v * Kᵀ := by
  have hc := moment_comb se sv hn (1 - K * H) (-K)
  have e1 : (fun ω => e ω - K *ᵥ (H *ᵥ e ω + v ω)) = fun ω => (1 - K * H) *ᵥ e ω + (-K) *ᵥ v ω := by
    funext ω
    rw [sub_mulVec, one_mulVec, neg_mulVec, mulVec_add, mulVec_mulVec]
    abel
  rw [e1, hc, transpose_neg, Matrix.neg_mul, Matrix.neg_mul, Matrix.mul_neg, neg_neg]

/-- **C112, update.**  Let the error have the covariance the filter holds, and let the residual be what the error
causes plus noise with the covariance of the measurement, not correlated with the error.  Whatever the noise was,
the filter then holds the covariance of the error after the correction, and the covariance of the corrections
themselves is the reduction of the covariance. -/
theorem C112_update (P : Matrix (Fin k) (Fin k) ℝ) (H : Matrix m (Fin k) ℝ) (R : Matrix m m ℝ)
    (e : Ω → Fin k → ℝ) (v : Ω → m → ℝ) (se : SqInt μ e) (sv : SqInt μ v) (he : moment μ e e = P)
    (hv : moment μ v v = R) (hn : NoCorrelation μ e v) (en : Bool) (thr : ℝ) (c : Ω → Fin k → ℝ)
    (P' : Ω → Matrix (Fin k) (Fin k) ℝ)
    (h : ∀ ω, calculateCorrection en thr P H (H *ᵥ e ω + v ω) R = some (some (c ω, P' ω))) (ω : Ω) :
    P' ω = moment μ (fun ω => e ω - c ω) (fun ω => e ω - c ω) ∧
      P - P' ω = moment μ c c := by
  have hP : P.PosSemidef := he ▸ moment_psd se
  have hR : R.PosSemidef := hv ▸ moment_psd sv
  have key : ∀ ω, (innovCov P H R).det ≠ 0 ∧ c ω = gain P H R *ᵥ (H *ᵥ e ω + v ω) ∧
      P' ω = josephUpdate P H R (gain P H R) := by
    intro ω
    have h1 := h ω
    rw [calculateCorrection] at h1
    split at h1
    · cases h1
    rename_i hd
    split at h1
    · cases h1
    simp only [Option.some.injEq, Prod.mk.injEq] at h1
    exact ⟨hd, h1.1.symm, h1.2.symm⟩
  have hS := (key ω).1.isUnit
  have e1 : c = fun ω => gain P H R *ᵥ (H *ᵥ e ω + v ω) := funext fun ω => (key ω).2.1
  have hj := joseph_psd hP hR H (gain P H R)
  rw [(key ω).2.2]
  constructor
  · rw [e1, moment_update se sv hn, he, hv, josephUpdate, symInPlace_of_symm _ (psd_transpose_eq hj)]
  · have sr : SqInt μ fun ω => H *ᵥ e ω + v ω := (se.mulVec H).add sv
    rw [e1, moment_mulVec_left sr (sr.mulVec _), moment_mulVec_right sr sr, moment_innovation se sv hn, he, hv,
      (C30_update_decreases P hP H R hR hS).1, Matrix.sub_mul, Matrix.one_mul, sub_sub_cancel,
      ← Matrix.mul_assoc]
    have hKS : gain P H R * innovCov P H R = P * Hᵀ := by
      rw [gain, Matrix.mul_assoc, nonsing_inv_mul _ hS, Matrix.mul_one]
    have hSt := psd_transpose_eq ((psd_congr hP H).add hR)
    have hSK : innovCov P H R * (gain P H R)ᵀ = H * P := by
      have := congrArg transpose hKS
      rwa [transpose_mul, transpose_mul, show (innovCov P H R)ᵀ = innovCov P H R from hSt,
        psd_transpose_eq hP, transpose_transpose] at this
    rw [Matrix.mul_assoc _ _ (gain P H R)ᵀ, hSK, Matrix.mul_assoc]

/-- **C113.**  If the error has the covariance the filter holds and the noise the covariance of the measurement,
then a measurement of dimension `d` is rejected as an outlier with probability at most `d / thr²`. -/
theorem C113_false_alarms [IsProbabilityMeasure μ] (P : Matrix (Fin k) (Fin k) ℝ) (H : Matrix m (Fin k) ℝ)
    (R : Matrix m m ℝ) (e : Ω → Fin k → ℝ) (v : Ω → m → ℝ) (se : SqInt μ e) (sv : SqInt μ v)
    (he : moment μ e e = P) (hv : moment μ v v = R) (hn : NoCorrelation μ e v)
    (hS : (innovCov P H R).det ≠ 0) (thr : ℝ) (ht : 0 < thr) :
    μ.real {ω | calculateCorrection true thr P H (H *ᵥ e ω + v ω) R = some none} ≤
      Fintype.card m / thr ^ 2 := by
  have sr : SqInt μ fun ω => H *ᵥ e ω + v ω := (se.mulVec H).add sv
  set r : Ω → m → ℝ := fun ω => H *ᵥ e ω + v ω with hr
  have hP : P.PosSemidef := he ▸ moment_psd se
  have hR : R.PosSemidef := hv ▸ moment_psd sv
  have hSp : (innovCov P H R).PosSemidef := (psd_congr hP H).add hR
  have hmr : moment μ r r = innovCov P H R := by rw [hr, moment_innovation se sv hn, he, hv]
  have hint : ∀ i, Integrable (fun ω => r ω i * ((innovCov P H R)⁻¹ *ᵥ r ω) i) μ := fun i =>
    sr.integrable (sr.mulVec _) i i
  have hm : ∫ ω, mahSquared P H R (r ω) ∂μ = Fintype.card m := by
    simp only [mahSquared, dotProduct]
    rw [integral_finsetSum _ fun i _ => hint i]
    have : ∀ i, ∫ ω, r ω i * ((innovCov P H R)⁻¹ *ᵥ r ω) i ∂μ =
        moment μ r (fun ω => (innovCov P H R)⁻¹ *ᵥ r ω) i i := fun i => rfl
    simp only [this, moment_mulVec_right sr sr, hmr]
    rw [transpose_nonsing_inv, psd_transpose_eq hSp, mul_nonsing_inv _ (Ne.isUnit hS)]
    simp
  have hnn : ∀ ω, 0 ≤ mahSquared P H R (r ω) := fun ω => by
    have := hSp.inv.dotProduct_mulVec_nonneg (r ω)
    rwa [star_trivial] at this
  have hi : Integrable (fun ω => mahSquared P H R (r ω)) μ := by
    simp only [mahSquared, dotProduct]
    exact integrable_finsetSum _ fun i _ => hint i
  have hmk := mul_meas_ge_le_integral_of_nonneg (.of_forall hnn) hi (thr ^ 2)
  rw [hm] at hmk
  have hsub : {ω | calculateCorrection true thr P H (r ω) R = some none} ⊆
      {ω | thr ^ 2 ≤ mahSquared P H R (r ω)} := by
    intro ω hω
    simp only [Set.mem_ofPred_eq, calculateCorrection, if_neg hS] at hω ⊢
    split at hω
    · rename_i hrej
      exact ((mahRejects_iff _ _ ht.le).1 hrej.2).le
    · cases hω
  have hmono := measureReal_mono (μ := μ) hsub
  rw [le_div_iff₀ (by positivity), mul_comm]
  exact (mul_le_mul_of_nonneg_left hmono (by positivity)).trans hmk

end

/-! ### Sequences of steps -/

/-- One step of a linear system with its random influences: a prediction with transition `F`, noise covariance
`Q` and noise `w`, or a measurement with matrix `H`, covariance `R` and noise `v`. -/
inductive LinStep (Ω : Type) (k : Nat) where
  | move (F Q : Matrix (Fin k) (Fin k) ℝ) (w : Ω → Fin k → ℝ)
  | meas (n : Nat) (H : Matrix (Fin n) (Fin k) ℝ) (R : Matrix (Fin n) (Fin n) ℝ) (v : Ω → Fin n → ℝ)

namespace LinStep
variable {k : Nat}

def dim : LinStep Ω k → Nat
  | .move .. => k
  | .meas n .. => n

def noise : (s : LinStep Ω k) → Ω → Fin s.dim → ℝ
  | .move _ _ w => w
  | .meas _ _ _ v => v

/-- The covariance of the noise that the filter assumes. -/
def cov : (s : LinStep Ω k) → Matrix (Fin s.dim) (Fin s.dim) ℝ
  | .move _ Q _ => Q
  | .meas _ _ R _ => R

/-- Measurement covariances are positive definite. -/
def Regular : LinStep Ω k → Prop
  | .move .. => True
  | .meas _ _ R _ => R.PosDef

end LinStep

/-- The true state, the estimate and the covariance the filter holds. -/
structure LinState (k : Nat) where
  truth : Fin k → ℝ
  est : Fin k → ℝ
  P : Matrix (Fin k) (Fin k) ℝ

/-- A step when chance is `ω`: the world moves, the filter predicts, or corrects with the update of the code. -/
noncomputable def LinStep.run {k : Nat} (ω : Ω) (s : LinState k) : LinStep Ω k → Option (LinState k)
  | .move F Q w => some ⟨F *ᵥ s.truth + w ω, F *ᵥ s.est, F * s.P * Fᵀ + Q⟩
  | .meas _ H R v => do
    match ← calculateCorrection false 0 s.P H (H *ᵥ s.truth + v ω - H *ᵥ s.est) R with
    | none => some s
    | some (c, P) => some ⟨s.truth, s.est + c, P⟩

/-- A step of any other linear filter, which uses the gain `G` for a measurement. -/
noncomputable def LinStep.other {k : Nat} (ω : Ω) (s : (Fin k → ℝ) × (Fin k → ℝ)) :
    (Σ s : LinStep Ω k, Matrix (Fin k) (Fin s.dim) ℝ) → (Fin k → ℝ) × (Fin k → ℝ)
  | ⟨.move F _ w, _⟩ => (F *ᵥ s.1 + w ω, F *ᵥ s.2)
  | ⟨.meas _ H _ v, G⟩ => (s.1, s.2 + G *ᵥ (H *ᵥ s.1 + v ω - H *ᵥ s.2))

/-- The initial error and the noises of all steps are centred, have the covariances the filter assumes and are
not correlated with each other. -/
structure Modelled {k : Nat} (μ : Measure Ω) (e : Ω → Fin k → ℝ) (P : Matrix (Fin k) (Fin k) ℝ)
    (steps : List (LinStep Ω k)) : Prop where
  sq : SqInt μ e
  centred : Centred μ e
  cov : moment μ e e = P
  noise : ∀ s ∈ steps, SqInt μ s.noise ∧ Centred μ s.noise ∧ moment μ s.noise s.noise = s.cov ∧
    NoCorrelation μ e s.noise
  apart : steps.Pairwise fun s t => NoCorrelation μ s.noise t.noise
  regular : ∀ s ∈ steps, s.Regular

theorem LinStep.error_step {k : Nat} [IsProbabilityMeasure μ] {s : LinStep Ω k} {steps : List (LinStep Ω k)}
    {e : Ω → Fin k → ℝ} {P : Matrix (Fin k) (Fin k) ℝ} (h : Modelled μ e P (s :: steps))
    (A : Matrix (Fin k) (Fin k) ℝ) (B : Matrix (Fin k) (Fin s.dim) ℝ) :
    Modelled μ (fun ω => A *ᵥ e ω + B *ᵥ s.noise ω) (A * P * Aᵀ + B * s.cov * Bᵀ) steps := by
  obtain ⟨h1, h2, h3, h4, h5, h6⟩ := h
  obtain ⟨n1, n2, n3, n4⟩ := h4 s (by simp)
  rw [List.pairwise_cons] at h5
  refine ⟨(h1.mulVec A).add (n1.mulVec B), Centred.add (h1.mulVec A) (n1.mulVec B) (h2.mulVec h1 A) (n2.mulVec n1 B),
    ?_, fun t ht => ?_, h5.2, fun t ht => h6 t (by simp [ht])⟩
  · rw [moment_comb h1 n1 n4, h3, n3]
  · obtain ⟨t1, t2, t3, t4⟩ := h4 t (by simp [ht])
    refine ⟨t1, t2, t3, ?_⟩
    have t5 : moment μ s.noise t.noise = 0 := h5.1 t ht
    have t6 : moment μ e t.noise = 0 := t4
    rw [NoCorrelation, moment_add_left (h1.mulVec A) (n1.mulVec B) t1, moment_mulVec_left h1 t1,
      moment_mulVec_left n1 t1, t5, t6, Matrix.mul_zero, Matrix.mul_zero, add_zero]

theorem LinStep.move_step {k : Nat} [IsProbabilityMeasure μ] {F Q : Matrix (Fin k) (Fin k) ℝ}
    {w : Ω → Fin k → ℝ} {steps : List (LinStep Ω k)} {e : Ω → Fin k → ℝ} {P : Matrix (Fin k) (Fin k) ℝ}
    (h : Modelled μ e P (.move F Q w :: steps)) :
    Modelled μ (fun ω => F *ᵥ e ω + w ω) (F * P * Fᵀ + Q) steps := by
  have e1 := LinStep.error_step h F (1 : Matrix (Fin k) (Fin k) ℝ)
  have f1 : (fun ω => F *ᵥ e ω + w ω) = fun ω => F *ᵥ e ω + (1 : Matrix (Fin k) (Fin k) ℝ) *ᵥ w ω := by simp
  have f2 : F * P * Fᵀ + Q = F * P * Fᵀ + (1 : Matrix (Fin k) (Fin k) ℝ) * Q * (1 : Matrix (Fin k) (Fin k) ℝ)ᵀ := by
    simp
  rw [f1, f2]
  exact e1

theorem LinStep.meas_step {k n : Nat} [IsProbabilityMeasure μ] {H : Matrix (Fin n) (Fin k) ℝ}
    {R : Matrix (Fin n) (Fin n) ℝ} {v : Ω → Fin n → ℝ} {steps : List (LinStep Ω k)} {e : Ω → Fin k → ℝ}
    {P : Matrix (Fin k) (Fin k) ℝ} (h : Modelled μ e P (.meas n H R v :: steps)) (K : Matrix (Fin k) (Fin n) ℝ) :
    Modelled μ (fun ω => e ω - K *ᵥ (H *ᵥ e ω + v ω)) ((1 - K * H) * P * (1 - K * H)ᵀ + K * R * Kᵀ) steps := by
  have e1 := LinStep.error_step h (1 - K * H) (-K)
  have f1 : (fun ω => e ω - K *ᵥ (H *ᵥ e ω + v ω)) = fun ω => (1 - K * H) *ᵥ e ω + (-K) *ᵥ v ω := by
    funext ω
    rw [sub_mulVec, one_mulVec, neg_mulVec, mulVec_add, mulVec_mulVec]
    abel
  have f2 : K * R * Kᵀ = (-K) * R * (-K)ᵀ := by
    rw [transpose_neg, Matrix.neg_mul, Matrix.neg_mul, Matrix.mul_neg, neg_neg]
  rw [f1, f2]
  exact e1

theorem consistency_aux {k : Nat} [IsProbabilityMeasure μ] : ∀ (steps : List (LinStep Ω k))
    (X x y : Ω → Fin k → ℝ) (P P2 : Matrix (Fin k) (Fin k) ℝ)
    (gs : List (Σ s : LinStep Ω k, Matrix (Fin k) (Fin s.dim) ℝ)),
    gs.map Sigma.fst = steps → Modelled μ (fun ω => X ω - x ω) P steps → Modelled μ (fun ω => X ω - y ω) P2 steps →
    (P2 - P).PosSemidef → ∃ (X' x' y' : Ω → Fin k → ℝ) (P' P2' : Matrix (Fin k) (Fin k) ℝ),
      (∀ ω, steps.foldlM (LinStep.run ω) ⟨X ω, x ω, P⟩ = some ⟨X' ω, x' ω, P'⟩) ∧
      (∀ ω, gs.foldl (LinStep.other ω) (X ω, y ω) = (X' ω, y' ω)) ∧
      Modelled μ (fun ω => X' ω - x' ω) P' ([] : List (LinStep Ω k)) ∧
      Modelled μ (fun ω => X' ω - y' ω) P2' ([] : List (LinStep Ω k)) ∧ (P2' - P').PosSemidef := by
  intro steps
  induction steps with
  | nil =>
    intro X x y P P2 gs hg h h2 hd
    obtain rfl : gs = [] := List.map_eq_nil_iff.1 hg
    exact ⟨X, x, y, P, P2, fun ω => rfl, fun ω => rfl, h, h2, hd⟩
  | cons s steps ih =>
    intro X x y P P2 gs hg h h2 hd
    obtain _ | ⟨⟨s', G⟩, gs⟩ := gs
    · cases hg
    simp only [List.map_cons, List.cons.injEq] at hg
    obtain ⟨rfl, hg⟩ := hg
    cases s' with
    | move F Q w =>
      have e1 := LinStep.move_step h
      have e2 := LinStep.move_step h2
      have f1 : ∀ z : Ω → Fin k → ℝ, (fun ω => F *ᵥ (X ω - z ω) + w ω) = fun ω => F *ᵥ X ω + w ω - F *ᵥ z ω := by
        intro z; funext ω; rw [mulVec_sub]; abel
      have e1' : Modelled μ (fun ω => F *ᵥ X ω + w ω - F *ᵥ x ω) (F * P * Fᵀ + Q) steps := by
        rw [← f1]; exact e1
      have e2' : Modelled μ (fun ω => F *ᵥ X ω + w ω - F *ᵥ y ω) (F * P2 * Fᵀ + Q) steps := by
        rw [← f1]; exact e2
      have hd' : (F * P2 * Fᵀ + Q - (F * P * Fᵀ + Q)).PosSemidef := by
        have : F * P2 * Fᵀ + Q - (F * P * Fᵀ + Q) = F * (P2 - P) * Fᵀ := by
          rw [Matrix.mul_sub, Matrix.sub_mul]; abel
        rw [this]; exact psd_congr hd F
      obtain ⟨X', x', y', P', P2', r1, r2, r3⟩ := ih _ _ _ _ _ gs hg e1' e2' hd'
      exact ⟨X', x', y', P', P2', fun ω => by rw [List.foldlM_cons]; exact r1 ω, r2, r3⟩
    | meas n H R v =>
      revert G
      intro (G : Matrix (Fin k) (Fin n) ℝ)
      have hP : P.PosSemidef := h.cov ▸ moment_psd h.sq
      have hP2 : P2.PosSemidef := h2.cov ▸ moment_psd h2.sq
      have hR : R.PosDef := h.regular (.meas n H R v) (by simp)
      have hS : (innovCov P H R).PosDef := hR.posSemidef_add (psd_congr hP H)
      have hSu := (Matrix.isUnit_iff_isUnit_det _).1 hS.isUnit
      have hj : ∀ (P : Matrix (Fin k) (Fin k) ℝ) (K : Matrix (Fin k) (Fin n) ℝ), P.PosSemidef →
          josephUpdate P H R K = (1 - K * H) * P * (1 - K * H)ᵀ + K * R * Kᵀ := by
        intro P K hP
        rw [josephUpdate, symInPlace_of_symm _ (psd_transpose_eq (joseph_psd hP hR.posSemidef H K))]
      have step : ∀ (z : Ω → Fin k → ℝ) (P : Matrix (Fin k) (Fin k) ℝ) (K : Matrix (Fin k) (Fin n) ℝ),
          Modelled μ (fun ω => X ω - z ω) P (.meas n H R v :: steps) →
          Modelled μ (fun ω => X ω - (z ω + K *ᵥ (H *ᵥ X ω + v ω - H *ᵥ z ω)))
            ((1 - K * H) * P * (1 - K * H)ᵀ + K * R * Kᵀ) steps := by
        intro z P K hz
        have e1 := LinStep.meas_step hz K
        have f1 : (fun ω => X ω - (z ω + K *ᵥ (H *ᵥ X ω + v ω - H *ᵥ z ω))) =
            fun ω => X ω - z ω - K *ᵥ (H *ᵥ (X ω - z ω) + v ω) := by
          funext ω
          simp only [mulVec_sub, mulVec_add]
          abel
        rw [f1]
        exact e1
      have e1 := step x P (gain P H R) h
      have e2 := step y P2 G h2
      have hd' : (((1 - G * H) * P2 * (1 - G * H)ᵀ + G * R * Gᵀ) -
          ((1 - gain P H R * H) * P * (1 - gain P H R * H)ᵀ + gain P H R * R * (gain P H R)ᵀ)).PosSemidef := by
        have o := C30_optimal_gain P hP H R hR.posSemidef hSu G
        rw [hj P _ hP, hj P _ hP] at o
        have o2 := psd_congr hd (1 - G * H)
        have := o2.add o
        rw [Matrix.mul_sub (1 - G * H), Matrix.sub_mul ((1 - G * H) * P2)] at this
        convert this using 1
        abel
      obtain ⟨X', x', y', P', P2', r1, r2, r3⟩ := ih _ _ _ _ _ gs hg e1 e2 hd'
      refine ⟨X', x', y', P', P2', fun ω => ?_, r2, r3⟩
      rw [List.foldlM_cons, ← r1 ω]
      simp [LinStep.run, calculateCorrection, hSu.ne_zero, hj P _ hP]

/-- **C112, whole sequences.**  Let the initial error and the noises of all steps be centred, have the covariances
the filter assumes and be uncorrelated.  After any sequence of predictions and measurements the filter has not
failed, it holds the same covariance whatever happened, the error is centred and has exactly this covariance. -/
theorem C112_consistent {k : Nat} [IsProbabilityMeasure μ] (steps : List (LinStep Ω k)) (X x : Ω → Fin k → ℝ)
    (P : Matrix (Fin k) (Fin k) ℝ) (h : Modelled μ (fun ω => X ω - x ω) P steps) :
    ∃ (X' x' : Ω → Fin k → ℝ) (P' : Matrix (Fin k) (Fin k) ℝ), (∀ ω, steps.foldlM (LinStep.run ω) ⟨X ω, x ω, P⟩ = some ⟨X' ω, x' ω, P'⟩) ∧
      Centred μ (fun ω => X' ω - x' ω) ∧ moment μ (fun ω => X' ω - x' ω) (fun ω => X' ω - x' ω) = P' := by
  obtain ⟨X', x', -, P', -, r1, -, r3, -⟩ := consistency_aux steps X x x P P
    (steps.map fun s => ⟨s, 0⟩) (by simp [List.map_map, Function.comp_def]) h h (by simp [PosSemidef.zero])
  exact ⟨X', x', P', r1, r3.centred, r3.cov⟩

/-- **C112, optimality.**  No other linear filter that starts with the same estimate, whatever gains it uses for
the measurements, has a smaller error covariance: the difference is positive semidefinite. -/
theorem C112_optimal {k : Nat} [IsProbabilityMeasure μ]
    (gs : List (Σ s : LinStep Ω k, Matrix (Fin k) (Fin s.dim) ℝ)) (X x : Ω → Fin k → ℝ)
    (P : Matrix (Fin k) (Fin k) ℝ) (h : Modelled μ (fun ω => X ω - x ω) P (gs.map Sigma.fst)) :
    ∃ (X' x' y' : Ω → Fin k → ℝ) (P' : Matrix (Fin k) (Fin k) ℝ), (∀ ω, (gs.map Sigma.fst).foldlM (LinStep.run ω) ⟨X ω, x ω, P⟩ = some ⟨X' ω, x' ω, P'⟩) ∧
      (∀ ω, gs.foldl (LinStep.other ω) (X ω, x ω) = (X' ω, y' ω)) ∧
      (moment μ (fun ω => X' ω - y' ω) (fun ω => X' ω - y' ω) -
        moment μ (fun ω => X' ω - x' ω) (fun ω => X' ω - x' ω)).PosSemidef := by
  obtain ⟨X', x', y', P', P2', r1, r2, r3, r4, r5⟩ := consistency_aux _ X x x P P gs rfl h h (by simp [PosSemidef.zero])
  exact ⟨X', x', y', P', r1, r2, by rwa [r3.cov, r4.cov]⟩

/-! ### The hypotheses can be met -/

namespace Dice

/-- Eight equally likely outcomes. -/
noncomputable def μ8 : Measure (Fin 8) := (8⁻¹ : ENNReal) • Measure.count

instance : IsProbabilityMeasure μ8 := by
  refine ⟨?_⟩
  simp only [μ8, Measure.smul_apply, Measure.count_apply MeasurableSet.univ, smul_eq_mul, Set.encard_univ]
  simp [ENat.card_eq_coe_fintype_card]
  exact ENNReal.inv_mul_cancel (by norm_num) (by norm_num)

/-- Three independent signs. -/
def sign (b : Nat) : Fin 8 → Fin 1 → ℝ := fun ω _ => if ω.val.testBit b then 1 else -1

theorem integral_eq (f : Fin 8 → ℝ) : ∫ ω, f ω ∂μ8 =
    (f 0 + f 1 + f 2 + f 3 + f 4 + f 5 + f 6 + f 7) / 8 := by
  rw [μ8, integral_smul_measure, integral_count]
  simp only [Fin.sum_univ_eight, ENNReal.toReal_inv, smul_eq_mul]
  simp
  ring

theorem sqInt {n : Type} (u : Fin 8 → n → ℝ) : SqInt μ8 u := fun _ => MemLp.of_discrete

theorem sign_moment (a b : Nat) (ha : a < 3) (hb : b < 3) :
    moment μ8 (sign a) (sign b) = if a = b then 1 else 0 := by
  ext i j
  rw [Subsingleton.elim i 0, Subsingleton.elim j 0]
  simp only [moment, of_apply, integral_eq]
  interval_cases a <;> interval_cases b <;> simp [sign, Nat.testBit] <;> norm_num

theorem sign_centred (a : Nat) (ha : a < 3) : Centred μ8 (sign a) := by
  intro i
  simp only [integral_eq]
  interval_cases a <;> simp [sign, Nat.testBit]

/-- Non-vacuity of `C112_consistent` and `C112_optimal`: a random walk that is measured. -/
theorem modelled : Modelled μ8 (fun ω => sign 0 ω - (fun _ => 0) ω) 1
    [.move 1 1 (sign 1), .meas 1 1 1 (sign 2)] := by
  have h0 : (fun ω => sign 0 ω - (fun _ => 0) ω) = sign 0 := by funext ω; exact sub_zero _
  rw [h0]
  refine ⟨sqInt _, sign_centred 0 (by norm_num), by simp [sign_moment], ?_, ?_, ?_⟩
  · intro s hs
    simp only [List.mem_cons, List.not_mem_nil, or_false] at hs
    rcases hs with rfl | rfl
    · exact ⟨sqInt _, sign_centred 1 (by norm_num), sign_moment 1 1 (by norm_num) (by norm_num),
        sign_moment 0 1 (by norm_num) (by norm_num)⟩
    · exact ⟨sqInt _, sign_centred 2 (by norm_num), sign_moment 2 2 (by norm_num) (by norm_num),
        sign_moment 0 2 (by norm_num) (by norm_num)⟩
  · refine List.pairwise_pair.2 ?_
    exact sign_moment 1 2 (by norm_num) (by norm_num)
  · intro s hs
    simp only [List.mem_cons, List.not_mem_nil, or_false] at hs
    rcases hs with rfl | rfl
    · trivial
    · exact PosDef.one

example : ∃ (X' x' : Fin 8 → Fin 1 → ℝ) (P' : Matrix (Fin 1) (Fin 1) ℝ), (∀ ω, [LinStep.move 1 1 (sign 1), .meas 1 1 1 (sign 2)].foldlM (LinStep.run ω)
      ⟨sign 0 ω, 0, 1⟩ = some ⟨X' ω, x' ω, P'⟩) ∧ Centred μ8 (fun ω => X' ω - x' ω) ∧
      moment μ8 (fun ω => X' ω - x' ω) (fun ω => X' ω - x' ω) = P' :=
  C112_consistent _ _ _ _ modelled

/-- Non-vacuity of `C112_update` and `C113_false_alarms`. -/
example : (∀ ω, ∃ c P', calculateCorrection true 10 (1 : Matrix (Fin 1) (Fin 1) ℝ) (1 : Matrix (Fin 1) (Fin 1) ℝ)
      ((1 : Matrix (Fin 1) (Fin 1) ℝ) *ᵥ sign 0 ω + sign 1 ω) 1 = some (some (c, P'))) ∧
    NoCorrelation μ8 (sign 0) (sign 1) ∧ (innovCov (1 : Matrix (Fin 1) (Fin 1) ℝ) (1 : Matrix (Fin 1) (Fin 1) ℝ) 1).det ≠ 0 := by
  have hS : innovCov (1 : Matrix (Fin 1) (Fin 1) ℝ) (1 : Matrix (Fin 1) (Fin 1) ℝ) 1 = !![2] := by
    ext i j
    fin_cases i; fin_cases j
    simp [innovCov]
    norm_num
  refine ⟨fun ω => ?_, by simp [NoCorrelation, sign_moment], by rw [hS]; simp⟩
  have hd : (innovCov (1 : Matrix (Fin 1) (Fin 1) ℝ) (1 : Matrix (Fin 1) (Fin 1) ℝ) 1).det ≠ 0 := by rw [hS]; simp
  rw [calculateCorrection, if_neg hd, if_neg]
  · exact ⟨_, _, rfl⟩
  · rintro ⟨-, h⟩
    rw [mahRejects_iff _ _ (by norm_num), mahSquared, hS] at h
    have hi : (!![2] : Matrix (Fin 1) (Fin 1) ℝ)⁻¹ = !![1 / 2] := by
      refine inv_eq_left_inv ?_
      ext i j
      fin_cases i; fin_cases j
      simp
    rw [hi] at h
    simp only [one_mulVec, dotProduct, mulVec, Finset.univ_unique, Finset.sum_singleton, Pi.add_apply, sign] at h
    revert h
    split <;> split <;> norm_num

end Dice

end MSF
