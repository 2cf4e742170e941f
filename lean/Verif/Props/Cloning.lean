import Verif.Props.Consistency
import Verif.Props.Relative

/-!
# C114: relative updates are those of a cloned state
-/

namespace MSF

open Matrix MeasureTheory

section
variable {Ω : Type} [MeasurableSpace Ω] {μ : Measure Ω} {k : Nat} {m : Type} [Fintype m] [DecidableEq m]

/-- The errors of the old and of the new state. -/
def bothErrors (eo en : Ω → Fin k → ℝ) : Ω → Fin k ⊕ Fin k → ℝ := fun ω => Sum.elim (eo ω) (en ω)

theorem sqInt_both {eo en : Ω → Fin k → ℝ} (so : SqInt μ eo) (sn : SqInt μ en) : SqInt μ (bothErrors eo en) := by
  rintro (i | i)
  · exact so i
  · exact sn i

/-- The joint covariance that the code uses. -/
theorem moment_both {eo en : Ω → Fin k → ℝ} (so : SqInt μ eo) (sn : SqInt μ en) {F : Matrix (Fin k) (Fin k) ℝ}
    (hF : NoCorrelation μ eo fun ω => en ω - F *ᵥ eo ω) :
    moment μ (bothErrors eo en) (bothErrors eo en) = clonedCov (moment μ eo eo) (moment μ en en) F := by
  have h1 : moment μ eo en = moment μ eo eo * Fᵀ := by
    have : moment μ eo (fun ω => en ω - F *ᵥ eo ω) = 0 := hF
    rwa [moment_sub_right so sn (so.mulVec F), moment_mulVec_right so so, sub_eq_zero] at this
  have h2 : moment μ en eo = F * moment μ eo eo := by
    rw [← moment_transpose, h1, transpose_mul, transpose_transpose, moment_transpose]
  ext i j
  rcases i with i | i <;> rcases j with j | j
  · rfl
  · exact congrFun (congrFun h1 i) j
  · exact congrFun (congrFun h2 i) j
  · rfl

/-- What the code computes, for residuals caused by the two errors and noise of any covariance. -/
theorem relative_covariance {Pold Pnew F : Matrix (Fin k) (Fin k) ℝ} {Hold Hnew : Matrix m (Fin k) ℝ}
    {R N : Matrix m m ℝ} (hRp : R.PosSemidef) {eo en : Ω → Fin k → ℝ} {v : Ω → m → ℝ} (so : SqInt μ eo) (sn : SqInt μ en)
    (sv : SqInt μ v) (ho : moment μ eo eo = Pold) (hn : moment μ en en = Pnew) (hv : moment μ v v = N)
    (hF : NoCorrelation μ eo fun ω => en ω - F *ᵥ eo ω) (hvo : NoCorrelation μ eo v) (hvn : NoCorrelation μ en v)
    {c : Ω → Fin k → ℝ} {P' : Ω → Matrix (Fin k) (Fin k) ℝ}
    (h : ∀ ω, calculateCorrectionRelative Pold Pnew F Hold Hnew (Hold *ᵥ eo ω + Hnew *ᵥ en ω + v ω) R =
      some (c ω, P' ω)) (ω : Ω) :
    moment μ (fun ω => en ω - c ω) (fun ω => en ω - c ω) = P' ω +
      relGain Pold Pnew F Hold Hnew R * (N - R) * (relGain Pold Pnew F Hold Hnew R)ᵀ := by
  have sb := sqInt_both so sn
  have hb := moment_both so sn hF
  rw [ho, hn] at hb
  have hC : (clonedCov Pold Pnew F).PosSemidef := hb ▸ moment_psd sb
  have hnc : NoCorrelation μ (bothErrors eo en) v := by
    rw [NoCorrelation]
    ext i j
    rcases i with i | i
    · exact congrFun (congrFun hvo i) j
    · exact congrFun (congrFun hvn i) j
  set PC := clonedCov Pold Pnew F with hPC
  set HC := clonedH Hold Hnew with hHC
  set S := relInnovCov Pold Pnew F Hold Hnew R with hSd
  set KC := PC * HCᵀ * S⁻¹ with hKC
  have hK : relGain Pold Pnew F Hold Hnew R = KC.toRows₂ := rfl
  have hHE : ∀ ω, Hold *ᵥ eo ω + Hnew *ᵥ en ω = HC *ᵥ bothErrors eo en ω := by
    intro ω
    rw [hHC, clonedH, bothErrors, fromCols_mulVec_sumElim]
  have key : ∀ ω, S.det ≠ 0 ∧ c ω = KC.toRows₂ *ᵥ (HC *ᵥ bothErrors eo en ω + v ω) ∧
      P' ω = symInPlace (Pnew - KC.toRows₂ * S * KC.toRows₂ᵀ) := by
    intro ω
    have h1 := h ω
    rw [calculateCorrectionRelative] at h1
    split at h1
    · cases h1
    rename_i hd
    simp only [Option.some.injEq, Prod.mk.injEq] at h1
    refine ⟨hd, ?_, h1.2.symm⟩
    rw [← h1.1, hK, hHE]
  have hSu := (key ω).1.isUnit
  have hSp : S.PosSemidef := (psd_congr hC HC).add hRp
  have hKS : KC * S = PC * HCᵀ := by
    rw [hKC, Matrix.mul_assoc, nonsing_inv_mul _ hSu, Matrix.mul_one]
  have hSK : S * KCᵀ = HC * PC := by
    have := congrArg transpose hKS
    rwa [transpose_mul KC S, transpose_mul PC HCᵀ, psd_transpose_eq hSp, psd_transpose_eq hC,
      transpose_transpose] at this
  -- the error of the clone after the update, for the noise `v`
  have hup : moment μ (fun ω => bothErrors eo en ω - KC *ᵥ (HC *ᵥ bothErrors eo en ω + v ω))
      (fun ω => bothErrors eo en ω - KC *ᵥ (HC *ᵥ bothErrors eo en ω + v ω)) =
      PC - KC * S * KCᵀ + KC * (N - R) * KCᵀ := by
    have hc := moment_comb sb sv hnc (1 - KC * HC) (-KC)
    have e1 : (fun ω => bothErrors eo en ω - KC *ᵥ (HC *ᵥ bothErrors eo en ω + v ω)) =
        fun ω => (1 - KC * HC) *ᵥ bothErrors eo en ω + (-KC) *ᵥ v ω := by
      funext ω
      rw [sub_mulVec, one_mulVec, neg_mulVec, mulVec_add, mulVec_mulVec]
      abel
    have hj := joseph_optimal PC (psd_transpose_eq hC) HC R hSu KC rfl
    have e2 : KC * N * KCᵀ = KC * R * KCᵀ + KC * (N - R) * KCᵀ := by
      rw [Matrix.mul_sub, Matrix.sub_mul]; abel
    rw [e1, hc, hb, hv, transpose_neg, Matrix.neg_mul, Matrix.neg_mul, Matrix.mul_neg, neg_neg, e2, ← add_assoc, hj,
      Matrix.sub_mul, Matrix.one_mul, Matrix.mul_assoc KC S, hSK, Matrix.mul_assoc KC HC]
  have e3 : c = fun ω => KC.toRows₂ *ᵥ (HC *ᵥ bothErrors eo en ω + v ω) := funext fun ω => (key ω).2.1
  have hlow : moment μ (fun ω => en ω - c ω) (fun ω => en ω - c ω) =
      Pnew - KC.toRows₂ * S * KC.toRows₂ᵀ + KC.toRows₂ * (N - R) * KC.toRows₂ᵀ := by
    have := congrArg (fun M => M.submatrix (Sum.inr : Fin k → Fin k ⊕ Fin k) Sum.inr) hup
    have l1 : (moment μ (fun ω => bothErrors eo en ω - KC *ᵥ (HC *ᵥ bothErrors eo en ω + v ω))
        (fun ω => bothErrors eo en ω - KC *ᵥ (HC *ᵥ bothErrors eo en ω + v ω))).submatrix Sum.inr Sum.inr =
        moment μ (fun ω => en ω - c ω) (fun ω => en ω - c ω) := by
      rw [e3]
      rfl
    have l2 : (PC - KC * S * KCᵀ + KC * (N - R) * KCᵀ).submatrix (Sum.inr : Fin k → Fin k ⊕ Fin k) Sum.inr =
        Pnew - KC.toRows₂ * S * KC.toRows₂ᵀ + KC.toRows₂ * (N - R) * KC.toRows₂ᵀ := by
      ext i j
      simp [hPC, clonedCov, Matrix.mul_apply, toRows₂]
    rw [← l1, this, l2]
  have hsym : (Pnew - KC.toRows₂ * S * KC.toRows₂ᵀ)ᵀ = Pnew - KC.toRows₂ * S * KC.toRows₂ᵀ := by
    rw [transpose_sub, transpose_mul, transpose_mul, transpose_transpose, psd_transpose_eq hSp, ← hn,
      moment_transpose, Matrix.mul_assoc]
  rw [hlow, (key ω).2.2, symInPlace_of_symm _ hsym, hK]

/-- **C114, partial.**  Let the errors of the old and the new state have the covariances the filter holds for them,
let the new error be the old one carried on by the accumulated transition `F` plus something not correlated with
it, and let the noise in the residual have the covariance `R` of the measurement and be uncorrelated with both.
Then the filter holds the covariance of the new error after the relative update.
Missing: the noise of the previous measurement (`C114_noise_violated`), corrections between the two measurements
(`C114_between_violated`) and more than one transition (C34). -/
theorem C114_relative_partial (Pold Pnew F : Matrix (Fin k) (Fin k) ℝ) (Hold Hnew : Matrix m (Fin k) ℝ)
    (R : Matrix m m ℝ) (eo en : Ω → Fin k → ℝ) (v : Ω → m → ℝ) (so : SqInt μ eo) (sn : SqInt μ en)
    (sv : SqInt μ v) (ho : moment μ eo eo = Pold) (hn : moment μ en en = Pnew) (hv : moment μ v v = R)
    (hF : NoCorrelation μ eo fun ω => en ω - F *ᵥ eo ω) (hvo : NoCorrelation μ eo v) (hvn : NoCorrelation μ en v)
    (c : Ω → Fin k → ℝ) (P' : Ω → Matrix (Fin k) (Fin k) ℝ)
    (h : ∀ ω, calculateCorrectionRelative Pold Pnew F Hold Hnew (Hold *ᵥ eo ω + Hnew *ᵥ en ω + v ω) R =
      some (c ω, P' ω)) (ω : Ω) :
    P' ω = moment μ (fun ω => en ω - c ω) (fun ω => en ω - c ω) := by
  rw [relative_covariance (hv ▸ moment_psd sv) so sn sv ho hn hv hF hvo hvn h ω, sub_self, Matrix.mul_zero, Matrix.zero_mul,
    add_zero]

/-- **C114 is violated by the noise of the previous measurement.**  The residual of a relative measurement is the
difference of two measurements, each with noise of covariance `R`, but only one of them is counted: the true
covariance is the one the filter holds plus `K R Kᵀ`, so that the filter is too confident whenever the measurement
has any influence. -/
theorem C114_noise_violated (Pold Pnew F : Matrix (Fin k) (Fin k) ℝ) (Hold Hnew : Matrix m (Fin k) ℝ)
    (R : Matrix m m ℝ) (hR : R.PosDef) (eo en : Ω → Fin k → ℝ) (vo vn : Ω → m → ℝ) (so : SqInt μ eo)
    (sn : SqInt μ en) (svo : SqInt μ vo) (svn : SqInt μ vn) (ho : moment μ eo eo = Pold)
    (hn : moment μ en en = Pnew) (hvo : moment μ vo vo = R) (hvn : moment μ vn vn = R)
    (hF : NoCorrelation μ eo fun ω => en ω - F *ᵥ eo ω) (h12 : NoCorrelation μ vo vn)
    (hno : NoCorrelation μ eo vo ∧ NoCorrelation μ eo vn) (hnn : NoCorrelation μ en vo ∧ NoCorrelation μ en vn)
    (c : Ω → Fin k → ℝ) (P' : Ω → Matrix (Fin k) (Fin k) ℝ)
    (h : ∀ ω, calculateCorrectionRelative Pold Pnew F Hold Hnew (Hold *ᵥ eo ω + Hnew *ᵥ en ω + (vn ω - vo ω)) R =
      some (c ω, P' ω)) (ω : Ω) :
    moment μ (fun ω => en ω - c ω) (fun ω => en ω - c ω) - P' ω =
        relGain Pold Pnew F Hold Hnew R * R * (relGain Pold Pnew F Hold Hnew R)ᵀ ∧
      (relGain Pold Pnew F Hold Hnew R ≠ 0 → P' ω ≠ moment μ (fun ω => en ω - c ω) (fun ω => en ω - c ω)) := by
  have hv : moment μ (fun ω => vn ω - vo ω) (fun ω => vn ω - vo ω) = R + R := by
    have a : moment μ vo vn = 0 := h12
    have b : moment μ vn vo = 0 := h12.symm
    rw [moment_sub_left svn svo (svn.sub svo), moment_sub_right svn svn svo, moment_sub_right svo svn svo, a, b, hvo,
      hvn]
    simp
  have n1 : ∀ e : Ω → Fin k → ℝ, SqInt μ e → NoCorrelation μ e vo ∧ NoCorrelation μ e vn →
      NoCorrelation μ e fun ω => vn ω - vo ω := by
    intro e se he
    have a : moment μ e vo = 0 := he.1
    have b : moment μ e vn = 0 := he.2
    rw [NoCorrelation, moment_sub_right se svn svo, a, b, sub_zero]
  have key := relative_covariance hR.posSemidef so sn (svn.sub svo) ho hn hv hF (n1 _ so hno) (n1 _ sn hnn) h ω
  rw [add_sub_cancel_right] at key
  set K := relGain Pold Pnew F Hold Hnew R with hK
  refine ⟨by rw [key, add_sub_cancel_left], fun hne he => ?_⟩
  rw [← he] at key
  have hz : K * R * Kᵀ = 0 := by
    have := congrArg (fun M => M - P' ω) key
    simpa using this.symm
  apply hne
  ext i j
  have hrow : (fun j => K i j) = 0 := by
    by_contra hx
    have hpos := hR.dotProduct_mulVec_pos hx
    rw [star_trivial] at hpos
    have hd := congrFun (congrFun hz i) i
    have e : (K * R * Kᵀ) i i = (fun j => K i j) ⬝ᵥ (R *ᵥ fun j => K i j) := by
      rw [Matrix.mul_assoc]
      rfl
    rw [e] at hd
    simp only [Matrix.zero_apply] at hd
    exact hpos.ne' hd
  exact congrFun hrow j

end

/-! ### One dimension -/

theorem s_transpose (a : ℝ) : (!![a] : Matrix (Fin 1) (Fin 1) ℝ)ᵀ = !![a] := by
  ext i j; fin_cases i; fin_cases j; rfl

theorem s_mul (a b : ℝ) : (!![a] : Matrix (Fin 1) (Fin 1) ℝ) * !![b] = !![a * b] := by
  ext i j; fin_cases i; fin_cases j; simp

theorem s_add (a b : ℝ) : (!![a] : Matrix (Fin 1) (Fin 1) ℝ) + !![b] = !![a + b] := by
  ext i j; fin_cases i; fin_cases j; simp

theorem s_sub (a b : ℝ) : (!![a] : Matrix (Fin 1) (Fin 1) ℝ) - !![b] = !![a - b] := by
  ext i j; fin_cases i; fin_cases j; simp

theorem s_one : (1 : Matrix (Fin 1) (Fin 1) ℝ) = !![1] := by
  ext i j; fin_cases i; fin_cases j; simp

/-- The update of the code for a scalar state that is measured directly. -/
theorem scalar_update (P R r : ℝ) (hS : P + R ≠ 0) :
    calculateCorrection false 0 (!![P] : Matrix (Fin 1) (Fin 1) ℝ) (!![1] : Matrix (Fin 1) (Fin 1) ℝ) ![r] !![R] =
      some (some (![P / (P + R) * r], !![(1 - P / (P + R)) ^ 2 * P + (P / (P + R)) ^ 2 * R])) := by
  have hI : innovCov (!![P] : Matrix (Fin 1) (Fin 1) ℝ) (!![1] : Matrix (Fin 1) (Fin 1) ℝ) !![R] = !![P + R] := by
    simp only [innovCov, s_transpose, s_mul, s_add, one_mul, mul_one]
  have hinv : (!![P + R] : Matrix (Fin 1) (Fin 1) ℝ)⁻¹ = !![(P + R)⁻¹] := by
    refine inv_eq_left_inv ?_
    ext i j
    fin_cases i; fin_cases j
    simp [hS]
  have hK : gain (!![P] : Matrix (Fin 1) (Fin 1) ℝ) (!![1] : Matrix (Fin 1) (Fin 1) ℝ) !![R] = !![P / (P + R)] := by
    rw [gain, hI, hinv]
    simp only [s_transpose, s_mul, mul_one, div_eq_mul_inv]
  have hd : (innovCov (!![P] : Matrix (Fin 1) (Fin 1) ℝ) (!![1] : Matrix (Fin 1) (Fin 1) ℝ) !![R]).det ≠ 0 := by
    rw [hI]; simpa using hS
  rw [calculateCorrection, if_neg hd, if_neg (by simp)]
  simp only [hK]
  congr 3
  · funext i
    fin_cases i
    simp [mulVec, dotProduct]
  · rw [josephUpdate, symInPlace_of_symm]
    · simp only [s_one, s_mul, s_sub, s_transpose, s_add]
      congr! 3
      ring
    · ext i j
      fin_cases i; fin_cases j
      rfl

/-- The relative update of the code for a scalar state of which differences are measured. -/
theorem scalar_relative (Po Pn F R r : ℝ) (hS : Po - 2 * F * Po + Pn + R ≠ 0) :
    calculateCorrectionRelative (!![Po] : Matrix (Fin 1) (Fin 1) ℝ) !![Pn] !![F]
        (!![-1] : Matrix (Fin 1) (Fin 1) ℝ) !![1] ![r] !![R] =
      some (![(Pn - F * Po) / (Po - 2 * F * Po + Pn + R) * r],
        !![Pn - ((Pn - F * Po) / (Po - 2 * F * Po + Pn + R)) ^ 2 * (Po - 2 * F * Po + Pn + R)]) := by
  set S := Po - 2 * F * Po + Pn + R with hSd
  have hI : relInnovCov (!![Po] : Matrix (Fin 1) (Fin 1) ℝ) !![Pn] !![F]
      (!![-1] : Matrix (Fin 1) (Fin 1) ℝ) !![1] !![R] = !![S] := by
    simp only [relInnovCov, clonedH, clonedCov, s_transpose, s_mul]
    ext i j
    fin_cases i; fin_cases j
    simp [Matrix.mul_apply, Fintype.sum_sum_type, hSd]
    ring
  have hinv : (!![S] : Matrix (Fin 1) (Fin 1) ℝ)⁻¹ = !![S⁻¹] := by
    refine inv_eq_left_inv ?_
    ext i j
    fin_cases i; fin_cases j
    simp [hS]
  have hK : relGain (!![Po] : Matrix (Fin 1) (Fin 1) ℝ) !![Pn] !![F]
      (!![-1] : Matrix (Fin 1) (Fin 1) ℝ) !![1] !![R] = !![(Pn - F * Po) / S] := by
    rw [relGain, hI, hinv]
    simp only [clonedH, clonedCov, s_transpose, s_mul]
    ext i j
    fin_cases i; fin_cases j
    simp only [Matrix.mul_apply, Fintype.sum_sum_type, toRows₂, div_eq_mul_inv]
    simp
    left
    ring
  rw [calculateCorrectionRelative, hI, if_neg (by simpa using hS)]
  simp only [hK]
  congr 2
  · funext i
    fin_cases i
    simp [mulVec, dotProduct]
  · rw [symInPlace_of_symm]
    · simp only [s_mul, s_transpose, s_sub]
      congr! 3
      ring
    · ext i j
      fin_cases i; fin_cases j
      rfl

namespace Demo

/-- A filter for a position that does not move.  Absolute measurements have variance 1, relative ones 3/4; the
updates are those of the code (`scalar_update`, `scalar_relative`). -/
def cloneK : RelKernel ℚ ℚ ℚ ℚ ℚ (ℚ × Bool) Unit Unit :=
  { prop := fun _ _ x _ => x, extProp := fun _ x => x, predP := fun _ P _ _ => P
    update := fun _ m x P => ⟨(), x + P / (P + 1) * (m.1 - x), (1 - P / (P + 1)) ^ 2 * P + (P / (P + 1)) ^ 2 * 1, true, false⟩
    P0 := 0, tr0 := (), spike := fun _ => false, numX := fun _ => true, numPos := fun _ => true
    fd := fun _ _ _ => 1
    fd0 := 1
    mulF := fun a b => a * b
    isRel := fun m => m.2
    cast := fun _ => true
    clear := fun _ P => P
    relUpdate := fun _ p m xo Po F x P =>
      let S := Po - 2 * F * Po + P + 3 / 4
      let K := (P - F * Po) / S
      ⟨(), x + K * ((m.1 - p.1) - (x - xo)), P - K ^ 2 * S, true, false⟩ }

/-- `Init` with variance 1, IMU readings, a relative measurement, an absolute measurement of another sensor (if
`between`) and a second relative measurement. -/
def cloneRun (between : Bool) : List (Api ℚ ℚ ℚ (ℚ × ℚ) (ℚ × Bool) Unit) :=
  [.init 1 ⟨⟨0, 0⟩, 0, (1, 1)⟩, relImu (101 / 100), relImu (102 / 100), relImu (103 / 100),
    relImu (104 / 100), relImu (105 / 100), relImu (106 / 100), relMeas (103 / 100) 1] ++
  (if between then [.meas ⟨104 / 100, 1, (0, false)⟩] else []) ++ [relMeas (105 / 100) 1]

/-- The last published variance. -/
def cloneVar (between : Bool) : Option ℚ :=
  match cloneK.run ⟨.gnu fun _ _ => false, .gnu fun _ _ => false⟩ (cloneRun between) with
  | .ok c => c.out.getLast?.bind fun
    | .afterUpdate _ _ P => some P.1
    | _ => none
  | .error _ => none

end Demo

/-- **C114 is violated by corrections between the two measurements.**  The transition from the old to the new
state does not contain the corrections of other sensors in between.  A body at rest whose position has variance 1:
after one position measurement of another sensor the second relative measurement makes the variance
negative, -1/2.  Without the other sensor it stays 1. -/
theorem C114_between_violated : Demo.cloneVar true = some (-1 / 2) ∧ Demo.cloneVar false = some 1 := by
  decide +kernel

/-- The updates of that run are those of the code: the absolute one gives variance 1/2, the relative one -1/2. -/
example : (calculateCorrection false 0 (!![1] : Matrix (Fin 1) (Fin 1) ℝ) (!![1] : Matrix (Fin 1) (Fin 1) ℝ) ![0]
      !![1]).map (Option.map Prod.snd) = some (some !![1 / 2]) ∧
    (calculateCorrectionRelative (!![1] : Matrix (Fin 1) (Fin 1) ℝ) !![1 / 2] (accumulateF [!![1], !![1]])
      (!![-1] : Matrix (Fin 1) (Fin 1) ℝ) !![1] ![0] !![3 / 4]).map Prod.snd = some !![-1 / 2] := by
  have hF : accumulateF [(!![1] : Matrix (Fin 1) (Fin 1) ℝ), !![1]] = !![1] := by
    ext i j
    fin_cases i; fin_cases j
    simp [accumulateF]
  rw [hF, scalar_update _ _ _ (by norm_num), scalar_relative _ _ _ _ _ (by norm_num)]
  simp only [Option.map_some, Option.some.injEq]
  constructor <;> (ext i j; fin_cases i; fin_cases j; simp; norm_num)

namespace Dice

/-- Non-vacuity of `C114_relative_partial` and `C114_noise_violated`: the position of a body at rest that starts with
variance 1 is disturbed by variance 1; differences are measured with variance 1. -/
example : (∀ ω, ∃ c P', calculateCorrectionRelative (!![1] : Matrix (Fin 1) (Fin 1) ℝ) !![2] !![1]
      (!![-1] : Matrix (Fin 1) (Fin 1) ℝ) !![1] ((!![-1] : Matrix (Fin 1) (Fin 1) ℝ) *ᵥ sign 0 ω +
        (!![1] : Matrix (Fin 1) (Fin 1) ℝ) *ᵥ (sign 0 ω + sign 1 ω) + sign 2 ω) !![1] = some (c, P')) ∧
    moment μ8 (fun ω => sign 0 ω + sign 1 ω) (fun ω => sign 0 ω + sign 1 ω) = !![2] ∧
    NoCorrelation μ8 (sign 0) (fun ω => (sign 0 ω + sign 1 ω) - (!![1] : Matrix (Fin 1) (Fin 1) ℝ) *ᵥ sign 0 ω) ∧
    NoCorrelation μ8 (fun ω => sign 0 ω + sign 1 ω) (sign 2) := by
  have e1 : ∀ x : Fin 1 → ℝ, (!![1] : Matrix (Fin 1) (Fin 1) ℝ) *ᵥ x = x := by
    intro x
    funext i
    fin_cases i
    simp [mulVec, dotProduct]
  refine ⟨fun ω => ?_, ?_, ?_, ?_⟩
  · obtain ⟨r, hr⟩ : ∃ r : ℝ, ((!![-1] : Matrix (Fin 1) (Fin 1) ℝ) *ᵥ sign 0 ω +
        (!![1] : Matrix (Fin 1) (Fin 1) ℝ) *ᵥ (sign 0 ω + sign 1 ω) + sign 2 ω) = ![r] :=
      ⟨_, funext fun i => by fin_cases i; rfl⟩
    rw [hr, scalar_relative _ _ _ _ _ (by norm_num)]
    exact ⟨_, _, rfl⟩
  · rw [moment_add_left (sqInt _) (sqInt _) (sqInt _), moment_add_right (sqInt _) (sqInt _) (sqInt _),
      moment_add_right (sqInt _) (sqInt _) (sqInt _), sign_moment 0 0 (by norm_num) (by norm_num),
      sign_moment 0 1 (by norm_num) (by norm_num), sign_moment 1 0 (by norm_num) (by norm_num),
      sign_moment 1 1 (by norm_num) (by norm_num)]
    ext i j
    fin_cases i; fin_cases j
    simp
    norm_num
  · have : (fun ω => (sign 0 ω + sign 1 ω) - (!![1] : Matrix (Fin 1) (Fin 1) ℝ) *ᵥ sign 0 ω) = sign 1 := by
      funext ω
      rw [e1, add_sub_cancel_left]
    rw [NoCorrelation, this]
    exact sign_moment 0 1 (by norm_num) (by norm_num)
  · rw [NoCorrelation, moment_add_left (sqInt _) (sqInt _) (sqInt _), sign_moment 0 2 (by norm_num) (by norm_num),
      sign_moment 1 2 (by norm_num) (by norm_num)]
    simp

end Dice

end MSF
