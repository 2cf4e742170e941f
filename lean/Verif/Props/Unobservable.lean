import Verif.Lemmas.Floor
import Verif.Props.Information
import Verif.Lemmas.Agree
import Verif.Props.PoseFilters
import Verif.Props.RunNumbers

/-!
# C119: sensors tell nothing about what they do not depend on

Moving the vehicle together with the frame of the camera and the zero point of the pressure sensor
changes no reading.  The filter must not become more certain along such a direction.
-/

namespace MSF

open Matrix EKFState Core Spec

section
variable {k : Nat} {m : Type} [Fintype m] [DecidableEq m]

/-- **C119, one update.**  Along a direction the measurement matrix does not see, a lower bound on the
variances is also a lower bound after the update. -/
theorem C119_update (P : Matrix (Fin k) (Fin k) ℝ) (hP : P.PosSemidef) (H : Matrix m (Fin k) ℝ)
    (R : Matrix m m ℝ) (hR : R.PosSemidef) (en : Bool) (thr : ℝ) (r : m → ℝ) (x : Fin k → ℝ)
    (P' : Matrix (Fin k) (Fin k) ℝ) (h : calculateCorrection en thr P H r R = some (some (x, P')))
    (δ : Fin k → ℝ) (hδ : H *ᵥ δ = 0) (c : ℝ)
    (hc : ∀ u, c * (u ⬝ᵥ δ) ^ 2 ≤ u ⬝ᵥ (P *ᵥ u)) (u : Fin k → ℝ) :
    c * (u ⬝ᵥ δ) ^ 2 ≤ u ⬝ᵥ (P' *ᵥ u) :=
  ((Floor.of_bound hP hc).update hR hδ h).bound u

/-- **C119, information.**  An update adds information along a direction if and only if the
measurement matrix sees the direction. -/
theorem C119_information (P : Matrix (Fin k) (Fin k) ℝ) (hP : P.PosDef) (H : Matrix m (Fin k) ℝ)
    (R : Matrix m m ℝ) (hR : R.PosDef) (en : Bool) (thr : ℝ) (r : m → ℝ) (x : Fin k → ℝ)
    (P' : Matrix (Fin k) (Fin k) ℝ) (h : calculateCorrection en thr P H r R = some (some (x, P')))
    (δ : Fin k → ℝ) :
    (H *ᵥ δ = 0 → δ ⬝ᵥ (P'⁻¹ *ᵥ δ) = δ ⬝ᵥ (P⁻¹ *ᵥ δ)) ∧
      (H *ᵥ δ ≠ 0 → δ ⬝ᵥ (P⁻¹ *ᵥ δ) < δ ⬝ᵥ (P'⁻¹ *ᵥ δ)) := by
  have h1 := (C111_least_squares P hP H R hR en thr r x P' h).1
  have h2 : δ ⬝ᵥ (P'⁻¹ *ᵥ δ) = δ ⬝ᵥ (P⁻¹ *ᵥ δ) + (H *ᵥ δ) ⬝ᵥ (R⁻¹ *ᵥ (H *ᵥ δ)) := by
    rw [h1, add_mulVec, dotProduct_add, ← mulVec_mulVec, ← mulVec_mulVec, dotProduct_mulVec δ Hᵀ,
      ← mulVec_transpose, transpose_transpose]
  constructor
  · intro h0
    rw [h2, h0]
    simp
  · intro h0
    have := hR.inv.dotProduct_mulVec_pos h0
    rw [star_trivial] at this
    linarith

end

variable {aux : List VarDesc}

/-- The information along a direction. -/
noncomputable def infoAlong {n : Nat} (P : Matrix (Fin n) (Fin n) ℝ) (δ : Fin n → ℝ) : ℝ :=
  δ ⬝ᵥ (P⁻¹ *ᵥ δ)

/-- Non-vacuity: of two states the first is measured. -/
example : ∃ x P', calculateCorrection false 0 (1 : Matrix (Fin 2) (Fin 2) ℝ) !![1, 0] (fun _ : Fin 1 => 3)
    1 = some (some (x, P')) ∧ infoAlong 1 ![0, 1] = infoAlong P' ![0, 1] ∧
      infoAlong 1 ![1, 1] < infoAlong P' ![1, 1] := by
  obtain ⟨o, ho⟩ := Option.isSome_iff_exists.1 (C28_never_fails (1 : Matrix (Fin 2) (Fin 2) ℝ)
    PosSemidef.one (!![1, 0] : Matrix (Fin 1) (Fin 2) ℝ) 1 PosDef.one false 0 (fun _ : Fin 1 => 3))
  cases o with
  | none =>
    simp only [calculateCorrection] at ho
    split at ho
    · cases ho
    · simp at ho
  | some o =>
    have key := C119_information _ PosDef.one _ _ PosDef.one _ _ _ _ _ ho
    refine ⟨o.1, o.2, ho, ((key ![0, 1]).1 ?_).symm, (key ![1, 1]).2 fun h => ?_⟩
    · funext i
      fin_cases i
      simp
    · have := congrFun h 0
      simp at this

/-- What one update of a sensor without fixed states does with the information along `δ`, if its
matrix is the derivative of its residual along `δ`. -/
theorem info_of_derivative {uc : UserCalc (coreDef aux)} {tr : Tracker ℝ}
    {m : SensorMeas (coreDef aux)} {x : Values (coreDef aux)} {P : ErrMat ℝ (coreDef aux)}
    {u : Upd (Values (coreDef aux)) (ErrMat ℝ (coreDef aux)) (Tracker ℝ)}
    (hP : P.PosDef) (hR : m.R.PosDef) (hf : m.fixed = 0) (h : sensorUpdate uc tr m x P = some u)
    (hua : u.applied = true) {δ : Fin (total errLen (coreDef aux)) → ℝ} {H}
    (hH : m.H (toVars x) = some H) :
    (H *ᵥ δ = 0 → infoAlong u.P δ = infoAlong P δ) ∧ (H *ᵥ δ ≠ 0 → infoAlong P δ < infoAlong u.P δ) := by
  obtain ⟨P1, H1, r, h1, h2, h3, h4 | ⟨c, P', t', vars, fz, h4, -, rfl⟩⟩ := sensorUpdate_cases h
  · rw [h4.2] at hua; cases hua
  · rw [hf, clearFixed_zero] at h1
    obtain rfl := Option.some.inj h1
    obtain rfl := Option.some.inj (h2.symm.trans hH)
    exact C119_information P hP H1 m.R hR _ _ r c P' h4 δ

/-- **C119, pressure.**  An accepted pressure reading makes the filter more certain along a direction
if and only if moving the state in that direction changes the predicted pressure. -/
theorem C119_pressure (uc : UserCalc (coreDef aux)) (bp : Nat) (en : Bool) (thr z n : ℝ) (hnz : n ≠ 0)
    (hn : ∀ i (hi : i < (coreDef aux).length), (coreDef aux)[i].name = i) (hp : PlainVars (coreDef aux))
    (tr : Tracker ℝ) (x : Values (coreDef aux)) (hu : UnitQuats (toVars x))
    (P : ErrMat ℝ (coreDef aux)) (hP : P.PosDef)
    (u : Upd (Values (coreDef aux)) (ErrMat ℝ (coreDef aux)) (Tracker ℝ))
    (h : sensorUpdate uc tr (Reading.pressure bp en thr z n).meas x P = some u) (hua : u.applied = true)
    (δ : Fin (total errLen (coreDef aux)) → ℝ) (d : Fin 1 → ℝ)
    (hd : DerivAlong (pressureResidual bp z) (toVars x) δ d) :
    (d = 0 → infoAlong u.P δ = infoAlong P δ) ∧ (d ≠ 0 → infoAlong P δ < infoAlong u.P δ) := by
  obtain ⟨-, -, r, -, -, hr, -⟩ := sensorUpdate_cases h
  have hb : ∃ b, getVec (toVars x) bp 1 = some b := by
    have hr' : pressureResidual bp z (toVars x) = some r := hr
    unfold pressureResidual at hr'
    simp only [Option.bind_eq_bind] at hr'
    obtain ⟨b, hb, -⟩ := Option.bind_eq_some_iff.1 hr'
    exact ⟨b, hb⟩
  obtain ⟨b, hb⟩ := hb
  obtain ⟨H, hH, hJ⟩ := C44_pressure bp (toVars x) b z hn hp hu hb
  have e := (hJ δ).unique hd
  have key := info_of_derivative (m := (Reading.pressure bp en thr z n).meas) hP
    (PosDef.diagonal fun _ => mul_self_pos.2 hnz) rfl h hua (δ := δ) hH
  refine ⟨fun h0 => key.1 ?_, fun h0 => key.2 fun h1 => h0 ?_⟩
  · rw [h0] at e; exact neg_eq_zero.1 e
  · rw [← e, neg_eq_zero]; exact h1

/-- **C119, position.**  The same for position readings (without fixed states). -/
theorem C119_position (uc : UserCalc (coreDef aux)) (pip : Nat) (h5 : 5 ≤ pip) (en : Bool) (thr : ℝ)
    (z : V3 ℝ) (R : M33 ℝ) (hR : R.PosDef)
    (hn : ∀ i (hi : i < (coreDef aux).length), (coreDef aux)[i].name = i) (hp : PlainVars (coreDef aux))
    (tr : Tracker ℝ) (x : Values (coreDef aux)) (hu : UnitQuats (toVars x))
    (P : ErrMat ℝ (coreDef aux)) (hP : P.PosDef)
    (u : Upd (Values (coreDef aux)) (ErrMat ℝ (coreDef aux)) (Tracker ℝ))
    (h : sensorUpdate uc tr (Reading.position pip 0 en thr z R).meas x P = some u)
    (hua : u.applied = true) (δ : Fin (total errLen (coreDef aux)) → ℝ) (d : V3 ℝ)
    (hd : DerivAlong (positionResidual pip z) (toVars x) δ d) :
    (d = 0 → infoAlong u.P δ = infoAlong P δ) ∧ (d ≠ 0 → infoAlong P δ < infoAlong u.P δ) := by
  obtain ⟨-, H0, -, -, hH0, -, -⟩ := sensorUpdate_cases h
  obtain ⟨l, hl⟩ := positionH_reads (show positionH pip 0 (toVars x) = some H0 from hH0)
  obtain ⟨H, hH, hJ⟩ := C44_position pip 0 (toVars x) l z hn hp hu hl (by omega)
  have e := (hJ δ fun h => by simp at h).unique hd
  have key := info_of_derivative (m := (Reading.position pip 0 en thr z R).meas) hP hR rfl h hua
    (δ := δ) hH
  refine ⟨fun h0 => key.1 ?_, fun h0 => key.2 fun h1 => h0 ?_⟩
  · rw [h0] at e; exact neg_eq_zero.1 e
  · rw [← e, neg_eq_zero]; exact h1

/-- The direction in which the vehicle, the frame of the camera and (if there is one) the zero point
of the pressure sensor are moved together by `d`. -/
structure IsShift (pwv bp : Nat) (d : V3 ℝ) (δ : Fin (total errLen (coreDef aux)) → ℝ) : Prop where
  vehicle : segOf δ 0 3 = d
  frame : segOf δ pwv 3 = d
  zero : ∀ h : bp < (coreDef aux).length, errLen (coreDef aux)[bp] = 1 → segOf δ bp 1 0 = d 2
  rest : ∀ i, i ≠ 0 → i ≠ pwv → i ≠ bp → ZeroAt δ i

theorem poseH_shift {ix : PoseIdx} {fixed bp : Nat} {s : Vars ℝ (coreDef aux)} {v : PoseView ℝ}
    (hn : ∀ i (hi : i < (coreDef aux).length), (coreDef aux)[i].name = i)
    (hv : poseView ix s = some v) (hd : ix.Distinct) (hbp : bp ∉ [2, ix.L, ix.qic, ix.pic, ix.qwv])
    (hf : fixed.testBit ix.pwv = false) {d : V3 ℝ} {δ : Fin (total errLen (coreDef aux)) → ℝ}
    (hδ : IsShift ix.pwv bp d δ) : ∃ H, poseH ix fixed s = some H ∧
      H *ᵥ δ = pad 0 ((v.L • v.qwv.toRot - 1) *ᵥ d) := by
  obtain ⟨H, hH, hm⟩ := poseH_mulVec ix fixed s v hn hv hd
  refine ⟨H, hH, ?_⟩
  have hi := indexingErrors_eq_zero.2 hn
  obtain ⟨r1, r2, rL, rqic, rpic, rqwv, rpwv⟩ := poseView_reads hv
  obtain ⟨lL, -⟩ := getVec_kind s rL
  obtain ⟨lqic, -⟩ := getQuat_kind s rqic
  obtain ⟨lpic, -⟩ := getVec_kind s rpic
  obtain ⟨lqwv, -⟩ := getQuat_kind s rqwv
  have hdd := hd
  simp only [PoseIdx.Distinct, List.nodup_cons, List.mem_cons, List.not_mem_nil, or_false, not_or,
    List.nodup_nil, and_true, not_false_eq_true] at hdd
  simp only [List.mem_cons, List.not_mem_nil, or_false, not_or] at hbp
  have l2 : 2 < (coreDef aux).length := by simp [coreDef, coreDescs]
  have z2 : segOf δ 2 3 = 0 :=
    (hδ.rest 2 (by decide) (by omega) (by omega)).segOf hi l2 3 rfl
  have zL : segOf δ ix.L 1 = 0 :=
    (hδ.rest _ (by omega) (by omega) (by omega)).segOf hi lL 1 (errLen_vec rL lL)
  have zqic : segOf δ ix.qic 3 = 0 :=
    (hδ.rest _ (by omega) (by omega) (by omega)).segOf hi lqic 3 (errLen_quat rqic lqic)
  have zpic : segOf δ ix.pic 3 = 0 :=
    (hδ.rest _ (by omega) (by omega) (by omega)).segOf hi lpic 3 (errLen_vec rpic lpic)
  have zqwv : segOf δ ix.qwv 3 = 0 :=
    (hδ.rest _ (by omega) (by omega) (by omega)).segOf hi lqwv 3 (errLen_quat rqwv lqwv)
  rw [hm, z2, zL, zqic, zpic, zqwv, hδ.vehicle, hδ.frame, hf]
  simp only [mulVec_zero, Bool.false_eq_true, if_false]
  rw [sub_mulVec, one_mulVec, show (-1 : M33 ℝ) *ᵥ d = -d by rw [neg_mulVec, one_mulVec]]
  have p0 : ∀ n : Nat, (pad n (0 : V3 ℝ) : Fin 7 → ℝ) = 0 := by
    intro n; funext j; simp [pad]
  have pa : ∀ a b : V3 ℝ, (pad 0 (a + b) : Fin 7 → ℝ) = pad 0 a + pad 0 b := by
    intro a b
    funext j
    simp only [pad, Pi.add_apply]
    split <;> simp
  rw [sub_eq_add_neg, pa]
  simp only [p0, add_zero]

/-- **C119, poses, partial.**  While the scale is one and the frame of the camera is aligned with the
world, or along a direction that does not move the frame of the camera: if moving the state changes no
predicted pose, an accepted pose does not make the filter more certain in that direction.  Missing: any
other scale or alignment, see `C119_pose_violated`. -/
theorem C119_pose_partial (uc : UserCalc (coreDef aux)) (ix : PoseIdx) (en : Bool) (thr : ℝ)
    (z : PoseMeas ℝ) (hR : z.R_.PosDef)
    (hn : ∀ i (hi : i < (coreDef aux).length), (coreDef aux)[i].name = i) (hp : PlainVars (coreDef aux))
    (tr : Tracker ℝ) (x : Values (coreDef aux)) (hu : UnitQuats (toVars x)) (v : PoseView ℝ)
    (hv : poseView ix (toVars x) = some v) (hd : ix.Distinct)
    (hz : attResidual (v.predAtt.conj.mul z.z_q) = some 0) (hy : (yawResidual v.qwv).isSome)
    (P : ErrMat ℝ (coreDef aux)) (hP : P.PosDef)
    (u : Upd (Values (coreDef aux)) (ErrMat ℝ (coreDef aux)) (Tracker ℝ))
    (h : sensorUpdate uc tr (Reading.pose ix 0 en thr z).meas x P = some u) (hua : u.applied = true)
    (δ : Fin (total errLen (coreDef aux)) → ℝ)
    (hδ : DerivAlong (poseRes ix z.z_p z.z_q) (toVars x) δ 0)
    (hw : ZeroAt δ ix.pwv ∨ v.L • v.qwv.toRot = 1) : infoAlong u.P δ = infoAlong P δ := by
  obtain ⟨H, hH, hc⟩ := C44_pose_partial ix 0 (toVars x) v z.z_p z.z_q hn hp hu hv hd hz hy
  obtain ⟨H', hH', hm⟩ := poseH_mulVec ix 0 (toVars x) v hn hv hd
  obtain rfl := Option.some.inj (hH.symm.trans hH')
  obtain ⟨d, hd', h6⟩ := hc δ (fun i _ hf => by simp at hf) hw
  obtain rfl := hd'.unique hδ
  refine (info_of_derivative (m := (Reading.pose ix 0 en thr z).meas) hP hR rfl h hua (δ := δ) hH).1 ?_
  change H *ᵥ δ = (0 : Fin 7 → ℝ)
  funext i
  by_cases hi : i = 6
  · subst hi
    rw [hm]
    simp [pad]
  · have := h6 i hi
    rw [Pi.zero_apply] at this ⊢
    linarith

/-- **C119 is violated for poses.**  Whenever the scale is not one or the frame of the camera is turned
(more precisely, `L R(q_wv) d ≠ d`): moving vehicle and camera frame together by `d` changes no
predicted pose, yet every pose makes the filter more certain in that direction. -/
theorem C119_pose_violated (ix : PoseIdx) (s : Vars ℝ (coreDef aux)) (z : PoseMeas ℝ) (hR : z.R_.PosDef)
    (hn : ∀ i (hi : i < (coreDef aux).length), (coreDef aux)[i].name = i) (hp : PlainVars (coreDef aux))
    (hu : UnitQuats s) (v : PoseView ℝ) (hv : poseView ix s = some v) (hd : ix.Distinct)
    (hz : attResidual (v.predAtt.conj.mul z.z_q) = some 0) (hy : (yawResidual v.qwv).isSome)
    (d : V3 ℝ) (δ : Fin (total errLen (coreDef aux)) → ℝ) (hδ : IsShift ix.pwv 0 d δ)
    (hne : (v.L • v.qwv.toRot) *ᵥ d ≠ d) :
    DerivAlong (poseRes ix z.z_p z.z_q) s δ 0 ∧
      ∃ H r, poseH ix 0 s = some H ∧ poseRes ix z.z_p z.z_q s = some r ∧
        ∀ P : ErrMat ℝ (coreDef aux), P.PosDef → ∀ thr, ∃ c P',
          calculateCorrection false thr P H r z.R_ = some (some (c, P')) ∧ infoAlong P δ < infoAlong P' δ := by
  have hdd := hd
  simp only [PoseIdx.Distinct, List.nodup_cons, List.mem_cons, List.not_mem_nil, or_false, not_or,
    List.nodup_nil, and_true, not_false_eq_true] at hdd
  have hbp : 0 ∉ [2, ix.L, ix.qic, ix.pic, ix.qwv] := by
    simp only [List.mem_cons, List.not_mem_nil, or_false, not_or]
    omega
  obtain ⟨H, hH, hHδ⟩ := poseH_shift (fixed := 0) hn hv hd hbp (Nat.zero_testBit _) hδ
  obtain ⟨H', hH', hc⟩ := pose_compare ix 0 s v z.z_p z.z_q hn hp hu hv hd hz hy
  obtain rfl := Option.some.inj (hH.symm.trans hH')
  have hder := hc δ fun i _ hf => by simp at hf
  have hi := indexingErrors_eq_zero.2 hn
  obtain ⟨-, -, -, -, -, rqwv, -⟩ := poseView_reads hv
  obtain ⟨lqwv, -⟩ := getQuat_kind s rqwv
  have zqwv : segOf δ ix.qwv 3 = 0 :=
    (hδ.rest _ (by omega) (by omega) (by omega)).segOf hi lqwv 3 (errLen_quat rqwv lqwv)
  have h0 : -(H *ᵥ δ) + rows7 ((v.L • v.qwv.toRot - 1) *ᵥ segOf δ ix.pwv 3) 0
      (yawDeriv v.qwv (segOf δ ix.qwv 3)) = 0 := by
    rw [hHδ, hδ.frame, zqwv]
    have hy0 : yawDeriv v.qwv (0 : V3 ℝ) = 0 := by simp [yawDeriv, pureH, Quat.mul]
    rw [hy0]
    have : (pad 0 ((v.L • v.qwv.toRot - 1) *ᵥ d) : Fin 7 → ℝ) =
        rows7 ((v.L • v.qwv.toRot - 1) *ᵥ d) 0 0 := funext fun r => pad_zero_apply _ r
    rw [this, neg_add_cancel]
  rw [h0] at hder
  refine ⟨hder, H, ?_⟩
  obtain ⟨r, hr⟩ : ∃ r, poseRes ix z.z_p z.z_q s = some r := by
    obtain ⟨f, hf, -⟩ := hder
    have := hf.self_of_nhds
    rw [zero_smul, correct_by_zero s hn hp hu, Option.bind_some] at this
    exact ⟨_, this⟩
  refine ⟨r, hH, hr, fun P hP thr => ?_⟩
  obtain ⟨o, ho⟩ := Option.isSome_iff_exists.1 (C28_never_fails P hP.posSemidef H z.R_ hR false thr r)
  cases o with
  | none =>
    simp only [calculateCorrection] at ho
    split at ho
    · cases ho
    · simp at ho
  | some cp =>
    refine ⟨cp.1, cp.2, ho, (C119_information P hP H z.R_ hR _ _ r _ _ ho δ).2 fun h1 => hne ?_⟩
    rw [hHδ] at h1
    have : (v.L • v.qwv.toRot - 1) *ᵥ d = 0 := by
      funext j
      have := congrFun h1 ⟨j, by omega⟩
      fin_cases j <;> simpa [pad] using this
    rw [sub_mulVec, one_mulVec, sub_eq_zero] at this
    exact this

/-- Non-vacuity: the filter with scale two, a pose that agrees with its prediction, and a shift of
vehicle and camera frame along the first axis. -/
example : ∃ δ : Fin (total errLen (coreDef poseAux)) → ℝ, IsShift poseIx.pwv 0 ![1, 0, 0] δ ∧
    DerivAlong (poseRes poseIx 0 Quat.one) (scaleState 2) δ 0 ∧
    ∃ H r, poseH poseIx 0 (scaleState 2) = some H ∧ poseRes poseIx 0 Quat.one (scaleState 2) = some r ∧
      ∀ P : ErrMat ℝ (coreDef poseAux), P.PosDef → ∀ thr, ∃ c P',
        calculateCorrection false thr P H r 1 = some (some (c, P')) ∧ infoAlong P δ < infoAlong P' δ := by
  have hs : IsShift poseIx.pwv 0 ![1, 0, 0] (fun k : Fin (total errLen (coreDef poseAux)) =>
      if k.val = 0 ∨ k.val = 19 then (1 : ℝ) else 0) := by
    refine ⟨?_, ?_, fun _ h => absurd (show (3 : Nat) = 1 from h) (by decide), fun i h0 h1 h2 j hj k hk => ?_⟩
    · funext j
      fin_cases j <;> rfl
    · funext j
      fin_cases j <;> rfl
    · rw [owns_iff (indexingErrors_eq_zero.2 poseDef_ok.1)] at hk
      have key : ∀ j : Fin (coreDef poseAux).length, j.val ≠ 0 → j.val ≠ 7 →
          ∀ k : Fin (total errLen (coreDef poseAux)),
            offset errLen (coreDef poseAux) j ≤ k ∧ k < offset errLen (coreDef poseAux) j +
              errLen ((coreDef poseAux).get j) → ¬ (k.val = 0 ∨ k.val = 19) := by
        decide +kernel
      exact if_neg (key j (hj ▸ h0) (hj ▸ h1) k hk)
  refine ⟨_, hs, C119_pose_violated poseIx (scaleState 2) ⟨0, Quat.one, 1⟩ PosDef.one poseDef_ok.1
    posePlain (scaleState_unit 2) _ (scaleState_view 2) poseIx_distinct (by rw [one_predAtt]; exact one_att) one_yaw _ _ hs ?_⟩
  intro h
  have := congrFun h 0
  rw [one_toRot, smul_mulVec, one_mulVec] at this
  norm_num at this

/-! ### Whole runs -/

/-- A pose reading that fixes scale and alignment of the camera frame but not its origin, without
outlier test, or a pressure reading; with valid noise. -/
def Reading.Floating (ix : PoseIdx) (bp : Nat) : Reading → Prop
  | .pose ix' fixed en _ z => ix' = ix ∧ fixed.testBit ix.L = true ∧ fixed.testBit ix.qwv = true ∧
      fixed.testBit ix.pwv = false ∧ en = false ∧ z.R_.PosSemidef
  | .pressure bp' _ _ _ _ => bp' = bp
  | _ => False

/-- Sensors whose messages are turned into readings by `rd`. -/
noncomputable def readingFeed {M : Type} (rd : M → Reading) (m : M) : SensorMeas (coreDef aux) :=
  (rd m).meas

theorem floating_plain {M : Type} {rd : M → Reading} {ix : PoseIdx} {bp : Nat}
    (h : ∀ m, (rd m).Floating ix bp) : PlainFeed (readingFeed (aux := aux) rd) := by
  intro m
  have hm := h m
  unfold readingFeed
  cases hr : rd m with
  | pose ix' fixed en thr z => rw [hr] at hm; exact .inr hm.2.2.2.2.1
  | pressure => exact .inl rfl
  | _ => rw [hr] at hm; exact hm.elim

theorem Reading.Floating.psd {ix : PoseIdx} {bp : Nat} {m : Reading} (h : m.Floating ix bp) :
    (m.meas (aux := aux)).R.PosSemidef := by
  cases m with
  | pose ix' fixed en thr z => exact h.2.2.2.2.2
  | pressure bp' en thr z n => exact PosSemidef.diagonal fun _ => mul_self_nonneg _
  | _ => exact h.elim

theorem Reading.Floating.spares {ix : PoseIdx} {bp : Nat} (hd : ix.Distinct) {m : Reading}
    (h : m.Floating ix bp) {i : Nat} (hi : i = ix.L ∨ i = ix.qwv) (hb : bp ≠ i) : m.Spares i := by
  cases m with
  | pose ix' fixed en thr z =>
    obtain ⟨rfl, h1, h2, -⟩ := h
    refine ⟨hd, fun _ => ?_⟩
    rcases hi with rfl | rfl
    · exact h1
    · exact h2
  | pressure bp' en thr z n =>
    have : bp' = bp := h
    subst this
    exact hb
  | _ => exact h.elim

/-- The outcome of the update without the fuzzy check. -/
theorem uncheckedUpdate_cases {uc : UserCalc (coreDef aux)} {m : SensorMeas (coreDef aux)}
    {x : Values (coreDef aux)} {P : ErrMat ℝ (coreDef aux)} {o}
    (h : uncheckedUpdate uc m x P = some o) :
    ∃ P1 H r, clearFixed m.fixed m.cleared P = some P1 ∧ m.H (toVars x) = some H ∧
      m.r (toVars x) = some r ∧ ((o.1 = x ∧ o.2.1 = P1) ∨
        ∃ c s, calculateCorrection m.enable m.thr P1 H r m.R = some (some (c, o.2.1)) ∧
          correct (toVars x) (if uc.fixedBias then zeroBias (uc.augment c) else uc.augment c) = some s ∧
          o.1 = values (uc.sanity s (toVars x)
            (if uc.fixedBias then zeroBias (uc.augment c) else uc.augment c))) := by
  unfold uncheckedUpdate at h
  simp only [Option.bind_eq_bind] at h
  obtain ⟨P1, hP1, h⟩ := Option.bind_eq_some_iff.1 h
  obtain ⟨H, hH, h⟩ := Option.bind_eq_some_iff.1 h
  obtain ⟨r, hr, h⟩ := Option.bind_eq_some_iff.1 h
  obtain ⟨o', ho, h⟩ := Option.bind_eq_some_iff.1 h
  refine ⟨P1, H, r, hP1, hH, hr, ?_⟩
  cases o' with
  | none => cases h; exact .inl ⟨rfl, rfl⟩
  | some cp =>
    obtain ⟨s, hs, h⟩ := Option.bind_eq_some_iff.1 h
    cases h
    exact .inr ⟨cp.1, s, ho, hs, rfl⟩

/-- The state has unit quaternions, scale one and an aligned camera frame. -/
def AlignedState (ix : PoseIdx) (v : Values (coreDef aux)) : Prop :=
  UnitQuats (toVars v) ∧ getVec (toVars v) ix.L 1 = some (fun _ => 1) ∧
    getQuat (toVars v) ix.qwv = some Quat.one

/-- What is known about a covariance: the lower bound along `δ`, no correlation of fixed states. -/
def FloatingCov (ix : PoseIdx) (c : ℝ) (δ : Fin (total errLen (coreDef aux)) → ℝ)
    (P : ErrMat ℝ (coreDef aux)) : Prop :=
  Floor c δ P ∧ (∀ h, Uncorrelated ⟨ix.L, h⟩ P) ∧ ∀ h, Uncorrelated ⟨ix.qwv, h⟩ P

theorem AlignedState.keep {ix : PoseIdx} {x y : Values (coreDef aux)} (h : AlignedState ix x)
    (hu : UnitQuats (toVars y)) (h1 : Keeps ix.L (toVars x) (toVars y))
    (h2 : Keeps ix.qwv (toVars x) (toVars y)) : AlignedState ix y :=
  ⟨hu, h1.1 _ _ h.2.1, h2.2 _ h.2.2⟩

section run
variable {ix : PoseIdx} {bp : Nat} {d : V3 ℝ} {δ : Fin (total errLen (coreDef aux)) → ℝ}
  {ok ok' : Vars ℝ (coreDef aux) → Prop}

theorem floating_blind (ho : Ordered aux) (hd : ix.Distinct)
    (hbp : bp ∉ [2, ix.L, ix.qic, ix.pic, ix.qwv]) (hδ : IsShift ix.pwv bp d δ) {m : Reading}
    (hm : m.Floating ix bp) {x : Values (coreDef aux)} (hx : AlignedState ix x) {H r}
    (hH : (m.meas (aux := aux)).H (toVars x) = some H) (hr : (m.meas (aux := aux)).r (toVars x) = some r) :
    H *ᵥ δ = 0 := by
  cases m with
  | pose ix' fixed en thr z =>
    obtain ⟨rfl, -, -, hf, -⟩ := hm
    have hr' : (poseView ix' (toVars x)).bind (fun v => v.residual z.z_p z.z_q) = some r := hr
    obtain ⟨v, hv, -⟩ := Option.bind_eq_some_iff.1 hr'
    obtain ⟨H', hH', e⟩ := poseH_shift ho hv hd hbp hf hδ
    obtain ⟨-, -, rL, -, -, rqwv, -⟩ := poseView_reads hv
    obtain rfl := Option.some.inj ((show poseH ix' fixed (toVars x) = some H from hH).symm.trans hH')
    have hL : v.L = 1 := congrFun (Option.some.inj (rL.symm.trans hx.2.1)) 0
    have hq : v.qwv = Quat.one := Option.some.inj (rqwv.symm.trans hx.2.2)
    refine (show H *ᵥ δ = _ from e).trans ?_
    rw [hL, hq, one_toRot, one_smul, sub_self, zero_mulVec]
    change (pad 0 (0 : V3 ℝ) : Fin 7 → ℝ) = 0
    funext j
    simp [pad]
  | pressure bp' en thr z n =>
    have : bp' = bp := hm
    subst this
    have hr' : pressureResidual bp' z (toVars x) = some r := hr
    unfold pressureResidual at hr'
    simp only [Option.bind_eq_bind] at hr'
    obtain ⟨b, hb, -⟩ := Option.bind_eq_some_iff.1 hr'
    obtain ⟨H', hH', e⟩ := pressureH_mulVec bp' (toVars x) b ho hb
    obtain rfl := Option.some.inj ((show pressureH bp' = some H from hH).symm.trans hH')
    obtain ⟨hlt, -⟩ := getVec_kind _ hb
    refine (show H *ᵥ δ = _ from e δ).trans ?_
    rw [hδ.vehicle, hδ.zero hlt (errLen_vec hb hlt), sub_self]
    rfl
  | _ => exact hm.elim

theorem floating_update (ho : Ordered aux) (hp : PlainVars (coreDef aux)) {uc : UserCalc (coreDef aux)}
    (hd : ix.Distinct) (h5 : 5 ≤ ix.L ∧ 5 ≤ ix.qwv) (hic : 5 ≤ ix.qic ∧ 5 ≤ ix.pic)
    (hbp : bp ∉ [2, ix.L, ix.qic, ix.pic, ix.qwv])
    (hδ : IsShift ix.pwv bp d δ)
    (hL : uc.Keeping ok ix.L) (hq : uc.Keeping ok' ix.qwv)
    (hok : ∀ v, AlignedState ix v → ok (toVars v) ∧ ok' (toVars v)) {c : ℝ} {m : Reading} (hm : m.Floating ix bp)
    {x : Values (coreDef aux)} {P : ErrMat ℝ (coreDef aux)} {o} (hx : AlignedState ix x)
    (hP : FloatingCov ix c δ P) (h : uncheckedUpdate uc (m.meas (aux := aux)) x P = some o) :
    AlignedState ix o.1 ∧ FloatingCov ix c δ o.2.1 := by
  obtain ⟨P1, H, r, h1, h2, h3, h4⟩ := uncheckedUpdate_cases h
  simp only [List.mem_cons, List.not_mem_nil, or_false, not_or] at hbp
  have sL := hm.spares hd (i := ix.L) (.inl rfl) hbp.2.1
  have sq := hm.spares hd (i := ix.qwv) (.inr rfl) hbp.2.2.2.2
  have lL : ix.L < (coreDef aux).length := by
    have := hx.2.1
    obtain ⟨l, -⟩ := getVec_kind _ this
    exact l
  have lq : ix.qwv < (coreDef aux).length := by
    obtain ⟨l, -⟩ := getQuat_kind _ hx.2.2
    exact l
  obtain ⟨hcl, cL⟩ := sL.column ho (i := ⟨ix.L, lL⟩) h5.1 h2 h3
  obtain ⟨-, cq⟩ := sq.column ho (i := ⟨ix.qwv, lq⟩) h5.2 h2 h3
  have u1 := clearFixed_uncorrelated ho hcl h1 ⟨ix.L, lL⟩ (.inl (hP.2.1 lL))
  have u2 := clearFixed_uncorrelated ho hcl h1 ⟨ix.qwv, lq⟩ (.inl (hP.2.2 lq))
  have hF : Floor c δ P1 := by
    refine Floor.clear ho _ _ (fun i hi hb hlt k hk => ?_) P P1 hP.1 h1
    cases m with
    | pose ix' fixed en thr z =>
      obtain ⟨rfl, -, -, hf, -⟩ := hm
      have hmem := mem_clearOrder.1 (show i ∈ ix'.clearOrder from hi)
      have hne : i ≠ ix'.pwv := by
        rintro rfl
        have hb' : fixed.testBit ix'.pwv = true := hb
        rw [hf] at hb'
        cases hb'
      simp only [List.mem_cons, List.not_mem_nil, or_false] at hmem
      have h0 : i ≠ 0 := by
        rintro rfl
        rcases hmem with e | e | e | e | e
        · exact absurd (e ▸ h5.1) (by omega)
        · exact absurd (e ▸ hic.1) (by omega)
        · exact absurd (e ▸ hic.2) (by omega)
        · exact absurd (e ▸ h5.2) (by omega)
        · exact hne e
      have h1 : i ≠ bp := by
        rintro rfl
        rcases hmem with e | e | e | e | e
        · exact hbp.2.1 e
        · exact hbp.2.2.1 e
        · exact hbp.2.2.2.1 e
        · exact hbp.2.2.2.2 e
        · exact hne e
      exact hδ.rest i h0 hne h1 ⟨i, hlt⟩ rfl k hk
    | pressure => cases hi
    | _ => exact hm.elim
  rcases h4 with ⟨e1, e2⟩ | ⟨cc, s, e1, e2, e3⟩
  · rw [e1, e2]
    exact ⟨hx, hF, fun _ => u1, fun _ => u2⟩
  · have hbl := floating_blind ho hd (by simp only [List.mem_cons, List.not_mem_nil, or_false, not_or]; exact hbp)
      hδ hm hx h2 h3
    have hz : ∀ i : Fin (coreDef aux).length, Uncorrelated i P1 →
        (∀ a k, Owns (coreDef aux) i k → H a k = 0) → ∀ k, Owns (coreDef aux) i k →
        (if uc.fixedBias then zeroBias (uc.augment cc) else uc.augment cc) k = 0 := by
      intro i hu hc k hk
      have := correction_zero _ i (fun r c hr hc => (hu r c hr hc).1) H hc _ _ _ _ _ _ e1 k hk
      rw [hL.augment]
      split
      · simp only [zeroBias, id]
        split
        · rfl
        · split
          · rfl
          · exact this
      · exact this
    have k1 := correct_keeps (toVars x) s _ ho hp hx.1 ⟨ix.L, lL⟩ (hz _ u1 cL) e2
    have k2 := correct_keeps (toVars x) s _ ho hp hx.1 ⟨ix.qwv, lq⟩ (hz _ u2 cq) e2
    have hu := C33_corrected_unit (toVars x) s _ ho hp.quats hx.1 e2
    refine ⟨?_, hF.update hm.psd hbl e1, fun _ => update_uncorrelated u1 cL e1,
      fun _ => update_uncorrelated u2 cq e1⟩
    rw [e3]
    exact hx.keep (hL.unit _ _ _ hu) (hL.sanity _ _ _ (hok x hx).1 k1)
      (hq.sanity _ _ _ (hok x hx).2 k2)

/-- **C119, whole runs, partial.**  A filter with pose and pressure sensors whose scale is fixed to one
and whose camera frame is fixed to be aligned with the world: whatever readings arrive, in whatever
order and however late, no buffered state is ever more certain about a common shift of vehicle, camera
frame and pressure zero point than the initial covariance.  The variance of every linear function of
the error stays above what the initial covariance gives for its slope along the shift.
Missing: other scales and alignments (`C119_pose_violated`), noise of the gyro and of the biases
(C29), runs in which the fuzzy check is active. -/
theorem C119_run_partial {M : Type} (rd : M → Reading) (hM : ∀ m, (rd m).Floating ix bp) (ho : Ordered aux) (hp : PlainVars (coreDef aux)) (ha : ∀ d ∈ aux, d.isAux)
    (hD : CheckCompiles (coreDef aux)) (np : NoiseParams ℝ (coreDef aux)) (uc : UserCalc (coreDef aux))
    (hg : np.gyr = 0 ∧ np.gyrBias = 0) (hb : np.accBias = 0)
    (haux : ∀ s dt i, ((coreDef aux).get i).isAux → (np.qAux s dt i).Q.PosSemidef)
    (hd : ix.Distinct) (h5 : 5 ≤ ix.L ∧ 5 ≤ ix.qwv ∧ 5 ≤ ix.pwv ∧ 5 ≤ bp)
    (hic : 5 ≤ ix.qic ∧ 5 ≤ ix.pic)
    (hbp : bp ∉ [ix.L, ix.qic, ix.pic, ix.qwv, ix.pwv]) (hδ : IsShift ix.pwv bp d δ)
    (hL : uc.Keeping ok ix.L) (hq : uc.Keeping ok' ix.qwv)
    (hok : ∀ v, AlignedState ix v → ok (toVars v) ∧ ok' (toVars v))
    (s1 s2 : Nat → List ℚ → Bool)
    (c c' : Core (V3 ℝ) (V3 ℝ) (Option (Values (coreDef aux))) (Option (ErrMat ℝ (coreDef aux)))
      M (Tracker ℝ)) (t : ℚ) (ht : 0 < t) (u0 : Input (V3 ℝ) (V3 ℝ))
    (v0 : Values (coreDef aux)) (hv0 : AlignedState ix v0) (P0 : ErrMat ℝ (coreDef aux))
    (hP0 : P0.PosDef) (hun : ∀ i : Fin (coreDef aux).length, i.val = ix.L ∨ i.val = ix.qwv →
      Uncorrelated i P0)
    (ops : List (Op (V3 ℝ) (V3 ℝ) M))
    (hops : (startLog t u0 c.lastAmImu).okRun (fedKernel np uc (readingFeed rd)).spike
      (fun m => !(readingFeed (aux := aux) rd m).enable) ops)
    (hrun : Core.calls ⟨.gnu s1, .gnu s2⟩ (fedKernel np uc (readingFeed rd))
      (c.init (fedKernel np uc (readingFeed rd)) t ⟨u0, some v0, some P0⟩) ops = .ok c')
    (hquiet : Core.QuietRun ⟨.gnu s1, .gnu s2⟩ (fedKernel np uc (readingFeed rd))
      (c.init (fedKernel np uc (readingFeed rd)) t ⟨u0, some v0, some P0⟩) ops)
    (n) (hn : n ∈ c'.states.nodes) (P : ErrMat ℝ (coreDef aux)) (hP : n.val.P = some P)
    (u : Fin (total errLen (coreDef aux)) → ℝ) :
    (u ⬝ᵥ δ) ^ 2 ≤ infoAlong P0 δ * (u ⬝ᵥ (P *ᵥ u)) := by
  have hbp' : bp ∉ [2, ix.L, ix.qic, ix.pic, ix.qwv] := by
    simp only [List.mem_cons, List.not_mem_nil, or_false, not_or] at hbp ⊢
    exact ⟨by omega, hbp.1, hbp.2.1, hbp.2.2.1, hbp.2.2.2.1⟩
  have hstand : Standing δ := by
    intro k h3 h15
    have hie := indexingErrors_eq_zero.2 ho
    have h : ∀ i (hi : i < (coreDef aux).length), 0 < i → i < 5 → Owns (coreDef aux) ⟨i, hi⟩ k → δ k = 0 := by
      intro i hi h0 hi5 hk
      exact hδ.rest i (by omega) (by omega) (by omega) ⟨i, hi⟩ rfl k hk
    have hlen : ∀ i, i < 5 → i < (coreDef aux).length := by
      intro i hi
      simp [coreDef, coreDescs]
      omega
    have hown : ∀ i (hi : i < 5), 3 * i ≤ k.val → k.val < 3 * i + 3 →
        Owns (coreDef aux) ⟨i, hlen i hi⟩ k := by
      intro i hi a b
      rw [owns_iff hie]
      interval_cases i
      · exact ⟨a, b⟩
      · exact ⟨a, b⟩
      · exact ⟨a, b⟩
      · exact ⟨a, b⟩
      · exact ⟨a, b⟩
    exact h (k / 3) (hlen _ (by omega)) (by omega) (by omega) (hown _ (by omega) (by omega) (by omega))
  set a := infoAlong P0 δ with hadef
  have ha0 : 0 ≤ a := by
    have := hP0.inv.posSemidef.dotProduct_mulVec_nonneg δ
    rwa [star_trivial] at this
  have hP0f : Floor (1 / a) δ P0 := by
    refine floor_of_inverse hP0 (by positivity) ?_
    change 1 / a * a ≤ 1
    by_cases h : a = 0
    · rw [h]; norm_num
    · rw [one_div, inv_mul_cancel₀ h]
  obtain ⟨old, kept, e1, e2, -, -⟩ := C09_without_fuzzy_states hD np uc (readingFeed rd)
    (floating_plain hM) s1 s2 c t ht _ ops hops c' hrun hquiet
  let J : Option (Values (coreDef aux)) → Option (ErrMat ℝ (coreDef aux)) → Prop := fun x P =>
    (∀ v, x = some v → AlignedState ix v) ∧ ∀ Q, P = some Q → FloatingCov ix (1 / a) δ Q
  have key := batch_joint (K := uncheckedKernel np uc (readingFeed rd)) (J := J) ?_ ?_ (some v0)
    (some P0) ⟨fun v hv => Option.some.inj hv ▸ hv0, fun Q hQ => Option.some.inj hQ ▸
      ⟨hP0f, fun h => hun _ (.inl rfl), fun h => hun _ (.inr rfl)⟩⟩
    ((startLog t u0 c.lastAmImu).run (fedKernel np uc (readingFeed rd)).spike ops)
  · have hmem : (n.key, n.val) ∈ batch (uncheckedKernel np uc (readingFeed rd)) (some v0) (some P0)
        ((startLog t u0 c.lastAmImu).run (fedKernel np uc (readingFeed rd)).spike ops) := by
      rw [show batch _ _ _ _ = old ++ kept from e1]
      refine List.mem_append_right _ ?_
      rw [← e2]
      exact List.mem_map.2 ⟨n, hn, rfl⟩
    have hf := ((key _ hmem).2 P hP).1
    have hb := hf.bound u
    by_cases h : a = 0
    · have hδ0 : δ = 0 := by
        by_contra hne
        have := hP0.inv.dotProduct_mulVec_pos hne
        rw [star_trivial] at this
        exact absurd h this.ne'
      rw [h, hδ0, dotProduct_zero]
      norm_num
    · rw [one_div, inv_mul_le_iff₀ (lt_of_le_of_ne ha0 (Ne.symm h))] at hb
      exact hb
  · intro dt u x P u' hdt hJ
    have hx : ∀ v, (uncheckedKernel np uc (readingFeed rd)).prop dt u x u' = some v →
        AlignedState ix v := by
      intro v hv
      simp only [uncheckedKernel, sensorKernel, filterKernel, Option.bind_eq_bind] at hv
      obtain ⟨y, hy, hv1⟩ := Option.bind_eq_some_iff.1 hv
      obtain ⟨s, hs, hv2⟩ := Option.bind_eq_some_iff.1 hv1
      rw [← Option.some.inj hv2]
      have hyA := hJ.1 y hy
      obtain ⟨k1, un⟩ := propagate_keeps (s := mkState (toVars y) u 0 0) ha hyA.1 hs h5.1
      obtain ⟨k2, -⟩ := propagate_keeps (s := mkState (toVars y) u 0 0) ha hyA.1 hs h5.2.1
      exact hyA.keep un k1 k2
    refine ⟨hx, fun Q hQ => ?_⟩
    simp only [uncheckedKernel, sensorKernel, filterKernel, Option.bind_eq_bind] at hQ
    obtain ⟨P', hP', hv1⟩ := Option.bind_eq_some_iff.1 hQ
    obtain ⟨y, hy, hv2⟩ := Option.bind_eq_some_iff.1 hv1
    obtain ⟨r, hr, hv3⟩ := Option.bind_eq_some_iff.1 hv2
    rw [← Option.some.inj hv3]
    have hyA := hx y hy
    obtain ⟨f1, f2, f3⟩ := hJ.2 P' hP'
    exact ⟨f1.predict ho np hg hb haux (by exact_mod_cast hdt) hstand hyA.1 hr,
      fun h => predict_uncorrelated ho np _ h5.1 (f2 h) hr,
      fun h => predict_uncorrelated ho np _ h5.2.1 (f3 h) hr⟩
  · intro m x P hJ
    cases x with
    | none => exact ⟨nofun, nofun⟩
    | some x =>
      cases P with
      | none => exact ⟨nofun, nofun⟩
      | some P =>
        have hform : (uncheckedKernel np uc (readingFeed rd)).update
            (uncheckedKernel np uc (readingFeed rd)).tr0 m (some x) (some P) =
            unchecked np uc (uncheckedKernel np uc (readingFeed rd)).tr0
              (readingFeed (aux := aux) rd m) (some x) (some P) := rfl
        rw [hform]
        simp only [unchecked]
        cases hs : uncheckedUpdate uc (readingFeed (aux := aux) rd m) x P with
        | none => exact ⟨nofun, nofun⟩
        | some o =>
          obtain ⟨g1, g2⟩ := floating_update ho hp hd ⟨h5.1, h5.2.1⟩ hic hbp' hδ hL hq hok (hM m) (hJ.1 x rfl) (hJ.2 P rfl) hs
          exact ⟨fun _ h => Option.some.inj h ▸ g1, fun _ h => Option.some.inj h ▸ g2⟩

end run

/-- Lifting vehicle, camera frame and pressure zero point by `a`, for the pose-pressure filter. -/
def liftDir (a : ℝ) : Fin (total errLen (coreDef posePressureAux)) → ℝ := fun k =>
  if k.val = 2 ∨ k.val = 21 ∨ k.val = 28 then a else 0

theorem liftDir_shift (a : ℝ) : IsShift poseIx.pwv 10 ![0, 0, a] (liftDir a) := by
  refine ⟨?_, ?_, fun _ _ => ?_, fun i h0 h1 h2 j hj k hk => ?_⟩
  · funext j
    fin_cases j <;> rfl
  · funext j
    fin_cases j <;> rfl
  · rfl
  · rw [owns_iff (indexingErrors_eq_zero.2 posePressureDef_ok.1)] at hk
    have key : ∀ j : Fin (coreDef posePressureAux).length, j.val ≠ 0 → j.val ≠ 7 → j.val ≠ 10 →
        ∀ k : Fin (total errLen (coreDef posePressureAux)),
          offset errLen (coreDef posePressureAux) j ≤ k ∧ k < offset errLen (coreDef posePressureAux) j +
            errLen ((coreDef posePressureAux).get j) → ¬ (k.val = 2 ∨ k.val = 21 ∨ k.val = 28) := by
      decide +kernel
    exact if_neg (key j (hj ▸ h0) (hj ▸ h1) (hj ▸ h2) k hk)

/-- The blank state with scale one. -/
noncomputable def levelState : Values (coreDef posePressureAux) :=
  values (Function.update (blankState posePressureAux 0 0 0).vars ⟨5, by decide⟩ ⟨fun _ => 1, 0, false⟩)

theorem levelState_aligned : AlignedState poseIx levelState := by
  refine ⟨fun i q hq => ?_, rfl, rfl⟩
  by_cases h : i = ⟨5, by decide⟩
  · subst h
    simp only [levelState, toVars, values, Function.update_self] at hq
    cases hq
  · simp only [levelState, toVars, values] at hq
    rw [Function.update_of_ne h] at hq
    exact blank_unitQuats posePressureAux 0 0 0 i q hq

/-- Poses that fix scale and alignment and pressures, with unit noise and without outlier test. -/
noncomputable def levelReading : V3 ℝ × Quat ℝ ⊕ ℝ → Reading
  | .inl z => .pose poseIx 96 false 100 ⟨z.1, z.2, 1⟩
  | .inr z => .pressure 10 false 100 z 1

theorem levelReading_floating (m : V3 ℝ × Quat ℝ ⊕ ℝ) : (levelReading m).Floating poseIx 10 := by
  cases m with
  | inl z => exact ⟨rfl, by decide, by decide, by decide, rfl, PosSemidef.one⟩
  | inr z => rfl

theorem levelReading_enable (m : V3 ℝ × Quat ℝ ⊕ ℝ) :
    (readingFeed (aux := posePressureAux) levelReading m).enable = false := by
  cases m <;> rfl

/-- Four IMU readings, then a pressure and a late pose. -/
noncomputable def floatingRun (z : V3 ℝ) (q : Quat ℝ) (p : ℝ) :
    List (Op (V3 ℝ) (V3 ℝ) (V3 ℝ × Quat ℝ ⊕ ℝ)) :=
  [.imu (101/100) ⟨![0, 0, 10], 0⟩, .imu (102/100) ⟨![0, 1, 10], 0⟩,
   .imu (103/100) ⟨![0, 0, 9], ![0, 0, 1]⟩, .imu (104/100) ⟨![0, 0, 9], ![0, 0, 1]⟩,
   .meas ⟨1035/1000, 0, .inr p⟩, .meas ⟨1025/1000, 0, .inl (z, q)⟩]

theorem floatingRun_ok (np : NoiseParams ℝ (coreDef posePressureAux))
    (uc : UserCalc (coreDef posePressureAux)) (z : V3 ℝ) (q : Quat ℝ) (p : ℝ) :
    (startLog 1 ⟨![0, 0, 10], 0⟩ 0).okRun (fedKernel np uc (readingFeed levelReading)).spike
      (fun m => !(readingFeed (aux := posePressureAux) levelReading m).enable) (floatingRun z q p) := by
  have h1 : (fedKernel np uc (readingFeed levelReading)).spike ![0, 0, 10] = false ∧
      (fedKernel np uc (readingFeed levelReading)).spike ![0, 1, 10] = false ∧
      (fedKernel np uc (readingFeed levelReading)).spike ![0, 0, 9] = false := by
    refine ⟨?_, ?_, ?_⟩ <;> simp [fedKernel, sensorKernel, filterKernel, sqNorm3] <;> norm_num
  obtain ⟨h1, h2, h3⟩ := h1
  have h4 := levelReading_enable
  simp [floatingRun, Log.okRun, Log.ok, startLog, Log.step, Log.addImu, h1, h2, h3, h4, Log.newest,
    Log.stamps, Log.fresh, Log.start, Log.pop]
  norm_num [Log.deliver, Log.stamps, Log.start, Log.newest, abs_lt, lt_abs]

/-- Non-vacuity: the run above of the pose-pressure filter meets all hypotheses, whatever the
readings.  In particular the variance of the height stays at least a third of its initial value. -/
example (z : V3 ℝ) (q : Quat ℝ) (p : ℝ) (s1 s2 : Nat → List ℚ → Bool) :
    let K := fedKernel (accNoise posePressureAux) (scaleCalc false) (readingFeed levelReading)
    ∃ c', Core.calls ⟨.gnu s1, .gnu s2⟩ K
        ((Core.new K).init K 1 ⟨⟨![0, 0, 10], 0⟩, some levelState, some 1⟩) (floatingRun z q p) = .ok c' ∧
      c'.states.nodes ≠ [] ∧ ∀ nd ∈ c'.states.nodes, ∀ P, nd.val.P = some P →
        (1 : ℝ) / 3 ≤ P ⟨2, by decide⟩ ⟨2, by decide⟩ := by
  intro K
  obtain ⟨c', e, -, kept, -, hk, hne, -⟩ := C09_times_any_numerics K
    (fedKernel_allApplied (accNoise posePressureAux) (scaleCalc false) levelReading_enable)
    (fun m => !(readingFeed (aux := posePressureAux) levelReading m).enable) s1 s2 (Core.new K) 1
    (by norm_num) ⟨⟨![0, 0, 10], 0⟩, some levelState, some 1⟩ _
    (floatingRun_ok (accNoise posePressureAux) (scaleCalc false) z q p)
  have hq := C40_no_early_alarm (accNoise posePressureAux) (scaleCalc false) (readingFeed levelReading)
    ⟨.gnu s1, .gnu s2⟩ (Core.new K) rfl 1 ⟨⟨![0, 0, 10], 0⟩, some levelState, some 1⟩
    (floatingRun z q p) (by simp [floatingRun, measOps])
  refine ⟨c', e, ?_, fun nd hnd P hP => ?_⟩
  · intro h0
    rw [h0] at hk
    exact hne hk.symm
  · have key := C119_run_partial levelReading levelReading_floating posePressureDef_ok.1 posePressureDef_ok.2 (by decide)
      shipped_checkCompiles.2.1 (accNoise posePressureAux) (scaleCalc false) ⟨rfl, rfl⟩ rfl
      (fun _ _ _ _ => PosSemidef.zero) (ix := poseIx) (bp := 10) poseIx_distinct (by decide) (by decide)
      (by decide) (liftDir_shift 1) (scaleCalc_keeping false 5) (scaleCalc_keeping false 6)
      (fun v hv => ⟨fun _ => ?_, fun h => by cases h⟩) s1 s2 (Core.new K) c' 1 (by norm_num) _ levelState
      levelState_aligned 1 PosDef.one (fun i _ => ?_) _
      (floatingRun_ok (accNoise posePressureAux) (scaleCalc false) z q p) e hq nd hnd P hP
      (Pi.single ⟨2, by decide⟩ 1)
    · have h1 : infoAlong (1 : ErrMat ℝ (coreDef posePressureAux)) (liftDir 1) = 3 := by
        unfold infoAlong
        rw [inv_one, one_mulVec]
        have : ∀ k, liftDir 1 k * liftDir 1 k =
            if k.val = 2 ∨ k.val = 21 ∨ k.val = 28 then (1 : ℝ) else 0 := by
          intro k
          unfold liftDir
          split <;> norm_num
        simp only [dotProduct, this]
        rw [Finset.sum_ite, Finset.sum_const_zero, add_zero, Finset.sum_const]
        have hc : (Finset.univ.filter fun k : Fin (total errLen (coreDef posePressureAux)) =>
            k.val = 2 ∨ k.val = 21 ∨ k.val = 28).card = 3 := by decide +kernel
        rw [hc]
        norm_num
      rw [h1, single_dotProduct, single_dotProduct, mulVec_single_one, one_mul, one_mul] at key
      have h2 : liftDir 1 ⟨2, by decide⟩ = 1 := rfl
      rw [h2] at key
      have h3 : P.col ⟨2, by decide⟩ ⟨2, by decide⟩ = P ⟨2, by decide⟩ ⟨2, by decide⟩ := rfl
      rw [h3] at key
      linarith
    · have h1 := hv.2.1
      have e := scaleOf_eq (toVars v)
      unfold scaleOf at e
      have e2 := (congrArg (Option.map fun x : Fin 1 → ℝ => x 0) h1).symm.trans e
      exact (Option.some.inj e2) ▸ zero_le_one
    · intro r k hr hk
      have hne : r ≠ k := fun h => hk (h ▸ hr)
      exact ⟨one_apply_ne hne, one_apply_ne hne.symm⟩

/-- Non-vacuity of `C119_pressure`: a pressure reading says nothing about a common lift of vehicle and
zero point; it does about a lift of the vehicle alone. -/
example : ∃ u, sensorUpdate (⟨id, fun s _ _ => s, false⟩ : UserCalc (coreDef posePressureAux))
      ⟨1, fun _ _ => 0⟩ (Reading.pressure 10 false 0 3 2).meas
      (values (blankState posePressureAux 0 0 0).vars) 1 = some u ∧
    infoAlong u.P (liftDir 1) = infoAlong 1 (liftDir 1) ∧
    infoAlong (1 : ErrMat ℝ (coreDef posePressureAux)) (Pi.single ⟨2, by decide⟩ 1) <
      infoAlong u.P (Pi.single ⟨2, by decide⟩ 1) := by
  obtain ⟨o, ho⟩ := pressureUpdates_defined shipped_checkCompiles.2.1
    (⟨id, fun s _ _ => s, false⟩ : UserCalc (coreDef posePressureAux))
    ⟨fun _ => rfl, fun _ _ _ => rfl, rfl⟩ 10 posePressureDef_ok.1 posePressureDef_ok.2 [(3, 2)]
    ⟨1, fun _ _ => 0⟩ (values (blankState posePressureAux 0 0 0).vars) 1 _ (by simp) (by decide) rfl
    (blank_unitQuats posePressureAux 0 0 0) PosDef.one
  simp only [pressureUpdates, List.foldlM_cons, Option.bind_eq_bind] at ho
  obtain ⟨o1, ho1, -⟩ := Option.bind_eq_some_iff.1 ho
  obtain ⟨u, hu, -⟩ := Option.bind_eq_some_iff.1 ho1
  have hua : u.applied = true := by
    obtain ⟨P1, H1, r, -, -, -, h4 | ⟨c, P', t', vars, fz, -, -, rfl⟩⟩ := sensorUpdate_cases hu
    · have := h4.1
      simp only [calculateCorrection] at this
      split at this
      · cases this
      · simp [Reading.meas] at this
    · rfl
  obtain ⟨H, hH, hJ⟩ := C44_pressure 10 (toVars (values (blankState posePressureAux 0 0 0).vars)) _ 3
    posePressureDef_ok.1 posePressureDef_ok.2 (blank_unitQuats posePressureAux 0 0 0) rfl
  obtain ⟨H', hH', hm⟩ := pressureH_mulVec 10 (toVars (values (blankState posePressureAux 0 0 0).vars)) _
    posePressureDef_ok.1 rfl
  obtain rfl := Option.some.inj (hH.symm.trans hH')
  have key := fun δ => C119_pressure _ 10 false 0 3 2 two_ne_zero posePressureDef_ok.1 posePressureDef_ok.2 _ _
    (blank_unitQuats posePressureAux 0 0 0) 1 PosDef.one u hu hua δ _ (hJ δ)
  refine ⟨u, hu, (key _).1 ?_, (key _).2 fun h => ?_⟩
  · rw [hm, (liftDir_shift 1).vehicle, (liftDir_shift 1).zero (by decide) rfl, sub_self]
    funext i
    simp
  · rw [hm] at h
    have := congrFun h 0
    have e1 : segOf (D := coreDef posePressureAux) (Pi.single ⟨2, by decide⟩ (1 : ℝ)) 0 3 2 = 1 := by
      change (Pi.single (⟨2, by decide⟩ : Fin (total errLen (coreDef posePressureAux))) (1 : ℝ) :
        Fin (total errLen (coreDef posePressureAux)) → ℝ) ⟨2, by decide⟩ = 1
      exact Pi.single_eq_same _ _
    have e2 : segOf (D := coreDef posePressureAux) (Pi.single ⟨2, by decide⟩ (1 : ℝ)) 10 1 0 = 0 := by
      change (Pi.single (⟨2, by decide⟩ : Fin (total errLen (coreDef posePressureAux))) (1 : ℝ) :
        Fin (total errLen (coreDef posePressureAux)) → ℝ) ⟨28, by decide⟩ = 0
      exact Pi.single_eq_of_ne (by decide) _
    simp [e1, e2] at this

end MSF
