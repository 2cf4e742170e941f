import Verif.Props.Predict
import Verif.Model.Managers

/-!
# Property of the process noise of auxiliary states: C73
-/

namespace MSF

open Matrix EKFState

/-- Predict the covariance through the states of a trajectory. -/
noncomputable def predictAll {aux : List VarDesc} (np : NoiseParams ℝ (coreDef aux)) :
    EKFState ℝ (coreDef aux) → List (EKFState ℝ (coreDef aux)) → Option (EKFState ℝ (coreDef aux))
  | old, [] => some old
  | old, new :: news =>
    match predictProcessCovariance np old new old.time with
    | none => none
    | some (_, new', _) => predictAll np new' news

/-- The states of a trajectory as the filter inserts them: times increase, transition and noise
matrices as constructed. -/
def Fresh {aux : List VarDesc} : ℝ → List (EKFState ℝ (coreDef aux)) → Prop
  | _, [] => True
  | t, s :: l => t < s.time ∧ s.Fd = 1 ∧ s.Qd = 0 ∧ Fresh s.time l

/-- Prediction along such a trajectory always succeeds and ends at its last state. -/
theorem predictAll_defined {aux : List VarDesc} (ho : Ordered aux)
    (np : NoiseParams ℝ (coreDef aux)) (news : List (EKFState ℝ (coreDef aux))) :
    ∀ old : EKFState ℝ (coreDef aux), Fresh old.time news →
      ∃ fin, predictAll np old news = some fin ∧
        fin.time = ((news.getLast?).map EKFState.time).getD old.time := by
  induction news with
  | nil => exact fun old _ => ⟨old, rfl, rfl⟩
  | cons new news ih =>
    intro old hfr
    obtain ⟨Qd, e, -⟩ := predict_apply (indexingErrors_eq_zero.2 ho) np old new old.time
      (by linarith [hfr.1])
    rw [predictAll, e]
    have h : ∀ s : EKFState ℝ (coreDef aux), s.time = new.time →
        ∃ fin, predictAll np s news = some fin ∧
          fin.time = (((new :: news).getLast?).map EKFState.time).getD old.time := by
      intro s hs
      obtain ⟨fin, h1, h2⟩ := ih s (by rw [hs]; exact hfr.2.2.2)
      refine ⟨fin, h1, h2.trans ?_⟩
      rw [List.getLast?_cons]
      cases news.getLast? with
      | none => exact hs
      | some x => rfl
    exact h _ rfl

/-- `F P Fᵀ` in rows and columns where `F` is the identity. -/
theorem congr_identity_entries {n : Nat} (F P : Matrix (Fin n) (Fin n) ℝ) (r c : Fin n)
    (hr : ∀ k, F r k = (1 : Matrix (Fin n) (Fin n) ℝ) r k)
    (hc : ∀ k, F c k = (1 : Matrix (Fin n) (Fin n) ℝ) c k) : (F * P * Fᵀ) r c = P r c := by
  rw [Matrix.mul_apply]
  have h1 : ∀ k, (F * P) r k = P r k := by
    intro k
    rw [Matrix.mul_apply]
    simp only [hr, ← Matrix.mul_apply, Matrix.one_mul]
  simp only [h1, Matrix.transpose_apply, hc]
  simp [Matrix.one_apply]

/-- **C73, any filter.**  If the manager sets the noise block of the auxiliary state `i` to
`dt σ²`, then along every trajectory the covariance block of `i` grows by `σ²` times the elapsed
time, no matter how the IMU readings divide that time, and independently of the motion. -/
theorem C73_rate_partial {aux : List VarDesc} (ho : Ordered aux) (np : NoiseParams ℝ (coreDef aux))
    (i : Fin (coreDef aux).length) (ha : ((coreDef aux).get i).isAux) (σ : ℝ)
    (hσ : ∀ s dt, (np.qAux s dt i).Q = diagonal fun _ => dt * (σ * σ))
    (news : List (EKFState ℝ (coreDef aux))) :
    ∀ (old fin : EKFState ℝ (coreDef aux)), old.Fd = 1 → old.Qd = 0 → Fresh old.time news →
      predictAll np old news = some fin →
      ∀ r c, InVar (coreDef aux) i r → InVar (coreDef aux) i c →
        fin.P r c = old.P r c + if r = c then (fin.time - old.time) * σ ^ 2 else 0 := by
  induction news with
  | nil =>
    intro old fin _ _ _ h r c _ _
    rw [predictAll, Option.some.injEq] at h
    subst h
    simp
  | cons new news ih =>
    intro old fin hF hQ hfr h r c hr hc
    obtain ⟨ht, h1, h2, hfr⟩ := hfr
    have hi := indexingErrors_eq_zero.2 ho
    obtain ⟨Qd, e, hQd⟩ := predict_apply hi np old new old.time (by linarith)
    rw [predictAll, e] at h
    have h' : predictAll np _ news = some fin := h
    rw [ih _ fin (by exact h1) (by exact h2) (by exact hfr) h' r c hr hc]
    simp only [Matrix.add_apply]
    rw [congr_identity_entries, (hQd r c).1 i ha hr hc, hσ, diagonal_apply]
    · have hr1 := hr.1
      have hc1 := hc.1
      by_cases hrc : r = c
      · subst hrc
        simp only [if_true]
        ring
      · have : ¬ (r.val - offset errLen (coreDef aux) i = c.val - offset errLen (coreDef aux) i) := by
          intro hh; apply hrc; ext; omega
        simp [hrc, this]
    · intro k
      rw [hF]
      exact setFd_outside _ (fun _ => rfl) _ _ _ _ _ _ _ (Or.inl (aux_inVar_ge i ha r hr))
    · intro k
      rw [hF]
      exact setFd_outside _ (fun _ => rfl) _ _ _ _ _ _ _ (Or.inl (aux_inVar_ge i ha c hc))

/-- The noise parameter meant for variable `i` of the pose filter. -/
def AuxNoise.pose (n : AuxNoise ℝ) (i : Nat) : ℝ :=
  if i = 5 then n.scale else if i = 6 then n.q_wv else if i = 7 then n.p_wv
  else if i = 8 then n.q_ic else n.p_ic

/-- **C73, pose filter.**  Every auxiliary state of the pose filter becomes more uncertain at the
rate its parameter says. -/
theorem C73_pose (acc accBias gyr gyrBias : ℝ) (n : AuxNoise ℝ)
    (i : Fin (coreDef poseAux).length) (ha : 5 ≤ i.val)
    (old fin : EKFState ℝ (coreDef poseAux)) (news : List (EKFState ℝ (coreDef poseAux)))
    (hF : old.Fd = 1) (hQ : old.Qd = 0) (hfr : Fresh old.time news)
    (h : predictAll ⟨acc, accBias, gyr, gyrBias, poseQAux n⟩ old news = some fin)
    (r c : Fin (total errLen (coreDef poseAux))) (hr : InVar (coreDef poseAux) i r)
    (hc : InVar (coreDef poseAux) i c) :
    fin.P r c = old.P r c + if r = c then (fin.time - old.time) * (n.pose i) ^ 2 else 0 := by
  refine C73_rate_partial ordered_pose _ i ?_ _ ?_ news old fin hF hQ hfr h r c hr hc
  · have : ∀ i : Fin (coreDef poseAux).length, 5 ≤ i.val → ((coreDef poseAux).get i).isAux := by
      decide
    exact this i ha
  · intro s dt
    obtain ⟨i, hi⟩ := i
    have hi' : i < 10 := hi
    simp only at ha
    interval_cases i <;> rfl

theorem ordered_position : Ordered positionAux := by
  intro i hi
  have h : i < 6 := by simpa [coreDef, coreDescs, positionAux] using hi
  interval_cases i <;> rfl

/-- **C73, position and spherical filters.** -/
theorem C73_position (acc accBias gyr gyrBias : ℝ) (n : AuxNoise ℝ)
    (old fin : EKFState ℝ (coreDef positionAux)) (news : List (EKFState ℝ (coreDef positionAux)))
    (hF : old.Fd = 1) (hQ : old.Qd = 0) (hfr : Fresh old.time news)
    (h : predictAll ⟨acc, accBias, gyr, gyrBias, positionQAux n⟩ old news = some fin)
    (r c : Fin (total errLen (coreDef positionAux))) (hr : 15 ≤ r.val) (hc : 15 ≤ c.val) :
    fin.P r c = old.P r c + if r = c then (fin.time - old.time) * n.p_ip ^ 2 else 0 := by
  refine C73_rate_partial ordered_position _ ⟨5, by decide⟩ ⟨by decide, by decide⟩ _ (fun s dt => rfl)
    news old fin hF hQ hfr h r c ⟨hr, ?_⟩ ⟨hc, ?_⟩
  · exact r.2
  · exact c.2

/-! ### The hypotheses can be met -/

/-- One second in two steps of a moving and turning pose filter. -/
noncomputable def noiseTrack : List (EKFState ℝ (coreDef poseAux)) :=
  [demoState (1 / 4) ![1, 2, 4] ![1, 1, 2], demoState 1 ![0, 2, 4] ![1, 1, 3]]

/-- With a noise of 1/2 on the scale, its variance grows from 1 to 5/4 within a second. -/
example : ∃ fin, predictAll ⟨1 / 10, 1 / 100, 1 / 100, 1 / 1000,
      poseQAux ⟨1 / 2, 0, 1, 0, 0, 0, 0⟩⟩ poseOld noiseTrack = some fin ∧
    fin.P ⟨15, by decide⟩ ⟨15, by decide⟩ = 5 / 4 := by
  have t0 : poseOld.time = 0 := rfl
  have hfr : Fresh poseOld.time noiseTrack := by
    refine ⟨?_, rfl, rfl, ?_, rfl, rfl, trivial⟩ <;> norm_num [t0, demoState, blankState]
  obtain ⟨fin, hf, tf⟩ := predictAll_defined ordered_pose _ noiseTrack poseOld hfr
  have tf : fin.time = 1 := tf
  refine ⟨fin, hf, ?_⟩
  rw [C73_pose _ _ _ _ _ ⟨5, by decide⟩ (le_refl 5) poseOld fin noiseTrack rfl rfl hfr hf _ _
    ⟨by decide, by decide⟩ ⟨by decide, by decide⟩, tf, t0]
  simp [poseOld, AuxNoise.pose]
  norm_num

/-! ### Filters that ignore a parameter -/

theorem ordered_posePressure : Ordered posePressureAux := by
  intro i hi
  have h : i < 11 := by simpa [coreDef, coreDescs, poseAux, posePressureAux] using hi
  interval_cases i <;> rfl

theorem ordered_positionPose : Ordered positionPoseAux := by
  intro i hi
  have h : i < 11 := by simpa [coreDef, coreDescs, poseAux, positionPoseAux] using hi
  interval_cases i <;> rfl

/-- The claim for one auxiliary state `i` with parameter `σ n`, for a manager that sets the noise
blocks by `qAux`. -/
def noiseClaim {aux : List VarDesc}
    (qAux : AuxNoise ℝ → Vars ℝ (coreDef aux) → ℝ → Vars ℝ (coreDef aux))
    (i : Fin (coreDef aux).length) (σ : AuxNoise ℝ → ℝ) : Prop :=
  ∀ (n : AuxNoise ℝ) (old new old' new' : EKFState ℝ (coreDef aux)) (t t' : ℝ),
    old.Fd = 1 → old.Qd = 0 → new.Fd = 1 → new.Qd = 0 → (∀ j, (new.vars j).Q = 0) →
    old.time < new.time →
    predictProcessCovariance ⟨1, 1, 1, 1, qAux n⟩ old new t = some (old', new', t') →
    ∀ r, InVar (coreDef aux) i r →
      new'.P r r = old.P r r + (new.time - old.time) * (σ n) ^ 2

/-- A manager that leaves the block of `i` at zero does not meet the claim. -/
theorem noiseClaim_violated {aux : List VarDesc} (ho : Ordered aux)
    (qAux : AuxNoise ℝ → Vars ℝ (coreDef aux) → ℝ → Vars ℝ (coreDef aux))
    (i : Fin (coreDef aux).length) (ha : ((coreDef aux).get i).isAux) (σ : AuxNoise ℝ → ℝ)
    (n : AuxNoise ℝ) (hσ : σ n = 1) (hq : ∀ s dt, (qAux n s dt i).Q = (s i).Q)
    (r : Fin (total errLen (coreDef aux))) (hr : InVar (coreDef aux) i r) :
    ¬ noiseClaim qAux i σ := by
  intro hc
  have hi := indexingErrors_eq_zero.2 ho
  have hdt : ¬ (blankState aux 1 0 0).time - (blankState aux 0 0 0).time ≤ 0 := by
    norm_num [blankState]
  obtain ⟨Qd, e, hQ⟩ := predict_apply hi ⟨1, 1, 1, 1, qAux n⟩ (blankState aux 0 0 0)
    (blankState aux 1 0 0) 0 hdt
  have := hc n _ _ _ _ _ _ rfl rfl rfl rfl (fun j => rfl) (by linarith) e r hr
  simp only [Matrix.add_apply] at this
  rw [congr_identity_entries, (hQ r r).1 i ha hr hr, hσ] at this
  · simp only [hq] at this
    norm_num [blankState] at this
  all_goals
    intro k
    exact setFd_outside _ (fun _ => rfl) _ _ _ _ _ _ _ (Or.inl (aux_inVar_ge i ha r hr))

/-- **C73 is violated by the pose-pressure filter**: its parameter for the process noise of `p_wv`
has no effect. -/
theorem C73_pose_pressure_violated :
    ¬ noiseClaim posePressureQAux ⟨7, by decide⟩ AuxNoise.p_wv :=
  noiseClaim_violated ordered_posePressure _ _ ⟨by decide, by decide⟩ _ ⟨0, 0, 1, 0, 0, 0, 0⟩ rfl
    (fun s dt => rfl) ⟨19, by decide⟩ ⟨by decide, by decide⟩

/-- **C73 is violated by the position-pose filter**: its parameter for the process noise of `p_ip`
has no effect. -/
theorem C73_position_pose_violated :
    ¬ noiseClaim positionPoseQAux ⟨10, by decide⟩ AuxNoise.p_ip :=
  noiseClaim_violated ordered_positionPose _ _ ⟨by decide, by decide⟩ _ ⟨0, 0, 0, 0, 0, 0, 1⟩ rfl
    (fun s dt => rfl) ⟨28, by decide⟩ ⟨by decide, by decide⟩

end MSF
