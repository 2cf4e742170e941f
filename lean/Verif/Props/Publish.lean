import Verif.Model.Publish
import Verif.Props.AuxNoise
import Verif.Props.CovBlocks
import Verif.Props.Layout
import Verif.Props.Runs
import Verif.Props.Similarity

/-!
# C103, C104: the messages about a state
-/

namespace MSF

open Matrix

variable {aux : List VarDesc}

/-- The pose covariance of a message (read as column-major) is the one of the state. -/
def PoseCov (s : EKFState ℝ (coreDef aux)) (cov : Fin 36 → ℝ) : Prop :=
  ∀ r c : Fin 6, ∀ (i j : Fin (total errLen (coreDef aux))),
    i.val = (if r.val < 3 then r.val else r.val + 3) →
    j.val = (if c.val < 3 then c.val else c.val + 3) → cov ⟨6 * c + r, by omega⟩ = s.P i j

/-- What a message says is true of the state `s`. -/
def Content.TrueOf (s : EKFState ℝ (coreDef aux)) : Content ℝ → Prop
  | .pose p q cov => p = EKFState.p s.vars ∧ q = EKFState.q s.vars ∧ PoseCov s cov
  | .odometry p q cov lin ang _ => p = EKFState.p s.vars ∧ q = EKFState.q s.vars ∧ PoseCov s cov ∧
      q.toRot *ᵥ lin = EKFState.v s.vars ∧ ang + EKFState.b_w s.vars = s.w_m
  | .ext p q v => p = EKFState.p s.vars ∧ q = EKFState.q s.vars ∧ v = EKFState.v s.vars
  | .array l => l.take 16 =
      [EKFState.p s.vars 0, EKFState.p s.vars 1, EKFState.p s.vars 2,
       EKFState.v s.vars 0, EKFState.v s.vars 1, EKFState.v s.vars 2,
       (EKFState.q s.vars).w, (EKFState.q s.vars).x, (EKFState.q s.vars).y, (EKFState.q s.vars).z,
       EKFState.b_w s.vars 0, EKFState.b_w s.vars 1, EKFState.b_w s.vars 2,
       EKFState.b_a s.vars 0, EKFState.b_a s.vars 1, EKFState.b_a s.vars 2]
  | .transform p q => p = EKFState.p s.vars ∧ q = EKFState.q s.vars
  | .matrix _ _ _ => True

theorem ifSubscribed_mem {subs : Topic → Bool} {t : Topic} {st : ℝ} {c : Option (Content ℝ)}
    {ms : List (OutMsg ℝ)} (h : ifSubscribed subs t st c = some ms) {m : OutMsg ℝ} (hm : m ∈ ms) :
    ∃ d, c = some d ∧ m = ⟨t, st, d⟩ := by
  unfold ifSubscribed at h
  split at h
  · obtain ⟨d, h1, h2⟩ := Option.map_eq_some_iff.1 h
    rw [← h2] at hm
    exact ⟨d, h1, List.mem_singleton.1 hm⟩
  · rw [← Option.some.inj h] at hm
    cases hm

theorem publishUpdate_mem {subs : Topic → Bool} {now : ℝ} {s : EKFState ℝ (coreDef aux)}
    {ms : List (OutMsg ℝ)} (h : publishUpdate subs now s = some ms) {m : OutMsg ℝ} (hm : m ∈ ms) :
    (∃ l, toFullStateMsg s.vars = some l ∧ m = ⟨.stateOut, s.time, .array l⟩) ∨
    (∃ c, toPoseMsg s = some c ∧ m = ⟨.poseAfterUpdate, s.time, c⟩) ∨
    m = ⟨.tf, now, .transform (EKFState.p s.vars) (EKFState.q s.vars)⟩ ∨
    (∃ d, getCoreCovariance s.P = some d ∧ m = ⟨.covCore, s.time, .matrix d.1 d.2.1 d.2.2⟩) ∨
    (∃ d, getAuxCovariance s.P = some d ∧ m = ⟨.covAux, s.time, .matrix d.1 d.2.1 d.2.2⟩) ∨
    ∃ d, getCoreAuxCovariance s.P = some d ∧
      m = ⟨.covCoreAux, s.time, .matrix d.1 d.2.1 d.2.2⟩ := by
  unfold publishUpdate at h
  simp only [Option.bind_eq_bind] at h
  obtain ⟨l, h1, h⟩ := Option.bind_eq_some_iff.1 h
  obtain ⟨m1, h2, h⟩ := Option.bind_eq_some_iff.1 h
  obtain ⟨m2, h3, h⟩ := Option.bind_eq_some_iff.1 h
  obtain ⟨m3, h4, h⟩ := Option.bind_eq_some_iff.1 h
  obtain ⟨m4, h5, h⟩ := Option.bind_eq_some_iff.1 h
  rw [← Option.some.inj h] at hm
  simp only [List.mem_append, List.mem_cons] at hm
  rcases hm with (((rfl | hm) | rfl | hm) | hm) | hm
  · exact .inl ⟨l, h1, rfl⟩
  · obtain ⟨d, e1, e2⟩ := ifSubscribed_mem h2 hm
    exact .inr (.inl ⟨d, e1, e2⟩)
  · exact .inr (.inr (.inl rfl))
  · obtain ⟨d, e1, e2⟩ := ifSubscribed_mem h3 hm
    obtain ⟨d', e3, rfl⟩ := Option.map_eq_some_iff.1 e1
    exact .inr (.inr (.inr (.inl ⟨d', e3, e2⟩)))
  · obtain ⟨d, e1, e2⟩ := ifSubscribed_mem h4 hm
    obtain ⟨d', e3, rfl⟩ := Option.map_eq_some_iff.1 e1
    exact .inr (.inr (.inr (.inr (.inl ⟨d', e3, e2⟩))))
  · obtain ⟨d, e1, e2⟩ := ifSubscribed_mem h5 hm
    obtain ⟨d', e3, rfl⟩ := Option.map_eq_some_iff.1 e1
    exact .inr (.inr (.inr (.inr (.inr ⟨d', e3, e2⟩))))

theorem publishPropagation_mem {subs : Topic → Bool} {ng : V3 ℝ} {junk : Matrix (Fin 6) (Fin 6) ℝ}
    {s : EKFState ℝ (coreDef aux)} {ms : List (OutMsg ℝ)}
    (h : publishPropagation subs ng junk s = some ms) {m : OutMsg ℝ} (hm : m ∈ ms) :
    (∃ c, toPoseMsg s = some c ∧ m = ⟨.pose, s.time, c⟩) ∨
    (∃ c, toOdometryMsg ng junk s = some c ∧ m = ⟨.odometry, s.time, c⟩) ∨
    m = ⟨.extState, s.time, toExtStateMsg s⟩ := by
  unfold publishPropagation at h
  simp only [Option.bind_eq_bind] at h
  split at h
  · obtain ⟨c1, h1, h⟩ := Option.bind_eq_some_iff.1 h
    obtain ⟨c2, h2, h⟩ := Option.bind_eq_some_iff.1 h
    rw [← Option.some.inj h] at hm
    simp only [List.mem_cons, List.not_mem_nil, or_false] at hm
    rcases hm with rfl | rfl | rfl
    · exact .inl ⟨c1, h1, rfl⟩
    · exact .inr (.inl ⟨c2, h2, rfl⟩)
    · exact .inr (.inr rfl)
  · rw [← Option.some.inj h] at hm
    cases hm

theorem nCore_coreDef (ha : ∀ d ∈ aux, d.isAux) : nCore (coreDef aux) = 15 := by
  have h : total coreErrLen aux = 0 := by
    induction aux with
    | nil => rfl
    | cons d l ih =>
      have h1 := ha d List.mem_cons_self
      have h2 := ih fun d hd => ha d (List.mem_cons_of_mem _ hd)
      have h3 : coreErrLen d = 0 := by
        obtain ⟨k, n, t, o⟩ := d
        cases k <;> cases t <;> simp_all [coreErrLen, VarDesc.isAux]
      rw [total_cons, h2, h3]
  change total coreErrLen (_ :: _ :: _ :: _ :: _ :: aux) = 15
  simp only [total_cons, h]
  rfl

theorem toPoseMsg_true (ho : Ordered aux) {s : EKFState ℝ (coreDef aux)} {c : Content ℝ}
    (h : toPoseMsg s = some c) : c.TrueOf s := by
  obtain ⟨cov, h1, h2⟩ := C39_column_major aux ho s.P 0
  unfold toPoseMsg at h
  simp only [h1, Option.bind_eq_bind, Option.bind_some] at h
  rw [← Option.some.inj h]
  exact ⟨rfl, rfl, h2⟩

theorem inverse_rot {q : Quat ℝ} (h : q.normSq = 1) : q.toRot * q.inverse.toRot = 1 := by
  have : q.inverse = q.conj := by
    simp [Quat.inverse, h, Quat.conj]
  rw [this, toRot_conj]
  exact toRot_orthogonal q h

theorem toOdometryMsg_true (ho : Ordered aux) {s : EKFState ℝ (coreDef aux)}
    (hq : (EKFState.q s.vars).normSq = 1) {ng : V3 ℝ} {junk : Matrix (Fin 6) (Fin 6) ℝ}
    {c : Content ℝ} (h : toOdometryMsg ng junk s = some c) : c.TrueOf s := by
  obtain ⟨cov, h1, h2⟩ := C39_column_major aux ho s.P 0
  unfold toOdometryMsg at h
  simp only [h1, Option.bind_eq_bind, Option.bind_some] at h
  obtain ⟨t, -, h⟩ := Option.bind_eq_some_iff.1 h
  rw [← Option.some.inj h]
  refine ⟨rfl, rfl, h2, ?_, sub_add_cancel _ _⟩
  rw [Matrix.mulVec_mulVec, inverse_rot hq, Matrix.one_mulVec]

theorem toFullStateMsg_true (ho : Ordered aux) {s : EKFState ℝ (coreDef aux)} {l : List ℝ}
    (h : toFullStateMsg s.vars = some l) : (Content.array l).TrueOf s := by
  rw [C37_full_state s.vars ho] at h
  rw [← Option.some.inj h]
  have e : List.finRange (coreDef aux).length = (0 : Fin (aux.length + 5)) :: 1 :: 2 :: 3 :: 4 ::
      ((((((List.finRange aux.length).map Fin.succ).map Fin.succ).map Fin.succ).map Fin.succ).map
        Fin.succ) := by
    change List.finRange (aux.length + 5) = _
    simp only [List.finRange_succ, List.map_cons]
    rfl
  change List.take 16 (List.flatMap _ (List.finRange (coreDef aux).length)) = _
  refine (congrArg (fun l => List.take 16 (List.flatMap
    (fun i : Fin (coreDef aux).length => Val.toList _ (s.vars i).val) l)) e).trans ?_
  have e2 : ∀ (a b c d f : Fin (coreDef aux).length) (l : List (Fin (coreDef aux).length))
      (g : Fin (coreDef aux).length → List ℝ), (a :: b :: c :: d :: f :: l).flatMap g =
        (g a ++ g b ++ g c ++ g d ++ g f) ++ l.flatMap g := by
    intros; simp only [List.flatMap_cons, List.append_assoc]
  refine (congrArg (List.take 16) (e2 _ _ _ _ _ _ _)).trans ?_
  refine (List.take_append_of_le_length (le_refl 16)).trans ?_
  rfl

theorem toOdometryMsg_defined (ho : Ordered aux) (ng : V3 ℝ) (junk : Matrix (Fin 6) (Fin 6) ℝ)
    (s : EKFState ℝ (coreDef aux)) : ∃ c, toOdometryMsg ng junk s = some c := by
  obtain ⟨cov, h1, -⟩ := C39_column_major aux ho s.P 0
  have hi := indexingErrors_eq_zero.2 ho
  obtain ⟨a, e1, -⟩ := start3_get hi 1 (by simp [coreDef, coreDescs]) rfl
  obtain ⟨b, e2, -⟩ := start3_get hi 2 (by simp [coreDef, coreDescs]) rfl
  obtain ⟨w, e3, -⟩ := start3_get hi 3 (by simp [coreDef, coreDescs]) rfl
  simp only [toOdometryMsg, h1, getTwistCovariance, getVelocityAttitudeCovariance, e1, e2, e3,
    Option.bind_eq_bind, Option.bind_some]
  exact ⟨_, rfl⟩

theorem publishPropagation_defined (ho : Ordered aux) (subs : Topic → Bool) (ng : V3 ℝ)
    (junk : Matrix (Fin 6) (Fin 6) ℝ) (s : EKFState ℝ (coreDef aux)) :
    ∃ ms, publishPropagation subs ng junk s = some ms := by
  obtain ⟨cov, h1, -⟩ := C39_column_major aux ho s.P 0
  have hp : toPoseMsg s = some (.pose (EKFState.p s.vars) (EKFState.q s.vars) cov) := by
    simp only [toPoseMsg, h1, Option.bind_eq_bind, Option.bind_some]
  obtain ⟨c, hc⟩ := toOdometryMsg_defined ho ng junk s
  unfold publishPropagation
  simp only [hp, hc, Option.bind_eq_bind, Option.bind_some]
  split <;> exact ⟨_, rfl⟩

theorem publishUpdate_defined (ho : Ordered aux) (subs : Topic → Bool) (now : ℝ)
    (s : EKFState ℝ (coreDef aux)) : ∃ ms, publishUpdate subs now s = some ms := by
  obtain ⟨cov, h1, -⟩ := C39_column_major aux ho s.P 0
  obtain ⟨a, b, c, a1, b1, c1, -⟩ := C57_covariance_messages s.P
  have hi : ∀ (t : Topic) (st : ℝ) (c : Content ℝ), ∃ l,
      ifSubscribed subs t st (some c) = some l := by
    intro t st c
    unfold ifSubscribed
    split
    · exact ⟨_, rfl⟩
    · exact ⟨_, rfl⟩
  have hp : toPoseMsg s = some (.pose (EKFState.p s.vars) (EKFState.q s.vars) cov) := by
    simp only [toPoseMsg, h1, Option.bind_eq_bind, Option.bind_some]
  unfold publishUpdate
  simp only [Option.bind_eq_bind, C37_full_state s.vars ho, hp, a1, b1, c1, Option.bind_some,
    Option.map_some]
  obtain ⟨l1, e1⟩ := hi .poseAfterUpdate s.time (.pose (EKFState.p s.vars) (EKFState.q s.vars) cov)
  rw [e1, Option.bind_some]
  obtain ⟨l2, e2⟩ := hi .covCore s.time (.matrix (nCore (coreDef aux)) (nCore (coreDef aux)) a)
  rw [e2, Option.bind_some]
  obtain ⟨l3, e3⟩ := hi .covAux s.time (.matrix (total errLen (coreDef aux) - nCore (coreDef aux))
    (total errLen (coreDef aux) - nCore (coreDef aux)) b)
  rw [e3, Option.bind_some]
  obtain ⟨l4, e4⟩ := hi .covCoreAux s.time (.matrix (nCore (coreDef aux))
    (total errLen (coreDef aux) - nCore (coreDef aux)) c)
  rw [e4, Option.bind_some]
  exact ⟨_, rfl⟩

/-- **C103, partial.**  Whoever subscribes to what, every message about a state says the truth about
it: position, attitude and pose covariance; the velocity of the odometry is the velocity of the state
in the body frame and its angular velocity the gyro reading without bias; the first sixteen numbers of
`state_out` are the core states.  All messages but the transform carry the time of the state.
Full claim: the transform as well; false by `C103_tf_violated`. -/
theorem C103_messages_agree_partial (ho : Ordered aux) (subs : Topic → Bool) (now : ℝ) (ng : V3 ℝ)
    (junk : Matrix (Fin 6) (Fin 6) ℝ) (s : EKFState ℝ (coreDef aux))
    (hq : (EKFState.q s.vars).normSq = 1) (ms : List (OutMsg ℝ))
    (h : publishPropagation subs ng junk s = some ms ∨ publishUpdate subs now s = some ms) :
    ∀ m ∈ ms, m.content.TrueOf s ∧ (m.topic ≠ .tf → m.stamp = s.time) := by
  intro m hm
  rcases h with h | h
  · rcases publishPropagation_mem h hm with ⟨c, hc, rfl⟩ | ⟨c, hc, rfl⟩ | rfl
    · exact ⟨toPoseMsg_true ho hc, fun _ => rfl⟩
    · exact ⟨toOdometryMsg_true ho hq hc, fun _ => rfl⟩
    · exact ⟨⟨rfl, rfl, rfl⟩, fun _ => rfl⟩
  · rcases publishUpdate_mem h hm with ⟨l, hl, rfl⟩ | ⟨c, hc, rfl⟩ | rfl | ⟨d, -, rfl⟩ | ⟨d, -, rfl⟩ |
      ⟨d, -, rfl⟩
    · exact ⟨toFullStateMsg_true ho hl, fun _ => rfl⟩
    · exact ⟨toPoseMsg_true ho hc, fun _ => rfl⟩
    · exact ⟨⟨rfl, rfl⟩, fun h => absurd rfl h⟩
    · exact ⟨trivial, fun _ => rfl⟩
    · exact ⟨trivial, fun _ => rfl⟩
    · exact ⟨trivial, fun _ => rfl⟩

/-- **C103, covariances.**  For a symmetric covariance the pose covariance on `pose`, `odometry` and
`pose_after_update` is the part of `cov_core` that belongs to position and attitude. -/
theorem C103_covariances (ho : Ordered aux) (ha : ∀ d ∈ aux, d.isAux) (subs : Topic → Bool) (now : ℝ)
    (ng : V3 ℝ) (junk : Matrix (Fin 6) (Fin 6) ℝ) (s : EKFState ℝ (coreDef aux)) (hP : s.Pᵀ = s.P)
    (ms ms' : List (OutMsg ℝ)) (h1 : publishPropagation subs ng junk s = some ms)
    (h2 : publishUpdate subs now s = some ms') (m m' : OutMsg ℝ) (hm : m ∈ ms ++ ms') (hm' : m' ∈ ms')
    (cov : Fin 36 → ℝ) (hcov : (∃ p q, m.content = .pose p q cov) ∨
      ∃ p q l a t, m.content = .odometry p q cov l a t)
    (rows cols : Nat) (data : List ℝ) (ht : m'.topic = .covCore)
    (hd : m'.content = .matrix rows cols data) :
    rows = 15 ∧ cols = 15 ∧ ∀ r c : Fin 6,
      data[(if r.val < 3 then r.val else r.val + 3) * 15 + (if c.val < 3 then c.val else c.val + 3)]? =
        some (cov ⟨6 * r + c, by omega⟩) := by
  have hn : nCore (coreDef aux) = 15 := nCore_coreDef ha
  have hpc : PoseCov s cov := by
    have key : ∀ c, (toPoseMsg s = some c ∨ toOdometryMsg ng junk s = some c) →
        ((∃ p q, c = .pose p q cov) ∨ ∃ p q l a t, c = .odometry p q cov l a t) → PoseCov s cov := by
      rintro c hc hcc
      obtain ⟨cov', e1, e2⟩ := C39_column_major aux ho s.P 0
      rcases hc with hc | hc
      · simp only [toPoseMsg, e1, Option.bind_eq_bind, Option.bind_some] at hc
        rw [← Option.some.inj hc] at hcc
        rcases hcc with ⟨p, q, e⟩ | ⟨_, _, _, _, _, e⟩
        · injection e with _ _ e
          rw [← e]; exact e2
        · cases e
      · simp only [toOdometryMsg, e1, Option.bind_eq_bind, Option.bind_some] at hc
        obtain ⟨t, -, hc⟩ := Option.bind_eq_some_iff.1 hc
        rw [← Option.some.inj hc] at hcc
        rcases hcc with ⟨p, q, e⟩ | ⟨_, _, _, _, _, e⟩
        · cases e
        · injection e with _ _ e
          rw [← e]; exact e2
    rcases List.mem_append.1 hm with hm | hm
    · rcases publishPropagation_mem h1 hm with ⟨c, hc, rfl⟩ | ⟨c, hc, rfl⟩ | rfl
      · exact key c (.inl hc) hcov
      · exact key c (.inr hc) hcov
      · rcases hcov with ⟨_, _, e⟩ | ⟨_, _, _, _, _, e⟩ <;> cases e
    · rcases publishUpdate_mem h2 hm with ⟨l, hl, rfl⟩ | ⟨c, hc, rfl⟩ | rfl | ⟨d, -, rfl⟩ | ⟨d, -, rfl⟩ |
        ⟨d, -, rfl⟩
      · rcases hcov with ⟨_, _, e⟩ | ⟨_, _, _, _, _, e⟩ <;> cases e
      · exact key c (.inl hc) hcov
      all_goals rcases hcov with ⟨_, _, e⟩ | ⟨_, _, _, _, _, e⟩ <;> cases e
  obtain ⟨core, -, -, a1, -, -, -, -, -, a2, -⟩ := C57_covariance_messages s.P
  rcases publishUpdate_mem h2 hm' with ⟨l, hl, rfl⟩ | ⟨c, hc, rfl⟩ | rfl | ⟨d, e, rfl⟩ | ⟨d, -, rfl⟩ |
    ⟨d, -, rfl⟩
  · cases ht
  · cases ht
  · cases ht
  · rw [a1] at e
    rw [← Option.some.inj e] at hd
    injection hd with d1 d2 d3
    subst d1 d2 d3
    refine ⟨hn, hn, fun r c => ?_⟩
    have hle := nCore_le (coreDef aux)
    have e1 := a2 (if r.val < 3 then r.val else r.val + 3) (if c.val < 3 then c.val else c.val + 3)
      (by rw [hn]; split <;> omega) (by rw [hn]; split <;> omega)
    change core[_]? = _
    rw [← hn, e1]
    congr 1
    have e2 := hpc c r ⟨if c.val < 3 then c.val else c.val + 3, by
        rw [hn] at hle; split <;> omega⟩ ⟨if r.val < 3 then r.val else r.val + 3, by
        rw [hn] at hle; split <;> omega⟩ rfl rfl
    rw [e2]
    exact congrFun (congrFun hP.symm _) _
  · cases ht
  · cases ht

/-- **C103 is violated by the transform**: it carries the time of the computer, so for every state two
transforms sent at different times of the computer differ, and one sent at another time than that of
the state (every one, for data played back) is stamped wrongly. -/
theorem C103_tf_violated (ho : Ordered aux) (subs : Topic → Bool) (s : EKFState ℝ (coreDef aux))
    (now : ℝ) (h : now ≠ s.time) : ∃ ms, publishUpdate subs now s = some ms ∧
      ∃ m ∈ ms, m.topic = .tf ∧ m.content.TrueOf s ∧ m.stamp ≠ s.time := by
  obtain ⟨ms, hms⟩ := publishUpdate_defined ho subs now s
  refine ⟨ms, hms, ⟨.tf, now, .transform (EKFState.p s.vars) (EKFState.q s.vars)⟩, ?_, rfl,
    ⟨rfl, rfl⟩, h⟩
  unfold publishUpdate at hms
  simp only [Option.bind_eq_bind] at hms
  obtain ⟨l, -, hms⟩ := Option.bind_eq_some_iff.1 hms
  obtain ⟨m1, -, hms⟩ := Option.bind_eq_some_iff.1 hms
  obtain ⟨m2, -, hms⟩ := Option.bind_eq_some_iff.1 hms
  obtain ⟨m3, -, hms⟩ := Option.bind_eq_some_iff.1 hms
  obtain ⟨m4, -, hms⟩ := Option.bind_eq_some_iff.1 hms
  rw [← Option.some.inj hms]
  simp

/-- The messages of a topic with subscribers do not depend on the subscribers of other topics. -/
theorem publish_filter (subs : Topic → Bool) (ng : V3 ℝ) (junk : Matrix (Fin 6) (Fin 6) ℝ) (now : ℝ)
    (s : EKFState ℝ (coreDef aux)) (t : Topic) (ht : subs t = true) (ms ms' : List (OutMsg ℝ))
    (h : (publishPropagation subs ng junk s = some ms ∧
        publishPropagation (fun _ => true) ng junk s = some ms') ∨
      (publishUpdate subs now s = some ms ∧ publishUpdate (fun _ => true) now s = some ms')) :
    ms.filter (·.topic = t) = ms'.filter (·.topic = t) := by
  rcases h with ⟨h1, h2⟩ | ⟨h1, h2⟩
  · unfold publishPropagation at h1 h2
    simp only [Option.bind_eq_bind, Bool.or_self, if_true] at h1 h2
    obtain ⟨c1, e1, h2⟩ := Option.bind_eq_some_iff.1 h2
    obtain ⟨c2, e2, h2⟩ := Option.bind_eq_some_iff.1 h2
    obtain rfl := Option.some.inj h2
    split at h1
    · rw [e1, e2] at h1
      rw [← Option.some.inj h1]
    · rename_i hno
      obtain rfl := Option.some.inj h1
      cases t <;> simp_all
  · unfold publishUpdate at h1 h2
    simp only [Option.bind_eq_bind, ifSubscribed, if_true] at h1 h2
    obtain ⟨l, e1, h2⟩ := Option.bind_eq_some_iff.1 h2
    obtain ⟨x2, e2, h2⟩ := Option.bind_eq_some_iff.1 h2
    obtain ⟨x3, e3, h2⟩ := Option.bind_eq_some_iff.1 h2
    obtain ⟨x4, e4, h2⟩ := Option.bind_eq_some_iff.1 h2
    obtain ⟨x5, e5, h2⟩ := Option.bind_eq_some_iff.1 h2
    obtain ⟨y2, f2, rfl⟩ := Option.map_eq_some_iff.1 e2
    obtain ⟨y3, f3, rfl⟩ := Option.map_eq_some_iff.1 e3
    obtain ⟨y4, f4, rfl⟩ := Option.map_eq_some_iff.1 e4
    obtain ⟨y5, f5, rfl⟩ := Option.map_eq_some_iff.1 e5
    rw [← Option.some.inj h2]
    simp only [e1, f2, f3, f4, f5, Option.map_some, Option.bind_some] at h1
    have go : ∀ (t' : Topic) (c : Content ℝ), ∃ l : List (OutMsg ℝ),
        (if subs t' = true then some [(⟨t', s.time, c⟩ : OutMsg ℝ)] else some []) = some l ∧
        l.filter (·.topic = t) = [(⟨t', s.time, c⟩ : OutMsg ℝ)].filter (·.topic = t) := by
      intro t' c
      by_cases ht' : subs t' = true
      · exact ⟨_, if_pos ht', rfl⟩
      · refine ⟨_, if_neg ht', ?_⟩
        have : t' ≠ t := fun e => ht' (e ▸ ht)
        simp [this]
    obtain ⟨l2, g2, k2⟩ := go .poseAfterUpdate y2
    obtain ⟨l3, g3, k3⟩ := go .covCore y3
    obtain ⟨l4, g4, k4⟩ := go .covAux y4
    obtain ⟨l5, g5, k5⟩ := go .covCoreAux y5
    rw [g2, Option.bind_some, g3, Option.bind_some, g4, Option.bind_some, g5, Option.bind_some] at h1
    rw [← Option.some.inj h1]
    have key : ∀ (p : OutMsg ℝ → Bool) (a b : OutMsg ℝ) (l2 l3 l4 l5 : List (OutMsg ℝ)),
        (a :: l2 ++ b :: l3 ++ l4 ++ l5).filter p = [a].filter p ++ l2.filter p ++ [b].filter p ++
          l3.filter p ++ l4.filter p ++ l5.filter p := by
      intro p a b l2 l3 l4 l5
      rw [← List.singleton_append (l := l2), ← List.singleton_append (x := b) (l := l3)]
      simp only [List.filter_append, List.append_assoc]
    rw [key, key, k2, k3, k4, k5]

/-- **C104.**  A subscriber receives exactly one message about a state on each topic that announces
states after a propagation, and on each topic that announces states after an update; the message does
not depend on who subscribes to the other topics. -/
theorem C104_subscribers (ho : Ordered aux) (subs : Topic → Bool) (ng : V3 ℝ)
    (junk : Matrix (Fin 6) (Fin 6) ℝ) (now : ℝ) (s : EKFState ℝ (coreDef aux)) (t : Topic)
    (ht : subs t = true) :
    (∃ ms ms', publishPropagation subs ng junk s = some ms ∧
      publishPropagation (fun _ => true) ng junk s = some ms' ∧
      ms.filter (·.topic = t) = ms'.filter (·.topic = t) ∧
      (ms.filter (·.topic = t)).length = if t ∈ [.pose, .odometry, .extState] then 1 else 0) ∧
    (∃ ms ms', publishUpdate subs now s = some ms ∧
      publishUpdate (fun _ => true) now s = some ms' ∧
      ms.filter (·.topic = t) = ms'.filter (·.topic = t) ∧
      (ms.filter (·.topic = t)).length = if t ∈ [.pose, .odometry, .extState] then 0 else 1) := by
  constructor
  · obtain ⟨ms, h⟩ := publishPropagation_defined ho subs ng junk s
    obtain ⟨ms', h'⟩ := publishPropagation_defined ho (fun _ => true) ng junk s
    have e := publish_filter subs ng junk now s t ht ms ms' (.inl ⟨h, h'⟩)
    refine ⟨ms, ms', h, h', e, ?_⟩
    rw [e]
    unfold publishPropagation at h'
    simp only [Option.bind_eq_bind, Bool.or_self, if_true] at h'
    obtain ⟨c1, -, h'⟩ := Option.bind_eq_some_iff.1 h'
    obtain ⟨c2, -, h'⟩ := Option.bind_eq_some_iff.1 h'
    obtain rfl := Option.some.inj h'
    cases t <;> rfl
  · obtain ⟨ms, h⟩ := publishUpdate_defined ho subs now s
    obtain ⟨ms', h'⟩ := publishUpdate_defined ho (fun _ => true) now s
    have e := publish_filter subs ng junk now s t ht ms ms' (.inr ⟨h, h'⟩)
    refine ⟨ms, ms', h, h', e, ?_⟩
    rw [e]
    unfold publishUpdate at h'
    simp only [Option.bind_eq_bind, ifSubscribed, if_true] at h'
    obtain ⟨l, -, h'⟩ := Option.bind_eq_some_iff.1 h'
    obtain ⟨x2, e2, h'⟩ := Option.bind_eq_some_iff.1 h'
    obtain ⟨x3, e3, h'⟩ := Option.bind_eq_some_iff.1 h'
    obtain ⟨x4, e4, h'⟩ := Option.bind_eq_some_iff.1 h'
    obtain ⟨x5, e5, h'⟩ := Option.bind_eq_some_iff.1 h'
    obtain ⟨y2, -, rfl⟩ := Option.map_eq_some_iff.1 e2
    obtain ⟨y3, -, rfl⟩ := Option.map_eq_some_iff.1 e3
    obtain ⟨y4, -, rfl⟩ := Option.map_eq_some_iff.1 e4
    obtain ⟨y5, -, rfl⟩ := Option.map_eq_some_iff.1 e5
    obtain rfl := Option.some.inj h'
    cases t <;> rfl

/-- A state of the position filter that turns: the hypotheses of C103 and C104 are met. -/
example : ∃ s : EKFState ℝ (coreDef positionAux), Ordered positionAux ∧
    (∀ d ∈ positionAux, d.isAux) ∧ (EKFState.q s.vars).normSq = 1 ∧ s.Pᵀ = s.P ∧
    (5 : ℝ) ≠ s.time ∧ s.w_m = ![0, 0, 1] := by
  refine ⟨⟨toVars (restValues _), ![0, 0, 1], ![0, 0, 10], 7, 1, 1, 0⟩, ordered_position, by decide,
    ?_, Matrix.transpose_one, by norm_num, rfl⟩
  change Quat.one.normSq = (1 : ℝ)
  simp [Quat.one, Quat.normSq]

end MSF
