import Verif.Lemmas.RelChain
import Verif.Props.Covariance
import Verif.Props.RelJacobian
import Verif.Lemmas.RunNumbers

/-!
# C34 in the buffer: the transition a relative update uses
-/

namespace MSF.RelKernel

open Matrix

variable {A W X C F M T E : Type}

/-- **C34 in the buffer.**  For every kernel: the covariance is predicted from the state `o` to the state `n`, over
any number of states between them, and a relative measurement between `o` and `n` is applied.  Then the update gets
the product of the transitions over every step from `o` to `n`, the covariance of `o` and the covariance of `n`
predicted over the same steps, and its result is the new state.  After an applied update the covariances of later
states count as not predicted. -/
theorem _root_.MSF.C34_buffered (R : RelKernel A W X C F M T E) (c : Core A W X (C × F) M T)
    (hs : SortedL c.states.nodes) {L B rest : List (Node (St A W X (C × F)))} {o n : Node (St A W X (C × F))}
    (hl : c.states.nodes = L ++ o :: (B ++ [n]) ++ rest) (htP : c.tP = o.key) (prev m : Meas M)
    {old s : Node (St A W X (C × F))} (ho : old.iter = o.iter) (hn : s.iter = n.iter)
    (r : Upd X C T) (hr : r = R.relUpdate c.tracker prev.body m.body o.val.x (R.clear m.body o.val.P.1)
        ((R.steps o (B ++ [n])).foldl R.mulF R.fd0) n.val.x
        (R.clear m.body (R.predicted o.val.P.1 o (B ++ [n])))) :
    ∃ c1 c2 n', Flow.propPToState
        ({ R.pair with predict := R.predict, apply := fun _ c _ _ => .ok c } : Flow A W X (C × F) M T E)
        c n.key = .ok c1 ∧ R.relApply c1 prev m old s = .ok c2 ∧
      n' ∈ c2.states.nodes ∧ n'.key = n.key ∧ n'.val.x = r.x ∧ n'.val.P.1 = r.P ∧ c2.tracker = r.tr ∧
      (r.applied = true → c2.tP = n.key) := by
  have hok : old.key = o.key := Core.key_of_iter ho
  have hsk : s.key = n.key := Core.key_of_iter hn
  have hl0 : c.states.nodes = L ++ o :: (B ++ n :: rest) := by rw [hl]; simp
  have hlast : ∀ b ∈ B ++ [n], b.key ≤ n.key := by
    intro b hb
    rcases List.mem_append.1 hb with h | h
    · have h' := hs
      rw [hl0, SortedL.append_iff, SortedL.cons_iff, SortedL.append_iff] at h'
      exact (h'.2.1.2.2.2 b h n (by simp)).le
    · rw [List.mem_singleton.1 h]
  have hrest : ∀ x ∈ rest, n.key < x.key := by
    intro x hx
    have h' := hs
    rw [hl0, SortedL.append_iff, SortedL.cons_iff, SortedL.append_iff, SortedL.cons_iff] at h'
    exact h'.2.1.2.2.1.1 x hx
  obtain ⟨c1, h1, hn1, ht1⟩ := propPLoop_chain R (fun _ c _ _ => .ok c) n.key (B ++ [n]) (c.states.size + 1) c L rest o
    (by simp only [Buf.size, hl, List.length_append, List.length_cons]; omega) hl hs hlast hrest
  have hprop : Flow.propPToState
      ({ R.pair with predict := R.predict, apply := fun _ c _ _ => .ok c } : Flow A W X (C × F) M T E)
      c n.key = .ok c1 := by
    unfold Flow.propPToState
    rw [htP, Core.iterAtValue_mem hs (n := o) (by rw [hl0]; simp)]
    simp only [bind, Except.bind, Buf.incr_at hl0 hs]
    rw [show (B ++ n :: rest).head? = ((B ++ [n]) ++ rest).head? from by simp]
    exact h1
  obtain ⟨mids, hc, hst⟩ := chain_split R n B o
  set o1 : Node (St A W X (C × F)) :=
    { o with val := { o.val with P := (o.val.P.1, ((R.steps o (B ++ [n])).head?).getD o.val.P.2) } } with ho1
  set n1 : Node (St A W X (C × F)) := { n with val := { n.val with
    P := (R.predicted o.val.P.1 o (B ++ [n]), n.val.P.2) } } with hn1d
  have hl1 : c1.states.nodes = L ++ o1 :: (mids ++ n1 :: rest) := by rw [hn1, hc]; simp
  have hs1 : SortedL c1.states.nodes := by
    have hk : ∀ (l : List (Node (St A W X (C × F)))) (o : Node (St A W X (C × F))),
        (chain R o l).map Node.key = o.key :: l.map Node.key := by
      intro l
      induction l with
      | nil => intro o; rfl
      | cons b l ih => intro o; rw [chain, List.map_cons, ih]; rfl
    rw [Buf.sorted_iff_keys] at hs ⊢
    rw [hn1, List.map_append, List.map_append, hk]
    rw [hl, List.map_append, List.map_append, List.map_cons] at hs
    exact hs
  set g : St A W X (C × F) → St A W X (C × F) := fun v => { v with P := (R.clear m.body v.P.1, v.P.2) } with hg
  -- the two states as they are found
  have dO : c1.states.deref old.iter = .ok o1 := by
    rw [ho]; exact Buf.deref_mem hs1 (n := o1) (by rw [hl1]; simp)
  have dN : c1.states.deref s.iter = .ok n1 := by
    rw [hn]; exact Buf.deref_mem hs1 (n := n1) (by rw [hl1]; simp)
  have cO : current c1 old = o1 := by unfold current; rw [dO]
  have cN : current c1 s = n1 := by unfold current; rw [dN]
  -- after the first write
  obtain ⟨c2, hc2, hl2, ht2⟩ : ∃ c2, write c1 old g = c2 ∧
      c2.states.nodes = L ++ { o1 with val := g o1.val } :: (mids ++ n1 :: rest) ∧ c2.tracker = c1.tracker := by
    refine ⟨_, rfl, ?_, ?_⟩
    · unfold write; rw [dO, hok]; exact Buf.modify_split hl1 hs1 g
    · unfold write; rw [dO]
  have hs2 : SortedL c2.states.nodes := by
    rw [Buf.sorted_iff_keys] at hs1 ⊢
    rw [hl2]; rw [hl1] at hs1; simpa using hs1
  have dN2 : c2.states.deref s.iter = .ok n1 := by
    rw [hn]; exact Buf.deref_mem hs2 (n := n1) (by rw [hl2]; simp)
  obtain ⟨c3, hc3, hl3, ht3⟩ : ∃ c3, write c2 s g = c3 ∧
      c3.states.nodes = L ++ { o1 with val := g o1.val } :: (mids ++ { n1 with val := g n1.val } :: rest) ∧
      c3.tracker = c2.tracker := by
    refine ⟨_, rfl, ?_, ?_⟩
    · unfold write; rw [dN2, hsk]
      have := Buf.modify_split (n := n1) (A := L ++ { o1 with val := g o1.val } :: mids) (B := rest)
        (by rw [hl2]; simp) hs2 g
      refine this.trans (by simp)
    · unfold write; rw [dN2]
  have hs3 : SortedL c3.states.nodes := by
    rw [Buf.sorted_iff_keys] at hs2 ⊢
    rw [hl3]; rw [hl2] at hs2; simpa using hs2
  set o3 : Node (St A W X (C × F)) := { o1 with val := g o1.val } with ho3
  set n3 : Node (St A W X (C × F)) := { n1 with val := g n1.val } with hn3
  have hacc : accumulate R c3 (c3.states.iterAtValue n1.key) (c3.states.size + 1)
      (c3.states.iterAtValue o1.key) R.fd0 = .ok ((R.steps o (B ++ [n])).foldl R.mulF R.fd0) := by
    rw [show n1.key = n3.key from rfl, show o1.key = o3.key from rfl,
      Core.iterAtValue_mem hs3 (n := n3) (by rw [hl3]; simp), Core.iterAtValue_mem hs3 (n := o3) (by rw [hl3]; simp)]
    have := accumulate_eq R c3 hs3 (d := n3) (rest := rest) (o3 :: mids) (c3.states.size + 1) L R.fd0
      (by simp only [Buf.size, hl3, List.length_append, List.length_cons]; omega) (by rw [hl3]; simp)
    rw [List.map_cons, show o3.val.P.2 = ((R.steps o (B ++ [n])).head?).getD o.val.P.2 from rfl, hst] at this
    exact this
  have dN3 : c3.states.deref s.iter = .ok n3 := by
    rw [hn]; exact Buf.deref_mem hs3 (n := n3) (by rw [hl3]; simp)
  have hrr : R.relUpdate c3.tracker prev.body m.body o1.val.x (R.clear m.body o1.val.P.1)
      ((R.steps o (B ++ [n])).foldl R.mulF R.fd0) n1.val.x (R.clear m.body n1.val.P.1) = r := by
    rw [hr, ht3, ht2, ht1]
  have hrel : R.relApply c1 prev m old s = .ok
      { write c3 s (fun v => { v with x := r.x, P := (r.P, v.P.2) }) with
        tracker := r.tr
        fuzzy := (write c3 s (fun v => { v with x := r.x, P := (r.P, v.P.2) })).fuzzy || r.fuzzy
        tP := if r.applied then n1.key else (write c3 s (fun v => { v with x := r.x, P := (r.P, v.P.2) })).tP } := by
    unfold relApply
    simp only [cO, cN]
    rw [show (write c1 old fun v => { v with P := (R.clear m.body v.P.1, v.P.2) }) = c2 from hc2,
      show (write c2 s fun v => { v with P := (R.clear m.body v.P.1, v.P.2) }) = c3 from hc3, hacc]
    simp only [bind, Except.bind]
    rw [hrr]
    rfl
  refine ⟨c1, _, { n3 with val := { n3.val with x := r.x, P := (r.P, n3.val.P.2) } }, hprop, hrel, ?_, rfl, rfl, rfl, rfl,
    fun ha => if_pos ha⟩
  change _ ∈ (write c3 s _).states.nodes
  unfold write
  rw [dN3]
  change _ ∈ (c3.states.modify s.key _).nodes
  rw [hsk]
  have := Buf.modify_split (n := n3) (A := L ++ o3 :: mids) (B := rest)
    (by rw [hl3]; simp) hs3 (fun v => { v with x := r.x, P := (r.P, v.P.2) })
  rw [show n.key = n3.key from rfl, this]
  simp

end MSF.RelKernel

namespace MSF

open Matrix

section
variable {aux : List VarDesc}

/-- The prediction of a covariance is that of the zero covariance plus the transported covariance. -/
theorem predict_any {np : NoiseParams ℝ (coreDef aux)} {v : Vars ℝ (coreDef aux)} {u : Input (V3 ℝ) (V3 ℝ)}
    {new o1 n1 : EKFState ℝ (coreDef aux)} {t t1 : ℝ} (P : ErrMat ℝ (coreDef aux)) (ht : t < new.time)
    (h : predictProcessCovariance np (mkState v u t 0) new 0 = some (o1, n1, t1)) :
    ∃ o2 n2, predictProcessCovariance np (mkState v u t P) new 0 = some (o2, n2, t1) ∧
      o2.Fd = o1.Fd ∧ n2.P = o1.Fd * P * o1.Fdᵀ + n1.P := by
  have hd : ¬ (new.time - t ≤ 0) := by linarith
  have hd0 : ∀ P : ErrMat ℝ (coreDef aux), ¬ (new.time - (mkState v u t P).time ≤ 0) := fun _ => hd
  simp only [predictProcessCovariance, if_neg (hd0 _), Option.bind_eq_bind, Option.bind_eq_some_iff] at h ⊢
  obtain ⟨s, h1, Qd, h2, Qd2, h3, h4⟩ := h
  have e := Option.some.inj h4
  obtain ⟨rfl, e2⟩ := Prod.mk.inj e
  obtain ⟨rfl, rfl⟩ := Prod.mk.inj e2
  refine ⟨_, _, ⟨s, h1, Qd, h2, Qd2, h3, rfl⟩, rfl, ?_⟩
  change _ = _ + (_ * 0 * _ + Qd2)
  rw [Matrix.mul_zero, Matrix.zero_mul, zero_add]
  rfl

theorem rel_predP {np : NoiseParams ℝ (coreDef aux)} {uc : UserCalc (coreDef aux)} {dt : ℚ} (hdt : 0 < dt)
    {u : Input (V3 ℝ) (V3 ℝ)} {x : Option (Values (coreDef aux))} {F : ErrMat ℝ (coreDef aux)}
    (hF : (relKernel np uc).fd dt u x = some F) :
    ∃ Q, (relKernel np uc).predP dt (some 0) u x = some Q ∧
      ∀ P, (relKernel np uc).predP dt (some P) u x = some (F * P * Fᵀ + Q) := by
  cases x with
  | none => cases hF
  | some x =>
    have hd : (0 : ℝ) < dt := by exact_mod_cast hdt
    change ((predictProcessCovariance np _ _ 0).bind fun o => some o.1.Fd) = _ at hF
    obtain ⟨⟨o1, n1, t1⟩, h1, h2⟩ := Option.bind_eq_some_iff.1 hF
    cases Option.some.inj h2
    refine ⟨n1.P, ?_, fun P => ?_⟩
    · change ((predictProcessCovariance np _ _ 0).bind fun o => some o.2.1.P) = _
      rw [h1]; rfl
    · obtain ⟨o2, n2, h3, -, h4⟩ := predict_any P hd h1
      change ((predictProcessCovariance np _ _ 0).bind fun o => some o.2.1.P) = _
      rw [h3]
      exact congrArg some h4

/-- The process noise of the step to `b` is positive semidefinite, however long the step. -/
def NoisePsd (np : NoiseParams ℝ (coreDef aux)) (uc : UserCalc (coreDef aux)) (u : Input (V3 ℝ) (V3 ℝ))
    (x : Option (Values (coreDef aux))) : Prop :=
  ∀ (dt : ℚ) Q, 0 < dt → (relKernel np uc).predP dt (some 0) u x = some Q → Q.PosSemidef

theorem rel_chain (np : NoiseParams ℝ (coreDef aux)) (uc : UserCalc (coreDef aux)) :
    ∀ (l : List (Node (St (V3 ℝ) (V3 ℝ) (Option (Values (coreDef aux)))
        (Option (ErrMat ℝ (coreDef aux)) × Option (ErrMat ℝ (coreDef aux)))))) o (G : ErrMat ℝ (coreDef aux))
      (acc : ErrMat ℝ (coreDef aux)) (P : ErrMat ℝ (coreDef aux)), SortedL (o :: l) →
      (∀ b ∈ l, NoisePsd np uc b.val.u b.val.x) →
      ((relKernel np uc).steps o l).foldl (relKernel np uc).mulF (some acc) = some G →
      ∃ ps : List (ErrMat ℝ (coreDef aux) × ErrMat ℝ (coreDef aux)),
        (relKernel np uc).steps o l = ps.map (fun p => some p.1) ∧ (∀ p ∈ ps, p.2.PosSemidef) ∧
        G = (ps.map Prod.fst).foldl (fun F Fd => F * Fd) acc ∧
        (relKernel np uc).predicted (some P) o l = some (propagateCov P ps) := by
  intro l
  induction l with
  | nil =>
    intro o G acc P _ _ h
    exact ⟨[], rfl, by simp, (Option.some.inj h).symm, rfl⟩
  | cons b l ih =>
    intro o G acc P hs hq h
    have hlt : 0 < b.key - o.key := by
      rw [SortedL.cons_iff] at hs
      linarith [hs.1 b (by simp)]
    change ((relKernel np uc).steps b l).foldl (relKernel np uc).mulF ((relKernel np uc).mulF (some acc)
      ((relKernel np uc).fd (b.key - o.key) b.val.u b.val.x)) = some G at h
    cases hF : (relKernel np uc).fd (b.key - o.key) b.val.u b.val.x with
    | none =>
      rw [hF] at h
      exfalso
      have : ∀ l : List (Option (ErrMat ℝ (coreDef aux))), l.foldl (relKernel np uc).mulF none = none := by
        intro l
        induction l with
        | nil => rfl
        | cons a l ih => exact ih
      have h' := h.symm.trans (this _)
      cases h'
    | some F =>
      rw [hF] at h
      obtain ⟨Q, h0, hP⟩ := rel_predP hlt hF
      obtain ⟨ps, h1, h2, h3, h4⟩ := ih b G (acc * F) (F * P * Fᵀ + Q) (by rw [SortedL.cons_iff] at hs; exact hs.2)
        (fun x hx => hq x (by simp [hx])) h
      refine ⟨(F, Q) :: ps, ?_, ?_, h3, ?_⟩
      · rw [RelKernel.steps, hF, h1]; rfl
      · intro p hp
        rcases List.mem_cons.1 hp with rfl | hp
        · exact hq b (by simp) _ _ hlt h0
        · exact h2 p hp
      · rw [RelKernel.predicted, hP]
        exact h4

theorem clearP_free {ix : PoseIdx} {enable : Bool} {thr : ℝ} {z : PoseMeas ℝ} (P : Option (ErrMat ℝ (coreDef aux))) :
    (Reading.pose ix 0 enable thr z).clearP P = P := by
  cases P with
  | none => rfl
  | some P =>
    change clearFixed 0 ix.clearOrder P = some P
    unfold clearFixed
    induction ix.clearOrder with
    | nil => rfl
    | cons i l ih =>
      rw [List.foldlM_cons]
      simpa using ih

/-- **C34 for the shipped filters, partial.**  The covariance is predicted from the state `o` to the state `n`, over
any number of states between them, and a relative pose between `o` and `n` is applied, with no state fixed.  If the
covariance of `o`, the process noise of every step and the noise of the measurement are positive semidefinite and
the transitions commute (for instance a single step), the new covariance is positive semidefinite.
Missing: transitions that do not commute, see `C34_violated`. -/
theorem C34_shipped_partial (np : NoiseParams ℝ (coreDef aux)) (uc : UserCalc (coreDef aux))
    (c : Core (V3 ℝ) (V3 ℝ) (Option (Values (coreDef aux)))
      (Option (ErrMat ℝ (coreDef aux)) × Option (ErrMat ℝ (coreDef aux))) RelReading (Tracker ℝ))
    (hs : SortedL c.states.nodes) {L B rest} {o n}
    (hl : c.states.nodes = L ++ o :: (B ++ [n]) ++ rest) (htP : c.tP = o.key) (prev m : Meas RelReading)
    {old s} (ho : old.iter = o.iter) (hn : s.iter = n.iter)
    {ix0 ix : PoseIdx} {fixed0 : Nat} {enable0 enable : Bool} {thr0 thr : ℝ} {z0 z : PoseMeas ℝ}
    (hprev : prev.body.reading = .pose ix0 fixed0 enable0 thr0 z0) (hm : m.body.reading = .pose ix 0 enable thr z)
    (hR : z.R_.PosSemidef) (P : ErrMat ℝ (coreDef aux)) (hoP : o.val.P.1 = some P) (hP : P.PosSemidef)
    (hQ : ∀ b ∈ B ++ [n], NoisePsd np uc b.val.u b.val.x)
    (hF : ∀ Fs : List (ErrMat ℝ (coreDef aux)), (relKernel np uc).steps o (B ++ [n]) = Fs.map some →
      Fs.Pairwise Commute) :
    ∃ c1 c2 n', Flow.propPToState
        ({ (relKernel np uc).pair with predict := (relKernel np uc).predict, apply := fun _ c _ _ => .ok c } :
          Flow _ _ _ _ _ _ ExtState) c n.key = .ok c1 ∧
      (relKernel np uc).relApply c1 prev m old s = .ok c2 ∧
      n' ∈ c2.states.nodes ∧ n'.key = n.key ∧ ∀ P', n'.val.P.1 = some P' → P'.PosSemidef := by
  obtain ⟨c1, c2, n', h1, h2, h3, h4, -, h5, -⟩ := C34_buffered (relKernel np uc) c hs hl htP prev m ho hn _ rfl
  refine ⟨c1, c2, n', h1, h2, h3, h4, fun P' hP' => ?_⟩
  rw [h5] at hP'
  have hcl : ∀ Q, (relKernel np uc).clear m.body Q = Q := by
    intro Q
    change m.body.reading.clearP Q = Q
    rw [hm]; exact clearP_free Q
  rw [hcl, hcl, hoP] at hP'
  change (relReadingUpdate uc _ _ _ _ _ _ _ _).P = _ at hP'
  unfold relReadingUpdate at hP'
  rw [hprev, hm] at hP'
  simp only at hP'
  split at hP'
  · rename_i u hu
    have hs2 : SortedL (o :: (B ++ [n])) := by
      rw [hl, SortedL.append_iff, SortedL.append_iff] at hs
      exact hs.1.2.1
    simp only [Option.bind_eq_bind, Option.bind_eq_some_iff] at hu
    obtain ⟨xo, hxo, Po, hPo, G, hG, x, hx, Pn, hPn, hu⟩ := hu
    cases Option.some.inj hPo
    obtain ⟨ps, hps, hpsd, hGe, hpred⟩ := rel_chain np uc (B ++ [n]) o G 1 P hs2 hQ hG
    have hPn' : Pn = propagateCov P ps := Option.some.inj (hPn.symm.trans hpred)
    obtain ⟨Ho, Hn, vo, vn, r, cc, vars, -, -, -, -, -, hcc, -⟩ := relPoseUpdate_parts hu
    cases Option.some.inj hP'
    have hcom := C34_commuting (ps.map Prod.fst) (hF (ps.map Prod.fst) (by rw [hps]; simp))
    rw [hPn', hGe] at hcc
    exact (C34_relative_psd_partial P ps _ _ r _ cc _ hP hpsd hR hcom hcc).1
  · cases hP'

/-- Without gyroscope and bias noise the process noise is positive semidefinite. -/
theorem noisePsd_acc (ho : Ordered aux) (np : NoiseParams ℝ (coreDef aux)) (uc : UserCalc (coreDef aux))
    (hg : np.gyr = 0 ∧ np.gyrBias = 0) (hb : np.accBias = 0)
    (haux : ∀ s dt i, ((coreDef aux).get i).isAux → (np.qAux s dt i).Q.PosSemidef)
    (u : Input (V3 ℝ) (V3 ℝ)) {x : Values (coreDef aux)} (hx : UnitQuats (toVars x)) :
    NoisePsd np uc u (some x) := by
  intro dt Q _ h
  obtain ⟨r, hr, hp⟩ := predict_psd ho np hg hb haux (dt : ℝ) u PosSemidef.zero hx
  change ((predictProcessCovariance np _ _ 0).bind fun o => some o.2.1.P) = _ at h
  rw [hr] at h
  exact Option.some.inj h ▸ hp

end

/-- Accelerometer noise and no noise of the auxiliary states. -/
noncomputable def stepNoise : NoiseParams ℝ (coreDef poseAux) :=
  ⟨1, 0, 0, 0, fun s _ i => { s i with Q := 0 }⟩

/-- Two states of the pose filter one second apart. -/
noncomputable def stepCore (i j : Nat) : Core (V3 ℝ) (V3 ℝ) (Option (Values (coreDef poseAux)))
    (Option (ErrMat ℝ (coreDef poseAux)) × Option (ErrMat ℝ (coreDef poseAux))) RelReading (Tracker ℝ) :=
  { Core.new (relKernel stepNoise (scaleCalc false)).pair with
    states := ⟨[⟨1, i, ⟨⟨0, 0⟩, some atOrigin, (some 1, some 1)⟩⟩, ⟨2, j, ⟨⟨0, 0⟩, some atOrigin, (some 0, some 1)⟩⟩], i + j⟩
    tP := 1 }

/-- The hypotheses of `C34_shipped_partial` can be met, and then the theorem applies. -/
example (i j : Nat) (e e0 : Bool) (thr thr0 : ℝ) (z z0 : PoseMeas ℝ) (hz : z.R_.PosSemidef) :
    ∃ o n c1 c2 n', (stepCore i j).states.nodes = [o, n] ∧ Flow.propPToState
        ({ (relKernel stepNoise (scaleCalc false)).pair with
            predict := (relKernel stepNoise (scaleCalc false)).predict, apply := fun _ c _ _ => .ok c } :
          Flow _ _ _ _ _ _ ExtState) (stepCore i j) n.key = .ok c1 ∧
      (relKernel stepNoise (scaleCalc false)).relApply c1 ⟨1, 0, .pose poseIx 0 e0 thr0 z0, true⟩
        ⟨2, 0, .pose poseIx 0 e thr z, true⟩ o n = .ok c2 ∧
      n' ∈ c2.states.nodes ∧ n'.key = n.key ∧ ∀ P', n'.val.P.1 = some P' → P'.PosSemidef := by
  obtain ⟨c1, c2, n', h⟩ := C34_shipped_partial stepNoise (scaleCalc false) (stepCore i j)
    (L := []) (B := []) (rest := []) (o := ⟨1, i, ⟨⟨0, 0⟩, some atOrigin, (some 1, some 1)⟩⟩)
    (n := ⟨2, j, ⟨⟨0, 0⟩, some atOrigin, (some 0, some 1)⟩⟩)
    (by rw [Buf.sorted_iff_keys]; simp [stepCore]) rfl rfl ⟨1, 0, .pose poseIx 0 e0 thr0 z0, true⟩
    ⟨2, 0, .pose poseIx 0 e thr z, true⟩ rfl rfl rfl rfl hz 1 rfl PosSemidef.one
    (by
      intro b hb
      rw [List.nil_append, List.mem_singleton] at hb
      subst hb
      exact noisePsd_acc poseDef_ok.1 _ _ ⟨rfl, rfl⟩ rfl (fun _ _ _ _ => PosSemidef.zero) _ atOrigin_unit)
    (by
      intro Fs hF
      have : Fs.length = 1 := by
        have := congrArg List.length hF
        simpa [RelKernel.steps] using this.symm
      obtain ⟨F, rfl⟩ := List.length_eq_one_iff.1 this
      exact List.pairwise_singleton ..)
  exact ⟨_, _, c1, c2, n', rfl, h⟩

end MSF
