import Verif.Lemmas.FlowQueue
import Verif.Lemmas.FlowTimes

/-! Several early measurements are used one after the other. -/

namespace MSF.Flow
open Core
variable {A W X C F M T E : Type} [AddCommGroup A] [Module ℚ A] [AddCommGroup W] [Module ℚ W]
variable {f : Flow A W X C M T E}

/-- A started filter without NaN in which nothing is newer than `b`. -/
structure Going (b : ℚ) (c : Core A W X C M T) : Prop where
  inited : c.inited = true
  pred : c.predMade = true
  sorted : SortedL c.states.nodes
  le : ∀ n ∈ c.states.nodes, n.key ≤ b
  meas : ∀ n ∈ c.meas.nodes, n.key ≤ b
  times : c.TimesIn {x | x ≠ invalidTime}

/-- What the proofs need of a filter. -/
structure Fine (f : Flow A W X C M T E) : Prop where
  still : f.Still
  apart : f.Apart
  newest : f.KeepsNewest
  flags : f.KeepsFlags
  waits : f.KeepsWaits
  times : f.KeepsTimes {x | x ≠ invalidTime}

theorem queue_imuPropagate (hw : f.KeepsWaits) (c : Core A W X C M T) (hp : c.predMade = true)
    (hq : c.queue = []) (env : Env) (last : Node (St A W X C)) (t : ℚ) (u : Input A W) :
    Post (imuPropagate env f c last t u) (fun d => d.queue = []) := by
  rw [imuPropagate_form]
  refine Post.bind fun c1 hc1 => Post.bind fun cur _ => ?_
  have h1 : c1.Waits [] := by
    refine waits_propagatePOneStep hw ?_ c1 hc1
    exact ⟨hq, fun _ => hp⟩
  unfold imuEnd
  split
  · unfold handlePending
    dsimp only
    rw [h1.1]
    exact Post.ok rfl
  · exact Post.ok h1.1

theorem going_imu (hf : f.Fine) {c : Core A W X C M T} {b t : ℚ} (h : Going b c) (hb : b ≤ t)
    (ht : t ≠ invalidTime) (hq : c.queue = []) (env : Env) (u : Input A W) :
    Post (processIMU env f c t u) (fun d => (Going t d ∧ d.queue = []) ∧ ∃ l, d.Newest t l) := by
  intro d hd
  have htin := tin_processIMU hf.times h.times env (t := t) ht u d hd
  rw [processIMU_form, if_neg (by simp [h.inited])] at hd
  revert d
  change Post _ _
  refine Post.bind fun it _ => Post.bind fun last hl => ?_
  have hmem := Buf.deref_mem_nodes hl
  have hv : last.key ≠ invalidTime := h.times.states last hmem
  rw [imuBody_run env f (c := { c with itImu := it }) h.pred hv ((h.le last hmem).trans hb)]
  intro d hd htin
  have hn := new_imuPropagate hf.newest (t := t)
    (c := { c with itImu := it, lastAmImu := if f.spike u.a then c.lastAmImu else last.val.u.a })
    h.sorted (fun n hn => (h.le n hn).trans hb) (fun n hn => (h.meas n hn).trans hb) env last _ d hd
  have hfl := flags_imuPropagate hf.flags (i := true) (p := true) hf.still.num
    (c := { c with itImu := it, lastAmImu := if f.spike u.a then c.lastAmImu else last.val.u.a })
    ⟨h.inited, h.pred⟩ env last t _ d hd
  have hqq := queue_imuPropagate hf.waits
    { c with itImu := it, lastAmImu := if f.spike u.a then c.lastAmImu else last.val.u.a } h.pred hq env last t _ d hd
  exact ⟨⟨⟨hfl.1, hfl.2 rfl, hn.sorted, hn.le, hn.meas, htin⟩, hqq⟩, _, hn⟩

theorem going_meas (hf : f.Fine) {c : Core A W X C M T} {t : ℚ} (h : Going t c) (hq : c.queue = [])
    {l : List (Event X C)} (hn : c.Newest t l) (env : Env) {m : Meas M} (hm : m.time ≤ t)
    (hv : m.time ≠ invalidTime) :
    Post (addMeasurement env f c m) (fun d => Going t d ∧ d.queue = []) := by
  intro d hd
  have h1 := new_addMeasurement hf.newest hn env m d hd
  have h2 := flags_addMeasurement hf.flags (i := true) (p := true) ⟨h.inited, h.pred⟩ env m d hd
  have h3 := tin_addMeasurement hf.times h.times env (m := m) hv d hd
  obtain ⟨n, hn1, hn2⟩ := Core.last_of_top hn.sorted hn.top hn.le
  have h4 := waiting_addMeasurement hf.apart [] env c m (by rw [hn1]; exact hm.trans hn2.ge)
  have h5 : c.waiting [] = c := by cases c; cases hq; rfl
  rw [h5, hd] at h4
  refine ⟨⟨h2.1, h2.2, h1.sorted, h1.le, h1.meas, h3⟩, ?_⟩
  have := Except.ok.inj h4
  rw [this]
  rfl

/-- The readings use the waiting measurements one after the other. -/
theorem several (hf : f.Fine) (env : Env) (post : List (Api A W X C M E))
    (rs : List ((ℚ × Input A W) × Meas M)) :
    ∀ {c : Core A W X C M T} {b : ℚ}, Going b c → c.queue = [] →
      (∀ r ∈ rs, b ≤ r.1.1 ∧ r.1.1 ≠ invalidTime ∧ r.2.time ≤ r.1.1 ∧ r.2.time ≠ invalidTime) →
      (rs.map fun r => r.1.1).Pairwise (· ≤ ·) →
      apis env f (c.waiting (rs.map Prod.snd)) ((rs.map fun r => .imu r.1.1 r.1.2) ++ post) =
        apis env f c ((rs.flatMap fun r => [.imu r.1.1 r.1.2, .meas r.2]) ++ post) := by
  induction rs with
  | nil =>
    intro c b _ hq _ _
    have h5 : c.waiting [] = c := by cases c; cases hq; rfl
    simp only [List.map_nil, h5, List.nil_append, List.flatMap_nil]
  | cons r rs ih =>
    intro c b h hq hr hs
    obtain ⟨⟨t, u⟩, m⟩ := r
    obtain ⟨h1, h2, h3, h4⟩ := hr ((t, u), m) (by simp)
    dsimp only at h1 h2 h3 h4
    have h5 : c.waiting [] = c := by cases c; cases hq; rfl
    have e := front_imu env hf.still hf.apart hf.newest c h.inited h.pred m (rs.map Prod.snd) t u h.sorted
      (fun n hn => h.times.states n hn) (fun n hn => (h.le n hn).trans h1)
      (fun n hn => (h.meas n hn).trans h1) h3
    rw [h5] at e
    simp only [List.map_cons, List.cons_append, List.flatMap_cons, List.nil_append, apis] at e ⊢
    rw [e]
    have hi := going_imu hf h h1 h2 hq env u
    change _ = (api env f c (.imu t u) >>= fun d => api env f d (.meas m) >>= fun d => apis env f d _)
    change Post (api env f c (.imu t u)) _ at hi
    revert hi
    generalize api env f c (.imu t u) = x
    intro hi
    cases x with
    | error e => rfl
    | ok d =>
      obtain ⟨⟨g1, g2⟩, l, g3⟩ := hi d rfl
      have hm := going_meas hf g1 g2 g3 env h3 h4
      change Post (api env f d (.meas m)) _ at hm
      simp only [bind, Except.bind]
      revert hm
      generalize api env f d (.meas m) = y
      intro hm
      cases y with
      | error e => rfl
      | ok d2 =>
        obtain ⟨k1, k2⟩ := hm d2 rfl
        rw [List.map_cons, List.pairwise_cons] at hs
        exact ih k1 k2 (fun r' hr' => ⟨hs.1 _ (List.mem_map_of_mem hr'), (hr r' (by simp [hr'])).2⟩) hs.2

/-- Measurements ahead of the newest state queue up. -/
theorem queue_up (env : Env) (ms : List (Meas M)) (post : List (Api A W X C M E)) :
    ∀ {c : Core A W X C M T}, c.inited = true → c.predMade = true →
      (∀ m ∈ ms, m.time > timeOf c.states.last) →
      apis env f c (ms.map .meas ++ post) = apis env f (c.waiting (c.queue ++ ms)) post := by
  induction ms with
  | nil =>
    intro c _ _ _
    have h5 : c.waiting (c.queue ++ []) = c := by simp [waiting]
    rw [h5]
    rfl
  | cons m ms ih =>
    intro c hi hp hm
    have e : api env f c (.meas m) = .ok (c.waiting (c.queue ++ [m])) := by
      simp [api, addMeasurement, hi, hp, hm m (by simp), pure, Except.pure, waiting]
    simp only [List.map_cons, List.cons_append, apis]
    rw [e]
    change apis env f (c.waiting (c.queue ++ [m])) (ms.map .meas ++ post) = _
    rw [ih (c := c.waiting (c.queue ++ [m])) hi hp (fun m' h' => hm m' (by simp [h']))]
    simp [waiting]

end MSF.Flow
