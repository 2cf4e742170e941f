import Verif.Lemmas.FlowAbs
import Verif.Props.TimeOrigin
import Verif.Lemmas.Quat
import Verif.Spec.Signs
import Verif.Props.Demo

/-!
# Runs with relative measurements: C107, C108
-/

namespace MSF

open Matrix

/-! ## Absolute readings -/

/-- A call with an absolute reading, as the core without relative measurements gets it. -/
def Api.plain {aux : List VarDesc} :
    Api (V3 ℝ) (V3 ℝ) (Option (Values (coreDef aux)))
      (Option (ErrMat ℝ (coreDef aux)) × Option (ErrMat ℝ (coreDef aux))) RelReading ExtState →
    Api (V3 ℝ) (V3 ℝ) (Option (Values (coreDef aux))) (Option (ErrMat ℝ (coreDef aux))) Reading ExtState
  | .init t s => .init t ⟨s.u, s.x, s.P.1⟩
  | .imu t u => .imu t u
  | .ext t u e => .ext t u e
  | .meas m => .meas ⟨m.time, m.sensor, m.body.reading⟩

/-- A published state without `Fd`. -/
def Event.plain {X C F : Type} : Event X (C × F) → Event X C
  | .initial t x P => .initial t x P.1
  | .afterPropagation t x P => .afterPropagation t x P.1
  | .afterUpdate t x P => .afterUpdate t x P.1

/-- The filter with relative measurements extends the one without: if all readings are absolute, both
publish the same, or both reach the same undefined behaviour. -/
theorem absolute_runs {aux : List VarDesc} (np : NoiseParams ℝ (coreDef aux)) (uc : UserCalc (coreDef aux))
    (env : Env) (calls : List (Api (V3 ℝ) (V3 ℝ) (Option (Values (coreDef aux)))
      (Option (ErrMat ℝ (coreDef aux)) × Option (ErrMat ℝ (coreDef aux))) RelReading ExtState))
    (habs : ∀ m, Api.meas m ∈ calls → m.body.relative = false) :
    ((relKernel np uc).run env calls).map (fun c => c.out.map Event.plain) =
      (Core.apis env (readingKernel np uc) (Core.new (readingKernel np uc)) (calls.map Api.plain)).map
        Core.out := by
  have h1 := (relKernel np uc).run_absolute env calls (fun m hm => by
    change (m.body.relative && _) = false
    rw [habs m hm]; rfl)
  have h2 := apis_new_map (absoluteHom np uc) 0 (Shiftable.zero Set.univ) env (calls.map Api.plain)
    (fun _ _ => trivial)
  rw [Env.shift_zero, List.map_map] at h2
  have e : calls.map ((absoluteHom np uc).api 0 ∘ Api.plain) =
      calls.map ((relKernel np uc).forgetK.api 0) := by
    refine List.map_congr_left fun o ho => ?_
    cases o with
    | init t s => rfl
    | imu t u => rfl
    | ext t u e => rfl
    | meas m =>
      change Api.meas ⟨m.time + 0, m.sensor, Reading.absolute m.body.reading⟩ =
        Api.meas ⟨m.time + 0, m.sensor, m.body⟩
      have := habs m ho
      obtain ⟨t, i, r, b⟩ := m
      dsimp only at this
      subst this
      rfl
  rw [e, h1] at h2
  have key : ∀ (r1 : Except UB (Core (V3 ℝ) (V3 ℝ) (Option (Values (coreDef aux)))
      (Option (ErrMat ℝ (coreDef aux)) × Option (ErrMat ℝ (coreDef aux))) RelReading (Tracker ℝ)))
      (r2 : Except UB (Core (V3 ℝ) (V3 ℝ) (Option (Values (coreDef aux)))
      (Option (ErrMat ℝ (coreDef aux))) Reading (Tracker ℝ))),
      (r1.map ((relKernel np uc).forgetK.core 0)).map Core.out =
        r2.map (fun c => c.out.map ((absoluteHom np uc).event 0)) →
      r1.map (fun c => c.out.map Event.plain) = r2.map Core.out := by
    intro r1 r2 h
    cases r1 <;> cases r2 <;> first | cases h; rfl | cases h | skip
    rename_i c1 c2
    have h3 := Except.ok.inj h
    have p1 : ∀ l, List.map ((relKernel np uc).forgetK.event 0) l = List.map Event.plain l := by
      intro l
      refine List.map_congr_left fun o _ => ?_
      cases o <;> simp only [KHom.event, Event.plain, add_zero] <;> rfl
    have p2 : ∀ l, List.map ((absoluteHom np uc).event 0) l = l := by
      intro l
      conv_rhs => rw [← List.map_id l]
      refine List.map_congr_left fun o _ => ?_
      cases o <;> simp only [KHom.event, add_zero] <;> rfl
    refine congrArg Except.ok ?_
    change List.map ((relKernel np uc).forgetK.event 0) c1.out =
      List.map ((absoluteHom np uc).event 0) c2.out at h3
    rw [p1, p2] at h3
    exact h3
  exact key _ _ h2

/-! ## C107 -/

/-- The pose expressed in another frame of the sensor: the origin is moved by `a`, the attitude turned by
`g`. -/
noncomputable def Reading.reframe (a : V3 ℝ) (g : Quat ℝ) : Reading → Reading
  | .pose ix fixed enable thr z => .pose ix fixed enable thr ⟨z.z_p + a, g.mul z.z_q, z.R_⟩
  | r => r

/-- The same for the measurements of a relative pose sensor. -/
noncomputable def RelReading.reframe (a : V3 ℝ) (g : Quat ℝ) (m : RelReading) : RelReading :=
  if m.relative then ⟨m.reading.reframe a g, true⟩ else m

/-- Every sensor has its own frame. -/
noncomputable def Api.reframe {X C E : Type} (a : Int → V3 ℝ) (g : Int → Quat ℝ) :
    Api (V3 ℝ) (V3 ℝ) X C RelReading E → Api (V3 ℝ) (V3 ℝ) X C RelReading E
  | .meas m => .meas ⟨m.time, m.sensor, m.body.reframe (a m.sensor) (g m.sensor)⟩
  | o => o

theorem relResidual_reframe (old new : PoseView ℝ) (prev z : V3 ℝ × Quat ℝ) (a : V3 ℝ) {g : Quat ℝ}
    (hg : g.normSq = 1) :
    PoseView.relResidual old new (prev.1 + a, g.mul prev.2) (z.1 + a, g.mul z.2) =
      PoseView.relResidual old new prev z := by
  have e1 : (g.mul z.2).conj.mul (g.mul prev.2) = z.2.conj.mul prev.2 := by
    have h1 : (⟨g.normSq, 0, 0, 0⟩ : Quat ℝ) = Quat.one := by rw [hg]; rfl
    rw [Quat.conj_mul, Quat.mul_assoc', ← Quat.mul_assoc' g.conj, Quat.conj_mul_self, h1, Quat.one_mul']
  have e2 : z.1 + a - (prev.1 + a) = z.1 - prev.1 := add_sub_add_right_eq_sub ..
  simp only [PoseView.relResidual, e1, e2]

theorem RelReading.reframe_reading_isPose (a : V3 ℝ) (g : Quat ℝ) (m : RelReading) :
    (m.reframe a g).reading.isPose = m.reading.isPose ∧ (m.reframe a g).relative = m.relative ∧
      (m.reframe a g).ignored = m.ignored := by
  obtain ⟨r, b⟩ := m
  cases b <;> cases r <;> exact ⟨rfl, rfl, rfl⟩

theorem RelReading.reframe_trivial (m : RelReading) : m.reframe 0 Quat.one = m := by
  obtain ⟨r, b⟩ := m
  cases b <;> cases r <;>
    simp only [RelReading.reframe, Reading.reframe, Bool.false_eq_true, if_true, if_false, add_zero,
      Quat.one_mul']

theorem relReadingUpdate_reframe {aux : List VarDesc} (uc : UserCalc (coreDef aux)) (tr : Tracker ℝ)
    (prev cur : RelReading) (hp : prev.relative = true) (hc : cur.relative = true) (a : V3 ℝ) {g : Quat ℝ}
    (hg : g.normSq = 1) (xo : Option (Values (coreDef aux))) (Po F : Option (ErrMat ℝ (coreDef aux)))
    (x : Option (Values (coreDef aux))) (P : Option (ErrMat ℝ (coreDef aux))) :
    relReadingUpdate uc tr (prev.reframe a g) (cur.reframe a g) xo Po F x P =
      relReadingUpdate uc tr prev cur xo Po F x P := by
  obtain ⟨r1, b1⟩ := prev
  obtain ⟨r2, b2⟩ := cur
  subst hp hc
  cases r1 with
  | pose ix1 f1 e1 t1 z1 =>
    cases r2 with
    | pose ix f e t z =>
      have hr : ∀ vo vn : PoseView ℝ,
          PoseView.relResidual vo vn (z1.z_p + a, g.mul z1.z_q) (z.z_p + a, g.mul z.z_q) =
            PoseView.relResidual vo vn (z1.z_p, z1.z_q) (z.z_p, z.z_q) :=
        fun vo vn => relResidual_reframe vo vn (z1.z_p, z1.z_q) (z.z_p, z.z_q) a hg
      simp only [RelReading.reframe, if_true, Reading.reframe, relReadingUpdate, relPoseUpdate, hr]
    | _ => rfl
  | _ => cases r2 <;> rfl

/-- The frame of a sensor that provides absolute poses is not changed. -/
def FrameOk (a : Int → V3 ℝ) (g : Int → Quat ℝ) (m : Meas RelReading) : Prop :=
  m.body.reading.isPose = true → m.body.relative = false → a m.sensor = 0 ∧ g m.sensor = Quat.one

/-- Changing the frames of the relative sensors is a morphism of the kernel to itself. -/
noncomputable def reframeHom {aux : List VarDesc} (np : NoiseParams ℝ (coreDef aux))
    (uc : UserCalc (coreDef aux)) (a : Int → V3 ℝ) (g : Int → Quat ℝ) (hg : ∀ i, (g i).normSq = 1) :
    RHom (FrameOk a g) (relKernel np uc) (relKernel np uc) where
  x := id
  c := id
  m i b := b.reframe (a i) (g i)
  t := id
  e := id
  prop _ _ _ _ := rfl
  extProp _ _ := rfl
  predP _ _ _ _ := rfl
  update i tr b s P := by
    obtain ⟨r, rel⟩ := b
    cases rel <;> cases r <;> rfl
  P0 := rfl
  tr0 := rfl
  spike _ := rfl
  numX _ := rfl
  numPos _ := rfl
  g := id
  fd _ _ _ := rfl
  fd0 := rfl
  mulF _ _ := rfl
  isRel i b := by
    obtain ⟨h1, h2, -⟩ := b.reframe_reading_isPose (a i) (g i)
    simp only [relKernel, h1, h2]
  cast i b := (b.reframe_reading_isPose (a i) (g i)).1
  clear i b P _ := by
    obtain ⟨r, rel⟩ := b
    cases rel <;> cases r <;> rfl
  relUpdate m1 m2 q1 q2 hs hr hca tr xo Po G s P := by
    have h2 : m2.body.relative = true := by
      simp only [relKernel, Bool.and_eq_true] at hr
      exact hr.1
    have key : ∀ Po P, relReadingUpdate uc tr (m1.body.reframe (a m1.sensor) (g m1.sensor))
        (m2.body.reframe (a m2.sensor) (g m2.sensor)) xo Po G s P =
        relReadingUpdate uc tr m1.body m2.body xo Po G s P := by
      intro Po P
      rw [hs]
      by_cases h1 : m1.body.relative = true
      · exact relReadingUpdate_reframe uc tr m1.body m2.body h1 h2 _ (hg _) xo Po G s P
      · obtain ⟨ha, hq⟩ := q1 hca (by simpa using h1)
        rw [hs] at ha hq
        rw [ha, hq, RelReading.reframe_trivial, RelReading.reframe_trivial]
    exact key _ _

theorem Event.map_id {X C : Type} (f : Event X C → Event X C)
    (h1 : ∀ t x P, f (.initial t x P) = .initial (t + 0) x P)
    (h2 : ∀ t x P, f (.afterPropagation t x P) = .afterPropagation (t + 0) x P)
    (h3 : ∀ t x P, f (.afterUpdate t x P) = .afterUpdate (t + 0) x P) (l : List (Event X C)) :
    l.map f = l := by
  have : f = id := by
    funext e
    cases e with
    | initial t x P => rw [h1, add_zero]; rfl
    | afterPropagation t x P => rw [h2, add_zero]; rfl
    | afterUpdate t x P => rw [h3, add_zero]; rfl
  rw [this, List.map_id]

/-- **C107.** Only differences between the measurements of a relative pose sensor matter.  In any sequence
of calls, let every sensor express its positions with respect to another origin and its attitudes with
respect to other axes, a different one for every sensor, except for sensors with absolute poses.  The filter
publishes the same states, with the same covariances. -/
theorem C107_differences {aux : List VarDesc} (np : NoiseParams ℝ (coreDef aux)) (uc : UserCalc (coreDef aux))
    (env : Env) (a : Int → V3 ℝ) (g : Int → Quat ℝ) (hg : ∀ i, (g i).normSq = 1)
    (calls : List (Api (V3 ℝ) (V3 ℝ) (Option (Values (coreDef aux)))
      (Option (ErrMat ℝ (coreDef aux)) × Option (ErrMat ℝ (coreDef aux))) RelReading ExtState))
    (hmode : ∀ m, Api.meas m ∈ calls → m.body.reading.isPose = true → m.body.relative = false →
      a m.sensor = 0 ∧ g m.sensor = Quat.one) :
    ((relKernel np uc).run env (calls.map (Api.reframe a g))).map Core.out =
      ((relKernel np uc).run env calls).map Core.out := by
  have h := (reframeHom np uc a g hg).run env calls (by
    intro o ho
    cases o with
    | meas m => exact hmode m ho
    | _ => trivial)
  have e : (reframeHom np uc a g hg).pair.api 0 = Api.reframe a g := by
    funext o
    cases o with
    | init t s => exact congrArg (Api.init · s) (add_zero t)
    | imu t u => exact congrArg (Api.imu · u) (add_zero t)
    | ext t u e =>
      change Api.ext (t + 0) u (e.map id) = Api.ext t u e
      rw [add_zero, Option.map_id]
      rfl
    | meas m =>
      change Api.meas ⟨m.time + 0, m.sensor, _⟩ = Api.meas ⟨m.time, m.sensor, _⟩
      rw [add_zero]
      rfl
  rw [e] at h
  rw [h]
  cases (relKernel np uc).run env calls with
  | error e => rfl
  | ok c =>
    exact congrArg Except.ok (Event.map_id _ (fun _ _ _ => rfl) (fun _ _ _ => rfl) (fun _ _ _ => rfl) c.out)

/-! ## C108 -/

/-- Readings that a sensor other than a pose or pressure sensor provides in relative mode. -/
def RelReading.Unused (m : RelReading) : Prop :=
  m.relative = true ∧ match m.reading with
    | .pose .. => False
    | .pressure .. => False
    | _ => True

/-- Two calls that differ at most in what such a sensor has measured. -/
def SameButUnused {X C E : Type} : Api (V3 ℝ) (V3 ℝ) X C RelReading E →
    Api (V3 ℝ) (V3 ℝ) X C RelReading E → Prop
  | .meas m, .meas m' => m = m' ∨
      m.time = m'.time ∧ m.sensor = m'.sensor ∧ m.body.Unused ∧ m'.body.Unused
  | o, o' => o = o'

/-- What is left of such a reading. -/
noncomputable def RelReading.blind (m : RelReading) : RelReading :=
  if m.relative then
    match m.reading with
    | .pose ix f e t z => ⟨.pose ix f e t z, true⟩
    | .pressure bp e t z n => ⟨.pressure bp e t z n, true⟩
    | _ => ⟨.distance 0 0 false 0 0 0, true⟩
  else m

theorem RelReading.blind_eq {m m' : RelReading} (h : m.Unused) (h' : m'.Unused) : m.blind = m'.blind := by
  obtain ⟨r, b⟩ := m
  obtain ⟨r', b'⟩ := m'
  obtain ⟨h1, h2⟩ := h
  obtain ⟨h1', h2'⟩ := h'
  dsimp only at h1 h1'
  subst h1 h1'
  cases r <;> cases r' <;> first | rfl | exact h2.elim | exact h2'.elim

/-- Forgetting such readings is a morphism of the kernel to itself. -/
noncomputable def blindHom {aux : List VarDesc} (np : NoiseParams ℝ (coreDef aux))
    (uc : UserCalc (coreDef aux)) : RHom (fun _ => True) (relKernel np uc) (relKernel np uc) where
  x := id
  c := id
  m _ b := b.blind
  t := id
  e := id
  prop _ _ _ _ := rfl
  extProp _ _ := rfl
  predP _ _ _ _ := rfl
  update i tr b s P := by
    obtain ⟨r, rel⟩ := b
    cases rel <;> cases r <;> rfl
  P0 := rfl
  tr0 := rfl
  spike _ := rfl
  numX _ := rfl
  numPos _ := rfl
  g := id
  fd _ _ _ := rfl
  fd0 := rfl
  mulF _ _ := rfl
  isRel i b := by
    obtain ⟨r, rel⟩ := b
    cases rel <;> cases r <;> rfl
  cast i b := by
    obtain ⟨r, rel⟩ := b
    cases rel <;> cases r <;> rfl
  clear i b P hb := by
    obtain ⟨r, rel⟩ := b
    cases rel <;> cases r <;> first | rfl | cases hb
  relUpdate m1 m2 _ _ _ hr hca tr xo Po G s P := by
    obtain ⟨t1, i1, r1, b1⟩ := m1
    obtain ⟨t2, i2, r2, b2⟩ := m2
    cases b1 <;> cases b2 <;> cases r1 <;> cases r2 <;> first | rfl | cases hr | cases hca

/-- **C108 is violated.** Two sequences of calls that differ in everything a position, angle or distance
sensor in relative mode has measured make the filter publish the same states and covariances: in relative
mode these sensors are not used at all. -/
theorem C108_ignored_violated {aux : List VarDesc} (np : NoiseParams ℝ (coreDef aux))
    (uc : UserCalc (coreDef aux)) (env : Env)
    (calls calls' : List (Api (V3 ℝ) (V3 ℝ) (Option (Values (coreDef aux)))
      (Option (ErrMat ℝ (coreDef aux)) × Option (ErrMat ℝ (coreDef aux))) RelReading ExtState))
    (h : List.Forall₂ SameButUnused calls calls') :
    ((relKernel np uc).run env calls).map Core.out = ((relKernel np uc).run env calls').map Core.out := by
  have key : ∀ l, ((relKernel np uc).run env (l.map ((blindHom np uc).pair.api 0))).map Core.out =
      ((relKernel np uc).run env l).map Core.out := by
    intro l
    rw [(blindHom np uc).run env l (by
      intro o _
      cases o <;> trivial)]
    cases (relKernel np uc).run env l with
    | error e => rfl
    | ok c =>
      exact congrArg Except.ok
        (Event.map_id _ (fun _ _ _ => rfl) (fun _ _ _ => rfl) (fun _ _ _ => rfl) c.out)
  rw [← key calls, ← key calls']
  congr 2
  induction h with
  | nil => rfl
  | cons ho _ ih =>
    rw [List.map_cons, List.map_cons, ih]
    congr 1
    rename_i o o' _ _ _
    cases o <;> cases o' <;> first | cases ho <;> rfl | skip
    rename_i m m'
    rcases ho with rfl | ⟨h1, h2, h3, h4⟩
    · rfl
    · change Api.meas ⟨m.time + 0, m.sensor, m.body.blind⟩ = Api.meas ⟨m'.time + 0, m'.sensor, m'.body.blind⟩
      rw [h1, h2, RelReading.blind_eq h3 h4]

/-- A pressure reading of a sensor in relative mode, as a sensor in absolute mode provides it. -/
def RelReading.pressureAbs (m : RelReading) : RelReading :=
  match m.reading with
  | .pressure bp e t z n => ⟨.pressure bp e t z n, false⟩
  | _ => m

/-- The same for a call. -/
def Api.pressureAbs {X C E : Type} : Api (V3 ℝ) (V3 ℝ) X C RelReading E → Api (V3 ℝ) (V3 ℝ) X C RelReading E
  | .meas m => .meas ⟨m.time, m.sensor, m.body.pressureAbs⟩
  | o => o

/-- The mode of a pressure sensor can be forgotten. -/
noncomputable def pressureHom {aux : List VarDesc} (np : NoiseParams ℝ (coreDef aux))
    (uc : UserCalc (coreDef aux)) : RHom (fun _ => True) (relKernel np uc) (relKernel np uc) where
  x := id
  c := id
  m _ b := b.pressureAbs
  t := id
  e := id
  prop _ _ _ _ := rfl
  extProp _ _ := rfl
  predP _ _ _ _ := rfl
  update i tr b s P := by
    obtain ⟨r, rel⟩ := b
    cases rel <;> cases r <;> rfl
  P0 := rfl
  tr0 := rfl
  spike _ := rfl
  numX _ := rfl
  numPos _ := rfl
  g := id
  fd _ _ _ := rfl
  fd0 := rfl
  mulF _ _ := rfl
  isRel i b := by
    obtain ⟨r, rel⟩ := b
    cases rel <;> cases r <;> rfl
  cast i b := by
    obtain ⟨r, rel⟩ := b
    cases rel <;> cases r <;> rfl
  clear i b P hb := by
    obtain ⟨r, rel⟩ := b
    cases rel <;> cases r <;> first | rfl | cases hb
  relUpdate m1 m2 _ _ _ hr hca tr xo Po G s P := by
    obtain ⟨t1, i1, r1, b1⟩ := m1
    obtain ⟨t2, i2, r2, b2⟩ := m2
    cases b1 <;> cases b2 <;> cases r1 <;> cases r2 <;> first | rfl | cases hr | cases hca

/-- **C108, pressures (partial).** A pressure sensor in relative mode is used as one in absolute mode: every
sequence of calls publishes the same states and covariances in both modes.
Missing: position, angle and distance sensors, see `C108_ignored_violated`. -/
theorem C108_pressure_partial {aux : List VarDesc} (np : NoiseParams ℝ (coreDef aux))
    (uc : UserCalc (coreDef aux)) (env : Env)
    (calls : List (Api (V3 ℝ) (V3 ℝ) (Option (Values (coreDef aux)))
      (Option (ErrMat ℝ (coreDef aux)) × Option (ErrMat ℝ (coreDef aux))) RelReading ExtState)) :
    ((relKernel np uc).run env (calls.map Api.pressureAbs)).map Core.out =
      ((relKernel np uc).run env calls).map Core.out := by
  have h := (pressureHom np uc).run env calls (by
    intro o _
    cases o <;> trivial)
  have e : (pressureHom np uc).pair.api 0 = Api.pressureAbs := by
    funext o
    cases o with
    | init t s => exact congrArg (Api.init · s) (add_zero t)
    | imu t u => exact congrArg (Api.imu · u) (add_zero t)
    | ext t u e =>
      change Api.ext (t + 0) u (e.map id) = Api.ext t u e
      rw [add_zero, Option.map_id]
      rfl
    | meas m =>
      change Api.meas ⟨m.time + 0, m.sensor, _⟩ = Api.meas ⟨m.time, m.sensor, _⟩
      rw [add_zero]
      rfl
  rw [e] at h
  rw [h]
  cases (relKernel np uc).run env calls with
  | error e => rfl
  | ok c =>
    exact congrArg Except.ok (Event.map_id _ (fun _ _ _ => rfl) (fun _ _ _ => rfl) (fun _ _ _ => rfl) c.out)

/-- A reading that the theorem is about: the two calls differ. -/
example (bp : Nat) (e : Bool) (thr z n : ℝ) :
    Api.pressureAbs (X := ℝ) (C := ℝ) (E := ExtState) (.meas ⟨1, 0, ⟨.pressure bp e thr z n, true⟩⟩) ≠
      .meas ⟨1, 0, ⟨.pressure bp e thr z n, true⟩⟩ := by
  intro h
  simp [Api.pressureAbs, RelReading.pressureAbs] at h

/-- `pnh.param("..._absolute_measurements", ..., default)`: pose_sensorhandler.hpp:42,
position_sensorhandler.hpp:38, spherical_sensorhandler.hpp:39 and :143; the pressure handler passes `true`
(pressure_sensorhandler.hpp:75). -/
def Reading.byDefault : Reading → RelReading
  | .pose ix f e t z => ⟨.pose ix f e t z, false⟩
  | .pressure bp e t z n => ⟨.pressure bp e t z n, false⟩
  | .position pip f e t z R_ => ⟨.position pip f e t z R_, true⟩
  | .angle pip f e t z n => ⟨.angle pip f e t z n, true⟩
  | .distance pip f e t z n => ⟨.distance pip f e t z n, true⟩

/-- **C108 is violated by the defaults.** A position or spherical sensor whose parameters are not set: no
run depends on what it has measured. -/
theorem C108_defaults_violated {aux : List VarDesc} (np : NoiseParams ℝ (coreDef aux))
    (uc : UserCalc (coreDef aux)) (env : Env)
    (before after : List (Api (V3 ℝ) (V3 ℝ) (Option (Values (coreDef aux)))
      (Option (ErrMat ℝ (coreDef aux)) × Option (ErrMat ℝ (coreDef aux))) RelReading ExtState))
    (t : ℚ) (i : Int) (r r' : Reading) (hr : r.isPose = false) (hr' : r'.isPose = false)
    (hp : ∀ bp e thr z n, r ≠ .pressure bp e thr z n) (hp' : ∀ bp e thr z n, r' ≠ .pressure bp e thr z n) :
    ((relKernel np uc).run env (before ++ .meas ⟨t, i, r.byDefault⟩ :: after)).map Core.out =
      ((relKernel np uc).run env (before ++ .meas ⟨t, i, r'.byDefault⟩ :: after)).map Core.out := by
  have hu : ∀ r : Reading, r.isPose = false → (∀ bp e thr z n, r ≠ .pressure bp e thr z n) →
      r.byDefault.Unused := by
    intro r h1 h2
    cases r with
    | pose => cases h1
    | pressure bp e thr z n => exact (h2 _ _ _ _ _ rfl).elim
    | _ => exact ⟨rfl, trivial⟩
  have hrefl : ∀ l : List (Api (V3 ℝ) (V3 ℝ) (Option (Values (coreDef aux)))
      (Option (ErrMat ℝ (coreDef aux)) × Option (ErrMat ℝ (coreDef aux))) RelReading ExtState),
      List.Forall₂ SameButUnused l l := by
    intro l
    induction l with
    | nil => exact .nil
    | cons o l ih =>
      refine .cons ?_ ih
      cases o <;> first | exact rfl | exact .inl rfl
  exact C108_ignored_violated np uc env _ _ (List.rel_append (hrefl before)
    (.cons (.inr ⟨rfl, rfl, hu r hr hp, hu r' hr' hp'⟩) (hrefl after)))

theorem attResidual_inj {e e' : Quat ℝ} (he : e.normSq = e'.normSq) {a : V3 ℝ}
    (h : attResidual e = some a) (h' : attResidual e' = some a) : e = e' ∨ e = e'.neg := by
  unfold attResidual at h h'
  by_cases hw : e.w = 0
  · rw [if_pos hw] at h; cases h
  by_cases hw' : e'.w = 0
  · rw [if_pos hw'] at h'; cases h'
  rw [if_neg hw] at h
  rw [if_neg hw'] at h'
  have k : ∀ i, e.vec i = a i / 2 * e.w := fun i => by
    have := congrFun (Option.some.inj h) i
    field_simp at this ⊢
    linarith
  have k' : ∀ i, e'.vec i = a i / 2 * e'.w := fun i => by
    have := congrFun (Option.some.inj h') i
    field_simp at this ⊢
    linarith
  obtain ⟨w, x, y, z⟩ := e
  obtain ⟨w', x', y', z'⟩ := e'
  have k0 : x = a 0 / 2 * w := k 0
  have k1 : y = a 1 / 2 * w := k 1
  have k2 : z = a 2 / 2 * w := k 2
  have l0 : x' = a 0 / 2 * w' := k' 0
  have l1 : y' = a 1 / 2 * w' := k' 1
  have l2 : z' = a 2 / 2 * w' := k' 2
  simp only [Quat.normSq] at he
  subst k0 k1 k2 l0 l1 l2
  have hs : (w - w') * (w + w') = 0 := by
    have : (w * w - w' * w') * (1 + (a 0 / 2) ^ 2 + (a 1 / 2) ^ 2 + (a 2 / 2) ^ 2) = 0 := by
      linear_combination he
    rcases mul_eq_zero.1 this with h | h
    · linear_combination h
    · nlinarith [sq_nonneg (a 0 / 2), sq_nonneg (a 1 / 2), sq_nonneg (a 2 / 2)]
  rcases mul_eq_zero.1 hs with h | h
  · left
    rw [sub_eq_zero.1 h]
  · right
    rw [eq_neg_of_add_eq_zero_left h]
    simp [Quat.neg]

theorem Quat.mul_left_inj' {d a b : Quat ℝ} (hd : d.normSq ≠ 0) (h : d.mul a = d.mul b) : a = b := by
  have h1 := congrArg (Quat.mul d.conj) h
  rw [← Quat.mul_assoc', ← Quat.mul_assoc', Quat.conj_mul_self] at h1
  obtain ⟨w, x, y, z⟩ := a
  obtain ⟨w', x', y', z'⟩ := b
  simp only [Quat.mul, zero_mul, sub_zero, add_zero, Quat.mk.injEq, mul_eq_mul_left_iff, hd, or_false] at h1
  simpa using h1

theorem Quat.mul_neg' (a b : Quat ℝ) : (a.mul b).neg = a.mul b.neg := by
  simp only [Quat.mul, Quat.neg, Quat.mk.injEq]
  refine ⟨?_, ?_, ?_, ?_⟩ <;> ring

theorem Quat.neg_mul' (a b : Quat ℝ) : (a.mul b).neg = a.neg.mul b := by
  simp only [Quat.mul, Quat.neg, Quat.mk.injEq]
  refine ⟨?_, ?_, ?_, ?_⟩ <;> ring

/-- **C108, the part that holds.** A relative pose is used: with the same previous measurement and the
same states, two readings that differ in position, or in attitude by more than the sign of the quaternion,
give different residuals.  Missing: sensors other than pose sensors, which ignore relative measurements. -/
theorem C108_pose_partial (old new : PoseView ℝ) (prev z z' : V3 ℝ × Quat ℝ)
    (ho : old.predAtt.normSq ≠ 0) (hn : new.predAtt.normSq ≠ 0) (hp : prev.2.normSq ≠ 0)
    (hz : z.2.normSq = z'.2.normSq) {r : Fin 7 → ℝ}
    (h : PoseView.relResidual old new prev z = some r)
    (h' : PoseView.relResidual old new prev z' = some r) :
    z.1 = z'.1 ∧ (z.2 = z'.2 ∨ z.2 = z'.2.neg) := by
  simp only [PoseView.relResidual, Option.bind_eq_bind, Option.bind_eq_some_iff, Option.some.injEq] at h h'
  obtain ⟨a, ha, y, hy, rfl⟩ := h
  obtain ⟨a', ha', y', hy', hr⟩ := h'
  have g : ∀ i, rows7 (z'.1 - prev.1 - (new.predPos - old.predPos)) a' y' i =
      rows7 (z.1 - prev.1 - (new.predPos - old.predPos)) a y i := fun i => congrFun hr i
  have haa : a' = a := by
    funext i
    fin_cases i
    · exact g 3
    · exact g 4
    · exact g 5
  subst haa
  have hpp : z.1 = z'.1 := by
    funext i
    have : z'.1 i - prev.1 i - (new.predPos i - old.predPos i) =
        z.1 i - prev.1 i - (new.predPos i - old.predPos i) := by
      fin_cases i
      · exact g 0
      · exact g 1
      · exact g 2
    linarith
  refine ⟨hpp, ?_⟩
  set d := (new.predAtt.conj.mul old.predAtt).conj with hd
  have hdn : d.normSq ≠ 0 := by
    rw [hd, Quat.normSq_conj, Quat.normSq_mul, Quat.normSq_conj]
    exact mul_ne_zero hn ho
  have key : ∀ q q' : Quat ℝ, d.mul (q.conj.mul prev.2) = d.mul (q'.conj.mul prev.2) → q = q' := by
    intro q q' hq
    have h1 := congrArg Quat.conj (Quat.mul_left_inj' hdn hq)
    rw [Quat.conj_mul, Quat.conj_mul, Quat.conj_conj, Quat.conj_conj] at h1
    exact Quat.mul_left_inj' (by rwa [Quat.normSq_conj]) h1
  rcases attResidual_inj (by simp only [Quat.normSq_mul, Quat.normSq_conj, hz]) ha ha' with h | h
  · exact .inl (key _ _ h)
  · refine .inr (key _ _ ?_)
    rw [h, Quat.mul_neg', Quat.neg_mul']
    congr 2

/-! ## Examples -/

/-- A sensor that turns its axes by a quarter turn and more. -/
noncomputable def Demo.turned : Quat ℝ := ⟨3 / 5, 0, 0, 4 / 5⟩

/-- Non-vacuity of C107: a pose sensor in relative mode (sensor 0) next to an absolute position sensor, as
in position_pose_sensor_fix.yaml, with a turned frame for the pose sensor. -/
example {aux : List VarDesc} (np : NoiseParams ℝ (coreDef aux)) (uc : UserCalc (coreDef aux)) (env : Env)
    (s : St (V3 ℝ) (V3 ℝ) (Option (Values (coreDef aux)))
      (Option (ErrMat ℝ (coreDef aux)) × Option (ErrMat ℝ (coreDef aux))))
    (ix : PoseIdx) (z1 z2 : PoseMeas ℝ) (u : Input (V3 ℝ) (V3 ℝ)) :=
  C107_differences np uc env (fun i => if i = 0 then ![1, 2, 3] else 0)
    (fun i => if i = 0 then Demo.turned else Quat.one)
    (by
      intro i
      split
      · simp only [Demo.turned, Quat.normSq]; norm_num
      · exact Quat.normSq_one)
    [.init 1 s, .imu (101 / 100) u, .imu (102 / 100) u, .imu (103 / 100) u,
      .meas ⟨101 / 100, 0, .pose ix 0 false 0 z1, true⟩,
      .meas ⟨102 / 100, 1, .position 5 0 false 0 0 1, false⟩,
      .meas ⟨103 / 100, 0, .pose ix 0 false 0 z2, true⟩]
    (by
      intro m hm h1 h2
      simp only [List.mem_cons, reduceCtorEq, Api.meas.injEq, List.not_mem_nil, or_false, false_or] at hm
      rcases hm with rfl | rfl | rfl
      · cases h2
      · cases h1
      · cases h2)

/-- Non-vacuity of C108: two position readings at opposite places. -/
example {aux : List VarDesc} (np : NoiseParams ℝ (coreDef aux)) (uc : UserCalc (coreDef aux)) (env : Env)
    (s : St (V3 ℝ) (V3 ℝ) (Option (Values (coreDef aux)))
      (Option (ErrMat ℝ (coreDef aux)) × Option (ErrMat ℝ (coreDef aux))))
    (u : Input (V3 ℝ) (V3 ℝ)) :=
  C108_defaults_violated np uc env
    [.init 1 s, .imu (101 / 100) u, .imu (102 / 100) u, .imu (103 / 100) u] [.imu (104 / 100) u] (102 / 100) 0
    (.position 5 0 false 0 ![100, 0, 0] 1) (.position 5 0 false 0 ![-100, 0, 0] 1) rfl rfl
    (by intros; simp) (by intros; simp)

/-- Non-vacuity of `C108_pose_partial`: the residual exists. -/
example : PoseView.relResidual (⟨0, Quat.one, 1, Quat.one, 0, Quat.one, 0⟩ : PoseView ℝ)
    ⟨0, Quat.one, 1, Quat.one, 0, Quat.one, 0⟩ (0, Quat.one) (![1, 0, 0], Quat.one) ≠ none := by
  simp [PoseView.relResidual, PoseView.predAtt, attResidual, yawResidual, Quat.one, Quat.mul, Quat.conj]

namespace Demo

/-- A scalar filter with relative measurements: the state moves half way towards the measured
displacement. -/
def relK : RelKernel ℚ ℚ ℚ ℚ ℚ (ℚ × Bool) Unit Unit :=
  { prop := K.prop, extProp := K.extProp, predP := K.predP
    update := fun t m x P => K.update t m.1 x P
    P0 := 0, tr0 := (), spike := K.spike, numX := K.numX, numPos := K.numPos
    fd := fun dt _ _ => 1 + dt
    fd0 := 1
    mulF := fun a b => a * b
    isRel := fun m => m.2
    cast := fun _ => true
    clear := fun _ P => P
    relUpdate := fun _ p m xo _ _ x P => ⟨(), x + 1 / 2 * ((m.1 - p.1) - (x - xo)), P / 2, true, false⟩ }

def relImu (t : ℚ) : Api ℚ ℚ ℚ (ℚ × ℚ) (ℚ × Bool) Unit := .imu t ⟨1, 0⟩

def relMeas (t z : ℚ) : Api ℚ ℚ ℚ (ℚ × ℚ) (ℚ × Bool) Unit := .meas ⟨t, 0, (z, true)⟩

/-- `Init` and ten readings, then two relative measurements with a displacement of `z` between them. -/
def relRun (z : ℚ) : List (Api ℚ ℚ ℚ (ℚ × ℚ) (ℚ × Bool) Unit) :=
  [.init 1 ⟨⟨0, 0⟩, 0, (1, 1)⟩, relImu (101 / 100), relImu (102 / 100), relImu (103 / 100),
    relImu (104 / 100), relImu (105 / 100), relImu (106 / 100), relMeas (103 / 100) 1,
    relMeas (105 / 100) (1 + z)]

def relNewest (shape : Bool) (z : ℚ) : Option (Event ℚ (ℚ × ℚ)) :=
  match relK.run ⟨.gnu fun _ _ => shape, .gnu fun _ _ => shape⟩ (relRun z) with
  | .ok c => c.out.getLast?
  | .error _ => none

/-- The runs of the theorems above do apply relative measurements: here the newest published state moves
with the measured displacement. -/
example : relNewest false 0 ≠ relNewest false 1 ∧ (relNewest false 0).isSome = true := by
  decide +kernel

end Demo

/-- **C22 is violated in a run.** With two measurements in the buffer and the newer one at the root of the
tree, the relative measurement has no effect, whatever it has measured. -/
theorem C22_run_violated : Demo.relNewest true 0 = Demo.relNewest true 1 ∧
    (Demo.relNewest true 0).isSome = true ∧ Demo.relNewest false 0 ≠ Demo.relNewest false 1 := by
  decide +kernel

end MSF
