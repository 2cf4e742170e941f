import Verif.Lemmas.Translate
import Verif.Props.TimeOrigin
import Verif.Props.Readings

/-!
# C82: where the world frame has its origin does not matter

The statement is about two complete runs of a filter.  In the second run everything that is a
position in the world frame is moved by `d`: the position and `p_wv` of the initial state, externally
propagated positions, position readings, and the height a pressure reading stands for.  Pose readings
are positions in the frame of the camera and stay.
-/

namespace MSF

open Matrix EKFState Core

/-- Add `d` to a three-dimensional vector. -/
def shiftVec (d : V3 ℝ) : (k : Kind) → Val ℝ k → Val ℝ k
  | .vec 3, x => x + d
  | _, x => x

/-- Move the variables at the positions `W` by `d`. -/
def translate {D : List VarDesc} (W : Nat → Bool) (d : V3 ℝ) (x : Values D) : Values D :=
  fun i => if W i then shiftVec d _ (x i) else x i

/-- Which variables are positions in the world frame: `p` and possibly auxiliary ones. -/
structure WorldVars (aux : List VarDesc) (W : Nat → Bool) : Prop where
  p : W 0 = true
  bw : W 3 = false
  ba : W 4 = false
  rest : ∀ i : Fin (coreDef aux).length, W i = true → i.val ≠ 0 →
    ((coreDef aux).get i).stype ≠ .coreProp ∧ ((coreDef aux).get i).multiplicative = false

/-- The reading a sensor gives when the world frame's origin is moved. -/
def Reading.translate (d : V3 ℝ) : Reading → Reading
  | .position pip fixed enable thr z R_ => .position pip fixed enable thr (z + d) R_
  | .pressure bp enable thr z n => .pressure bp enable thr (z + d 2) n
  | r => r

/-- A sensor whose lever arms, scale and bias are not world positions, and whose camera frame is at a
world position.  The spherical sensors measure from the origin of the world frame and are left out. -/
def Reading.Fits (W : Nat → Bool) : Reading → Prop
  | .position pip _ _ _ _ _ => W pip = false
  | .pose ix _ _ _ _ => W ix.L = false ∧ W ix.pic = false ∧ W ix.pwv = true
  | .pressure bp _ _ _ _ => W bp = false
  | .angle .. => False
  | .distance .. => False

section
variable {D : List VarDesc} {C : Type}

/-- The same call in the moved frame. -/
def Api.translate (W : Nat → Bool) (d : V3 ℝ) :
    Api (V3 ℝ) (V3 ℝ) (Option (Values D)) C Reading ExtState →
      Api (V3 ℝ) (V3 ℝ) (Option (Values D)) C Reading ExtState
  | .init t s => .init t { s with x := s.x.map (MSF.translate W d) }
  | .imu t u => .imu t u
  | .ext t u e => .ext t u (e.map fun e => { e with p := e.p + d })
  | .meas m => .meas { m with body := m.body.translate d }

/-- The same publication in the moved frame. -/
def Event.translate (W : Nat → Bool) (d : V3 ℝ) :
    Event (Option (Values D)) C → Event (Option (Values D)) C
  | .initial t x P => .initial t (x.map (MSF.translate W d)) P
  | .afterPropagation t x P => .afterPropagation t (x.map (MSF.translate W d)) P
  | .afterUpdate t x P => .afterUpdate t (x.map (MSF.translate W d)) P

/-- All measurements of a call fit. -/
def Api.Fits (W : Nat → Bool) : Api (V3 ℝ) (V3 ℝ) (Option (Values D)) C Reading ExtState → Prop
  | .meas m => m.body.Fits W
  | _ => True

end

/-! ### The translation as a morphism -/

def vecOff (d : V3 ℝ) : (k : Kind) → Val ℝ k
  | .vec 3 => d
  | k => Val.reset k

theorem addVal_vecOff (d : V3 ℝ) (k : Kind) (x : Val ℝ k) :
    addVal k (vecOff d k) x = shiftVec d k x := by
  match k with
  | .quat => rfl
  | .vec 3 => rfl
  | .vec 0 => exact addVal_reset _ x
  | .vec 1 => exact addVal_reset _ x
  | .vec 2 => exact addVal_reset _ x
  | .vec (n + 4) => exact addVal_reset _ x

def worldOff (D : List VarDesc) (W : Nat → Bool) (d : V3 ℝ) : Values D :=
  fun i => if W i then vecOff d _ else Val.reset _

theorem moved_worldOff {D : List VarDesc} (W : Nat → Bool) (d : V3 ℝ) (x : Values D) :
    moved (worldOff D W d) x = translate W d x := by
  funext i
  unfold moved worldOff translate
  by_cases h : W i
  · simp only [h, if_true, addVal_vecOff]
  · simp only [h]; exact addVal_reset _ _

variable {aux : List VarDesc} {W : Nat → Bool}

theorem WorldVars.movable (h : WorldVars aux W) (d : V3 ℝ) :
    Movable (worldOff (coreDef aux) W d) where
  vel := by
    have hv : W 1 = false := by
      by_contra hc
      exact (h.rest iv (by simpa using hc) (by simp)).1 rfl
    change (if W 1 then d else (0 : V3 ℝ)) = 0
    simp [hv]
  bw := by
    change (if W 3 then d else (0 : V3 ℝ)) = 0
    simp [h.bw]
  ba := by
    change (if W 4 then d else (0 : V3 ℝ)) = 0
    simp [h.ba]
  core i hi hs := by
    have : W i = false := by
      by_contra hc
      refine (h.rest i (by simpa using hc) fun h0 => hi (Fin.ext h0)).1 hs
    simp [worldOff, this]
  mult i hm := by
    have : W i = false := by
      by_contra hc
      by_cases h0 : i.val = 0
      · have : i = ip := Fin.ext h0
        subst this
        exact absurd hm (by change ¬ (coreDescs[0].multiplicative = true); decide)
      · rw [(h.rest i (by simpa using hc) h0).2] at hm
        cases hm
    simp [worldOff, this]

theorem WorldVars.off (h : WorldVars aux W) (d : V3 ℝ) :
    off3 (worldOff (coreDef aux) W d) ip rfl = d := by
  change (if W 0 then d else (0 : V3 ℝ)) = d
  simp [h.p]

theorem getVec_unmoved {D : List VarDesc} {d : V3 ℝ} {i : Nat} (hi : W i = false) (n : Nat)
    (s : Vars ℝ D) : getVec (unmovedVars (worldOff D W d) s) i n = getVec s i n := by
  unfold getVec
  by_cases h : i < D.length
  · rw [dif_pos h, dif_pos h]
    simp only [unmovedVars, worldOff, hi]
    exact congrArg (vecOf n _) (subVal_reset _ _)
  · rw [dif_neg h, dif_neg h]

theorem vecOf_sub (d : V3 ℝ) (k : Kind) (x : Val ℝ k) :
    vecOf 3 k (subVal k (vecOff d k) x) = (vecOf 3 k x).map (· - d) := by
  cases k with
  | quat => rfl
  | vec n =>
    by_cases h : n = 3
    · subst h; rfl
    · simp [vecOf, h]

theorem getVec_unmoved_world {D : List VarDesc} {d : V3 ℝ} {i : Nat} (hi : W i = true)
    (s : Vars ℝ D) :
    getVec (unmovedVars (worldOff D W d) s) i 3 = (getVec s i 3).map (· - d) := by
  unfold getVec
  by_cases h : i < D.length
  · rw [dif_pos h, dif_pos h]
    simp only [unmovedVars, worldOff, hi, if_true]
    exact vecOf_sub d _ _
  · rw [dif_neg h, dif_neg h]; rfl

theorem quatOf_subVal : ∀ (k : Kind) (b x : Val ℝ k), quatOf k (subVal k b x) = quatOf k x
  | .vec _, _, _ => rfl
  | .quat, _, _ => rfl

theorem getQuat_unmoved {D : List VarDesc} {d : V3 ℝ} (i : Nat) (s : Vars ℝ D) :
    getQuat (unmovedVars (worldOff D W d) s) i = getQuat s i := by
  unfold getQuat
  by_cases h : i < D.length
  · rw [dif_pos h, dif_pos h]
    exact quatOf_subVal _ _ _
  · rw [dif_neg h, dif_neg h]

theorem p_unmoved (h : WorldVars aux W) (d : V3 ℝ) (s : Vars ℝ (coreDef aux)) :
    p (unmovedVars (worldOff (coreDef aux) W d) s) = p s - d := by
  change p s - off3 (worldOff (coreDef aux) W d) ip rfl = _
  rw [h.off]

theorem q_unmoved (d : V3 ℝ) (s : Vars ℝ (coreDef aux)) :
    q (unmovedVars (worldOff (coreDef aux) W d) s) = q s := rfl

/-- A moved pose view gives the same Jacobian and residual. -/
theorem poseView_unmoved (h : WorldVars aux W) (d : V3 ℝ) (s : Vars ℝ (coreDef aux)) (ix : PoseIdx)
    (hL : W ix.L = false) (hc : W ix.pic = false) (hw : W ix.pwv = true) :
    poseView ix (unmovedVars (worldOff (coreDef aux) W d) s) =
      (poseView ix s).map fun v => { v with p := v.p - d, pwv := v.pwv - d } := by
  unfold poseView
  simp only [getVec_unmoved hL, getVec_unmoved hc, getVec_unmoved_world hw, getQuat_unmoved,
    p_unmoved h, q_unmoved, Option.bind_eq_bind]
  cases getVec s ix.L 1 with
  | none => rfl
  | some L =>
    cases getQuat s ix.qic with
    | none => rfl
    | some a =>
      cases getVec s ix.pic 3 with
      | none => rfl
      | some b =>
        cases getQuat s ix.qwv with
        | none => rfl
        | some c => cases getVec s ix.pwv 3 <;> rfl

theorem Reading.meas_translate (h : WorldVars aux W) (d : V3 ℝ) (r : Reading) (hr : r.Fits W) :
    (r.translate d).meas = (r.meas : SensorMeas (coreDef aux)).moved (worldOff _ W d) := by
  cases r with
  | position pip fixed enable thr z R_ =>
    have hr : W pip = false := hr
    have e1 : (fun s => positionH pip fixed (unmovedVars (worldOff (coreDef aux) W d) s)) =
        positionH pip fixed := by
      funext s
      simp only [positionH, getVec_unmoved hr, q_unmoved]
    have e2 : (fun s => positionResidual pip z (unmovedVars (worldOff (coreDef aux) W d) s)) =
        positionResidual pip (z + d) := by
      funext s
      simp only [positionResidual, sensorPos, getVec_unmoved hr, q_unmoved, p_unmoved h,
        Option.bind_eq_bind]
      cases getVec s pip 3 with
      | none => rfl
      | some l =>
        simp only [Option.bind_some, Option.some.injEq]
        abel
    simp only [Reading.translate, Reading.meas, SensorMeas.moved, AbsMeas.moved, e1, e2]
  | pose ix fixed enable thr z =>
    obtain ⟨hL, hc, hw⟩ : W ix.L = false ∧ W ix.pic = false ∧ W ix.pwv = true := hr
    have hd : ∀ a b : V3 ℝ, -(a - d) + (b - d) = -a + b := fun a b => by abel
    have e1 : (fun s => poseH ix fixed (unmovedVars (worldOff (coreDef aux) W d) s)) =
        poseH ix fixed := by
      funext s
      simp only [poseH, poseView_unmoved h d s ix hL hc hw, Option.bind_eq_bind]
      cases poseView ix s with
      | none => rfl
      | some v => simp only [Option.map_some, Option.bind_some, hd]
    have e2 : (fun s => (poseView ix (unmovedVars (worldOff (coreDef aux) W d) s)).bind
        fun v => v.residual z.z_p z.z_q) =
        fun s => (poseView ix s).bind fun v => v.residual z.z_p z.z_q := by
      funext s
      rw [poseView_unmoved h d s ix hL hc hw]
      cases poseView ix s with
      | none => rfl
      | some v =>
        simp only [Option.map_some, Option.bind_some, PoseView.residual, PoseView.predPos,
          PoseView.predAtt, hd]
    simp only [Reading.translate, Reading.meas, SensorMeas.moved, AbsMeas.moved, e1,
      Option.bind_eq_bind, e2]
  | pressure bp enable thr z n =>
    have hr : W bp = false := hr
    have e2 : (fun s => pressureResidual bp z (unmovedVars (worldOff (coreDef aux) W d) s)) =
        pressureResidual bp (z + d 2) := by
      funext s
      simp only [pressureResidual, getVec_unmoved hr, p_unmoved h, Option.bind_eq_bind]
      cases getVec s bp 1 with
      | none => rfl
      | some l =>
        simp only [Option.bind_some, Option.some.injEq, Pi.sub_apply]
        funext _
        ring
    simp only [Reading.translate, Reading.meas, SensorMeas.moved, AbsMeas.moved, e2]
  | angle => exact hr.elim
  | distance => exact hr.elim

/-- For every sequence of calls, the run in the moved frame publishes the moved states with the same
covariances at the same times; if one run ends in undefined behaviour, so does the other. -/
def TranslationInvariant (W : Nat → Bool) (np : NoiseParams ℝ (coreDef aux))
    (uc : UserCalc (coreDef aux)) : Prop :=
  ∀ (d : V3 ℝ) (env : Env) (calls : List (Api (V3 ℝ) (V3 ℝ) (Option (Values (coreDef aux)))
    (Option (ErrMat ℝ (coreDef aux))) Reading ExtState)), (∀ o ∈ calls, o.Fits W) →
    (Core.apis env (readingKernel np uc) (Core.new (readingKernel np uc))
        (calls.map (Api.translate W d))).map Core.out =
      (Core.apis env (readingKernel np uc) (Core.new (readingKernel np uc)) calls).map
        fun c => c.out.map (Event.translate W d)

/-- **C82** for every filter whose auxiliary process noise does not depend on values and whose
sanity check does not see the translation. -/
theorem C82_translation (h : WorldVars aux W) (np : NoiseParams ℝ (coreDef aux))
    (hq : ∀ s s' dt i, (∀ j, (s j).Q = (s' j).Q) → (np.qAux s dt i).Q = (np.qAux s' dt i).Q)
    (uc : UserCalc (coreDef aux))
    (hs : ∀ d x y c, uc.sanity (movedVars (worldOff _ W d) x) (movedVars (worldOff _ W d) y) c =
      movedVars (worldOff _ W d) (uc.sanity x y c)) : TranslationInvariant W np uc := by
  intro d env calls hfit
  have hs := hs d
  have h1 := fun cs => apis_new_map (readingHom np uc) 0 (Shiftable.zero Set.univ) env cs
    (fun _ _ => trivial)
  have h2 := fun cs => apis_new_map (sensorHom (h.movable d) np (fun s dt i => hq _ _ _ _ fun _ => rfl)
    uc hs) 0 (Shiftable.zero Set.univ) env cs (fun _ _ => trivial)
  rw [Env.shift_zero] at h1 h2
  have ev1 : (readingHom np uc).event 0 = id := by
    funext e
    cases e <;> simp [KHom.event, readingHom]
  have hc : ∀ o ∈ calls, (readingHom np uc).api 0 (o.translate W d) =
      (sensorHom (h.movable d) np (fun s dt i => hq _ _ _ _ fun _ => rfl) uc hs).api 0
        ((readingHom np uc).api 0 o) := by
    intro o ho
    have hm : moved (worldOff (coreDef aux) W d) = translate W d :=
      funext fun x => moved_worldOff W d x
    cases o with
    | init t s => simp [KHom.api, readingHom, sensorHom, Api.translate, KHom.st, hm]
    | imu t u => simp [KHom.api, Api.translate]
    | ext t u e =>
      cases e <;>
        simp [KHom.api, readingHom, sensorHom, Api.translate, ExtState.moved, h.off]
    | meas m =>
      have : m.body.Fits W := hfit _ ho
      simp [KHom.api, readingHom, sensorHom, Api.translate, KHom.meas,
        Reading.meas_translate h d m.body this]
  have a1 := h1 (calls.map (Api.translate W d))
  have a2 := h2 (calls.map ((readingHom np uc).api 0))
  have a3 := h1 calls
  rw [ev1] at a1 a3
  simp only [List.map_id] at a1 a3
  have hl : (calls.map (Api.translate W d)).map ((readingHom np uc).api 0) =
      (calls.map ((readingHom np uc).api 0)).map ((sensorHom (h.movable d) np
        (fun s dt i => hq _ _ _ _ fun _ => rfl) uc hs).api 0) := by
    rw [List.map_map, List.map_map]
    exact List.map_congr_left hc
  rw [← a1, hl, a2]
  have ev2 : (sensorHom (h.movable d) np (fun s dt i => hq _ _ _ _ fun _ => rfl) uc hs).event 0 =
      Event.translate W d := by
    have hm : moved (worldOff (coreDef aux) W d) = translate W d :=
      funext fun x => moved_worldOff W d x
    funext e
    cases e <;> simp [KHom.event, sensorHom, Event.translate, hm]
  rw [ev2]
  generalize Core.apis env (readingKernel np uc) (Core.new (readingKernel np uc)) calls = u at a3 ⊢
  generalize Core.apis env (sensorKernel np uc) (Core.new (sensorKernel np uc))
    (calls.map ((readingHom np uc).api 0)) = v at a3 ⊢
  cases u with
  | error e => cases v with
    | error e' => exact a3
    | ok c => cases a3
  | ok c => cases v with
    | error e' => cases a3
    | ok c' =>
      have : c'.out = c.out := by simpa [Except.map] using a3
      simp [Except.map, this]

theorem setQBlock_Q {D : List VarDesc} {s s' : Vars ℝ D} (h : ∀ j, (s j).Q = (s' j).Q)
    (i : Fin D.length) (dt σ : ℝ) (j : Fin D.length) :
    (setQBlock s i dt σ j).Q = (setQBlock s' i dt σ j).Q := by
  unfold setQBlock
  by_cases hj : j = i
  · subst hj; simp
  · simp [hj, h]

theorem scaleSanity_moved {rest : List VarDesc} (hW : W 5 = false) (d : V3 ℝ)
    (x : Vars ℝ (coreDef (⟨.vec 1, 5, .aux, 0⟩ :: rest))) :
    scaleSanity (movedVars (worldOff _ W d) x) = movedVars (worldOff _ W d) (scaleSanity x) := by
  have hi : ∀ s : Vars ℝ (coreDef (⟨.vec 1, 5, .aux, 0⟩ :: rest)),
      movedVars (worldOff _ W d) s ⟨5, by simp [coreDef, coreDescs]⟩ =
      s ⟨5, by simp [coreDef, coreDescs]⟩ := by
    intro s
    have e : worldOff (coreDef (⟨.vec 1, 5, .aux, 0⟩ :: rest)) W d
        ⟨5, by simp [coreDef, coreDescs]⟩ = Val.reset _ := by
      simp only [worldOff, hW]
      rfl
    unfold movedVars
    rw [e]
    exact congrArg (fun v => ({ s ⟨5, by simp [coreDef, coreDescs]⟩ with val := v } :
      StateVar ℝ _)) (addVal_reset _ _)
  unfold scaleSanity
  simp only [hi]
  split
  · funext j
    by_cases hj : j = ⟨5, by simp [coreDef, coreDescs]⟩
    · subst hj
      rw [hi, Function.update_self, Function.update_self]
    · rw [Function.update_of_ne hj]
      simp only [movedVars]
      rw [Function.update_of_ne hj]
  · rfl

/-- The noise parameters of the core with the auxiliary noise of a manager. -/
def noiseOf {D : List VarDesc} (a b g c : ℝ) (q : Vars ℝ D → ℝ → Vars ℝ D) : NoiseParams ℝ D :=
  ⟨a, b, g, c, q⟩

/-- **C82 for the position filter**: moving the initial position and all position readings by `d`
moves all published positions by `d` and changes nothing else. -/
theorem C82_position_filter (a b g c : ℝ) (n : AuxNoise ℝ) (fixedBias : Bool) :
    TranslationInvariant (· == 0) (noiseOf a b g c (positionQAux n)) (plainCalc fixedBias) := by
  refine C82_translation ⟨rfl, rfl, rfl, fun i hi h0 => absurd (by simpa using hi) h0⟩ _ ?_ _
    (fun _ _ _ _ => rfl)
  intro s s' dt i h
  exact setQBlock_Q h _ _ _ _

/-- The positions of the world frame in the filters with a pose sensor: `p` and `p_wv`. -/
def poseWorld (i : Nat) : Bool := i == 0 || i == 7

theorem poseWorld_vars (rest : List VarDesc) : WorldVars (poseAux ++ rest) poseWorld where
  p := rfl
  bw := rfl
  ba := rfl
  rest i hi h0 := by
    have : i.val = 7 := by
      simp only [poseWorld, Bool.or_eq_true, beq_iff_eq] at hi
      omega
    have e : (coreDef (poseAux ++ rest)).get i = ⟨.vec 3, 7, .aux, 0⟩ := by
      have : i = ⟨7, by simp [coreDef, coreDescs, poseAux]⟩ := Fin.ext this
      subst this
      rfl
    rw [e]
    decide

/-- **C82 for the pose filter**: moving `p` and `p_wv` of the initial state together moves both in
everything published and changes nothing else; pose readings stay as they are.  So the absolute
position of a filter with a pose sensor only is not observable: it stays where it was initialized. -/
theorem C82_pose_filter (a b g c : ℝ) (n : AuxNoise ℝ) (fixedBias : Bool) :
    TranslationInvariant poseWorld (noiseOf a b g c (poseQAux n)) (scaleCalc fixedBias) := by
  refine C82_translation (poseWorld_vars []) _ ?_ _ (fun d x _ _ => scaleSanity_moved rfl d x)
  intro s s' dt i h
  exact setQBlock_Q (setQBlock_Q (setQBlock_Q (setQBlock_Q (setQBlock_Q h _ _ _) _ _ _) _ _ _)
    _ _ _) _ _ _ _

/-- **C82 for the pose-pressure filter**: pressure readings move by the vertical component. -/
theorem C82_pose_pressure_filter (a b g c : ℝ) (n : AuxNoise ℝ) (fixedBias : Bool) :
    TranslationInvariant poseWorld (noiseOf a b g c (posePressureQAux n)) (scaleCalc fixedBias) := by
  refine C82_translation (poseWorld_vars _) _ ?_ _ (fun d x _ _ => scaleSanity_moved rfl d x)
  intro s s' dt i h
  exact setQBlock_Q (setQBlock_Q (setQBlock_Q (setQBlock_Q (setQBlock_Q h _ _ _) _ _ _) _ _ _)
    _ _ _) _ _ _ _

/-- **C82 for the position-pose filter**. -/
theorem C82_position_pose_filter (a b g c : ℝ) (n : AuxNoise ℝ) (fixedBias : Bool) :
    TranslationInvariant poseWorld (noiseOf a b g c (positionPoseQAux n)) (scaleCalc fixedBias) := by
  refine C82_translation (poseWorld_vars _) _ ?_ _ (fun d x _ _ => scaleSanity_moved rfl d x)
  intro s s' dt i h
  exact setQBlock_Q (setQBlock_Q (setQBlock_Q (setQBlock_Q (setQBlock_Q h _ _ _) _ _ _) _ _ _)
    _ _ _) _ _ _ _

/-- The readings of the shipped sensors fit: `p_ip` and the pressure bias at position 10, scale at 5,
`q_wv` 6, `p_wv` 7, `q_ic` 8, `p_ic` 9; `p_ip` at position 5 in the position filter. -/
example (f : Nat) (e : Bool) (t : ℝ) (z : PoseMeas ℝ) (y : V3 ℝ) (R_ : M33 ℝ) (x n : ℝ) :
    (Reading.pose ⟨5, 8, 9, 6, 7⟩ f e t z).Fits poseWorld ∧
    (Reading.position 10 f e t y R_).Fits poseWorld ∧ (Reading.pressure 10 e t x n).Fits poseWorld ∧
    (Reading.position 5 f e t y R_).Fits (· == 0) := by
  simp [Reading.Fits, poseWorld]

/-- Calls that meet the hypothesis: initialization, IMU readings, a position and a pose reading. -/
example (s : St (V3 ℝ) (V3 ℝ) (Option (Values (coreDef positionPoseAux)))
    (Option (ErrMat ℝ (coreDef positionPoseAux)))) (u : Input (V3 ℝ) (V3 ℝ)) (z : PoseMeas ℝ) :
    ∀ o ∈ ([.init 1 s, .imu 2 u, .imu 3 u, .imu 4 u, .meas ⟨3, 0, .position 10 0 false 0 1 1⟩,
      .meas ⟨4, 1, .pose ⟨5, 8, 9, 6, 7⟩ 0 true 6 z⟩] : List (Api (V3 ℝ) (V3 ℝ)
        (Option (Values (coreDef positionPoseAux))) (Option (ErrMat ℝ (coreDef positionPoseAux)))
        Reading ExtState)), o.Fits poseWorld := by
  simp [Api.Fits, Reading.Fits, poseWorld]

end MSF
