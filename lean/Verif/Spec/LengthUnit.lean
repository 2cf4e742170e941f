import Verif.Model.FilterKernel
import Verif.Model.Managers
import Verif.Model.Core

/-!
# Another unit of length for the camera frame

The vocabulary of C121.  A camera measures positions in a unit of its own; the filter estimates the
scale `L` (variable 5), the length of a metre in that unit.  Here is what another unit does to a state,
to a covariance, to a reading, to a call of the core and to a publication.
-/

namespace MSF

open Matrix EKFState Core

/-- The scale, first of the auxiliary states. -/
abbrev scaleVar : VarDesc := ⟨.vec 1, 5, .aux, 0⟩

variable {rest : List VarDesc}

/-- The position of the scale. -/
abbrev iL : Fin (coreDef (scaleVar :: rest)).length := ⟨5, by simp [coreDef, coreDescs]⟩

/-- The number held by the scale in the other unit. -/
def unitVal (k : ℝ) (L : Fin 1 → ℝ) : Fin 1 → ℝ := fun i => k * L i

/-- The state with the scale multiplied by `k`. -/
def unitVars (k : ℝ) (s : Vars ℝ (coreDef (scaleVar :: rest))) : Vars ℝ (coreDef (scaleVar :: rest)) :=
  Function.update s iL { s iL with val := unitVal k (s iL).val }

/-- The same for the values. -/
def unitVals (k : ℝ) (x : Values (coreDef (scaleVar :: rest))) : Values (coreDef (scaleVar :: rest)) :=
  Function.update x iL (unitVal k (x iL))

/-- The factor of an entry of the error state: `k` for the scale, which is at index 15. -/
def unitFac {n : Nat} (k : ℝ) (i : Fin n) : ℝ := if i.val = 15 then k else 1

/-- The covariance in the other unit. -/
def unitCov {n : Nat} (k : ℝ) (P : Matrix (Fin n) (Fin n) ℝ) : Matrix (Fin n) (Fin n) ℝ :=
  of fun r c => unitFac k r * P r c * unitFac k c

/-- The factors of the rows of a pose: the position is a length, attitude and yaw are not. -/
def poseFac (k : ℝ) : Fin 7 → ℝ := ![k, k, k, 1, 1, 1, 1]

/-- A pose in the other unit, with its noise. -/
def PoseMeas.unit (k : ℝ) (z : PoseMeas ℝ) : PoseMeas ℝ :=
  ⟨k • z.z_p, z.z_q, of fun i j => poseFac k i * z.R_ i j * poseFac k j⟩

/-- The same reading when the unit of the camera frame is changed: poses are, everything else is not
measured in that unit. -/
def Reading.unit (k : ℝ) : Reading → Reading
  | .pose ix fixed enable thr z => .pose ix fixed enable thr (z.unit k)
  | r => r

/-- The same call in the other unit. -/
def Api.unit (k : ℝ) :
    Api (V3 ℝ) (V3 ℝ) (Option (Values (coreDef (scaleVar :: rest))))
        (Option (ErrMat ℝ (coreDef (scaleVar :: rest)))) Reading ExtState →
      Api (V3 ℝ) (V3 ℝ) (Option (Values (coreDef (scaleVar :: rest))))
        (Option (ErrMat ℝ (coreDef (scaleVar :: rest)))) Reading ExtState
  | .init t s => .init t ⟨s.u, s.x.map (unitVals k), s.P.map (unitCov k)⟩
  | .imu t u => .imu t u
  | .ext t u e => .ext t u e
  | .meas m => .meas { m with body := m.body.unit k }

/-- The same publication in the other unit. -/
def Event.unit (k : ℝ) :
    Event (Option (Values (coreDef (scaleVar :: rest)))) (Option (ErrMat ℝ (coreDef (scaleVar :: rest)))) →
      Event (Option (Values (coreDef (scaleVar :: rest)))) (Option (ErrMat ℝ (coreDef (scaleVar :: rest))))
  | .initial t x P => .initial t (x.map (unitVals k)) (P.map (unitCov k))
  | .afterPropagation t x P => .afterPropagation t (x.map (unitVals k)) (P.map (unitCov k))
  | .afterUpdate t x P => .afterUpdate t (x.map (unitVals k)) (P.map (unitCov k))

open Classical in
/-- `scaleCalc` with `ρ` in place of the constant 0.1 that replaces a negative scale. -/
noncomputable def scaleCalcWith (ρ : ℝ) (fixedBias : Bool) : UserCalc (coreDef (scaleVar :: rest)) :=
  ⟨id, fun a _ _ =>
    let L : Fin 1 → ℝ := (a iL).val
    if L 0 < 0 then Function.update a iL { a iL with val := (fun _ => ρ : Fin 1 → ℝ) } else a,
    fixedBias⟩

/-- Process noise of the auxiliary states in the other unit: that of the scale is multiplied, the
others are the same. -/
structure UnitNoise (k : ℝ) (np np' : NoiseParams ℝ (coreDef (scaleVar :: rest))) : Prop where
  acc : np'.acc = np.acc
  accBias : np'.accBias = np.accBias
  gyr : np'.gyr = np.gyr
  gyrBias : np'.gyrBias = np.gyrBias
  aux : ∀ s dt i, ((coreDef (scaleVar :: rest)).get i).stype ≠ .coreProp ∧
      ((coreDef (scaleVar :: rest)).get i).stype ≠ .coreNoProp → ∀ r c,
    (np'.qAux (unitVars k s) dt i).Q r c =
      (if i.val = 5 then k else 1) * (np.qAux s dt i).Q r c * (if i.val = 5 then k else 1)

/-- A pose sensor with the scale at position 5 and with fixed `p_wv`, a pressure sensor whose bias is
not the scale, or any other reading. -/
def Reading.InUnits : Reading → Prop
  | .pose ix fixed _ _ _ => ix.L = 5 ∧ fixed.testBit ix.pwv = true
  | .pressure bp _ _ _ _ => bp ≠ 5
  | _ => True

/-- A pose is measured with the scale of this filter, a pressure does not take the scale for its bias. -/
def Reading.OfScale : Reading → Prop
  | .pose ix _ _ _ _ => ix.L = 5
  | .pressure bp _ _ _ _ => bp ≠ 5
  | _ => True

/-- The readings of a call are among the given ones. -/
def Api.Reads {A W X C M E : Type} (Im : M → Prop) : Api A W X C M E → Prop
  | .meas m => Im m.body
  | _ => True

/-- The unit of length of the camera frame does not matter: with everything that is measured in that
unit multiplied by `k`, the filter publishes the same states and covariances, in the other unit, at
the same times. -/
def UnitInvariant (k : ℝ) (np np' : NoiseParams ℝ (coreDef (scaleVar :: rest)))
    (uc uc' : UserCalc (coreDef (scaleVar :: rest))) (Im : Reading → Prop) : Prop :=
  ∀ (env : Env) (calls : List (Api (V3 ℝ) (V3 ℝ) (Option (Values (coreDef (scaleVar :: rest))))
      (Option (ErrMat ℝ (coreDef (scaleVar :: rest)))) Reading ExtState)),
    (∀ o ∈ calls, o.Reads Im) →
    (Core.apis env (readingKernel np' uc') (Core.new (readingKernel np' uc'))
        (calls.map (Api.unit k))).map Core.out =
      (Core.apis env (readingKernel np uc) (Core.new (readingKernel np uc)) calls).map
        fun c => c.out.map (Event.unit k)

end MSF
