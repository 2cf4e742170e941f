import Verif.Model.State

/-!
# Model of `MSF_Core::PropagateState` (implementation/msf_core_inl.h:329-390)

`double` is modelled by `ℝ`; the polynomial parts are generic in the field.
-/

namespace MSF

section
variable {R : Type} [Field R]

/-- `constants::GRAVITY`, msf_types.h:48. -/
def gravity : V3 R := ![0, 0, 9.80834]

/-- Variables of the series loop, L361-369. -/
structure SeriesState (R : Type) where
  div : R
  matExp : M44 R
  omegaMean : M44 R

/-- Loop body, L366-368. -/
def seriesStep (s : SeriesState R) (i : Nat) : SeriesState R :=
  let div := s.div * i
  { div := div
    matExp := s.matExp + div⁻¹ • s.omegaMean
    omegaMean := s.omegaMean * s.omegaMean }

/-- `MatExp` after the loop `for (int i = 1; i < 5; i++)`, L361-369; the argument is `OmegaMean`
after the multiplication by `0.5 * dt`. -/
def matExpLoop (A : M44 R) : M44 R :=
  ([1, 2, 3, 4].foldl seriesStep { div := 1, matExp := 1, omegaMean := A }).matExp

/-- `quat_int`, L351-373. -/
def quatInt (ew ewold : V3 R) (dt : R) : M44 R :=
  let Ω := omegaJPL ew
  let Ωold := omegaJPL ewold
  let Ωmean := omegaJPL ((2 : R)⁻¹ • (ew + ewold))
  let matExp := matExpLoop ((0.5 * dt) • Ωmean)
  matExp + (dt * dt * (1 / 48)) • (Ω * Ωold - Ωold * Ω)

end

open EKFState in
/-- `MSF_Core::PropagateState`, L329-390.  `none` if the quaternion cannot be normalized. -/
noncomputable def propagateState {aux : List VarDesc} (old new : EKFState ℝ (coreDef aux)) :
    Option (EKFState ℝ (coreDef aux)) :=
  let dt := new.time - old.time
  -- L335, L338-340
  let vars := copyNonPropagationStates old.vars (resetState new.vars)
  -- L343-350
  let ew := new.w_m - b_w vars
  let ewold := old.w_m - b_w old.vars
  let ea := new.a_m - b_a vars
  let eaold := old.a_m - b_a old.vars
  -- L351-378
  match (Quat.ofCoeffs ((quatInt ew ewold dt).mulVec (q old.vars).coeffs)).normalize with
  | none => none
  | some qn =>
    -- L376-382
    let vars := setQ vars qn
    let dv := (2 : ℝ)⁻¹ • ((q vars).toRot.mulVec ea + (q old.vars).toRot.mulVec eaold)
    -- L383-385
    let vars := setV vars (v old.vars + dt • (dv - gravity))
    -- L386-389
    let vars := setP vars (p old.vars + dt • ((2 : ℝ)⁻¹ • (v vars + v old.vars)))
    some { new with vars := vars }

end MSF
