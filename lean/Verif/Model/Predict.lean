import Verif.Model.CalcQ

/-!
# Covariance prediction: `MSF_Core::PredictProcessCovariance`
(implementation/msf_core_inl.h:443-543) and `CalcQCore` (implementation/calcQCore.h)
-/

namespace MSF

open Matrix

/-- The enumerators `idxstartcorr_p .. idxstartcorr_b_a`, calcQCore.h:381-392 and
msf_core_inl.h:495-506; `p, v, q, b_w, b_a` are the enumerators 0-4 of `StateDefinition_T`
(e.g. pose_msf/msf_statedef.hpp:33-46).  `none` if a block does not fit. -/
def coreStarts (D : List VarDesc) : Option (CalcQ.Blk → { s : Nat // s + 3 ≤ total errLen D }) := do
  let p ← start3 D 0
  let v ← start3 D 1
  let q ← start3 D 2
  let bw ← start3 D 3
  let ba ← start3 D 4
  some fun
    | .p => p
    | .v => v
    | .q => q
    | .b_w => bw
    | .b_a => ba

section
variable {R : Type} [Field R]

/-- One assignment to an entry of `Qd`. -/
def CalcQ.applyWrite {n : Nat} (s : CalcQ.Blk → Nat) (Q : Matrix (Fin n) (Fin n) R)
    (w : CalcQ.Write R) : Matrix (Fin n) (Fin n) R :=
  Matrix.of fun r c => if r.val = s w.r + w.i ∧ c.val = s w.c + w.j then w.val else Q r c

/-- `CalcQCore`, calcQCore.h:28-720: entries that are not assigned keep their value. -/
def calcQCore {D : List VarDesc} (i : CalcQ.In R) (Qd : ErrMat R D) : Option (ErrMat R D) := do
  let s ← coreStarts D
  some ((CalcQ.writes i).foldl (CalcQ.applyWrite fun b => (s b).val) Qd)

/-- The blocks of `Fd` for bias corrected readings `ew`, `ea`, attitude `C` and time step `dt`,
msf_core_inl.h:472-487. -/
structure FdBlocks (R : Type) where
  (A B C D E F : M33 R)

/-- msf_core_inl.h:468-487. -/
def fdBlocks (Ceq : M33 R) (ew ea : V3 R) (dt : R) : FdBlocks R :=
  let a_sk := skew ea
  let w_sk := skew ew
  let dt_p2_2 := dt * dt * (1 / 2)
  let dt_p3_6 := dt_p2_2 * dt / 3
  let dt_p4_24 := dt_p3_6 * dt * (1 / 4)
  let dt_p5_120 := dt_p4_24 * dt * (1 / 5)
  let Ca3 := Ceq * a_sk
  let A := Ca3 * (-dt_p2_2 • (1 : M33 R) + dt_p3_6 • w_sk - dt_p4_24 • w_sk * w_sk)
  let B := Ca3 * (dt_p3_6 • (1 : M33 R) - dt_p4_24 • w_sk + dt_p5_120 • w_sk * w_sk)
  let D := -A
  let E := 1 - dt • w_sk + dt_p2_2 • w_sk * w_sk
  let F := -dt • (1 : M33 R) + dt_p2_2 • w_sk - dt_p3_6 • (w_sk * w_sk)
  let C := Ca3 * F
  ⟨A, B, C, D, E, F⟩

/-- The nine block assignments to `Fd`, msf_core_inl.h:508-518. -/
def setFd {n : Nat} (s : CalcQ.Blk → Nat) (Fd : Matrix (Fin n) (Fin n) R) (Ceq : M33 R)
    (ew ea : V3 R) (dt : R) : Matrix (Fin n) (Fin n) R :=
  let f := fdBlocks Ceq ew ea dt
  let Fd := setBlock Fd (s .p) (s .v) (dt • (1 : M33 R))
  let Fd := setBlock Fd (s .p) (s .q) f.A
  let Fd := setBlock Fd (s .p) (s .b_w) f.B
  let Fd := setBlock Fd (s .p) (s .b_a) ((dt * dt * (1 / 2)) • (-Ceq))
  let Fd := setBlock Fd (s .v) (s .q) f.C
  let Fd := setBlock Fd (s .v) (s .b_w) f.D
  let Fd := setBlock Fd (s .v) (s .b_a) (dt • (-Ceq))
  let Fd := setBlock Fd (s .q) (s .q) f.E
  setBlock Fd (s .q) (s .b_w) f.F

/-- The noise parameters, `usercalc_.GetParamNoise..()`, and `CalculateQAuxiliaryStates` of the
sensor manager, which sets the `Q` blocks of the auxiliary states. -/
structure NoiseParams (R : Type) (D : List VarDesc) where
  acc : R
  accBias : R
  gyr : R
  gyrBias : R
  qAux : Vars R D → R → Vars R D

open EKFState in
/-- `PredictProcessCovariance(state_old, state_new)`, msf_core_inl.h:443-543: the two states and
`time_P_propagated` afterwards. -/
def predictProcessCovariance [LinearOrder R] {aux : List VarDesc} (np : NoiseParams R (coreDef aux))
    (old new : EKFState R (coreDef aux)) (timeP : R) :
    Option (EKFState R (coreDef aux) × EKFState R (coreDef aux) × R) :=
  let dt := new.time - old.time
  -- L448-453
  if dt ≤ 0 then some (old, new, timeP)
  else do
    -- L461-472
    let ew := new.w_m - b_w new.vars
    let ea := new.a_m - b_a new.vars
    let Ceq := (q new.vars).toRot
    -- L493-518
    let s ← coreStarts (coreDef aux)
    let Fd := setFd (fun b => (s b).val) old.Fd Ceq ew ea dt
    -- L520-524
    let Qd ← calcQCore (CalcQ.mkIn dt (q new.vars) ew ea (fun _ => np.acc) (fun _ => np.accBias)
      (fun _ => np.gyr) (fun _ => np.gyrBias)) old.Qd
    -- L529-534
    let new := { new with vars := np.qAux new.vars dt }
    let Qd ← copyQBlocks new.vars Qd
    -- L538, L541
    let new := { new with P := Fd * old.P * Fdᵀ + Qd }
    some ({ old with Fd := Fd, Qd := Qd }, new, new.time)

end

end MSF
