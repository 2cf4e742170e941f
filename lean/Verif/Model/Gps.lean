import Verif.Model.Similarity
import Mathlib.Analysis.SpecialFunctions.Trigonometric.Basic

/-!
# GPS conversion (msf_core/src/lib/gps_conversion.cc, msf_core/include/msf_core/gps_conversion.h)
and its use by the position sensor (position_sensorhandler.hpp)

Real numbers stand for `double`; `DEG2RAD` is exactly π/180 (msf_macros.h:43).
-/

namespace MSF

open Matrix

/-- `Quaternion(Matrix3)` of Eigen (`quaternionbase_assign_impl`).  `none` if the square root that is
divided by is zero or does not exist (in the code: infinity or NaN). -/
noncomputable def quatOfMatrix (M : M33 ℝ) : Option (Quat ℝ) :=
  let tr := M 0 0 + M 1 1 + M 2 2
  if 0 < tr then
    let t := Real.sqrt (tr + 1)
    let s := 0.5 / t
    if t = 0 then none
    else some ⟨0.5 * t, (M 2 1 - M 1 2) * s, (M 0 2 - M 2 0) * s, (M 1 0 - M 0 1) * s⟩
  else
    let i : Fin 3 := if M 0 0 < M 1 1 then 1 else 0
    let i : Fin 3 := if M i i < M 2 2 then 2 else i
    let j := i + 1
    let k := j + 1
    let t := Real.sqrt (M i i - M j j - M k k + 1)
    let s := 0.5 / t
    if t = 0 then none
    else
      let v : V3 ℝ := fun n => if n = i then 0.5 * t else if n = j then (M j i + M i j) * s
        else (M k i + M i k) * s
      some ⟨(M k j - M j k) * s, v 0, v 1, v 2⟩

/-- Members of `GPSConversion`, gps_conversion.h:50-52. -/
structure GPS where
  orientation : Quat ℝ
  refPoint : V3 ℝ

namespace GPS

/-- The constructor, gps_conversion.cc:25-30. -/
def new : GPS := ⟨Quat.one, fun _ => 0⟩

/-- `DEG2RAD`, msf_macros.h:43. -/
noncomputable def deg2rad : ℝ := Real.pi / 180

/-- `N`, gps_conversion.cc:60-68: the radius of curvature in the prime vertical.  The argument of the
square root is positive, since `e_sq < 1`. -/
noncomputable def primeVertical (latitude : ℝ) : ℝ :=
  let s_lat := Real.sin (latitude * deg2rad)
  6378137.0 / Real.sqrt (1 - 6.69437999014e-3 * s_lat * s_lat)

/-- `WGS84ToECEF`, gps_conversion.cc:57-77. -/
noncomputable def wgs84ToEcef (latitude longitude altitude : ℝ) : V3 ℝ :=
  let s_lat := Real.sin (latitude * deg2rad)
  let c_lat := Real.cos (latitude * deg2rad)
  let s_long := Real.sin (longitude * deg2rad)
  let c_long := Real.cos (longitude * deg2rad)
  let N := primeVertical latitude
  ![(N + altitude) * c_lat * c_long,
    (N + altitude) * c_lat * s_long,
    (N * (1 - 6.69437999014e-3) + altitude) * s_lat]

/-- `InitReference`, gps_conversion.cc:34-55. -/
noncomputable def initReference (latitude longitude altitude : ℝ) : Option GPS :=
  let s_lat := Real.sin (latitude * deg2rad)
  let c_lat := Real.cos (latitude * deg2rad)
  let s_long := Real.sin (longitude * deg2rad)
  let c_long := Real.cos (longitude * deg2rad)
  let M : M33 ℝ := !![-s_long, c_long, 0;
    -s_lat * c_long, -s_lat * s_long, c_lat;
    c_lat * c_long, c_lat * s_long, s_lat]
  (quatOfMatrix M).map fun q => ⟨q, wgs84ToEcef latitude longitude altitude⟩

/-- `ECEFToENU`, gps_conversion.cc:79-86; a missing reference only causes a warning. -/
def ecefToEnu (g : GPS) (ecef : V3 ℝ) : V3 ℝ := g.orientation.rotate (ecef - g.refPoint)

/-- `WGS84ToENU`, gps_conversion.cc:88-93. -/
noncomputable def wgs84ToEnu (g : GPS) (latitude longitude altitude : ℝ) : V3 ℝ :=
  g.ecefToEnu (wgs84ToEcef latitude longitude altitude)

/-- `AdjustReference`, gps_conversion.cc:95-100. -/
def adjustReference (g : GPS) (z_correction : ℝ) : GPS :=
  { g with refPoint := Function.update g.refPoint 2 (g.refPoint 2 + z_correction) }

end GPS

/-- Position handlers of one instantiation of the class template: the function-local static
`referenceinit` (position_sensorhandler.hpp:193), which all of them share, and the conversion object
of each handler. -/
structure GpsHandlers where
  referenceinit : Bool
  conv : Nat → GPS

namespace GpsHandlers

/-- Program start. -/
def new : GpsHandlers := ⟨false, fun _ => GPS.new⟩

/-- `MeasurementCallback(NavSatFix)` of handler `h`, position_sensorhandler.hpp:185-217: the position
that is handed to `ProcessPositionMeasurement`. -/
noncomputable def navSatFix (s : GpsHandlers) (h : Nat) (latitude longitude altitude : ℝ) :
    Option (GpsHandlers × V3 ℝ) :=
  let s' : Option GpsHandlers :=
    if s.referenceinit then some s
    else (GPS.initReference latitude longitude altitude).map fun g =>
      ⟨true, Function.update s.conv h g⟩
  s'.map fun s => (s, (s.conv h).ecefToEnu (GPS.wgs84ToEcef latitude longitude altitude))

/-- A sequence of fixes: handler, latitude, longitude, altitude. -/
noncomputable def run (s : GpsHandlers) : List (Nat × ℝ × ℝ × ℝ) → Option (GpsHandlers × List (V3 ℝ))
  | [] => some (s, [])
  | m :: ms => (s.navSatFix m.1 m.2.1 m.2.2.1 m.2.2.2).bind fun r =>
      (r.1.run ms).map fun rest => (rest.1, r.2 :: rest.2)

end GpsHandlers

end MSF
