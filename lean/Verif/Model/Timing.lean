import Mathlib.Algebra.Order.Field.Basic
import Mathlib.Algebra.BigOperators.Fin
import Mathlib.Data.Rat.Floor

/-!
# Model of the timing statistics (msf_timing/include/msf_timing/Timer.h, msf_timing/src/Timer.cc)

Sums are exact (no rounding).  The clock is not modelled; durations are arbitrary numbers, since
`system_clock` may be set back.
-/

namespace MSF.Timing

/-- Largest value of a 32 bit `int`. -/
def intMax : Nat := 2147483647

section
variable {R : Type} [Field R] [LinearOrder R]

/-- `std::numeric_limits<double>::max()`. -/
def dblMax : R := (2 - (1 / 2) ^ 52) * 2 ^ 1023

/-- `std::numeric_limits<double>::min()`, the smallest positive normal number. -/
def dblMin : R := (1 / 2) ^ 1022

/-- Members of `Accumulator<double, double, N>`, Timer.h:101-107. -/
structure Acc (R : Type) (N : Nat) where
  windowSamples : Nat
  totalSamples : Nat
  windowSum : R
  sum : R
  min : R
  max : R
  samples : Fin N → R

variable {N : Nat}

/-- The constructor, Timer.h:35-42; `samples_` is not initialized, `junk` stands for what is found
there. -/
def Acc.init (junk : Fin N → R) : Acc R N :=
  { windowSamples := 0, totalSamples := 0, windowSum := 0, sum := 0, min := dblMax, max := dblMin,
    samples := junk }

/-- `Add`, Timer.h:44-61.  `none`: signed overflow of a counter or (`N = 0`) an index out of
range. -/
def Acc.add (a : Acc R N) (x : R) : Option (Acc R N) :=
  if a.windowSamples = intMax ∨ a.totalSamples = intMax then none
  else
    let tail := fun (s : Fin N → R) (w : R) =>
      { windowSamples := a.windowSamples + 1, totalSamples := a.totalSamples + 1, windowSum := w,
        sum := a.sum + x, max := if a.max < x then x else a.max,
        min := if x < a.min then x else a.min, samples := s : Acc R N }
    if h : a.windowSamples < N then
      some (tail (Function.update a.samples ⟨a.windowSamples, h⟩ x) (a.windowSum + x))
    else if h : a.windowSamples % N < N then
      let oldest := a.samples ⟨a.windowSamples % N, h⟩
      some (tail (Function.update a.samples ⟨a.windowSamples % N, h⟩ x)
        (a.windowSum + (x - oldest)))
    else none

/-- `Add` for each sample in turn. -/
def Acc.addAll (a : Acc R N) : List R → Option (Acc R N)
  | [] => some a
  | x :: xs => (a.add x).bind fun a => a.addAll xs

/-- `Mean`, Timer.h:71-73; `none` is 0/0. -/
def Acc.mean (a : Acc R N) : Option R :=
  if a.totalSamples = 0 then none else some (a.sum / a.totalSamples)

/-- `RollingMean`, Timer.h:75-77; `none` is 0/0. -/
def Acc.rollingMean (a : Acc R N) : Option R :=
  if Nat.min a.windowSamples N = 0 then none
  else some (a.windowSum / (Nat.min a.windowSamples N : Nat))

/-- `LazyVariance`, Timer.h:87-98. -/
def Acc.lazyVariance (a : Acc R N) : R :=
  match a.rollingMean with
  | none => 0
  | some m =>
    (∑ i : Fin N, if i.val < Nat.min a.windowSamples N then
      (a.samples i - m) * (a.samples i - m) else 0) / (Nat.min a.windowSamples N : Nat)

end

/-! ### Handles -/

/-- Members of `Timing`, Timer.h:187-189: the tag map as an association list and the number of
timers (their contents are independent accumulators). -/
structure Registry where
  tagMap : List (String × Nat)
  timers : Nat

namespace Registry

/-- The static instance at program start. -/
def init : Registry := ⟨[], 0⟩

/-- `GetHandle`, Timer.cc:44-59. -/
def getHandle (r : Registry) (tag : String) : Nat × Registry :=
  match r.tagMap.find? (fun e => e.1 = tag) with
  | some e => (e.2, r)
  | none => (r.timers, ⟨(tag, r.timers) :: r.tagMap, r.timers + 1⟩)

/-- `GetTag`, Timer.cc:61-71: the empty string if no tag has the handle. -/
def getTag (r : Registry) (handle : Nat) : String :=
  match r.tagMap.find? (fun e => e.2 = handle) with
  | some e => e.1
  | none => ""

/-- `Reset`, Timer.cc:228-230: only the tag map is cleared. -/
def reset (r : Registry) : Registry := { r with tagMap := [] }

end Registry

/-- `fmod(seconds, 60)` for non-negative `seconds`, the number printed by `SecondsToTimeString`,
Timer.cc:162-185; hours and minutes are computed but not printed unless the macros
`SM_TIMING_SHOW_HOURS` and `SM_TIMING_SHOW_MINUTES` are defined, which the build does not do.
The rounding to six digits is not modelled. -/
def secondsShown (seconds : ℚ) : ℚ := seconds - 60 * (⌊seconds / 60⌋ : ℤ)

end MSF.Timing
