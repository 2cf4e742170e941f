import Verif.Model.Predict
import Verif.Spec.Process
import Mathlib.Tactic.FinCases
import Mathlib.Tactic.Ring
import Mathlib.Tactic.NormNum
import Mathlib.Tactic.FieldSimp

/-!
# The entries of `Qd` written by `CalcQCore`
-/

namespace MSF

open Matrix

namespace CalcQ

set_option maxRecDepth 4000 in
/-- Unfold the temporaries of calcQCore.h. -/
macro "unfold_tmp" : tactic => `(tactic| simp only [
  t343, t348, t349, t344, t356, t357, t345, t350, t351, t352, t353, t346, t347, t354, t355, 
  t358, t359, t360, t361, t363, t364, t362, t365, t366, t367, t368, t369, t370, t371, t372, 
  t373, t374, t375, t376, t377, t378, t379, t380, t391, t381, t382, t383, t384, t385, t386, 
  t387, t388, t389, t407, t390, t392, t393, t394, t395, t396, t397, t398, t399, t400, t401, 
  t402, t403, t404, t405, t406, t421, t422, t423, t424, t408, t409, t410, t411, t463, t464, 
  t465, t412, t413, t414, t415, t416, t417, t418, t419, t453, t454, t420, t426, t427, t425, 
  t428, t429, t430, t431, t432, t433, t434, t435, t436, t443, t437, t438, t511, t439, t440, 
  t441, t442, t444, t445, t446, t447, t448, t449, t450, t451, t452, t455, t456, t457, t458, 
  t459, t460, t461, t462, t466, t467, t468, t469, t470, t471, t472, t479, t473, t474, t475, 
  t476, t477, t492, t478, t480, t481, t482, t483, t484, t486, t485, t487, t488, t489, t490, 
  t491, t493, t541, t494, t495, t496, t527, t497, t498, t499, t500, t501, t502, t503, t504, 
  t505, t506, t507, t508, t509, t510, t512, t513, t514, t515, t516, t517, t518, t519, t520, 
  t521, t522, t523, t524, t525, t526, t528, t529, t530, t531, t532, t533, t534, t535, t536, 
  t537, t538, t539, t540, t542, t543, t544, t545, t546, t547, t548, t549, t550, t551, t552, 
  t553, t554, t555, t556, t557, t558, t559, t560, t561, t562, t563, t564, t565, t566, t567, 
  t568, t569, t570, t571, t572, t573, t574, t575, t576, t577, t578, t579, t580, t581, t582, 
  t583, t584, t585, t586, t587, t588, t589, t590, t591, t592, t593, t594, t595, t596, t597, 
  t598, t599, t600, t601, t602, t603, t604, t605, t606, t607, t608, t609, t610, t611, t612, 
  t613, t614, t615, t616, t617, t618, t619, t620, t621, t622, t623, t624, t625, t626, t627, 
  t628, t629, t630, t631, t632, t633, t634, t635, t636, t637, t638, t639, t640, t641, t642, 
  t643, t644, t645, t646, t647, t648, t649, t650, t651, t652, t653, t654, t655, t656, t657, 
  t658, t659, t660, t661, t662, t663, mkIn, Pi.zero_apply,
  mul_zero, zero_mul, add_zero, zero_add, sub_zero, zero_sub, neg_zero])

variable {R : Type} [Field R]

/-- Position of a block when the core states come first. -/
def Blk.idx : Blk → Fin 5
  | .p => 0
  | .v => 1
  | .q => 2
  | .b_w => 3
  | .b_a => 4

/-- The value assigned to an entry, if any. -/
def lookup (i : In R) (r c : Nat) : Option R :=
  ((writes i).reverse.find? fun w =>
    decide (r = 3 * w.r.idx.val + w.i ∧ c = 3 * w.c.idx.val + w.j)).map Write.val

/-- A block of `Qd` after the call on a zero matrix. -/
def qBlock (i : In R) (b b' : Fin 5) : M33 R :=
  Matrix.of fun j k => (lookup i (3 * b + j) (3 * b' + k)).getD 0

theorem qBlock_0_0 (i : In R) : qBlock i 0 0 = !![i.dt * t343 i * t347 i * t361 i * (1 / 3) + i.dt * t343 i * t354 i * t359 i * (1 / 3) + i.dt * t343 i * t355 i * t360 i * (1 / 3), t375 i - i.dt * t343 i * t345 i * t355 i * (t358 i - i.q3 * i.q4 * 2) * (1 / 3) - i.dt * t343 i * t344 i * t354 i * t367 i * (1 / 3), t402 i;
    t375 i - i.dt * t343 i * t344 i * t354 i * t367 i * (1 / 3) - i.dt * t343 i * t345 i * t355 i * t376 i * (1 / 3), i.dt * t343 i * t347 i * t378 i * (1 / 3) + i.dt * t343 i * t355 i * t379 i * (1 / 3) + i.dt * t343 i * t354 i * t385 i * (1 / 3), t404 i;
    t402 i, t404 i, i.dt * t343 i * t347 i * t413 i * (1 / 3) + i.dt * t343 i * t354 i * t414 i * (1 / 3) + i.dt * t343 i * t355 i * t415 i * (1 / 3)] := by
  ext j k; fin_cases j <;> fin_cases k <;> rfl

theorem qBlock_0_1 (i : In R) : qBlock i 0 1 = !![t419 i, t420 i, t408 i;
    t377 i + t455 i - t343 i * t344 i * t354 i * t367 i * (1 / 2) - t343 i * t345 i * t355 i * t376 i * (1 / 2) - i.dt * t343 i * t362 i * t371 i * t381 i * (1 / 6) - i.dt * t343 i * t362 i * t373 i * t388 i * (1 / 6), t462 i, t412 i;
    t408 i, t412 i, t510 i] := by
  ext j k; fin_cases j <;> fin_cases k <;> rfl

theorem qBlock_0_2 (i : In R) : qBlock i 0 2 = !![t564 i, 0, t615 i;
    i.dt * t343 i * t374 i * t384 i * (-1 / 6), t581 i, t616 i;
    t565 i, i.dt * t343 i * t373 i * t397 i * (-1 / 6), t617 i] := by
  ext j k; fin_cases j <;> fin_cases k <;> rfl

theorem qBlock_0_3 (i : In R) : qBlock i 0 3 = !![0, 0, 0;
    0, 0, 0;
    0, 0, 0] := by
  ext j k; fin_cases j <;> fin_cases k <;> rfl

theorem qBlock_0_4 (i : In R) : qBlock i 0 4 = !![i.dt * t343 i * t346 i * t398 i * (-1 / 6), t660 i, i.dt * t343 i * t345 i * t400 i * (-1 / 6);
    i.dt * t343 i * t366 i * t398 i * (-1 / 6), i.dt * t343 i * t367 i * t399 i * (-1 / 6), t662 i;
    t658 i, i.dt * t343 i * t372 i * t399 i * (-1 / 6), i.dt * t343 i * t370 i * t400 i * (-1 / 6)] := by
  ext j k; fin_cases j <;> fin_cases k <;> rfl

theorem qBlock_1_0 (i : In R) : qBlock i 1 0 = !![t419 i, t420 i, t408 i;
    t377 i - t453 i - t454 i + t455 i - i.dt * t343 i * t362 i * t371 i * t381 i * (1 / 6) - i.dt * t343 i * t362 i * t373 i * t388 i * (1 / 6), t462 i, t412 i;
    t408 i, t412 i, t510 i] := by
  ext j k; fin_cases j <;> fin_cases k <;> rfl

theorem qBlock_1_1 (i : In R) : qBlock i 1 1 = !![t374 i * (t428 i + t343 i * t362 i * t425 i + i.dt * t343 i * (t362 i * (t448 i + t449 i - t362 i * t432 i) + t425 i * t425 i) * (1 / 3)) + t373 i * (t428 i - t434 i + i.dt * t343 i * (t365 i * t429 i - t362 i * t437 i) * (1 / 3)) + t371 i * (t428 i + t434 i + i.dt * t343 i * (t365 i * t429 i - t362 i * (t433 i + t442 i - i.ew2 * i.ew3 * t362 i)) * (1 / 3)) + i.dt * t347 i * t361 i + i.dt * t354 i * t359 i + i.dt * t355 i * t360 i + i.dt * t343 i * t359 i * t399 i * (1 / 3) + i.dt * t343 i * t361 i * t398 i * (1 / 3) + i.dt * t343 i * t360 i * t400 i * (1 / 3), t475 i + t476 i - i.dt * t344 i * t354 i * t367 i - i.dt * t345 i * t355 i * t376 i - i.dt * t343 i * t344 i * t367 i * t399 i * (1 / 3) - i.dt * t343 i * t345 i * t376 i * t400 i * (1 / 3), t522 i + t534 i + t535 i + t536 i - t373 i * (t440 i + t515 i - i.dt * t343 i * (t513 i + t514 i + t362 i * (t490 i + t491 i - t390 i * t432 i) * (1 / 2)) * (1 / 3)) - i.dt * t346 i * t347 i * t369 i - i.dt * t344 i * t354 i * t372 i - i.dt * t343 i * t346 i * t369 i * t398 i * (1 / 3) - i.dt * t343 i * t344 i * t372 i * t399 i * (1 / 3);
    t475 i + t476 i - t374 i * (t343 i * (t384 i * t425 i - t362 i * t473 i) * (1 / 2) - i.dt * t343 i * (t362 i * t483 i * (1 / 2) - t384 i * t474 i * (1 / 2) + t425 i * t473 i) * (1 / 3) + i.dt * t362 i * t384 i) + t371 i * (t470 i + i.dt * t362 i * t381 i + i.dt * t343 i * (t362 i * t485 i * (1 / 2) - t381 i * t466 i * (1 / 2) + t362 i * t388 i * t429 i) * (1 / 3)) + t373 i * (-t470 i + i.dt * t362 i * t388 i + i.dt * t343 i * (t388 i * t437 i * (-1 / 2) + t362 i * t478 i * (1 / 2) + t362 i * t381 i * t429 i) * (1 / 3)) - i.dt * t344 i * t354 i * t367 i - i.dt * t345 i * t355 i * t376 i - i.dt * t343 i * t344 i * t367 i * t399 i * (1 / 3) - i.dt * t343 i * t345 i * t376 i * t400 i * (1 / 3), -t374 i * (-i.dt * t459 i + i.dt * t343 i * (t384 i * t483 i - t480 i * t480 i) * (1 / 3) + t343 i * t384 i * t473 i) + t373 i * (i.dt * t461 i + i.dt * t343 i * (t388 i * t478 i + t429 i * t458 i) * (1 / 3) - i.ew1 * t343 i * t381 i * t388 i) + t371 i * (i.dt * t458 i + i.dt * t343 i * (t381 i * t485 i + t429 i * t461 i) * (1 / 3) + i.ew1 * t343 i * t381 i * t388 i) + i.dt * t347 i * t378 i + i.dt * t355 i * t379 i + i.dt * t354 i * t385 i + i.dt * t343 i * t378 i * t398 i * (1 / 3) + i.dt * t343 i * t385 i * t399 i * (1 / 3) + i.dt * t343 i * t379 i * t400 i * (1 / 3), t560 i;
    t522 i + t534 i + t535 i + t536 i - t373 i * (t440 i + t515 i - i.dt * t343 i * (t513 i + t514 i + t362 i * t512 i * (1 / 2)) * (1 / 3)) - i.dt * t346 i * t347 i * t369 i - i.dt * t344 i * t354 i * t372 i - i.dt * t343 i * t346 i * t369 i * t398 i * (1 / 3) - i.dt * t343 i * t344 i * t372 i * t399 i * (1 / 3), t560 i, -t371 i * (t561 i - i.dt * t509 i + i.dt * t343 i * (t394 i * t489 i - t429 i * t506 i) * (1 / 3)) + t373 i * (t561 i + i.dt * t506 i - i.dt * t343 i * (t397 i * t512 i - t429 i * t509 i) * (1 / 3)) + t374 i * (i.dt * t507 i - i.dt * t343 i * (t390 i * t497 i - t447 i * t447 i) * (1 / 3) + t343 i * t390 i * t447 i) + i.dt * t347 i * t413 i + i.dt * t354 i * t414 i + i.dt * t355 i * t415 i + i.dt * t343 i * t398 i * t413 i * (1 / 3) + i.dt * t343 i * t399 i * t414 i * (1 / 3) + i.dt * t343 i * t400 i * t415 i * (1 / 3)] := by
  ext j k; fin_cases j <;> fin_cases k <;> rfl

theorem qBlock_1_2 (i : In R) : qBlock i 1 2 = !![t573 i, 0, -t371 i * (t451 i + t452 i - i.dt * t343 i * (t442 i + t582 i - i.ew2 * i.ew3 * t362 i * (1 / 2)) * (1 / 3)) - t374 i * t622 i + t373 i * (t452 i - i.dt * t343 i * t585 i * (1 / 3));
    -t374 i * (-i.dt * t384 i + t343 i * t473 i * (1 / 2) + i.dt * t343 i * (t471 i + i.ew1 * i.ew2 * t388 i * (1 / 2) + i.ew1 * i.ew3 * t381 i * (1 / 2)) * (1 / 3)) + i.dt * t343 i * t371 i * t381 i * t432 i * (1 / 6) + i.dt * t343 i * t373 i * t388 i * t432 i * (1 / 6), t599 i, -t374 i * t631 i - t371 i * t635 i - t373 i * (t626 i - i.ew1 * t343 i * t388 i * (1 / 2));
    t580 i, t608 i + t371 i * (i.dt * t343 i * (t600 i - i.ew2 * i.ew3 * t394 i * (1 / 2)) * (1 / 3) - i.ew1 * t343 i * t394 i * (1 / 2)) + t373 i * (t602 i + t610 i - i.dt * t343 i * (t490 i + t601 i - t390 i * t432 i * (1 / 2)) * (1 / 3)), t647 i - t374 i * t641 i - t373 i * (t562 i + i.dt * t343 i * (t642 i - i.ew2 * i.ew3 * t397 i * (1 / 2)) * (1 / 3))] := by
  ext j k; fin_cases j <;> fin_cases k <;> rfl

theorem qBlock_1_3 (i : In R) : qBlock i 1 3 = !![i.dt * t343 i * t362 i * t502 i * (-1 / 6), 0, i.dt * t343 i * t362 i * t503 i * (-1 / 6);
    i.dt * t343 i * t384 i * t502 i * (1 / 6), i.dt * t343 i * t388 i * t563 i * (-1 / 6), i.dt * t343 i * t381 i * t503 i * (-1 / 6);
    i.dt * t343 i * t390 i * t502 i * (-1 / 6), t656 i, i.dt * t343 i * t394 i * t503 i * (-1 / 6)] := by
  ext j k; fin_cases j <;> fin_cases k <;> rfl

theorem qBlock_1_4 (i : In R) : qBlock i 1 4 = !![t343 i * t346 i * t398 i * (-1 / 2), t661 i, t343 i * t345 i * t400 i * (-1 / 2);
    t343 i * t366 i * t398 i * (-1 / 2), t343 i * t367 i * t399 i * (-1 / 2), t663 i;
    t659 i, t343 i * t372 i * t399 i * (-1 / 2), t343 i * t370 i * t400 i * (-1 / 2)] := by
  ext j k; fin_cases j <;> fin_cases k <;> rfl

theorem qBlock_2_0 (i : In R) : qBlock i 2 0 = !![t564 i, 0, t565 i;
    i.dt * t343 i * t362 i * t373 i * (1 / 6), t581 i, i.dt * t343 i * t373 i * t397 i * (-1 / 6);
    t615 i, t616 i, t617 i] := by
  ext j k; fin_cases j <;> fin_cases k <;> rfl

theorem qBlock_2_1 (i : In R) : qBlock i 2 1 = !![t573 i, 0, t580 i;
    -t371 i * (t452 i + t623 i) - t374 i * (i.dt * t343 i * (t566 i - i.ew3 * t425 i) * (1 / 3) - i.ew3 * t343 i * t362 i * (1 / 2)) + t373 i * (-t451 i + t452 i + i.dt * t343 i * (t436 i + t582 i - t583 i) * (1 / 3)), t599 i, t608 i + t373 i * (t602 i + t610 i - i.dt * t343 i * (t490 i + t601 i - t609 i) * (1 / 3)) - t371 i * (t602 i - i.dt * t343 i * (t600 i - t601 i) * (1 / 3));
    -t374 i * t622 i - t371 i * (t451 i + t452 i - i.dt * t343 i * (t442 i + t582 i - t583 i) * (1 / 3)) + t373 i * (t452 i - t623 i), -t374 i * t631 i - t371 i * t635 i - t373 i * (t626 i - t627 i), t647 i - t374 i * t641 i - t373 i * (t562 i + i.dt * t343 i * (t642 i - t643 i) * (1 / 3))] := by
  ext j k; fin_cases j <;> fin_cases k <;> rfl

theorem qBlock_2_2 (i : In R) : qBlock i 2 2 = !![t374 i * (i.dt - i.dt * t343 i * t432 i * (1 / 3)) + i.dt * t343 i * t502 i * (1 / 3), 0, t652 i;
    -t374 i * (i.ew3 * t343 i * (1 / 2) - i.dt * i.ew1 * i.ew2 * t343 i * (1 / 6)) - i.dt * t343 i * t373 i * t613 i * (1 / 3), t373 i * (i.dt - i.dt * t343 i * t435 i * (1 / 3)) + i.dt * t343 i * t563 i * (1 / 3) + i.dt * t343 i * t371 i * t429 i * (1 / 3) + i.dt * t343 i * t374 i * t431 i * (1 / 3), t655 i - t373 i * (t614 i - i.dt * i.ew2 * i.ew3 * t343 i * (1 / 6)) - i.dt * i.ew2 * i.ew3 * t343 i * t374 i * (1 / 3);
    t652 i, t655 i - t373 i * (t614 i - t653 i) - i.dt * i.ew2 * i.ew3 * t343 i * t374 i * (1 / 3), t371 i * (i.dt - i.dt * t343 i * t441 i * (1 / 3)) + i.dt * t343 i * t503 i * (1 / 3) + i.dt * t343 i * t373 i * t429 i * (1 / 3) + i.dt * t343 i * t374 i * t430 i * (1 / 3)] := by
  ext j k; fin_cases j <;> fin_cases k <;> rfl

theorem qBlock_2_3 (i : In R) : qBlock i 2 3 = !![t343 i * t502 i * (-1 / 2), 0, 0;
    i.dt * i.ew3 * t343 i * t502 i * (1 / 6), t343 i * t563 i * (-1 / 2), i.dt * i.ew1 * t343 i * t503 i * (-1 / 6);
    i.dt * i.ew2 * t343 i * t502 i * (-1 / 6), t657 i, t343 i * t503 i * (-1 / 2)] := by
  ext j k; fin_cases j <;> fin_cases k <;> rfl

theorem qBlock_2_4 (i : In R) : qBlock i 2 4 = !![0, 0, 0;
    0, 0, 0;
    0, 0, 0] := by
  ext j k; fin_cases j <;> fin_cases k <;> rfl

theorem qBlock_3_0 (i : In R) : qBlock i 3 0 = !![0, 0, 0;
    0, 0, 0;
    0, 0, 0] := by
  ext j k; fin_cases j <;> fin_cases k <;> rfl

theorem qBlock_3_1 (i : In R) : qBlock i 3 1 = !![i.dt * t343 i * t362 i * t502 i * (-1 / 6), 0, i.dt * t343 i * t390 i * t502 i * (-1 / 6);
    i.dt * t343 i * t362 i * t563 i * (-1 / 6), i.dt * t343 i * t388 i * t563 i * (-1 / 6), t656 i;
    i.dt * t343 i * t362 i * t503 i * (-1 / 6), i.dt * t343 i * t381 i * t503 i * (-1 / 6), i.dt * t343 i * t394 i * t503 i * (-1 / 6)] := by
  ext j k; fin_cases j <;> fin_cases k <;> rfl

theorem qBlock_3_2 (i : In R) : qBlock i 3 2 = !![t343 i * t502 i * (-1 / 2), 0, i.dt * i.ew2 * t343 i * t502 i * (-1 / 6);
    0, t343 i * t563 i * (-1 / 2), t657 i;
    0, i.dt * i.ew1 * t343 i * t503 i * (-1 / 6), t343 i * t503 i * (-1 / 2)] := by
  ext j k; fin_cases j <;> fin_cases k <;> rfl

theorem qBlock_3_3 (i : In R) : qBlock i 3 3 = !![i.dt * t502 i, 0, 0;
    0, i.dt * t563 i, 0;
    0, 0, i.dt * t503 i] := by
  ext j k; fin_cases j <;> fin_cases k <;> rfl

theorem qBlock_3_4 (i : In R) : qBlock i 3 4 = !![0, 0, 0;
    0, 0, 0;
    0, 0, 0] := by
  ext j k; fin_cases j <;> fin_cases k <;> rfl

theorem qBlock_4_0 (i : In R) : qBlock i 4 0 = !![i.dt * t343 i * t346 i * t398 i * (-1 / 6), i.dt * t343 i * t366 i * t398 i * (-1 / 6), t658 i;
    t660 i, i.dt * t343 i * t367 i * t399 i * (-1 / 6), i.dt * t343 i * t372 i * t399 i * (-1 / 6);
    i.dt * t343 i * t345 i * t400 i * (-1 / 6), t662 i, i.dt * t343 i * t370 i * t400 i * (-1 / 6)] := by
  ext j k; fin_cases j <;> fin_cases k <;> rfl

theorem qBlock_4_1 (i : In R) : qBlock i 4 1 = !![t343 i * t346 i * t398 i * (-1 / 2), t343 i * t366 i * t398 i * (-1 / 2), t659 i;
    t661 i, t343 i * t367 i * t399 i * (-1 / 2), t343 i * t372 i * t399 i * (-1 / 2);
    t343 i * t345 i * t400 i * (-1 / 2), t663 i, t343 i * t370 i * t400 i * (-1 / 2)] := by
  ext j k; fin_cases j <;> fin_cases k <;> rfl

theorem qBlock_4_2 (i : In R) : qBlock i 4 2 = !![0, 0, 0;
    0, 0, 0;
    0, 0, 0] := by
  ext j k; fin_cases j <;> fin_cases k <;> rfl

theorem qBlock_4_3 (i : In R) : qBlock i 4 3 = !![0, 0, 0;
    0, 0, 0;
    0, 0, 0] := by
  ext j k; fin_cases j <;> fin_cases k <;> rfl

theorem qBlock_4_4 (i : In R) : qBlock i 4 4 = !![i.dt * t398 i, 0, 0;
    0, i.dt * t399 i, 0;
    0, 0, i.dt * t400 i] := by
  ext j k; fin_cases j <;> fin_cases k <;> rfl

end CalcQ

end MSF
