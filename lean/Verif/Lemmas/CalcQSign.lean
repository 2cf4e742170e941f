import Verif.Model.CalcQ

/-!
The noise terms of calcQCore.h use the attitude only through products of two components, so the sign
of the quaternion does not matter.  One lemma per intermediate term.
-/

namespace MSF.CalcQ

variable {R : Type} [Field R] (i : In R)

/-- The other sign of the attitude. -/
def In.negQ (i : In R) : In R := { i with q1 := -i.q1, q2 := -i.q2, q3 := -i.q3, q4 := -i.q4 }

theorem negQ_q1 : i.negQ.q1 = -i.q1 := rfl
theorem negQ_q2 : i.negQ.q2 = -i.q2 := rfl
theorem negQ_q3 : i.negQ.q3 = -i.q3 := rfl
theorem negQ_q4 : i.negQ.q4 = -i.q4 := rfl
theorem negQ_dt : i.negQ.dt = i.dt := rfl
theorem negQ_ew1 : i.negQ.ew1 = i.ew1 := rfl
theorem negQ_ew2 : i.negQ.ew2 = i.ew2 := rfl
theorem negQ_ew3 : i.negQ.ew3 = i.ew3 := rfl
theorem negQ_ea1 : i.negQ.ea1 = i.ea1 := rfl
theorem negQ_ea2 : i.negQ.ea2 = i.ea2 := rfl
theorem negQ_ea3 : i.negQ.ea3 = i.ea3 := rfl
theorem negQ_n_a1 : i.negQ.n_a1 = i.n_a1 := rfl
theorem negQ_n_a2 : i.negQ.n_a2 = i.n_a2 := rfl
theorem negQ_n_a3 : i.negQ.n_a3 = i.n_a3 := rfl
theorem negQ_n_ba1 : i.negQ.n_ba1 = i.n_ba1 := rfl
theorem negQ_n_ba2 : i.negQ.n_ba2 = i.n_ba2 := rfl
theorem negQ_n_ba3 : i.negQ.n_ba3 = i.n_ba3 := rfl
theorem negQ_n_w1 : i.negQ.n_w1 = i.n_w1 := rfl
theorem negQ_n_w2 : i.negQ.n_w2 = i.n_w2 := rfl
theorem negQ_n_w3 : i.negQ.n_w3 = i.n_w3 := rfl
theorem negQ_n_bw1 : i.negQ.n_bw1 = i.n_bw1 := rfl
theorem negQ_n_bw2 : i.negQ.n_bw2 = i.n_bw2 := rfl
theorem negQ_n_bw3 : i.negQ.n_bw3 = i.n_bw3 := rfl

theorem t343_negQ : t343 i.negQ = t343 i := by simp only [t343, negQ_dt]
theorem t348_negQ : t348 i.negQ = t348 i := by simp only [t348, negQ_q1, negQ_q4, neg_mul_neg]
theorem t349_negQ : t349 i.negQ = t349 i := by simp only [t349, negQ_q2, negQ_q3, neg_mul_neg]
theorem t344_negQ : t344 i.negQ = t344 i := by simp only [t344, t348_negQ, t349_negQ]
theorem t356_negQ : t356 i.negQ = t356 i := by simp only [t356, negQ_q1, negQ_q3, neg_mul_neg]
theorem t357_negQ : t357 i.negQ = t357 i := by simp only [t357, negQ_q2, negQ_q4, neg_mul_neg]
theorem t345_negQ : t345 i.negQ = t345 i := by simp only [t345, t356_negQ, t357_negQ]
theorem t350_negQ : t350 i.negQ = t350 i := by simp only [t350, negQ_q1, neg_mul_neg]
theorem t351_negQ : t351 i.negQ = t351 i := by simp only [t351, negQ_q2, neg_mul_neg]
theorem t352_negQ : t352 i.negQ = t352 i := by simp only [t352, negQ_q3, neg_mul_neg]
theorem t353_negQ : t353 i.negQ = t353 i := by simp only [t353, negQ_q4, neg_mul_neg]
theorem t346_negQ : t346 i.negQ = t346 i := by simp only [t346, t350_negQ, t351_negQ, t352_negQ,
  t353_negQ]
theorem t347_negQ : t347 i.negQ = t347 i := by simp only [t347, negQ_n_a1]
theorem t354_negQ : t354 i.negQ = t354 i := by simp only [t354, negQ_n_a2]
theorem t355_negQ : t355 i.negQ = t355 i := by simp only [t355, negQ_n_a3]
theorem t358_negQ : t358 i.negQ = t358 i := by simp only [t358, negQ_q1, negQ_q2, neg_mul_neg]
theorem t359_negQ : t359 i.negQ = t359 i := by simp only [t359, t344_negQ]
theorem t360_negQ : t360 i.negQ = t360 i := by simp only [t360, t345_negQ]
theorem t361_negQ : t361 i.negQ = t361 i := by simp only [t361, t346_negQ]
theorem t363_negQ : t363 i.negQ = t363 i := by simp only [t363, negQ_ea2, t345_negQ]
theorem t364_negQ : t364 i.negQ = t364 i := by simp only [t364, negQ_ea3, t344_negQ]
theorem t362_negQ : t362 i.negQ = t362 i := by simp only [t362, t363_negQ, t364_negQ]
theorem t365_negQ : t365 i.negQ = t365 i := by simp only [t365, t362_negQ]
theorem t366_negQ : t366 i.negQ = t366 i := by simp only [t366, t348_negQ, t349_negQ]
theorem t367_negQ : t367 i.negQ = t367 i := by simp only [t367, t350_negQ, t351_negQ, t352_negQ,
  t353_negQ]
theorem t368_negQ : t368 i.negQ = t368 i := by simp only [t368, negQ_q3, negQ_q4, neg_mul_neg]
theorem t369_negQ : t369 i.negQ = t369 i := by simp only [t369, t356_negQ, t357_negQ]
theorem t370_negQ : t370 i.negQ = t370 i := by simp only [t370, t350_negQ, t351_negQ, t352_negQ,
  t353_negQ]
theorem t371_negQ : t371 i.negQ = t371 i := by simp only [t371, negQ_n_w3]
theorem t372_negQ : t372 i.negQ = t372 i := by simp only [t372, t358_negQ, t368_negQ]
theorem t373_negQ : t373 i.negQ = t373 i := by simp only [t373, negQ_n_w2]
theorem t374_negQ : t374 i.negQ = t374 i := by simp only [t374, negQ_n_w1]
theorem t375_negQ : t375 i.negQ = t375 i := by simp only [t375, negQ_dt, t343_negQ, t346_negQ,
  t347_negQ, t366_negQ]
theorem t376_negQ : t376 i.negQ = t376 i := by simp only [t376, t358_negQ, t368_negQ]
theorem t377_negQ : t377 i.negQ = t377 i := by simp only [t377, t343_negQ, t346_negQ, t347_negQ,
  t366_negQ]
theorem t378_negQ : t378 i.negQ = t378 i := by simp only [t378, t366_negQ]
theorem t379_negQ : t379 i.negQ = t379 i := by simp only [t379, t376_negQ]
theorem t380_negQ : t380 i.negQ = t380 i := by simp only [t380, negQ_ea1, t367_negQ]
theorem t391_negQ : t391 i.negQ = t391 i := by simp only [t391, negQ_ea2, t366_negQ]
theorem t381_negQ : t381 i.negQ = t381 i := by simp only [t381, t380_negQ, t391_negQ]
theorem t382_negQ : t382 i.negQ = t382 i := by simp only [t382, negQ_ea3, t367_negQ]
theorem t383_negQ : t383 i.negQ = t383 i := by simp only [t383, negQ_ea2, t376_negQ]
theorem t384_negQ : t384 i.negQ = t384 i := by simp only [t384, t382_negQ, t383_negQ]
theorem t385_negQ : t385 i.negQ = t385 i := by simp only [t385, t367_negQ]
theorem t386_negQ : t386 i.negQ = t386 i := by simp only [t386, negQ_ea1, t376_negQ]
theorem t387_negQ : t387 i.negQ = t387 i := by simp only [t387, negQ_ea3, t366_negQ]
theorem t388_negQ : t388 i.negQ = t388 i := by simp only [t388, t386_negQ, t387_negQ]
theorem t389_negQ : t389 i.negQ = t389 i := by simp only [t389, negQ_ea2, t370_negQ]
theorem t407_negQ : t407 i.negQ = t407 i := by simp only [t407, negQ_ea3, t372_negQ]
theorem t390_negQ : t390 i.negQ = t390 i := by simp only [t390, t389_negQ, t407_negQ]
theorem t392_negQ : t392 i.negQ = t392 i := by simp only [t392, negQ_ea1, t372_negQ]
theorem t393_negQ : t393 i.negQ = t393 i := by simp only [t393, negQ_ea2, t369_negQ]
theorem t394_negQ : t394 i.negQ = t394 i := by simp only [t394, t392_negQ, t393_negQ]
theorem t395_negQ : t395 i.negQ = t395 i := by simp only [t395, negQ_ea1, t370_negQ]
theorem t396_negQ : t396 i.negQ = t396 i := by simp only [t396, negQ_ea3, t369_negQ]
theorem t397_negQ : t397 i.negQ = t397 i := by simp only [t397, t395_negQ, t396_negQ]
theorem t398_negQ : t398 i.negQ = t398 i := by simp only [t398, negQ_n_ba1]
theorem t399_negQ : t399 i.negQ = t399 i := by simp only [t399, negQ_n_ba2]
theorem t400_negQ : t400 i.negQ = t400 i := by simp only [t400, negQ_n_ba3]
theorem t401_negQ : t401 i.negQ = t401 i := by simp only [t401, negQ_dt, t343_negQ, t345_negQ,
  t355_negQ, t370_negQ]
theorem t402_negQ : t402 i.negQ = t402 i := by simp only [t402, negQ_dt, t343_negQ, t344_negQ,
  t346_negQ, t347_negQ, t354_negQ, t369_negQ, t372_negQ, t401_negQ]
theorem t403_negQ : t403 i.negQ = t403 i := by simp only [t403, negQ_dt, t343_negQ, t354_negQ,
  t367_negQ, t372_negQ]
theorem t404_negQ : t404 i.negQ = t404 i := by simp only [t404, negQ_dt, t343_negQ, t347_negQ,
  t355_negQ, t366_negQ, t369_negQ, t370_negQ, t376_negQ, t403_negQ]
theorem t405_negQ : t405 i.negQ = t405 i := by simp only [t405, t343_negQ, t345_negQ, t355_negQ,
  t370_negQ]
theorem t406_negQ : t406 i.negQ = t406 i := by simp only [t406, negQ_dt, t343_negQ, t362_negQ,
  t373_negQ, t397_negQ]
theorem t421_negQ : t421 i.negQ = t421 i := by simp only [t421, t343_negQ, t346_negQ, t347_negQ,
  t369_negQ]
theorem t422_negQ : t422 i.negQ = t422 i := by simp only [t422, negQ_dt, t343_negQ, t362_negQ,
  t371_negQ, t394_negQ]
theorem t423_negQ : t423 i.negQ = t423 i := by simp only [t423, t343_negQ, t344_negQ, t354_negQ,
  t372_negQ]
theorem t424_negQ : t424 i.negQ = t424 i := by simp only [t424, negQ_dt, t343_negQ, t362_negQ,
  t374_negQ, t390_negQ]
theorem t408_negQ : t408 i.negQ = t408 i := by simp only [t408, t405_negQ, t406_negQ, t421_negQ,
  t422_negQ, t423_negQ, t424_negQ]
theorem t409_negQ : t409 i.negQ = t409 i := by simp only [t409, t343_negQ, t354_negQ, t367_negQ,
  t372_negQ]
theorem t410_negQ : t410 i.negQ = t410 i := by simp only [t410, negQ_dt, t343_negQ, t374_negQ,
  t384_negQ, t390_negQ]
theorem t411_negQ : t411 i.negQ = t411 i := by simp only [t411, negQ_dt, t343_negQ, t373_negQ,
  t388_negQ, t397_negQ]
theorem t463_negQ : t463 i.negQ = t463 i := by simp only [t463, t343_negQ, t355_negQ, t370_negQ,
  t376_negQ]
theorem t464_negQ : t464 i.negQ = t464 i := by simp only [t464, t343_negQ, t347_negQ, t366_negQ,
  t369_negQ]
theorem t465_negQ : t465 i.negQ = t465 i := by simp only [t465, negQ_dt, t343_negQ, t371_negQ,
  t381_negQ, t394_negQ]
theorem t412_negQ : t412 i.negQ = t412 i := by simp only [t412, t409_negQ, t410_negQ, t411_negQ,
  t463_negQ, t464_negQ, t465_negQ]
theorem t413_negQ : t413 i.negQ = t413 i := by simp only [t413, t369_negQ]
theorem t414_negQ : t414 i.negQ = t414 i := by simp only [t414, t372_negQ]
theorem t415_negQ : t415 i.negQ = t415 i := by simp only [t415, t370_negQ]
theorem t416_negQ : t416 i.negQ = t416 i := by simp only [t416, t343_negQ, t354_negQ, t359_negQ]
theorem t417_negQ : t417 i.negQ = t417 i := by simp only [t417, t343_negQ, t355_negQ, t360_negQ]
theorem t418_negQ : t418 i.negQ = t418 i := by simp only [t418, t343_negQ, t347_negQ, t361_negQ]
theorem t419_negQ : t419 i.negQ = t419 i := by simp only [t419, negQ_dt, t343_negQ, t365_negQ,
  t371_negQ, t373_negQ, t374_negQ, t416_negQ, t417_negQ, t418_negQ]
theorem t453_negQ : t453 i.negQ = t453 i := by simp only [t453, t343_negQ, t344_negQ, t354_negQ,
  t367_negQ]
theorem t454_negQ : t454 i.negQ = t454 i := by simp only [t454, t343_negQ, t345_negQ, t355_negQ,
  t376_negQ]
theorem t420_negQ : t420 i.negQ = t420 i := by simp only [t420, t377_negQ, t453_negQ, t454_negQ]
theorem t426_negQ : t426 i.negQ = t426 i := by simp only [t426, negQ_ew2, t362_negQ]
theorem t427_negQ : t427 i.negQ = t427 i := by simp only [t427, negQ_ew3, t362_negQ]
theorem t425_negQ : t425 i.negQ = t425 i := by simp only [t425, t426_negQ, t427_negQ]
theorem t428_negQ : t428 i.negQ = t428 i := by simp only [t428, negQ_dt, t365_negQ]
theorem t429_negQ : t429 i.negQ = t429 i := by simp only [t429, negQ_ew1]
theorem t430_negQ : t430 i.negQ = t430 i := by simp only [t430, negQ_ew2]
theorem t431_negQ : t431 i.negQ = t431 i := by simp only [t431, negQ_ew3]
theorem t432_negQ : t432 i.negQ = t432 i := by simp only [t432, t430_negQ, t431_negQ]
theorem t433_negQ : t433 i.negQ = t433 i := by simp only [t433, t362_negQ, t432_negQ]
theorem t434_negQ : t434 i.negQ = t434 i := by simp only [t434, negQ_ew1, t343_negQ, t365_negQ]
theorem t435_negQ : t435 i.negQ = t435 i := by simp only [t435, t429_negQ, t431_negQ]
theorem t436_negQ : t436 i.negQ = t436 i := by simp only [t436, t362_negQ, t435_negQ]
theorem t443_negQ : t443 i.negQ = t443 i := by simp only [t443, negQ_ew2, negQ_ew3, t362_negQ]
theorem t437_negQ : t437 i.negQ = t437 i := by simp only [t437, t433_negQ, t436_negQ, t443_negQ]
theorem t438_negQ : t438 i.negQ = t438 i := by simp only [t438, negQ_ew1, t362_negQ, t394_negQ]
theorem t511_negQ : t511 i.negQ = t511 i := by simp only [t511, negQ_ew1, t362_negQ, t397_negQ]
theorem t439_negQ : t439 i.negQ = t439 i := by simp only [t439, t438_negQ, t511_negQ]
theorem t440_negQ : t440 i.negQ = t440 i := by simp only [t440, t343_negQ, t439_negQ]
theorem t441_negQ : t441 i.negQ = t441 i := by simp only [t441, t429_negQ, t430_negQ]
theorem t442_negQ : t442 i.negQ = t442 i := by simp only [t442, t362_negQ, t441_negQ]
theorem t444_negQ : t444 i.negQ = t444 i := by simp only [t444, t390_negQ, t432_negQ]
theorem t445_negQ : t445 i.negQ = t445 i := by simp only [t445, negQ_ew2, t394_negQ]
theorem t446_negQ : t446 i.negQ = t446 i := by simp only [t446, negQ_ew3, t397_negQ]
theorem t447_negQ : t447 i.negQ = t447 i := by simp only [t447, t445_negQ, t446_negQ]
theorem t448_negQ : t448 i.negQ = t448 i := by simp only [t448, negQ_ew1, negQ_ew2, t362_negQ]
theorem t449_negQ : t449 i.negQ = t449 i := by simp only [t449, negQ_ew1, negQ_ew3, t362_negQ]
theorem t450_negQ : t450 i.negQ = t450 i := by simp only [t450, negQ_ew1, negQ_ew3, t362_negQ]
theorem t451_negQ : t451 i.negQ = t451 i := by simp only [t451, negQ_dt, t362_negQ]
theorem t452_negQ : t452 i.negQ = t452 i := by simp only [t452, negQ_ew1, t343_negQ, t362_negQ]
theorem t455_negQ : t455 i.negQ = t455 i := by simp only [t455, negQ_dt, t343_negQ, t362_negQ,
  t374_negQ, t384_negQ]
theorem t456_negQ : t456 i.negQ = t456 i := by simp only [t456, t343_negQ, t347_negQ, t378_negQ]
theorem t457_negQ : t457 i.negQ = t457 i := by simp only [t457, t343_negQ, t355_negQ, t379_negQ]
theorem t458_negQ : t458 i.negQ = t458 i := by simp only [t458, t381_negQ]
theorem t459_negQ : t459 i.negQ = t459 i := by simp only [t459, t384_negQ]
theorem t460_negQ : t460 i.negQ = t460 i := by simp only [t460, t343_negQ, t354_negQ, t385_negQ]
theorem t461_negQ : t461 i.negQ = t461 i := by simp only [t461, t388_negQ]
theorem t462_negQ : t462 i.negQ = t462 i := by simp only [t462, negQ_dt, t343_negQ, t371_negQ,
  t373_negQ, t374_negQ, t456_negQ, t457_negQ, t458_negQ, t459_negQ, t460_negQ, t461_negQ]
theorem t466_negQ : t466 i.negQ = t466 i := by simp only [t466, t433_negQ, t442_negQ, t443_negQ]
theorem t467_negQ : t467 i.negQ = t467 i := by simp only [t467, negQ_ew1, t362_negQ, t388_negQ]
theorem t468_negQ : t468 i.negQ = t468 i := by simp only [t468, negQ_ew1, t362_negQ, t381_negQ]
theorem t469_negQ : t469 i.negQ = t469 i := by simp only [t469, t467_negQ, t468_negQ]
theorem t470_negQ : t470 i.negQ = t470 i := by simp only [t470, t343_negQ, t469_negQ]
theorem t471_negQ : t471 i.negQ = t471 i := by simp only [t471, t384_negQ, t432_negQ]
theorem t472_negQ : t472 i.negQ = t472 i := by simp only [t472, negQ_ew2, t381_negQ]
theorem t479_negQ : t479 i.negQ = t479 i := by simp only [t479, negQ_ew3, t388_negQ]
theorem t473_negQ : t473 i.negQ = t473 i := by simp only [t473, t472_negQ, t479_negQ]
theorem t474_negQ : t474 i.negQ = t474 i := by simp only [t474, t433_negQ, t448_negQ, t449_negQ]
theorem t475_negQ : t475 i.negQ = t475 i := by simp only [t475, negQ_dt, t343_negQ, t346_negQ,
  t366_negQ, t398_negQ]
theorem t476_negQ : t476 i.negQ = t476 i := by simp only [t476, negQ_dt, t346_negQ, t347_negQ,
  t366_negQ]
theorem t477_negQ : t477 i.negQ = t477 i := by simp only [t477, negQ_ew2, negQ_ew3, t381_negQ]
theorem t492_negQ : t492 i.negQ = t492 i := by simp only [t492, t388_negQ, t435_negQ]
theorem t478_negQ : t478 i.negQ = t478 i := by simp only [t478, t471_negQ, t477_negQ, t492_negQ]
theorem t480_negQ : t480 i.negQ = t480 i := by simp only [t480, t472_negQ, t479_negQ]
theorem t481_negQ : t481 i.negQ = t481 i := by simp only [t481, negQ_ew1, negQ_ew3, t381_negQ]
theorem t482_negQ : t482 i.negQ = t482 i := by simp only [t482, negQ_ew1, negQ_ew2, t388_negQ]
theorem t483_negQ : t483 i.negQ = t483 i := by simp only [t483, t471_negQ, t481_negQ, t482_negQ]
theorem t484_negQ : t484 i.negQ = t484 i := by simp only [t484, negQ_ew2, negQ_ew3, t388_negQ]
theorem t486_negQ : t486 i.negQ = t486 i := by simp only [t486, t381_negQ, t441_negQ]
theorem t485_negQ : t485 i.negQ = t485 i := by simp only [t485, t471_negQ, t484_negQ, t486_negQ]
theorem t487_negQ : t487 i.negQ = t487 i := by simp only [t487, t394_negQ, t441_negQ]
theorem t488_negQ : t488 i.negQ = t488 i := by simp only [t488, negQ_ew2, negQ_ew3, t397_negQ]
theorem t489_negQ : t489 i.negQ = t489 i := by simp only [t489, t444_negQ, t487_negQ, t488_negQ]
theorem t490_negQ : t490 i.negQ = t490 i := by simp only [t490, t397_negQ, t435_negQ]
theorem t491_negQ : t491 i.negQ = t491 i := by simp only [t491, negQ_ew2, negQ_ew3, t394_negQ]
theorem t493_negQ : t493 i.negQ = t493 i := by simp only [t493, negQ_ew1, t381_negQ, t397_negQ]
theorem t541_negQ : t541 i.negQ = t541 i := by simp only [t541, negQ_ew1, t388_negQ, t394_negQ]
theorem t494_negQ : t494 i.negQ = t494 i := by simp only [t494, t493_negQ, t541_negQ]
theorem t495_negQ : t495 i.negQ = t495 i := by simp only [t495, t343_negQ, t494_negQ]
theorem t496_negQ : t496 i.negQ = t496 i := by simp only [t496, negQ_ew1, negQ_ew2, t397_negQ]
theorem t527_negQ : t527 i.negQ = t527 i := by simp only [t527, negQ_ew1, negQ_ew3, t394_negQ]
theorem t497_negQ : t497 i.negQ = t497 i := by simp only [t497, t444_negQ, t496_negQ, t527_negQ]
theorem t498_negQ : t498 i.negQ = t498 i := by simp only [t498, negQ_ew2, negQ_ew3, t381_negQ]
theorem t499_negQ : t499 i.negQ = t499 i := by simp only [t499, negQ_ew1, t343_negQ, t381_negQ]
theorem t500_negQ : t500 i.negQ = t500 i := by simp only [t500, t384_negQ, t432_negQ]
theorem t501_negQ : t501 i.negQ = t501 i := by simp only [t501, negQ_ew2, negQ_ew3, t388_negQ]
theorem t502_negQ : t502 i.negQ = t502 i := by simp only [t502, negQ_n_bw1]
theorem t503_negQ : t503 i.negQ = t503 i := by simp only [t503, negQ_n_bw3]
theorem t504_negQ : t504 i.negQ = t504 i := by simp only [t504, t343_negQ, t347_negQ, t413_negQ]
theorem t505_negQ : t505 i.negQ = t505 i := by simp only [t505, t343_negQ, t354_negQ, t414_negQ]
theorem t506_negQ : t506 i.negQ = t506 i := by simp only [t506, t397_negQ]
theorem t507_negQ : t507 i.negQ = t507 i := by simp only [t507, t390_negQ]
theorem t508_negQ : t508 i.negQ = t508 i := by simp only [t508, t343_negQ, t355_negQ, t415_negQ]
theorem t509_negQ : t509 i.negQ = t509 i := by simp only [t509, t394_negQ]
theorem t510_negQ : t510 i.negQ = t510 i := by simp only [t510, negQ_dt, t343_negQ, t371_negQ,
  t373_negQ, t374_negQ, t504_negQ, t505_negQ, t506_negQ, t507_negQ, t508_negQ, t509_negQ]
theorem t512_negQ : t512 i.negQ = t512 i := by simp only [t512, t444_negQ, t490_negQ, t491_negQ]
theorem t513_negQ : t513 i.negQ = t513 i := by simp only [t513, t397_negQ, t437_negQ]
theorem t514_negQ : t514 i.negQ = t514 i := by simp only [t514, t362_negQ, t394_negQ, t429_negQ]
theorem t515_negQ : t515 i.negQ = t515 i := by simp only [t515, negQ_dt, t362_negQ, t397_negQ]
theorem t516_negQ : t516 i.negQ = t516 i := by simp only [t516, t362_negQ, t489_negQ]
theorem t517_negQ : t517 i.negQ = t517 i := by simp only [t517, t394_negQ, t466_negQ]
theorem t518_negQ : t518 i.negQ = t518 i := by simp only [t518, t362_negQ, t397_negQ, t429_negQ]
theorem t519_negQ : t519 i.negQ = t519 i := by simp only [t519, t516_negQ, t517_negQ, t518_negQ]
theorem t520_negQ : t520 i.negQ = t520 i := by simp only [t520, negQ_dt, t362_negQ, t394_negQ]
theorem t521_negQ : t521 i.negQ = t521 i := by simp only [t521, negQ_dt, t343_negQ, t440_negQ,
  t519_negQ, t520_negQ]
theorem t522_negQ : t522 i.negQ = t522 i := by simp only [t522, t371_negQ, t521_negQ]
theorem t523_negQ : t523 i.negQ = t523 i := by simp only [t523, t362_negQ, t447_negQ]
theorem t524_negQ : t524 i.negQ = t524 i := by simp only [t524, t390_negQ, t425_negQ]
theorem t525_negQ : t525 i.negQ = t525 i := by simp only [t525, t523_negQ, t524_negQ]
theorem t526_negQ : t526 i.negQ = t526 i := by simp only [t526, t343_negQ, t525_negQ]
theorem t528_negQ : t528 i.negQ = t528 i := by simp only [t528, t425_negQ, t447_negQ]
theorem t529_negQ : t529 i.negQ = t529 i := by simp only [t529, t390_negQ, t474_negQ]
theorem t530_negQ : t530 i.negQ = t530 i := by simp only [t530, t362_negQ, t497_negQ, t528_negQ,
  t529_negQ]
theorem t531_negQ : t531 i.negQ = t531 i := by simp only [t531, negQ_dt, t343_negQ, t530_negQ]
theorem t532_negQ : t532 i.negQ = t532 i := by simp only [t532, negQ_dt, t362_negQ, t390_negQ]
theorem t533_negQ : t533 i.negQ = t533 i := by simp only [t533, t526_negQ, t531_negQ, t532_negQ]
theorem t534_negQ : t534 i.negQ = t534 i := by simp only [t534, t374_negQ, t533_negQ]
theorem t535_negQ : t535 i.negQ = t535 i := by simp only [t535, negQ_dt, t343_negQ, t345_negQ,
  t370_negQ, t400_negQ]
theorem t536_negQ : t536 i.negQ = t536 i := by simp only [t536, negQ_dt, t345_negQ, t355_negQ,
  t370_negQ]
theorem t537_negQ : t537 i.negQ = t537 i := by simp only [t537, t381_negQ, t489_negQ]
theorem t538_negQ : t538 i.negQ = t538 i := by simp only [t538, t388_negQ, t397_negQ, t429_negQ]
theorem t539_negQ : t539 i.negQ = t539 i := by simp only [t539, t394_negQ, t485_negQ, t537_negQ,
  t538_negQ]
theorem t540_negQ : t540 i.negQ = t540 i := by simp only [t540, negQ_dt, t343_negQ, t539_negQ]
theorem t542_negQ : t542 i.negQ = t542 i := by simp only [t542, negQ_dt, t381_negQ, t394_negQ,
  t495_negQ, t540_negQ]
theorem t543_negQ : t543 i.negQ = t543 i := by simp only [t543, t388_negQ, t512_negQ]
theorem t544_negQ : t544 i.negQ = t544 i := by simp only [t544, t381_negQ, t394_negQ, t429_negQ]
theorem t545_negQ : t545 i.negQ = t545 i := by simp only [t545, t397_negQ, t478_negQ, t543_negQ,
  t544_negQ]
theorem t546_negQ : t546 i.negQ = t546 i := by simp only [t546, negQ_dt, t343_negQ, t545_negQ]
theorem t547_negQ : t547 i.negQ = t547 i := by simp only [t547, negQ_dt, t388_negQ, t397_negQ,
  t495_negQ, t546_negQ]
theorem t548_negQ : t548 i.negQ = t548 i := by simp only [t548, t373_negQ, t547_negQ]
theorem t549_negQ : t549 i.negQ = t549 i := by simp only [t549, t384_negQ, t447_negQ]
theorem t550_negQ : t550 i.negQ = t550 i := by simp only [t550, t390_negQ, t473_negQ, t549_negQ]
theorem t551_negQ : t551 i.negQ = t551 i := by simp only [t551, t343_negQ, t550_negQ]
theorem t552_negQ : t552 i.negQ = t552 i := by simp only [t552, t384_negQ, t497_negQ]
theorem t553_negQ : t553 i.negQ = t553 i := by simp only [t553, t390_negQ, t483_negQ]
theorem t554_negQ : t554 i.negQ = t554 i := by simp only [t554, t447_negQ, t473_negQ]
theorem t555_negQ : t555 i.negQ = t555 i := by simp only [t555, t552_negQ, t553_negQ, t554_negQ]
theorem t556_negQ : t556 i.negQ = t556 i := by simp only [t556, negQ_dt, t384_negQ, t390_negQ]
theorem t557_negQ : t557 i.negQ = t557 i := by simp only [t557, negQ_dt, t343_negQ, t551_negQ,
  t555_negQ, t556_negQ]
theorem t558_negQ : t558 i.negQ = t558 i := by simp only [t558, negQ_dt, t343_negQ, t367_negQ,
  t372_negQ, t399_negQ]
theorem t559_negQ : t559 i.negQ = t559 i := by simp only [t559, negQ_dt, t354_negQ, t367_negQ,
  t372_negQ]
theorem t560_negQ : t560 i.negQ = t560 i := by simp only [t560, negQ_dt, t343_negQ, t347_negQ,
  t355_negQ, t366_negQ, t369_negQ, t370_negQ, t371_negQ, t374_negQ, t376_negQ, t398_negQ, t400_negQ,
  t542_negQ, t548_negQ, t557_negQ, t558_negQ, t559_negQ]
theorem t561_negQ : t561 i.negQ = t561 i := by simp only [t561, negQ_ew1, t343_negQ, t394_negQ,
  t397_negQ]
theorem t562_negQ : t562 i.negQ = t562 i := by simp only [t562, negQ_ew1, t343_negQ, t397_negQ]
theorem t563_negQ : t563 i.negQ = t563 i := by simp only [t563, negQ_n_bw2]
theorem t564_negQ : t564 i.negQ = t564 i := by simp only [t564, negQ_dt, t343_negQ, t362_negQ,
  t374_negQ]
theorem t565_negQ : t565 i.negQ = t565 i := by simp only [t565, negQ_dt, t343_negQ, t374_negQ,
  t390_negQ]
theorem t566_negQ : t566 i.negQ = t566 i := by simp only [t566, negQ_ew1, negQ_ew2, t362_negQ]
theorem t567_negQ : t567 i.negQ = t567 i := by simp only [t567, t433_negQ, t450_negQ, t566_negQ]
theorem t568_negQ : t568 i.negQ = t568 i := by simp only [t568, negQ_dt, t343_negQ, t567_negQ]
theorem t569_negQ : t569 i.negQ = t569 i := by simp only [t569, t343_negQ, t425_negQ]
theorem t570_negQ : t570 i.negQ = t570 i := by simp only [t570, t451_negQ, t568_negQ, t569_negQ]
theorem t571_negQ : t571 i.negQ = t571 i := by simp only [t571, negQ_dt, t343_negQ, t362_negQ,
  t373_negQ, t432_negQ]
theorem t572_negQ : t572 i.negQ = t572 i := by simp only [t572, negQ_dt, t343_negQ, t362_negQ,
  t371_negQ, t432_negQ]
theorem t573_negQ : t573 i.negQ = t573 i := by simp only [t573, t374_negQ, t570_negQ, t571_negQ,
  t572_negQ]
theorem t574_negQ : t574 i.negQ = t574 i := by simp only [t574, negQ_ew1, negQ_ew2, t397_negQ]
theorem t575_negQ : t575 i.negQ = t575 i := by simp only [t575, negQ_ew1, negQ_ew3, t394_negQ,
  t444_negQ, t574_negQ]
theorem t576_negQ : t576 i.negQ = t576 i := by simp only [t576, t343_negQ, t447_negQ]
theorem t577_negQ : t577 i.negQ = t577 i := by simp only [t577, negQ_dt, t390_negQ]
theorem t578_negQ : t578 i.negQ = t578 i := by simp only [t578, negQ_dt, t343_negQ, t575_negQ,
  t576_negQ, t577_negQ]
theorem t579_negQ : t579 i.negQ = t579 i := by simp only [t579, negQ_dt, t343_negQ, t371_negQ,
  t394_negQ, t432_negQ]
theorem t580_negQ : t580 i.negQ = t580 i := by simp only [t580, negQ_dt, t343_negQ, t373_negQ,
  t374_negQ, t397_negQ, t432_negQ, t578_negQ, t579_negQ]
theorem t581_negQ : t581 i.negQ = t581 i := by simp only [t581, negQ_dt, t343_negQ, t373_negQ,
  t388_negQ]
theorem t582_negQ : t582 i.negQ = t582 i := by simp only [t582, t362_negQ, t432_negQ]
theorem t583_negQ : t583 i.negQ = t583 i := by simp only [t583, negQ_ew2, negQ_ew3, t362_negQ]
theorem t584_negQ : t584 i.negQ = t584 i := by simp only [t584, t362_negQ, t429_negQ]
theorem t585_negQ : t585 i.negQ = t585 i := by simp only [t585, t583_negQ, t584_negQ]
theorem t586_negQ : t586 i.negQ = t586 i := by simp only [t586, negQ_ew3, t473_negQ]
theorem t587_negQ : t587 i.negQ = t587 i := by simp only [t587, negQ_ew1, negQ_ew2, t384_negQ]
theorem t588_negQ : t588 i.negQ = t588 i := by simp only [t588, t586_negQ, t587_negQ]
theorem t589_negQ : t589 i.negQ = t589 i := by simp only [t589, negQ_dt, t343_negQ, t588_negQ]
theorem t590_negQ : t590 i.negQ = t590 i := by simp only [t590, negQ_ew3, t343_negQ, t374_negQ,
  t384_negQ, t589_negQ]
theorem t591_negQ : t591 i.negQ = t591 i := by simp only [t591, t388_negQ, t429_negQ]
theorem t592_negQ : t592 i.negQ = t592 i := by simp only [t592, t498_negQ, t591_negQ]
theorem t593_negQ : t593 i.negQ = t593 i := by simp only [t593, negQ_dt, t343_negQ, t592_negQ]
theorem t594_negQ : t594 i.negQ = t594 i := by simp only [t594, t499_negQ, t593_negQ]
theorem t595_negQ : t595 i.negQ = t595 i := by simp only [t595, t492_negQ, t498_negQ, t500_negQ]
theorem t596_negQ : t596 i.negQ = t596 i := by simp only [t596, negQ_dt, t343_negQ, t595_negQ]
theorem t597_negQ : t597 i.negQ = t597 i := by simp only [t597, negQ_dt, t388_negQ]
theorem t598_negQ : t598 i.negQ = t598 i := by simp only [t598, t499_negQ, t596_negQ, t597_negQ]
theorem t599_negQ : t599 i.negQ = t599 i := by simp only [t599, t371_negQ, t373_negQ, t590_negQ,
  t594_negQ, t598_negQ]
theorem t600_negQ : t600 i.negQ = t600 i := by simp only [t600, t397_negQ, t429_negQ]
theorem t601_negQ : t601 i.negQ = t601 i := by simp only [t601, negQ_ew2, negQ_ew3, t394_negQ]
theorem t602_negQ : t602 i.negQ = t602 i := by simp only [t602, negQ_ew1, t343_negQ, t394_negQ]
theorem t603_negQ : t603 i.negQ = t603 i := by simp only [t603, negQ_ew3, t447_negQ]
theorem t604_negQ : t604 i.negQ = t604 i := by simp only [t604, negQ_ew1, negQ_ew2, t390_negQ,
  t603_negQ]
theorem t605_negQ : t605 i.negQ = t605 i := by simp only [t605, negQ_dt, t343_negQ, t604_negQ]
theorem t606_negQ : t606 i.negQ = t606 i := by simp only [t606, negQ_ew3, t343_negQ, t390_negQ]
theorem t607_negQ : t607 i.negQ = t607 i := by simp only [t607, t605_negQ, t606_negQ]
theorem t608_negQ : t608 i.negQ = t608 i := by simp only [t608, t374_negQ, t607_negQ]
theorem t609_negQ : t609 i.negQ = t609 i := by simp only [t609, t390_negQ, t432_negQ]
theorem t610_negQ : t610 i.negQ = t610 i := by simp only [t610, negQ_dt, t397_negQ]
theorem t611_negQ : t611 i.negQ = t611 i := by simp only [t611, t430_negQ]
theorem t612_negQ : t612 i.negQ = t612 i := by simp only [t612, t431_negQ]
theorem t613_negQ : t613 i.negQ = t613 i := by simp only [t613, t611_negQ, t612_negQ]
theorem t614_negQ : t614 i.negQ = t614 i := by simp only [t614, negQ_ew1, t343_negQ]
theorem t615_negQ : t615 i.negQ = t615 i := by simp only [t615, negQ_dt, t343_negQ, t362_negQ,
  t371_negQ]
theorem t616_negQ : t616 i.negQ = t616 i := by simp only [t616, negQ_dt, t343_negQ, t371_negQ,
  t381_negQ]
theorem t617_negQ : t617 i.negQ = t617 i := by simp only [t617, negQ_dt, t343_negQ, t371_negQ,
  t394_negQ]
theorem t618_negQ : t618 i.negQ = t618 i := by simp only [t618, negQ_ew2, t425_negQ]
theorem t619_negQ : t619 i.negQ = t619 i := by simp only [t619, t450_negQ, t618_negQ]
theorem t620_negQ : t620 i.negQ = t620 i := by simp only [t620, negQ_dt, t343_negQ, t619_negQ]
theorem t621_negQ : t621 i.negQ = t621 i := by simp only [t621, negQ_ew2, t343_negQ, t362_negQ]
theorem t622_negQ : t622 i.negQ = t622 i := by simp only [t622, t620_negQ, t621_negQ]
theorem t623_negQ : t623 i.negQ = t623 i := by simp only [t623, negQ_dt, t343_negQ, t585_negQ]
theorem t624_negQ : t624 i.negQ = t624 i := by simp only [t624, t381_negQ, t429_negQ]
theorem t625_negQ : t625 i.negQ = t625 i := by simp only [t625, t501_negQ, t624_negQ]
theorem t626_negQ : t626 i.negQ = t626 i := by simp only [t626, negQ_dt, t343_negQ, t625_negQ]
theorem t627_negQ : t627 i.negQ = t627 i := by simp only [t627, negQ_ew1, t343_negQ, t388_negQ]
theorem t628_negQ : t628 i.negQ = t628 i := by simp only [t628, negQ_ew2, t473_negQ]
theorem t629_negQ : t629 i.negQ = t629 i := by simp only [t629, negQ_ew1, negQ_ew3, t384_negQ,
  t628_negQ]
theorem t630_negQ : t630 i.negQ = t630 i := by simp only [t630, negQ_dt, t343_negQ, t629_negQ]
theorem t631_negQ : t631 i.negQ = t631 i := by simp only [t631, negQ_ew2, t343_negQ, t384_negQ,
  t630_negQ]
theorem t632_negQ : t632 i.negQ = t632 i := by simp only [t632, t486_negQ, t500_negQ, t501_negQ]
theorem t633_negQ : t633 i.negQ = t633 i := by simp only [t633, negQ_dt, t343_negQ, t632_negQ]
theorem t634_negQ : t634 i.negQ = t634 i := by simp only [t634, negQ_dt, t381_negQ]
theorem t635_negQ : t635 i.negQ = t635 i := by simp only [t635, t627_negQ, t633_negQ, t634_negQ]
theorem t636_negQ : t636 i.negQ = t636 i := by simp only [t636, negQ_ew2, t447_negQ]
theorem t637_negQ : t637 i.negQ = t637 i := by simp only [t637, negQ_ew1, negQ_ew3, t390_negQ]
theorem t638_negQ : t638 i.negQ = t638 i := by simp only [t638, t636_negQ, t637_negQ]
theorem t639_negQ : t639 i.negQ = t639 i := by simp only [t639, negQ_dt, t343_negQ, t638_negQ]
theorem t640_negQ : t640 i.negQ = t640 i := by simp only [t640, negQ_ew2, t343_negQ, t390_negQ]
theorem t641_negQ : t641 i.negQ = t641 i := by simp only [t641, t639_negQ, t640_negQ]
theorem t642_negQ : t642 i.negQ = t642 i := by simp only [t642, t394_negQ, t429_negQ]
theorem t643_negQ : t643 i.negQ = t643 i := by simp only [t643, negQ_ew2, negQ_ew3, t397_negQ]
theorem t644_negQ : t644 i.negQ = t644 i := by simp only [t644, t487_negQ, t609_negQ, t643_negQ]
theorem t645_negQ : t645 i.negQ = t645 i := by simp only [t645, negQ_dt, t343_negQ, t644_negQ]
theorem t646_negQ : t646 i.negQ = t646 i := by simp only [t646, negQ_dt, t394_negQ, t562_negQ,
  t645_negQ]
theorem t647_negQ : t647 i.negQ = t647 i := by simp only [t647, t371_negQ, t646_negQ]
theorem t648_negQ : t648 i.negQ = t648 i := by simp only [t648, negQ_ew2, t343_negQ]
theorem t649_negQ : t649 i.negQ = t649 i := by simp only [t649, negQ_dt, negQ_ew1, negQ_ew3,
  t343_negQ]
theorem t650_negQ : t650 i.negQ = t650 i := by simp only [t650, t648_negQ, t649_negQ]
theorem t651_negQ : t651 i.negQ = t651 i := by simp only [t651, t374_negQ, t650_negQ]
theorem t652_negQ : t652 i.negQ = t652 i := by simp only [t652, negQ_dt, t343_negQ, t371_negQ,
  t613_negQ, t651_negQ]
theorem t653_negQ : t653 i.negQ = t653 i := by simp only [t653, negQ_dt, negQ_ew2, negQ_ew3,
  t343_negQ]
theorem t654_negQ : t654 i.negQ = t654 i := by simp only [t654, t614_negQ, t653_negQ]
theorem t655_negQ : t655 i.negQ = t655 i := by simp only [t655, t371_negQ, t654_negQ]
theorem t656_negQ : t656 i.negQ = t656 i := by simp only [t656, negQ_dt, t343_negQ, t397_negQ,
  t563_negQ]
theorem t657_negQ : t657 i.negQ = t657 i := by simp only [t657, negQ_dt, negQ_ew1, t343_negQ,
  t563_negQ]
theorem t658_negQ : t658 i.negQ = t658 i := by simp only [t658, negQ_dt, t343_negQ, t369_negQ,
  t398_negQ]
theorem t659_negQ : t659 i.negQ = t659 i := by simp only [t659, t343_negQ, t369_negQ, t398_negQ]
theorem t660_negQ : t660 i.negQ = t660 i := by simp only [t660, negQ_dt, t343_negQ, t344_negQ,
  t399_negQ]
theorem t661_negQ : t661 i.negQ = t661 i := by simp only [t661, t343_negQ, t344_negQ, t399_negQ]
theorem t662_negQ : t662 i.negQ = t662 i := by simp only [t662, negQ_dt, t343_negQ, t376_negQ,
  t400_negQ]
theorem t663_negQ : t663 i.negQ = t663 i := by simp only [t663, t343_negQ, t376_negQ, t400_negQ]

set_option maxHeartbeats 2000000 in
theorem writes_negQ : writes i.negQ = writes i := by simp only [writes, negQ_dt, negQ_ew1, negQ_ew2,
  negQ_ew3, negQ_q3, negQ_q4, t343_negQ, t344_negQ, t345_negQ, t346_negQ, t347_negQ, t354_negQ,
  t355_negQ, t358_negQ, t359_negQ, t360_negQ, t361_negQ, t362_negQ, t365_negQ, t366_negQ, t367_negQ,
  t369_negQ, t370_negQ, t371_negQ, t372_negQ, t373_negQ, t374_negQ, t375_negQ, t376_negQ, t377_negQ,
  t378_negQ, t379_negQ, t381_negQ, t384_negQ, t385_negQ, t388_negQ, t390_negQ, t394_negQ, t397_negQ,
  t398_negQ, t399_negQ, t400_negQ, t402_negQ, t404_negQ, t408_negQ, t412_negQ, t413_negQ, t414_negQ,
  t415_negQ, t419_negQ, t420_negQ, t425_negQ, t428_negQ, t429_negQ, t430_negQ, t431_negQ, t432_negQ,
  t433_negQ, t434_negQ, t435_negQ, t436_negQ, t437_negQ, t440_negQ, t441_negQ, t442_negQ, t447_negQ,
  t448_negQ, t449_negQ, t451_negQ, t452_negQ, t453_negQ, t454_negQ, t455_negQ, t458_negQ, t459_negQ,
  t461_negQ, t462_negQ, t466_negQ, t470_negQ, t471_negQ, t473_negQ, t474_negQ, t475_negQ, t476_negQ,
  t478_negQ, t480_negQ, t483_negQ, t485_negQ, t489_negQ, t490_negQ, t491_negQ, t497_negQ, t502_negQ,
  t503_negQ, t506_negQ, t507_negQ, t509_negQ, t510_negQ, t512_negQ, t513_negQ, t514_negQ, t515_negQ,
  t522_negQ, t534_negQ, t535_negQ, t536_negQ, t560_negQ, t561_negQ, t562_negQ, t563_negQ, t564_negQ,
  t565_negQ, t566_negQ, t573_negQ, t580_negQ, t581_negQ, t582_negQ, t583_negQ, t585_negQ, t599_negQ,
  t600_negQ, t601_negQ, t602_negQ, t608_negQ, t609_negQ, t610_negQ, t613_negQ, t614_negQ, t615_negQ,
  t616_negQ, t617_negQ, t622_negQ, t623_negQ, t626_negQ, t627_negQ, t631_negQ, t635_negQ, t641_negQ,
  t642_negQ, t643_negQ, t647_negQ, t652_negQ, t653_negQ, t655_negQ, t656_negQ, t657_negQ, t658_negQ,
  t659_negQ, t660_negQ, t661_negQ, t662_negQ, t663_negQ, neg_mul_neg]

end MSF.CalcQ
