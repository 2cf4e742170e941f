import Verif.Model.Covariance

/-!
# `CalcQCore` (msf_core/implementation/calcQCore.h:28-722)

The temporaries and the assignments to `Qd` are taken over one by one; the line of each is given.
`double` is a field.
-/

namespace MSF.CalcQ

/-- The scalars of lines 39-45. -/
structure In (R : Type) where
  dt : R
  (q1 q2 q3 q4 : R)
  (ew1 ew2 ew3 : R)
  (ea1 ea2 ea3 : R)
  (n_a1 n_a2 n_a3 : R)
  (n_ba1 n_ba2 n_ba3 : R)
  (n_w1 n_w2 n_w3 : R)
  (n_bw1 n_bw2 n_bw3 : R)

/-- Lines 39-45. -/
def mkIn {R : Type} (dt : R) (q : Quat R) (ew ea n_a n_ba n_w n_bw : V3 R) : In R where
  dt := dt
  q1 := q.w
  q2 := q.x
  q3 := q.y
  q4 := q.z
  ew1 := ew 0
  ew2 := ew 1
  ew3 := ew 2
  ea1 := ea 0
  ea2 := ea 1
  ea3 := ea 2
  n_a1 := n_a 0
  n_a2 := n_a 1
  n_a3 := n_a 2
  n_ba1 := n_ba 0
  n_ba2 := n_ba 1
  n_ba3 := n_ba 2
  n_w1 := n_w 0
  n_w2 := n_w 1
  n_w3 := n_w 2
  n_bw1 := n_bw 0
  n_bw2 := n_bw 1
  n_bw3 := n_bw 2

section
variable {R : Type} [Field R] (i : In R)

/-- calcQCore.h:47 -/ def t343 : R := i.dt * i.dt
/-- calcQCore.h:48 -/ def t348 : R := i.q1 * i.q4 * 2
/-- calcQCore.h:49 -/ def t349 : R := i.q2 * i.q3 * 2
/-- calcQCore.h:50 -/ def t344 : R := t348 i - t349 i
/-- calcQCore.h:51 -/ def t356 : R := i.q1 * i.q3 * 2
/-- calcQCore.h:52 -/ def t357 : R := i.q2 * i.q4 * 2
/-- calcQCore.h:53 -/ def t345 : R := t356 i + t357 i
/-- calcQCore.h:54 -/ def t350 : R := i.q1 * i.q1
/-- calcQCore.h:55 -/ def t351 : R := i.q2 * i.q2
/-- calcQCore.h:56 -/ def t352 : R := i.q3 * i.q3
/-- calcQCore.h:57 -/ def t353 : R := i.q4 * i.q4
/-- calcQCore.h:58 -/ def t346 : R := t350 i + t351 i - t352 i - t353 i
/-- calcQCore.h:59 -/ def t347 : R := i.n_a1 * i.n_a1
/-- calcQCore.h:60 -/ def t354 : R := i.n_a2 * i.n_a2
/-- calcQCore.h:61 -/ def t355 : R := i.n_a3 * i.n_a3
/-- calcQCore.h:62 -/ def t358 : R := i.q1 * i.q2 * 2
/-- calcQCore.h:63 -/ def t359 : R := t344 i * t344 i
/-- calcQCore.h:64 -/ def t360 : R := t345 i * t345 i
/-- calcQCore.h:65 -/ def t361 : R := t346 i * t346 i
/-- calcQCore.h:66 -/ def t363 : R := i.ea2 * t345 i
/-- calcQCore.h:67 -/ def t364 : R := i.ea3 * t344 i
/-- calcQCore.h:68 -/ def t362 : R := t363 i + t364 i
/-- calcQCore.h:69 -/ def t365 : R := t362 i * t362 i
/-- calcQCore.h:70 -/ def t366 : R := t348 i + t349 i
/-- calcQCore.h:71 -/ def t367 : R := t350 i - t351 i + t352 i - t353 i
/-- calcQCore.h:72 -/ def t368 : R := i.q3 * i.q4 * 2
/-- calcQCore.h:73 -/ def t369 : R := t356 i - t357 i
/-- calcQCore.h:74 -/ def t370 : R := t350 i - t351 i - t352 i + t353 i
/-- calcQCore.h:75 -/ def t371 : R := i.n_w3 * i.n_w3
/-- calcQCore.h:76 -/ def t372 : R := t358 i + t368 i
/-- calcQCore.h:77 -/ def t373 : R := i.n_w2 * i.n_w2
/-- calcQCore.h:78 -/ def t374 : R := i.n_w1 * i.n_w1
/-- calcQCore.h:79 -/ def t375 : R := i.dt * t343 i * t346 i * t347 i * t366 i * (1 / 3)
/-- calcQCore.h:80 -/ def t376 : R := t358 i - t368 i
/-- calcQCore.h:81 -/ def t377 : R := t343 i * t346 i * t347 i * t366 i * (1 / 2)
/-- calcQCore.h:82 -/ def t378 : R := t366 i * t366 i
/-- calcQCore.h:83 -/ def t379 : R := t376 i * t376 i
/-- calcQCore.h:84 -/ def t380 : R := i.ea1 * t367 i
/-- calcQCore.h:85 -/ def t391 : R := i.ea2 * t366 i
/-- calcQCore.h:86 -/ def t381 : R := t380 i - t391 i
/-- calcQCore.h:87 -/ def t382 : R := i.ea3 * t367 i
/-- calcQCore.h:88 -/ def t383 : R := i.ea2 * t376 i
/-- calcQCore.h:89 -/ def t384 : R := t382 i + t383 i
/-- calcQCore.h:90 -/ def t385 : R := t367 i * t367 i
/-- calcQCore.h:91 -/ def t386 : R := i.ea1 * t376 i
/-- calcQCore.h:92 -/ def t387 : R := i.ea3 * t366 i
/-- calcQCore.h:93 -/ def t388 : R := t386 i + t387 i
/-- calcQCore.h:94 -/ def t389 : R := i.ea2 * t370 i
/-- calcQCore.h:95 -/ def t407 : R := i.ea3 * t372 i
/-- calcQCore.h:96 -/ def t390 : R := t389 i - t407 i
/-- calcQCore.h:97 -/ def t392 : R := i.ea1 * t372 i
/-- calcQCore.h:98 -/ def t393 : R := i.ea2 * t369 i
/-- calcQCore.h:99 -/ def t394 : R := t392 i + t393 i
/-- calcQCore.h:100 -/ def t395 : R := i.ea1 * t370 i
/-- calcQCore.h:101 -/ def t396 : R := i.ea3 * t369 i
/-- calcQCore.h:102 -/ def t397 : R := t395 i + t396 i
/-- calcQCore.h:103 -/ def t398 : R := i.n_ba1 * i.n_ba1
/-- calcQCore.h:104 -/ def t399 : R := i.n_ba2 * i.n_ba2
/-- calcQCore.h:105 -/ def t400 : R := i.n_ba3 * i.n_ba3
/-- calcQCore.h:106 -/ def t401 : R := i.dt * t343 i * t345 i * t355 i * t370 i * (1 / 3)
/-- calcQCore.h:107 -/ def t402 : R :=
  t401 i - i.dt * t343 i * t346 i * t347 i * t369 i * (1 / 3) - i.dt * t343 i * t344 i * t354 i *
    t372 i * (1 / 3)
/-- calcQCore.h:109 -/ def t403 : R := i.dt * t343 i * t354 i * t367 i * t372 i * (1 / 3)
/-- calcQCore.h:110 -/ def t404 : R :=
  t403 i - i.dt * t343 i * t347 i * t366 i * t369 i * (1 / 3) - i.dt * t343 i * t355 i * t370 i *
    t376 i * (1 / 3)
/-- calcQCore.h:112 -/ def t405 : R := t343 i * t345 i * t355 i * t370 i * (1 / 2)
/-- calcQCore.h:113 -/ def t406 : R := i.dt * t343 i * t362 i * t373 i * t397 i * (1 / 6)
/-- calcQCore.h:114 -/ def t421 : R := t343 i * t346 i * t347 i * t369 i * (1 / 2)
/-- calcQCore.h:115 -/ def t422 : R := i.dt * t343 i * t362 i * t371 i * t394 i * (1 / 6)
/-- calcQCore.h:116 -/ def t423 : R := t343 i * t344 i * t354 i * t372 i * (1 / 2)
/-- calcQCore.h:117 -/ def t424 : R := i.dt * t343 i * t362 i * t374 i * t390 i * (1 / 6)
/-- calcQCore.h:118 -/ def t408 : R := t405 i + t406 i - t421 i - t422 i - t423 i - t424 i
/-- calcQCore.h:119 -/ def t409 : R := t343 i * t354 i * t367 i * t372 i * (1 / 2)
/-- calcQCore.h:120 -/ def t410 : R := i.dt * t343 i * t374 i * t384 i * t390 i * (1 / 6)
/-- calcQCore.h:121 -/ def t411 : R := i.dt * t343 i * t373 i * t388 i * t397 i * (1 / 6)
/-- calcQCore.h:122 -/ def t463 : R := t343 i * t355 i * t370 i * t376 i * (1 / 2)
/-- calcQCore.h:123 -/ def t464 : R := t343 i * t347 i * t366 i * t369 i * (1 / 2)
/-- calcQCore.h:124 -/ def t465 : R := i.dt * t343 i * t371 i * t381 i * t394 i * (1 / 6)
/-- calcQCore.h:125 -/ def t412 : R := t409 i + t410 i + t411 i - t463 i - t464 i - t465 i
/-- calcQCore.h:126 -/ def t413 : R := t369 i * t369 i
/-- calcQCore.h:127 -/ def t414 : R := t372 i * t372 i
/-- calcQCore.h:128 -/ def t415 : R := t370 i * t370 i
/-- calcQCore.h:129 -/ def t416 : R := t343 i * t354 i * t359 i * (1 / 2)
/-- calcQCore.h:130 -/ def t417 : R := t343 i * t355 i * t360 i * (1 / 2)
/-- calcQCore.h:131 -/ def t418 : R := t343 i * t347 i * t361 i * (1 / 2)
/-- calcQCore.h:132 -/ def t419 : R :=
  t416 i + t417 i + t418 i - i.dt * t343 i * t365 i * t371 i * (1 / 6) - i.dt * t343 i * t365 i *
    t373 i * (1 / 6) - i.dt * t343 i * t365 i * t374 i * (1 / 6)
/-- calcQCore.h:135 -/ def t453 : R := t343 i * t344 i * t354 i * t367 i * (1 / 2)
/-- calcQCore.h:136 -/ def t454 : R := t343 i * t345 i * t355 i * t376 i * (1 / 2)
/-- calcQCore.h:137 -/ def t420 : R := t377 i - t453 i - t454 i
/-- calcQCore.h:138 -/ def t426 : R := i.ew2 * t362 i
/-- calcQCore.h:139 -/ def t427 : R := i.ew3 * t362 i
/-- calcQCore.h:140 -/ def t425 : R := t426 i - t427 i
/-- calcQCore.h:141 -/ def t428 : R := i.dt * t365 i
/-- calcQCore.h:142 -/ def t429 : R := i.ew1 * i.ew1
/-- calcQCore.h:143 -/ def t430 : R := i.ew2 * i.ew2
/-- calcQCore.h:144 -/ def t431 : R := i.ew3 * i.ew3
/-- calcQCore.h:145 -/ def t432 : R := t430 i + t431 i
/-- calcQCore.h:146 -/ def t433 : R := t362 i * t432 i
/-- calcQCore.h:147 -/ def t434 : R := i.ew1 * t343 i * t365 i
/-- calcQCore.h:148 -/ def t435 : R := t429 i + t431 i
/-- calcQCore.h:149 -/ def t436 : R := t362 i * t435 i
/-- calcQCore.h:150 -/ def t443 : R := i.ew2 * i.ew3 * t362 i
/-- calcQCore.h:151 -/ def t437 : R := t433 i + t436 i - t443 i
/-- calcQCore.h:152 -/ def t438 : R := i.ew1 * t362 i * t394 i
/-- calcQCore.h:153 -/ def t511 : R := i.ew1 * t362 i * t397 i
/-- calcQCore.h:154 -/ def t439 : R := t438 i - t511 i
/-- calcQCore.h:155 -/ def t440 : R := t343 i * t439 i * (1 / 2)
/-- calcQCore.h:156 -/ def t441 : R := t429 i + t430 i
/-- calcQCore.h:157 -/ def t442 : R := t362 i * t441 i
/-- calcQCore.h:158 -/ def t444 : R := t390 i * t432 i
/-- calcQCore.h:159 -/ def t445 : R := i.ew2 * t394 i
/-- calcQCore.h:160 -/ def t446 : R := i.ew3 * t397 i
/-- calcQCore.h:161 -/ def t447 : R := t445 i + t446 i
/-- calcQCore.h:162 -/ def t448 : R := i.ew1 * i.ew2 * t362 i
/-- calcQCore.h:163 -/ def t449 : R := i.ew1 * i.ew3 * t362 i
/-- calcQCore.h:164 -/ def t450 : R := i.ew1 * i.ew3 * t362 i * (1 / 2)
/-- calcQCore.h:165 -/ def t451 : R := i.dt * t362 i
/-- calcQCore.h:166 -/ def t452 : R := i.ew1 * t343 i * t362 i * (1 / 2)
/-- calcQCore.h:167 -/ def t455 : R := i.dt * t343 i * t362 i * t374 i * t384 i * (1 / 6)
/-- calcQCore.h:168 -/ def t456 : R := t343 i * t347 i * t378 i * (1 / 2)
/-- calcQCore.h:169 -/ def t457 : R := t343 i * t355 i * t379 i * (1 / 2)
/-- calcQCore.h:170 -/ def t458 : R := t381 i * t381 i
/-- calcQCore.h:171 -/ def t459 : R := t384 i * t384 i
/-- calcQCore.h:172 -/ def t460 : R := t343 i * t354 i * t385 i * (1 / 2)
/-- calcQCore.h:173 -/ def t461 : R := t388 i * t388 i
/-- calcQCore.h:174 -/ def t462 : R :=
  t456 i + t457 i + t460 i - i.dt * t343 i * t371 i * t458 i * (1 / 6) - i.dt * t343 i * t374 i *
    t459 i * (1 / 6) - i.dt * t343 i * t373 i * t461 i * (1 / 6)
/-- calcQCore.h:177 -/ def t466 : R := t433 i + t442 i - t443 i
/-- calcQCore.h:178 -/ def t467 : R := i.ew1 * t362 i * t388 i
/-- calcQCore.h:179 -/ def t468 : R := i.ew1 * t362 i * t381 i
/-- calcQCore.h:180 -/ def t469 : R := t467 i + t468 i
/-- calcQCore.h:181 -/ def t470 : R := t343 i * t469 i * (1 / 2)
/-- calcQCore.h:182 -/ def t471 : R := t384 i * t432 i
/-- calcQCore.h:183 -/ def t472 : R := i.ew2 * t381 i
/-- calcQCore.h:184 -/ def t479 : R := i.ew3 * t388 i
/-- calcQCore.h:185 -/ def t473 : R := t472 i - t479 i
/-- calcQCore.h:186 -/ def t474 : R := -t433 i + t448 i + t449 i
/-- calcQCore.h:187 -/ def t475 : R := i.dt * t343 i * t346 i * t366 i * t398 i * (1 / 3)
/-- calcQCore.h:188 -/ def t476 : R := i.dt * t346 i * t347 i * t366 i
/-- calcQCore.h:189 -/ def t477 : R := i.ew2 * i.ew3 * t381 i
/-- calcQCore.h:190 -/ def t492 : R := t388 i * t435 i
/-- calcQCore.h:191 -/ def t478 : R := t471 i + t477 i - t492 i
/-- calcQCore.h:192 -/ def t480 : R := t472 i - t479 i
/-- calcQCore.h:193 -/ def t481 : R := i.ew1 * i.ew3 * t381 i
/-- calcQCore.h:194 -/ def t482 : R := i.ew1 * i.ew2 * t388 i
/-- calcQCore.h:195 -/ def t483 : R := t471 i + t481 i + t482 i
/-- calcQCore.h:196 -/ def t484 : R := i.ew2 * i.ew3 * t388 i
/-- calcQCore.h:197 -/ def t486 : R := t381 i * t441 i
/-- calcQCore.h:198 -/ def t485 : R := t471 i + t484 i - t486 i
/-- calcQCore.h:199 -/ def t487 : R := t394 i * t441 i
/-- calcQCore.h:200 -/ def t488 : R := i.ew2 * i.ew3 * t397 i
/-- calcQCore.h:201 -/ def t489 : R := t444 i + t487 i + t488 i
/-- calcQCore.h:202 -/ def t490 : R := t397 i * t435 i
/-- calcQCore.h:203 -/ def t491 : R := i.ew2 * i.ew3 * t394 i
/-- calcQCore.h:204 -/ def t493 : R := i.ew1 * t381 i * t397 i
/-- calcQCore.h:205 -/ def t541 : R := i.ew1 * t388 i * t394 i
/-- calcQCore.h:206 -/ def t494 : R := t493 i - t541 i
/-- calcQCore.h:207 -/ def t495 : R := t343 i * t494 i * (1 / 2)
/-- calcQCore.h:208 -/ def t496 : R := i.ew1 * i.ew2 * t397 i
/-- calcQCore.h:209 -/ def t527 : R := i.ew1 * i.ew3 * t394 i
/-- calcQCore.h:210 -/ def t497 : R := t444 i + t496 i - t527 i
/-- calcQCore.h:211 -/ def t498 : R := i.ew2 * i.ew3 * t381 i * (1 / 2)
/-- calcQCore.h:212 -/ def t499 : R := i.ew1 * t343 i * t381 i * (1 / 2)
/-- calcQCore.h:213 -/ def t500 : R := t384 i * t432 i * (1 / 2)
/-- calcQCore.h:214 -/ def t501 : R := i.ew2 * i.ew3 * t388 i * (1 / 2)
/-- calcQCore.h:215 -/ def t502 : R := i.n_bw1 * i.n_bw1
/-- calcQCore.h:216 -/ def t503 : R := i.n_bw3 * i.n_bw3
/-- calcQCore.h:217 -/ def t504 : R := t343 i * t347 i * t413 i * (1 / 2)
/-- calcQCore.h:218 -/ def t505 : R := t343 i * t354 i * t414 i * (1 / 2)
/-- calcQCore.h:219 -/ def t506 : R := t397 i * t397 i
/-- calcQCore.h:220 -/ def t507 : R := t390 i * t390 i
/-- calcQCore.h:221 -/ def t508 : R := t343 i * t355 i * t415 i * (1 / 2)
/-- calcQCore.h:222 -/ def t509 : R := t394 i * t394 i
/-- calcQCore.h:223 -/ def t510 : R :=
  t504 i + t505 i + t508 i - i.dt * t343 i * t373 i * t506 i * (1 / 6) - i.dt * t343 i * t371 i *
    t509 i * (1 / 6) - i.dt * t343 i * t374 i * t507 i * (1 / 6)
/-- calcQCore.h:226 -/ def t512 : R := -t444 i + t490 i + t491 i
/-- calcQCore.h:227 -/ def t513 : R := t397 i * t437 i * (1 / 2)
/-- calcQCore.h:228 -/ def t514 : R := t362 i * t394 i * t429 i
/-- calcQCore.h:229 -/ def t515 : R := i.dt * t362 i * t397 i
/-- calcQCore.h:230 -/ def t516 : R := t362 i * t489 i * (1 / 2)
/-- calcQCore.h:231 -/ def t517 : R := t394 i * t466 i * (1 / 2)
/-- calcQCore.h:232 -/ def t518 : R := t362 i * t397 i * t429 i
/-- calcQCore.h:233 -/ def t519 : R := t516 i + t517 i + t518 i
/-- calcQCore.h:234 -/ def t520 : R := i.dt * t362 i * t394 i
/-- calcQCore.h:235 -/ def t521 : R := t440 i + t520 i - i.dt * t343 i * t519 i * (1 / 3)
/-- calcQCore.h:236 -/ def t522 : R := t371 i * t521 i
/-- calcQCore.h:237 -/ def t523 : R := t362 i * t447 i
/-- calcQCore.h:238 -/ def t524 : R := t390 i * t425 i
/-- calcQCore.h:239 -/ def t525 : R := t523 i + t524 i
/-- calcQCore.h:240 -/ def t526 : R := t343 i * t525 i * (1 / 2)
/-- calcQCore.h:241 -/ def t528 : R := t425 i * t447 i
/-- calcQCore.h:242 -/ def t529 : R := t390 i * t474 i * (1 / 2)
/-- calcQCore.h:243 -/ def t530 : R := t528 i + t529 i - t362 i * t497 i * (1 / 2)
/-- calcQCore.h:244 -/ def t531 : R := i.dt * t343 i * t530 i * (1 / 3)
/-- calcQCore.h:245 -/ def t532 : R := i.dt * t362 i * t390 i
/-- calcQCore.h:246 -/ def t533 : R := t526 i + t531 i + t532 i
/-- calcQCore.h:247 -/ def t534 : R := t374 i * t533 i
/-- calcQCore.h:248 -/ def t535 : R := i.dt * t343 i * t345 i * t370 i * t400 i * (1 / 3)
/-- calcQCore.h:249 -/ def t536 : R := i.dt * t345 i * t355 i * t370 i
/-- calcQCore.h:250 -/ def t537 : R := t381 i * t489 i * (1 / 2)
/-- calcQCore.h:251 -/ def t538 : R := t388 i * t397 i * t429 i
/-- calcQCore.h:252 -/ def t539 : R := t537 i + t538 i - t394 i * t485 i * (1 / 2)
/-- calcQCore.h:253 -/ def t540 : R := i.dt * t343 i * t539 i * (1 / 3)
/-- calcQCore.h:254 -/ def t542 : R := t495 i + t540 i - i.dt * t381 i * t394 i
/-- calcQCore.h:255 -/ def t543 : R := t388 i * t512 i * (1 / 2)
/-- calcQCore.h:256 -/ def t544 : R := t381 i * t394 i * t429 i
/-- calcQCore.h:257 -/ def t545 : R := t543 i + t544 i - t397 i * t478 i * (1 / 2)
/-- calcQCore.h:258 -/ def t546 : R := i.dt * t343 i * t545 i * (1 / 3)
/-- calcQCore.h:259 -/ def t547 : R := t495 i + t546 i - i.dt * t388 i * t397 i
/-- calcQCore.h:260 -/ def t548 : R := t373 i * t547 i
/-- calcQCore.h:261 -/ def t549 : R := t384 i * t447 i
/-- calcQCore.h:262 -/ def t550 : R := t549 i - t390 i * t473 i
/-- calcQCore.h:263 -/ def t551 : R := t343 i * t550 i * (1 / 2)
/-- calcQCore.h:264 -/ def t552 : R := t384 i * t497 i * (1 / 2)
/-- calcQCore.h:265 -/ def t553 : R := t390 i * t483 i * (1 / 2)
/-- calcQCore.h:266 -/ def t554 : R := t447 i * t473 i
/-- calcQCore.h:267 -/ def t555 : R := t552 i + t553 i + t554 i
/-- calcQCore.h:268 -/ def t556 : R := i.dt * t384 i * t390 i
/-- calcQCore.h:269 -/ def t557 : R := t551 i + t556 i - i.dt * t343 i * t555 i * (1 / 3)
/-- calcQCore.h:270 -/ def t558 : R := i.dt * t343 i * t367 i * t372 i * t399 i * (1 / 3)
/-- calcQCore.h:271 -/ def t559 : R := i.dt * t354 i * t367 i * t372 i
/-- calcQCore.h:272 -/ def t560 : R :=
  t548 i + t558 i + t559 i - t371 i * t542 i - t374 i * t557 i - i.dt * t347 i * t366 i * t369 i -
    i.dt * t355 i * t370 i * t376 i - i.dt * t343 i * t366 i * t369 i * t398 i * (1 / 3) - i.dt *
    t343 i * t370 i * t376 i * t400 i * (1 / 3)
/-- calcQCore.h:276 -/ def t561 : R := i.ew1 * t343 i * t394 i * t397 i
/-- calcQCore.h:277 -/ def t562 : R := i.ew1 * t343 i * t397 i * (1 / 2)
/-- calcQCore.h:278 -/ def t563 : R := i.n_bw2 * i.n_bw2
/-- calcQCore.h:279 -/ def t564 : R := i.dt * t343 i * t362 i * t374 i * (1 / 6)
/-- calcQCore.h:280 -/ def t565 : R := i.dt * t343 i * t374 i * t390 i * (1 / 6)
/-- calcQCore.h:281 -/ def t566 : R := i.ew1 * i.ew2 * t362 i * (1 / 2)
/-- calcQCore.h:282 -/ def t567 : R := -t433 i + t450 i + t566 i
/-- calcQCore.h:283 -/ def t568 : R := i.dt * t343 i * t567 i * (1 / 3)
/-- calcQCore.h:284 -/ def t569 : R := t343 i * t425 i * (1 / 2)
/-- calcQCore.h:285 -/ def t570 : R := t451 i + t568 i + t569 i
/-- calcQCore.h:286 -/ def t571 : R := i.dt * t343 i * t362 i * t373 i * t432 i * (1 / 6)
/-- calcQCore.h:287 -/ def t572 : R := i.dt * t343 i * t362 i * t371 i * t432 i * (1 / 6)
/-- calcQCore.h:288 -/ def t573 : R := t571 i + t572 i - t374 i * t570 i
/-- calcQCore.h:289 -/ def t574 : R := i.ew1 * i.ew2 * t397 i * (1 / 2)
/-- calcQCore.h:290 -/ def t575 : R := t444 i + t574 i - i.ew1 * i.ew3 * t394 i * (1 / 2)
/-- calcQCore.h:291 -/ def t576 : R := t343 i * t447 i * (1 / 2)
/-- calcQCore.h:292 -/ def t577 : R := i.dt * t390 i
/-- calcQCore.h:293 -/ def t578 : R := t576 i + t577 i - i.dt * t343 i * t575 i * (1 / 3)
/-- calcQCore.h:294 -/ def t579 : R := i.dt * t343 i * t371 i * t394 i * t432 i * (1 / 6)
/-- calcQCore.h:295 -/ def t580 : R :=
  t579 i - t374 i * t578 i - i.dt * t343 i * t373 i * t397 i * t432 i * (1 / 6)
/-- calcQCore.h:297 -/ def t581 : R := i.dt * t343 i * t373 i * t388 i * (1 / 6)
/-- calcQCore.h:298 -/ def t582 : R := t362 i * t432 i * (1 / 2)
/-- calcQCore.h:299 -/ def t583 : R := i.ew2 * i.ew3 * t362 i * (1 / 2)
/-- calcQCore.h:300 -/ def t584 : R := t362 i * t429 i
/-- calcQCore.h:301 -/ def t585 : R := t583 i + t584 i
/-- calcQCore.h:302 -/ def t586 : R := i.ew3 * t473 i
/-- calcQCore.h:303 -/ def t587 : R := i.ew1 * i.ew2 * t384 i * (1 / 2)
/-- calcQCore.h:304 -/ def t588 : R := t586 i + t587 i
/-- calcQCore.h:305 -/ def t589 : R := i.dt * t343 i * t588 i * (1 / 3)
/-- calcQCore.h:306 -/ def t590 : R := t374 i * (t589 i - i.ew3 * t343 i * t384 i * (1 / 2))
/-- calcQCore.h:307 -/ def t591 : R := t388 i * t429 i
/-- calcQCore.h:308 -/ def t592 : R := t498 i + t591 i
/-- calcQCore.h:309 -/ def t593 : R := i.dt * t343 i * t592 i * (1 / 3)
/-- calcQCore.h:310 -/ def t594 : R := t499 i + t593 i
/-- calcQCore.h:311 -/ def t595 : R := -t492 i + t498 i + t500 i
/-- calcQCore.h:312 -/ def t596 : R := i.dt * t343 i * t595 i * (1 / 3)
/-- calcQCore.h:313 -/ def t597 : R := i.dt * t388 i
/-- calcQCore.h:314 -/ def t598 : R := -t499 i + t596 i + t597 i
/-- calcQCore.h:315 -/ def t599 : R := t590 i - t371 i * t594 i - t373 i * t598 i
/-- calcQCore.h:316 -/ def t600 : R := t397 i * t429 i
/-- calcQCore.h:317 -/ def t601 : R := i.ew2 * i.ew3 * t394 i * (1 / 2)
/-- calcQCore.h:318 -/ def t602 : R := i.ew1 * t343 i * t394 i * (1 / 2)
/-- calcQCore.h:319 -/ def t603 : R := i.ew3 * t447 i
/-- calcQCore.h:320 -/ def t604 : R := t603 i - i.ew1 * i.ew2 * t390 i * (1 / 2)
/-- calcQCore.h:321 -/ def t605 : R := i.dt * t343 i * t604 i * (1 / 3)
/-- calcQCore.h:322 -/ def t606 : R := i.ew3 * t343 i * t390 i * (1 / 2)
/-- calcQCore.h:323 -/ def t607 : R := t605 i + t606 i
/-- calcQCore.h:324 -/ def t608 : R := t374 i * t607 i
/-- calcQCore.h:325 -/ def t609 : R := t390 i * t432 i * (1 / 2)
/-- calcQCore.h:326 -/ def t610 : R := i.dt * t397 i
/-- calcQCore.h:327 -/ def t611 : R := t430 i * (1 / 2)
/-- calcQCore.h:328 -/ def t612 : R := t431 i * (1 / 2)
/-- calcQCore.h:329 -/ def t613 : R := t611 i + t612 i
/-- calcQCore.h:330 -/ def t614 : R := i.ew1 * t343 i * (1 / 2)
/-- calcQCore.h:331 -/ def t615 : R := i.dt * t343 i * t362 i * t371 i * (1 / 6)
/-- calcQCore.h:332 -/ def t616 : R := i.dt * t343 i * t371 i * t381 i * (1 / 6)
/-- calcQCore.h:333 -/ def t617 : R := i.dt * t343 i * t371 i * t394 i * (1 / 6)
/-- calcQCore.h:334 -/ def t618 : R := i.ew2 * t425 i
/-- calcQCore.h:335 -/ def t619 : R := t450 i + t618 i
/-- calcQCore.h:336 -/ def t620 : R := i.dt * t343 i * t619 i * (1 / 3)
/-- calcQCore.h:337 -/ def t621 : R := i.ew2 * t343 i * t362 i * (1 / 2)
/-- calcQCore.h:338 -/ def t622 : R := t620 i + t621 i
/-- calcQCore.h:339 -/ def t623 : R := i.dt * t343 i * t585 i * (1 / 3)
/-- calcQCore.h:340 -/ def t624 : R := t381 i * t429 i
/-- calcQCore.h:341 -/ def t625 : R := t501 i + t624 i
/-- calcQCore.h:342 -/ def t626 : R := i.dt * t343 i * t625 i * (1 / 3)
/-- calcQCore.h:343 -/ def t627 : R := i.ew1 * t343 i * t388 i * (1 / 2)
/-- calcQCore.h:344 -/ def t628 : R := i.ew2 * t473 i
/-- calcQCore.h:345 -/ def t629 : R := t628 i - i.ew1 * i.ew3 * t384 i * (1 / 2)
/-- calcQCore.h:346 -/ def t630 : R := i.dt * t343 i * t629 i * (1 / 3)
/-- calcQCore.h:347 -/ def t631 : R := t630 i - i.ew2 * t343 i * t384 i * (1 / 2)
/-- calcQCore.h:348 -/ def t632 : R := -t486 i + t500 i + t501 i
/-- calcQCore.h:349 -/ def t633 : R := i.dt * t343 i * t632 i * (1 / 3)
/-- calcQCore.h:350 -/ def t634 : R := i.dt * t381 i
/-- calcQCore.h:351 -/ def t635 : R := t627 i + t633 i + t634 i
/-- calcQCore.h:352 -/ def t636 : R := i.ew2 * t447 i
/-- calcQCore.h:353 -/ def t637 : R := i.ew1 * i.ew3 * t390 i * (1 / 2)
/-- calcQCore.h:354 -/ def t638 : R := t636 i + t637 i
/-- calcQCore.h:355 -/ def t639 : R := i.dt * t343 i * t638 i * (1 / 3)
/-- calcQCore.h:356 -/ def t640 : R := i.ew2 * t343 i * t390 i * (1 / 2)
/-- calcQCore.h:357 -/ def t641 : R := t639 i + t640 i
/-- calcQCore.h:358 -/ def t642 : R := t394 i * t429 i
/-- calcQCore.h:359 -/ def t643 : R := i.ew2 * i.ew3 * t397 i * (1 / 2)
/-- calcQCore.h:360 -/ def t644 : R := t487 i + t609 i + t643 i
/-- calcQCore.h:361 -/ def t645 : R := i.dt * t343 i * t644 i * (1 / 3)
/-- calcQCore.h:362 -/ def t646 : R := t562 i + t645 i - i.dt * t394 i
/-- calcQCore.h:363 -/ def t647 : R := t371 i * t646 i
/-- calcQCore.h:364 -/ def t648 : R := i.ew2 * t343 i * (1 / 2)
/-- calcQCore.h:365 -/ def t649 : R := i.dt * i.ew1 * i.ew3 * t343 i * (1 / 6)
/-- calcQCore.h:366 -/ def t650 : R := t648 i + t649 i
/-- calcQCore.h:367 -/ def t651 : R := t374 i * t650 i
/-- calcQCore.h:368 -/ def t652 : R := t651 i - i.dt * t343 i * t371 i * t613 i * (1 / 3)
/-- calcQCore.h:369 -/ def t653 : R := i.dt * i.ew2 * i.ew3 * t343 i * (1 / 6)
/-- calcQCore.h:370 -/ def t654 : R := t614 i + t653 i
/-- calcQCore.h:371 -/ def t655 : R := t371 i * t654 i
/-- calcQCore.h:372 -/ def t656 : R := i.dt * t343 i * t397 i * t563 i * (1 / 6)
/-- calcQCore.h:373 -/ def t657 : R := i.dt * i.ew1 * t343 i * t563 i * (1 / 6)
/-- calcQCore.h:374 -/ def t658 : R := i.dt * t343 i * t369 i * t398 i * (1 / 6)
/-- calcQCore.h:375 -/ def t659 : R := t343 i * t369 i * t398 i * (1 / 2)
/-- calcQCore.h:376 -/ def t660 : R := i.dt * t343 i * t344 i * t399 i * (1 / 6)
/-- calcQCore.h:377 -/ def t661 : R := t343 i * t344 i * t399 i * (1 / 2)
/-- calcQCore.h:378 -/ def t662 : R := i.dt * t343 i * t376 i * t400 i * (1 / 6)
/-- calcQCore.h:379 -/ def t663 : R := t343 i * t376 i * t400 i * (1 / 2)

/-- The five blocks of `Qd` that the function addresses. -/
inductive Blk | p | v | q | b_w | b_a
  deriving DecidableEq

/-- One assignment `Qd(idxstartcorr_r + i, idxstartcorr_c + j) = val`. -/
structure Write (R : Type) where
  r : Blk
  i : Fin 3
  c : Blk
  j : Fin 3
  val : R

/-- The assignments to `Qd` in program order, lines 394-719. -/
def writes : List (Write R) :=
  [⟨.p, 0, .p, 0, i.dt * t343 i * t347 i * t361 i * (1 / 3) + i.dt * t343 i * t354 i * t359 i * (1 /
      3) + i.dt * t343 i * t355 i * t360 i * (1 / 3)⟩,
   ⟨.p, 0, .p, 1, t375 i - i.dt * t343 i * t345 i * t355 i * (t358 i - i.q3 * i.q4 * 2) * (1 / 3) -
      i.dt * t343 i * t344 i * t354 i * t367 i * (1 / 3)⟩,
   ⟨.p, 0, .p, 2, t402 i⟩,
   ⟨.p, 0, .v, 0, t419 i⟩,
   ⟨.p, 0, .v, 1, t420 i⟩,
   ⟨.p, 0, .v, 2, t408 i⟩,
   ⟨.p, 0, .q, 0, t564 i⟩,
   ⟨.p, 0, .q, 2, t615 i⟩,
   ⟨.p, 0, .b_a, 0, i.dt * t343 i * t346 i * t398 i * (-1 / 6)⟩,
   ⟨.p, 0, .b_a, 1, t660 i⟩,
   ⟨.p, 0, .b_a, 2, i.dt * t343 i * t345 i * t400 i * (-1 / 6)⟩,
   ⟨.p, 1, .p, 0, t375 i - i.dt * t343 i * t344 i * t354 i * t367 i * (1 / 3) - i.dt * t343 i * t345
      i * t355 i * t376 i * (1 / 3)⟩,
   ⟨.p, 1, .p, 1, i.dt * t343 i * t347 i * t378 i * (1 / 3) + i.dt * t343 i * t355 i * t379 i * (1 /
      3) + i.dt * t343 i * t354 i * t385 i * (1 / 3)⟩,
   ⟨.p, 1, .p, 2, t404 i⟩,
   ⟨.p, 1, .v, 0, t377 i + t455 i - t343 i * t344 i * t354 i * t367 i * (1 / 2) - t343 i * t345 i *
      t355 i * t376 i * (1 / 2) - i.dt * t343 i * t362 i * t371 i * t381 i * (1 / 6) - i.dt * t343
      i * t362 i * t373 i * t388 i * (1 / 6)⟩,
   ⟨.p, 1, .v, 1, t462 i⟩,
   ⟨.p, 1, .v, 2, t412 i⟩,
   ⟨.p, 1, .q, 0, i.dt * t343 i * t374 i * t384 i * (-1 / 6)⟩,
   ⟨.p, 1, .q, 1, t581 i⟩,
   ⟨.p, 1, .q, 2, t616 i⟩,
   ⟨.p, 1, .b_a, 0, i.dt * t343 i * t366 i * t398 i * (-1 / 6)⟩,
   ⟨.p, 1, .b_a, 1, i.dt * t343 i * t367 i * t399 i * (-1 / 6)⟩,
   ⟨.p, 1, .b_a, 2, t662 i⟩,
   ⟨.p, 2, .p, 0, t402 i⟩,
   ⟨.p, 2, .p, 1, t404 i⟩,
   ⟨.p, 2, .p, 2, i.dt * t343 i * t347 i * t413 i * (1 / 3) + i.dt * t343 i * t354 i * t414 i * (1 /
      3) + i.dt * t343 i * t355 i * t415 i * (1 / 3)⟩,
   ⟨.p, 2, .v, 0, t408 i⟩,
   ⟨.p, 2, .v, 1, t412 i⟩,
   ⟨.p, 2, .v, 2, t510 i⟩,
   ⟨.p, 2, .q, 0, t565 i⟩,
   ⟨.p, 2, .q, 1, i.dt * t343 i * t373 i * t397 i * (-1 / 6)⟩,
   ⟨.p, 2, .q, 2, t617 i⟩,
   ⟨.p, 2, .b_a, 0, t658 i⟩,
   ⟨.p, 2, .b_a, 1, i.dt * t343 i * t372 i * t399 i * (-1 / 6)⟩,
   ⟨.p, 2, .b_a, 2, i.dt * t343 i * t370 i * t400 i * (-1 / 6)⟩,
   ⟨.v, 0, .p, 0, t419 i⟩,
   ⟨.v, 0, .p, 1, t420 i⟩,
   ⟨.v, 0, .p, 2, t408 i⟩,
   ⟨.v, 0, .v, 0, t374 i * (t428 i + t343 i * t362 i * t425 i + i.dt * t343 i * (t362 i * (t448 i +
      t449 i - t362 i * t432 i) + t425 i * t425 i) * (1 / 3)) + t373 i * (t428 i - t434 i + i.dt *
      t343 i * (t365 i * t429 i - t362 i * t437 i) * (1 / 3)) + t371 i * (t428 i + t434 i + i.dt *
      t343 i * (t365 i * t429 i - t362 i * (t433 i + t442 i - i.ew2 * i.ew3 * t362 i)) * (1 / 3))
      + i.dt * t347 i * t361 i + i.dt * t354 i * t359 i + i.dt * t355 i * t360 i + i.dt * t343 i *
      t359 i * t399 i * (1 / 3) + i.dt * t343 i * t361 i * t398 i * (1 / 3) + i.dt * t343 i * t360
      i * t400 i * (1 / 3)⟩,
   ⟨.v, 0, .v, 1, t475 i + t476 i - i.dt * t344 i * t354 i * t367 i - i.dt * t345 i * t355 i * t376 i
      - i.dt * t343 i * t344 i * t367 i * t399 i * (1 / 3) - i.dt * t343 i * t345 i * t376 i *
      t400 i * (1 / 3)⟩,
   ⟨.v, 0, .v, 2, t522 i + t534 i + t535 i + t536 i - t373 i * (t440 i + t515 i - i.dt * t343 i *
      (t513 i + t514 i + t362 i * (t490 i + t491 i - t390 i * t432 i) * (1 / 2)) * (1 / 3)) - i.dt
      * t346 i * t347 i * t369 i - i.dt * t344 i * t354 i * t372 i - i.dt * t343 i * t346 i * t369
      i * t398 i * (1 / 3) - i.dt * t343 i * t344 i * t372 i * t399 i * (1 / 3)⟩,
   ⟨.v, 0, .q, 0, t573 i⟩,
   ⟨.v, 0, .q, 2, -t371 i * (t451 i + t452 i - i.dt * t343 i * (t442 i + t582 i - i.ew2 * i.ew3 *
      t362 i * (1 / 2)) * (1 / 3)) - t374 i * t622 i + t373 i * (t452 i - i.dt * t343 i * t585 i *
      (1 / 3))⟩,
   ⟨.v, 0, .b_w, 0, i.dt * t343 i * t362 i * t502 i * (-1 / 6)⟩,
   ⟨.v, 0, .b_w, 2, i.dt * t343 i * t362 i * t503 i * (-1 / 6)⟩,
   ⟨.v, 0, .b_a, 0, t343 i * t346 i * t398 i * (-1 / 2)⟩,
   ⟨.v, 0, .b_a, 1, t661 i⟩,
   ⟨.v, 0, .b_a, 2, t343 i * t345 i * t400 i * (-1 / 2)⟩,
   ⟨.v, 1, .p, 0, t377 i - t453 i - t454 i + t455 i - i.dt * t343 i * t362 i * t371 i * t381 i * (1 /
      6) - i.dt * t343 i * t362 i * t373 i * t388 i * (1 / 6)⟩,
   ⟨.v, 1, .p, 1, t462 i⟩,
   ⟨.v, 1, .p, 2, t412 i⟩,
   ⟨.v, 1, .v, 0, t475 i + t476 i - t374 i * (t343 i * (t384 i * t425 i - t362 i * t473 i) * (1 / 2)
      - i.dt * t343 i * (t362 i * t483 i * (1 / 2) - t384 i * t474 i * (1 / 2) + t425 i * t473 i)
      * (1 / 3) + i.dt * t362 i * t384 i) + t371 i * (t470 i + i.dt * t362 i * t381 i + i.dt *
      t343 i * (t362 i * t485 i * (1 / 2) - t381 i * t466 i * (1 / 2) + t362 i * t388 i * t429 i)
      * (1 / 3)) + t373 i * (-t470 i + i.dt * t362 i * t388 i + i.dt * t343 i * (t388 i * t437 i *
      (-1 / 2) + t362 i * t478 i * (1 / 2) + t362 i * t381 i * t429 i) * (1 / 3)) - i.dt * t344 i
      * t354 i * t367 i - i.dt * t345 i * t355 i * t376 i - i.dt * t343 i * t344 i * t367 i * t399
      i * (1 / 3) - i.dt * t343 i * t345 i * t376 i * t400 i * (1 / 3)⟩,
   ⟨.v, 1, .v, 1, -t374 i * (-i.dt * t459 i + i.dt * t343 i * (t384 i * t483 i - t480 i * t480 i) *
      (1 / 3) + t343 i * t384 i * t473 i) + t373 i * (i.dt * t461 i + i.dt * t343 i * (t388 i *
      t478 i + t429 i * t458 i) * (1 / 3) - i.ew1 * t343 i * t381 i * t388 i) + t371 i * (i.dt *
      t458 i + i.dt * t343 i * (t381 i * t485 i + t429 i * t461 i) * (1 / 3) + i.ew1 * t343 i *
      t381 i * t388 i) + i.dt * t347 i * t378 i + i.dt * t355 i * t379 i + i.dt * t354 i * t385 i
      + i.dt * t343 i * t378 i * t398 i * (1 / 3) + i.dt * t343 i * t385 i * t399 i * (1 / 3) +
      i.dt * t343 i * t379 i * t400 i * (1 / 3)⟩,
   ⟨.v, 1, .v, 2, t560 i⟩,
   ⟨.v, 1, .q, 0, -t374 i * (-i.dt * t384 i + t343 i * t473 i * (1 / 2) + i.dt * t343 i * (t471 i +
      i.ew1 * i.ew2 * t388 i * (1 / 2) + i.ew1 * i.ew3 * t381 i * (1 / 2)) * (1 / 3)) + i.dt *
      t343 i * t371 i * t381 i * t432 i * (1 / 6) + i.dt * t343 i * t373 i * t388 i * t432 i * (1
      / 6)⟩,
   ⟨.v, 1, .q, 1, t599 i⟩,
   ⟨.v, 1, .q, 2, -t374 i * t631 i - t371 i * t635 i - t373 i * (t626 i - i.ew1 * t343 i * t388 i *
      (1 / 2))⟩,
   ⟨.v, 1, .b_w, 0, i.dt * t343 i * t384 i * t502 i * (1 / 6)⟩,
   ⟨.v, 1, .b_w, 1, i.dt * t343 i * t388 i * t563 i * (-1 / 6)⟩,
   ⟨.v, 1, .b_w, 2, i.dt * t343 i * t381 i * t503 i * (-1 / 6)⟩,
   ⟨.v, 1, .b_a, 0, t343 i * t366 i * t398 i * (-1 / 2)⟩,
   ⟨.v, 1, .b_a, 1, t343 i * t367 i * t399 i * (-1 / 2)⟩,
   ⟨.v, 1, .b_a, 2, t663 i⟩,
   ⟨.v, 2, .p, 0, t408 i⟩,
   ⟨.v, 2, .p, 1, t412 i⟩,
   ⟨.v, 2, .p, 2, t510 i⟩,
   ⟨.v, 2, .v, 0, t522 i + t534 i + t535 i + t536 i - t373 i * (t440 i + t515 i - i.dt * t343 i *
      (t513 i + t514 i + t362 i * t512 i * (1 / 2)) * (1 / 3)) - i.dt * t346 i * t347 i * t369 i -
      i.dt * t344 i * t354 i * t372 i - i.dt * t343 i * t346 i * t369 i * t398 i * (1 / 3) - i.dt
      * t343 i * t344 i * t372 i * t399 i * (1 / 3)⟩,
   ⟨.v, 2, .v, 1, t560 i⟩,
   ⟨.v, 2, .v, 2, -t371 i * (t561 i - i.dt * t509 i + i.dt * t343 i * (t394 i * t489 i - t429 i *
      t506 i) * (1 / 3)) + t373 i * (t561 i + i.dt * t506 i - i.dt * t343 i * (t397 i * t512 i -
      t429 i * t509 i) * (1 / 3)) + t374 i * (i.dt * t507 i - i.dt * t343 i * (t390 i * t497 i -
      t447 i * t447 i) * (1 / 3) + t343 i * t390 i * t447 i) + i.dt * t347 i * t413 i + i.dt *
      t354 i * t414 i + i.dt * t355 i * t415 i + i.dt * t343 i * t398 i * t413 i * (1 / 3) + i.dt
      * t343 i * t399 i * t414 i * (1 / 3) + i.dt * t343 i * t400 i * t415 i * (1 / 3)⟩,
   ⟨.v, 2, .q, 0, t580 i⟩,
   ⟨.v, 2, .q, 1, t608 i + t371 i * (i.dt * t343 i * (t600 i - i.ew2 * i.ew3 * t394 i * (1 / 2)) * (1
      / 3) - i.ew1 * t343 i * t394 i * (1 / 2)) + t373 i * (t602 i + t610 i - i.dt * t343 i *
      (t490 i + t601 i - t390 i * t432 i * (1 / 2)) * (1 / 3))⟩,
   ⟨.v, 2, .q, 2, t647 i - t374 i * t641 i - t373 i * (t562 i + i.dt * t343 i * (t642 i - i.ew2 *
      i.ew3 * t397 i * (1 / 2)) * (1 / 3))⟩,
   ⟨.v, 2, .b_w, 0, i.dt * t343 i * t390 i * t502 i * (-1 / 6)⟩,
   ⟨.v, 2, .b_w, 1, t656 i⟩,
   ⟨.v, 2, .b_w, 2, i.dt * t343 i * t394 i * t503 i * (-1 / 6)⟩,
   ⟨.v, 2, .b_a, 0, t659 i⟩,
   ⟨.v, 2, .b_a, 1, t343 i * t372 i * t399 i * (-1 / 2)⟩,
   ⟨.v, 2, .b_a, 2, t343 i * t370 i * t400 i * (-1 / 2)⟩,
   ⟨.q, 0, .p, 0, t564 i⟩,
   ⟨.q, 0, .p, 2, t565 i⟩,
   ⟨.q, 0, .v, 0, t573 i⟩,
   ⟨.q, 0, .v, 2, t580 i⟩,
   ⟨.q, 0, .q, 0, t374 i * (i.dt - i.dt * t343 i * t432 i * (1 / 3)) + i.dt * t343 i * t502 i * (1 /
      3)⟩,
   ⟨.q, 0, .q, 2, t652 i⟩,
   ⟨.q, 0, .b_w, 0, t343 i * t502 i * (-1 / 2)⟩,
   ⟨.q, 1, .p, 0, i.dt * t343 i * t362 i * t373 i * (1 / 6)⟩,
   ⟨.q, 1, .p, 1, t581 i⟩,
   ⟨.q, 1, .p, 2, i.dt * t343 i * t373 i * t397 i * (-1 / 6)⟩,
   ⟨.q, 1, .v, 0, -t371 i * (t452 i + t623 i) - t374 i * (i.dt * t343 i * (t566 i - i.ew3 * t425 i) *
      (1 / 3) - i.ew3 * t343 i * t362 i * (1 / 2)) + t373 i * (-t451 i + t452 i + i.dt * t343 i *
      (t436 i + t582 i - t583 i) * (1 / 3))⟩,
   ⟨.q, 1, .v, 1, t599 i⟩,
   ⟨.q, 1, .v, 2, t608 i + t373 i * (t602 i + t610 i - i.dt * t343 i * (t490 i + t601 i - t609 i) *
      (1 / 3)) - t371 i * (t602 i - i.dt * t343 i * (t600 i - t601 i) * (1 / 3))⟩,
   ⟨.q, 1, .q, 0, -t374 i * (i.ew3 * t343 i * (1 / 2) - i.dt * i.ew1 * i.ew2 * t343 i * (1 / 6)) -
      i.dt * t343 i * t373 i * t613 i * (1 / 3)⟩,
   ⟨.q, 1, .q, 1, t373 i * (i.dt - i.dt * t343 i * t435 i * (1 / 3)) + i.dt * t343 i * t563 i * (1 /
      3) + i.dt * t343 i * t371 i * t429 i * (1 / 3) + i.dt * t343 i * t374 i * t431 i * (1 / 3)⟩,
   ⟨.q, 1, .q, 2, t655 i - t373 i * (t614 i - i.dt * i.ew2 * i.ew3 * t343 i * (1 / 6)) - i.dt * i.ew2
      * i.ew3 * t343 i * t374 i * (1 / 3)⟩,
   ⟨.q, 1, .b_w, 0, i.dt * i.ew3 * t343 i * t502 i * (1 / 6)⟩,
   ⟨.q, 1, .b_w, 1, t343 i * t563 i * (-1 / 2)⟩,
   ⟨.q, 1, .b_w, 2, i.dt * i.ew1 * t343 i * t503 i * (-1 / 6)⟩,
   ⟨.q, 2, .p, 0, t615 i⟩,
   ⟨.q, 2, .p, 1, t616 i⟩,
   ⟨.q, 2, .p, 2, t617 i⟩,
   ⟨.q, 2, .v, 0, -t374 i * t622 i - t371 i * (t451 i + t452 i - i.dt * t343 i * (t442 i + t582 i -
      t583 i) * (1 / 3)) + t373 i * (t452 i - t623 i)⟩,
   ⟨.q, 2, .v, 1, -t374 i * t631 i - t371 i * t635 i - t373 i * (t626 i - t627 i)⟩,
   ⟨.q, 2, .v, 2, t647 i - t374 i * t641 i - t373 i * (t562 i + i.dt * t343 i * (t642 i - t643 i) *
      (1 / 3))⟩,
   ⟨.q, 2, .q, 0, t652 i⟩,
   ⟨.q, 2, .q, 1, t655 i - t373 i * (t614 i - t653 i) - i.dt * i.ew2 * i.ew3 * t343 i * t374 i * (1 /
      3)⟩,
   ⟨.q, 2, .q, 2, t371 i * (i.dt - i.dt * t343 i * t441 i * (1 / 3)) + i.dt * t343 i * t503 i * (1 /
      3) + i.dt * t343 i * t373 i * t429 i * (1 / 3) + i.dt * t343 i * t374 i * t430 i * (1 / 3)⟩,
   ⟨.q, 2, .b_w, 0, i.dt * i.ew2 * t343 i * t502 i * (-1 / 6)⟩,
   ⟨.q, 2, .b_w, 1, t657 i⟩,
   ⟨.q, 2, .b_w, 2, t343 i * t503 i * (-1 / 2)⟩,
   ⟨.b_w, 0, .v, 0, i.dt * t343 i * t362 i * t502 i * (-1 / 6)⟩,
   ⟨.b_w, 0, .v, 2, i.dt * t343 i * t390 i * t502 i * (-1 / 6)⟩,
   ⟨.b_w, 0, .q, 0, t343 i * t502 i * (-1 / 2)⟩,
   ⟨.b_w, 0, .q, 2, i.dt * i.ew2 * t343 i * t502 i * (-1 / 6)⟩,
   ⟨.b_w, 0, .b_w, 0, i.dt * t502 i⟩,
   ⟨.b_w, 1, .v, 0, i.dt * t343 i * t362 i * t563 i * (-1 / 6)⟩,
   ⟨.b_w, 1, .v, 1, i.dt * t343 i * t388 i * t563 i * (-1 / 6)⟩,
   ⟨.b_w, 1, .v, 2, t656 i⟩,
   ⟨.b_w, 1, .q, 1, t343 i * t563 i * (-1 / 2)⟩,
   ⟨.b_w, 1, .q, 2, t657 i⟩,
   ⟨.b_w, 1, .b_w, 1, i.dt * t563 i⟩,
   ⟨.b_w, 2, .v, 0, i.dt * t343 i * t362 i * t503 i * (-1 / 6)⟩,
   ⟨.b_w, 2, .v, 1, i.dt * t343 i * t381 i * t503 i * (-1 / 6)⟩,
   ⟨.b_w, 2, .v, 2, i.dt * t343 i * t394 i * t503 i * (-1 / 6)⟩,
   ⟨.b_w, 2, .q, 1, i.dt * i.ew1 * t343 i * t503 i * (-1 / 6)⟩,
   ⟨.b_w, 2, .q, 2, t343 i * t503 i * (-1 / 2)⟩,
   ⟨.b_w, 2, .b_w, 2, i.dt * t503 i⟩,
   ⟨.b_a, 0, .p, 0, i.dt * t343 i * t346 i * t398 i * (-1 / 6)⟩,
   ⟨.b_a, 0, .p, 1, i.dt * t343 i * t366 i * t398 i * (-1 / 6)⟩,
   ⟨.b_a, 0, .p, 2, t658 i⟩,
   ⟨.b_a, 0, .v, 0, t343 i * t346 i * t398 i * (-1 / 2)⟩,
   ⟨.b_a, 0, .v, 1, t343 i * t366 i * t398 i * (-1 / 2)⟩,
   ⟨.b_a, 0, .v, 2, t659 i⟩,
   ⟨.b_a, 0, .b_a, 0, i.dt * t398 i⟩,
   ⟨.b_a, 1, .p, 0, t660 i⟩,
   ⟨.b_a, 1, .p, 1, i.dt * t343 i * t367 i * t399 i * (-1 / 6)⟩,
   ⟨.b_a, 1, .p, 2, i.dt * t343 i * t372 i * t399 i * (-1 / 6)⟩,
   ⟨.b_a, 1, .v, 0, t661 i⟩,
   ⟨.b_a, 1, .v, 1, t343 i * t367 i * t399 i * (-1 / 2)⟩,
   ⟨.b_a, 1, .v, 2, t343 i * t372 i * t399 i * (-1 / 2)⟩,
   ⟨.b_a, 1, .b_a, 1, i.dt * t399 i⟩,
   ⟨.b_a, 2, .p, 0, i.dt * t343 i * t345 i * t400 i * (-1 / 6)⟩,
   ⟨.b_a, 2, .p, 1, t662 i⟩,
   ⟨.b_a, 2, .p, 2, i.dt * t343 i * t370 i * t400 i * (-1 / 6)⟩,
   ⟨.b_a, 2, .v, 0, t343 i * t345 i * t400 i * (-1 / 2)⟩,
   ⟨.b_a, 2, .v, 1, t663 i⟩,
   ⟨.b_a, 2, .v, 2, t343 i * t370 i * t400 i * (-1 / 2)⟩,
   ⟨.b_a, 2, .b_a, 2, i.dt * t400 i⟩]

end

end MSF.CalcQ
