# Formal model of ethzasl_msf in Lean 4

The target is the multi-sensor fusion EKF in `/repo` (C++/ROS/Eigen). The code is
read as text; it is never built or run. `lean/` is a Lake project; `lake build`
checks every model definition and every theorem.

## 1. Trusted base

* Lean's kernel (4.33.0) and the Mathlib definitions used in statements
  (`ℚ`, `ℝ`, `Matrix`, `Matrix.PosSemidef`, `HasDerivAt`, `Complex.arg`, `List`, ...).
* Axioms: at most `propext`, `Classical.choice`, `Quot.sound`; section 7 lists them per
  theorem. No axiom is added; no `sorry`, `admit`, `native_decide` or `bv_decide` is used.
  Finite tables and witnesses use `decide +kernel`, which is checked by the kernel.
* The transcription from C++ to Lean, done by hand, definition by definition. Each
  definition cites the file and lines it models and names its simplifications.
* `Model/CalcQ.lean` was transcribed line by line from `calcQCore.h` with a text script, and
  `pCoreTable` in `Model/Managers.lean` from the initial covariance table; the results are the
  committed Lean sources.

## 2. What is modelled, and how

Numbers. Time stamps in the buffer and core models are `ℚ` (every finite double is rational;
only comparison, subtraction and |.| are applied to them, rounding of a subtraction is not
modelled). State values are `ℝ`, a generic field or ring, or an abstract type where the theorem
does not depend on them. Floating-point rounding, NaN and infinities are not modelled; the
`isnumeric` checks are kept as an abstract predicate in the core model.

Undefined behaviour is an outcome, not an assumption: functions that can reach it return
`Except UB α` or `Option α`. Kinds in the core: dereferencing `end()`, dereferencing a node that
was erased (iterators carry the identity of the node), incrementing `end()`, decrementing
`begin()`. `--begin()` is undefined by the standard but the code relies on it, so it is a
parameter (`Plat`): `Plat.std` makes it an error, `Plat.gnu shape` is the behaviour of libstdc++'s
`_Rb_tree_decrement` (returns `end()` when the root is not the leftmost node, `begin()` when it
is, null dereference on an empty map) for an arbitrary tree `shape`. In the numeric models `none`
stands for an expression that does not compile, an out of range access, a division by zero, or a
normalisation of the zero quaternion.

Function-local statics (`janitorRun`, `last_am`, `referenceinit`) are fields of the modelled state.

Shared pointers: buffered objects are stored by value in their node. The model writes
back through the node where the C++ code mutates through the pointer.

Aliasing: `P = 0.5 * (P + P.transpose())` is modelled as Eigen evaluates it, coefficient by
coefficient in column-major order into the matrix being read (`symInPlace`).

The core model is parametric in a `Kernel` (propagation, covariance prediction, absolute update).
The concrete numerics are modelled separately over ℝ. Theorems of the core hold for every kernel;
where a property needs the kernel to be well behaved the hypothesis is spelled out
(`Kernel.Regular`: a rejected measurement leaves mean and covariance as they are, the mean and
covariance after an update do not depend on the fuzzy-tracking window, and the NaN checks pass;
`Kernel.Sure sure`: measurements in the set `sure` are never rejected). `Regular` is a real
restriction: filters with a non-drifting attitude (pose sensors) restore old calibration values
when tracking is fuzzy, so their update depends on the window (C74). `Model/FilterKernel` fills the
kernel with the modelled numerics; `Props/FilterKernel` proves that it computes what the functions on
state objects compute and that it meets `Regular` for the position and spherical filters (no state
fixed, NaN checks taken to pass, NaN itself is `none`).

A relative pose measurement reads the previous measurement of its sensor, the state at that measurement and
the transitions `Fd` between the two.  `Model/Relative` therefore repeats the functions of the core that
predict covariances or apply measurements with these two operations as parameters and with states that hold
`Fd` too; `absolute_runs` proves that it publishes the same as `Model/Core` if all readings are absolute.
Object identity matters there: `CalculateH` changes the buffered older state, and a state that the clean-up
has erased is still readable through its pointer.

External state propagation (`Model/External`) is modelled from the callback to the message on
`correction`: entries of a message are `Option R` (`none` is NaN or infinite), fields are not rounded
to 32 bit floats, sequence numbers (used in warnings only) are left out.

Not modelled: ROS transport and message parsing, parameter parsing, threads and `usleep` (calls
are sequential, as with a single ROS spinner thread), logging, the `dynamic_reconfigure` server
(callbacks with any configuration and level are inputs),
the Matlab scripts, the random number generator of the distortion
(its draws are inputs), `sm_kinematics` (rigid transformations), memory allocation failure, Eigen's numerical
algorithms (the inverse is the mathematical inverse, eigenvectors and SVD are any correct ones),
asserts removed in Release builds.

## 3. Modules

| module | models |
|---|---|
| `Model/SortedContainer` | `msf_sortedContainer.h` |
| `Model/Core` | control flow of `msf_core_inl.h`, parametric in a numeric kernel |
| `Model/Quat`, `Model/Propagate` | `eigen_utils.h`, `PropagateState` |
| `Model/Layout`, `Model/State` | `msf_tmp.h`, `msf_state_inl.h` |
| `Model/CalcQ`, `Model/Predict` | `calcQCore.h`, `PredictProcessCovariance` |
| `Model/Update`, `Model/Covariance` | `msf_measurement_inl.h`, `ApplyCorrection`, covariance messages |
| `Model/Fuzzy` | `msf_checkFuzzyTracking.h`, `msf_tools.h` |
| `Model/Sensors` | measurements of `msf_updates`: pose, position, pressure, spherical |
| `Model/StateDefs`, `Model/Managers` | state definitions, `Init` and hooks of the five shipped managers, `SetPCore` |
| `Model/FilterKernel` | the kernel of the core filled with the numerics, for general measurements and for readings of the absolute sensors |
| `Model/QBlock` | both versions of `GetQBlock`; the lookup of a data member by name stands for what the compiler does |
| `Model/Relative` | the core with relative measurements: `GetPreviousMeasurement`, `GetAccumulatedStateTransitionStochasticCloning`, the relative branch of `PoseMeasurement::Apply`; the kernel with absolute and relative readings |
| `Model/Handlers` | sensor handlers: rate limit, pressure window, ids, correction message |
| `Model/PoseSource` | pose sensor handler: callbacks, covariance, settings, delay, initial pose |
| `Model/PositionHandler` | position sensor handler: callbacks, covariance, delay, initial position |
| `Model/SphericalHandler` | handlers of the angle and distance sensors: callbacks, covariance, delay, stored readings |
| `Model/Relay` | node that passes on or holds back messages (`msf_distort.cc`) |
| `Model/Compass` | node that passes a compass heading to the initialisation (init_yaw_from_compass.py), with tf's yaw angle and the clamping of parameters |
| `Model/Gps`, `Model/Similarity`, `Model/Timing` | `gps_conversion.cc`, `similaritytransform.*`, `msf_timing` |
| `Model/External` | external state callbacks and corrections: `msf_IMUHandler_ROS.h`, `msf_sensormanagerROS.h` |
| `Model/Config` | `Config` callbacks and services of the managers, what handlers take from them, the calls a node makes |
| `Model/Publish` | the messages about a state: `ToPoseMsg` etc., `PublishStateAfterPropagation`, `PublishStateAfterUpdate` |
| `Model/Distort`, `Model/Eval` | `PoseDistorter.cc` and its use, `msf_eval.cpp` |
| `Spec/*` | specifications: the batch filter, the update without fuzzy check, continuous-time noise, derivative of a measurement, rigid body motion |
| `Lemmas/*` | helper lemmas |
| `Props/*` | the property theorems with their non-vacuity examples |

## 4. Properties: what is modelled and how it is proved

Buffer (model `SortedContainer`: list of nodes with key, identity, value)
* C01 invariant by induction over operation sequences, plus refinement to a finite map.
* C02 decision logic: the returned node minimises the distance; tie goes to the earlier.
* C03–C06 see section 5.

Core (model `Core`: total functions `init`, `processIMU`, `processExternal`, `addMeasurement`
into `Except UB Core`)
* C07, C13, C17 decision logic on the step functions, C17 by induction over later inputs.
* C08 two prior states give equal results and equal responses to equal later calls.
* C09 refinement: the buffer after any admissible history equals the batch filter of
  `Spec/Batch.lean`, a fold over the merged, sorted inputs; corollary: two histories with the same
  contents give equal buffers.
* C10 and C11 are parts of the same invariant. C12 by the same induction.
* C20 the absence of undefined behaviour for admissible histories, for every tree shape.
* C19, C20 for every kernel, absolute or relative (`Props/Safe`): total correctness of each function of the
  core (`Lemmas/Safe*`) with an invariant on the time stamps only. Readings may be out of order, measurements
  may be rejected, and the numbers may be anything; the calls must be timely (`Flow.Timely`), which follows
  from conditions on their stamps (`PromptImu`, `PromptExt`). Runs that mix IMU readings and external states
  are not covered.
* C109 spikes (`Props/Spikes`): the core reads an acceleration only through `spike`, so runs that differ
  in the values of spikes are equal; what replaces a spike follows from the total-correctness lemmas of C20.
* C15 for readings of shipped sensors (`Props/Rejected`): the outlier test on `rᵀ (H P Hᵀ + R)⁻¹ r`.
* C110 what `Init` takes over (`Props/Init`): all sequences of `SetStateInitValue`.
* C111 updates as least squares (`Props/Information`): one update (any sensor), sequences of linear measurements, pressure readings.
* C112 the reported covariance is that of the error, C113 false alarms of the outlier test (`Props/Consistency`, with second moments in `Spec/Moments`).
* C114 relative updates as updates of a cloned state (`Props/Cloning`).
* C115 covariances of position messages (`Model/PositionHandler`, `Props/PositionHandler`).
* C116 initial heading from a compass (`Model/Compass`, `Props/Compass`).
* C117 updates move towards the measurement (`Props/Towards`, `Props/TowardsPose`): the linearised prediction for all covariances, the real one for linear sensors.
* C09–C12, C20, C74 for every shipped filter (`Props/PoseFilters`): a morphism to a kernel without
  numbers gives the times, the waiting measurements and the absence of undefined behaviour for any
  numerics; a simulation shows that a run which never sets `isfuzzyState_` is a run of the filter
  without the fuzzy check (`Lemmas/Quiet`), which meets the hypotheses of C09.
* C80 every function of the core commutes with a morphism of kernels combined with a shift of the
  times (`Lemmas/CoreMap`); C81 the invariant behind it.
  `Lemmas/FlowTimes`, `Lemmas/FlowShift`, `Lemmas/RelShift`, `Lemmas/FlowNewest`, `Lemmas/FlowFlags` and `Lemmas/FlowMemory` do the same for runs with relative measurements
  (`Props/TimeOriginRel.lean`, `Props/FlagsRel.lean`, `Props/MemoryRel.lean`).
* C82 a translation of the world is such a morphism of the concrete kernel (`Lemmas/Translate`); the
  kernel takes readings of the five absolute sensors, and `Props/Readings` shows that its update is
  the code's `Apply`. With relative poses (`Props/TranslationRel`) the morphism starts from the kernel
  restricted to readings that fit.
* C95, C96 invariants of the core carried through every function (`Lemmas/Stamps`, `Lemmas/Memory`):
  what is published is not later than the newest state; old objects vanish when the clean-up runs.
* C21 algebra of linear interpolation. C23 suffix-closure of the invariant.

Numerics (models over ℝ, matrices of arbitrary size)
* C24 the integration matrix is a·I+Ω(u), so its image of a unit quaternion is non-zero.
* C25 the reset/copy visitors over arbitrary state lists. C26 closed form and subdivisions.
* C79 Taylor expansions uniform over an interval, stability of the attitude step, induction over
  the samples; the specification is the differential equation of `Spec/Kinematics`.
* C28, C30, C31, C58 Mathlib `PosSemidef` algebra, arbitrary dimensions.
* C32, C33 decision logic / norm identities.
* C59–C61 power series in the time step, the 147 generated expressions compared by `ring`.

Layout: C35–C37, C57 recursion over arbitrary state lists. C38, C39 algebra over index blocks.

Fuzzy tracking: C40 invariant by induction over check sequences. C41 decision logic. C42 rank. C84 the decision boundary as an angle.

Sensors, managers and tools
* C43, C70, C71 quaternion algebra per manager. C44 derivative along every error direction.
* C45, C49, C50, C52, C53, C65, C66 induction over message or call sequences.
* C118 derivative of the stored pose along errors of the message, for both conventions of attitude errors
  (`Props/PoseNoise`); the first order map is unique, so the failures hold for every choice of it.
* C119 information form of the update (C111) along one direction; for runs the order `c δ δᵀ ≤ P` as an
  invariant of the batch filter (`Lemmas/Floor`), carried to the delayed filter by C09.
* C120 two runs compared by induction over the messages; what has been published and the last IMU message have
  no influence on the processing (`Lemmas/Frame`).
* C121 a homomorphism of kernels: the change of unit commutes with prediction, correction and checks
  (`Lemmas/LengthUnit`, `Lemmas/LengthUnit2`; `Lemmas/LengthUnitRel` for relative updates), so it
  commutes with every run.
* C122 derivative of a function of two states along two error directions (`Lemmas/RelJacobian`); the derivative is
  unique, so the failure holds for every choice of it.
* C123 the handler after any history, by induction from the end (`Props/PoseSource`); an update without noise leaves
  no variance of the prediction (`Lemmas/PoseSource`).
* C124 the transition is block triangular, so its determinant is that of the attitude block; a sum of covariances has
  no smaller determinant than either, through the square root of one of them (`Lemmas/Volume`, `Props/Volume`).
* C127 the handlers after any history, by induction from the end (`Props/SphericalHandler`).
* C125 the last singular value vanishes exactly if the matrix has a kernel; C126 the normal equations are sums over
  the pairs.
* C128 a map between runs that also maps the IMU inputs and commutes with interpolation (`Lemmas/InputMap`); the
  acceleration kept for spikes is left out of the relation, since without spikes it is never read.
  `Lemmas/FlowInput` and `Lemmas/RelInput` do the same for runs with relative measurements.
  `Lemmas/InputSpikes` and `Lemmas/FlowSpikes` keep the accelerations for spikes in the relation once a good reading has set them.
* C129 the numerics of a filter are the same function for two managers that agree on the auxiliary blocks.
* C130 induction over the history from the end.
* C131 a simulation that renames the ids in the buffers and the queue; a numbering that keeps the occurring ids apart is
  extended to an injective one.
* C132 the prediction of the covariance neither reads nor writes the queue, and the front of the queue is handed to
  `AddMeasurement` after the reading (`Lemmas/FlowEarly`, `Props/Early`).
  If the reading stops the filter, the results differ in the queue, which `Init` empties (`Lemmas/FlowEarlyOut`).
  Several early measurements: no function but the queue's own reads the queue (`Lemmas/FlowQueue`), then induction over
  the readings (`Lemmas/FlowSeveral`).
  Behind others: with every prediction the queue loses at most its front (`Lemmas/FlowWaits`).
* C46, C51, C54 round trips. C47 orthogonality of the rotation. C48 `Complex.arg`.
* C64 least squares and eigenvalue optimality from the defining properties of the solvers.
* C67 an integer certificate (sum of squares) for the quadratic form of the initial covariance.
* C72, C73 invariants by induction over filter steps.
* C85 induction over messages. C86–C89 the loop as a fold over the list of compared pairs; frames by
  the group of rigid transformations.
* C90–C93 induction over callbacks: the calls of the core a run makes; while only external states and
  measurements arrive, the newest state of the buffer is the last external state (`Lemmas/CoreNewest`).
* C97–C100 induction over the events of a node: settings and kept pose after any run.
* C75–C77 block algebra of the innovation covariance; quaternion algebra.
* C78 invariant by induction over filter steps; no assumption on the covariance.
* C83, C94, and C32, C72, C78 for whole runs: an invariant of the kernel is an invariant of every run
  (`Lemmas/KernelInv`), applied to the concrete kernel (`Lemmas/Runs`).
* C101 the same with the invariant "numbers and a valid covariance" (`Lemmas/RunNumbers`).
* C102 a relation between the batch filter with and without measurements, kept step by step
  (`Lemmas/Agree`).
* C103, C104 by cases over the messages, with C37, C39, C57 for the arrays.
* C105: the rotation commutes with propagation, prediction, correction and clearing of fixed states; a
  morphism from the kernel restricted to unit quaternions and symmetric covariances lifts this to runs.
* C106: equality up to signs is an equivalence the kernel respects; the quotient kernel
  (`Lemmas/KernelQuot`, `Lemmas/RelQuot` with relative measurements) lifts this to runs.
* C32, C72, C78, C83 with relative measurements: invariants of states, covariances and transitions `Fd`
  (`Lemmas/RelInv`, `Lemmas/RelRuns`), lifted to runs by restricting the kernel to the invariant.
* C107, C108: morphisms of the kernel with relative measurements (`Lemmas/RelMap`), under an invariant of
  the buffered measurements (`Lemmas/FlowInv`): a change of frame per sensor, and forgetting what unused
  sensors have measured.

## 5. Disagreements between the code and the stated property

Each has a theorem with `violated` in its name and a concrete witness and, where something useful
remains true, a theorem whose name ends in `_partial`.

Buffer and core
* C03, C22: with two elements and the root leftmost, libstdc++ answers `--begin()` with `begin()`,
  so the nearest query and the search for the previous measurement pick the wrong object.
* C04: every `GetIteratorClosest` without an exact hit decrements `begin()`.
* C06: `UpdateTime` onto an occupied time drops the moved object.
* C14: of two measurements with one stamp only the first is stored; it is then applied twice.  Of two
  measurements of one state that arrive in the wrong order the newer one is applied twice.
* C15, C16: a rejected or unassociated measurement older than an applied one makes the later ones
  be applied again.
* C15: a rejected measurement between IMU stamps leaves an interpolated state in the buffer, through
  which the later states are integrated again, so they change (`C15_between_violated`).
* C15: a sensor with fixed states removes their correlations before the outlier test, so a rejected
  measurement changes the covariance.
* C109: `ProcessIMU` stores the acceleration of the state before the last good reading
  (msf_core_inl.h:157, `last_am = lastState->a_m`), so a spike is replaced by a reading that is one
  step too old.  `ProcessExternallyPropagatedState` (:251) stores the right one.
* C110: an initialization measurement with covariance zero gets the default covariance.
* C18: an IMU reading up to 10 ms late is buffered with covariance 0.
* C19: re-timing after a gap of more than 0.1 s leaves `it_last_IMU` dangling.
* C20: a measurement more than 60 s late makes the clean-up erase the nodes in use.
* C80: measurements and states with a time that is not positive are skipped, and -1 is the invalid
  time, so a clock that starts below zero loses updates.
* C55: the function-local static `last_am` survives `Init`.
* C95: an IMU reading up to 10 ms late is published after newer states; so is a propagation after an
  initialisation ahead of the IMU.
* C96: the buffers are cleaned only while measurements are processed, and the queue never.
* C74: re-applied measurements enter the fuzzy-tracking window again, so the estimate of a filter
  with a non-drifting attitude depends on the arrival order.

Numerics
* C27: the series divides the k-th term by k instead of k! and squares the increment.
* C29: eight entries of the process noise are never assigned although their mirror images are;
  the truncated expansion is indefinite for large bias noise.
* C34: the accumulated transition is multiplied in the wrong order.
* C37: the core array writes out of range when the core states are not first.
* C39: the pose covariance array is column-major. C56: the in-place symmetrisation aliases.
* C59: gyro noise enters the velocity at first order in the time step.
* C62: the component-wise median mixes the signs of q and -q.
* C67–C69: the initial covariance table is not symmetric, has no gyro bias variance, and one update
  can make a variance negative.

Sensors and tools
* C43: the pressure bias ignores the rotated lever arm; the position-pose manager leaves a yaw
  residual; the angle residual is not zero behind the negative x axis.
* C44: the `p_wv` block ignores scale and attitude of the vision frame, the yaw row is zero; the
  spherical Jacobian is taken at the IMU and with the transposed rotation.
* C46: with a fixed covariance `measurement_world_sensor=false` is ignored.
* C47: adjusting the reference altitude moves the ECEF z coordinate.
* C48: azimuth 0 on the negative x axis; the residual is wrapped only once.
* C49: overlapping `memcpy`, the average is never used and starts from zeros.
* C51: the correction divides by the all-zero initial buffer. C52: the maximum starts at the
  smallest positive double; 32 bit counters. C63: whole minutes are not printed.
* C65: a clock set back silences the pose sensor. C66: one origin for all GPS handlers.
* C70: managers use g = 9.81, the propagation 9.80834. C71: divisions by zero height or scale.
  C72: negative scales are accepted at initialization.
* C73: the pose-pressure manager ignores `pose_noise_p_wv`, the position-pose manager ignores
  `position_noise_p_ip`.
* C75, C76: the yaw row of the pose measurement has a zero Jacobian and variance 1e-6. It corrects
  nothing but makes the outlier test reject exact measurements of a turned vision frame.
* C77: the attitude residual of a relative pose measurement has the sign opposite to the Jacobian.
* C78: the spherical measurements write the `p_ip` block of the Jacobian although `p_ip` is fixed; a
  negative fixed scale is replaced by 0.1.  Fixing a state removes its cross covariance in that
  sensor's updates only: an update of another sensor moves a fixed state that started correlated.
* C85: the time of the last distorted message is shared by all pose sensors.
* C86: the evaluation aligns the frames at the first pair even if it is not synchronized.
* C88: the evaluation pairs with the next estimate instead of the closest one.
* C90: an external state with fewer than ten entries is read behind its end even if it is to be ignored.
  A late measurement replaces the external states after it by IMU propagation.
* C91: all corrections count from the last external state received; two updates in a row apply the
  first correction twice.
* C92: with IMU messages as well, a correction compares states of different times.
* C93: a message to be ignored still fills the buffer for the next correction; NaN goes out again.
* C94: an external attitude of zero passes the check for numbers and makes the state NaN.
* C97: the pose-pressure node never sets a delay.
* C98: it skips the noises after a refused height request; `press_reset` is used nowhere.
* C99: a pose at the origin counts as no pose.
* C100: the spherical node has no IMU handler, so it never propagates or applies a measurement.
* C101: a pose half a turn away from the estimate, or a distance measured at the origin, makes the
  state NaN and the filter goes on; gyro noise makes the first published covariance asymmetric (C29).
* C102: a measurement between two IMU readings inserts a state with an interpolated reading.  Even
  with zero residual the position integrated over the two half steps differs from the one over the
  whole step, by h²/16 times the change of acceleration over the step h.
* C103: the transform sent after an update is stamped with the time of the computer, not of the state
  (msf_sensormanagerROS.h:359).
* C105: with gyro noise the discrete noise matrix of calcQCore.h depends on the heading: at rest and
  with the heading 106 degrees the entry p_x/q_z is not zero, with the heading 0 it is. A distance
  measurement moves the antenna offset in the opposite direction after that turn, since its block of the
  measurement matrix uses the inverse rotation (C44).
* C105 for angle measurements (spherical_measurement.h:196-241): as for distances, the block of the antenna
  offset takes the inverse rotation (`C105_angle_violated`).
* C105 for pose measurements (pose_measurement.h:196-262): the block of the origin `p_wv` in the measurement
  matrix is `-1` whichever way the world frame points, so with `p_wv` estimated a pose measurement moves it
  by a vector that does not turn with the frame.  With `p_wv` fixed one update is the same in every rotated
  frame (`C105_pose_iff_partial`).  The claim leaves out the outlier test and updates with an alarm.  The
  outlier test depends on the frame: the yaw of the camera frame in the world is a row of the residual with
  the fixed variance 1e-6, so a predicted pose is accepted in one frame and rejected in another
  (`C105_pose_test_violated`; `C105_pose_test_partial` gives the exact difference).
* C106: the divergence check takes component-wise medians of the watched quaternion; with an even window
  they depend on the signs of the quaternions in it (fuzzytracker).

* C108: in relative mode, which is the default of the position, angle and distance handlers, `Apply` of
  these sensors only prints a warning.  The handler announces "handling measurements as relative values".
  No configuration for the spherical filter is shipped, so with its defaults it uses no measurement.
* C22 in runs: with two buffered measurements and the newer one at the root of the tree a relative
  measurement finds no predecessor and has no effect.
* C20: the first externally propagated state after `Init` empties the state buffer but leaves `it_last_IMU` at
  the erased node; an IMU reading that follows dereferences it (`C20_mixed_violated`, every kernel).
* C112: with gyro noise the predicted covariance is not symmetric, hence the covariance of no error (C29).
* C114: the noise of the previous measurement is not counted, corrections between the two measurements are not part
  of the transition (the reported variance can become negative), and there is no outlier test.
* C115: transform messages other than every fifth are dropped; a covariance whose first entry is zero counts as
  missing, one that is no covariance is used; `ReceivedFirstMeasurement` is true after a discarded message.
* C116: `position_yaw_init` is limited to ±180 degrees (SinglePositionSensor.cfg:38): compass angles between
  180 and 360 degrees start as 180. The callback for quaternions passes the message instead of a list
  (init_yaw_from_compass.py:48) and fails.
* C117: a distance reading that is too large can move the antenna towards the origin (wrong rotation in the matrix of
  `p_ip`); a position of an antenna away from the IMU can be predicted worse after the update than before;
  so can a pose (position and scale are corrected together) and a pair of angles (the IMU is moved past the tracker).
* C119: `H` of a pose has `-1` for `p_wv` where the derivative is `-L R(q_wv)` (C44). So unless `L R(q_wv) = 1` every
  pose makes the filter more certain about a common shift of vehicle and camera frame, which poses cannot show.
* C120: a repeated IMU message publishes the newest state with covariance zero. A repetition of an older message
  moves the IMU iterator back, so the next message is propagated from the older state.
* C121: the correction of `p_wv` by a pose depends on the unit of the camera frame, because the factor `L` is missing
  in its block of `H` (C44). A negative scale is replaced by 0.1 whatever the unit.
* C122: the attitude rows of a relative pose update have the sign of the absolute update, but the relative residual
  composes the turns in the other order. So they have the opposite sign of the derivative, and a relative attitude
  measurement turns the estimate the wrong way.
* C123: a pose message with covariance zero (ROS: unknown) is used as an exact pose; the position handler replaces
  such covariances. The second one at the same state makes the state NaN.
* C124: with noise of the accelerometer bias alone, `CalcQCore` correlates position and bias but adds no variance to
  the position. A prediction at rest can make a combination of position, velocity and bias exactly certain.
* C127: the spherical node combines the last angles and the last distance, whenever they were measured, to the initial
  position. Without a fixed covariance it drops all messages.
* C128: the spike test looks at the raw acceleration. With a large bias of the accelerometer readings of moderate
  true accelerations are replaced, and real spikes pass. A spike right after the first initialization is replaced by
  zero, which is not corrected for a bias.
* C129: the `static_assert` of the non-const `GetQBlock` (msf_state_inl.h:89-92) uses `||` where `&&` is meant and
  never fires. The const `GetQBlock` returns a member `Q_`, but the member is called `Q`.
* C132: `HandlePendingMeasurements` (msf_core_inl.h:312-319) takes one measurement per prediction from the queue. If two
  arrive just before the reading that reaches both, the second is used one reading later than if they arrived just after.
* C125: the condition number says nothing about the rotation: with relative rotations a half turn apart it is finite
  although the average rotation is ambiguous.
* C118: `R_` of a pose drops the correlation of position and attitude. For an inverted pose it leaves out that an
  attitude error moves the position (every position but the origin), and turns the attitude covariance by `C_zqᵀ`
  where the errors need `C_zq` (axes of the message) or no rotation at all (fixed axes).

## 6. Tests of the theorems

`seeded/LOG.jsonl` records edits of the model that a realistic bug would make, tried in a scratch
copy: the definition, the edit, the claim it breaks, the theorems that failed and the theorems
that were tightened because they did not fail.

## 7. Axioms per theorem

Output of `#print axioms` for every theorem named in MANIFEST.json, grouped.

* **propext** (1 theorems): `C130_transparent`

* **propext, Quot.sound** (21 theorems): `C130_relay`, `C41_check`, `C45_accepts`, `C45_unusable`, `C50_last`, `C51_initial_violated`, `C51_playback`, `C51_short_violated`, `C57_covariance_messages`, `C57_messages_determine`, `C65_first_dropped_violated`, `C97_delay_partial`, `C97_messages`, `C97_pose_pressure_violated`, `C97_poses`, `C97_used`, `C98_fixed`, `C98_press_reset_violated`, `C99_refused`, `Timing.C53_get_tag`, `Timing.C53_handles`

* **propext, Classical.choice, Quot.sound** (465 theorems): `C01_buffer_is_ordered_map`, `C01_runs_succeed`, `C02_before_after`, `C02_closest_is_nearest`, `C03_iterator_query_agrees_partial`, `C03_violated`, `C04_defined_queries_partial`, `C04_violated`, `C05_cleanup_keeps_recent`, `C06_retime_partial`, `C06_violated`, `C07_no_measurement_before_prediction`, `C07_nothing_before_init`, `C07_relative_no_measurement_before_prediction`, `C07_relative_nothing_before_init`, `C07_relative_two_predictions_not_enough`, `C07_two_predictions_not_enough`, `C08_init_forgets`, `C08_same_future`, `C09_arrival_order`, `C09_delayed_equals_batch`, `C09_position_filter`, `C09_times_any_numerics`, `C09_without_fuzzy_states`, `C100_imu_partial`, `C100_spherical_violated`, `C101_gyro_noise_violated`, `C101_half_turn_violated`, `C101_numbers_partial`, `C101_origin_violated`, `C101_psd_partial`, `C102_agreeing_partial`, `C102_between_violated`, `C103_covariances`, `C103_messages_agree_partial`, `C103_tf_violated`, `C104_subscribers`, `C105_angle_violated`, `C105_distance_violated`, `C105_gyro_noise_violated`, `C105_heading_partial`, `C105_pose_iff_partial`, `C105_pose_partial`, `C105_pose_test_partial`, `C105_pose_test_violated`, `C105_pose_violated`, `C105_position_filter_partial`, `C106_make_pose`, `C106_pose_init`, `C106_pose_pressure_init`, `C106_relative_shipped_partial`, `C106_relative_signs_partial`, `C106_same_motion`, `C106_shipped_partial`, `C106_signs_partial`, `C106_watched_violated`, `C107_differences`, `C108_defaults_violated`, `C108_ignored_violated`, `C108_pose_partial`, `C108_pressure_partial`, `C109_fifty`, `C109_replaced_partial`, `C109_value_ignored`, `C109_value_ignored_relative`, `C109_violated`, `C10_consistent_trajectory`, `C10_without_fuzzy_states`, `C110_values`, `C110_zero_violated`, `C111_least_squares`, `C111_order`, `C111_pressure`, `C111_pressure_order`, `C111_sequence_is_batch`, `C112_consistent`, `C112_optimal`, `C112_prediction_partial`, `C112_process_noise_violated`, `C112_update`, `C113_false_alarms`, `C114_between_violated`, `C114_noise_violated`, `C114_relative_partial`, `C115_first_violated`, `C115_initial_position`, `C115_invalid_violated`, `C115_measurements_partial`, `C115_settings`, `C115_throttle_violated`, `C115_valid`, `C115_zero_violated`, `C116_heading_partial`, `C116_quaternion_violated`, `C116_range_violated`, `C116_silent`, `C117_angle_violated`, `C117_distance_violated`, `C117_linear`, `C117_pose_violated`, `C117_position_violated`, `C117_towards_partial`, `C118_attitude_violated`, `C118_correlated_violated`, `C118_error_is_residual`, `C118_inverse_partial`, `C118_lever_arm_violated`, `C118_world_partial`, `C119_information`, `C119_pose_partial`, `C119_pose_violated`, `C119_position`, `C119_pressure`, `C119_run_partial`, `C119_update`, `C11_published_is_current`, `C11_without_fuzzy_states`, `C120_any_numerics_partial`, `C120_covariance_violated`, `C120_repeated_partial`, `C120_shipped_violated`, `C120_stale_violated`, `C121_filters_partial`, `C121_negative_violated`, `C121_origin_violated`, `C121_relative_filters_partial`, `C121_relative_partial`, `C121_shipped_partial`, `C121_unit_partial`, `C122_attitude_violated`, `C122_position_partial`, `C122_turn_violated`, `C123_certain_violated`, `C123_initial_pose`, `C123_measurements_partial`, `C123_repeated_violated`, `C123_settings`, `C123_unknown_violated`, `C123_violated`, `C124_noise`, `C124_transition`, `C124_violated`, `C124_volume_partial`, `C125_condition_partial`, `C125_violated`, `C126_frame`, `C126_order`, `C127_dropped_violated`, `C127_measurements_partial`, `C127_start_partial`, `C127_start_violated`, `C128_first_spike_violated`, `C128_offset_partial`, `C128_relative_partial`, `C128_relative_shipped_partial`, `C128_relative_spikes_partial`, `C128_relative_spikes_shipped_partial`, `C128_shipped_partial`, `C128_spike_violated`, `C128_spikes_partial`, `C128_spikes_shipped_partial`, `C129_accepted_violated`, `C129_ignored_partial`, `C129_read_violated`, `C129_relative_partial`, `C129_writes_partial`, `C12_any_numerics`, `C12_future_measurements_wait`, `C131_absolute`, `C131_relative`, `C132_alone_partial`, `C132_behind_others_violated`, `C132_published_partial`, `C132_relative_behind_others_violated`, `C132_relative_partial`, `C132_relative_published_partial`, `C132_relative_several_partial`, `C132_several_partial`, `C132_two_violated`, `C13_too_old_ignored`, `C14_close_violated`, `C14_counted_once_partial`, `C14_same_stamp_ignores_contents`, `C14_violated`, `C14_violated_two_sensors`, `C15_between_violated`, `C15_fixed_violated`, `C15_reading_partial`, `C15_rejected_no_effect_partial`, `C15_violated`, `C15_violated_order`, `C16_no_nearby_state_partial`, `C16_violated`, `C17_backward_jump_stops`, `C17_only_backward_jump_stops`, `C17_predictions_keep_running`, `C17_relative_backward_jump_stops`, `C17_relative_only_backward_jump_stops`, `C17_relative_predictions_keep_running`, `C18_new_state_covariance_partial`, `C18_violated`, `C19_every_kernel_partial`, `C19_gap_violated`, `C19_imu_safe_partial`, `C19_violated`, `C20_any_numerics_partial`, `C20_every_kernel_partial`, `C20_mixed_violated`, `C20_no_undefined_behaviour_partial`, `C20_position_filter_partial`, `C20_prompt_is_timely`, `C20_relative_partial`, `C20_stamps_partial`, `C20_stamps_relative_partial`, `C20_violated`, `C20_violated_std`, `C21_interpolation_order_independent`, `C22_previous_measurement_partial`, `C22_run_violated`, `C22_violated`, `C23_cleanup_keeps_trajectory`, `C24_attitude_stays_unit`, `C24_chain`, `C25_inputs_kept`, `C25_nonpropagated_copied`, `C26_constant_acceleration`, `C26_subdivision`, `C27_axis_partial`, `C27_error_partial`, `C27_series_partial`, `C27_violated`, `C28_chain`, `C28_never_fails`, `C28_update_psd`, `C29_prediction_psd_partial`, `C29_violated_bias_noise`, `C29_violated_hover`, `C30_optimal_gain`, `C30_update_decreases`, `C31_inlier_applied`, `C31_negative_threshold`, `C31_outlier_ignored`, `C32_biases_fixed`, `C32_relative`, `C32_run`, `C32_shipped_sanity`, `C33_corrected_unit`, `C33_small_angle_axis`, `C33_small_angle_unit`, `C34_buffered`, `C34_commuting`, `C34_relative_psd_partial`, `C34_shipped_partial`, `C34_violated`, `C35_compiles_iff`, `C35_core_ordering`, `C35_partition`, `C36_apply_correction`, `C36_apply_correction_pose`, `C36_correct`, `C37_core_determines`, `C37_core_not_first_violated`, `C37_core_state`, `C37_full_determines`, `C37_full_length`, `C37_full_state`, `C38_clear_cross_cov`, `C38_decoupled_update`, `C38_fixed_state_decoupled`, `C39_column_major`, `C39_pose_covariance_partial`, `C39_violated`, `C40_full_window`, `C40_no_early_alarm`, `C40_window`, `C41_apply_correction`, `C42_median`, `C42_median_exists`, `C42_order_independent`, `C42_rank`, `C43_angle_partial`, `C43_angle_violated`, `C43_distance`, `C43_pose`, `C43_pose_pressure_partial`, `C43_position`, `C43_position_pose_partial`, `C43_position_pose_violated`, `C43_pressure_violated`, `C44_angle_offset_violated`, `C44_angle_partial`, `C44_angle_violated`, `C44_distance_offset_violated`, `C44_distance_partial`, `C44_distance_rotation_violated`, `C44_distance_violated`, `C44_pose_partial`, `C44_pose_violated`, `C44_position`, `C44_pressure`, `C44_pwv_violated`, `C44_yaw_violated`, `C45_rate_bound`, `C45_rate_limit`, `C46_fixed_violated`, `C46_inverse_partial`, `C46_noise`, `C46_position_noise`, `C46_world`, `C48_bearing_partial`, `C48_behind_violated`, `C48_violated`, `C48_wrap_violated`, `C48_zenith_undefined`, `C49_average_partial`, `C49_decimation_partial`, `C49_every_tenth_partial`, `C49_overlap_violated`, `C49_raw_violated`, `C49_startup_violated`, `C50_defined`, `C50_unique`, `C51_correction_partial`, `C54_overlap`, `C54_round_trip`, `C55_violated`, `C56_asymmetry_shrinks_partial`, `C56_update_violated`, `C56_violated`, `C58_twist_covariance`, `C59_noise_integral_at_rest_partial`, `C59_noise_integral_blocks_partial`, `C59_noise_integral_no_gyro_noise_partial`, `C59_violated_gyro_noise`, `C60_auxiliary_constant`, `C60_transition_exact_without_rotation`, `C60_transition_second_order`, `C61_predict_again`, `C62_steady_not_fuzzy_partial`, `C62_violated`, `C64_exact`, `C64_optimal`, `C65_backward_stuck_violated`, `C66_constant_partial`, `C66_first_partial`, `C66_second_violated`, `C67_claim_violated`, `C67_initial_covariance_partial`, `C67_violated`, `C68_gyro_bias_uncorrectable`, `C68_gyro_bias_violated`, `C68_variance_partial`, `C69_joseph_partial`, `C69_violated`, `C70_drift_partial`, `C70_violated`, `C71_config_violated`, `C71_service_partial`, `C71_service_violated`, `C72_init_violated`, `C72_relative_partial`, `C72_run_partial`, `C72_scale_partial`, `C73_pose`, `C73_pose_pressure_violated`, `C73_position`, `C73_position_pose_violated`, `C73_rate_partial`, `C74_position_filter_partial`, `C74_without_fuzzy_states_partial`, `C75_exact_pose_partial`, `C75_violated`, `C76_yaw_stays_violated`, `C76_yaw_value_violated`, `C77_attitude_sign_violated`, `C77_relative_residual_partial`, `C78_correlated_violated`, `C78_distance_violated`, `C78_negative_scale_violated`, `C78_pose_fixed_partial`, `C78_position_fixed_partial`, `C78_relative_fusion_partial`, `C78_relative_pose_partial`, `C78_run_fusion_partial`, `C78_run_pose_partial`, `C78_run_position_partial`, `C79_convergence`, `C79_local_error`, `C80_nonpositive_violated`, `C80_relative_partial`, `C80_time_origin_partial`, `C81_no_invented_times`, `C81_relative`, `C82_pose_filter`, `C82_pose_pressure_filter`, `C82_position_filter`, `C82_position_pose_filter`, `C82_relative`, `C82_relative_pose_filter`, `C82_relative_pose_pressure_filter`, `C82_relative_position_pose_filter`, `C82_translation`, `C83_relative`, `C83_unit_quaternions`, `C84_alarm_bounds`, `C84_alarm_iff`, `C85_attitude_rate_violated`, `C85_constant_rate_partial`, `C85_drift_partial`, `C85_two_sensors_violated`, `C90_late_violated`, `C90_playback_partial`, `C90_short_violated`, `C90_unusable_partial`, `C90_used`, `C91_all_updates`, `C91_one_update_partial`, `C91_two_updates_violated`, `C92_imu_violated`, `C92_same_time_partial`, `C93_nan_violated`, `C93_numbers_partial`, `C94_length`, `C94_unit_quaternions`, `C94_zero_violated`, `C95_imu_violated`, `C95_init_violated`, `C95_published_in_order_partial`, `C95_relative_partial`, `C96_imu_violated`, `C96_old_objects_go_partial`, `C96_queue_violated`, `C96_relative_partial`, `C98_noises_partial`, `C98_pose_pressure_violated`, `C99_height_partial`, `C99_origin_violated`, `Eval.C86_first_pair_violated`, `Eval.C86_perfect_partial`, `Eval.C87_estimate_frame`, `Eval.C87_ground_truth_frame`, `Eval.C87_upright_frame`, `Eval.C88_closest_violated`, `Eval.C88_complete_partial`, `Eval.C88_rows_partial`, `Eval.C88_spacing_partial`, `Eval.C89_ends`, `FuzzyOrder.C74_arrival_order_violated`, `GPS.C47_adjust_altitude_violated`, `GPS.C47_adjust_partial`, `GPS.C47_adjust_violated`, `GPS.C47_distance`, `GPS.C47_east`, `GPS.C47_north`, `GPS.C47_orientation`, `GPS.C47_reference_zero`, `GPS.C47_up`, `Timing.C52_statistics_partial`, `Timing.C52_violated_max`, `Timing.C52_violated_overflow`, `Timing.C63_shown_partial`, `Timing.C63_violated`, `lyap3_solves`, `mahRejects_iff`, `reading_apply_refines`
