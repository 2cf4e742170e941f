{"id": "C01", "title": "Time buffer is an ordered map", "statement": "After any sequence of Insert, UpdateTime, ClearOlderThan and Clear calls the buffer holds its objects in strictly increasing time order, at most one per time, and each object is found exactly at its own time; inserting at an occupied time changes nothing.", "quantifier": "every finite sequence of buffer operations with finite times", "why_tests_cant": "The claim ranges over all operation sequences; tests fix a handful.", "anchors": ["msf_core/include/msf_core/msf_sortedContainer.h:SortedContainer::Insert", "msf_core/include/msf_core/msf_sortedContainer.h:SortedContainer::UpdateTime", "msf_core/include/msf_core/msf_sortedContainer.h:SortedContainer::ClearOlderThan", "msf_core/include/msf_core/msf_sortedContainer.h:SortedContainer::GetValueAt"]}
{"id": "C02", "title": "Nearest-object query returns the nearest object", "statement": "GetClosest(t) on a non-empty buffer returns an object whose time has the smallest distance to t of all buffered objects, the earlier one on a tie, and the invalid object exactly when the buffer is empty.", "quantifier": "every buffer content (no object at the reserved time -1) and every query time", "why_tests_cant": "Requires all contents and all query times including ties and both ends.", "anchors": ["msf_core/include/msf_core/msf_sortedContainer.h:SortedContainer::GetClosest", "msf_core/include/msf_core/msf_sortedContainer.h:SortedContainer::GetClosestBefore", "msf_core/include/msf_core/msf_sortedContainer.h:SortedContainer::GetClosestAfter"]}
{"id": "C03", "title": "Iterator nearest query agrees with GetClosest", "statement": "GetIteratorClosest(t) on a non-empty buffer designates the same object as GetClosest(t).", "quantifier": "every non-empty buffer, every query time, every red-black tree shape of the underlying map", "why_tests_cant": "Depends on the tree shape of std::map and on decrementing begin(), which tests on one library build cannot settle.", "anchors": ["msf_core/include/msf_core/msf_sortedContainer.h:SortedContainer::GetIteratorClosest", "msf_core/include/msf_core/msf_sortedContainer.h:SortedContainer::GetIteratorBeforeBegin"]}
{"id": "C04", "title": "Buffer queries have defined behaviour", "statement": "No public iterator query of a non-empty buffer performs an operation that the C++ standard leaves undefined.", "quantifier": "every non-empty buffer and every query time", "why_tests_cant": "Undefined behaviour is invisible to a passing test.", "anchors": ["msf_core/include/msf_core/msf_sortedContainer.h:SortedContainer::GetIteratorBeforeBegin", "msf_core/include/msf_core/msf_sortedContainer.h:SortedContainer::GetIteratorClosestBefore", "msf_core/include/msf_core/msf_sortedContainer.h:SortedContainer::GetIteratorClosest"]}
{"id": "C05", "title": "Age-based clean-up keeps recent data", "statement": "ClearOlderThan(age) removes only a prefix of the buffer in time order, never removes the newest object or any object whose age relative to the newest is at most age, and leaves at most one object older than age.", "quantifier": "every buffer and every age >= 0", "why_tests_cant": "All sizes and spacings, including boundary ages.", "anchors": ["msf_core/include/msf_core/msf_sortedContainer.h:SortedContainer::ClearOlderThan", "msf_core/include/msf_core/implementation/msf_core_inl.h:MSF_Core::CleanUpBuffers"]}
{"id": "C06", "title": "Re-timing moves one object and loses none", "statement": "UpdateTime(told,tnew) on a buffer with an object at told leaves every other object in place and makes the moved object findable at tnew.", "quantifier": "every buffer, every pair of times", "why_tests_cant": "Quantifies over buffers in which tnew may already be occupied.", "anchors": ["msf_core/include/msf_core/msf_sortedContainer.h:SortedContainer::UpdateTime"]}
{"id": "C07", "title": "Calls before initialization have no effect", "statement": "Before Init, IMU readings, external states and measurements change nothing and publish nothing; after Init but before the third IMU prediction (or an externally propagated state), measurements change nothing and publish nothing.", "quantifier": "every core state that is not initialized / has no prediction, every input", "why_tests_cant": "Holds over every history of calls; any finite test suite exercises a few.", "anchors": ["msf_core/include/msf_core/implementation/msf_core_inl.h:MSF_Core::ProcessIMU", "msf_core/include/msf_core/implementation/msf_core_inl.h:MSF_Core::ProcessExternallyPropagatedState", "msf_core/include/msf_core/implementation/msf_core_inl.h:MSF_Core::AddMeasurement"]}
{"id": "C08", "title": "Init forgets the past", "statement": "After Init(m) the buffered states and measurements, pending queue, flags, covariance bookkeeping and fuzzy-tracking history depend only on m, not on anything processed before.", "quantifier": "every prior core state, every init measurement", "why_tests_cant": "Quantifies over all prior histories.", "anchors": ["msf_core/include/msf_core/implementation/msf_core_inl.h:MSF_Core::Init", "msf_core/include/msf_core/implementation/msf_measurement_inl.h:MSF_InitMeasurement::Apply"]}
{"id": "C09", "title": "Delayed measurements give the batch result", "statement": "For measurements with separated time stamps the filter, after receiving them in any order interleaved with the IMU stream, holds exactly the states and covariances that result from propagating the IMU stream once and applying the measurements in time order.", "quantifier": "every kernel (propagation, covariance prediction, update function with or without outlier rejection) whose update does not read the fuzzy-tracking window and whose NaN checks pass (C74 is about the filters that do), every IMU sequence with gaps of at most 0.1 s, every finite set of measurements more than 2 ms apart and at most 59 s late, every arrival order (measurements that may be rejected arrive in time order or away from IMU stamps)", "why_tests_cant": "The number of interleavings is unbounded; equality must hold for all of them.", "anchors": ["msf_core/include/msf_core/implementation/msf_core_inl.h:MSF_Core::AddMeasurement", "msf_core/include/msf_core/implementation/msf_core_inl.h:MSF_Core::GetClosestState", "msf_core/include/msf_core/implementation/msf_core_inl.h:MSF_Core::PropPToState", "msf_core/include/msf_core/implementation/msf_core_inl.h:MSF_Core::PropagateState"]}
{"id": "C10", "title": "Buffered states form one consistent trajectory", "statement": "After every completed IMU or measurement call each buffered state is the propagation of its predecessor followed by the update of the measurement assigned to it, for both mean and covariance.", "quantifier": "every reachable core state of the in-order IMU history with separated measurements", "why_tests_cant": "Invariant over all reachable states.", "anchors": ["msf_core/include/msf_core/implementation/msf_core_inl.h:MSF_Core::AddMeasurement", "msf_core/include/msf_core/implementation/msf_core_inl.h:MSF_Core::ProcessIMU", "msf_core/include/msf_core/implementation/msf_core_inl.h:MSF_Core::PropagatePOneStep"]}
{"id": "C11", "title": "Published covariance is current", "statement": "Whenever a state is published after an update its covariance has been propagated to the time of that state, and between calls the covariance is valid for the newest state.", "quantifier": "every reachable core state of the in-order history", "why_tests_cant": "Holds over every history of calls; any finite test suite exercises a few.", "anchors": ["msf_core/include/msf_core/implementation/msf_core_inl.h:MSF_Core::PropPToState", "msf_core/include/msf_core/implementation/msf_core_inl.h:MSF_Core::PropagatePOneStep", "msf_core/include/msf_core/implementation/msf_core_inl.h:MSF_Core::ApplyCorrection"]}
{"id": "C12", "title": "Future measurements wait and are not lost", "statement": "A measurement newer than the newest state is neither applied nor dropped: it is kept in arrival order, re-tried one per IMU reading, and applied at a reading that reaches its time.", "quantifier": "every pending queue, every core state, every in-order IMU stream", "why_tests_cant": "Unbounded queues and streams.", "anchors": ["msf_core/include/msf_core/implementation/msf_core_inl.h:MSF_Core::AddMeasurement", "msf_core/include/msf_core/implementation/msf_core_inl.h:MSF_Core::HandlePendingMeasurements"]}
{"id": "C13", "title": "Too old measurements are ignored", "statement": "A measurement older than the oldest buffered state leaves the filter unchanged.", "quantifier": "every core state, every such measurement", "why_tests_cant": "Holds over every history of calls; any finite test suite exercises a few.", "anchors": ["msf_core/include/msf_core/implementation/msf_core_inl.h:MSF_Core::AddMeasurement"]}
{"id": "C14", "title": "Each measurement is counted once", "statement": "Delivering a measurement never causes another, already applied measurement to be counted a second time, in particular when two measurements carry the same time stamp.", "quantifier": "every core state and every pair of measurements, including equal stamps", "why_tests_cant": "Needs the semantics of re-application over all buffers.", "anchors": ["msf_core/include/msf_core/implementation/msf_core_inl.h:MSF_Core::AddMeasurement", "msf_core/include/msf_core/msf_sortedContainer.h:SortedContainer::Insert"]}
{"id": "C15", "title": "A rejected outlier has no effect", "statement": "A measurement rejected by the Mahalanobis test leaves mean and covariance of all buffered states unchanged.", "quantifier": "every core state, every rejected measurement, on time or delayed", "why_tests_cant": "Requires reasoning about re-application of all later measurements.", "anchors": ["msf_core/include/msf_core/implementation/msf_measurement_inl.h:CalculateAndApplyCorrection", "msf_core/include/msf_core/implementation/msf_core_inl.h:MSF_Core::AddMeasurement"]}
{"id": "C16", "title": "A measurement without a nearby state has no effect", "statement": "A measurement for which no buffered state lies within 0.1 s leaves all state estimates unchanged.", "quantifier": "every core state with an IMU gap, every measurement in the gap", "why_tests_cant": "Needs all buffers with later, already applied measurements.", "anchors": ["msf_core/include/msf_core/implementation/msf_core_inl.h:MSF_Core::GetClosestState", "msf_core/include/msf_core/implementation/msf_core_inl.h:MSF_Core::AddMeasurement"]}
{"id": "C17", "title": "Backward clock jumps stop the filter until re-init", "statement": "An IMU reading more than 10 ms older than the last one, once predictions are running, un-initializes the filter, changes no state and is followed by no effect of any input until the next Init. No other call stops a running filter as long as positions are numbers.", "quantifier": "every running core state, every such reading, every later input sequence without Init", "why_tests_cant": "Holds over every history of calls; any finite test suite exercises a few.", "anchors": ["msf_core/include/msf_core/implementation/msf_core_inl.h:MSF_Core::ProcessIMU"]}
{"id": "C18", "title": "Every buffered covariance is a propagated one", "statement": "Each state that enters the buffer from an IMU reading obtains a covariance propagated from its predecessor, also when readings are slightly out of order.", "quantifier": "every core state and every IMU reading accepted by the filter", "why_tests_cant": "Out-of-order streams are timing dependent and rare in tests.", "anchors": ["msf_core/include/msf_core/implementation/msf_core_inl.h:MSF_Core::ProcessIMU", "msf_core/include/msf_core/implementation/msf_core_inl.h:MSF_Core::PropagatePOneStep"]}
{"id": "C19", "title": "IMU processing never uses a dangling iterator", "statement": "No sequence of Init and IMU readings makes ProcessIMU dereference an iterator to an erased buffer node.", "quantifier": "every sequence of Init and IMU calls", "why_tests_cant": "Memory errors depend on histories and may stay silent in tests.", "anchors": ["msf_core/include/msf_core/implementation/msf_core_inl.h:MSF_Core::ProcessIMU", "msf_core/include/msf_core/msf_sortedContainer.h:SortedContainer::UpdateTime"]}
{"id": "C20", "title": "Measurement processing terminates without undefined behaviour", "statement": "AddMeasurement on a running filter returns for every accepted measurement, performing no invalid dereference, increment past the end or use of an erased node.", "quantifier": "every reachable core state of the in-order history, every measurement, every map tree shape", "why_tests_cant": "Holds over every history of calls; any finite test suite exercises a few.", "anchors": ["msf_core/include/msf_core/implementation/msf_core_inl.h:MSF_Core::AddMeasurement", "msf_core/include/msf_core/implementation/msf_core_inl.h:MSF_Core::PropPToState"]}
{"id": "C21", "title": "Interpolated states do not depend on query order", "statement": "A state created between two IMU states carries inputs on the straight line between the neighbouring IMU readings, and creating further states in between gives the same inputs regardless of the order of creation.", "quantifier": "all neighbour states, all query times between them, all orders", "why_tests_cant": "Continuous range of times and all insertion orders.", "anchors": ["msf_core/include/msf_core/implementation/msf_core_inl.h:MSF_Core::GetClosestState"]}
{"id": "C22", "title": "Previous measurement of a sensor is found", "statement": "GetPreviousMeasurement(t,id) returns the latest buffered measurement of sensor id before the one at t, or the invalid object if there is none.", "quantifier": "every measurement buffer, every t present in it, every sensor id, every map tree shape", "why_tests_cant": "All contents and tree shapes.", "anchors": ["msf_core/include/msf_core/implementation/msf_core_inl.h:MSF_Core::GetPreviousMeasurement"]}
{"id": "C23", "title": "Clean-up during measurement processing keeps the trajectory", "statement": "Periodic removal of data older than 60 s does not change any remaining state and keeps the remaining states a consistent trajectory.", "quantifier": "every reachable core state, every clean-up point", "why_tests_cant": "Unbounded runs.", "anchors": ["msf_core/include/msf_core/implementation/msf_core_inl.h:MSF_Core::CleanUpBuffers", "msf_core/include/msf_core/implementation/msf_core_inl.h:MSF_Core::GetClosestState"]}
{"id": "C24", "title": "Attitude stays a unit quaternion", "statement": "State propagation maps a unit attitude quaternion to a unit quaternion and never divides by zero when normalizing.", "quantifier": "all real angular rates, biases, time steps and unit quaternions", "why_tests_cant": "Continuous inputs.", "anchors": ["msf_core/include/msf_core/implementation/msf_core_inl.h:MSF_Core::PropagateState", "msf_core/include/msf_core/eigen_utils.h:OmegaMatJPL"]}
{"id": "C25", "title": "Propagation leaves biases and calibration states alone", "statement": "State propagation copies every non-propagated state unchanged from the previous state.", "quantifier": "all states and inputs, every state definition", "why_tests_cant": "All state definitions and values.", "anchors": ["msf_core/include/msf_core/implementation/msf_core_inl.h:MSF_Core::PropagateState", "msf_core/include/msf_core/msf_tmp.h:CopyNonPropagationStates"]}
{"id": "C26", "title": "Propagation is exact for constant acceleration without rotation", "statement": "With zero body rate and constant measured acceleration, position and velocity after one step follow the closed-form constant-acceleration law, and splitting the interval into arbitrary sub-steps gives the same end state.", "quantifier": "all accelerations, velocities, positions, attitudes and all subdivisions of the interval", "why_tests_cant": "All subdivisions and real inputs.", "anchors": ["msf_core/include/msf_core/implementation/msf_core_inl.h:MSF_Core::PropagateState"]}
{"id": "C27", "title": "Attitude integration follows the exponential series", "statement": "The attitude increment is the fourth-order Taylor polynomial of the matrix exponential of the mean rate (plus the first-order correction term).", "quantifier": "all mean rates and time steps", "why_tests_cant": "An identity of polynomials in real inputs.", "anchors": ["msf_core/include/msf_core/implementation/msf_core_inl.h:MSF_Core::PropagateState"]}
{"id": "C28", "title": "Covariance stays symmetric positive semidefinite under updates", "statement": "A measurement update maps a symmetric positive semidefinite covariance to a symmetric positive semidefinite one, for any gain and any positive semidefinite measurement noise.", "quantifier": "all dimensions, covariances, gains, measurement matrices and noises", "why_tests_cant": "All real matrices of all sizes.", "anchors": ["msf_core/include/msf_core/implementation/msf_measurement_inl.h:CalculateAndApplyCorrection"]}
{"id": "C29", "title": "Covariance stays symmetric positive semidefinite under prediction", "statement": "Covariance prediction maps a symmetric positive semidefinite covariance to a symmetric positive semidefinite one.", "quantifier": "all states, IMU inputs, noise parameters and time steps", "why_tests_cant": "All real inputs; asymmetry of a few entries is below test tolerances.", "anchors": ["msf_core/include/msf_core/implementation/msf_core_inl.h:MSF_Core::PredictProcessCovariance", "msf_core/include/msf_core/implementation/calcQCore.h:CalcQCore"]}
{"id": "C30", "title": "Updates never lose information", "statement": "After an update the covariance is at most the prior covariance in the semidefinite order, and equals (I-KH)P.", "quantifier": "all covariances, measurement matrices, noises with invertible innovation covariance", "why_tests_cant": "All real matrices.", "anchors": ["msf_core/include/msf_core/implementation/msf_measurement_inl.h:CalculateAndApplyCorrection"]}
{"id": "C31", "title": "The outlier gate is exact", "statement": "With rejection enabled a measurement is applied exactly when its squared Mahalanobis distance is at most the square of the threshold; otherwise mean and covariance of the state are unchanged by the update routine.", "quantifier": "all residuals, covariances and non-negative thresholds", "why_tests_cant": "All real inputs.", "anchors": ["msf_core/include/msf_core/implementation/msf_measurement_inl.h:CalculateAndApplyCorrection"]}
{"id": "C32", "title": "Fixed biases stay fixed", "statement": "With the fixed-bias option on, no correction changes the gyro or accelerometer bias.", "quantifier": "all corrections and states of every state definition", "why_tests_cant": "All real vectors.", "anchors": ["msf_core/include/msf_core/implementation/msf_core_inl.h:MSF_Core::ApplyCorrection", "msf_core/include/msf_core/msf_tmp.h:CorrectState"]}
{"id": "C33", "title": "Attitude corrections are unit quaternions", "statement": "The small-angle quaternion has unit norm for every angle vector, is the identity at zero, and a corrected attitude is again a unit quaternion.", "quantifier": "all real 3-vectors and unit quaternions, both branches", "why_tests_cant": "Continuous inputs with a branch.", "anchors": ["msf_core/include/msf_core/eigen_utils.h:QuaternionFromSmallAngle", "msf_core/include/msf_core/msf_tmp.h:CorrectState"]}
{"id": "C34", "title": "Relative updates keep the covariance positive semidefinite", "statement": "A relative (stochastic cloning) update yields a symmetric positive semidefinite covariance when old and new covariance are related by the buffered transitions.", "quantifier": "all transition chains, covariances, measurement matrices", "why_tests_cant": "All real matrices and chain lengths.", "anchors": ["msf_core/include/msf_core/implementation/msf_measurement_inl.h:CalculateAndApplyCorrectionRelative", "msf_core/include/msf_core/implementation/msf_core_inl.h:GetAccumulatedStateTransitionStochasticCloning"]}
{"id": "C35", "title": "State index layout is a partition", "statement": "The start indices of the state variables in the correction and state vectors are consecutive, disjoint and cover exactly the total length, for every state definition.", "quantifier": "every state list (any length and mix of vector and quaternion states)", "why_tests_cant": "The template code must be right for every state list, not the five shipped ones.", "anchors": ["msf_core/include/msf_core/msf_tmp.h:GetStartIndex", "msf_core/include/msf_core/msf_tmp.h:CountStates", "msf_core/include/msf_core/msf_tmp.h:ComputeStartIndex"]}
{"id": "C36", "title": "Correction applies each segment to its own state", "statement": "Applying a correction changes each state variable by exactly its segment of the correction vector; additive for vectors, element-wise product for multiplicative ones, multiplicative on the right for attitudes; this is what ApplyCorrection does unless biases are fixed or a check intervenes.", "quantifier": "every state list and correction vector", "why_tests_cant": "All state definitions.", "anchors": ["msf_core/include/msf_core/msf_tmp.h:CorrectState", "msf_core/include/msf_core/implementation/msf_state_inl.h:GenericState_T::Correct"]}
{"id": "C37", "title": "State arrays have the documented layout", "statement": "The full and core state arrays list all variables in state order, quaternions as w,x,y,z, with length equal to the number of states, and determine the state.", "quantifier": "every state list and state value", "why_tests_cant": "All state definitions.", "anchors": ["msf_core/include/msf_core/msf_tmp.h:FullStatetoDoubleArray", "msf_core/include/msf_core/msf_tmp.h:CoreStatetoDoubleArray"]}
{"id": "C38", "title": "Fixing a calibration state decouples it", "statement": "Clearing cross-covariances of a state keeps its own block, zeroes all its cross terms, keeps the covariance symmetric positive semidefinite, and together with a zero measurement block gives it zero correction and unchanged covariance block.", "quantifier": "every covariance, every state block, every measurement", "why_tests_cant": "All real matrices and index blocks.", "anchors": ["msf_core/include/msf_core/implementation/msf_state_inl.h:GenericState_T::ClearCrossCov", "msf_updates/include/msf_updates/pose_sensor_handler/pose_measurement.h:CalculateH"]}
{"id": "C39", "title": "Published pose covariance is the right block", "statement": "The 6x6 pose covariance message is the position/attitude sub-block of the error covariance in row-major order.", "quantifier": "every covariance and state definition", "why_tests_cant": "All real matrices.", "anchors": ["msf_core/include/msf_core/implementation/msf_state_inl.h:GenericState_T::GetPoseCovariance"]}
{"id": "C40", "title": "Fuzzy-tracking window holds the last accepted values", "statement": "The fuzzy-tracking buffer index is always in range and, once full, the buffer holds exactly the 30 most recently accepted attitude values.", "quantifier": "every sequence of checks and resets", "why_tests_cant": "Unbounded sequences; off-by-one at wrap-around.", "anchors": ["msf_core/include/msf_core/msf_checkFuzzyTracking.h:CheckFuzzyTracking::Check", "msf_core/include/msf_core/msf_checkFuzzyTracking.h:CheckFuzzyTracking::Reset"]}
{"id": "C41", "title": "Fuzzy detection restores calibration states", "statement": "When a correction is classified as fuzzy all non-propagated states keep their values from before the correction, and the window is not changed.", "quantifier": "every state, correction, window and threshold", "why_tests_cant": "All values.", "anchors": ["msf_core/include/msf_core/msf_checkFuzzyTracking.h:CheckFuzzyTracking::Check", "msf_core/include/msf_core/implementation/msf_core_inl.h:MSF_Core::ApplyCorrection"]}
{"id": "C42", "title": "Median is order independent", "statement": "The median used for outlier-robust decisions is the element of rank floor(n/2) of the sorted data, whatever the order of the data.", "quantifier": "every non-empty data vector and permutation", "why_tests_cant": "All permutations.", "anchors": ["msf_core/include/msf_core/msf_tools.h:GetMedian"]}
{"id": "C43", "title": "Initialization explains the initializing measurement", "statement": "Right after initializing from a measurement the residual of that same measurement is zero.", "quantifier": "all measurements, calibrations with unit quaternions and non-zero scale, for each shipped sensor manager", "why_tests_cant": "Real inputs.", "anchors": ["msf_updates/src/pose_msf/pose_sensormanager.h:Init", "msf_updates/src/position_msf/position_sensormanager.h:Init", "msf_updates/src/position_pose_msf/position_pose_sensormanager.h:Init", "msf_updates/src/pose_pressure_msf/pose_pressure_sensormanager.h:Init"]}
{"id": "C44", "title": "Measurement matrices are the derivatives of the measurement models", "statement": "For every sensor the matrix H is the derivative of the predicted measurement with respect to the error state.", "quantifier": "all states", "why_tests_cant": "Derivatives over real states.", "anchors": ["msf_updates/include/msf_updates/pose_sensor_handler/pose_measurement.h:CalculateH", "msf_updates/include/msf_updates/position_sensor_handler/position_measurement.h:CalculateH", "msf_updates/include/msf_updates/spherical_position_sensor/spherical_measurement.h:CalculateH", "msf_updates/include/msf_updates/pressure_sensor_handler/pressure_measurement.h:Apply"]}
{"id": "C45", "title": "Pose measurements are rate limited", "statement": "Consecutive accepted pose measurements are more than minimum_dt - 1 ms apart and every usable measurement that is later than the last accepted one by more than that is accepted.", "quantifier": "every message sequence", "why_tests_cant": "Unbounded sequences.", "anchors": ["msf_updates/include/msf_updates/pose_sensor_handler/implementation/pose_sensorhandler.hpp:ProcessPoseMeasurement"]}
{"id": "C46", "title": "Inverse pose sensors are converted correctly", "statement": "With measurement_world_sensor=false the stored measurement is the inverse of the received transform and its noise is a valid covariance.", "quantifier": "all poses with unit quaternions, both covariance modes", "why_tests_cant": "Real inputs and configuration modes.", "anchors": ["msf_updates/include/msf_updates/pose_sensor_handler/pose_measurement.h:MakeFromSensorReadingImpl"]}
{"id": "C47", "title": "GPS conversion is a rigid local frame", "statement": "ENU conversion maps the reference point to zero, has axes east, north and up there, preserves distances and orientation, and adjusting the reference shifts altitudes only.", "quantifier": "all reference points and positions", "why_tests_cant": "Real inputs.", "anchors": ["msf_core/src/lib/gps_conversion.cc:InitReference", "msf_core/src/lib/gps_conversion.cc:ECEFToENU", "msf_core/src/lib/gps_conversion.cc:WGS84ToECEF", "msf_core/src/lib/gps_conversion.cc:AdjustReference"]}
{"id": "C48", "title": "Bearing prediction is the true azimuth", "statement": "The predicted azimuth of the spherical sensor is the angle of the horizontal direction in (-pi,pi], and the azimuth residual is wrapped to [-pi,pi].", "quantifier": "all relative positions and measured angles", "why_tests_cant": "Real inputs including quadrant boundaries.", "anchors": ["msf_updates/include/msf_updates/spherical_position_sensor/spherical_measurement.h:AngleMeasurement::Apply"]}
{"id": "C49", "title": "Pressure height is the mean of the last ten readings", "statement": "Each accepted pressure measurement uses the arithmetic mean of the ten most recent readings and at most every tenth message is used.", "quantifier": "every message sequence", "why_tests_cant": "Unbounded sequences.", "anchors": ["msf_updates/include/msf_updates/pressure_sensor_handler/implementation/pressure_sensorhandler.hpp:MeasurementCallback"]}
{"id": "C50", "title": "Sensor ids are unique", "statement": "Distinct sensor handlers of one manager obtain distinct ids.", "quantifier": "every sequence of AddHandler calls", "why_tests_cant": "Unbounded sequences.", "anchors": ["msf_core/include/msf_core/msf_sensormanager.h:AddHandler"]}
{"id": "C51", "title": "Correction message reproduces the state", "statement": "Applying the published correction to the high-level state buffer yields the published filter state.", "quantifier": "all states and every buffer the class can hold, including the initial one", "why_tests_cant": "Real inputs.", "anchors": ["msf_core/include/msf_core/msf_sensormanagerROS.h:PublishStateAfterUpdate"]}
{"id": "C52", "title": "Timing statistics are exact", "statement": "The accumulator reports total, mean, minimum, maximum over all samples and the mean over the last N samples.", "quantifier": "every sample sequence and window size", "why_tests_cant": "Unbounded sequences.", "anchors": ["msf_timing/include/msf_timing/Timer.h:Accumulator"]}
{"id": "C53", "title": "Timer handles identify tags", "statement": "Each tag has one handle, distinct tags have distinct handles, and a handle issued before a reset never denotes another tag afterwards.", "quantifier": "every sequence of handle requests and resets", "why_tests_cant": "Unbounded sequences.", "anchors": ["msf_timing/src/Timer.cc:Timing::GetHandle", "msf_timing/src/Timer.cc:Timing::GetTag", "msf_timing/src/Timer.cc:Timing::Reset"]}
{"id": "C54", "title": "Covariance block conversion round-trips", "statement": "Writing a covariance block into a message and reading it back yields the block, leaves unrelated entries unchanged and keeps the message covariance symmetric.", "quantifier": "all blocks and block positions", "why_tests_cant": "All real matrices.", "anchors": ["msf_core/include/msf_core/similaritytransform.h:GeometryMsgsCovBlockToEigen", "msf_core/include/msf_core/similaritytransform.h:EigenCovBlockToGeometryMsgs"]}
{"id": "C55", "title": "Re-initialised filters with different pasts respond alike", "statement": "After Init with the same measurement, two filters that processed different data before give identical responses to identical further calls.", "quantifier": "every past, every init measurement, every sequence of further calls", "why_tests_cant": "Requires comparing all pairs of histories.", "anchors": ["msf_core/include/msf_core/implementation/msf_core_inl.h:MSF_Core::Init", "msf_core/include/msf_core/implementation/msf_core_inl.h:MSF_Core::ProcessIMU"]}
{"id": "C56", "title": "Updates make the covariance exactly symmetric", "statement": "After a measurement update the covariance equals its transpose, whatever round-off asymmetry the Joseph form left behind.", "quantifier": "all square matrices assigned to the covariance", "why_tests_cant": "Aliasing of an in-place expression; asymmetries are far below test tolerances.", "anchors": ["msf_core/include/msf_core/implementation/msf_measurement_inl.h:CalculateAndApplyCorrection", "msf_core/include/msf_core/implementation/msf_measurement_inl.h:CalculateAndApplyCorrectionRelative"]}
{"id": "C57", "title": "Covariance messages determine the covariance", "statement": "The three published covariance arrays are exactly the core, auxiliary and cross blocks of the error covariance in row-major order, and together they determine a symmetric covariance.", "quantifier": "every covariance and state definition", "why_tests_cant": "All state definitions and real matrices.", "anchors": ["msf_core/include/msf_core/implementation/msf_state_inl.h:GenericState_T::GetCoreCovariance", "msf_core/include/msf_core/implementation/msf_state_inl.h:GenericState_T::GetAuxCovariance", "msf_core/include/msf_core/implementation/msf_state_inl.h:GenericState_T::GetCoreAuxCovariance"]}
{"id": "C58", "title": "Published twist covariance is the propagated velocity covariance", "statement": "The linear block of the published twist covariance is the first-order propagation of the joint velocity and attitude covariance through the rotation of the velocity into the body frame.", "quantifier": "every covariance, attitude and velocity", "why_tests_cant": "All real matrices.", "anchors": ["msf_core/include/msf_core/implementation/msf_state_inl.h:GenericState_T::GetTwistCovariance"]}
{"id": "C59", "title": "Process noise is the expansion of the noise integral", "statement": "The core part of the process noise added by a prediction is the third-order expansion, in the time step, of the covariance that accelerometer, gyro and bias noise accumulate under the error dynamics.", "quantifier": "every state definition, attitude, motion, noise parameter and time step", "why_tests_cant": "147 generated expressions over real inputs; a wrong term is small in every realistic test.", "anchors": ["msf_core/include/msf_core/implementation/msf_core_inl.h:MSF_Core::PredictProcessCovariance", "msf_core/include/msf_core/implementation/calcQCore.h:CalcQCore"]}
{"id": "C60", "title": "Error transition matrix is the expansion of the exponential", "statement": "The core part of the transition matrix agrees with the exponential of the error dynamics up to second order in the time step, and the auxiliary states have identity transition.", "quantifier": "every state definition, attitude, motion and time step", "why_tests_cant": "Orders of error terms over real inputs.", "anchors": ["msf_core/include/msf_core/implementation/msf_core_inl.h:MSF_Core::PredictProcessCovariance"]}
{"id": "C61", "title": "Predicting again forgets the earlier prediction", "statement": "The covariance a prediction gives to the next state depends on the covariance and time of the state it starts from and on the inputs, not on earlier predictions made from the same state.", "quantifier": "every state definition and every history of predictions and corrections", "why_tests_cant": "Stale matrix entries show only for particular histories of delayed measurements.", "anchors": ["msf_core/include/msf_core/implementation/msf_core_inl.h:MSF_Core::PredictProcessCovariance", "msf_core/include/msf_core/implementation/calcQCore.h:CalcQCore"]}
{"id": "C62", "title": "A steady attitude is never fuzzy", "statement": "If every estimate of a non-drifting attitude calibration state is the same rotation, the corrections are never classified as fuzzy tracking, whichever of the two unit quaternions represents it.", "quantifier": "every window length, every sequence of representations of one rotation, any positive threshold", "why_tests_cant": "Needs sign changes of the quaternion in particular patterns over 30 updates.", "anchors": ["msf_core/include/msf_core/msf_checkFuzzyTracking.h:CheckFuzzyTracking::Check"]}
{"id": "C63", "title": "Printed times tell the durations", "statement": "Two different durations are printed differently by the timing summary, up to the printed precision.", "quantifier": "all durations", "why_tests_cant": "Only long durations are affected.", "anchors": ["msf_timing/src/Timer.cc:Timing::SecondsToTimeString"]}
{"id": "C64", "title": "Average similarity transform is the least-squares optimum", "statement": "The similarity transform averaged from pose pairs has the translation and scale that minimise the squared position misfit and the rotation closest to all relative rotations; if one transform explains all pairs it is returned exactly.", "quantifier": "every list of at least two pose pairs with unit orientations", "why_tests_cant": "All lists of real poses; tests sample a few.", "anchors": ["msf_core/src/similaritytransform.cc:From6DoF::Compute"]}
{"id": "C65", "title": "Pose sensors recover from clock changes", "statement": "A pose sensor whose clock starts at any value or is set back continues to deliver measurements at the configured rate.", "quantifier": "every message sequence", "why_tests_cant": "Depends on absolute stamps that tests choose large and increasing.", "anchors": ["msf_updates/include/msf_updates/pose_sensor_handler/implementation/pose_sensorhandler.hpp:ProcessPoseMeasurement"]}
{"id": "C66", "title": "Every GPS receiver has its own origin", "statement": "The first fix of every GPS handler becomes its origin and later fixes of that handler are relative to it.", "quantifier": "every number of handlers and every sequence of fixes", "why_tests_cant": "Needs several handlers in one process.", "anchors": ["msf_updates/include/msf_updates/position_sensor_handler/implementation/position_sensorhandler.hpp:MeasurementCallback"]}
{"id": "C67", "title": "The initial covariance is a covariance", "statement": "The error covariance right after initialization with the default covariance is symmetric positive semidefinite.", "quantifier": "every state definition and every init measurement without a covariance of its own", "why_tests_cant": "One hard-coded 15x15 table times every state definition; definiteness is a statement about all directions.", "anchors": ["msf_core/include/msf_core/implementation/msf_core_inl.h:MSF_Core::SetPCore", "msf_core/include/msf_core/implementation/msf_core_inl.h:MSF_Core::Init"]}
{"id": "C68", "title": "Every error state starts uncertain", "statement": "Right after initialization with the default covariance every error state has a positive variance, so that measurements can correct it.", "quantifier": "every state definition, every error state, every measurement", "why_tests_cant": "All state definitions and measurement matrices.", "anchors": ["msf_core/include/msf_core/implementation/msf_core_inl.h:MSF_Core::SetPCore"]}
{"id": "C69", "title": "The first update keeps the covariance valid", "statement": "Updating the default initial covariance with any measurement of positive definite noise gives a covariance with a non-negative variance in every direction.", "quantifier": "every state definition, measurement matrix and noise covariance", "why_tests_cant": "Fails only for particular measurement directions.", "anchors": ["msf_core/include/msf_core/implementation/msf_core_inl.h:MSF_Core::SetPCore", "msf_core/include/msf_core/implementation/msf_measurement_inl.h:CalculateAndApplyCorrection"]}
{"id": "C70", "title": "The filter starts at rest", "statement": "As long as the IMU keeps reporting the readings of the init measurement the estimated position and velocity do not change.", "quantifier": "every shipped manager, all its inputs, every time step", "why_tests_cant": "Real inputs; the drift is below test tolerances for short runs.", "anchors": ["msf_updates/src/pose_msf/pose_sensormanager.h:Init", "msf_updates/src/position_msf/position_sensormanager.h:Init", "msf_updates/src/spherical_msf/spherical_sensormanager.h:Init", "msf_core/include/msf_core/implementation/msf_core_inl.h:MSF_Core::PropagateState"]}
{"id": "C71", "title": "Height initialization reaches the requested height", "statement": "A request to initialize at a given height is refused or puts the camera at that height.", "quantifier": "all measurements, calibrations and requested heights, service and reconfigure checkbox", "why_tests_cant": "Real inputs, including the degenerate ones.", "anchors": ["msf_updates/src/pose_msf/pose_sensormanager.h:InitHeight", "msf_updates/src/pose_msf/pose_sensormanager.h:Config"]}
{"id": "C72", "title": "The visual scale is never negative", "statement": "The scale estimate is not negative at any time after initialization.", "quantifier": "every sequence of initialization, predictions, absolute and relative updates with any matrices", "why_tests_cant": "Unbounded sequences over real inputs.", "anchors": ["msf_updates/src/pose_msf/pose_sensormanager.h:SanityCheckCorrection", "msf_updates/src/pose_msf/pose_sensormanager.h:Init", "msf_core/include/msf_core/implementation/msf_core_inl.h:MSF_Core::ApplyCorrection"]}
{"id": "C73", "title": "Auxiliary variances grow at the configured rate", "statement": "Between measurements the variance of every auxiliary state (scale, attitude and position of the vision frame, calibrations, sensor position, pressure bias) grows by its configured noise density squared times the elapsed time.", "quantifier": "every shipped manager, every noise parameter set, every sequence of time steps and inputs", "why_tests_cant": "Unbounded step sequences over real parameters.", "anchors": ["msf_updates/src/pose_msf/pose_sensormanager.h:CalculateQAuxiliaryStates", "msf_updates/src/pose_pressure_msf/pose_pressure_sensormanager.h:CalculateQAuxiliaryStates", "msf_updates/src/position_pose_msf/position_pose_sensormanager.h:CalculateQAuxiliaryStates", "msf_core/include/msf_core/implementation/msf_core_inl.h:MSF_Core::PredictProcessCovariance"]}
{"id": "C74", "title": "Arrival order does not matter in any shipped filter", "statement": "Two histories with the same IMU readings and the same separated measurements, delivered in different orders, end in the same estimate, in the position and spherical filters as well as in those with a non-drifting attitude (pose filters), whose fuzzy-tracking check keeps a window of past attitudes.", "quantifier": "every pair of admissible histories with equal contents", "why_tests_cant": "Unbounded interleavings.", "anchors": ["msf_core/include/msf_core/implementation/msf_core_inl.h:MSF_Core::ApplyCorrection", "msf_core/include/msf_core/msf_checkFuzzyTracking.h:CheckFuzzyTracking::Check", "msf_core/include/msf_core/implementation/msf_core_inl.h:MSF_Core::AddMeasurement"]}
{"id": "C75", "title": "A pose measurement equal to the prediction passes the outlier test", "statement": "With the outlier test enabled at its default threshold 100, a pose measurement whose position and attitude are exactly the predicted ones is not rejected, whatever the estimated attitude of the vision frame.", "quantifier": "every pose state with positive semidefinite covariance, every message", "why_tests_cant": "The space of states and covariances is infinite; rejection appears only for vision frames turned far enough.", "anchors": ["msf_updates/include/msf_updates/pose_sensor_handler/pose_measurement.h:PoseMeasurement::Apply", "msf_core/include/msf_core/implementation/msf_measurement_inl.h:MSF_MeasurementBase::CalculateAndApplyCorrection"]}
{"id": "C76", "title": "The yaw pseudo-measurement corrects the vision frame", "statement": "The seventh row of the pose measurement pulls the yaw of the vision frame towards zero: an accepted measurement with a non-zero yaw residual changes the estimate differently from one with zero yaw residual.", "quantifier": "every pose state, covariance and message", "why_tests_cant": "Requires comparing the update for all pairs of residuals.", "anchors": ["msf_updates/include/msf_updates/pose_sensor_handler/pose_measurement.h:PoseMeasurement::CalculateH", "msf_updates/include/msf_updates/pose_sensor_handler/pose_measurement.h:PoseMeasurement::Apply"]}
{"id": "C77", "title": "A relative pose measurement has the residual of the absolute one", "statement": "If the old state predicts the previous pose measurement exactly, the residual of the relative update equals the residual the absolute update would use for the new measurement.", "quantifier": "every pair of pose states and every new measurement", "why_tests_cant": "Continuous space of states, scales and attitudes.", "anchors": ["msf_updates/include/msf_updates/pose_sensor_handler/pose_measurement.h:PoseMeasurement::Apply"]}
{"id": "C78", "title": "A fixed calibration state keeps its value", "statement": "When a reconfigure parameter marks a calibration state of a sensor as fixed (scale, camera or antenna position and attitude, vision frame), no sequence of predictions and measurements of that sensor changes its value.", "quantifier": "every state, covariance, message, relative or absolute measurement and every sequence of steps of a filter with that sensor", "why_tests_cant": "Concerns every run of any length; the value could move through leftover cross covariance, through a forgotten block of the Jacobian or through a sanity check.", "anchors": ["msf_updates/include/msf_updates/pose_sensor_handler/pose_measurement.h:PoseMeasurement::CalculateH", "msf_updates/include/msf_updates/position_sensor_handler/position_measurement.h:PositionMeasurement::Apply", "msf_updates/include/msf_updates/spherical_position_sensor/spherical_measurement.h:DistanceMeasurement::Apply", "msf_core/include/msf_core/implementation/msf_state_inl.h:GenericState_T::ClearCrossCov"]}
{"id": "C79", "title": "The prediction converges to the motion of the body", "statement": "If the IMU reports rate and specific force of a smooth motion plus constant biases that the filter knows, the predicted attitude, velocity and position follow the motion: one step of length h has an error of third order in h, and over every time interval the error is at most a constant times the initial error plus the square of the largest sample distance, for samples at arbitrary times.", "quantifier": "every twice continuously differentiable rate and specific force, every motion that solves the kinematic equations, every state definition, every list of sample times, every initial error", "why_tests_cant": "A limit statement about all motions and all sampling grids; tests sample a few motions at a few rates and cannot distinguish second from first order reliably.", "anchors": ["msf_core/include/msf_core/implementation/msf_core_inl.h:MSF_Core::PropagateState", "msf_core/include/msf_core/eigen_utils.h:OmegaMatJPL"]}
{"id": "C80", "title": "Where the time axis starts does not matter", "statement": "Adding a constant to all time stamps given to a filter (initialization, IMU, external propagation, measurements) shifts all published time stamps by that constant and changes nothing else.", "quantifier": "every kernel (so every shipped or user-defined filter), every sequence of calls of any length and order, every offset", "why_tests_cant": "Concerns pairs of complete runs; a hidden comparison with an absolute time shows only for particular clocks, for example simulated time that starts at zero.", "anchors": ["msf_core/include/msf_core/implementation/msf_core_inl.h:MSF_Core::AddMeasurement", "msf_core/include/msf_core/implementation/msf_core_inl.h:MSF_Core::ProcessIMU", "msf_core/include/msf_core/implementation/msf_core_inl.h:MSF_Core::GetClosestState", "msf_core/include/msf_core/msf_sortedContainer.h:SortedContainer"]}
{"id": "C81", "title": "The filter invents no times", "statement": "Every buffered state, stored or waiting measurement and published state carries a time stamp that one of the calls brought in.", "quantifier": "every kernel, every sequence of calls on a new filter", "why_tests_cant": "An invariant of all executions with delayed, repeated and future stamps, interpolation and clean-up.", "anchors": ["msf_core/include/msf_core/implementation/msf_core_inl.h:MSF_Core::GetClosestState", "msf_core/include/msf_core/implementation/msf_core_inl.h:MSF_Core::ProcessIMU", "msf_core/include/msf_core/implementation/msf_core_inl.h:MSF_Core::AddMeasurement"]}
{"id": "C82", "title": "The origin of the world frame does not matter", "statement": "Moving the origin of the world frame by a constant vector - moving the initial position, the externally propagated positions, the position readings and the vision-frame offset by it - moves all positions the filter ever publishes by that vector and changes nothing else: attitudes, biases, calibration, covariances, accepted and rejected readings stay the same.", "quantifier": "the shipped position, pose, pose-pressure and position-pose filters; every vector, every noise setting, every sequence of calls", "why_tests_cant": "A statement about every execution and every real vector; a test fixes one origin.", "anchors": ["msf_core/include/msf_core/implementation/msf_core_inl.h", "msf_core/include/msf_core/implementation/msf_measurement_inl.h", "msf_updates/include/msf_updates/position_sensor_handler/position_measurement.h:PositionMeasurement::Apply", "msf_updates/include/msf_updates/pose_sensor_handler/pose_measurement.h:PoseMeasurement::Apply"]}
{"id": "C83", "title": "Attitudes are unit quaternions in every run", "statement": "If the initial quaternions and the externally propagated attitudes are unit quaternions, then every quaternion of every buffered and every published state - the attitude and the calibration rotations - is a unit quaternion.", "quantifier": "every augmentation of the core state with plain quaternions, every noise setting, every sanity check that keeps quaternions unit, every sequence of calls with readings of the shipped sensors", "why_tests_cant": "Norm preservation over arbitrarily long mixtures of propagation, delayed re-propagation and correction; a test sees finitely many and only up to rounding.", "anchors": ["msf_core/include/msf_core/implementation/msf_core_inl.h:MSF_Core::PropagateState", "msf_core/include/msf_core/implementation/msf_core_inl.h:MSF_Core::AddMeasurement", "msf_core/include/msf_core/implementation/msf_measurement_inl.h:MSF_MeasurementBase::CalculateAndApplyCorrection", "msf_core/include/msf_core/implementation/msf_state_inl.h:Correct"]}
{"id": "C84", "title": "The fuzzy check alarms on the turn away from the median attitude", "statement": "Once its window is full, the check classifies a correction as fuzzy exactly if the corrected attitude of the non-drifting calibration state is turned away from the median of the window by more than the configured angle: never below the threshold up to the small-angle error, always above it up to the factor between the largest component and the length of the rotation vector.", "quantifier": "every window, attitude, rotation axis, angle below a half turn and threshold", "why_tests_cant": "A decision boundary over real rotations; tests place a few points far from it.", "anchors": ["msf_core/include/msf_core/msf_checkFuzzyTracking.h:CheckFuzzyTracking::Check"]}
{"id": "C85", "title": "Distorted pose readings drift as configured", "statement": "A pose sensor with distortion switched on adds to every message the configured position, scale and attitude drift rates times the time since the first message of that sensor, whatever the message rate; with zero rates the messages are unchanged and distorted attitudes stay unit quaternions.", "quantifier": "every number of sensors, every message sequence and every drawn drift", "why_tests_cant": "Accumulates over unbounded message sequences of several sensors in one process.", "anchors": ["msf_updates/src/msf_distort/PoseDistorter.cc:PoseDistorter::Distort", "msf_updates/include/msf_updates/pose_sensor_handler/pose_measurement.h:PoseMeasurement::MakeFromSensorReadingImpl"]}
{"id": "C86", "title": "A perfect estimate is evaluated as perfect", "statement": "If the estimates are the ground truth motion seen in another world frame and of another body frame, the evaluation reports zero position, attitude and vertical errors for every comparison at equal times.", "quantifier": "every motion, every pair of frames, every message sequence and start point", "why_tests_cant": "All trajectories and sampling patterns; a gap at the start of the comparison is needed to see the failure.", "anchors": ["msf_eval/src/msf_eval.cpp:main"]}
{"id": "C87", "title": "The frames of the evaluation do not matter", "statement": "Expressing the ground truth in another world frame changes nothing in the output of the evaluation; expressing the estimates in another world frame changes nothing but the error of the vertical, and nothing at all if the two frames have the same vertical.", "quantifier": "every pair of message sequences, every rigid transformation", "why_tests_cant": "A statement about pairs of runs for all transformations.", "anchors": ["msf_eval/src/msf_eval.cpp:main"]}
{"id": "C88", "title": "Every synchronized ground truth pose is compared with its closest estimate", "statement": "Each ground truth message with an estimate within the synchronization threshold of 5 ms is compared with the closest estimate; the rows written carry its time, the path length since the start, the errors against the aligned ground truth and the covariance of the estimate, and are spaced by the configured discretization.", "quantifier": "every pair of message sequences", "why_tests_cant": "All interleavings of two clocks.", "anchors": ["msf_eval/src/msf_eval.cpp:main"]}
{"id": "C89", "title": "The evaluation ends", "statement": "The evaluation from successive start points ends for every bag.", "quantifier": "every pair of message sequences with unit quaternions", "why_tests_cant": "Termination of a loop over unbounded inputs.", "anchors": ["msf_eval/src/msf_eval.cpp:main"]}
{"id": "C90", "title": "External states are used only if current, numeric and not in playback", "statement": "An external state changes the filter only through its time and inputs unless it is flagged as current, its first ten entries are numbers and data playback is off; otherwise it is published for its time with its position, velocity and normalized attitude, and it is not lost later.", "quantifier": "every sequence of callbacks (initializations, IMU messages, external states with any contents, measurements) and every numerics of the filter", "why_tests_cant": "Contents of any length with NaN in any place at any point of any run.", "anchors": ["msf_core/include/msf_core/msf_IMUHandler_ROS.h:StateCallback", "msf_core/include/msf_core/implementation/msf_core_inl.h:ProcessExternallyPropagatedState"]}
{"id": "C91", "title": "Corrections bring the external estimator to the state of the filter", "statement": "An external estimator that applies the messages on correction to the state it has sent has the state published by the filter, until it sends its next state.", "quantifier": "every state sent, every past, every sequence of measurements until the next external state", "why_tests_cant": "How many updates fall between two external states depends on the timing.", "anchors": ["msf_core/include/msf_core/msf_sensormanagerROS.h:PublishStateAfterUpdate"]}
{"id": "C92", "title": "A correction compares states of the same time", "statement": "Every message on correction carries the stamp of the external state it was computed from.", "quantifier": "every sequence of external states with increasing stamps and of measurements, late or early", "why_tests_cant": "Any number of delayed and early measurements in any order.", "anchors": ["msf_core/include/msf_core/msf_sensormanagerROS.h:PublishStateAfterUpdate", "msf_core/include/msf_core/msf_sensormanagerROS.h:SetHLControllerStateBuffer", "msf_core/include/msf_core/implementation/msf_core_inl.h:AddMeasurement"]}
{"id": "C93", "title": "Corrections are numbers", "statement": "Every entry of every correction sent is a finite number.", "quantifier": "every sequence of callbacks", "why_tests_cant": "NaN may arrive in any message at any time.", "anchors": ["msf_core/include/msf_core/msf_sensormanagerROS.h:PublishStateAfterUpdate", "msf_core/include/msf_core/msf_IMUHandler_ROS.h:StateCallback"]}
{"id": "C94", "title": "External attitudes need not be normalized", "statement": "Whatever attitude the external estimator sends, all quaternions of all states stay unit quaternions and the states numbers, and the length of the attitude sent does not matter.", "quantifier": "every sequence of callbacks of a shipped filter", "why_tests_cant": "All quaternions over all runs.", "anchors": ["msf_core/include/msf_core/msf_IMUHandler_ROS.h:StateCallback"]}
{"id": "C95", "title": "What is published never goes back in time", "statement": "The stamps of the states published on initialisation, after propagation and after updates never decrease.", "quantifier": "every sequence of initialisations, IMU readings, external states and measurements", "why_tests_cant": "Any interleaving of late, early and rejected measurements with propagation.", "anchors": ["msf_core/include/msf_core/implementation/msf_core_inl.h:ProcessIMU", "msf_core/include/msf_core/implementation/msf_core_inl.h:AddMeasurement", "msf_core/include/msf_core/implementation/msf_core_inl.h:Init"]}
{"id": "C96", "title": "Memory is bounded by about a minute of data", "statement": "The buffers of states and measurements hold about the last 60 s, whatever the length of the run.", "quantifier": "every run of any length", "why_tests_cant": "Needs runs longer than any test, with every mix of calls.", "anchors": ["msf_core/include/msf_core/implementation/msf_core_inl.h:GetClosestState", "msf_core/include/msf_core/implementation/msf_core_inl.h:CleanUpBuffers", "msf_core/include/msf_core/msf_sortedContainer.h:ClearOlderThan"]}
{"id": "C97", "title": "Configured sensor delays are compensated", "statement": "A measurement made from a sensor message has the stamp of the message minus the delay configured last for that sensor; reconfiguring neither loses nor adds measurements; transforms of positions are used one in five, pressures one in ten by sequence number, and no other position or pressure with a usable covariance is dropped.", "quantifier": "every node, every sequence of configurations, services and messages", "why_tests_cant": "Any interleaving of reconfiguration and messages of two sensors with throttling.", "anchors": ["msf_updates/src/pose_msf/pose_sensormanager.h:Config", "msf_updates/src/pose_pressure_msf/pose_pressure_sensormanager.h:Config", "msf_updates/include/msf_updates/pose_sensor_handler/implementation/pose_sensorhandler.hpp:ProcessPoseMeasurement"]}
{"id": "C98", "title": "Every other setting takes effect with the next message", "statement": "Measurement noises, fixed states and the request to reset the pressure zero point take effect with the first message after the configuration.", "quantifier": "every node, every sequence of configurations, services and messages", "why_tests_cant": "Depends on the history of requests and messages before the configuration.", "anchors": ["msf_updates/src/pose_msf/pose_sensormanager.h:Config", "msf_updates/src/pose_pressure_msf/pose_pressure_sensormanager.h:Config", "msf_updates/include/msf_updates/pose_sensor_handler/implementation/pose_sensorhandler.hpp:SetNoises"]}
{"id": "C99", "title": "Initialisation by height uses the last pose", "statement": "A request to initialise by height sets the scale to measured height over given height, with the last pose used, and is refused before the first pose.", "quantifier": "every node with a pose sensor, every sequence of events before the request", "why_tests_cant": "The last used pose depends on throttling and message types of the whole history.", "anchors": ["msf_updates/src/pose_msf/pose_sensormanager.h:Config", "msf_updates/src/pose_msf/pose_sensormanager.h:InitHeight", "msf_updates/src/pose_pressure_msf/pose_pressure_sensormanager.h:Config"]}
{"id": "C100", "title": "IMU messages drive every filter", "statement": "In every shipped node each IMU message and each external state reaches the filter in order and unchanged, so that the filter propagates and applies measurements.", "quantifier": "every shipped node, every sequence of configurations, services and messages", "why_tests_cant": "Holds for all inputs or is a wiring error that tests of the core and the sensors do not see.", "anchors": ["msf_updates/src/spherical_msf/spherical_sensormanager.h:SensorManager", "msf_updates/src/pose_msf/pose_sensormanager.h:PoseSensorManager", "msf_core/include/msf_core/msf_IMUHandler_ROS.h:IMUCallback"]}
{"id": "C101", "title": "Estimates stay numbers with valid covariances", "statement": "In every run, every buffered and every published state consists of numbers and has a symmetric positive semidefinite covariance.", "quantifier": "every sequence of initialisations, IMU readings, external states and measurements, every filter, every sensor setting", "why_tests_cant": "Any length and order of calls, repropagation included.", "anchors": ["msf_core/include/msf_core/implementation/msf_core_inl.h:ProcessIMU", "msf_core/include/msf_core/implementation/msf_core_inl.h:AddMeasurement", "msf_core/include/msf_core/implementation/msf_measurement_inl.h:CalculateAndApplyCorrection"]}
{"id": "C102", "title": "Measurements that agree with the estimate do not move it", "statement": "If every measurement equals what the filter predicts for it from the IMU readings alone, the newest estimate is the one obtained from the IMU readings alone.", "quantifier": "every run with admissible IMU readings and measurements in any order of arrival, every filter and sensor", "why_tests_cant": "Any number of measurements, late arrivals and repropagation.", "anchors": ["msf_core/include/msf_core/implementation/msf_core_inl.h:AddMeasurement", "msf_core/include/msf_core/implementation/msf_core_inl.h:ProcessIMU", "msf_core/include/msf_core/implementation/msf_measurement_inl.h:CalculateAndApplyCorrection"]}
{"id": "C103", "title": "Messages about one state agree", "statement": "All messages sent about a state carry its time and say the same: position, attitude, velocity, biases and covariances in all of them are those of the state, the odometry velocity being the one in the body frame.", "quantifier": "every state with a unit attitude and covariance, every filter, every set of subscribers", "why_tests_cant": "Eight topics with their own conversions, for all values.", "anchors": ["msf_core/include/msf_core/implementation/msf_state_inl.h:ToPoseMsg", "msf_core/include/msf_core/implementation/msf_state_inl.h:ToOdometryMsg", "msf_core/include/msf_core/implementation/msf_state_inl.h:ToFullStateMsg", "msf_core/include/msf_core/msf_sensormanagerROS.h:PublishStateAfterPropagation", "msf_core/include/msf_core/msf_sensormanagerROS.h:PublishStateAfterUpdate"]}
{"id": "C104", "title": "Subscribers do not influence each other", "statement": "A subscriber receives exactly one message per published state, and it is the same whoever subscribes to the other topics.", "quantifier": "every state, every filter, every set of subscribers", "why_tests_cant": "All combinations of subscribers.", "anchors": ["msf_core/include/msf_core/msf_sensormanagerROS.h:PublishStateAfterPropagation", "msf_core/include/msf_core/msf_sensormanagerROS.h:PublishStateAfterUpdate"]}
{"id": "C105", "title": "The heading of the world frame is arbitrary", "statement": "If initial states, externally propagated states and position readings are given in a world frame that is rotated about the vertical axis, every published position, velocity, attitude and covariance is rotated in the same way and nothing else changes: same times, same biases, same rejected measurements.", "quantifier": "every filter with position and pressure sensors, every rotation about the vertical axis, every sequence of calls", "why_tests_cant": "Needs two whole runs for all angles and all inputs.", "anchors": ["msf_core/include/msf_core/implementation/msf_core_inl.h:PropagateState", "msf_core/include/msf_core/implementation/msf_core_inl.h:PredictProcessCovariance", "msf_core/include/msf_core/implementation/calcQCore.h:CalcQCore", "msf_core/include/msf_core/implementation/msf_core_inl.h:ApplyCorrection"]}
{"id": "C106", "title": "The sign of a quaternion does not matter", "statement": "A quaternion and its negative are the same rotation: giving an initial attitude, an external state, a calibration or a measured attitude with the other sign changes no published position, velocity, bias, rotation or covariance, no time and no rejection, at most the sign of published quaternions.", "quantifier": "every shipped filter, every sequence of calls, any choice of signs in it", "why_tests_cant": "Needs all pairs of runs with any subset of signs flipped.", "anchors": ["msf_core/include/msf_core/implementation/msf_core_inl.h:PropagateState", "msf_core/include/msf_core/implementation/calcQCore.h:CalcQCore", "msf_core/include/msf_core/implementation/msf_measurement_inl.h:Apply", "msf_core/include/msf_core/msf_checkFuzzyTracking.h:Check", "msf_updates/src/pose_msf/pose_sensormanager.h:Init"]}
{"id": "C107", "title": "Only differences of relative poses matter", "statement": "The measurements of a pose sensor in relative mode are used as displacements only: expressing all positions and attitudes of such a sensor with respect to another origin and other axes, a different choice for every sensor, changes no published state and no covariance.", "quantifier": "every state definition, every sequence of calls with any mixture of relative and absolute sensors, every change of frame per relative sensor", "why_tests_cant": "Needs pairs of runs for all changes of frame and all inputs.", "anchors": ["msf_updates/include/msf_updates/pose_sensor_handler/pose_measurement.h:Apply", "msf_core/include/msf_core/implementation/msf_core_inl.h:GetPreviousMeasurement", "msf_core/include/msf_core/implementation/msf_core_inl.h:GetAccumulatedStateTransitionStochasticCloning", "msf_core/include/msf_core/implementation/msf_measurement_inl.h:CalculateAndApplyCorrectionRelative"]}
{"id": "C108", "title": "A sensor in relative mode is used", "statement": "A sensor whose handler announces that it handles measurements as relative values contributes to the estimate: what it measures can change what the filter publishes.", "quantifier": "every sensor of the shipped filters, in relative mode or with default parameters, every sequence of calls", "why_tests_cant": "That no run depends on the readings is a claim about all pairs of runs.", "anchors": ["msf_updates/include/msf_updates/position_sensor_handler/position_measurement.h:Apply", "msf_updates/include/msf_updates/position_sensor_handler/implementation/position_sensorhandler.hpp:PositionSensorHandler", "msf_updates/include/msf_updates/spherical_position_sensor/spherical_measurement.h:Apply", "msf_updates/include/msf_updates/spherical_position_sensor/implementation/spherical_sensorhandler.hpp:AngleSensorHandler", "msf_updates/include/msf_updates/pose_sensor_handler/pose_measurement.h:Apply"]}
{"id": "C109", "title": "Spikes of the accelerometer are replaced by the last good reading", "statement": "An acceleration of more than 50 m/s\u00b2 is taken for a spike: its value has no influence on the filter, and the reading is processed as if the last good acceleration had been measured again.", "quantifier": "every filter, every sequence of calls, every spike, IMU readings and external states", "why_tests_cant": "The claim compares all runs that differ in the values of spikes; that the code keeps the reading before the last good one only shows when two neighbouring good readings differ.", "anchors": ["msf_core/include/msf_core/implementation/msf_core_inl.h:ProcessIMU", "msf_core/include/msf_core/implementation/msf_core_inl.h:ProcessExternallyPropagatedState"]}
{"id": "C110", "title": "Initialization takes over what it is given", "statement": "After Init every state variable has the value that was set last for it, or zero or the identity if none was set; time, inputs and covariance are those of the initialization measurement.", "quantifier": "every state definition, every sequence of SetStateInitValue calls, every time, inputs and covariance", "why_tests_cant": "Quantifies over all state definitions and all sequences of settings.", "anchors": ["msf_core/include/msf_core/implementation/msf_measurement_inl.h:MSF_InitMeasurement::Apply", "msf_core/include/msf_core/msf_measurement.h:SetStateInitValue", "msf_core/include/msf_core/msf_tmp.h:CopyInitStates", "msf_core/include/msf_core/implementation/msf_core_inl.h:MSF_Core::Init"]}
{"id": "C111", "title": "Updates are least squares", "statement": "An accepted measurement moves the estimate to the one value that minimises the squared errors of prior and measurement, weighted with their covariances, and adds its information to that of the prior. Several measurements of one instant whose prediction is linear in the state give the same estimate and covariance as one joint least squares fit, in whichever order they are processed; in particular pressure readings, for position, velocity, biases and calibration.", "quantifier": "every state definition, every positive definite prior, every measurement matrix, residual and positive definite noise, every number and order of measurements", "why_tests_cant": "Quantifies over all matrices and all sequences of measurements.", "anchors": ["msf_core/include/msf_core/implementation/msf_measurement_inl.h:CalculateAndApplyCorrection", "msf_updates/include/msf_updates/pressure_sensor_handler/pressure_measurement.h:PressureMeasurement::Apply"]}
{"id": "C112", "title": "The reported covariance is the covariance of the error", "statement": "If the error of a state has the covariance the filter holds for it, and process and measurement noise have the covariances the filter assumes and are uncorrelated with the error, then this stays so through prediction and update: after any sequence of linear predictions and measurements the error has mean zero and exactly the covariance the filter reports. No other linear filter starting from the same estimate has a smaller one.", "quantifier": "every probability space, every distribution of errors and noises with these moments, every state dimension, every sequence of steps of any length", "why_tests_cant": "Expectations over all distributions cannot be tested; simulations only sample some.", "anchors": ["msf_core/include/msf_core/implementation/msf_core_inl.h:MSF_Core::PredictProcessCovariance", "msf_core/include/msf_core/implementation/msf_measurement_inl.h:CalculateAndApplyCorrection"]}
{"id": "C113", "title": "Good measurements are rarely rejected", "statement": "A measurement whose residual is explained by the error and noise covariances of the filter is rejected by the outlier test with probability at most d / threshold^2, where d is its dimension.", "quantifier": "every probability space and distribution, every covariance, measurement matrix and positive threshold", "why_tests_cant": "Quantifies over all distributions, not only Gaussian ones.", "anchors": ["msf_core/include/msf_core/implementation/msf_measurement_inl.h:CalculateAndApplyCorrection"]}
{"id": "C114", "title": "Relative updates are those of a cloned state", "statement": "A relative measurement, the difference between two states at different times, leaves the filter with the covariance of the error it then has, given that the errors of the two states had the covariances the filter holds.", "quantifier": "every state dimension, transition, measurement matrices and noise, every distribution of errors", "why_tests_cant": "Expectations over all distributions and all runs between the two measurements.", "anchors": ["msf_core/include/msf_core/implementation/msf_measurement_inl.h:CalculateAndApplyCorrectionRelative", "msf_core/include/msf_core/implementation/msf_core_inl.h:MSF_Core::GetAccumulatedStateTransitionStochasticCloning"]}
{"id": "C115", "title": "Positions are weighted with the covariance they come with", "statement": "Every position message becomes exactly one measurement if a fixed covariance is configured or the message comes with one, and none otherwise: with the position of the message, its stamp less the delay configured last, and the configured or the stated covariance. The noise matrix of a measurement is a covariance. Initialization starts from the last measured position and says so if there is none.", "quantifier": "every sequence of point, transform and satellite messages and of changes of noise and delay, of any length", "why_tests_cant": "Histories of configuration and messages are unbounded; covariances range over all matrices.", "anchors": ["msf_updates/include/msf_updates/position_sensor_handler/implementation/position_sensorhandler.hpp:ProcessPositionMeasurement", "msf_updates/include/msf_updates/position_sensor_handler/position_measurement.h:MakeFromSensorReadingImpl"]}
{"id": "C116", "title": "A filter starts with the heading of the compass", "statement": "After any message with an orientation or a heading and two seconds without a further one, a position filter that is initialised starts with an attitude whose forward axis points in the horizontal direction that the message tells; without a message the configured heading stays.", "quantifier": "every history of messages of the four topics and of sendings, every orientation and every angle", "why_tests_cant": "Angles and orientations range over continua, with boundary effects at half a turn and near the vertical.", "anchors": ["msf_updates/src/position_msf/init_yaw_from_compass.py:callback_imu", "msf_updates/cfg/SinglePositionSensor.cfg:position_yaw_init", "msf_updates/src/position_msf/position_sensormanager.h:Init"]}
{"id": "C117", "title": "An update moves the estimate towards the measurement and not past it", "statement": "After an update that is not rejected and raises no fuzzy alarm, the measured quantity predicted from the new state is at most as far from the reading as before, in units of the noise of the sensor, is not on the other side of it, and its predicted uncertainty is at most that of the sensor.", "quantifier": "every covariance, every noise, every reading and every state", "why_tests_cant": "The covariance has correlations between all variables; a sample of states does not show for which directions of a correction the nonlinear prediction overshoots.", "anchors": ["msf_core/include/msf_core/implementation/msf_measurement_inl.h:CalculateAndApplyCorrection", "msf_updates/include/msf_updates/position_sensor_handler/position_measurement.h:Apply", "msf_updates/include/msf_updates/spherical_position_sensor/spherical_measurement.h:Apply", "msf_updates/include/msf_updates/pressure_sensor_handler/pressure_measurement.h:Apply"]}
{"id": "C118", "title": "The noise of a pose measurement is the noise of what is stored", "statement": "The noise matrix of a pose measurement is the covariance, to first order, of the error of the stored pose, given the covariance of the errors of the message. In particular, if the pose of a message is inverted, its covariance is turned into that of the inverse.", "quantifier": "all poses with unit quaternions, all symmetric covariances, attitude errors in the axes of the sensor or in fixed axes, both settings of pose_measurement_world_sensor and of pose_use_fixed_covariance", "why_tests_cant": "The covariance enters only the weights of later updates; no output shows whether it is the right one. That it is a valid matrix (C46) can be seen, that it describes the error of the inverse is a statement about derivatives at every pose.", "anchors": ["msf_updates/include/msf_updates/pose_sensor_handler/pose_measurement.h:MakeFromSensorReadingImpl"]}
{"id": "C119", "title": "Sensors tell nothing about what they do not depend on", "statement": "If moving the state in some direction changes none of the predicted readings, then no update with such readings makes the filter more certain in that direction. For example, moving the vehicle, the frame of the camera and the zero point of the pressure sensor together changes neither poses nor pressures, so the filter must not become certain of its absolute position from them.", "quantifier": "all states, covariances, directions, readings and noises; for runs, all sequences of IMU readings, poses and pressures in any order of arrival", "why_tests_cant": "Overconfidence along an unobservable direction shows in no single output: the estimates look smooth and the covariance small. The claim quantifies over all directions of the error state, all covariances and whole histories of updates and predictions.", "anchors": ["msf_updates/include/msf_updates/pose_sensor_handler/pose_measurement.h:CalculateH", "msf_updates/include/msf_updates/pressure_sensor_handler/pressure_measurement.h:Apply", "msf_updates/include/msf_updates/position_sensor_handler/position_measurement.h:CalculateH", "msf_core/include/msf_core/implementation/msf_measurement_inl.h:CalculateAndApplyCorrection", "msf_core/include/msf_core/implementation/msf_core_inl.h:PredictProcessCovariance"]}
{"id": "C120", "title": "Repeated IMU messages have no effect", "statement": "If an IMU message is delivered twice, the filter publishes the same states and goes on with the same states as if it had come once.", "quantifier": "all runs of IMU readings and measurements, all positions and contents of the repeated messages", "why_tests_cant": "A repeated message is harmless or not depending on what was delivered between the two copies, on waiting measurements and on the iterator kept between calls. The claim compares two whole runs; tests compare single results with expected numbers.", "anchors": ["msf_core/include/msf_core/implementation/msf_core_inl.h:ProcessIMU", "msf_core/include/msf_core/implementation/msf_core_inl.h:PropagatePOneStep", "msf_core/include/msf_core/msf_sortedContainer.h:Insert"]}
{"id": "C121", "title": "The unit of length of the camera map does not matter", "statement": "A camera measures positions in a unit of its own, and the pose filters estimate the scale. If the readings of the camera, their noise, the initial scale with its variance and the process noise of the scale are given in another unit, the filter publishes the same states and covariances, only the scale in the other unit.", "quantifier": "all runs of the filters with a scale, all positive factors between the units, all IMU readings, external states and readings of all sensors", "why_tests_cant": "The claim relates two whole runs with different numbers in the measurement matrix, the noise and the covariance. A test compares one run with expected numbers in one unit; constants and matrix entries that carry a hidden unit only show in another unit.", "anchors": ["msf_updates/include/msf_updates/pose_sensor_handler/pose_measurement.h:CalculateH", "msf_updates/src/pose_msf/pose_sensormanager.h:SanityCheckCorrection", "msf_updates/src/pose_msf/pose_sensormanager.h:CalculateQAuxiliaryStates", "msf_core/include/msf_core/implementation/msf_measurement_inl.h:CalculateAndApplyCorrection"]}
{"id": "C122", "title": "The matrices of a relative update are the derivatives of its residual", "statement": "A relative measurement compares the motion between two states with the motion the sensor saw. The two measurement matrices of the update are, with opposite sign, the derivatives of the residual with respect to the errors of the older and of the newer state. So a measured motion pulls the estimate towards the motion that was measured.", "quantifier": "all state definitions with poses, all pairs of states with unit quaternions, all pairs of pose messages, covariances, transitions and settings of the fixed variables, all pairs of error directions", "why_tests_cant": "A derivative along all directions at all pairs of states is not a finite set of outputs. Relative measurements depend on two states, two messages and a transition; a test of positions alone passes while the attitude rows have the wrong sign.", "anchors": ["msf_updates/include/msf_updates/pose_sensor_handler/pose_measurement.h:Apply", "msf_updates/include/msf_updates/pose_sensor_handler/pose_measurement.h:CalculateH", "msf_core/include/msf_core/implementation/msf_measurement_inl.h:CalculateAndApplyCorrectionRelative"]}
{"id": "C123", "title": "Poses without a covariance are not taken as exact", "statement": "A pose message becomes one measurement if it does not come too soon after the last one used and its noise is known: a fixed covariance is configured or the message carries one. The measurement has the pose of the message, or the inverse for sensors that report the world, the time of the message less the delay set last, and a noise matrix in which no direction is exact: the configured or the stated noise. A message whose covariance is unknown (all zero) is not used without a fixed covariance, and never as if it were exact.", "quantifier": "all histories of messages of the four types and changes of noise and delay, all stamps, unit attitudes and covariances, both directions of the pose, with and without fixed covariance", "why_tests_cant": "The outcome depends on the whole history through the throttle and the settings, on all covariances and on the type of the message. A test with a driver that fills in its covariance never sees the zero matrix, and one with a single such message sees no error: the matrix becomes singular with the second.", "anchors": ["msf_updates/include/msf_updates/pose_sensor_handler/implementation/pose_sensorhandler.hpp:ProcessPoseMeasurement", "msf_updates/include/msf_updates/pose_sensor_handler/pose_measurement.h:MakeFromSensorReadingImpl", "msf_core/include/msf_core/implementation/msf_measurement_inl.h:CalculateAndApplyCorrection"]}
{"id": "C124", "title": "Prediction makes nothing more certain", "statement": "Between measurements the filter learns nothing. Predicting the covariance from one IMU reading to the next never shrinks the volume of the region in which the true state is expected (the determinant of the covariance), and no combination of states that was uncertain becomes certain.", "quantifier": "All filters, all states, readings, time steps, covariances and noise parameters.", "why_tests_cant": "The determinant of a 15x15 or larger matrix depends on all entries of transition, noise and covariance; tests look at single variances, which grow in the usual cases, and the loss shows only for special ratios of the variances.", "anchors": ["msf_core/include/msf_core/implementation/msf_core_inl.h:MSF_Core::PredictProcessCovariance", "msf_core/include/msf_core/implementation/calcQCore.h:CalcQCore"]}
{"id": "C125", "title": "The condition number tells whether the pairs determine the similarity transform", "statement": "The condition number of the average similarity transform is finite exactly if the pairs determine the transform, and then at least one.", "quantifier": "every list of at least two pose pairs with unit orientations", "why_tests_cant": "Degenerate configurations form a thin set that tests hit only if their author knows them; the statement is about all of them.", "anchors": ["msf_core/src/similaritytransform.cc:From6DoF::Compute"]}
{"id": "C126", "title": "The similarity transform does not depend on the order of the pairs or the heading of the world", "statement": "Adding the pairs in another order, or expressing all poses in a turned world frame, changes neither the transform nor the condition number.", "quantifier": "every list of pairs, every permutation, every rotation", "why_tests_cant": "A statement about pairs of inputs for all permutations and rotations.", "anchors": ["msf_core/src/similaritytransform.cc:From6DoF::Compute", "msf_core/src/similaritytransform.cc:From6DoF::AddMeasurement"]}
{"id": "C127", "title": "Angle and distance messages become measurements, and the filter starts at the measured place", "statement": "Every message on the angle and distance topics becomes exactly one measurement with the delay and noise configured last; on initialisation the filter starts at the place the sensors have measured, for every initial yaw and offset of the sensor.", "quantifier": "every sequence of messages and settings, every trajectory", "why_tests_cant": "The stored readings depend on the whole history of two unsynchronized topics.", "anchors": ["msf_updates/include/msf_updates/spherical_position_sensor/implementation/spherical_sensorhandler.hpp:AngleSensorHandler::MeasurementCallback", "msf_updates/include/msf_updates/spherical_position_sensor/implementation/spherical_sensorhandler.hpp:DistanceSensorHandler::MeasurementCallback", "msf_updates/src/spherical_msf/spherical_sensormanager.h:Init"]}
{"id": "C128", "title": "A constant offset of the IMU is the same as a bias", "statement": "If constants are added to all accelerations and angular velocities the filter gets, and the initial biases are larger by the same constants, then the filter publishes the same positions, velocities, attitudes, auxiliary states and covariances at the same times, with biases that are larger by these constants.", "quantifier": "every offset, every sequence of calls and measurements, every platform, every noise setting", "why_tests_cant": "A relation between two complete runs for all offsets; a test compares single runs.", "anchors": ["msf_core/include/msf_core/implementation/msf_core_inl.h:ProcessIMU", "msf_core/include/msf_core/implementation/msf_core_inl.h:PropagateState", "msf_core/include/msf_core/implementation/msf_core_inl.h:PredictProcessCovariance"]}
{"id": "C129", "title": "The process noise of the core states cannot be set through the state", "statement": "A filter sets the process noise of its auxiliary states in CalculateQAuxiliaryStates through GetQBlock<i>() of the state. For core states (position, velocity, attitude, biases) this is not allowed: the assignment does not compile, and their noise blocks can only be read, through the const version of GetQBlock. Whatever happens to these blocks, the states and covariances that are computed and published depend only on the four noise parameters of the IMU and on the blocks of the auxiliary states.", "quantifier": "all state definitions with any auxiliary states, all managers and all assignments depending on state and interval, all environments and all sequences of calls, with absolute and with relative measurements", "why_tests_cant": "What compiles is not part of a unit test, and a test of one manager says nothing about the blocks another manager may write; that a written block has no effect on any run is a statement about all runs.", "anchors": ["msf_core/include/msf_core/implementation/msf_state_inl.h:79-109", "msf_core/include/msf_core/msf_state.h:60-70", "msf_core/include/msf_core/msf_tmp.h:853-907", "msf_core/include/msf_core/implementation/msf_core_inl.h:520-538"]}
{"id": "C130", "title": "The relay node passes on exactly the enabled messages", "statement": "The node msf_distort publishes, in the order of arrival and unchanged, exactly those pose, transform, GPS and point messages whose kind is enabled when they arrive, each on the output of its own topic. With the default configuration nothing is held back.", "quantifier": "all initial configurations, all sequences of messages on the five topics and of changes of the configuration, all message contents", "why_tests_cant": "Outages are simulated by switching at arbitrary times; a test tries a few interleavings of messages and changes.", "anchors": ["msf_distort/src/msf_distort.cc:53-86", "msf_distort/cfg/MSF_Distort.cfg:46-47"]}
{"id": "C131", "title": "The numbering of the sensors does not matter", "statement": "The ids that the sensor manager gives to the handlers, which follow from the order in which they are registered, have no influence on what is published. With absolute measurements this holds for any numbering, with relative measurements for any numbering that keeps different sensors apart.", "quantifier": "all filters, all trees of the buffers, all numberings, all sequences of calls with or without spikes and delayed measurements", "why_tests_cant": "Ids are compared while searching the measurement buffer; a test runs a few orders of registration with one sequence of measurements.", "anchors": ["msf_core/include/msf_core/msf_sensormanager.h:74-77", "msf_core/include/msf_core/implementation/msf_core_inl.h:722-738"]}
{"id": "C132", "title": "An early measurement has the same effect as one that arrives in time", "statement": "It makes no difference whether a measurement that is ahead of the newest state arrives just before or just after the IMU reading or external state that follows: what is buffered, waits and is published afterwards is the same.", "quantifier": "all filters, absolute and relative measurements, all trees of the buffers, all calls before and afterwards, all measurement and reading times", "why_tests_cant": "The early measurement takes a different path through a queue that is emptied one entry per reading; a test runs one interleaving with one measurement.", "anchors": ["msf_core/include/msf_core/implementation/msf_core_inl.h:312-319", "msf_core/include/msf_core/implementation/msf_core_inl.h:610-616"]}
