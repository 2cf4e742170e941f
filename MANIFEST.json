{
 "claims": [
  {
   "property": "C01",
   "status": "proved",
   "theorems": [
    "MSF.C01_buffer_is_ordered_map",
    "MSF.C01_runs_succeed"
   ],
   "note": "Refinement of an abstract map over arbitrary operation sequences."
  },
  {
   "property": "C02",
   "status": "proved",
   "theorems": [
    "MSF.C02_closest_is_nearest",
    "MSF.C02_before_after"
   ],
   "note": "Times other than the reserved INVALID_TIME (-1)."
  },
  {
   "property": "C03",
   "status": "partial",
   "theorems": [
    "MSF.C03_iterator_query_agrees_partial",
    "MSF.C03_violated"
   ],
   "note": "False as stated: on libstdc++ a two-element tree whose root is the smaller element makes GetIteratorClosest return begin(). Proved for all other buffers."
  },
  {
   "property": "C04",
   "status": "partial",
   "theorems": [
    "MSF.C04_violated",
    "MSF.C04_defined_queries_partial"
   ],
   "note": "False as stated: every GetIteratorClosest without an exact hit decrements begin(). The defined queries are characterised."
  },
  {
   "property": "C05",
   "status": "proved",
   "theorems": [
    "MSF.C05_cleanup_keeps_recent"
   ],
   "note": "Any platform on which the call is defined, ages >= 0."
  },
  {
   "property": "C06",
   "status": "partial",
   "theorems": [
    "MSF.C06_retime_partial",
    "MSF.C06_violated"
   ],
   "note": "False as stated when the target time is occupied. Proved when it is free."
  },
  {
   "property": "C09",
   "status": "proved",
   "theorems": [
    "MSF.C09_delayed_equals_batch",
    "MSF.C09_arrival_order",
    "MSF.C09_position_filter",
    "MSF.C09_without_fuzzy_states",
    "MSF.C09_times_any_numerics"
   ],
   "note": "Every kernel meeting Kernel.Regular (outlier rejection included), every tree shape, every admissible call sequence; refinement of the batch filter in Spec/Batch.lean. C09_position_filter instantiates it with the modelled numerics of the position and spherical filters (filterKernel_regular); C09_without_fuzzy_states covers every shipped filter as long as isfuzzyState_ is never set; C09_times_any_numerics needs no hypothesis on the numerics."
  },
  {
   "property": "C10",
   "status": "proved",
   "theorems": [
    "MSF.C10_consistent_trajectory",
    "MSF.C10_without_fuzzy_states"
   ],
   "note": "Same setting as C09, Kernel.Regular included; C10_without_fuzzy_states for every shipped filter."
  },
  {
   "property": "C11",
   "status": "proved",
   "theorems": [
    "MSF.C11_published_is_current",
    "MSF.C11_without_fuzzy_states"
   ],
   "note": "The complete stream of published events equals the specified one; for kernels meeting Kernel.Regular."
  },
  {
   "property": "C12",
   "status": "proved",
   "theorems": [
    "MSF.C12_future_measurements_wait",
    "MSF.C12_any_numerics"
   ],
   "note": "No loss (multiset equality) and bounded waiting; for kernels meeting Kernel.Regular, or any numerics when no measurement is rejected."
  },
  {
   "property": "C20",
   "status": "partial",
   "theorems": [
    "MSF.C20_no_undefined_behaviour_partial",
    "MSF.C20_position_filter_partial",
    "MSF.C20_any_numerics_partial",
    "MSF.C20_every_kernel_partial",
    "MSF.C20_relative_partial",
    "MSF.C20_prompt_is_timely",
    "MSF.C20_stamps_partial",
    "MSF.C20_stamps_relative_partial",
    "MSF.C20_violated",
    "MSF.C20_violated_std",
    "MSF.C20_mixed_violated"
   ],
   "note": "False as stated (measurement more than 60 s late; strict platform; an IMU reading after the first externally propagated state). Proved for every kernel whatever it computes, with absolute and relative measurements, for IMU readings and measurements out of order, if the calls are timely: no measurement more than 60 s older than a buffered one, and the conditions of C19 on IMU readings."
  },
  {
   "property": "C21",
   "status": "proved",
   "theorems": [
    "MSF.C21_interpolation_order_independent"
   ],
   "note": "Any list of requests, any order."
  },
  {
   "property": "C23",
   "status": "proved",
   "theorems": [
    "MSF.C23_cleanup_keeps_trajectory"
   ],
   "note": "Any kernel, any sorted buffers."
  },
  {
   "property": "C07",
   "status": "proved",
   "theorems": [
    "MSF.C07_nothing_before_init",
    "MSF.C07_no_measurement_before_prediction",
    "MSF.C07_two_predictions_not_enough",
    "MSF.C07_relative_nothing_before_init",
    "MSF.C07_relative_no_measurement_before_prediction",
    "MSF.C07_relative_two_predictions_not_enough"
   ],
   "note": "Any platform, any kernel, any call sequence, with absolute and relative measurements."
  },
  {
   "property": "C08",
   "status": "proved",
   "theorems": [
    "MSF.C08_init_forgets",
    "MSF.C08_same_future"
   ],
   "note": "The function-local static last_am is excluded, see C55."
  },
  {
   "property": "C13",
   "status": "proved",
   "theorems": [
    "MSF.C13_too_old_ignored"
   ],
   "note": "Any platform and kernel."
  },
  {
   "property": "C14",
   "status": "partial",
   "theorems": [
    "MSF.C14_counted_once_partial",
    "MSF.C14_violated",
    "MSF.C14_close_violated",
    "MSF.C14_violated_two_sensors",
    "MSF.C14_same_stamp_ignores_contents"
   ],
   "note": "False as stated for measurements with equal stamps, and for measurements of one state that arrive in the wrong order. Proved when measurements are more than 2 ms apart."
  },
  {
   "property": "C15",
   "status": "partial",
   "theorems": [
    "MSF.C15_rejected_no_effect_partial",
    "MSF.C15_reading_partial",
    "MSF.C15_fixed_violated",
    "MSF.C15_violated",
    "MSF.C15_violated_order",
    "MSF.C15_between_violated"
   ],
   "note": "False as stated for rejected measurements older than an applied one, for those between IMU stamps, whose interpolated state stays in the buffer and changes the integration, and for sensors with fixed states, whose correlations are removed before the test. Proved for those at an IMU stamp and in time order. C15_reading_partial shows for the shipped sensors without fixed states that the Mahalanobis test is what rejects, and that nothing changes then."
  },
  {
   "property": "C16",
   "status": "partial",
   "theorems": [
    "MSF.C16_no_nearby_state_partial",
    "MSF.C16_violated"
   ],
   "note": "False as stated when a newer measurement is buffered."
  },
  {
   "property": "C17",
   "status": "proved",
   "theorems": [
    "MSF.C17_backward_jump_stops",
    "MSF.C17_only_backward_jump_stops",
    "MSF.C17_predictions_keep_running",
    "MSF.C17_relative_backward_jump_stops",
    "MSF.C17_relative_only_backward_jump_stops",
    "MSF.C17_relative_predictions_keep_running"
   ],
   "note": "Any platform and kernel, any later call sequence, with absolute and relative measurements."
  },
  {
   "property": "C18",
   "status": "partial",
   "theorems": [
    "MSF.C18_new_state_covariance_partial",
    "MSF.C18_violated"
   ],
   "note": "False as stated for readings older than the newest state."
  },
  {
   "property": "C19",
   "status": "partial",
   "theorems": [
    "MSF.C19_imu_safe_partial",
    "MSF.C19_every_kernel_partial",
    "MSF.C19_violated",
    "MSF.C19_gap_violated",
    "MSF.C20_mixed_violated"
   ],
   "note": "False as stated for every gap of more than 0.1 s after Init (all kernels, platforms and stamps), and for a reading after an externally propagated state (C20_mixed_violated). Proved for readings at most 0.1 s apart, in any order, whatever the kernel computes."
  },
  {
   "property": "C22",
   "status": "partial",
   "theorems": [
    "MSF.C22_previous_measurement_partial",
    "MSF.C22_violated",
    "MSF.C22_run_violated"
   ],
   "note": "False as stated for one shape of a two-element tree; a run in which the relative measurement is lost for that reason is C22_run_violated."
  },
  {
   "property": "C55",
   "status": "partial",
   "theorems": [
    "MSF.C55_violated",
    "MSF.C08_same_future"
   ],
   "note": "False as stated: static last_am survives Init. C08_same_future is the part that holds."
  },
  {
   "property": "C24",
   "status": "proved",
   "theorems": [
    "MSF.C24_attitude_stays_unit",
    "MSF.C24_chain"
   ],
   "note": "Real arithmetic. The chain theorem covers any number of steps."
  },
  {
   "property": "C25",
   "status": "proved",
   "theorems": [
    "MSF.C25_nonpropagated_copied",
    "MSF.C25_inputs_kept"
   ],
   "note": "Every state definition with the core states first."
  },
  {
   "property": "C26",
   "status": "proved",
   "theorems": [
    "MSF.C26_constant_acceleration",
    "MSF.C26_subdivision"
   ],
   "note": "Any subdivision into any number of steps."
  },
  {
   "property": "C27",
   "status": "partial",
   "theorems": [
    "MSF.C27_series_partial",
    "MSF.C27_error_partial",
    "MSF.C27_axis_partial",
    "MSF.C27_violated"
   ],
   "note": "False as stated: the code divides the k-th term by k instead of k factorial. Proved: the series the code computes, an entrywise error bound against the Taylor polynomial, and the rotation axis."
  },
  {
   "property": "C32",
   "status": "proved",
   "theorems": [
    "MSF.C32_biases_fixed",
    "MSF.C32_shipped_sanity",
    "MSF.C32_run",
    "MSF.C32_relative"
   ],
   "note": "C32_relative covers runs with relative measurements. C32_run is for whole runs of the concrete filter. Any augmentation; the sanity check may be any function that does not touch the biases, which holds for the shipped ones."
  },
  {
   "property": "C33",
   "status": "proved",
   "theorems": [
    "MSF.C33_small_angle_unit",
    "MSF.C33_small_angle_axis",
    "MSF.C33_corrected_unit"
   ],
   "note": "Real arithmetic."
  },
  {
   "property": "C35",
   "status": "proved",
   "theorems": [
    "MSF.C35_compiles_iff",
    "MSF.C35_partition",
    "MSF.C35_core_ordering"
   ],
   "note": "Every state list, every length function."
  },
  {
   "property": "C36",
   "status": "proved",
   "theorems": [
    "MSF.C36_correct",
    "MSF.C36_apply_correction",
    "MSF.C36_apply_correction_pose"
   ],
   "note": "Every state list whose definition compiles."
  },
  {
   "property": "C37",
   "status": "partial",
   "theorems": [
    "MSF.C37_full_state",
    "MSF.C37_full_length",
    "MSF.C37_full_determines",
    "MSF.C37_core_state",
    "MSF.C37_core_determines",
    "MSF.C37_core_not_first_violated"
   ],
   "note": "Full array: proved for every definition. Core array: proved when the core states come first, false otherwise (out of range write)."
  },
  {
   "property": "C28",
   "status": "proved",
   "theorems": [
    "MSF.C28_update_psd",
    "MSF.C28_chain",
    "MSF.C28_never_fails"
   ],
   "note": "Any dimension, any gain, any PSD noise; real arithmetic with the in-place symmetrisation of the code. The chain theorem covers any number of updates."
  },
  {
   "property": "C30",
   "status": "proved",
   "theorems": [
    "MSF.C30_update_decreases",
    "MSF.C30_optimal_gain"
   ],
   "note": "Any dimension, symmetric PSD prior, positive definite noise."
  },
  {
   "property": "C31",
   "status": "proved",
   "theorems": [
    "MSF.C31_outlier_ignored",
    "MSF.C31_inlier_applied",
    "MSF.mahRejects_iff",
    "MSF.C31_negative_threshold"
   ],
   "note": "Non-negative thresholds; a negative threshold rejects everything."
  },
  {
   "property": "C34",
   "status": "partial",
   "theorems": [
    "MSF.C34_violated",
    "MSF.C34_relative_psd_partial",
    "MSF.C34_commuting",
    "MSF.C34_buffered",
    "MSF.C34_shipped_partial"
   ],
   "note": "False as stated: the accumulated transition is multiplied in the wrong order. Proved when the accumulated product equals the true transition, for instance for a single step or commuting transitions; then also for the shipped filters on the buffer: prediction over any number of states followed by a relative pose. C34_buffered: the update gets the transitions of exactly the steps between the two states, and the covariances predicted over the same steps."
  },
  {
   "property": "C38",
   "status": "proved",
   "theorems": [
    "MSF.C38_clear_cross_cov",
    "MSF.C38_decoupled_update",
    "MSF.C38_fixed_state_decoupled"
   ],
   "note": "Every compiling state definition."
  },
  {
   "property": "C39",
   "status": "partial",
   "theorems": [
    "MSF.C39_violated",
    "MSF.C39_column_major",
    "MSF.C39_pose_covariance_partial"
   ],
   "note": "False as stated for asymmetric covariances: the array is column-major. Proved for symmetric covariances."
  },
  {
   "property": "C56",
   "status": "partial",
   "theorems": [
    "MSF.C56_violated",
    "MSF.C56_update_violated",
    "MSF.C56_asymmetry_shrinks_partial"
   ],
   "note": "False as stated: the in-place expression aliases. Proved: the asymmetry is divided by four and symmetric matrices are unchanged."
  },
  {
   "property": "C57",
   "status": "proved",
   "theorems": [
    "MSF.C57_covariance_messages",
    "MSF.C57_messages_determine"
   ],
   "note": "Every state definition."
  },
  {
   "property": "C58",
   "status": "proved",
   "theorems": [
    "MSF.C58_twist_covariance"
   ],
   "note": "PSD covariance, core states first; also the angular rate block."
  },
  {
   "property": "C29",
   "status": "partial",
   "theorems": [
    "MSF.C29_prediction_psd_partial",
    "MSF.C29_violated_hover",
    "MSF.C29_violated_bias_noise"
   ],
   "note": "False as stated: eight entries of the process noise are never assigned although their mirror images are, and the truncated expansion is indefinite for large bias noise. Proved without gyro noise or at rest, with n_ba dt <= 3 n_a, for every state definition and history."
  },
  {
   "property": "C59",
   "status": "partial",
   "theorems": [
    "MSF.C59_noise_integral_no_gyro_noise_partial",
    "MSF.C59_noise_integral_at_rest_partial",
    "MSF.C59_noise_integral_blocks_partial",
    "MSF.C59_violated_gyro_noise",
    "MSF.lyap3_solves"
   ],
   "note": "False as stated: gyro noise enters the velocity at first order in the time step. Proved without gyro noise, at rest, and for the listed blocks for all inputs."
  },
  {
   "property": "C60",
   "status": "proved",
   "theorems": [
    "MSF.C60_transition_second_order",
    "MSF.C60_transition_exact_without_rotation",
    "MSF.C60_auxiliary_constant"
   ],
   "note": "Every state definition with the core states first, every history of predictions."
  },
  {
   "property": "C61",
   "status": "proved",
   "theorems": [
    "MSF.C61_predict_again"
   ],
   "note": "Every state definition with the core states first, every history."
  },
  {
   "property": "C40",
   "status": "proved",
   "theorems": [
    "MSF.C40_window",
    "MSF.C40_full_window",
    "MSF.C40_no_early_alarm"
   ],
   "note": "Every sequence of checks and resets; C40_no_early_alarm for runs of the whole filter."
  },
  {
   "property": "C41",
   "status": "proved",
   "theorems": [
    "MSF.C41_check",
    "MSF.C41_apply_correction"
   ],
   "note": "The check restores every non-temporal-drift state and leaves the window; ApplyCorrection returns early."
  },
  {
   "property": "C42",
   "status": "proved",
   "theorems": [
    "MSF.C42_median",
    "MSF.C42_median_exists",
    "MSF.C42_order_independent",
    "MSF.C42_rank"
   ],
   "note": "Any linear order."
  },
  {
   "property": "C52",
   "status": "partial",
   "theorems": [
    "MSF.Timing.C52_statistics_partial",
    "MSF.Timing.C52_violated_max",
    "MSF.Timing.C52_violated_overflow"
   ],
   "note": "False as stated: the maximum starts at the smallest positive double and counters are 32 bit. Everything else proved."
  },
  {
   "property": "C53",
   "status": "proved",
   "theorems": [
    "MSF.Timing.C53_handles",
    "MSF.Timing.C53_get_tag"
   ],
   "note": "Every sequence of requests and resets."
  },
  {
   "property": "C62",
   "status": "partial",
   "theorems": [
    "MSF.C62_steady_not_fuzzy_partial",
    "MSF.C62_violated"
   ],
   "note": "False as stated: the component-wise median mixes the signs of q and -q. Proved when the representation is steady."
  },
  {
   "property": "C63",
   "status": "partial",
   "theorems": [
    "MSF.Timing.C63_shown_partial",
    "MSF.Timing.C63_violated"
   ],
   "note": "False as stated: whole minutes are not printed. Proved below one minute."
  },
  {
   "property": "C54",
   "status": "proved",
   "theorems": [
    "MSF.C54_round_trip",
    "MSF.C54_overlap"
   ],
   "note": "Every block, every pair of documented block positions; overlapping undocumented positions do not round-trip."
  },
  {
   "property": "C64",
   "status": "proved",
   "theorems": [
    "MSF.C64_optimal",
    "MSF.C64_exact"
   ],
   "note": "Eigen's symmetric eigensolver and SVD are assumed correct (such solvers exist: correct_solvers_exist); no singular value lies strictly between 0 and the cut-off."
  },
  {
   "property": "C45",
   "status": "proved",
   "theorems": [
    "MSF.C45_rate_limit",
    "MSF.C45_accepts",
    "MSF.C45_unusable",
    "MSF.C45_rate_bound"
   ],
   "note": "Every message sequence, any minimum_dt."
  },
  {
   "property": "C47",
   "status": "partial",
   "theorems": [
    "MSF.GPS.C47_reference_zero",
    "MSF.GPS.C47_distance",
    "MSF.GPS.C47_orientation",
    "MSF.GPS.C47_up",
    "MSF.GPS.C47_east",
    "MSF.GPS.C47_north",
    "MSF.GPS.C47_adjust_partial",
    "MSF.GPS.C47_adjust_violated",
    "MSF.GPS.C47_adjust_altitude_violated"
   ],
   "note": "Rigid frame proved for all references. Adjusting the reference is wrong away from the poles: it moves the ECEF z coordinate."
  },
  {
   "property": "C49",
   "status": "partial",
   "theorems": [
    "MSF.C49_overlap_violated",
    "MSF.C49_raw_violated",
    "MSF.C49_startup_violated",
    "MSF.C49_decimation_partial",
    "MSF.C49_every_tenth_partial",
    "MSF.C49_average_partial"
   ],
   "note": "False as stated: overlapping memcpy, the average is never used, and it starts with zeros. Proved with memmove semantics: decimation and the value of the average after ten readings."
  },
  {
   "property": "C50",
   "status": "proved",
   "theorems": [
    "MSF.C50_unique",
    "MSF.C50_last",
    "MSF.C50_defined"
   ],
   "note": "Every sequence of AddHandler calls."
  },
  {
   "property": "C51",
   "status": "partial",
   "theorems": [
    "MSF.C51_correction_partial",
    "MSF.C51_initial_violated",
    "MSF.C51_short_violated",
    "MSF.C51_playback"
   ],
   "note": "False for the initial all-zero buffer and for short state messages. Proved for buffers of at least 16 entries with non-zero quaternion."
  },
  {
   "property": "C65",
   "status": "partial",
   "theorems": [
    "MSF.C65_first_dropped_violated",
    "MSF.C65_backward_stuck_violated",
    "MSF.C45_accepts"
   ],
   "note": "False as stated; what does hold after an accepted measurement is C45_accepts."
  },
  {
   "property": "C66",
   "status": "partial",
   "theorems": [
    "MSF.C66_first_partial",
    "MSF.C66_constant_partial",
    "MSF.C66_second_violated"
   ],
   "note": "False as stated: the flag is a function-local static. Proved for the first handler."
  },
  {
   "property": "C44",
   "status": "partial",
   "theorems": [
    "MSF.C44_position",
    "MSF.C44_pressure",
    "MSF.C44_pose_partial",
    "MSF.C44_pwv_violated",
    "MSF.C44_yaw_violated",
    "MSF.C44_pose_violated",
    "MSF.C44_distance_partial",
    "MSF.C44_angle_partial",
    "MSF.C44_distance_violated",
    "MSF.C44_distance_offset_violated",
    "MSF.C44_distance_rotation_violated",
    "MSF.C44_angle_violated",
    "MSF.C44_angle_offset_violated"
   ],
   "note": "Position and pressure proved for every state. Pose: false as stated, the p_wv block ignores scale and attitude of the vision frame and the yaw row is zero; proved for directions without these. Angle and distance: false as stated, the Jacobian is taken at the IMU position and with the transposed rotation; proved for a sensor at the IMU."
  },
  {
   "property": "C46",
   "status": "partial",
   "theorems": [
    "MSF.C46_inverse_partial",
    "MSF.C46_world",
    "MSF.C46_noise",
    "MSF.C46_position_noise",
    "MSF.C46_fixed_violated"
   ],
   "note": "False as stated: with a fixed covariance the message is never inverted. Proved when the covariance is taken from the message."
  },
  {
   "property": "C48",
   "status": "partial",
   "theorems": [
    "MSF.C48_bearing_partial",
    "MSF.C48_behind_violated",
    "MSF.C48_wrap_violated",
    "MSF.C48_violated",
    "MSF.C48_zenith_undefined"
   ],
   "note": "False as stated on the negative x axis and for angles more than one turn off. Proved off that half-plane and for measured azimuths of absolute value at most 2 pi."
  },
  {
   "property": "C43",
   "status": "partial",
   "theorems": [
    "MSF.C43_pose",
    "MSF.C43_position",
    "MSF.C43_distance",
    "MSF.C43_angle_partial",
    "MSF.C43_angle_violated",
    "MSF.C43_pose_pressure_partial",
    "MSF.C43_pressure_violated",
    "MSF.C43_position_pose_partial",
    "MSF.C43_position_pose_violated"
   ],
   "note": "Pose, position and distance: residual zero for all inputs. False as stated for the angle sensor on and behind the negative x half-plane, for the pressure when the camera lever arm is rotated, and for the yaw row of the position-pose manager; the partial theorems cover the rest."
  },
  {
   "property": "C67",
   "status": "partial",
   "theorems": [
    "MSF.C67_initial_covariance_partial",
    "MSF.C67_violated",
    "MSF.C67_claim_violated"
   ],
   "note": "False as stated: the table is not symmetric and the symmetrisation aliases. Proved: the quadratic form is never negative, auxiliary states start independent."
  },
  {
   "property": "C68",
   "status": "partial",
   "theorems": [
    "MSF.C68_variance_partial",
    "MSF.C68_gyro_bias_violated",
    "MSF.C68_gyro_bias_uncorrectable"
   ],
   "note": "False as stated for the gyro bias, whose rows and columns are zero. Proved for every other error state."
  },
  {
   "property": "C69",
   "status": "partial",
   "theorems": [
    "MSF.C69_violated",
    "MSF.C69_joseph_partial",
    "MSF.C28_update_psd"
   ],
   "note": "False as stated: witness measuring p_x-p_y-p_z. Proved: the Joseph expression before the aliasing symmetrisation has a non-negative quadratic form; from a symmetric PSD covariance the whole update does (C28)."
  },
  {
   "property": "C70",
   "status": "partial",
   "theorems": [
    "MSF.C70_drift_partial",
    "MSF.C70_violated"
   ],
   "note": "False as stated: the managers use 9.81, the propagation 9.80834. Proved: the exact drift, for every manager and time step."
  },
  {
   "property": "C71",
   "status": "partial",
   "theorems": [
    "MSF.C71_service_partial",
    "MSF.C71_service_violated",
    "MSF.C71_config_violated"
   ],
   "note": "False as stated for a sensor at height zero (service) and for a requested height of zero (checkbox). Proved for all other inputs of the service."
  },
  {
   "property": "C72",
   "status": "partial",
   "theorems": [
    "MSF.C72_scale_partial",
    "MSF.C72_run_partial",
    "MSF.C72_relative_partial",
    "MSF.C72_init_violated"
   ],
   "note": "False as stated at initialization: negative scales are accepted. Proved: a non-negative scale stays so through every sequence of steps, and in whole runs with absolute and relative measurements (C72_relative_partial)."
  },
  {
   "property": "C73",
   "status": "partial",
   "theorems": [
    "MSF.C73_rate_partial",
    "MSF.C73_pose",
    "MSF.C73_position",
    "MSF.C73_pose_pressure_violated",
    "MSF.C73_position_pose_violated"
   ],
   "note": "False as stated for two managers that ignore one of their noise parameters. Proved for the pose and the position/spherical managers; C73_rate_partial is the rate for every manager in terms of the noise blocks it sets."
  },
  {
   "property": "C74",
   "status": "partial",
   "theorems": [
    "MSF.C74_position_filter_partial",
    "MSF.C74_without_fuzzy_states_partial",
    "MSF.FuzzyOrder.C74_arrival_order_violated"
   ],
   "note": "False as stated: re-applied measurements fill the window of the fuzzy-tracking check, which then undoes a correction. The witness runs the modelled core and check on an attitude-only state. Proved for filters without a non-drifting attitude, and for every shipped filter in runs that never set isfuzzyState_."
  },
  {
   "property": "C75",
   "status": "partial",
   "theorems": [
    "MSF.C75_exact_pose_partial",
    "MSF.C75_violated"
   ],
   "note": "False as stated: the yaw residual of the vision frame enters the Mahalanobis distance with weight 1000 although its row of the Jacobian is zero. Proved: the exact condition under which a predicted pose is rejected (no state fixed)."
  },
  {
   "property": "C76",
   "status": "partial",
   "theorems": [
    "MSF.C76_yaw_value_violated",
    "MSF.C76_yaw_stays_violated"
   ],
   "note": "False: the row of the Jacobian is zero. Proved: the yaw residual has no influence on any accepted update, for every state, covariance and message, and a witness run in which the yaw stays."
  },
  {
   "property": "C77",
   "status": "partial",
   "theorems": [
    "MSF.C77_relative_residual_partial",
    "MSF.C77_attitude_sign_violated"
   ],
   "note": "False as stated: the attitude rows have the opposite sign and are expressed in the old sensor frame. Proved: the exact relation of the two residuals; the position and yaw rows agree."
  },
  {
   "property": "C78",
   "status": "partial",
   "theorems": [
    "MSF.C78_pose_fixed_partial",
    "MSF.C78_position_fixed_partial",
    "MSF.C78_run_pose_partial",
    "MSF.C78_run_position_partial",
    "MSF.C78_run_fusion_partial",
    "MSF.C78_relative_pose_partial",
    "MSF.C78_relative_fusion_partial",
    "MSF.C78_negative_scale_violated",
    "MSF.C78_distance_violated",
    "MSF.C78_correlated_violated"
   ],
   "note": "Proved for sequences of any length with pose or position measurements and for whole runs of the core, also with relative pose measurements. With several sensors it holds if the state starts uncorrelated; otherwise another sensor moves it (C78_correlated_violated). False for a negative fixed scale, which the sanity check replaces, and for distance measurements, whose Jacobian writes the p_ip block although it is fixed."
  },
  {
   "property": "C79",
   "status": "proved",
   "theorems": [
    "MSF.C79_local_error",
    "MSF.C79_convergence"
   ],
   "note": "Spec: the kinematic equations in Spec/Kinematics with Mathlib quaternions. The step is a right multiplication by a unit quaternion, hence stable; the local error comes from expansions uniform over an interval."
  },
  {
   "property": "C80",
   "status": "partial",
   "theorems": [
    "MSF.C80_time_origin_partial",
    "MSF.C80_relative_partial",
    "MSF.C80_nonpositive_violated"
   ],
   "note": "False as stated: AddMeasurement skips states and measurements whose time is not positive, and -1 marks an invalid time. Proved for all runs whose times are positive before and after the shift, for search trees that see keys through comparisons only, with absolute and relative measurements."
  },
  {
   "property": "C81",
   "status": "proved",
   "theorems": [
    "MSF.C81_no_invented_times",
    "MSF.C81_relative"
   ],
   "note": "Invariant by induction over the calls, with absolute and relative measurements."
  },
  {
   "property": "C82",
   "status": "proved",
   "theorems": [
    "MSF.C82_translation",
    "MSF.C82_position_filter",
    "MSF.C82_pose_filter",
    "MSF.C82_pose_pressure_filter",
    "MSF.C82_position_pose_filter",
    "MSF.C82_relative",
    "MSF.C82_relative_pose_filter",
    "MSF.C82_relative_pose_pressure_filter",
    "MSF.C82_relative_position_pose_filter",
    "MSF.reading_apply_refines"
   ],
   "note": "The move is a morphism of the concrete kernel, and the core commutes with morphisms. C82_relative: the same for runs with relative pose sensors. reading_apply_refines: the update of the kernel is the code's Apply on any state object. Angle and distance sensors measure from the world origin and are not part of the shipped filters listed."
  },
  {
   "property": "C83",
   "status": "proved",
   "theorems": [
    "MSF.C83_unit_quaternions",
    "MSF.C83_relative"
   ],
   "note": "C83_relative covers runs with relative measurements. Invariant of the concrete kernel, lifted to all runs of the core by KernelInv.run. The shipped ROS handler normalises external attitudes."
  },
  {
   "property": "C84",
   "status": "proved",
   "theorems": [
    "MSF.C84_alarm_iff",
    "MSF.C84_alarm_bounds"
   ],
   "note": "The exact decision boundary for a median turned by a about n: 2 tan(a/2) times the largest component of n. Bounds for every unit axis follow."
  },
  {
   "property": "C85",
   "status": "partial",
   "theorems": [
    "MSF.C85_drift_partial",
    "MSF.C85_constant_rate_partial",
    "MSF.C85_two_sensors_violated",
    "MSF.C85_attitude_rate_violated"
   ],
   "note": "False as stated: the time of the last message is a function-local static shared by all pose sensors, and the attitude drift depends on the message rate (small-angle increments). Proved for one sensor with nonzero stamps: exact drift for every message sequence and every draw."
  },
  {
   "property": "C86",
   "status": "partial",
   "theorems": [
    "MSF.Eval.C86_perfect_partial",
    "MSF.Eval.C86_first_pair_violated"
   ],
   "note": "False as stated: the frames are aligned at the first pair even if its two stamps are far apart. Proved if the first pair is synchronized."
  },
  {
   "property": "C87",
   "status": "proved",
   "theorems": [
    "MSF.Eval.C87_ground_truth_frame",
    "MSF.Eval.C87_estimate_frame",
    "MSF.Eval.C87_upright_frame"
   ],
   "note": "Whole program, all start points. The transformation class of sm_kinematics is not in the repository; it is modelled as rigid transformations with unit quaternions."
  },
  {
   "property": "C88",
   "status": "partial",
   "theorems": [
    "MSF.Eval.C88_rows_partial",
    "MSF.Eval.C88_spacing_partial",
    "MSF.Eval.C88_complete_partial",
    "MSF.Eval.C88_closest_violated"
   ],
   "note": "False as stated: the first estimate not before the ground truth is taken, not the closest one. Proved: which pairs are compared, what the rows contain, their spacing, and that no synchronized pair of this kind is left out for longer than the discretization."
  },
  {
   "property": "C89",
   "status": "proved",
   "theorems": [
    "MSF.Eval.C89_ends"
   ],
   "note": "With an explicit bound from the last ground truth stamp."
  },
  {
   "property": "C90",
   "status": "partial",
   "theorems": [
    "MSF.C90_unusable_partial",
    "MSF.C90_playback_partial",
    "MSF.C90_used",
    "MSF.C90_short_violated",
    "MSF.C90_late_violated"
   ],
   "note": "False as stated: messages with fewer than ten entries are read behind their end even if they are to be ignored, and a late measurement replaces external states after it by IMU propagation. Proved: runs that differ only in unusable external states with at least ten entries have the same core; in playback also the same messages; a usable one is published."
  },
  {
   "property": "C91",
   "status": "partial",
   "theorems": [
    "MSF.C91_one_update_partial",
    "MSF.C91_all_updates",
    "MSF.C91_two_updates_violated"
   ],
   "note": "False as stated: every correction is counted from the last external state received, so the second of two updates contains the first one again. Proved for one update; the exact result for any number."
  },
  {
   "property": "C92",
   "status": "partial",
   "theorems": [
    "MSF.C92_same_time_partial",
    "MSF.C92_imu_violated"
   ],
   "note": "False if IMU messages are connected as well. Proved for all runs on external states and measurements."
  },
  {
   "property": "C93",
   "status": "partial",
   "theorems": [
    "MSF.C93_numbers_partial",
    "MSF.C93_nan_violated"
   ],
   "note": "False as stated: the buffer is set before the flag and the numbers are checked. Proved if all external states have 16 numbers."
  },
  {
   "property": "C94",
   "status": "partial",
   "theorems": [
    "MSF.C94_unit_quaternions",
    "MSF.C94_length",
    "MSF.C94_zero_violated"
   ],
   "note": "Unit quaternions and independence of the length are proved for all runs; an attitude of zero is a number, is accepted, and gives a state that is not."
  },
  {
   "property": "C95",
   "status": "partial",
   "theorems": [
    "MSF.C95_published_in_order_partial",
    "MSF.C95_relative_partial",
    "MSF.C95_imu_violated",
    "MSF.C95_init_violated"
   ],
   "note": "False as stated: IMU readings up to 10 ms older than the last one are propagated and published, and after an initialisation ahead of the IMU updates are published for the initial time. Proved for all runs whose initialisations, IMU readings and external states have stamps that do not go back, with any measurements, absolute or relative."
  },
  {
   "property": "C96",
   "status": "partial",
   "theorems": [
    "MSF.C96_old_objects_go_partial",
    "MSF.C96_relative_partial",
    "MSF.C96_imu_violated",
    "MSF.C96_queue_violated"
   ],
   "note": "False as stated: clean-up happens only when measurements are processed, so without measurements every state stays, and waiting measurements are never dropped. Proved: after 102 more published updates at most one state and one measurement older than 60 s before are left; with relative measurements if no buffered measurement was older than that."
  },
  {
   "property": "C97",
   "status": "partial",
   "theorems": [
    "MSF.C97_delay_partial",
    "MSF.C97_messages",
    "MSF.C97_used",
    "MSF.C97_poses",
    "MSF.C97_pose_pressure_violated"
   ],
   "note": "False for the pose-pressure node: it never calls SetDelay, so pose_delay has no effect in any run. Proved for the other four nodes, and for all nodes that configurations do not change which messages are used."
  },
  {
   "property": "C98",
   "status": "partial",
   "theorems": [
    "MSF.C98_fixed",
    "MSF.C98_noises_partial",
    "MSF.C98_pose_pressure_violated",
    "MSF.C98_press_reset_violated"
   ],
   "note": "False for the pose-pressure node: it returns before setting the noises if a height request comes before the first pose, and press_reset is not used. Fixed states are proved for all nodes, noises for all nodes except after such a refused request."
  },
  {
   "property": "C99",
   "status": "partial",
   "theorems": [
    "MSF.C99_height_partial",
    "MSF.C99_refused",
    "MSF.C99_origin_violated"
   ],
   "note": "False as stated: a pose at the origin counts as no pose. Proved for all other poses and for no pose at all."
  },
  {
   "property": "C100",
   "status": "partial",
   "theorems": [
    "MSF.C100_imu_partial",
    "MSF.C100_spherical_violated"
   ],
   "note": "False for the spherical node: it has no IMU handler, so in every run it only publishes initial states. Proved for the other four nodes."
  },
  {
   "property": "C101",
   "status": "partial",
   "theorems": [
    "MSF.C101_psd_partial",
    "MSF.C101_numbers_partial",
    "MSF.C101_gyro_noise_violated",
    "MSF.C101_half_turn_violated",
    "MSF.C101_origin_violated"
   ],
   "note": "False with gyro noise (asymmetric covariance), for poses half a turn away and for distances at the origin (NaN). Covariances are proved valid in all runs of all filters without gyro and bias noise; numbers are proved for the position filter."
  },
  {
   "property": "C102",
   "status": "partial",
   "theorems": [
    "MSF.C102_agreeing_partial",
    "MSF.C102_between_violated"
   ],
   "note": "False for measurements between IMU readings: the inserted interpolated state changes the integration, so the newest position moves although the residual was zero. Proved for measurements within 1 ms of an IMU reading, for all filters and arrival orders, unless the update itself gives NaN (C101)."
  },
  {
   "property": "C103",
   "status": "partial",
   "theorems": [
    "MSF.C103_messages_agree_partial",
    "MSF.C103_covariances",
    "MSF.C103_tf_violated"
   ],
   "note": "False for the transform, which is stamped with the time of the computer. Proved for the contents of all messages and the stamps of all others."
  },
  {
   "property": "C104",
   "status": "proved",
   "theorems": [
    "MSF.C104_subscribers"
   ],
   "note": ""
  },
  {
   "property": "C105",
   "status": "partial",
   "theorems": [
    "MSF.C105_heading_partial",
    "MSF.C105_position_filter_partial",
    "MSF.C105_gyro_noise_violated",
    "MSF.C105_distance_violated",
    "MSF.C105_angle_violated",
    "MSF.C105_pose_partial",
    "MSF.C105_pose_violated",
    "MSF.C105_pose_iff_partial",
    "MSF.C105_pose_test_partial",
    "MSF.C105_pose_test_violated"
   ],
   "note": "False with gyro noise: the coded noise matrix depends on the heading already for a filter at rest. False for distance and angle measurements: the measurement matrix uses the inverse rotation for the antenna offset. Proved for all runs of filters with position and pressure sensors with accelerometer, accelerometer-bias and auxiliary noise. For single pose updates of the pose filter without outlier test and alarm: true for every rotation exactly when the origin p_wv of the camera frame is fixed, false when it is estimated. False for the outlier test of poses: the squared distance changes by 1000000 times the change of the squared yaw residual (proved), so a pose can be rejected in one frame only. Missing: updates of pose sensors with an alarm, which use a component-wise median."
  },
  {
   "property": "C106",
   "status": "partial",
   "theorems": [
    "MSF.C106_signs_partial",
    "MSF.C106_shipped_partial",
    "MSF.C106_relative_signs_partial",
    "MSF.C106_relative_shipped_partial",
    "MSF.C106_make_pose",
    "MSF.C106_pose_init",
    "MSF.C106_pose_pressure_init",
    "MSF.C106_same_motion",
    "MSF.C106_watched_violated"
   ],
   "note": "False for the non-drifting quaternion the divergence check watches: the component-wise median over its window depends on the signs. Proved for all runs of the pose, position, pose-pressure and position-pose filters, any noise, with any signs flipped in initial states, external states and readings of all other quaternions, with absolute and with relative pose sensors."
  },
  {
   "property": "C107",
   "status": "proved",
   "theorems": [
    "MSF.C107_differences"
   ],
   "note": ""
  },
  {
   "property": "C108",
   "status": "partial",
   "theorems": [
    "MSF.C108_pose_partial",
    "MSF.C108_pressure_partial",
    "MSF.C108_ignored_violated",
    "MSF.C108_defaults_violated"
   ],
   "note": "False for position, angle and distance sensors: in relative mode, which is the default of their handlers, no published state depends on what they have measured. Proved for pose sensors: readings that differ, other than in the sign of the quaternion, give different residuals. Proved for pressure sensors: all runs publish the same in both modes."
  },
  {
   "property": "C109",
   "status": "partial",
   "theorems": [
    "MSF.C109_value_ignored",
    "MSF.C109_value_ignored_relative",
    "MSF.C109_fifty",
    "MSF.C109_replaced_partial",
    "MSF.C109_violated"
   ],
   "note": "The value of a spike has no influence, in any run, with absolute and relative measurements. What replaces it is not the last good reading but the one before (ProcessIMU stores last_am from the state before): C109_replaced_partial proves this for all runs of prompt calls and all kernels, C109_violated gives a run."
  },
  {
   "property": "C110",
   "status": "partial",
   "theorems": [
    "MSF.C110_values",
    "MSF.C110_zero_violated"
   ],
   "note": "Proved for all covariances other than zero. False for the covariance zero, which is taken for 'not given'."
  },
  {
   "property": "C111",
   "status": "proved",
   "theorems": [
    "MSF.C111_least_squares",
    "MSF.C111_sequence_is_batch",
    "MSF.C111_order",
    "MSF.C111_pressure",
    "MSF.C111_pressure_order"
   ],
   "note": "Pressure readings: for runs in which no update is called fuzzy and the hooks of the manager do not step in. Attitudes are corrected by multiplication and are not covered by the joint fit."
  },
  {
   "property": "C112",
   "status": "partial",
   "theorems": [
    "MSF.C112_prediction_partial",
    "MSF.C112_update",
    "MSF.C112_consistent",
    "MSF.C112_optimal",
    "MSF.C112_process_noise_violated"
   ],
   "note": "Linear error propagation is assumed (the filter linearises). The update and sequences of linear steps are proved without further restriction. The prediction of the code is covered where its process noise is a covariance; with gyro noise it is not even symmetric (C29), so that no error has the predicted covariance: C112_process_noise_violated."
  },
  {
   "property": "C113",
   "status": "proved",
   "theorems": [
    "MSF.C113_false_alarms"
   ],
   "note": "By the inequality of Markov; for any distribution with the assumed second moments."
  },
  {
   "property": "C114",
   "status": "partial",
   "theorems": [
    "MSF.C114_relative_partial",
    "MSF.C114_noise_violated",
    "MSF.C114_between_violated"
   ],
   "note": "Proved for residuals with noise of covariance R and a new error that is the accumulated transition of the old one plus something uncorrelated. False: the noise of the previous measurement is not counted, the true covariance is larger by K R K^T; corrections of other sensors between the two measurements are not part of the transition, which can make the reported variance negative; the transitions are multiplied in the wrong order (C34)."
  },
  {
   "property": "C115",
   "status": "partial",
   "theorems": [
    "MSF.C115_measurements_partial",
    "MSF.C115_settings",
    "MSF.C115_valid",
    "MSF.C115_initial_position",
    "MSF.C115_throttle_violated",
    "MSF.C115_zero_violated",
    "MSF.C115_invalid_violated",
    "MSF.C115_first_violated"
   ],
   "note": "Proved for all histories, except: transform messages other than every fifth are dropped; a stated covariance whose first entry is zero counts as missing; a stated matrix that is no covariance is used as one; ReceivedFirstMeasurement is true after a discarded message, so that Init does not warn. Whether a measurement has any influence in relative mode is C108."
  },
  {
   "property": "C116",
   "status": "partial",
   "theorems": [
    "MSF.C116_heading_partial",
    "MSF.C116_silent",
    "MSF.C116_range_violated",
    "MSF.C116_quaternion_violated"
   ],
   "note": "Proved for IMU orientations and for angles between -180 and 180 degrees. False beyond: the parameter is clamped to 180 degrees, so a compass angle of 270 degrees starts as 180; messages of the topic orientation_quaternion raise an exception and are lost. euler_from_quaternion, clamping and rospy are modelled as documented, they are not in the repository."
  },
  {
   "property": "C117",
   "status": "partial",
   "theorems": [
    "MSF.C117_linear",
    "MSF.C117_towards_partial",
    "MSF.C117_distance_violated",
    "MSF.C117_position_violated",
    "MSF.C117_pose_violated",
    "MSF.C117_angle_violated"
   ],
   "note": "C117_linear: for the linearised prediction, all covariances and noises, including the uncertainty. C117_towards_partial: for the real prediction of pressure readings and of positions of an antenna that is fixed at the place of the IMU. False for distances (the matrix of p_ip has the inverse rotation) and for positions of an antenna away from the IMU (a large turn of the heading is linearised), for poses (scale and position are corrected together and the prediction is their product) and for angles (the correction can carry the IMU past the tracker). So the claim is settled for every kind of absolute reading."
  },
  {
   "property": "C118",
   "status": "partial",
   "theorems": [
    "MSF.C118_world_partial",
    "MSF.C118_inverse_partial",
    "MSF.C118_error_is_residual",
    "MSF.C118_correlated_violated",
    "MSF.C118_lever_arm_violated",
    "MSF.C118_attitude_violated"
   ],
   "note": "Proved for poses stored as received with uncorrelated errors, and for inverted poses if the attitude of the message is exact or the position is zero and the attitude noise the same in all directions. False otherwise: correlations are dropped; the lever arm of an inverted pose is left out at every position but the origin; the attitude covariance of an inverted pose is turned the wrong way, whichever axes the errors refer to."
  },
  {
   "property": "C119",
   "status": "partial",
   "theorems": [
    "MSF.C119_update",
    "MSF.C119_information",
    "MSF.C119_pressure",
    "MSF.C119_position",
    "MSF.C119_pose_partial",
    "MSF.C119_run_partial",
    "MSF.C119_pose_violated"
   ],
   "note": "Proved for every update in terms of the measurement matrix, and for pressures and positions in terms of the reading itself. False for poses: the matrix has -1 for p_wv where the derivative is -L R(q_wv), so whenever the scale is not one or the frame is turned, every pose makes the filter more certain of a common shift of vehicle and camera frame, which no pose depends on. Proved for poses if p_wv does not take part or L R(q_wv) = 1, and then for whole runs with poses and pressures (with accelerometer and auxiliary noise, no fuzzy updates)."
  },
  {
   "property": "C120",
   "status": "partial",
   "theorems": [
    "MSF.C120_repeated_partial",
    "MSF.C120_any_numerics_partial",
    "MSF.C120_covariance_violated",
    "MSF.C120_shipped_violated",
    "MSF.C120_stale_violated"
   ],
   "note": "Proved for any number of further messages with the newest stamp, whatever they contain: buffers, waiting measurements, tracker and published updates are the same (no measurement ahead of the IMU, no spikes). False for what is published: every such message publishes the newest state with covariance zero (proved for every admissible run). False for repetitions of older messages: the next reading is propagated from the older state."
  },
  {
   "property": "C121",
   "status": "partial",
   "theorems": [
    "MSF.C121_unit_partial",
    "MSF.C121_shipped_partial",
    "MSF.C121_filters_partial",
    "MSF.C121_relative_partial",
    "MSF.C121_relative_filters_partial",
    "MSF.C121_origin_violated",
    "MSF.C121_negative_violated"
   ],
   "note": "Proved for all runs in which the poses, absolute or relative, come with a fixed origin of the camera frame, if the value that replaces a negative scale is given in the same unit; with the constant 0.1 of the code for all runs with absolute measurements whose publications do not depend on it. False otherwise: the block of p_wv in the measurement matrix lacks the factor L, so with an estimated p_wv the correction depends on the unit; a negative scale is replaced by 0.1 in every unit."
  },
  {
   "property": "C122",
   "status": "partial",
   "theorems": [
    "MSF.C122_position_partial",
    "MSF.C122_attitude_violated",
    "MSF.C122_turn_violated"
   ],
   "note": "Proved for the position rows along all pairs of error states that keep the fixed variables, without p_wv or with L R(q_wv) = 1. False for the attitude rows: they have the opposite sign, and the part of the new state is turned by the predicted motion, so a relative update at the origin turns the estimate against the measured turn, for every positive noise and covariance of the witness. The block of p_wv and the yaw row are the subject of C44."
  },
  {
   "property": "C123",
   "status": "partial",
   "theorems": [
    "MSF.C123_measurements_partial",
    "MSF.C123_settings",
    "MSF.C123_initial_pose",
    "MSF.C123_violated",
    "MSF.C123_unknown_violated",
    "MSF.C123_certain_violated",
    "MSF.C123_repeated_violated"
   ],
   "note": "Proved for all histories, if messages of a type with covariance have theirs filled in or a fixed covariance is configured (and the pose is not to be inverted under a fixed covariance, see C46). False for covariances that are not filled in, which the position handler recognises and the pose handler does not: after every history the pose is used as exact, the filter becomes certain of the predicted pose, and a second such pose at the same state makes it NaN."
  },
  {
   "property": "C124",
   "status": "partial",
   "theorems": [
    "MSF.C124_transition",
    "MSF.C124_noise",
    "MSF.C124_volume_partial",
    "MSF.C124_violated"
   ],
   "note": "The transition never loses volume: its determinant is 1 + |w dt|^4/4 for all states and readings (proved). So the volume does not shrink whenever the computed process noise is a covariance; proved without gyro noise, or at rest, and with bias noise of the accelerometer that is not too large (accBias dt <= 3 acc). False in general: with bias noise alone one step at rest makes a combination of position, velocity and bias exactly certain, because CalcQCore leaves out the variance of the position."
  },
  {
   "property": "C125",
   "status": "partial",
   "theorems": [
    "MSF.C125_condition_partial",
    "MSF.C125_violated"
   ],
   "note": "Proved for displacement and scale: finite if and only if the best fit is unique, if and only if in two pairs the second positions differ when seen in the attitude of the first pose. False for the rotation: relative rotations a half turn apart give a finite condition number although both rotations fit equally well. The solvers of Eigen are assumed correct with sorted singular values."
  },
  {
   "property": "C126",
   "status": "proved",
   "theorems": [
    "MSF.C126_order",
    "MSF.C126_frame"
   ],
   "note": "All lists, permutations and rotations, over the reals; the solvers of Eigen may return anything, but the same for the same matrix."
  },
  {
   "property": "C127",
   "status": "partial",
   "theorems": [
    "MSF.C127_measurements_partial",
    "MSF.C127_start_partial",
    "MSF.C127_dropped_violated",
    "MSF.C127_start_violated"
   ],
   "note": "Proved for all histories with a fixed covariance, and for the start if the last angles and the last distance were measured at one place. False otherwise: without a fixed covariance every message is dropped, since the message type has no covariance; angles and distance of different times are combined to a place where the sensor has never been."
  },
  {
   "property": "C128",
   "status": "partial",
   "theorems": [
    "MSF.C128_offset_partial",
    "MSF.C128_shipped_partial",
    "MSF.C128_relative_partial",
    "MSF.C128_relative_shipped_partial",
    "MSF.C128_spikes_partial",
    "MSF.C128_spikes_shipped_partial",
    "MSF.C128_relative_spikes_partial",
    "MSF.C128_relative_spikes_shipped_partial",
    "MSF.C128_spike_violated",
    "MSF.C128_first_spike_violated"
   ],
   "note": "Proved for all runs of the position, pose, pose-pressure, position-pose and spherical filters, with absolute and relative measurements, in which no acceleration, with or without the offset, exceeds 50 m/s^2, including external propagation, delays, outlier tests and fuzzy updates; also for runs with spikes, if both runs agree on which readings are spikes and each spike comes after a good reading right after an initialization. False otherwise: the spike test looks at the raw acceleration and not at the acceleration without the bias, so a reading can be replaced in one run and not in the other, and a spike right after the initialization is replaced by zero, which is not corrected for the offset."
  },
  {
   "property": "C129",
   "status": "partial",
   "theorems": [
    "MSF.C129_ignored_partial",
    "MSF.C129_relative_partial",
    "MSF.C129_writes_partial",
    "MSF.C129_accepted_violated",
    "MSF.C129_read_violated"
   ],
   "note": "Proved that nothing written to the noise blocks of core states has an effect, for all managers and all runs with absolute and relative measurements. False that the assignment is rejected: the static_assert joins two inequalities with || and so always holds, and the assignment is silently ignored. False that the blocks can be read: the const version names a member Q_ that does not exist and does not compile where it is used."
  },
  {
   "property": "C130",
   "status": "proved",
   "theorems": [
    "MSF.C130_relay",
    "MSF.C130_transparent"
   ],
   "note": "By induction over all histories. Messages that ROS drops because a queue is full are not part of the history."
  },
  {
   "property": "C131",
   "status": "proved",
   "theorems": [
    "MSF.C131_absolute",
    "MSF.C131_relative"
   ],
   "note": "For every choice of the numerics, by a simulation between the two runs. That the ids of different handlers differ is C50."
  },
  {
   "property": "C132",
   "status": "partial",
   "theorems": [
    "MSF.C132_alone_partial",
    "MSF.C132_relative_partial",
    "MSF.C132_published_partial",
    "MSF.C132_relative_published_partial",
    "MSF.C132_several_partial",
    "MSF.C132_relative_several_partial",
    "MSF.C132_two_violated",
    "MSF.C132_behind_others_violated",
    "MSF.C132_relative_behind_others_violated"
   ],
   "note": "Proved for every choice of the numerics and all runs, with absolute and relative measurements, if nothing else waits: the cores are equal if the reading does not stop the filter, and what is published is equal for any reading. Several early measurements act as if each arrived just after its own reading, one per reading. False if two measurements arrive before the reading, since only one is taken from the queue per reading: for every filter, a measurement with n others before it still waits after n readings."
  }
 ]
}