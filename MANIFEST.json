{
 "claims": [
  {
   "property": "C01",
   "status": "proved",
   "theorems": [
    "Drift.C01_exp_SO3_rotation"
   ],
   "note": ""
  },
  {
   "property": "C02",
   "status": "proved",
   "theorems": [
    "Drift.C02_gamma_SO3_series",
    "Drift.C02_exp_SO3_is_exp",
    "Drift.C02_gamma_SO3_order_21"
   ],
   "note": ""
  },
  {
   "property": "C03",
   "status": "proved",
   "theorems": [
    "Drift.C03_small_angle_error"
   ],
   "note": ""
  },
  {
   "property": "C04",
   "status": "proved",
   "theorems": [
    "Drift.C04_factorial_exact",
    "Drift.C04_factorial_overflow",
    "Drift.C04_factorial_negative"
   ],
   "note": ""
  },
  {
   "property": "C05",
   "status": "proved",
   "theorems": [
    "Drift.C05_jacobians_transpose",
    "Drift.C05_exp_eq_one_add_skew_jacobian"
   ],
   "note": ""
  },
  {
   "property": "C06",
   "status": "proved",
   "theorems": [
    "Drift.C06_exp_SEK3_group",
    "Drift.C06_exp_SEK3_is_exp"
   ],
   "note": ""
  },
  {
   "property": "C07",
   "status": "proved",
   "theorems": [
    "Drift.C07_adjoint_mul",
    "Drift.C07_adjoint_one",
    "Drift.C07_adjoint_inv"
   ],
   "note": ""
  },
  {
   "property": "C08",
   "status": "proved",
   "theorems": [
    "Drift.C08_adjoint_transports_exp",
    "Drift.C08_small_angle_counterexample"
   ],
   "note": "stated for v with zero rotation part or outside the 1e-10 ball; C08_small_angle_counterexample shows the restriction is needed"
  },
  {
   "property": "C09",
   "status": "proved",
   "theorems": [
    "Drift.C09_skew"
   ],
   "note": ""
  },
  {
   "property": "C10",
   "status": "proved",
   "theorems": [
    "Drift.C10_get_Xinv_inverse"
   ],
   "note": ""
  },
  {
   "property": "C11",
   "status": "partial",
   "theorems": [
    "Drift.C11_exactly_when",
    "Drift.C11_world_getters_partial",
    "Drift.C11_body_getters_partial",
    "Drift.C11_body_getters_false"
   ],
   "note": "false for body velocity/position of a world-centric state (C11_body_getters_false); world side and body rotation proved; exactly when it holds: C11_exactly_when"
  },
  {
   "property": "C12",
   "status": "proved",
   "theorems": [
    "Drift.C12_dimensions_consistent",
    "Drift.C12_operations_defined"
   ],
   "note": ""
  },
  {
   "property": "C13",
   "status": "proved",
   "theorems": [
    "Drift.C13_removes_exactly"
   ],
   "note": ""
  },
  {
   "property": "C14",
   "status": "proved",
   "theorems": [
    "Drift.C14_step",
    "Drift.C14_history"
   ],
   "note": ""
  },
  {
   "property": "C15",
   "status": "partial",
   "theorems": [
    "Drift.C15_only_last",
    "Drift.C15_exactly_when",
    "Drift.C15_new_contact_noise_partial",
    "Drift.C15_older_contact_loses_noise"
   ],
   "note": "false from the second contact on: every later addition zeroes the noise block of the previous contact (C15_older_contact_loses_noise); only the newest contact has its noise; in every reachable state every contact but the one in the last column has zero noise (C15_only_last); exactly when it holds: C15_exactly_when"
  },
  {
   "property": "C16",
   "status": "partial",
   "theorems": [
    "Drift.C16_which_block",
    "Drift.C16_exactly_when",
    "Drift.C16_bias_cov_base_partial",
    "Drift.C16_base_cov",
    "Drift.C16_bias_cov_false"
   ],
   "note": "false with contacts (C16_bias_cov_false); holds while dimX = 5; which block is read: C16_which_block; exactly when it holds: C16_exactly_when"
  },
  {
   "property": "C17",
   "status": "partial",
   "theorems": [
    "Drift.C17_aug_cov_partial",
    "Drift.C17_aug_cov_false",
    "Drift.C17_aug_bias_partial",
    "Drift.C17_aug_bias_false"
   ],
   "note": "false for the indices of augmented columns when theta is six-dimensional, and get_aug_bias ignores its index (C17_aug_cov_false, C17_aug_bias_false)"
  },
  {
   "property": "C18",
   "status": "proved",
   "theorems": [
    "Drift.C18_copy_diag_X",
    "Drift.C18_copy_diag_Xinv"
   ],
   "note": ""
  },
  {
   "property": "C19",
   "status": "partial",
   "theorems": [
    "Drift.C19_exactly_when",
    "Drift.C19_from_SEK3_partial",
    "Drift.C19_from_SEK3_false"
   ],
   "note": "false: velocity and position are exchanged (C19_from_SEK3_false); exact behaviour in C19_from_SEK3_partial; exactly when it holds: C19_exactly_when"
  },
  {
   "property": "C20",
   "status": "partial",
   "theorems": [
    "Drift.C20_exactly_when",
    "Drift.C20_inverse_5x5_partial",
    "Drift.C20_inverse_other_sizes"
   ],
   "note": "false for every K other than 2 (C20_inverse_other_sizes); exactly when it holds: C20_exactly_when"
  },
  {
   "property": "C21",
   "status": "partial",
   "theorems": [
    "Drift.C21_copy_corrupts_filter",
    "Drift.C21_last_column_partial"
   ],
   "note": "false: copies share the column numbers; deleting a non-last column of a copy corrupts the running filter (C21_copy_corrupts_filter)"
  },
  {
   "property": "C22",
   "status": "proved",
   "theorems": [
    "Drift.C22_clear_restores",
    "Drift.C22_clear_keeps"
   ],
   "note": ""
  },
  {
   "property": "C23",
   "status": "proved",
   "theorems": [
    "Drift.C23_right_on_group",
    "Drift.C23_left_on_group",
    "Drift.C23_frame",
    "Drift.C23_sizes"
   ],
   "note": ""
  },
  {
   "property": "C24",
   "status": "proved",
   "theorems": [
    "Drift.C24_right_psd",
    "Drift.C24_left_psd",
    "Drift.C24_sequence"
   ],
   "note": ""
  },
  {
   "property": "C25",
   "status": "proved",
   "theorems": [
    "Drift.C25_right_zero_innovation",
    "Drift.C25_left_zero_innovation"
   ],
   "note": ""
  },
  {
   "property": "C26",
   "status": "proved",
   "theorems": [
    "Drift.C26_bias_frozen"
   ],
   "note": ""
  },
  {
   "property": "C27",
   "status": "proved",
   "theorems": [
    "Drift.C27_yaw_bias"
   ],
   "note": ""
  },
  {
   "property": "C28",
   "status": "proved",
   "theorems": [
    "Drift.C28_error_types_equivalent"
   ],
   "note": ""
  },
  {
   "property": "C29",
   "status": "proved",
   "theorems": [
    "Drift.C29_uncertainty_decreases"
   ],
   "note": "CorrectRightInvariant; on directions not touched by the yaw/bias resets; CorrectLeftInvariant has defect C30"
  },
  {
   "property": "C30",
   "status": "partial",
   "theorems": [
    "Drift.C30_left_update_partial",
    "Drift.C30_right_correction_partial",
    "Drift.C30_left_correction_partial",
    "Drift.C30_false"
   ],
   "note": "false for both error types: C30_false; the exact covariance map with no information is C30_left_correction_partial, and CorrectRightInvariant is fine up to the yaw reset"
  },
  {
   "property": "C31",
   "status": "proved",
   "theorems": [
    "Drift.C31_right_defined",
    "Drift.C31_left_defined",
    "Drift.C31_innovation_invertible"
   ],
   "note": ""
  },
  {
   "property": "C32",
   "status": "proved",
   "theorems": [
    "Drift.C32_strapdown",
    "Drift.C32_solution_exists"
   ],
   "note": ""
  },
  {
   "property": "C33",
   "status": "proved",
   "theorems": [
    "Drift.C33_split"
   ],
   "note": ""
  },
  {
   "property": "C34",
   "status": "proved",
   "theorems": [
    "Drift.C34_on_group",
    "Drift.C34_frame"
   ],
   "note": ""
  },
  {
   "property": "C35",
   "status": "proved",
   "theorems": [
    "Drift.C35_psd",
    "Drift.C35_ctor_noise"
   ],
   "note": ""
  },
  {
   "property": "C36",
   "status": "proved",
   "theorems": [
    "Drift.C36_empty",
    "Drift.C36_step",
    "Drift.C36_uses_held_measurement",
    "Drift.C36_only_time_difference"
   ],
   "note": ""
  },
  {
   "property": "C37",
   "status": "proved",
   "theorems": [
    "Drift.C37_decoupled"
   ],
   "note": ""
  },
  {
   "property": "C38",
   "status": "partial",
   "theorems": [
    "Drift.C38_small_rate_false",
    "Drift.C38_other_columns_partial"
   ],
   "note": "false: the integer divisions 1/2 and 1/6 make the velocity/position rows of the gyro-bias column zero (C38_small_rate_false); every other column agrees with the limit"
  },
  {
   "property": "C39",
   "status": "proved",
   "theorems": [
    "Drift.C39_equivalent"
   ],
   "note": ""
  },
  {
   "property": "C40",
   "status": "proved",
   "theorems": [
    "Drift.C40_right_error_autonomous",
    "Drift.C40_left_error_trajectory_free"
   ],
   "note": ""
  },
  {
   "property": "C42",
   "status": "proved",
   "theorems": [
    "Drift.C42_average",
    "Drift.C42_terminates"
   ],
   "note": ""
  },
  {
   "property": "C43",
   "status": "proved",
   "theorems": [
    "Drift.C43_recovers_bias"
   ],
   "note": ""
  },
  {
   "property": "C44",
   "status": "partial",
   "theorems": [
    "Drift.C44_exactly_when",
    "Drift.C44_default_false",
    "Drift.C44_defined_partial"
   ],
   "note": "false for the default configuration: init_bias_size 0 averages zero samples, a division by zero (C44_default_false); defined for N >= 1 or non-static initialisation; exactly when it holds: C44_exactly_when"
  },
  {
   "property": "C45",
   "status": "proved",
   "theorems": [
    "Drift.C45_no_imu",
    "Drift.C45_all_data",
    "Drift.C45_waits",
    "Drift.C45_keeps_waiting",
    "Drift.C45_resumes"
   ],
   "note": ""
  },
  {
   "property": "C46",
   "status": "partial",
   "theorems": [
    "Drift.C46_exactly_when",
    "Drift.C46_exactly_when_all",
    "Drift.C46_false",
    "Drift.C46_identity_mount_partial"
   ],
   "note": "false for every mounting rotation/scale that moves the measurement (C46_false); holds for identity mounting and unit scale; exactly when it holds: C46_exactly_when, C46_exactly_when_all"
  },
  {
   "property": "C47",
   "status": "partial",
   "theorems": [
    "Drift.C47_identity_mount_partial",
    "Drift.C47_false"
   ],
   "note": "false: the mounting rotation is ignored (C47_false); holds for the identity mounting (C47_identity_mount_partial)"
  },
  {
   "property": "C48",
   "status": "proved",
   "theorems": [
    "Drift.C48_empty",
    "Drift.C48_front_waits",
    "Drift.C48_all_stale",
    "Drift.C48_first_fresh",
    "Drift.C48_total"
   ],
   "note": ""
  },
  {
   "property": "C49",
   "status": "partial",
   "theorems": [
    "Drift.C49_exactly_when",
    "Drift.C49_false",
    "Drift.C49_not_in_future_partial"
   ],
   "note": "false: after dropping stale measurements the next one is not compared with the propagation time (C49_false); holds when nothing stale is dropped; exactly when a measurement from the future is used: C49_exactly_when"
  },
  {
   "property": "C51",
   "status": "proved",
   "theorems": [
    "Drift.C51_ids",
    "Drift.C51_history"
   ],
   "note": ""
  },
  {
   "property": "C52",
   "status": "partial",
   "theorems": [
    "Drift.C52_never",
    "Drift.C52_queue_partial",
    "Drift.C52_false"
   ],
   "note": "false: a too-new measurement is only reported on cerr and then processed (C52_false); the queue policy that does hold is C52_queue_partial; such a measurement is never skipped, and treated like one on time: C52_never"
  },
  {
   "property": "C53",
   "status": "proved",
   "theorems": [
    "Drift.C53_mean",
    "Drift.C53_existing",
    "Drift.C53_new_covariance"
   ],
   "note": ""
  },
  {
   "property": "C54",
   "status": "proved",
   "theorems": [
    "Drift.C54_augmentation_equivalent",
    "Drift.C54_removal_equivalent"
   ],
   "note": ""
  },
  {
   "property": "C56",
   "status": "proved",
   "theorems": [
    "Drift.C56_publishes"
   ],
   "note": ""
  },
  {
   "property": "C57",
   "status": "proved",
   "theorems": [
    "Drift.C57_clear",
    "Drift.C57_enabled_only_by_init",
    "Drift.C57_silent_while_disabled",
    "Drift.C57_fresh_start"
   ],
   "note": ""
  },
  {
   "property": "C58",
   "status": "proved",
   "theorems": [
    "Drift.C58_safe",
    "Drift.C58_progress",
    "Drift.C58_enable_before_init"
   ],
   "note": ""
  },
  {
   "property": "C60",
   "status": "proved",
   "theorems": [
    "Drift.C60_same_trajectory",
    "Drift.C60_from_related",
    "Drift.C60_moving_start"
   ],
   "note": "C60_from_related: any running estimator, any adjoint-related covariance; C60_same_trajectory: from construction, robot at rest at each initialisation; C60_moving_start shows that condition is needed"
  },
  {
   "property": "C61",
   "status": "proved",
   "theorems": [
    "Drift.C61_slip",
    "Drift.C61_independent_of_P"
   ],
   "note": ""
  },
  {
   "property": "C62",
   "status": "proved",
   "theorems": [
    "Drift.C62_rate",
    "Drift.C62_due_is_written",
    "Drift.C62_clear_keeps_time"
   ],
   "note": ""
  },
  {
   "property": "C63",
   "status": "partial",
   "theorems": [
    "Drift.C63_names",
    "Drift.C63_distinct_partial",
    "Drift.C63_each_kind_distinct_partial",
    "Drift.C63_same_number_false",
    "Drift.C63_overwrite_false"
   ],
   "note": "names pairwise distinct proved for every number of clear() calls; the same-number part is false, ++init_count_ is evaluated once per file (C63_same_number_false), and suitable base names make two sessions write one file (C63_overwrite_false)"
  },
  {
   "property": "C64",
   "status": "partial",
   "theorems": [
    "Drift.C64_exactly_when",
    "Drift.C64_extension_partial",
    "Drift.C64_false"
   ],
   "note": "false: a dot in a directory name truncates the path (C64_false); holds when the last dot is that of the extension (C64_extension_partial); exactly when it holds: C64_exactly_when"
  },
  {
   "property": "C65",
   "status": "proved",
   "theorems": [
    "Drift.C65_covariance_psd",
    "Drift.C65_correction_informative"
   ],
   "note": ""
  },
  {
   "property": "C66",
   "status": "partial",
   "theorems": [
    "Drift.C66_stale_front_blocks_forever",
    "Drift.C66_single_imu_alone_never_outputs",
    "Drift.C66_paced_partial"
   ],
   "note": "false: a front older than the threshold is never removed and blocks the filter for good (C66_stale_front_blocks_forever); a single IMU without a gyro never outputs; holds for paced data (C66_paced_partial)"
  },
  {
   "property": "C67",
   "status": "proved",
   "theorems": [
    "Drift.C67_consumes_in_time_order",
    "Drift.C67_merge_sorted",
    "Drift.C67_random_walk_outputs"
   ],
   "note": ""
  },
  {
   "property": "C68",
   "status": "partial",
   "theorems": [
    "Drift.C68_first_imu_ignored",
    "Drift.C68_others_consumed_partial"
   ],
   "note": "false: the IMU registered first is ignored after initialisation (C68_first_imu_ignored); all others are consumed"
  },
  {
   "property": "C69",
   "status": "partial",
   "theorems": [
    "Drift.C69_duplicate_output",
    "Drift.C69_one_output_each_partial"
   ],
   "note": "false: a stale measurement makes the previous output be pushed again (C69_duplicate_output); holds when no front is stale"
  },
  {
   "property": "C70",
   "status": "proved",
   "theorems": [
    "Drift.C70_roll_pitch_telescope",
    "Drift.C70_outputs_raw_roll_pitch"
   ],
   "note": ""
  },
  {
   "property": "C71",
   "status": "proved",
   "theorems": [
    "Drift.C71_passes_acceleration"
   ],
   "note": ""
  },
  {
   "property": "C72",
   "status": "partial",
   "theorems": [
    "Drift.C72_encoder_static_undefined",
    "Drift.C72_zero_size_undefined",
    "Drift.C72_negative_size_never_starts",
    "Drift.C72_estimator_static_undefined",
    "Drift.C72_clear_undefined",
    "Drift.C72_defined_partial",
    "Drift.C72_bias_is_mean"
   ],
   "note": "false for encoder-only + static initialisation, init_bias_size <= 0, the estimator's constructor + static initialisation, and clear() without an encoder; every other supported configuration proved defined (C72_defined_partial) with the bias the mean (C72_bias_is_mean)"
  },
  {
   "property": "C74",
   "status": "proved",
   "theorems": [
    "Drift.C74_pairs_same_message",
    "Drift.C74_nothing_lost",
    "Drift.C74_never_pops_empty",
    "Drift.C74_exclusive",
    "Drift.C74_no_deadlock",
    "Drift.C74_progress",
    "Drift.C74_sequential"
   ],
   "note": ""
  },
  {
   "property": "C75",
   "status": "partial",
   "theorems": [
    "Drift.C75_false",
    "Drift.C75_rotation_partial",
    "Drift.C75_dead_reckoning_partial"
   ],
   "note": "false: the state matrix is rebuilt from Ones(5,5), so it is never in SE_2(3) (C75_false); rotation, position and velocity blocks follow dead reckoning (C75_rotation_partial, C75_dead_reckoning_partial)"
  },
  {
   "property": "C76",
   "status": "proved",
   "theorems": [
    "Drift.C76_clock",
    "Drift.C76_zero_stamp_drops_motion"
   ],
   "note": ""
  },
  {
   "property": "C77",
   "status": "proved",
   "theorems": [
    "Drift.C77_four_wheels",
    "Drift.C77_linear_only",
    "Drift.C77_fetch",
    "Drift.C77_short_messages"
   ],
   "note": ""
  },
  {
   "property": "C79",
   "status": "proved",
   "theorems": [
    "Drift.C79_stored_iff_normalised",
    "Drift.C79_nearly_orthogonal"
   ],
   "note": ""
  },
  {
   "property": "C80",
   "status": "partial",
   "theorems": [
    "Drift.C80_exactly_when",
    "Drift.C80_content_partial",
    "Drift.C80_false"
   ],
   "note": "false: the published matrix is the covariance of (rotation, velocity) (C80_content_partial); C80_false gives a state with position variance 1 published as 0; exactly when it holds: C80_exactly_when"
  },
  {
   "property": "C81",
   "status": "partial",
   "theorems": [
    "Drift.C81_every_kth_partial",
    "Drift.C81_power_of_two_partial",
    "Drift.C81_false",
    "Drift.C81_slow_pose_rate_undefined",
    "Drift.C81_path_message"
   ],
   "note": "holds for fewer than 2^31 publications, and always when k divides 2^32; false beyond (C81_false, k = 100, pose 2147483696); pose_skip = 0 is undefined behaviour (C81_slow_pose_rate_undefined)"
  },
  {
   "property": "C82",
   "status": "partial",
   "theorems": [
    "Drift.C82_mutual_exclusion",
    "Drift.C82_never_empty_partial",
    "Drift.C82_false_with_clear",
    "Drift.C82_data_race"
   ],
   "note": "false with clear(): C82_false_with_clear; unlocked empty() is a data race (C82_data_race); holds without clear() (C82_never_empty_partial)"
  },
  {
   "property": "C83",
   "status": "partial",
   "theorems": [
    "Drift.C83_last_mount_partial",
    "Drift.C83_equal_mounts_partial",
    "Drift.C83_false"
   ],
   "note": "false: one shared transform is overwritten by each registration (C83_false); holds when all mounts are equal; which transform is used: C83_last_mount_partial"
  },
  {
   "property": "C85",
   "status": "proved",
   "theorems": [
    "Drift.C85_jacobian_is_derivative",
    "Drift.C85_own_joints"
   ],
   "note": ""
  },
  {
   "property": "C87",
   "status": "proved",
   "theorems": [
    "Drift.C87_stance_foot_stationary",
    "Drift.C87_recovers_velocity",
    "Drift.C87_no_contact",
    "Drift.C87_default_constructor_undefined"
   ],
   "note": ""
  },
  {
   "property": "C41",
   "status": "proved",
   "theorems": [
    "Drift.C41_negative_size_never_ready"
   ],
   "note": ""
  },
  {
   "property": "C50",
   "status": "proved",
   "theorems": [
    "Drift.C50_perfect_measurement"
   ],
   "note": ""
  },
  {
   "property": "C59",
   "status": "proved",
   "theorems": [
    "Drift.C59_step",
    "Drift.C59_stance_legs"
   ],
   "note": ""
  },
  {
   "property": "C73",
   "status": "partial",
   "theorems": [
    "Drift.C73_encoder_alone_never_outputs",
    "Drift.C73_estimator_filter_never_outputs",
    "Drift.C73_encoder_with_gyro_partial"
   ],
   "note": "false: an encoder without a gyro and the estimator's filter with correction_method != 0 never output; the combinations that do are C73_encoder_with_gyro_partial and the theorems of C66, C67, C69"
  },
  {
   "property": "C78",
   "status": "proved",
   "theorems": [
    "Drift.C78_log_rate",
    "Drift.C78_row_content"
   ],
   "note": ""
  },
  {
   "property": "C84",
   "status": "proved",
   "theorems": [
    "Drift.C84_consecutive",
    "Drift.C84_constant_twist"
   ],
   "note": ""
  },
  {
   "property": "C86",
   "status": "partial",
   "theorems": [
    "Drift.C86_exactly_when",
    "Drift.C86_queued_partial",
    "Drift.C86_false"
   ],
   "note": "false: a non-normalised orientation terminates the program (C86_false); holds for zero or normalised orientations; exactly when it holds: C86_exactly_when"
  },
  {
   "property": "C88",
   "status": "proved",
   "theorems": [
    "Drift.C88_private_queues",
    "Drift.C88_handle",
    "Drift.C88_fifo",
    "Drift.C88_velocity_topic"
   ],
   "note": ""
  },
  {
   "property": "C89",
   "status": "proved",
   "theorems": [
    "Drift.C89_defined",
    "Drift.C89_reports"
   ],
   "note": ""
  },
  {
   "property": "C90",
   "status": "proved",
   "theorems": [
    "Drift.C90_in_order",
    "Drift.C90_defined",
    "Drift.C90_progress"
   ],
   "note": ""
  },
  {
   "property": "C91",
   "status": "proved",
   "theorems": [
    "Drift.C91_forward_kinematics",
    "Drift.C91_orientation_is_rotation",
    "Drift.C91_reach"
   ],
   "note": ""
  },
  {
   "property": "C92",
   "status": "proved",
   "theorems": [
    "Drift.C92_stacked",
    "Drift.C92_body_jacobian",
    "Drift.C92_spatial_jacobian"
   ],
   "note": ""
  },
  {
   "property": "C93",
   "status": "proved",
   "theorems": [
    "Drift.C93_compute_kinematics",
    "Drift.C93_wrong_size_undefined"
   ],
   "note": ""
  },
  {
   "property": "C55",
   "status": "proved",
   "theorems": [
    "Drift.C55_left",
    "Drift.C55_right"
   ],
   "note": ""
  },
  {
   "property": "C94",
   "status": "proved",
   "theorems": [
    "Drift.C94_right",
    "Drift.C94_left"
   ],
   "note": ""
  },
  {
   "property": "C95",
   "status": "proved",
   "theorems": [
    "Drift.C95_right",
    "Drift.C95_initial_variances",
    "Drift.C95_right_marginals",
    "Drift.C95_left"
   ],
   "note": ""
  },
  {
   "property": "C96",
   "status": "proved",
   "theorems": [
    "Drift.C96_process_noise",
    "Drift.C96_configured"
   ],
   "note": ""
  },
  {
   "property": "C97",
   "status": "proved",
   "theorems": [
    "Drift.C97_gain_unique",
    "Drift.C97_right_correction"
   ],
   "note": ""
  },
  {
   "property": "C98",
   "status": "partial",
   "theorems": [
    "Drift.C98_heading_partial",
    "Drift.C98_orientation_unused",
    "Drift.C98_mounting"
   ],
   "note": "false with static bias initialisation, IMU orientation in use and a mounting that does not fix gravity (C98_mounting: InitImuBias composes mounting and orientation the wrong way round); otherwise C98_heading_partial, C98_orientation_unused"
  },
  {
   "property": "C99",
   "status": "partial",
   "theorems": [
    "Drift.LogT.C99_false",
    "Drift.LogT.C99_torn",
    "Drift.LogT.C99_lost_row",
    "Drift.LogT.C99_data_race",
    "Drift.LogT.C99_sessions_partial"
   ],
   "note": "false: a state taken from the queue before clear() is written to the file of the next session (C99_false), its rows can go to different sessions (C99_torn) or be lost (C99_lost_row), and the streams are accessed without a lock (C99_data_race); for every schedule C99_sessions_partial"
  },
  {
   "property": "C100",
   "status": "partial",
   "theorems": [
    "Drift.LogT.C100_false",
    "Drift.LogT.C100_prefix_partial",
    "Drift.LogT.C100_pause",
    "Drift.LogT.C100_terminates",
    "Drift.LogT.C100_no_deadlock",
    "Drift.LogT.C100_short_wait"
   ],
   "note": "false: states still in the queue when the destructor runs are lost (C100_false); what is written is the rate-limited log of the states worked off (C100_prefix_partial), everything if the program pauses (C100_pause); termination, absence of deadlock and bounded waiting are proved in full"
  },
  {
   "property": "C101",
   "status": "partial",
   "theorems": [
    "Drift.C101_time_origin",
    "Drift.C101_log_partial",
    "Drift.C101_log_false"
   ],
   "note": "proved in full for estimates and published states (C101_time_origin); false for the log (C101_log_false: last_pub_t_ starts at 0, so states stamped before 1/rate are not logged), and C101_log_partial covers the log when no stamp is earlier than 1/rate on either clock"
  },
  {
   "property": "C102",
   "status": "proved",
   "theorems": [
    "Drift.C102_stamps"
   ],
   "note": ""
  },
  {
   "property": "C103",
   "status": "proved",
   "theorems": [
    "Drift.C103_kinematic_message",
    "Drift.C103_initial_velocity",
    "Drift.C103_short_messages",
    "Drift.C103_fetch_imu"
   ],
   "note": ""
  },
  {
   "property": "C104",
   "status": "proved",
   "theorems": [
    "Drift.C104_defined"
   ],
   "note": ""
  },
  {
   "property": "C105",
   "status": "proved",
   "theorems": [
    "Drift.C105_sound_poses"
   ],
   "note": ""
  },
  {
   "property": "C106",
   "status": "proved",
   "theorems": [
    "Drift.C106_routing",
    "Drift.C106_wired",
    "Drift.C106_links"
   ],
   "note": ""
  },
  {
   "property": "C107",
   "status": "proved",
   "theorems": [
    "Drift.C107_not_before",
    "Drift.C107_starts",
    "Drift.C107_accounting",
    "Drift.C107_keeps_up",
    "Drift.C107_program_not_before",
    "Drift.C107_program_starts"
   ],
   "note": ""
  },
  {
   "property": "C108",
   "status": "proved",
   "theorems": [
    "Drift.C108_grows"
   ],
   "note": "with bias estimation off; with it the cross terms with the gyro bias enter (C96 gives the step for every linear function)"
  },
  {
   "property": "C109",
   "status": "partial",
   "theorems": [
    "Drift.C109_false",
    "Drift.C109_in_order_partial"
   ],
   "note": "false: a late measurement is integrated over a negative time step, which subtracts process noise; C109_false shows it for every enabled estimator without bias estimation; C109_in_order_partial: valid when the stamps do not decrease"
  },
  {
   "property": "C110",
   "status": "proved",
   "theorems": [
    "Drift.C110_pose",
    "Drift.C110_imu_queue_grows",
    "Drift.C110_imu_crash",
    "Drift.C110_short_message",
    "Drift.C110_fetch_ignores"
   ],
   "note": ""
  },
  {
   "property": "C111",
   "status": "proved",
   "theorems": [
    "Drift.C111_accuracy",
    "Drift.C111_straight",
    "Drift.C111_on_the_spot",
    "Drift.C111_uniform"
   ],
   "note": ""
  },
  {
   "property": "C112",
   "status": "partial",
   "theorems": [
    "Drift.C112_encoder_false",
    "Drift.C112_imus_false",
    "Drift.C112_in_order_partial"
   ],
   "note": "false: C112_encoder_false (an angular velocity measurement that arrives after a newer IMU measurement has been processed is put out behind it), C112_imus_false (several IMUs, even if all deliver in one common time order); C112_in_order_partial: one IMU and/or one angular velocity sensor whose measurements together arrive in time order (for a single correction sensor: that sensor's order), every history"
  },
  {
   "property": "C113",
   "status": "partial",
   "theorems": [
    "Drift.Mekf.C113_roundtrip_partial",
    "Drift.Mekf.C113_false",
    "Drift.Mekf.C113_unit",
    "Drift.Mekf.C113_quaternion"
   ],
   "note": "false: half turns about axes with coordinates of different signs are changed, for example the driver's own Husky mounting (C113_false); C113_roundtrip_partial is an exact characterisation; unit norm and the other direction proved"
  },
  {
   "property": "C114",
   "status": "proved",
   "theorems": [
    "Drift.Mekf.C114_run_valid",
    "Drift.Mekf.C114_drive_valid"
   ],
   "note": ""
  },
  {
   "property": "C115",
   "status": "proved",
   "theorems": [
    "Drift.Mekf.C115_update"
   ],
   "note": ""
  },
  {
   "property": "C116",
   "status": "partial",
   "theorems": [
    "Drift.Mekf.C116_mean",
    "Drift.Mekf.C116_no_rotation_partial",
    "Drift.Mekf.C116_orientation_partial",
    "Drift.Mekf.C116_false"
   ],
   "note": "false when the body turns (C116_false: the velocity rows use the orientation after the step, F is the exponential of a continuous model, the mean is a first-order step); mean (C116_mean), orientation part for every rate and error size (C116_orientation_partial), everything at rate zero (C116_no_rotation_partial)"
  },
  {
   "property": "C117",
   "status": "partial",
   "theorems": [
    "Drift.Mekf.C117_perfect_partial",
    "Drift.Mekf.C117_false"
   ],
   "note": "false for half turns about axes with coordinates of different signs (C117_false); C117_perfect_partial: position and velocity always, orientation exactly when the conversion of C113 is the identity"
  },
  {
   "property": "C118",
   "status": "partial",
   "theorems": [
    "Drift.Mekf.C118_rest_partial",
    "Drift.Mekf.C118_false"
   ],
   "note": "false for every mounting: init_bias subtracts 9.8 along the sensor axis, propoagate 9.81 along the world axis (C118_false); C118_rest_partial gives the exact (wrong) velocity and position, and that the orientation is kept"
  },
  {
   "property": "C119",
   "status": "partial",
   "theorems": [
    "Drift.Mekf.C119_in_order",
    "Drift.Mekf.C119_not_future",
    "Drift.Mekf.C119_rows",
    "Drift.Mekf.C119_fresh_partial",
    "Drift.Mekf.C119_lag_false"
   ],
   "note": "in order, once, never from the future, and the whole computation of the driver, proved (C119_in_order, C119_not_future, C119_rows); that each is used when due is false if the velocity sensor is faster than the IMU (C119_lag_false: unbounded lag) and proved if an IMU row lies between any two velocity stamps (C119_fresh_partial)"
  },
  {
   "property": "C120",
   "status": "proved",
   "theorems": [
    "Drift.Mekf.C120_tum",
    "Drift.Mekf.C120_all_saved"
   ],
   "note": ""
  },
  {
   "property": "C121",
   "status": "partial",
   "theorems": [
    "Drift.Mekf.C121_imported_false",
    "Drift.Mekf.C121_with_globals_partial"
   ],
   "note": "false: propoagate reads k, p_cov, acc_cov, gyro_cov, which only the commented-out driver assigns (C121_imported_false); C121_with_globals_partial: with them assigned"
  },
  {
   "property": "C122",
   "status": "proved",
   "theorems": [
    "Drift.Mekf.C122_file",
    "Drift.Mekf.C122_defined"
   ],
   "note": ""
  },
  {
   "property": "C123",
   "status": "proved",
   "theorems": [
    "Drift.C123_linearizable",
    "Drift.C123_same_order",
    "Drift.C123_in_use",
    "Drift.C123_no_ub"
   ],
   "note": ""
  },
  {
   "property": "C124",
   "status": "partial",
   "theorems": [
    "Drift.C124_no_deadlock",
    "Drift.C124_released",
    "Drift.C124_race_free_partial",
    "Drift.C124_data_race"
   ],
   "note": "deadlock freedom and bounded holding proved in full (C124_no_deadlock, C124_released); race freedom false: set_initial_state and initialize test empty() without the mutex (C124_data_race); every other step commutes with a concurrent access (C124_race_free_partial)"
  },
  {
   "property": "C125",
   "status": "partial",
   "theorems": [
    "Drift.C125_bounded_partial",
    "Drift.C125_starved"
   ],
   "note": "false without a bound on arrivals: measurements older than the threshold that keep arriving hold RunOnce in the loop of Correct (C125_starved); bounded by corrections, queued measurements and arrivals during the call (C125_bounded_partial)"
  },
  {
   "property": "C126",
   "status": "partial",
   "theorems": [
    "Drift.C126_order",
    "Drift.C126_accuracy",
    "Drift.C126_distinct_partial",
    "Drift.C126_false"
   ],
   "note": "order and accuracy proved (C126_order, C126_accuracy); identity false: stamps less than 120 ns apart can collapse to one double (C126_false), those 240 ns apart never do (C126_distinct_partial)"
  },
  {
   "property": "C127",
   "status": "proved",
   "theorems": [
    "Drift.C127_exact",
    "Drift.C127_no_drift",
    "Drift.C127_wheel_clock"
   ],
   "note": ""
  },
  {
   "property": "C128",
   "status": "partial",
   "theorems": [
    "Drift.C128_accuracy",
    "Drift.C128_order",
    "Drift.C128_same_partial",
    "Drift.C128_false"
   ],
   "note": "order and accuracy proved (C128_order, C128_accuracy); identity false for Unix time (C128_false: nanoseconds are lost), true in the first 97 days of a clock that starts at zero (C128_same_partial)"
  },
  {
   "property": "C129",
   "status": "proved",
   "theorems": [
    "Drift.C129_read_back",
    "Drift.C129_distinct"
   ],
   "note": ""
  },
  {
   "property": "C130",
   "status": "proved",
   "theorems": [
    "Drift.C130_lengths",
    "Drift.C130_orthogonal",
    "Drift.C130_per_step"
   ],
   "note": ""
  },
  {
   "property": "C131",
   "status": "partial",
   "theorems": [
    "Drift.C131_exact_partial",
    "Drift.C131_false"
   ],
   "note": "true in exact arithmetic (C131_exact_partial, every rate); false in double arithmetic (C131_false): at 6e-6 rad/s, above the threshold of the code, cancellation makes the block 600000 times too large on every machine with correctly rounded sine and cosine"
  },
  {
   "property": "C132",
   "status": "proved",
   "theorems": [
    "Drift.C132_orientation"
   ],
   "note": ""
  },
  {
   "property": "C133",
   "status": "proved",
   "theorems": [
    "Drift.C133_atomic",
    "Drift.C133_undefined",
    "Drift.C133_defined",
    "Drift.C133_returns"
   ],
   "note": ""
  },
  {
   "property": "C134",
   "status": "partial",
   "theorems": [
    "Drift.C134_false",
    "Drift.C134_stale",
    "Drift.C134_only_pops_partial",
    "Drift.C134_between_runs_partial"
   ],
   "note": "false: clear() between the look at the front of a queue and its pop() makes the filter thread pop an empty queue (C134_false), or discard a new measurement and put out an old one (C134_stale), in the configuration of InekfEstimator::add_imu_ang_vel_ekf; nothing else can go wrong (C134_only_pops_partial), and a clear() between two runs is atomic (C134_between_runs_partial)"
  },
  {
   "property": "C135",
   "status": "partial",
   "theorems": [
    "Drift.Shut.C135_defined",
    "Drift.Shut.C135_threads_first",
    "Drift.Shut.C135_ends_partial",
    "Drift.Shut.C135_hangs",
    "Drift.Shut.C135_false",
    "Drift.Shut.C135_ends_example"
   ],
   "note": "false: InitState waits for the first measurement of each correction without testing ros::ok(), so a program that is shut down while it waits never ends (C135_false; C135_hangs: exactly when a correction still to be initialised has no data once the spinner has stopped); otherwise it ends within 18 turns of every thread (C135_ends_partial); nothing undefined on the way (C135_defined), threads return before their objects are destroyed (C135_threads_first)"
  },
  {
   "property": "C136",
   "status": "partial",
   "theorems": [
    "Drift.Life.C136_exactly",
    "Drift.Life.C136_intended_partial",
    "Drift.Life.C136_false"
   ],
   "note": "false (C136_false): a gyro filter that was never started, a default-constructed estimator and any second start terminate the program; the exact condition is C136_exactly, the use made of the objects by the programs is fine (C136_intended_partial)"
  },
  {
   "property": "C137",
   "status": "partial",
   "theorems": [
    "Drift.C137_lines",
    "Drift.C137_exactly",
    "Drift.C137_perfect_partial",
    "Drift.C137_false"
   ],
   "note": "one line per measurement used, its stamp, and that logging changes nothing, proved (C137_lines); the velocity is false (C137_false): it is turned by the orientation from before the correction; exactly when it is right is C137_exactly, a measurement that agrees with the estimate is C137_perfect_partial"
  },
  {
   "property": "C138",
   "status": "partial",
   "theorems": [
    "Drift.C138_stays_partial",
    "Drift.C138_start_partial",
    "Drift.C138_stamp_false",
    "Drift.C138_lag_false"
   ],
   "note": "false of the code: a measurement older than the propagation time gives its stamp to a pose of the propagation time (C138_stamp_false: perfect sensors, constant speed), and if the robot accelerates an exact estimate is made wrong (C138_lag_false). Proved: from the initialisation (C138_start_partial) the estimate stays the truth at its propagation time if the velocity in the body frame is constant, and at its stamp for every motion without corrections (C138_stays_partial)."
  },
  {
   "property": "C139",
   "status": "proved",
   "theorems": [
    "Drift.C139_correction",
    "Drift.C139_velocity",
    "Drift.C139_contacts",
    "Drift.C139_kinematic"
   ],
   "note": ""
  },
  {
   "property": "C140",
   "status": "partial",
   "theorems": [
    "Drift.C140_only_newest_partial",
    "Drift.C140_false",
    "Drift.C140_repository_test"
   ],
   "note": "false of the code (C140_false): InitState drops all queued measurements of a correction but the newest. What holds, for every estimator: nothing after InitState depends on the others (C140_only_newest_partial). C140_repository_test: the model passes tests/velocitycorrection_test, whatever the velocities before the last"
  },
  {
   "property": "C141",
   "status": "partial",
   "theorems": [
    "Drift.C141_type_false",
    "Drift.C141_type_partial",
    "Drift.C141_printed_false",
    "Drift.C141_printed_partial",
    "Drift.C141_time_partial",
    "Drift.C141_imu_partial",
    "Drift.C141_vectors_partial",
    "Drift.C141_joints_partial",
    "Drift.C141_kinematics_partial",
    "Drift.C141_odom_false",
    "Drift.C141_odom_partial",
    "Drift.C141_direction_partial"
   ],
   "note": "false of the code for the type of a kinematic measurement constructed from values (C141_type_false: EMPTY), for the printed names of angular velocities and odometry (C141_printed_false), and for the transformation of odometry after a setter (C141_odom_false). Everything else is proved for all sequences of calls; C141_type_partial is the exact condition for the type"
  },
  {
   "property": "C142",
   "status": "proved",
   "theorems": [
    "Drift.Wire.C142_size",
    "Drift.Wire.C142_round_trip",
    "Drift.Wire.C142_stream",
    "Drift.Wire.C142_cut",
    "Drift.Wire.C142_unique"
   ],
   "note": ""
  },
  {
   "property": "C143",
   "status": "partial",
   "theorems": [
    "Drift.Wire.C143_ids_false",
    "Drift.Wire.C143_ordered_partial",
    "Drift.Wire.C143_exact_partial"
   ],
   "note": "false of the code (C143_ids_false): the callback goes by the position of an entry and ignores its id. The exact condition is C143_exact_partial; entries in the order of the legs are fine (C143_ordered_partial)"
  },
  {
   "property": "C144",
   "status": "proved",
   "theorems": [
    "Drift.C144_axis_angle",
    "Drift.C144_sign"
   ],
   "note": ""
  },
  {
   "property": "C145",
   "status": "proved",
   "theorems": [
    "Drift.C145_exact"
   ],
   "note": ""
  },
  {
   "property": "C146",
   "status": "partial",
   "theorems": [
    "Drift.C146_used_partial",
    "Drift.C146_dropped_partial",
    "Drift.C146_false"
   ],
   "note": "false of the code (C146_false: perfect sensors, a robot that stands still): measurements that are too old are dropped without a look at their contacts, so that a leg that was lifted in between keeps its column (C146_dropped_partial, for all states and queues). Proved: a lift-off in a measurement that is used is noticed (C146_used_partial)"
  },
  {
   "property": "C147",
   "status": "partial",
   "theorems": [
    "Drift.C147_ignored_partial",
    "Drift.C147_effective_partial",
    "Drift.C147_shipped_partial",
    "Drift.C147_false",
    "Drift.C147_husky_gyro_false"
   ],
   "note": "false of the code (C147_false): contact_std of the legged correction, init_bias_size of the gyro filter built by the estimator, init_bias_using_orientation_est_from_imu, use_imu_ori_est_init_bias and decaying_rate of the IMU propagation, and the publishing rates of mini_cheetah are in files that are loaded and are ignored. Proved, for all files: exactly the listed keys take effect (C147_ignored_partial, C147_effective_partial); all other keys of the shipped files do (C147_shipped_partial)"
  },
  {
   "property": "C148",
   "status": "partial",
   "theorems": [
    "Drift.C148_exact_partial",
    "Drift.C148_false"
   ],
   "note": "false of the code (C148_false): the quaternions of the husky and neya files are not normalised and the code does not normalise them, so a robot at rest with a perfect IMU is estimated to fall. The exact condition, for every file, is C148_exact_partial"
  },
  {
   "property": "C149",
   "status": "proved",
   "theorems": [
    "Drift.C149_exactly_when",
    "Drift.C149_empty",
    "Drift.C149_loads"
   ],
   "note": ""
  },
  {
   "property": "C150",
   "status": "partial",
   "theorems": [
    "Drift.C150_contents_partial",
    "Drift.C150_exact_partial",
    "Drift.C150_false"
   ],
   "note": "false for the shipped configuration of mini_cheetah (C150_false): one name for both logs, and the rows of the velocity are written over those of the pose. Proved: the exact condition on the names, for all names and histories (C150_exact_partial), and the contents when the names differ (C150_contents_partial)"
  },
  {
   "property": "C151",
   "status": "proved",
   "theorems": [
    "Drift.C151_tilt",
    "Drift.C151_later"
   ],
   "note": ""
  },
  {
   "property": "C152",
   "status": "proved",
   "theorems": [
    "Drift.C152_drift",
    "Drift.C152_attained"
   ],
   "note": ""
  },
  {
   "property": "C153",
   "status": "proved",
   "theorems": [
    "Drift.C153_imu",
    "Drift.C153_enc",
    "Drift.C153_imu_variance",
    "Drift.C153_enc_variance"
   ],
   "note": ""
  },
  {
   "property": "C154",
   "status": "proved",
   "theorems": [
    "Drift.C154_imu_then_enc",
    "Drift.C154_enc_then_imu",
    "Drift.C154_needs_encoder",
    "Drift.C154_needs_imu"
   ],
   "note": ""
  },
  {
   "property": "C155",
   "status": "partial",
   "theorems": [
    "Drift.C155_constant_partial",
    "Drift.C155_rest_partial",
    "Drift.C155_lags",
    "Drift.C155_first_sample"
   ],
   "note": "false of the code: when the rate changes only a fraction of the new rate is put out (C155_lags), and the first sample of a propagation gyro enters the rate with its bias, so that a robot at rest is said to turn (C155_first_sample; both for every configuration with three measured axes). Proved: exactness while the rate is constant (C155_constant_partial) and, from construction on, at rest with an unbiased or no propagation gyro (C155_rest_partial)"
  },
  {
   "property": "C156",
   "status": "proved",
   "theorems": [
    "Drift.C156_slip",
    "Drift.C156_growth",
    "Drift.C156_wheel_error",
    "Drift.C156_wheels",
    "Drift.C156_speed_error_attained",
    "Drift.C156_rate_error_attained"
   ],
   "note": ""
  },
  {
   "property": "C157",
   "status": "proved",
   "theorems": [
    "Drift.C157_honest",
    "Drift.C157_exact_sensors",
    "Drift.C157_sensor",
    "Drift.C157_start"
   ],
   "note": ""
  },
  {
   "property": "C158",
   "status": "proved",
   "theorems": [
    "Drift.C158_forgets",
    "Drift.C158_converges",
    "Drift.C158_bounded"
   ],
   "note": ""
  },
  {
   "property": "C159",
   "status": "proved",
   "theorems": [
    "Drift.C159_foot_error",
    "Drift.C159_honest",
    "Drift.C159_shipped",
    "Drift.C159_singular",
    "Drift.C159_uncertain",
    "Drift.C159_mirror",
    "Drift.C159_front_hind"
   ],
   "note": ""
  },
  {
   "property": "C160",
   "status": "proved",
   "theorems": [
    "Drift.C160_velocity",
    "Drift.C160_tilt"
   ],
   "note": ""
  },
  {
   "property": "C161",
   "status": "proved",
   "theorems": [
    "Drift.C161_linear"
   ],
   "note": ""
  },
  {
   "property": "C162",
   "status": "proved",
   "theorems": [
    "Drift.C162_covered",
    "Drift.C162_any_speed"
   ],
   "note": ""
  },
  {
   "property": "C163",
   "status": "proved",
   "theorems": [
    "Drift.C163_walk"
   ],
   "note": ""
  },
  {
   "property": "C164",
   "status": "proved",
   "theorems": [
    "Drift.C164_wheel_rounding"
   ],
   "note": ""
  },
  {
   "property": "C165",
   "status": "proved",
   "theorems": [
    "Drift.C165_imu_rounding"
   ],
   "note": ""
  },
  {
   "property": "C166",
   "status": "proved",
   "theorems": [
    "Drift.C166_order0",
    "Drift.C166_order1",
    "Drift.C166_order2"
   ],
   "note": ""
  },
  {
   "property": "C167",
   "status": "proved",
   "theorems": [
    "Drift.C167_reading"
   ],
   "note": ""
  },
  {
   "property": "C168",
   "status": "proved",
   "theorems": [
    "Drift.C168_dead_reckoning"
   ],
   "note": ""
  },
  {
   "property": "C169",
   "status": "partial",
   "theorems": [
    "Drift.Nan.C169_lost",
    "Drift.Nan.C169_force",
    "Drift.Nan.C169_false",
    "Drift.Nan.C169_exactly_partial"
   ],
   "note": "false (C169_false): after one message with a NaN the state of a running world-centric filter never again consists of numbers, whatever follows; one NaN in a rate or a measured velocity makes orientation, velocity and position NaN at once (C169_lost), one in an acceleration velocity and position, and with the next velocity message the orientation (C169_force); exact condition: the state consists of numbers as long as all messages have (C169_exactly_partial). Covariance not modelled: the gains are arbitrary"
  },
  {
   "property": "C170",
   "status": "partial",
   "theorems": [
    "Drift.Nan.C170_wheel_lost",
    "Drift.Nan.C170_wheel_exactly_partial",
    "Drift.Nan.C170_gyro_lost",
    "Drift.Nan.C170_gyro_exactly_partial",
    "Drift.Nan.C170_false"
   ],
   "note": "false (C170_false): after one message with a NaN the pose of the wheel odometry, or the estimate of the gyro filter, never again consists of numbers, whatever follows; what is lost and when: C170_wheel_lost, C170_gyro_lost; exact conditions C170_wheel_exactly_partial, C170_gyro_exactly_partial"
  },
  {
   "property": "C171",
   "status": "proved",
   "theorems": [
    "Drift.F64.C171_reading",
    "Drift.F64.C171_true_motion"
   ],
   "note": ""
  },
  {
   "property": "C172",
   "status": "proved",
   "theorems": [
    "Drift.F64.C172_quaternion",
    "Drift.F64.C172_length",
    "Drift.F64.C172_published"
   ],
   "note": ""
  }
 ]
}