STATUS={
"C08":("proved","stated for v with zero rotation part or outside the 1e-10 ball; C08_small_angle_counterexample shows the restriction is needed"),
"C11":("partial","false for body velocity/position of a world-centric state (C11_body_getters_false); world side and body rotation proved; exactly when it holds: C11_exactly_when"),
"C15":("partial","false from the second contact on: every later addition zeroes the noise block of the previous contact (C15_older_contact_loses_noise); only the newest contact has its noise; in every reachable state every contact but the one in the last column has zero noise (C15_only_last); exactly when it holds: C15_exactly_when"),
"C16":("partial","false with contacts (C16_bias_cov_false); holds while dimX = 5; which block is read: C16_which_block; exactly when it holds: C16_exactly_when"),
"C17":("partial","false for the indices of augmented columns when theta is six-dimensional, and get_aug_bias ignores its index (C17_aug_cov_false, C17_aug_bias_false)"),
"C19":("partial","false: velocity and position are exchanged (C19_from_SEK3_false); exact behaviour in C19_from_SEK3_partial; exactly when it holds: C19_exactly_when"),
"C20":("partial","false for every K other than 2 (C20_inverse_other_sizes); exactly when it holds: C20_exactly_when"),
"C21":("partial","false: copies share the column numbers; deleting a non-last column of a copy corrupts the running filter (C21_copy_corrupts_filter)"),
"C30":("partial","false for both error types: C30_false; the exact covariance map with no information is C30_left_correction_partial, and CorrectRightInvariant is fine up to the yaw reset"),
"C29":("proved","CorrectRightInvariant; on directions not touched by the yaw/bias resets; CorrectLeftInvariant has defect C30"),
"C38":("partial","false: the integer divisions 1/2 and 1/6 make the velocity/position rows of the gyro-bias column zero (C38_small_rate_false); every other column agrees with the limit"),
"C44":("partial","false for the default configuration: init_bias_size 0 averages zero samples, a division by zero (C44_default_false); defined for N >= 1 or non-static initialisation; exactly when it holds: C44_exactly_when"),
"C46":("partial","false for every mounting rotation/scale that moves the measurement (C46_false); holds for identity mounting and unit scale; exactly when it holds: C46_exactly_when, C46_exactly_when_all"),
"C49":("partial","false: after dropping stale measurements the next one is not compared with the propagation time (C49_false); holds when nothing stale is dropped; exactly when a measurement from the future is used: C49_exactly_when"),
"C52":("partial","false: a too-new measurement is only reported on cerr and then processed (C52_false); the queue policy that does hold is C52_queue_partial; such a measurement is never skipped, and treated like one on time: C52_never"),
"C47":("partial","false: the mounting rotation is ignored (C47_false); holds for the identity mounting (C47_identity_mount_partial)"),
"C60":("proved","C60_from_related: any running estimator, any adjoint-related covariance; C60_same_trajectory: from construction, robot at rest at each initialisation; C60_moving_start shows that condition is needed"),
"C63":("partial","names pairwise distinct proved for every number of clear() calls; the same-number part is false, ++init_count_ is evaluated once per file (C63_same_number_false), and suitable base names make two sessions write one file (C63_overwrite_false)"),
"C64":("partial","false: a dot in a directory name truncates the path (C64_false); holds when the last dot is that of the extension (C64_extension_partial); exactly when it holds: C64_exactly_when"),
"C66":("partial","false: a front older than the threshold is never removed and blocks the filter for good (C66_stale_front_blocks_forever); a single IMU without a gyro never outputs; holds for paced data (C66_paced_partial)"),
"C68":("partial","false: the IMU registered first is ignored after initialisation (C68_first_imu_ignored); all others are consumed"),
"C69":("partial","false: a stale measurement makes the previous output be pushed again (C69_duplicate_output); holds when no front is stale"),
"C72":("partial","false for encoder-only + static initialisation, init_bias_size <= 0, the estimator's constructor + static initialisation, and clear() without an encoder; every other supported configuration proved defined (C72_defined_partial) with the bias the mean (C72_bias_is_mean)"),
"C73":("partial","false: an encoder without a gyro and the estimator's filter with correction_method != 0 never output; the combinations that do are C73_encoder_with_gyro_partial and the theorems of C66, C67, C69"),
"C75":("partial","false: the state matrix is rebuilt from Ones(5,5), so it is never in SE_2(3) (C75_false); rotation, position and velocity blocks follow dead reckoning (C75_rotation_partial, C75_dead_reckoning_partial)"),
"C80":("partial","false: the published matrix is the covariance of (rotation, velocity) (C80_content_partial); C80_false gives a state with position variance 1 published as 0; exactly when it holds: C80_exactly_when"),
"C81":("partial","holds for fewer than 2^31 publications, and always when k divides 2^32; false beyond (C81_false, k = 100, pose 2147483696); pose_skip = 0 is undefined behaviour (C81_slow_pose_rate_undefined)"),
"C82":("partial","false with clear(): C82_false_with_clear; unlocked empty() is a data race (C82_data_race); holds without clear() (C82_never_empty_partial)"),
"C83":("partial","false: one shared transform is overwritten by each registration (C83_false); holds when all mounts are equal; which transform is used: C83_last_mount_partial"),
"C86":("partial","false: a non-normalised orientation terminates the program (C86_false); holds for zero or normalised orientations; exactly when it holds: C86_exactly_when"),
"C98":("partial","false with static bias initialisation, IMU orientation in use and a mounting that does not fix gravity (C98_mounting: InitImuBias composes mounting and orientation the wrong way round); otherwise C98_heading_partial, C98_orientation_unused"),
"C99":("partial","false: a state taken from the queue before clear() is written to the file of the next session (C99_false), its rows can go to different sessions (C99_torn) or be lost (C99_lost_row), and the streams are accessed without a lock (C99_data_race); for every schedule C99_sessions_partial"),
"C100":("partial","false: states still in the queue when the destructor runs are lost (C100_false); what is written is the rate-limited log of the states worked off (C100_prefix_partial), everything if the program pauses (C100_pause); termination, absence of deadlock and bounded waiting are proved in full"),
"C101":("partial","proved in full for estimates and published states (C101_time_origin); false for the log (C101_log_false: last_pub_t_ starts at 0, so states stamped before 1/rate are not logged), and C101_log_partial covers the log when no stamp is earlier than 1/rate on either clock"),
"C108":("proved","with bias estimation off; with it the cross terms with the gyro bias enter (C96 gives the step for every linear function)"),
"C109":("partial","false: a late measurement is integrated over a negative time step, which subtracts process noise; C109_false shows it for every enabled estimator without bias estimation; C109_in_order_partial: valid when the stamps do not decrease"),
"C112":("partial","false: C112_encoder_false (an angular velocity measurement that arrives after a newer IMU measurement has been processed is put out behind it), C112_imus_false (several IMUs, even if all deliver in one common time order); C112_in_order_partial: one IMU and/or one angular velocity sensor whose measurements together arrive in time order (for a single correction sensor: that sensor's order), every history"),
"C113":("partial","false: half turns about axes with coordinates of different signs are changed, for example the driver's own Husky mounting (C113_false); C113_roundtrip_partial is an exact characterisation; unit norm and the other direction proved"),
"C116":("partial","false when the body turns (C116_false: the velocity rows use the orientation after the step, F is the exponential of a continuous model, the mean is a first-order step); mean (C116_mean), orientation part for every rate and error size (C116_orientation_partial), everything at rate zero (C116_no_rotation_partial)"),
"C117":("partial","false for half turns about axes with coordinates of different signs (C117_false); C117_perfect_partial: position and velocity always, orientation exactly when the conversion of C113 is the identity"),
"C118":("partial","false for every mounting: init_bias subtracts 9.8 along the sensor axis, propoagate 9.81 along the world axis (C118_false); C118_rest_partial gives the exact (wrong) velocity and position, and that the orientation is kept"),
"C119":("partial","in order, once, never from the future, and the whole computation of the driver, proved (C119_in_order, C119_not_future, C119_rows); that each is used when due is false if the velocity sensor is faster than the IMU (C119_lag_false: unbounded lag) and proved if an IMU row lies between any two velocity stamps (C119_fresh_partial)"),
"C121":("partial","false: propoagate reads k, p_cov, acc_cov, gyro_cov, which only the commented-out driver assigns (C121_imported_false); C121_with_globals_partial: with them assigned"),
"C124":("partial","deadlock freedom and bounded holding proved in full (C124_no_deadlock, C124_released); race freedom false: set_initial_state and initialize test empty() without the mutex (C124_data_race); every other step commutes with a concurrent access (C124_race_free_partial)"),
"C125":("partial","false without a bound on arrivals: measurements older than the threshold that keep arriving hold RunOnce in the loop of Correct (C125_starved); bounded by corrections, queued measurements and arrivals during the call (C125_bounded_partial)"),
"C126":("partial","order and accuracy proved (C126_order, C126_accuracy); identity false: stamps less than 120 ns apart can collapse to one double (C126_false), those 240 ns apart never do (C126_distinct_partial)"),
"C128":("partial","order and accuracy proved (C128_order, C128_accuracy); identity false for Unix time (C128_false: nanoseconds are lost), true in the first 97 days of a clock that starts at zero (C128_same_partial)"),
"C131":("partial","true in exact arithmetic (C131_exact_partial, every rate); false in double arithmetic (C131_false): at 6e-6 rad/s, above the threshold of the code, cancellation makes the block 600000 times too large on every machine with correctly rounded sine and cosine"),
"C134":("partial","false: clear() between the look at the front of a queue and its pop() makes the filter thread pop an empty queue (C134_false), or discard a new measurement and put out an old one (C134_stale), in the configuration of InekfEstimator::add_imu_ang_vel_ekf; nothing else can go wrong (C134_only_pops_partial), and a clear() between two runs is atomic (C134_between_runs_partial)"),
"C135":("partial","false: InitState waits for the first measurement of each correction without testing ros::ok(), so a program that is shut down while it waits never ends (C135_false; C135_hangs: exactly when a correction still to be initialised has no data once the spinner has stopped); otherwise it ends within 18 turns of every thread (C135_ends_partial); nothing undefined on the way (C135_defined), threads return before their objects are destroyed (C135_threads_first)"),
"C136":("partial","false (C136_false): a gyro filter that was never started, a default-constructed estimator and any second start terminate the program; the exact condition is C136_exactly, the use made of the objects by the programs is fine (C136_intended_partial)"),
"C137":("partial","one line per measurement used, its stamp, and that logging changes nothing, proved (C137_lines); the velocity is false (C137_false): it is turned by the orientation from before the correction; exactly when it is right is C137_exactly, a measurement that agrees with the estimate is C137_perfect_partial"),
"C138":("partial","false of the code: a measurement older than the propagation time gives its stamp to a pose of the propagation time (C138_stamp_false: perfect sensors, constant speed), and if the robot accelerates an exact estimate is made wrong (C138_lag_false). Proved: from the initialisation (C138_start_partial) the estimate stays the truth at its propagation time if the velocity in the body frame is constant, and at its stamp for every motion without corrections (C138_stays_partial)."),
"C140":("partial","false of the code (C140_false): InitState drops all queued measurements of a correction but the newest. What holds, for every estimator: nothing after InitState depends on the others (C140_only_newest_partial). C140_repository_test: the model passes tests/velocitycorrection_test, whatever the velocities before the last"),
"C141":("partial","false of the code for the type of a kinematic measurement constructed from values (C141_type_false: EMPTY), for the printed names of angular velocities and odometry (C141_printed_false), and for the transformation of odometry after a setter (C141_odom_false). Everything else is proved for all sequences of calls; C141_type_partial is the exact condition for the type"),
"C143":("partial","false of the code (C143_ids_false): the callback goes by the position of an entry and ignores its id. The exact condition is C143_exact_partial; entries in the order of the legs are fine (C143_ordered_partial)"),
"C146":("partial","false of the code (C146_false: perfect sensors, a robot that stands still): measurements that are too old are dropped without a look at their contacts, so that a leg that was lifted in between keeps its column (C146_dropped_partial, for all states and queues). Proved: a lift-off in a measurement that is used is noticed (C146_used_partial)"),
"C169":("partial","false (C169_false): after one message with a NaN the state of a running world-centric filter never again consists of numbers, whatever follows; one NaN in a rate or a measured velocity makes orientation, velocity and position NaN at once (C169_lost), one in an acceleration velocity and position, and with the next velocity message the orientation (C169_force); exact condition: the state consists of numbers as long as all messages have (C169_exactly_partial). Covariance not modelled: the gains are arbitrary"),
"C170":("partial","false (C170_false): after one message with a NaN the pose of the wheel odometry, or the estimate of the gyro filter, never again consists of numbers, whatever follows; what is lost and when: C170_wheel_lost, C170_gyro_lost; exact conditions C170_wheel_exactly_partial, C170_gyro_exactly_partial"),
"C147":("partial","false of the code (C147_false): contact_std of the legged correction, init_bias_size of the gyro filter built by the estimator, init_bias_using_orientation_est_from_imu, use_imu_ori_est_init_bias and decaying_rate of the IMU propagation, and the publishing rates of mini_cheetah are in files that are loaded and are ignored. Proved, for all files: exactly the listed keys take effect (C147_ignored_partial, C147_effective_partial); all other keys of the shipped files do (C147_shipped_partial)"),
"C148":("partial","false of the code (C148_false): the quaternions of the husky and neya files are not normalised and the code does not normalise them, so a robot at rest with a perfect IMU is estimated to fall. The exact condition, for every file, is C148_exact_partial"),
"C150":("partial","false for the shipped configuration of mini_cheetah (C150_false): one name for both logs, and the rows of the velocity are written over those of the pose. Proved: the exact condition on the names, for all names and histories (C150_exact_partial), and the contents when the names differ (C150_contents_partial)"),
"C155":("partial","false of the code: when the rate changes only a fraction of the new rate is put out (C155_lags), and the first sample of a propagation gyro enters the rate with its bias, so that a robot at rest is said to turn (C155_first_sample; both for every configuration with three measured axes). Proved: exactness while the rate is constant (C155_constant_partial) and, from construction on, at rest with an unbiased or no propagation gyro (C155_rest_partial)"),
}
