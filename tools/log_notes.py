NOTES={
"L07":dict(note="the build stops at gamma_SO3_two, before the module of C02_gamma_SO3_series; that theorem states the series for m = 2 and is false of the edit"),
"L14":dict(tightened=["C02_gamma_SO3_series","C02_exp_SO3_is_exp","C03_small_angle_error","C05_exp_eq_one_add_skew_jacobian","C06_exp_SEK3_is_exp","C08_adjoint_transports_exp"],note="first run survived: the statements mentioned the constant by name; they now say 1e-10 and C03 bounds the error by 2e-10"),
"S10":dict(note="the build stops before the module of C22_clear_restores, whose colMap conjunct is false of the edit"),
"S11":dict(note="the build stops before the module of C22_clear_restores, whose Qc conjunct is false of the edit"),
"S22":dict(tightened=["C16_base_cov (added)"],note="no theorem named the block of the base covariance accessors; C16_base_cov added"),
"I02":dict(note="the edit leaves a variable of the definition unbound in the do-block, so the model itself fails; redone as I02b"),
"I05":dict(tightened=["C97_right_correction (added)"],note="C29 would still hold for the edited update (it is even smaller); C97 pins the covariance"),
"R10":dict(tightened=["C103_kinematic_message (added)"],note="no property said what the kinematic callback stores; C103 was added, and the same edit is killed there (R10b)"),
"R13":dict(tightened=["C103_fetch_imu (added)"],note="no property said what the Fetch IMU callback stores; C103 was added, and the same edit is killed there (R13b)"),
"Y12":dict(tightened=["C106_wired (added)","C106_links (added)"],note="C106_routing follows the table of connections of the program; C106_wired pins that table: every correction has exactly one source of its type and every connection a consumer"),
"B03":dict(tightened=["C110_short_message (added)","C110_fetch_ignores (added)"],note="the C110 theorems assumed well-formed messages; the added theorem says what a short joint message does, and fails for the edited program"),
"RD20":dict(note="no theorem is too weak: at the motion of C131_false the edited coefficient rounds to 0 before and after the edit, so the claim (the block is wrong there) stays true of the edited program; the accuracy claims C130 and C132 do not involve it"),
"RD21":dict(note="as RD20: the edited coefficient rounds to 0 at the motion of C131_false, the claim stays true of the edited program"),
"MO11":dict(tightened=["C141_time_partial"],note="C141_time_partial said nothing about the header an odometry object is constructed with; it now pins time, sequence number and frame (MO11b)"),
"YM17":dict(tightened=["C147_husky_gyro_false (added)"],note="the settings theorems were about the filter object, none about the object that husky_gyro_filter builds from its file; the added theorem says that the whole program does not depend on init_bias_size, and fails for the edited program (YM17b)"),
}
