import Verif.Model.Yaml

/-!
# The configuration files that the shipped programs load

Generated by tools/gen_yaml.py from the files named in the comments (comments dropped).
-/
set_option linter.style.longLine false
namespace Drift.Shipped

/-- ROS/drift/config/mini_cheetah/ros_comm.yaml (the whole file) -/
noncomputable def miniCheetahRos : List (String × List (String × YVal)) :=
  [("subscribers", [("imu_topic", .str "/Imu"),
    ("joint_encoder_topic", .str "/JointState"),
    ("contact_topic", .str "/Contacts")]),
  ("publishers", [("pose_publish_rate", .int 1000 "1000"),
    ("pose_publish_topic", .str "/robot/inekf_estimation/pose"),
    ("pose_frame", .str "/odom"),
    ("path_publish_rate", .int 100 "100"),
    ("path_publish_topic", .str "/robot/inekf_estimation/path")])]

/-- config/mini_cheetah/inekf_estimator.yaml (the whole file) -/
noncomputable def miniCheetahEst : List (String × List (String × YVal)) :=
  [("logger", [("enable_pose_logger", .bool true),
    ("pose_log_file", .str "/media/justin/DATA/result/DRIFT_TRO/mini_cheetah/test.txt"),
    ("vel_log_file", .str "/media/justin/DATA/result/DRIFT_TRO/mini_cheetah/test.txt"),
    ("pose_log_rate", .int 1000 "1000")]),
  ("state", [("rotation_std_value", .num 0.1 "0.1"),
    ("velocity_std_value", .num 0.1 "0.1"),
    ("position_std_value", .num 0.1 "0.1")])]

/-- config/mini_cheetah/imu_propagation.yaml (the whole file) -/
noncomputable def miniCheetahImu : List (String × List (String × YVal)) :=
  [("settings", [("static_bias_initialization", .bool false),
    ("init_bias_size", .int 250 "250"),
    ("init_bias_using_orientation_est_from_imu", .bool false),
    ("enable_imu_bias_update", .bool false),
    ("use_imu_ori_to_init", .bool false),
    ("rotation_imu2body", .seq [.int 1 "1", .int 0 "0", .int 0 "0", .int 0 "0"])]),
  ("priors", [("gyroscope_bias", .seq [.num 0.00104398 "0.00104398", .num 0.000137212 "0.000137212", .num (-0.000153058) "-0.000153058"]),
    ("accelerometer_bias", .seq [.num 0.00286941 "0.00286941", .num (-0.0323794) "-0.0323794", .num (-0.00220881) "-0.00220881"])]),
  ("noises", [("gyroscope_std", .num 0.01 "0.01"),
    ("accelerometer_std", .num 0.1 "0.1"),
    ("gyroscope_bias_std", .num 0.1 "0.1"),
    ("accelerometer_bias_std", .num 0.1 "0.1")])]

/-- config/mini_cheetah/legged_kinematics_correction.yaml (the whole file) -/
noncomputable def miniCheetahCorr : List (String × List (String × YVal)) :=
  [("settings", [("correction_time_threshold", .num 0.05 "0.05")]),
  ("noises", [("encoder_std", .num 0.0174533 "0.0174533"),
    ("kinematics_additive_std", .num 0.05 "0.05"),
    ("contact_std", .num 0.1 "0.1")])]

/-- the files loaded by ROS/drift/examples/mini_cheetah.cpp -/
noncomputable def miniCheetah : Files :=
  ⟨.of miniCheetahRos, .of miniCheetahEst, .of miniCheetahImu, .of miniCheetahCorr, fun _ _ => none⟩

/-- ROS/drift/config/fetch/ros_comm.yaml (the whole file) -/
noncomputable def fetchRos : List (String × List (String × YVal)) :=
  [("subscribers", [("imu_topic", .str "/imu1/imu"),
    ("wheel_encoder_topic", .str "/joint_states"),
    ("wheel_radius", .num 0.06033 "0.06033"),
    ("track_width", .num 0.37476 "0.37476")]),
  ("publishers", [("pose_publish_rate", .int 1000 "1000"),
    ("pose_publish_topic", .str "/robot/inekf_estimation_test_1/pose"),
    ("pose_frame", .str "/odom"),
    ("path_publish_rate", .int 100 "100"),
    ("path_publish_topic", .str "/robot/inekf_estimation_test_1/path")])]

/-- config/fetch/inekf_estimator.yaml (the whole file) -/
noncomputable def fetchEst : List (String × List (String × YVal)) :=
  [("logger", [("enable_pose_logger", .bool true),
    ("pose_log_file", .str "/media/justin/DATA/result/DRIFT_TRO/fetch//08_origin/InEKF.txt"),
    ("vel_log_file", .str "/media/justin/DATA/result/DRIFT_TRO/fetch//08_origin/InEKF_velocity.txt"),
    ("pose_log_rate", .int 100 "100")]),
  ("state", [("rotation_std_value", .num 0.1 "0.1"),
    ("velocity_std_value", .num 0.1 "0.1"),
    ("position_std_value", .num 0.1 "0.1")])]

/-- config/fetch/imu_propagation.yaml (the whole file) -/
noncomputable def fetchImu : List (String × List (String × YVal)) :=
  [("settings", [("static_bias_initialization", .bool true),
    ("init_bias_size", .int 250 "250"),
    ("init_bias_using_orientation_est_from_imu", .bool false),
    ("enable_imu_bias_update", .bool false),
    ("use_imu_ori_to_init", .bool false),
    ("rotation_imu2body", .seq [.int 1 "1", .int 0 "0", .int 0 "0", .int 0 "0"])]),
  ("priors", [("gyroscope_bias", .seq [.int 0 "0", .int 0 "0", .int 0 "0"]),
    ("accelerometer_bias", .seq [.num 0.24771 "0.24771", .num (-0.301667) "-0.301667", .num (-0.0150318) "-0.0150318"])]),
  ("noises", [("gyroscope_std", .num 0.1 "0.1"),
    ("accelerometer_std", .num 0.1 "0.1"),
    ("gyroscope_bias_std", .num 0.1 "0.1"),
    ("accelerometer_bias_std", .num 0.1 "0.1")])]

/-- config/fetch/velocity_correction.yaml (the whole file) -/
noncomputable def fetchCorr : List (String × List (String × YVal)) :=
  [("settings", [("correction_time_threshold", .num 0.05 "0.05"),
    ("rotation_vel2body", .seq [.int 1 "1", .int 0 "0", .int 0 "0", .int 0 "0"])]),
  ("noises", [("velocity_std", .num 0.1 "0.1")])]

/-- the files loaded by ROS/drift/examples/fetch.cpp -/
noncomputable def fetch : Files :=
  ⟨.of fetchRos, .of fetchEst, .of fetchImu, .of fetchCorr, fun _ _ => none⟩

/-- ROS/drift/config/girona500/ros_comm.yaml (the whole file) -/
noncomputable def girona500Ros : List (String × List (String × YVal)) :=
  [("subscribers", [("imu_topic", .str "/girona500/navigator/imu"),
    ("velocity_topic", .str "/girona500/navigator/dvl_velocity")]),
  ("publishers", [("pose_publish_rate", .int 1000 "1000"),
    ("pose_publish_topic", .str "/girona500/vanila_inekf/pose"),
    ("pose_frame", .str "/odom"),
    ("path_publish_rate", .int 100 "100"),
    ("path_publish_topic", .str "/girona500/vanila_inekf/path")])]

/-- config/girona500/inekf_estimator.yaml (the whole file) -/
noncomputable def girona500Est : List (String × List (String × YVal)) :=
  [("logger", [("enable_pose_logger", .bool true),
    ("pose_log_file", .str "/media/justin/DATA/result/DRIFT_TRO/underwater/test.txt"),
    ("vel_log_file", .str "/media/justin/DATA/result/DRIFT_TRO/underwater/test_vel.txt"),
    ("pose_log_rate", .int 100 "100")]),
  ("state", [("rotation_std_value", .num 0.1 "0.1"),
    ("velocity_std_value", .num 0.1 "0.1"),
    ("position_std_value", .num 0.1 "0.1")])]

/-- config/girona500/imu_propagation.yaml (the whole file) -/
noncomputable def girona500Imu : List (String × List (String × YVal)) :=
  [("settings", [("static_bias_initialization", .bool false),
    ("init_bias_size", .int 250 "250"),
    ("init_bias_using_orientation_est_from_imu", .bool false),
    ("enable_imu_bias_update", .bool false),
    ("use_imu_ori_to_init", .bool false),
    ("rotation_imu2body", .seq [.int 1 "1", .int 0 "0", .int 0 "0", .int 0 "0"]),
    ("translation_imu2body", .seq [.int 0 "0", .int 0 "0", .int 0 "0"])]),
  ("priors", [("gyroscope_bias", .seq [.int 0 "0", .int 0 "0", .int 0 "0"]),
    ("accelerometer_bias", .seq [.int 0 "0", .int 0 "0", .int 0 "0"])]),
  ("noises", [("gyroscope_std", .num 0.01 "0.01"),
    ("accelerometer_std", .num 0.1 "0.1"),
    ("gyroscope_bias_std", .num 0.1 "0.1"),
    ("accelerometer_bias_std", .num 0.1 "0.1")])]

/-- config/girona500/velocity_correction.yaml (the whole file) -/
noncomputable def girona500Corr : List (String × List (String × YVal)) :=
  [("settings", [("correction_time_threshold", .num 0.3 "0.3"),
    ("rotation_vel2body", .seq [.int 1 "1", .int 0 "0", .int 0 "0", .int 0 "0"])]),
  ("noises", [("velocity_std", .num 0.1 "0.1")])]

/-- the files loaded by ROS/drift/examples/girona500.cpp -/
noncomputable def girona500 : Files :=
  ⟨.of girona500Ros, .of girona500Est, .of girona500Imu, .of girona500Corr, fun _ _ => none⟩

/-- ROS/drift/config/husky/ros_comm.yaml (the whole file) -/
noncomputable def huskyRos : List (String × List (String × YVal)) :=
  [("subscribers", [("imu_topic", .str "/gx5_1/imu/data"),
    ("wheel_encoder_topic", .str "/joint_states"),
    ("wheel_radius", .num 0.1580 "0.1580"),
    ("track_width", .num 0.555 "0.555")]),
  ("publishers", [("pose_publish_rate", .int 1000 "1000"),
    ("pose_publish_topic", .str "/husky/vanila_inekf/pose"),
    ("pose_frame", .str "/odom"),
    ("path_publish_rate", .int 100 "100"),
    ("path_publish_topic", .str "/husky/vanila_inekf/path")])]

/-- config/husky/inekf_estimator.yaml (the whole file) -/
noncomputable def huskyEst : List (String × List (String × YVal)) :=
  [("logger", [("enable_pose_logger", .bool true),
    ("pose_log_file", .str "/media/justin/DATA/result/DRIFT_TRO/husky/test.txt"),
    ("vel_log_file", .str "/media/justin/DATA/result/DRIFT_TRO/husky/test_velocity.txt"),
    ("pose_log_rate", .int 10 "10")]),
  ("state", [("rotation_std_value", .num 0.1 "0.1"),
    ("velocity_std_value", .num 0.1 "0.1"),
    ("position_std_value", .num 0.1 "0.1")])]

/-- config/husky/imu_propagation.yaml (the whole file) -/
noncomputable def huskyImu : List (String × List (String × YVal)) :=
  [("settings", [("static_bias_initialization", .bool true),
    ("init_bias_size", .int 250 "250"),
    ("init_bias_using_orientation_est_from_imu", .bool false),
    ("enable_imu_bias_update", .bool false),
    ("use_imu_ori_to_init", .bool false),
    ("rotation_imu2body", .seq [.int 0 "0", .num 0.7071 "0.7071", .num (-0.7071) "-0.7071", .int 0 "0"]),
    ("translation_imu2body", .seq [.int 0 "0", .int 0 "0", .int 0 "0"])]),
  ("priors", [("gyroscope_bias", .seq [.num 0.00104398 "0.00104398", .num 0.000137212 "0.000137212", .num (-0.000153058) "-0.000153058"]),
    ("accelerometer_bias", .seq [.num 0.453028 "0.453028", .num (-0.0670238) "-0.0670238", .num (-0.00260372) "-0.00260372"])]),
  ("noises", [("gyroscope_std", .num 0.01 "0.01"),
    ("accelerometer_std", .num 0.5 "0.5"),
    ("gyroscope_bias_std", .num 0.1 "0.1"),
    ("accelerometer_bias_std", .num 0.1 "0.1")])]

/-- config/husky/velocity_correction.yaml (the whole file) -/
noncomputable def huskyCorr : List (String × List (String × YVal)) :=
  [("settings", [("correction_time_threshold", .num 0.3 "0.3"),
    ("rotation_vel2body", .seq [.int 1 "1", .int 0 "0", .int 0 "0", .int 0 "0"])]),
  ("noises", [("velocity_std", .num 0.5 "0.5")])]

/-- the files loaded by ROS/drift/examples/husky.cpp -/
noncomputable def husky : Files :=
  ⟨.of huskyRos, .of huskyEst, .of huskyImu, .of huskyCorr, fun _ _ => none⟩

/-- ROS/drift/config/husky_odom/ros_comm.yaml (the whole file) -/
noncomputable def huskyOdomRos : List (String × List (String × YVal)) :=
  [("subscribers", [("imu_topic", .str "/gx5_1/imu/data"),
    ("odom_topic", .str "/qualisys_synced/husky_center_odom"),
    ("translation_odom_source_to_body", .seq [.int 0 "0", .int 0 "0", .int 0 "0"]),
    ("rotation_odom_source_to_body", .seq [.int 1 "1", .int 0 "0", .int 0 "0", .int 0 "0"])]),
  ("publishers", [("pose_publish_rate", .int 1000 "1000"),
    ("pose_publish_topic", .str "/husky/inekf_odom_correction/pose"),
    ("pose_frame", .str "/odom"),
    ("path_publish_rate", .int 100 "100"),
    ("path_publish_topic", .str "/husky/inekf_odom_correction/path"),
    ("enable_slip_publisher", .bool true)])]

/-- config/husky_odom/inekf_estimator.yaml (the whole file) -/
noncomputable def huskyOdomEst : List (String × List (String × YVal)) :=
  [("logger", [("enable_pose_logger", .bool true),
    ("pose_log_file", .str "/home/neofelis/Code/drift/log/husky.txt"),
    ("pose_log_rate", .int 10 "10")]),
  ("state", [("rotation_std_value", .num 0.1 "0.1"),
    ("velocity_std_value", .num 0.1 "0.1"),
    ("position_std_value", .num 0.001 "0.001")])]

/-- config/husky_odom/imu_propagation.yaml (the whole file) -/
noncomputable def huskyOdomImu : List (String × List (String × YVal)) :=
  [("settings", [("static_bias_initialization", .bool false),
    ("init_bias_size", .int 250 "250"),
    ("init_bias_using_orientation_est_from_imu", .bool false),
    ("enable_imu_bias_update", .bool false),
    ("use_imu_ori_to_init", .bool false),
    ("decaying_rate", .num 2.5 "2.5"),
    ("rotation_imu2body", .seq [.int 0 "0", .num 0.7071 "0.7071", .num (-0.7071) "-0.7071", .int 0 "0"]),
    ("translation_imu2body", .seq [.num (-0.075) "-0.075", .num 0.15 "0.15", .int 0 "0"])]),
  ("priors", [("gyroscope_bias", .seq [.num 0.00124314 "0.00124314", .num (-0.00037725) "-0.00037725", .num (-0.00254523) "-0.00254523"]),
    ("accelerometer_bias", .seq [.num 0.120438 "0.120438", .num (-0.170559) "-0.170559", .num (-0.00045046) "-0.00045046"])]),
  ("noises", [("gyroscope_std", .num 0.1 "0.1"),
    ("accelerometer_std", .num 0.1 "0.1"),
    ("gyroscope_bias_std", .num 0.1 "0.1"),
    ("accelerometer_bias_std", .num 0.1 "0.1")])]

/-- config/husky_odom/velocity_correction.yaml (the whole file) -/
noncomputable def huskyOdomCorr : List (String × List (String × YVal)) :=
  [("settings", [("correction_time_threshold", .num 0.3 "0.3"),
    ("rotation_vel2body", .seq [.int 1 "1", .int 0 "0", .int 0 "0", .int 0 "0"])]),
  ("noises", [("velocity_std", .num 0.1 "0.1")])]

/-- the files loaded by ROS/drift/examples/husky_odom.cpp -/
noncomputable def huskyOdom : Files :=
  ⟨.of huskyOdomRos, .of huskyOdomEst, .of huskyOdomImu, .of huskyOdomCorr, fun _ _ => none⟩

/-- ROS/drift/config/neya/ros_comm.yaml (the whole file) -/
noncomputable def neyaRos : List (String × List (String × YVal)) :=
  [("subscribers", [("imu_topic", .str "/mrzr/localization/imu/imu"),
    ("velocity_topic", .str "/mrzr/localization/wheel_encoder/twist")]),
  ("publishers", [("pose_publish_rate", .int 1000 "1000"),
    ("pose_publish_topic", .str "/neya/vanila_inekf/pose"),
    ("pose_frame", .str "odom"),
    ("path_publish_rate", .int 100 "100"),
    ("path_publish_topic", .str "/neya/vanila_inekf/path")])]

/-- config/neya/inekf_estimator.yaml (the whole file) -/
noncomputable def neyaEst : List (String × List (String × YVal)) :=
  [("logger", [("enable_pose_logger", .bool true),
    ("pose_log_file", .str "/media/justin/DATA/result/DRIFT_TRO/neya/test.txt"),
    ("vel_log_file", .str "/media/justin/DATA/result/DRIFT_TRO/neya/test_velocity.txt"),
    ("pose_log_rate", .int 100 "100")]),
  ("state", [("rotation_std_value", .num 0.1 "0.1"),
    ("velocity_std_value", .num 0.1 "0.1"),
    ("position_std_value", .num 0.1 "0.1")])]

/-- config/neya/imu_propagation.yaml (the whole file) -/
noncomputable def neyaImu : List (String × List (String × YVal)) :=
  [("settings", [("static_bias_initialization", .bool true),
    ("init_bias_size", .int 250 "250"),
    ("init_bias_using_orientation_est_from_imu", .bool false),
    ("enable_imu_bias_update", .bool false),
    ("use_imu_ori_to_init", .bool false),
    ("rotation_imu2body", .seq [.num 0.7071068 "0.7071068", .int 0 "0", .int 0 "0", .num 0.7071068 "0.7071068"]),
    ("translation_imu2body", .seq [.int 0 "0", .int 0 "0", .int 0 "0"])]),
  ("priors", [("gyroscope_bias", .seq [.num 1.57418e-05 "1.57418e-05", .num (-0.000109696) "-0.000109696", .num (-0.000728956) "-0.000728956"]),
    ("accelerometer_bias", .seq [.num 0.0638591 "0.0638591", .num (-0.145765) "-0.145765", .num (-0.176106) "-0.176106"])]),
  ("noises", [("gyroscope_std", .num 0.01 "0.01"),
    ("accelerometer_std", .num 0.1 "0.1"),
    ("gyroscope_bias_std", .num 0.5 "0.5"),
    ("accelerometer_bias_std", .num 0.5 "0.5")])]

/-- config/neya/velocity_correction.yaml (the whole file) -/
noncomputable def neyaCorr : List (String × List (String × YVal)) :=
  [("settings", [("correction_time_threshold", .num 0.3 "0.3"),
    ("rotation_vel2body", .seq [.int 1 "1", .int 0 "0", .int 0 "0", .int 0 "0"]),
    ("velocity_scale", .num 1.00 "1.00")]),
  ("noises", [("velocity_std", .num 0.5 "0.5")])]

/-- the files loaded by ROS/drift/examples/neya.cpp -/
noncomputable def neya : Files :=
  ⟨.of neyaRos, .of neyaEst, .of neyaImu, .of neyaCorr, fun _ _ => none⟩

/-- ROS/drift/config/fetch_gyro_filter/ros_comm.yaml (the whole file) -/
noncomputable def fetchGyroRos : List (String × List (String × YVal)) :=
  [("subscribers", [("imu_topic", .str "/imu1/imu"),
    ("wheel_encoder_topic", .str "/joint_states"),
    ("wheel_radius", .num 0.06033 "0.06033"),
    ("track_width", .num 0.37476 "0.37476")]),
  ("publishers", [("pose_publish_rate", .int 1000 "1000"),
    ("pose_publish_topic", .str "/robot/inekf_estimation_test_3/pose"),
    ("pose_frame", .str "/odom"),
    ("path_publish_rate", .int 100 "100"),
    ("path_publish_topic", .str "/robot/inekf_estimation_test_3/path")])]

/-- config/fetch_gyro_filter/inekf_estimator.yaml (the whole file) -/
noncomputable def fetchGyroEst : List (String × List (String × YVal)) :=
  [("logger", [("enable_pose_logger", .bool true),
    ("pose_log_file", .str "/media/justin/DATA/result/DRIFT_TRO/fetch//08_origin/InEKF_gyro_filter.txt"),
    ("vel_log_file", .str "/media/justin/DATA/result/DRIFT_TRO/fetch//08_origin/InEKF_gyro_filter_velocity.txt"),
    ("pose_log_rate", .int 100 "100")]),
  ("state", [("rotation_std_value", .num 0.1 "0.1"),
    ("velocity_std_value", .num 0.1 "0.1"),
    ("position_std_value", .num 0.1 "0.1")])]

/-- config/fetch_gyro_filter/imu_propagation.yaml (the whole file) -/
noncomputable def fetchGyroImu : List (String × List (String × YVal)) :=
  [("settings", [("static_bias_initialization", .bool true),
    ("init_bias_size", .int 250 "250"),
    ("init_bias_using_orientation_est_from_imu", .bool false),
    ("enable_imu_bias_update", .bool false),
    ("use_imu_ori_est_init_bias", .bool false),
    ("rotation_imu2body", .seq [.int 1 "1", .int 0 "0", .int 0 "0", .int 0 "0"])]),
  ("priors", [("gyroscope_bias", .seq [.num 0.000 "0.000", .num 0.000000 "0.000000", .num 0.00009 "0.00009"]),
    ("accelerometer_bias", .seq [.num 0.231155 "0.231155", .num (-0.222571) "-0.222571", .num 0.00888084 "0.00888084"])]),
  ("noises", [("gyroscope_std", .num 0.1 "0.1"),
    ("accelerometer_std", .num 0.1 "0.1"),
    ("gyroscope_bias_std", .num 0.1 "0.1"),
    ("accelerometer_bias_std", .num 0.1 "0.1")])]

/-- config/fetch_gyro_filter/velocity_correction.yaml (the whole file) -/
noncomputable def fetchGyroCorr : List (String × List (String × YVal)) :=
  [("settings", [("correction_time_threshold", .num 0.05 "0.05"),
    ("rotation_vel2body", .seq [.int 1 "1", .int 0 "0", .int 0 "0", .int 0 "0"])]),
  ("noises", [("velocity_std", .num 0.1 "0.1")])]

/-- config/fetch_gyro_filter/imu_filter.yaml (the whole file) -/
noncomputable def fetchGyroFilter : List (String × List (String × YVal)) :=
  [("settings", [("rotation_imu2body", .seq [.int 1 "1", .int 0 "0", .int 0 "0", .int 0 "0"]),
    ("flat_ground", .bool false),
    ("correction_method", .int 0 "0"),
    ("static_bias_initialization", .bool false),
    ("init_bias_size", .int 250 "250")]),
  ("noises", [("ang_vel_std", .num 0.1 "0.1"),
    ("ang_vel_bias_std", .num 0.1 "0.1"),
    ("filter_std", .num 0.1 "0.1"),
    ("filter_bias_std", .num 0.1 "0.1"),
    ("imu_meas_noise_std", .num 0.1 "0.1"),
    ("encoder_meas_noise_std", .num 0.1 "0.1")]),
  ("priors", [("ang_vel_bias", .seq [.int 0 "0", .int 0 "0", .int 0 "0"])])]

/-- the files loaded by ROS/drift/examples/fetch_gyro_filter.cpp -/
noncomputable def fetchGyro : Files :=
  ⟨.of fetchGyroRos, .of fetchGyroEst, .of fetchGyroImu, .of fetchGyroCorr, .of fetchGyroFilter⟩

/-- ROS/drift/config/husky_double_imu_filter/ros_comm.yaml (the whole file) -/
noncomputable def huskyDoubleRos : List (String × List (String × YVal)) :=
  [("subscribers", [("imu_topic", .str "/gx5_0/imu/data"),
    ("second_imu_topic", .str "/gx5_1/imu/data"),
    ("wheel_encoder_topic", .str "/joint_states"),
    ("wheel_radius", .num 0.1580 "0.1580"),
    ("track_width", .num 0.555 "0.555")]),
  ("publishers", [("pose_publish_rate", .int 1000 "1000"),
    ("pose_publish_topic", .str "/husky/double_imu_inekf/pose"),
    ("pose_frame", .str "/odom"),
    ("path_publish_rate", .int 100 "100"),
    ("path_publish_topic", .str "/husky/double_imu_inekf/path")])]

/-- config/husky_double_imu_filter/inekf_estimator.yaml (the whole file) -/
noncomputable def huskyDoubleEst : List (String × List (String × YVal)) :=
  [("logger", [("enable_pose_logger", .bool true),
    ("pose_log_file", .str "/home/justin/code/drift/log/husky_double_imu_test.txt"),
    ("vel_log_file", .str "/home/justin/code/drift/log/husky_double_imu_vel_log.txt"),
    ("pose_log_rate", .int 10 "10")]),
  ("state", [("rotation_std_value", .num 0.1 "0.1"),
    ("velocity_std_value", .num 0.1 "0.1"),
    ("position_std_value", .num 0.001 "0.001")])]

/-- config/husky_double_imu_filter/imu_propagation.yaml (the whole file) -/
noncomputable def huskyDoubleImu : List (String × List (String × YVal)) :=
  [("settings", [("static_bias_initialization", .bool true),
    ("init_bias_size", .int 250 "250"),
    ("init_bias_using_orientation_est_from_imu", .bool false),
    ("enable_imu_bias_update", .bool false),
    ("use_imu_ori_to_init", .bool false),
    ("rotation_imu2body", .seq [.int 0 "0", .num 0.7071 "0.7071", .num (-0.7071) "-0.7071", .int 0 "0"]),
    ("translation_imu2body", .seq [.num (-0.075) "-0.075", .num 0.15 "0.15", .int 0 "0"])]),
  ("priors", [("accelerometer_bias", .seq [.num 0.00286941 "0.00286941", .num (-0.0323794) "-0.0323794", .num (-0.00220881) "-0.00220881"]),
    ("gyroscope_bias", .seq [.int 0 "0", .int 0 "0", .int 0 "0"])]),
  ("noises", [("gyroscope_std", .num 0.1 "0.1"),
    ("accelerometer_std", .num 0.1 "0.1"),
    ("gyroscope_bias_std", .num 0.1 "0.1"),
    ("accelerometer_bias_std", .num 0.1 "0.1")])]

/-- config/husky_double_imu_filter/velocity_correction.yaml (the whole file) -/
noncomputable def huskyDoubleCorr : List (String × List (String × YVal)) :=
  [("settings", [("correction_time_threshold", .num 0.3 "0.3"),
    ("rotation_vel2body", .seq [.int 1 "1", .int 0 "0", .int 0 "0", .int 0 "0"])]),
  ("noises", [("velocity_std", .num 0.1 "0.1")])]

/-- config/husky_double_imu_filter/imu_filter.yaml (the whole file) -/
noncomputable def huskyDoubleFilter : List (String × List (String × YVal)) :=
  [("settings", [("rotation_imu2body", .seq [.int 0 "0", .num 0.7071 "0.7071", .num (-0.7071) "-0.7071", .int 0 "0"]),
    ("flat_ground", .bool false),
    ("t_threshold", .num 0.1 "0.1"),
    ("correction_method", .int 1 "1"),
    ("static_bias_initialization", .bool false),
    ("init_bias_size", .int 250 "250")]),
  ("noises", [("ang_vel_std", .num 0.1 "0.1"),
    ("ang_vel_bias_std", .num 0.1 "0.1"),
    ("filter_std", .num 0.1 "0.1"),
    ("filter_bias_std", .num 0.1 "0.1"),
    ("imu_meas_noise_std", .num 0.1 "0.1"),
    ("encoder_meas_noise_std", .num 0.1 "0.1")]),
  ("priors", [("ang_vel_bias", .seq [.num 0.00134591 "0.00134591", .num (-0.000116899) "-0.000116899", .num (-0.000639647) "-0.000639647"])])]

/-- the files loaded by ROS/drift/examples/husky_double_imu_filter.cpp -/
noncomputable def huskyDouble : Files :=
  ⟨.of huskyDoubleRos, .of huskyDoubleEst, .of huskyDoubleImu, .of huskyDoubleCorr, .of huskyDoubleFilter⟩

/-- ROS/drift/config/husky_gyro_filter/ros_comm.yaml (the whole file) -/
noncomputable def huskyGyroRos : List (String × List (String × YVal)) :=
  [("subscribers", [("imu_topic", .str "/gx5_1/imu/data"),
    ("wheel_encoder_topic", .str "/joint_states"),
    ("wheel_radius", .num 0.1580 "0.1580"),
    ("track_width", .num 0.555 "0.555")]),
  ("publishers", [("pose_publish_rate", .int 1000 "1000"),
    ("pose_publish_topic", .str "/husky/gyro_inekf/pose"),
    ("pose_frame", .str "/odom"),
    ("path_publish_rate", .int 100 "100"),
    ("path_publish_topic", .str "/husky/gyro_inekf/path")])]

/-- config/husky_gyro_filter/inekf_estimator.yaml (the whole file) -/
noncomputable def huskyGyroEst : List (String × List (String × YVal)) :=
  [("logger", [("enable_pose_logger", .bool true),
    ("pose_log_file", .str "/home/justin/code/drift/log/husky_gyro_filter.txt"),
    ("vel_log_file", .str "/home/justin/code/drift/log/husky_gyro_filter_vel_log.txt"),
    ("pose_log_rate", .int 10 "10")]),
  ("state", [("rotation_std_value", .num 0.1 "0.1"),
    ("velocity_std_value", .num 0.1 "0.1"),
    ("position_std_value", .num 0.001 "0.001")])]

/-- config/husky_gyro_filter/imu_propagation.yaml (the whole file) -/
noncomputable def huskyGyroImu : List (String × List (String × YVal)) :=
  [("settings", [("static_bias_initialization", .bool true),
    ("init_bias_size", .int 250 "250"),
    ("init_bias_using_orientation_est_from_imu", .bool false),
    ("enable_imu_bias_update", .bool false),
    ("use_imu_ori_to_init", .bool false),
    ("rotation_imu2body", .seq [.int 0 "0", .num 0.7071 "0.7071", .num (-0.7071) "-0.7071", .int 0 "0"]),
    ("translation_imu2body", .seq [.num (-0.075) "-0.075", .num 0.15 "0.15", .int 0 "0"])]),
  ("priors", [("gyroscope_bias", .seq [.num 0.00104398 "0.00104398", .num 0.000137212 "0.000137212", .num (-0.000153058) "-0.000153058"]),
    ("accelerometer_bias", .seq [.num 0.00286941 "0.00286941", .num (-0.0323794) "-0.0323794", .num (-0.00220881) "-0.00220881"])]),
  ("noises", [("gyroscope_std", .num 0.1 "0.1"),
    ("accelerometer_std", .num 0.1 "0.1"),
    ("gyroscope_bias_std", .num 0.1 "0.1"),
    ("accelerometer_bias_std", .num 0.1 "0.1")])]

/-- config/husky_gyro_filter/velocity_correction.yaml (the whole file) -/
noncomputable def huskyGyroCorr : List (String × List (String × YVal)) :=
  [("settings", [("correction_time_threshold", .num 0.3 "0.3"),
    ("rotation_vel2body", .seq [.int 1 "1", .int 0 "0", .int 0 "0", .int 0 "0"])]),
  ("noises", [("velocity_std", .num 0.1 "0.1")])]

/-- config/husky_gyro_filter/imu_filter.yaml (the whole file) -/
noncomputable def huskyGyroFilter : List (String × List (String × YVal)) :=
  [("settings", [("rotation_imu2body", .seq [.int 0 "0", .num 0.7071 "0.7071", .num (-0.7071) "-0.7071", .int 0 "0"]),
    ("flat_ground", .bool false),
    ("t_threshold", .num 0.03 "0.03"),
    ("correction_method", .int 0 "0"),
    ("static_bias_initialization", .bool false),
    ("init_bias_size", .int 250 "250")]),
  ("noises", [("ang_vel_std", .num 0.1 "0.1"),
    ("ang_vel_bias_std", .num 0.1 "0.1"),
    ("filter_std", .num 0.1 "0.1"),
    ("filter_bias_std", .num 0.1 "0.1"),
    ("imu_meas_noise_std", .num 0.1 "0.1"),
    ("encoder_meas_noise_std", .num 0.1 "0.1")]),
  ("priors", [("ang_vel_bias", .seq [.num 0.00124314 "0.00124314", .num (-0.00037725) "-0.00037725", .num (-0.00254523) "-0.00254523"])])]

/-- the files loaded by ROS/drift/examples/husky_gyro_filter.cpp -/
noncomputable def huskyGyro : Files :=
  ⟨.of huskyGyroRos, .of huskyGyroEst, .of huskyGyroImu, .of huskyGyroCorr, .of huskyGyroFilter⟩

/-- ROS/drift/config/neya_gyro_filter/ros_comm.yaml (the whole file) -/
noncomputable def neyaGyroRos : List (String × List (String × YVal)) :=
  [("subscribers", [("imu_topic", .str "/mrzr/localization/imu/imu"),
    ("gyro_topic", .str "/mrzr/localization/gyro/gyro"),
    ("velocity_topic", .str "/mrzr/localization/wheel_encoder/twist")]),
  ("publishers", [("pose_publish_rate", .int 1000 "1000"),
    ("pose_publish_topic", .str "/neya/gyro_filter_inekf/pose"),
    ("pose_frame", .str "odom"),
    ("path_publish_rate", .int 100 "100"),
    ("path_publish_topic", .str "/neya/gyro_filter_inekf/path")])]

/-- config/neya_gyro_filter/inekf_estimator.yaml (the whole file) -/
noncomputable def neyaGyroEst : List (String × List (String × YVal)) :=
  [("logger", [("enable_pose_logger", .bool true),
    ("pose_log_file", .str "/media/justin/DATA/result/DRIFT_TRO/neya/follow/InEKF_gyro_filter.txt"),
    ("vel_log_file", .str "/media/justin/DATA/result/DRIFT_TRO/neya/follow/InEKF_gyro_filter_velocity.txt"),
    ("pose_log_rate", .int 100 "100")]),
  ("state", [("rotation_std_value", .num 0.1 "0.1"),
    ("velocity_std_value", .num 0.1 "0.1"),
    ("position_std_value", .num 0.001 "0.001")])]

/-- config/neya_gyro_filter/imu_propagation.yaml (the whole file) -/
noncomputable def neyaGyroImu : List (String × List (String × YVal)) :=
  [("settings", [("static_bias_initialization", .bool true),
    ("init_bias_size", .int 250 "250"),
    ("init_bias_using_orientation_est_from_imu", .bool false),
    ("enable_imu_bias_update", .bool false),
    ("use_imu_ori_to_init", .bool false),
    ("rotation_imu2body", .seq [.num 0.7071068 "0.7071068", .int 0 "0", .int 0 "0", .num 0.7071068 "0.7071068"]),
    ("translation_imu2body", .seq [.int 0 "0", .int 0 "0", .int 0 "0"])]),
  ("priors", []),
  ("noises", [("gyroscope_std", .num 0.01 "0.01"),
    ("accelerometer_std", .num 0.1 "0.1"),
    ("gyroscope_bias_std", .num 0.5 "0.5"),
    ("accelerometer_bias_std", .num 0.5 "0.5")])]

/-- config/neya_gyro_filter/velocity_correction.yaml (the whole file) -/
noncomputable def neyaGyroCorr : List (String × List (String × YVal)) :=
  [("settings", [("correction_time_threshold", .num 0.3 "0.3"),
    ("rotation_vel2body", .seq [.int 1 "1", .int 0 "0", .int 0 "0", .int 0 "0"]),
    ("velocity_scale", .num 1.00 "1.00")]),
  ("noises", [("velocity_std", .num 0.5 "0.5")])]

/-- config/neya_gyro_filter/imu_filter.yaml (the whole file) -/
noncomputable def neyaGyroFilter : List (String × List (String × YVal)) :=
  [("settings", [("rotation_imu2body", .seq [.int 1 "1", .int 0 "0", .int 0 "0", .int 0 "0"]),
    ("flat_ground", .bool true),
    ("t_threshold", .num 0.1 "0.1"),
    ("correction_method", .int 1 "1"),
    ("static_bias_initialization", .bool true),
    ("init_bias_size", .int 250 "250")]),
  ("noises", [("ang_vel_std", .num 0.1 "0.1"),
    ("ang_vel_bias_std", .num 0.1 "0.1"),
    ("filter_std", .num 0.01 "0.01"),
    ("filter_bias_std", .num 0.01 "0.01"),
    ("imu_meas_noise_std", .num 0.01 "0.01"),
    ("encoder_meas_noise_std", .num 0.01 "0.01")]),
  ("priors", [])]

/-- the files loaded by ROS/drift/examples/neya_gyro_filter.cpp -/
noncomputable def neyaGyro : Files :=
  ⟨.of neyaGyroRos, .of neyaGyroEst, .of neyaGyroImu, .of neyaGyroCorr, .of neyaGyroFilter⟩

end Drift.Shipped
