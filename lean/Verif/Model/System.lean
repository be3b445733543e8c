import Verif.Model.Estimator
import Verif.Model.RosSub
import Verif.Model.RosPub
import Verif.Model.ImuFilter
import Verif.Model.MiniCheetah

/-!
# Model of the shipped ROS programs (`ROS/drift/examples/*.cpp` with `config/*` and `ROS/drift/config/*`)

A program is the composition of the subscriber, optionally the gyro filter, the estimator and the publisher.  A queue that
the subscriber creates is the same object as the buffer of its consumer: here a callback pushes into the queue of the
subscriber model (`RosSub`), and the element is handed on to the consumer's buffer at once, so that the subscriber's own
copy is always empty.  In the same way the output queue of the gyro filter is the IMU buffer of the estimator, and the
publisher reads the output queue of the estimator.

The threads (ROS spinner, filter, main loop, pose logger, pose and path publisher) interleave arbitrarily; every callback,
loop turn, `RunOnce` of the filter, `PosePublish`, `PathPublish` and logger iteration is one event (see the comments of the
component models for why; the accesses to the publisher's queue and the logging thread are modelled step by step elsewhere,
C82, C99, C100).  A queue to which a message was pushed before the consumer was constructed is the same as one whose
message arrives just after.  ROS itself is not modelled; `ros::ok()` and the shutdown are in `Model/Shutdown`.
-/
namespace Drift
open Matrix

/-- legged_kinematics.cpp:41-58: what the legged correction reads of leg `l`.  The Jacobian of a leg enters a 3x3 product
(legged_kinematics_correction.cpp:103-106). -/
def CheetahMeas.legObs (m : CheetahMeas) (l : ℕ) : Option LegObs := do
  let c ← m.get_contact l
  let p ← m.get_kin_pos l
  let J ← m.get_J l
  if h : J.1 = 3 then some ⟨c, p, fun i j => J.2 i (j.cast h.symm)⟩ else none

/-- ros_subscriber.cpp:552-582: the object that `MiniCheetahKinCallBack` fills in -/
def KinMeas.obj (k : KinMeas) : CheetahMeas :=
  ((CheetahMeas.default.set_contact (List.ofFn k.contacts)).set_joint_state (List.ofFn k.encoders)).set_joint_state_velocity
    (List.ofFn k.dEncoders)

/-- mini_cheetah_kinematics.cpp:24-79 and legged_kinematics.cpp:26-58: the measurement as the legged correction sees it.
`ComputeKinematics` is called by the correction (legged_kinematics_correction.cpp:100); `get_init_velocity` does not depend
on it. -/
noncomputable def legOf (k : KinMeas) : Option LegMeas := do
  let m ← k.obj.ComputeKinematics
  let legs ← (List.range m.get_num_legs).mapM m.legObs
  some ⟨k.time, legs, fun w => (m.get_init_velocity w).getD 0⟩

/-- the consumer to which a queue of the subscriber is passed -/
inductive Port
  /-- `add_imu_propagation` -/
  | imu
  /-- `add_velocity_correction` / `add_legged_kinematics_correction`: correction number `i` -/
  | corr (i : ℕ)
  /-- `ImuAngVelEKF::add_gyro_propagate` -/
  | fgyro
  /-- `ImuAngVelEKF::add_imu_correction` (first IMU), or the IMU of `add_imu_ang_vel_ekf` -/
  | fimu
  /-- `ImuAngVelEKF::add_ang_vel_correction`, or the angular velocity of `add_imu_ang_vel_ekf` -/
  | fenc
  /-- the program does not pass the queue on -/
  | unused

/-- what `main` of an example sets up: topics with the consumers of their (first, second) queue, in the order of
registration; the gyro filter as constructed, with its sensors registered; the estimator's configuration; the rates of the
publisher -/
structure Program where
  topics : List (SubKind × Port × Port)
  filter : Option GyroFilter
  et : ErrorType
  est : EstConfig
  imu : ImuPropConfig
  corrs : List CorrConfig
  poseRate : ℝ
  pathRate : ℝ

/-- the running program; `wires` gives the consumer of each queue of the subscriber.  The queue of `pub` is `est.outQ`, the
field `pub.queue` is not used. -/
structure System where
  sub : RosSub
  wires : List (ℕ × Port)
  filter : Option GyroFilter
  est : Estimator
  pub : RosPub

/-- what can happen -/
inductive SysEv
  /-- a message arrives at topic number `i` and its callback runs -/
  | msg (i : ℕ) (m : RosMsg)
  /-- one iteration of the loop of `ImuAngVelEKF::RunFilter` -/
  | filter
  /-- one turn of the main loop -/
  | tick
  /-- one iteration of the pose logging thread -/
  | log
  /-- `PosePublish` -/
  | pose
  /-- `PathPublish` -/
  | path

namespace Program
/-- the `Add...Subscriber` calls of `main`: each returned queue is connected to its consumer -/
def wire : List (SubKind × Port × Port) → RosSub → List (ℕ × Port) → Option (RosSub × List (ℕ × Port))
  | [], s, w => some (s, w)
  | (k, p, p2) :: ts, s, w => do
    let (s, h) ← s.add k
    wire ts s (w ++ (h.q, p) :: if k.two then [(h.q2, p2)] else [])

/-- `main` up to its loop, e.g. ROS/drift/examples/mini_cheetah.cpp:27-97 -/
noncomputable def start (P : Program) (h : Heap) : Option System := do
  let (s, w) ← wire P.topics RosSub.init []
  let e ← Estimator.ctor P.et h P.est P.imu P.corrs
  some ⟨s, w, P.filter, e, RosPub.init P.poseRate P.pathRate⟩
end Program

namespace System

/-- the element `m` reaches the buffer behind the port (an element of the wrong type: nothing) -/
noncomputable def feed (s : System) (p : Port) (m : RosMeas) : Option System :=
  match p, m with
  | .imu, .imu m => (s.est.step (.imu m)).map fun e => { s with est := e }
  | .corr i, .vel m => (s.est.step (.vel i m)).map fun e => { s with est := e }
  | .corr i, .kin k => do
    let l ← legOf k
    (s.est.step (.leg i l)).map fun e => { s with est := e }
  | .fgyro, .imu m => some { s with filter := s.filter.map fun f => { f with gyro := f.gyro.map (· ++ [m]) } }
  | .fimu, .imu m => some { s with filter := s.filter.map fun f => { f with imu := f.imu.map (· ++ [m]) } }
  | .fenc, .ang a => some { s with filter := s.filter.map fun f => { f with enc := f.enc.map (· ++ [a]) } }
  | _, _ => some s

/-- several elements -/
noncomputable def feedAll : System → List (Port × RosMeas) → Option System
  | s, [] => some s
  | s, (p, m) :: l => (s.feed p m).bind fun s => feedAll s l

/-- the elements that the callback has just pushed, with their consumers -/
def fresh (w : List (ℕ × Port)) (sub : RosSub) : List (Port × RosMeas) :=
  w.flatMap fun x => (sub.queues[x.1]?.getD []).map fun m => (x.2, m)

/-- one event -/
noncomputable def step (mlog : M4 → M4) (s : System) : SysEv → Option System
  | .msg i m => do
    let sub ← s.sub.step mlog (.deliver i m)
    feedAll { s with sub := { sub with queues := sub.queues.map fun _ => [] } } (fresh s.wires sub)
  | .filter =>
    match s.filter with
    | none => some s
    | some f => do
      let f ← f.runOnce
      feedAll { s with filter := some { f with out := [] } } (f.out.map fun m => (.imu, .imu m))
  | .tick => (s.est.step .tick).map fun e => { s with est := e }
  | .log => (s.est.step .log).map fun e => { s with est := e }
  | .pose => ({ s.pub with queue := s.est.outQ } : RosPub).posePublish.map fun p =>
      { s with pub := p, est := { s.est with outQ := p.queue } }
  | .path => some { s with pub := s.pub.pathPublish }

/-- a history -/
noncomputable def run (mlog : M4 → M4) : System → List SysEv → Option System
  | s, [] => some s
  | s, ev :: evs => (s.step mlog ev).bind fun s' => run mlog s' evs

end System

/-! ### The shipped programs -/

namespace Program

/-- an example with one IMU topic and one correction: mini_cheetah, fetch, girona500, husky, husky_odom, neya -/
def plain (k : SubKind) (et : ErrorType) (est : EstConfig) (imu : ImuPropConfig) (c : CorrConfig) (poseRate pathRate : ℝ) : Program :=
  { topics := [(.imu, .imu, .unused), (k, .corr 0, .unused)]
    filter := none, et := et, est := est, imu := imu, corrs := [c], poseRate := poseRate, pathRate := pathRate }

/-- examples/mini_cheetah.cpp, config/mini_cheetah/*.yaml.  The publisher is constructed without the configuration file
(lines 93-94), so the rates are the defaults 1000 and 10.  The legged correction does not read the key `contact_std` of
the file (it reads `contact_noise_std`, legged_kinematics_correction.cpp:30-33). -/
noncomputable def miniCheetah : Program :=
  plain .kin .leftInvariant
    { rotation_std_value := some 0.1, velocity_std_value := some 0.1, position_std_value := some 0.1
      enable_pose_logger := true
      pose_log_file := some "/media/justin/DATA/result/DRIFT_TRO/mini_cheetah/test.txt".toList
      vel_log_file := some "/media/justin/DATA/result/DRIFT_TRO/mini_cheetah/test.txt".toList
      pose_log_rate := some 1000 }
    { static_bias_initialization := some false, init_bias_size := some 250, enable_imu_bias_update := some false
      use_imu_ori_to_init := some false, rotation_imu2body := some [1, 0, 0, 0]
      gyroscope_bias := some [0.00104398, 0.000137212, -0.000153058]
      accelerometer_bias := some [0.00286941, -0.0323794, -0.00220881]
      gyroscope_std := some 0.01, accelerometer_std := some 0.1, gyroscope_bias_std := some 0.1
      accelerometer_bias_std := some 0.1 }
    (.leg { encoder_std := some 0.0174533, kinematics_additive_std := some 0.05, correction_time_threshold := some 0.05 })
    1000 10

/-- examples/fetch.cpp, config/fetch/*.yaml, ROS/drift/config/fetch/ros_comm.yaml -/
noncomputable def fetch : Program :=
  plain (.fetch1 0.06033) .rightInvariant
    { rotation_std_value := some 0.1, velocity_std_value := some 0.1, position_std_value := some 0.1
      enable_pose_logger := true
      pose_log_file := some "/media/justin/DATA/result/DRIFT_TRO/fetch//08_origin/InEKF.txt".toList
      vel_log_file := some "/media/justin/DATA/result/DRIFT_TRO/fetch//08_origin/InEKF_velocity.txt".toList
      pose_log_rate := some 100 }
    { static_bias_initialization := some true, init_bias_size := some 250, enable_imu_bias_update := some false
      use_imu_ori_to_init := some false, rotation_imu2body := some [1, 0, 0, 0]
      gyroscope_bias := some [0, 0, 0], accelerometer_bias := some [0.24771, -0.301667, -0.0150318]
      gyroscope_std := some 0.1, accelerometer_std := some 0.1, gyroscope_bias_std := some 0.1
      accelerometer_bias_std := some 0.1 }
    (.vel { correction_time_threshold := some 0.05, rotation_vel2body := some [1, 0, 0, 0], velocity_std := some 0.1 })
    1000 100

/-- examples/girona500.cpp, config/girona500/*.yaml, ROS/drift/config/girona500/ros_comm.yaml -/
noncomputable def girona500 : Program :=
  plain .vel .rightInvariant
    { rotation_std_value := some 0.1, velocity_std_value := some 0.1, position_std_value := some 0.1
      enable_pose_logger := true
      pose_log_file := some "/media/justin/DATA/result/DRIFT_TRO/underwater/test.txt".toList
      vel_log_file := some "/media/justin/DATA/result/DRIFT_TRO/underwater/test_vel.txt".toList
      pose_log_rate := some 100 }
    { static_bias_initialization := some false, init_bias_size := some 250, enable_imu_bias_update := some false
      use_imu_ori_to_init := some false, rotation_imu2body := some [1, 0, 0, 0], translation_imu2body := some [0, 0, 0]
      gyroscope_bias := some [0, 0, 0], accelerometer_bias := some [0, 0, 0]
      gyroscope_std := some 0.01, accelerometer_std := some 0.1, gyroscope_bias_std := some 0.1
      accelerometer_bias_std := some 0.1 }
    (.vel { correction_time_threshold := some 0.3, rotation_vel2body := some [1, 0, 0, 0], velocity_std := some 0.1 })
    1000 100

/-- examples/husky.cpp, config/husky/*.yaml, ROS/drift/config/husky/ros_comm.yaml -/
noncomputable def husky : Program :=
  plain (.diff1 0.1580) .rightInvariant
    { rotation_std_value := some 0.1, velocity_std_value := some 0.1, position_std_value := some 0.1
      enable_pose_logger := true
      pose_log_file := some "/media/justin/DATA/result/DRIFT_TRO/husky/test.txt".toList
      vel_log_file := some "/media/justin/DATA/result/DRIFT_TRO/husky/test_velocity.txt".toList
      pose_log_rate := some 10 }
    { static_bias_initialization := some true, init_bias_size := some 250, enable_imu_bias_update := some false
      use_imu_ori_to_init := some false, rotation_imu2body := some [0, 0.7071, -0.7071, 0]
      translation_imu2body := some [0, 0, 0]
      gyroscope_bias := some [0.00104398, 0.000137212, -0.000153058]
      accelerometer_bias := some [0.453028, -0.0670238, -0.00260372]
      gyroscope_std := some 0.01, accelerometer_std := some 0.5, gyroscope_bias_std := some 0.1
      accelerometer_bias_std := some 0.1 }
    (.vel { correction_time_threshold := some 0.3, rotation_vel2body := some [1, 0, 0, 0], velocity_std := some 0.5 })
    1000 100

/-- examples/husky_odom.cpp, config/husky_odom/*.yaml, ROS/drift/config/husky_odom/ros_comm.yaml -/
noncomputable def huskyOdom : Program :=
  plain (.odom [0, 0, 0] [1, 0, 0, 0]) .rightInvariant
    { rotation_std_value := some 0.1, velocity_std_value := some 0.1, position_std_value := some 0.001
      enable_pose_logger := true
      pose_log_file := some "/home/neofelis/Code/drift/log/husky.txt".toList
      pose_log_rate := some 10 }
    { static_bias_initialization := some false, init_bias_size := some 250, enable_imu_bias_update := some false
      use_imu_ori_to_init := some false, rotation_imu2body := some [0, 0.7071, -0.7071, 0]
      translation_imu2body := some [-0.075, 0.15, 0]
      gyroscope_bias := some [0.00124314, -0.00037725, -0.00254523]
      accelerometer_bias := some [0.120438, -0.170559, -0.00045046]
      gyroscope_std := some 0.1, accelerometer_std := some 0.1, gyroscope_bias_std := some 0.1
      accelerometer_bias_std := some 0.1 }
    (.vel { correction_time_threshold := some 0.3, rotation_vel2body := some [1, 0, 0, 0], velocity_std := some 0.1 })
    1000 100

/-- examples/neya.cpp, config/neya/*.yaml, ROS/drift/config/neya/ros_comm.yaml -/
noncomputable def neya : Program :=
  plain .velCov .rightInvariant
    { rotation_std_value := some 0.1, velocity_std_value := some 0.1, position_std_value := some 0.1
      enable_pose_logger := true
      pose_log_file := some "/media/justin/DATA/result/DRIFT_TRO/neya/test.txt".toList
      vel_log_file := some "/media/justin/DATA/result/DRIFT_TRO/neya/test_velocity.txt".toList
      pose_log_rate := some 100 }
    { static_bias_initialization := some true, init_bias_size := some 250, enable_imu_bias_update := some false
      use_imu_ori_to_init := some false, rotation_imu2body := some [0.7071068, 0, 0, 0.7071068]
      translation_imu2body := some [0, 0, 0]
      gyroscope_bias := some [1.57418e-05, -0.000109696, -0.000728956]
      accelerometer_bias := some [0.0638591, -0.145765, -0.176106]
      gyroscope_std := some 0.01, accelerometer_std := some 0.1, gyroscope_bias_std := some 0.5
      accelerometer_bias_std := some 0.5 }
    (.vel { correction_time_threshold := some 0.3, rotation_vel2body := some [1, 0, 0, 0], velocity_scale := some 1
            velocity_std := some 0.5 })
    1000 100

/-- the filter settings shared by the shipped imu_filter.yaml files (noises 0.1) -/
noncomputable def filterCfg (rot : Quat) (thres : ℝ) (method : FMethod) (prior : V3) : FCfg :=
  { rotImu2body := rot, tThres := thres, method := method, initBiasSize := 250, angVelStd := 0.1, biasStd := 0.1
    filterStd := 0.1, filterBiasStd := 0.1, imuStd := 0.1, encStd := 0.1, flatGround := false, staticBias := false
    prior := prior }

/-- examples/fetch_gyro_filter.cpp, config/fetch_gyro_filter/*.yaml, ROS/drift/config/fetch_gyro_filter/ros_comm.yaml.
`t_threshold` is absent (default 0.03, imu_ang_vel_ekf.cpp:196-198); the method number 0 is overridden by the registered
sensors. -/
noncomputable def fetchGyro : Program :=
  { topics := [(.imu, .fgyro, .unused), (.fetch2 0.06033 0.37476, .corr 0, .fenc)]
    filter := some (GyroFilter.mk1 (filterCfg ⟨1, 0, 0, 0⟩ 0.03 .imuPlusAngVel ![0, 0, 0])).addGyro.addAngVel
    et := .rightInvariant
    est :=
      { rotation_std_value := some 0.1, velocity_std_value := some 0.1, position_std_value := some 0.1
        enable_pose_logger := true
        pose_log_file := some "/media/justin/DATA/result/DRIFT_TRO/fetch//08_origin/InEKF_gyro_filter.txt".toList
        vel_log_file := some "/media/justin/DATA/result/DRIFT_TRO/fetch//08_origin/InEKF_gyro_filter_velocity.txt".toList
        pose_log_rate := some 100 }
    imu :=
      { static_bias_initialization := some true, init_bias_size := some 250, enable_imu_bias_update := some false
        rotation_imu2body := some [1, 0, 0, 0]
        gyroscope_bias := some [0, 0, 0.00009], accelerometer_bias := some [0.231155, -0.222571, 0.00888084]
        gyroscope_std := some 0.1, accelerometer_std := some 0.1, gyroscope_bias_std := some 0.1
        accelerometer_bias_std := some 0.1 }
    corrs := [.vel { correction_time_threshold := some 0.05, rotation_vel2body := some [1, 0, 0, 0], velocity_std := some 0.1 }]
    poseRate := 1000, pathRate := 100 }

/-- examples/husky_double_imu_filter.cpp, config/husky_double_imu_filter/*.yaml,
ROS/drift/config/husky_double_imu_filter/ros_comm.yaml: the first IMU corrects, the second propagates; the angular velocity
of the wheels is not used -/
noncomputable def huskyDouble : Program :=
  { topics := [(.imu, .fimu, .unused), (.imu, .fgyro, .unused), (.diff2 0.1580 0.555, .corr 0, .unused)]
    filter := some (GyroFilter.mk1 (filterCfg ⟨0, 0.7071, -0.7071, 0⟩ 0.1 .singleImu
      ![0.00134591, -0.000116899, -0.000639647])).addGyro.addImu
    et := .rightInvariant
    est :=
      { rotation_std_value := some 0.1, velocity_std_value := some 0.1, position_std_value := some 0.001
        enable_pose_logger := true
        pose_log_file := some "/home/justin/code/drift/log/husky_double_imu_test.txt".toList
        vel_log_file := some "/home/justin/code/drift/log/husky_double_imu_vel_log.txt".toList
        pose_log_rate := some 10 }
    imu :=
      { static_bias_initialization := some true, init_bias_size := some 250, enable_imu_bias_update := some false
        use_imu_ori_to_init := some false, rotation_imu2body := some [0, 0.7071, -0.7071, 0]
        translation_imu2body := some [-0.075, 0.15, 0]
        gyroscope_bias := some [0, 0, 0], accelerometer_bias := some [0.00286941, -0.0323794, -0.00220881]
        gyroscope_std := some 0.1, accelerometer_std := some 0.1, gyroscope_bias_std := some 0.1
        accelerometer_bias_std := some 0.1 }
    corrs := [.vel { correction_time_threshold := some 0.3, rotation_vel2body := some [1, 0, 0, 0], velocity_std := some 0.1 }]
    poseRate := 1000, pathRate := 100 }

/-- examples/husky_gyro_filter.cpp, config/husky_gyro_filter/*.yaml, ROS/drift/config/husky_gyro_filter/ros_comm.yaml: the
filter is created by `add_imu_ang_vel_ekf` (the constructor with buffers) -/
noncomputable def huskyGyro : Program :=
  { topics := [(.imu, .fimu, .unused), (.diff2 0.1580 0.555, .corr 0, .fenc)]
    filter := some (GyroFilter.mk5 (filterCfg ⟨0, 0.7071, -0.7071, 0⟩ 0.03 .imuPlusAngVel
      ![0.00124314, -0.00037725, -0.00254523]))
    et := .rightInvariant
    est :=
      { rotation_std_value := some 0.1, velocity_std_value := some 0.1, position_std_value := some 0.001
        enable_pose_logger := true
        pose_log_file := some "/home/justin/code/drift/log/husky_gyro_filter.txt".toList
        vel_log_file := some "/home/justin/code/drift/log/husky_gyro_filter_vel_log.txt".toList
        pose_log_rate := some 10 }
    imu :=
      { static_bias_initialization := some true, init_bias_size := some 250, enable_imu_bias_update := some false
        use_imu_ori_to_init := some false, rotation_imu2body := some [0, 0.7071, -0.7071, 0]
        translation_imu2body := some [-0.075, 0.15, 0]
        gyroscope_bias := some [0.00104398, 0.000137212, -0.000153058]
        accelerometer_bias := some [0.00286941, -0.0323794, -0.00220881]
        gyroscope_std := some 0.1, accelerometer_std := some 0.1, gyroscope_bias_std := some 0.1
        accelerometer_bias_std := some 0.1 }
    corrs := [.vel { correction_time_threshold := some 0.3, rotation_vel2body := some [1, 0, 0, 0], velocity_std := some 0.1 }]
    poseRate := 1000, pathRate := 100 }

/-- examples/neya_gyro_filter.cpp, config/neya_gyro_filter/*.yaml, ROS/drift/config/neya_gyro_filter/ros_comm.yaml.  The
sections `priors:` are empty, so the defaults are used (the bias priors are zero). -/
noncomputable def neyaGyro : Program :=
  { topics := [(.imu, .fimu, .unused), (.imu, .fgyro, .unused), (.velCov, .corr 0, .unused)]
    filter := some (GyroFilter.mk1
      { rotImu2body := ⟨1, 0, 0, 0⟩, tThres := 0.1, method := .singleImu, initBiasSize := 250, angVelStd := 0.1
        biasStd := 0.1, filterStd := 0.01, filterBiasStd := 0.01, imuStd := 0.01, encStd := 0.01, flatGround := true
        staticBias := true, prior := ![0, 0, 0] }).addGyro.addImu
    et := .rightInvariant
    est :=
      { rotation_std_value := some 0.1, velocity_std_value := some 0.1, position_std_value := some 0.001
        enable_pose_logger := true
        pose_log_file := some "/media/justin/DATA/result/DRIFT_TRO/neya/follow/InEKF_gyro_filter.txt".toList
        vel_log_file := some "/media/justin/DATA/result/DRIFT_TRO/neya/follow/InEKF_gyro_filter_velocity.txt".toList
        pose_log_rate := some 100 }
    imu :=
      { static_bias_initialization := some true, init_bias_size := some 250, enable_imu_bias_update := some false
        use_imu_ori_to_init := some false, rotation_imu2body := some [0.7071068, 0, 0, 0.7071068]
        translation_imu2body := some [0, 0, 0]
        gyroscope_std := some 0.01, accelerometer_std := some 0.1, gyroscope_bias_std := some 0.5
        accelerometer_bias_std := some 0.5 }
    corrs := [.vel { correction_time_threshold := some 0.3, rotation_vel2body := some [1, 0, 0, 0], velocity_scale := some 1
                     velocity_std := some 0.5 }]
    poseRate := 1000, pathRate := 100 }

end Program
end Drift
