import Verif.Model.System

/-!
# Model of the configuration files and of the code that reads them

A configuration file is a map of sections, each a map from keys to values (all shipped files have this shape; yaml-cpp reads an empty section
like an absent one).  The text of a scalar is not parsed here: a scalar is given by what the conversions of yaml-cpp (`as<bool>()`, `as<int>()`,
`as<double>()`, `as<std::string>()`) return for it, `none` when they throw.  `none` of a reader is an uncaught exception (or reading beyond the end
of a sequence that is too short): the program ends.
-/
namespace Drift

/-- a value in a configuration file -/
inductive YVal
  | scalar (b : Option Bool) (i : Option ℤ) (d : Option ℝ) (s : Option (List Char))
  | seq (l : List YVal)

namespace YVal
/-- `node.as<bool>()` -/
def asBool : YVal → Option Bool
  | scalar b _ _ _ => b
  | seq _ => none
/-- `node.as<int>()` -/
def asInt : YVal → Option ℤ
  | scalar _ i _ _ => i
  | seq _ => none
/-- `node.as<double>()` -/
def asDouble : YVal → Option ℝ
  | scalar _ _ d _ => d
  | seq _ => none
/-- `node.as<std::string>()` -/
def asString : YVal → Option (List Char)
  | scalar _ _ _ s => s
  | seq _ => none
/-- `node.as<std::vector<double>>()` -/
def asDoubles : YVal → Option (List ℝ)
  | scalar _ _ _ _ => none
  | seq l => l.mapM asDouble

/-- the scalars of the shipped files: `true`/`false`, a decimal number without and with a point or exponent, a string -/
def bool (b : Bool) : YVal := scalar (some b) none none (some (toString b).toList)
def int (i : ℤ) (s : String) : YVal := scalar none (some i) (some i) (some s.toList)
def num (d : ℝ) (s : String) : YVal := scalar none none (some d) (some s.toList)
def str (s : String) : YVal := scalar none none none (some s.toList)
end YVal

/-- a configuration file: the value of the key `k` of the section `s` is `d s k`, if there is one -/
abbrev Doc := String → String → Option YVal

namespace Doc

/-- a file written down section by section -/
def of (l : List (String × List (String × YVal))) : Doc := fun s k => (l.lookup s).bind (·.lookup k)

/-- `config[s][k] ? config[s][k].as<T>() : …`: absent is `some none`, an unreadable value throws -/
def opt {α : Type} (d : Doc) (s k : String) (conv : YVal → Option α) : Option (Option α) :=
  match d s k with
  | none => some none
  | some v => (conv v).map some

/-- `config[s][k].as<T>()`: absent throws -/
def req {α : Type} (d : Doc) (s k : String) (conv : YVal → Option α) : Option α :=
  match d s k with
  | none => none
  | some v => conv v

/-- imu_propagation.cpp:41-116: what the constructor reads -/
def imuConfig (d : Doc) : Option ImuPropConfig := do
  let a ← d.opt "settings" "static_bias_initialization" YVal.asBool
  let b ← d.opt "settings" "init_bias_size" YVal.asInt
  let c ← d.opt "settings" "use_imu_ori_to_init" YVal.asBool
  let e ← d.opt "settings" "rotation_imu2body" YVal.asDoubles
  let f ← d.opt "noises" "gyroscope_std" YVal.asDouble
  let g ← d.opt "noises" "accelerometer_std" YVal.asDouble
  let h ← d.opt "noises" "gyroscope_bias_std" YVal.asDouble
  let i ← d.opt "noises" "accelerometer_bias_std" YVal.asDouble
  let j ← d.opt "priors" "gyroscope_bias" YVal.asDoubles
  let k ← d.opt "priors" "accelerometer_bias" YVal.asDoubles
  let l ← d.opt "settings" "enable_imu_bias_update" YVal.asBool
  let m ← d.opt "settings" "translation_imu2body" YVal.asDoubles
  some ⟨a, b, c, e, f, g, h, i, j, k, l, m⟩

/-- velocity_correction.cpp:31-53 -/
def velConfig (d : Doc) : Option VelConfig := do
  let a ← d.opt "noises" "velocity_std" YVal.asDouble
  let b ← d.opt "settings" "correction_time_threshold" YVal.asDouble
  let c ← d.opt "settings" "rotation_vel2body" YVal.asDoubles
  let e ← d.opt "settings" "velocity_scale" YVal.asDouble
  some ⟨a, b, c, e⟩

/-- legged_kinematics_correction.cpp:18-40 -/
def legConfig (d : Doc) : Option LegConfig := do
  let a ← d.opt "noises" "encoder_std" YVal.asDouble
  let b ← d.opt "noises" "kinematics_additive_std" YVal.asDouble
  let c ← d.opt "noises" "contact_noise_std" YVal.asDouble
  let e ← d.opt "settings" "correction_time_threshold" YVal.asDouble
  some ⟨a, b, c, e⟩

/-- inekf_estimator.cpp:29-64 -/
def estConfig (d : Doc) : Option EstConfig := do
  let en ← d.req "logger" "enable_pose_logger" YVal.asBool
  let a ← d.opt "state" "rotation_std_value" YVal.asDouble
  let b ← d.opt "state" "velocity_std_value" YVal.asDouble
  let c ← d.opt "state" "position_std_value" YVal.asDouble
  if en then
    let p ← d.opt "logger" "pose_log_file" YVal.asString
    let v ← d.opt "logger" "vel_log_file" YVal.asString
    let r ← d.opt "logger" "pose_log_rate" YVal.asDouble
    some ⟨a, b, c, true, p, v, r⟩
  else some ⟨a, b, c, false, none, none, none⟩

/-- imu_ang_vel_ekf.h:46-51 and imu_ang_vel_ekf.cpp:62-65: the conversion of a number to `CORRECTION_METHOD` -/
def methodOf : ℤ → FMethod
  | 0 => .imuPlusAngVel
  | 1 => .singleImu
  | 2 => .multiImu
  | 3 => .angVel
  | _ => .invalid

/-- imu_ang_vel_ekf.cpp:41-116 (`sized = false`: the constructor with buffers, which does not read `init_bias_size`; the value put here is not used
by `GyroFilter.mk5`) and 179-296 (`sized = true`) -/
noncomputable def filterConfig (sized : Bool) (d : Doc) : Option FCfg := do
  let q ← d.opt "settings" "rotation_imu2body" YVal.asDoubles
  let q ← quat? (q.getD [1, 0, 0, 0])
  let fg ← d.opt "settings" "flat_ground" YVal.asBool
  let tt ← d.opt "settings" "t_threshold" YVal.asDouble
  let cm ← d.opt "settings" "correction_method" YVal.asInt
  let ib ← (if sized then d.opt "settings" "init_bias_size" YVal.asInt else some none)
  let sb ← d.opt "settings" "static_bias_initialization" YVal.asBool
  let pr ← (if sb.getD false then some ![0, 0, 0] else
    (d.opt "priors" "ang_vel_bias" YVal.asDoubles).bind fun v => vec3? (v.getD [0, 0, 0]))
  let a ← d.opt "noises" "ang_vel_std" YVal.asDouble
  let b ← d.opt "noises" "ang_vel_bias_std" YVal.asDouble
  let c ← d.opt "noises" "filter_std" YVal.asDouble
  let e ← d.opt "noises" "filter_bias_std" YVal.asDouble
  let f ← d.opt "noises" "imu_meas_noise_std" YVal.asDouble
  let g ← d.opt "noises" "encoder_meas_noise_std" YVal.asDouble
  some
    { rotImu2body := q, tThres := tt.getD 0.03, method := methodOf (cm.getD 0), initBiasSize := ib.getD 250
      angVelStd := a.getD 0.01, biasStd := b.getD 0.01, filterStd := c.getD 0.01, filterBiasStd := e.getD 0.01
      imuStd := f.getD 0.1, encStd := g.getD 0.1, flatGround := fg.getD false, staticBias := sb.getD false, prior := pr }

/-- ros_publisher.cpp:43-66: the constructor with a configuration file; topics, frame and the slip flag must be readable -/
def pubRates (d : Doc) : Option (ℝ × ℝ) := do
  let _ ← d.req "publishers" "pose_publish_topic" YVal.asString
  let _ ← d.req "publishers" "path_publish_topic" YVal.asString
  let _ ← d.req "publishers" "pose_frame" YVal.asString
  let a ← d.req "publishers" "pose_publish_rate" YVal.asDouble
  let b ← d.req "publishers" "path_publish_rate" YVal.asDouble
  let _ ← d.opt "publishers" "enable_slip_publisher" YVal.asBool
  some (a, b)

/-- the constructor without a configuration file, ros_publisher.cpp:18-41 -/
def pubDefault : ℝ × ℝ := (1000, 10)

end Doc

/-- the configuration files of one robot -/
structure Files where
  /-- ROS/drift/config/…/ros_comm.yaml -/
  ros : Doc
  /-- config/…/inekf_estimator.yaml -/
  est : Doc
  /-- config/…/imu_propagation.yaml -/
  imu : Doc
  /-- config/…/velocity_correction.yaml or legged_kinematics_correction.yaml -/
  corr : Doc
  /-- config/…/imu_filter.yaml -/
  filter : Doc := fun _ _ => none

namespace Files

/-- the calls of `main` that construct the estimator of the examples without gyro filter, given the subscription of the correction -/
def plain (f : Files) (k : SubKind) (et : ErrorType) (leg : Bool) (rates : ℝ × ℝ) : Option Program := do
  let est ← f.est.estConfig
  let imu ← f.imu.imuConfig
  let c ← if leg then f.corr.legConfig.map CorrConfig.leg else f.corr.velConfig.map CorrConfig.vel
  some (Program.plain k et est imu c rates.1 rates.2)

/-- examples/mini_cheetah.cpp:40-96 -/
def miniCheetah (f : Files) : Option Program := do
  let _ ← f.ros.req "subscribers" "imu_topic" YVal.asString
  let _ ← f.ros.req "subscribers" "joint_encoder_topic" YVal.asString
  let _ ← f.ros.req "subscribers" "contact_topic" YVal.asString
  f.plain .kin .leftInvariant true Doc.pubDefault

/-- examples/fetch.cpp:40-98 -/
def fetch (f : Files) : Option Program := do
  let _ ← f.ros.req "subscribers" "imu_topic" YVal.asString
  let _ ← f.ros.req "subscribers" "wheel_encoder_topic" YVal.asString
  let r ← f.ros.req "subscribers" "wheel_radius" YVal.asDouble
  let _ ← f.ros.req "subscribers" "track_width" YVal.asDouble
  let p ← f.ros.pubRates
  f.plain (.fetch1 r) .rightInvariant false p

/-- examples/girona500.cpp:42-92 -/
def girona500 (f : Files) : Option Program := do
  let _ ← f.ros.req "subscribers" "imu_topic" YVal.asString
  let _ ← f.ros.req "subscribers" "velocity_topic" YVal.asString
  let p ← f.ros.pubRates
  f.plain .vel .rightInvariant false p

/-- examples/husky.cpp:42-95 -/
def husky (f : Files) : Option Program := do
  let _ ← f.ros.req "subscribers" "imu_topic" YVal.asString
  let _ ← f.ros.req "subscribers" "wheel_encoder_topic" YVal.asString
  let r ← f.ros.req "subscribers" "wheel_radius" YVal.asDouble
  let _ ← f.ros.req "subscribers" "track_width" YVal.asDouble
  let p ← f.ros.pubRates
  f.plain (.diff1 r) .rightInvariant false p

/-- examples/husky_odom.cpp:42-101 -/
def huskyOdom (f : Files) : Option Program := do
  let _ ← f.ros.req "subscribers" "imu_topic" YVal.asString
  let _ ← f.ros.req "subscribers" "odom_topic" YVal.asString
  let t ← f.ros.req "subscribers" "translation_odom_source_to_body" YVal.asDoubles
  let q ← f.ros.req "subscribers" "rotation_odom_source_to_body" YVal.asDoubles
  let p ← f.ros.pubRates
  f.plain (.odom t q) .rightInvariant false p

/-- examples/neya.cpp:42-93 -/
def neya (f : Files) : Option Program := do
  let _ ← f.ros.req "subscribers" "imu_topic" YVal.asString
  let _ ← f.ros.req "subscribers" "velocity_topic" YVal.asString
  let p ← f.ros.pubRates
  f.plain .velCov .rightInvariant false p

/-- the calls of `main` of the examples with a gyro filter, given the topics and how the filter is constructed and connected -/
def filtered (f : Files) (topics : List (SubKind × Port × Port)) (fil : Option GyroFilter) : Option Program := do
  let fil ← fil
  let p ← f.ros.pubRates
  let est ← f.est.estConfig
  let imu ← f.imu.imuConfig
  let c ← f.corr.velConfig
  some { topics := topics, filter := some fil, et := .rightInvariant, est := est, imu := imu, corrs := [.vel c], poseRate := p.1, pathRate := p.2 }

/-- examples/fetch_gyro_filter.cpp:42-114 -/
noncomputable def fetchGyro (f : Files) : Option Program := do
  let _ ← f.ros.req "subscribers" "imu_topic" YVal.asString
  let _ ← f.ros.req "subscribers" "wheel_encoder_topic" YVal.asString
  let r ← f.ros.req "subscribers" "wheel_radius" YVal.asDouble
  let t ← f.ros.req "subscribers" "track_width" YVal.asDouble
  f.filtered [(.imu, .fgyro, .unused), (.fetch2 r t, .corr 0, .fenc)]
    ((f.filter.filterConfig true).map fun c => (GyroFilter.mk1 c).addGyro.addAngVel)

/-- examples/husky_double_imu_filter.cpp:41-117 -/
noncomputable def huskyDouble (f : Files) : Option Program := do
  let _ ← f.ros.req "subscribers" "imu_topic" YVal.asString
  let _ ← f.ros.req "subscribers" "second_imu_topic" YVal.asString
  let _ ← f.ros.req "subscribers" "wheel_encoder_topic" YVal.asString
  let r ← f.ros.req "subscribers" "wheel_radius" YVal.asDouble
  let t ← f.ros.req "subscribers" "track_width" YVal.asDouble
  f.filtered [(.imu, .fimu, .unused), (.imu, .fgyro, .unused), (.diff2 r t, .corr 0, .unused)]
    ((f.filter.filterConfig true).map fun c => (GyroFilter.mk1 c).addGyro.addImu)

/-- examples/husky_gyro_filter.cpp:40-100 -/
noncomputable def huskyGyro (f : Files) : Option Program := do
  let _ ← f.ros.req "subscribers" "imu_topic" YVal.asString
  let _ ← f.ros.req "subscribers" "wheel_encoder_topic" YVal.asString
  let r ← f.ros.req "subscribers" "wheel_radius" YVal.asDouble
  let t ← f.ros.req "subscribers" "track_width" YVal.asDouble
  f.filtered [(.imu, .fimu, .unused), (.diff2 r t, .corr 0, .fenc)]
    ((f.filter.filterConfig false).map GyroFilter.mk5)

/-- examples/neya_gyro_filter.cpp:43-109 -/
noncomputable def neyaGyro (f : Files) : Option Program := do
  let _ ← f.ros.req "subscribers" "imu_topic" YVal.asString
  let _ ← f.ros.req "subscribers" "gyro_topic" YVal.asString
  let _ ← f.ros.req "subscribers" "velocity_topic" YVal.asString
  f.filtered [(.imu, .fimu, .unused), (.imu, .fgyro, .unused), (.velCov, .corr 0, .unused)]
    ((f.filter.filterConfig true).map fun c => (GyroFilter.mk1 c).addGyro.addImu)

end Files
end Drift
