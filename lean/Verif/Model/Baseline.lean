import Verif.Model.WheelOdometry
import Verif.Model.RosSub

/-!
# Model of the baseline programs `ROS/drift/baselines/husky_wheel_odom.cpp` and `fetch_wheel_odom.cpp`

Each program subscribes to the joint topic, feeds a `WheelOdometry` and calls `RunOnce` in a loop.  ROS never runs two
callbacks of one subscription at the same time; the callbacks run in the subscriber thread or inside `ros::spinOnce()` of
the main thread (between two `RunOnce` calls, a special case of the interleavings below).  The husky program also
subscribes to an IMU topic and never reads the queue.
-/
namespace Drift

/-- the two programs -/
inductive BaseProg
  | husky
  | fetch

/-- what can happen: a joint message or an IMU message arrives, the joint callback or the main loop makes one step -/
inductive BAct
  | joint (m : JointMsg)
  | imu (m : ImuMsg)
  | cb
  | run

/-- the odometry with its two queues and threads, and the IMU queue -/
structure BSys where
  core : OSys
  imuQ : List ImuMeas

namespace BaseProg

/-- `wheel_radius` and `track_width` of ROS/drift/config/baselines/*/ros_comm.yaml: husky lines 8, 10, fetch lines 7, 8;
and the callback registered: husky_wheel_odom.cpp:63-65 (`AddDifferentialDriveVelocitySubscriber`),
fetch_wheel_odom.cpp:56-58 (`..._Fetch`).  Inner `none`: the message is ignored. -/
noncomputable def callback : BaseProg → JointMsg → Option (Option (VelMeas × AngVelMeas))
  | husky, m => (Ros.diff2Cb m 0.1580 0.688).map some
  | fetch, m => Ros.fetch2Cb m 0.06033 0.37476

/-- start: config/baselines/*/config.yaml: `enable_pose_logger: true`, `pose_log_rate: 100` -/
noncomputable def start : BSys := ⟨OSys.init (Odo.ctor true (some 100)), []⟩

/-- One step; `none` = not enabled.  Undefined behaviour and uncaught exceptions (`SetQuaternion`) leave `odo = none`. -/
noncomputable def act (p : BaseProg) (s : BSys) : BAct → Option BSys
  | .joint m =>
    match s.core.cb with
    | .idle =>
      match p.callback m with
      | none => some { s with core := { s.core with odo := none } }
      | some none => some s
      | some (some (v, w)) => (s.core.act (.deliver v w)).map fun c => { s with core := c }
    | _ => none
  | .imu m =>
    match p with
    | husky =>
      match Ros.imuCb m with
      | none => some { s with core := { s.core with odo := none } }
      | some r => some { s with imuQ := s.imuQ ++ [r] }
    | fetch => none
  | .cb => (s.core.act .cb).map fun c => { s with core := c }
  | .run => (s.core.act .run).map fun c => { s with core := c }

/-- a sequence of steps, each enabled -/
noncomputable def runs (p : BaseProg) : BSys → List BAct → Option BSys
  | s, [] => some s
  | s, a :: l => (p.act s a).bind fun s' => runs p s' l

end BaseProg
end Drift
