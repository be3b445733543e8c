import Verif.Spec.Estimator
import Verif.Spec.Clock
import Verif.Spec.Ros
import Verif.Spec.Pub
import Verif.Model.System

/-!
# Specification vocabulary: the shipped programs
-/
namespace Drift

/-- the shipped programs -/
noncomputable def Program.shipped : List Program :=
  [.miniCheetah, .fetch, .girona500, .husky, .huskyOdom, .neya, .fetchGyro, .huskyDouble, .huskyGyro, .neyaGyro]

/-- the time of a message; of two synchronised messages, that of the first -/
noncomputable def RosMsg.sec : RosMsg → ℝ
  | .imu m => m.stamp.toSec
  | .imuOff m _ => m.stamp.toSec
  | .twist m => m.stamp.toSec
  | .joint m => m.stamp.toSec
  | .odom m => m.stamp.toSec
  | .kin c _ => c.stamp.toSec

/-- the time stamps of the messages that arrive at topic `i`, in order -/
noncomputable def stampsAt (i : ℕ) (evs : List SysEv) : List ℝ :=
  evs.filterMap fun
    | .msg j m => if j = i then some m.sec else none
    | _ => none

/-- a quaternion that is either absent (all zero) or normalised up to 1e-5 -/
def OriOK (q : Quat) : Prop :=
  (q.w = 0 ∧ q.x = 0 ∧ q.y = 0 ∧ q.z = 0) ∨ |q.w ^ 2 + q.x ^ 2 + q.y ^ 2 + q.z ^ 2 - 1| < 1e-5

/-- the message has the type of the topic and is well formed: orientations are absent or normalised, four wheels have four speeds, a legged
robot has four contacts, twelve joint angles and twelve joint rates -/
def MsgOK : SubKind → RosMsg → Prop
  | .imu, .imu m => OriOK m.ori
  | .fetchImu, .imuOff m _ => OriOK m.ori
  | .diff1 _, .joint m => 4 ≤ m.vel.length
  | .diff2 _ _, .joint m => 4 ≤ m.vel.length
  | .odom _ _, .odom m => OriOK m.ori
  | .kin, .kin c e => 4 ≤ c.contacts.length ∧ 12 ≤ e.pos.length ∧ 12 ≤ e.vel.length
  | .vel, .twist _ => True
  | .velCov, .twist _ => True
  | .fetch1 _, .joint _ => True
  | .fetch2 _ _, .joint _ => True
  | _, _ => False

/-- all messages are well formed for their topics -/
def WellFormed (P : Program) (evs : List SysEv) : Prop :=
  ∀ i m x, SysEv.msg i m ∈ evs → P.topics[i]? = some x → MsgOK x.1 m

/-- no two consecutive messages of an odometry topic have the same stamp -/
def OdomDistinct (P : Program) (evs : List SysEv) : Prop :=
  ∀ i x, P.topics[i]? = some x → x.1.isOdom = true → (stampsAt i evs).IsChain (· ≠ ·)

/-- the consumers whose data finally time the IMU propagation: the propagation itself and the correction inputs of the gyro
filter (its outputs have their stamps) -/
def Port.clocked : Port → Bool
  | .imu => true
  | .fimu => true
  | .fenc => true
  | _ => false

/-- the topic feeds such a consumer -/
def clockedTopic (x : SubKind × Port × Port) : Bool := x.2.1.clocked || (x.1.two && x.2.2.clocked)

/-- the stamps of the messages that arrive at such topics, in the order of arrival -/
noncomputable def propStamps (P : Program) (evs : List SysEv) : List ℝ :=
  evs.filterMap fun
    | .msg i m => if (P.topics[i]?.map clockedTopic).getD false then some m.sec else none
    | _ => none

/-- the messages that time the propagation arrive in the order of their stamps -/
def PropSorted (P : Program) (evs : List SysEv) : Prop := (propStamps P evs).Pairwise (· ≤ ·)

/-- `t` is the stamp of a message received -/
def Received (evs : List SysEv) (t : ℝ) : Prop := ∃ i m, SysEv.msg i m ∈ evs ∧ m.sec = t

/-- what an element of a queue means to the estimator -/
noncomputable def portEv : Port → RosMeas → List EstEv
  | .imu, .imu m => [.imu m]
  | .corr i, .vel m => [.vel i m]
  | .corr i, .kin k => (legOf k).toList.map (.leg i ·)
  | _, _ => []

/-- what an element of a queue means to the gyro filter -/
def portOp : Port → RosMeas → List GyroFilter.Op
  | .fgyro, .imu m => [.gyroData m]
  | .fimu, .imu m => [.imuData m]
  | .fenc, .ang a => [.encData a]
  | _, _ => []

/-- the last odometry message that arrived at topic `i` -/
def lastOdom (i : ℕ) (past : List SysEv) : Option OdomMsg :=
  (past.filterMap fun
    | .msg j (.odom m) => if j = i then some m else none
    | _ => none).getLast?

/-- what the arrival of the message `m` at topic `i` means, after `past`: the message is converted, an odometry message
together with the previous one of its topic, and the results go to the consumers of the topic -/
noncomputable def reaches (mlog : M4 → M4) (P : Program) (past : List SysEv) (i : ℕ) (m : RosMsg) : List (Port × RosMeas) :=
  match P.topics[i]? with
  | none => []
  | some (.odom tr rot, p, _) => match lastOdom i past, m, Ros.mount tr rot with
    | some m0, .odom m, some T => (Ros.odomVel mlog T (Ros.odomOf m0) (Ros.odomOf m)).toList.map fun v => (p, .vel v)
    | _, _, _ => []
  | some (k, p, p2) => match Ros.convert k m with
    | none => []
    | some (a, c) => a.map (fun x => (p, x)) ++ c.map fun x => (p2, x)

/-- what an event means to the estimator -/
noncomputable def hear (mlog : M4 → M4) (P : Program) (past : List SysEv) : SysEv → List EstEv
  | .msg i m => (reaches mlog P past i m).flatMap fun x => portEv x.1 x.2
  | .tick => [.tick]
  | .log => [.log]
  | .pose => [.consume]
  | _ => []

/-- what an event means to the gyro filter -/
noncomputable def filterHear (mlog : M4 → M4) (P : Program) (past : List SysEv) : SysEv → List GyroFilter.Op
  | .msg i m => (reaches mlog P past i m).flatMap fun x => portOp x.1 x.2
  | .filter => [.run]
  | _ => []

/-- a history, event by event: `f past ev` for each event `ev` after the events `past` -/
def eachEvent {α : Type} (f : List SysEv → SysEv → List α) : List SysEv → List SysEv → List α
  | _, [] => []
  | past, ev :: evs => f past ev ++ eachEvent f (past ++ [ev]) evs

/-- what the history means to the estimator -/
noncomputable def heard (mlog : M4 → M4) (P : Program) (evs : List SysEv) : List EstEv := eachEvent (hear mlog P) [] evs

/-- what the history means to the gyro filter -/
noncomputable def filterHeard (mlog : M4 → M4) (P : Program) (evs : List SysEv) : List GyroFilter.Op := eachEvent (filterHear mlog P) [] evs

/-- the IMU measurements that the estimator gets in the history are `l`: those received or, if there is a gyro filter, the
outputs of that filter, working on what the history means to it -/
def ImuData (mlog : M4 → M4) (P : Program) (evs : List SysEv) (l : List ImuMeas) : Prop :=
  match P.filter with
  | none => l = imuArrivals (heard mlog P evs)
  | some f => ∃ f', GyroFilter.runOps (filterHeard mlog P evs) f = some f' ∧ f'.out = l

/-- the events other than the arrival of IMU measurements -/
def besidesImu (evs : List EstEv) : List EstEv :=
  evs.filter fun
    | .imu _ => false
    | _ => true

/-- a published pose is meaningful: its time is that of a message received, its quaternion is a unit quaternion, its
covariance is a covariance -/
structure SoundPose (evs : List SysEv) (m : PoseMsg) : Prop where
  stamp : Received evs m.stamp
  unit : m.ori.w ^ 2 + m.ori.x ^ 2 + m.ori.y ^ 2 + m.ori.z ^ 2 = 1
  cov : m.cov.PosSemidef

end Drift
