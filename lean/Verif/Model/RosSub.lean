import Verif.Model.Measurement
import Verif.Model.Correction
import Verif.Model.ImuFilter
import Mathlib.LinearAlgebra.Matrix.NonsingularInverse

/-!
# Model of the ROS subscriber (`ROS/drift/src/communication/ros_subscriber.cpp`, `ros_subscriber.h`)

The heap of queues and mutexes that `ROSSubscriber` creates is a list of queues (a queue pointer is an index) and a
number of mutexes (a mutex pointer is a number).  A callback is atomic: it touches the queue only between `lock` and
`unlock` of the mutex bound to it, and ROS runs at most one callback of a subscription at a time.  `frame_id`, `seq` and
the topic names are not modelled, nor is the pairing policy of `message_filters`: the two synchronised messages arrive
together.

`none` as the result of a callback means that the program has no defined continuation: an out-of-range
`std::vector::operator[]`, an exception that nobody catches in the spinner thread, or a division by zero whose
infinities would be queued.
-/
namespace Drift
open Matrix

/-- 4x4 matrices, `Eigen::Matrix4d` -/
abbrev M4 := Matrix (Fin 4) (Fin 4) ℝ

/-- `ros::Time` -/
structure Stamp where
  sec : ℕ
  nsec : ℕ

/-- ros_subscriber.cpp:327 (and every other `set_header`): `stamp.sec + stamp.nsec / 1000000000.0`; also
`ros::Time::toSec` -/
noncomputable def Stamp.toSec (s : Stamp) : ℝ := s.sec + s.nsec / 1000000000

/-- `sensor_msgs::Imu` -/
structure ImuMsg where
  stamp : Stamp
  angVel : V3
  linAcc : V3
  ori : Quat
/-- `geometry_msgs::TwistStamped` and `TwistWithCovarianceStamped` -/
structure TwistMsg where
  stamp : Stamp
  lin : V3
  ang : V3
/-- `sensor_msgs::JointState` -/
structure JointMsg where
  stamp : Stamp
  pos : List ℝ
  vel : List ℝ
/-- `custom_sensor_msgs::ContactArray` -/
structure ContactMsg where
  stamp : Stamp
  contacts : List Bool
/-- `nav_msgs::Odometry` -/
structure OdomMsg where
  stamp : Stamp
  pos : V3
  ori : Quat

/-- the messages a callback can receive; two synchronised messages are one -/
inductive RosMsg
  | imu (m : ImuMsg)
  | imuOff (m : ImuMsg) (off : V3)
  | twist (m : TwistMsg)
  | joint (m : JointMsg)
  | odom (m : OdomMsg)
  | kin (c : ContactMsg) (e : JointMsg)

/-- `MiniCheetahKinematics` as filled by the callback -/
structure KinMeas where
  time : ℝ
  contacts : Fin 4 → Bool
  encoders : Fin 12 → ℝ
  dEncoders : Fin 12 → ℝ

/-- what the queues hold -/
inductive RosMeas
  | imu (m : ImuMeas)
  | vel (m : VelMeas)
  | ang (m : AngVelMeas)
  | kin (m : KinMeas)

/-- what is registered, with the parameters bound into the callback -/
inductive SubKind
  | imu
  | fetchImu
  | vel
  | velCov
  | diff1 (radius : ℝ)
  | diff2 (radius track : ℝ)
  | fetch1 (radius : ℝ)
  | fetch2 (radius track : ℝ)
  /-- translation and rotation (w, x, y, z), as passed -/
  | odom (tr rot : List ℝ)
  | kin

namespace SubKind
/-- the message type of the topic -/
def accepts : SubKind → RosMsg → Prop
  | imu, .imu _ => True
  | fetchImu, .imuOff _ _ => True
  | vel, .twist _ => True
  | velCov, .twist _ => True
  | diff1 _, .joint _ => True
  | diff2 _ _, .joint _ => True
  | fetch1 _, .joint _ => True
  | fetch2 _ _, .joint _ => True
  | odom _ _, .odom _ => True
  | kin, .kin _ _ => True
  | _, _ => False
/-- does the subscription create an angular velocity queue too? -/
def two : SubKind → Bool
  | diff2 _ _ => true
  | fetch2 _ _ => true
  | _ => false
/-- is it an odometry source? -/
def isOdom : SubKind → Bool
  | odom _ _ => true
  | _ => false
end SubKind

/-! ### The stateless callbacks -/

namespace Ros

open Classical in
/-- `IMUCallback`, ros_subscriber.cpp:316-350: the orientation is set, and validated, iff its norm is not zero; a
quaternion that is not normalised throws -/
noncomputable def imuCb (m : ImuMsg) : Option ImuMeas :=
  let r : ImuMeas := { ImuMeas.default with time := m.stamp.toSec, angVel := m.angVel, linAcc := m.linAcc }
  if m.ori.w ^ 2 + m.ori.x ^ 2 + m.ori.y ^ 2 + m.ori.z ^ 2 ≠ 0 then
    r.set_quaternion m.ori.w m.ori.x m.ori.y m.ori.z
  else some r

/-- `FetchIMUCallBack`, ros_subscriber.cpp:589-627: the offset is added to the angular velocity -/
noncomputable def fetchImuCb (m : ImuMsg) (off : V3) : Option ImuMeas :=
  imuCb { m with angVel := fun i => m.angVel i + off i }

/-- `VelocityCallback`, ros_subscriber.cpp:352-371, and `VelocityWithCovarianceCallback`, 373-393 -/
noncomputable def velCb (m : TwistMsg) : VelMeas := ⟨m.stamp.toSec, m.lin⟩

/-- lines 410-416 and 448-454: right and left wheel speed of a four-wheel message -/
noncomputable def wheels4 (m : JointMsg) (radius : ℝ) : Option (ℝ × ℝ) := do
  let v0 ← m.vel[0]?
  let v1 ← m.vel[1]?
  let v2 ← m.vel[2]?
  let v3 ← m.vel[3]?
  some ((v1 + v3) / 2 * radius, (v0 + v2) / 2 * radius)

/-- `DifferentialEncoder2VelocityCallback` without track width, ros_subscriber.cpp:396-421 -/
noncomputable def diff1Cb (m : JointMsg) (radius : ℝ) : Option VelMeas := do
  let (vr, vl) ← wheels4 m radius
  some ⟨m.stamp.toSec, ![(vr + vl) / 2, 0, 0]⟩

/-- `DifferentialEncoder2VelocityCallback` with track width, ros_subscriber.cpp:423-465 -/
noncomputable def diff2Cb (m : JointMsg) (radius track : ℝ) : Option (VelMeas × AngVelMeas) := do
  let (vr, vl) ← wheels4 m radius
  if track = 0 then none
  else some (⟨m.stamp.toSec, ![(vr + vl) / 2, 0, 0]⟩, ⟨m.stamp.toSec, ![0, 0, (vr - vl) / track]⟩)

/-- lines 487-488 and 528-529: right and left wheel speed of a Fetch message -/
noncomputable def wheels2 (m : JointMsg) (radius : ℝ) : Option (ℝ × ℝ) := do
  let v1 ← m.vel[1]?
  let v0 ← m.vel[0]?
  some (v1 * radius, v0 * radius)

/-- `DifferentialEncoder2LinearVelocityCallback_Fetch`, ros_subscriber.cpp:467-496: messages with at most two entries
are ignored (inner `none`) -/
noncomputable def fetch1Cb (m : JointMsg) (radius : ℝ) : Option (Option VelMeas) :=
  if m.vel.length ≤ 2 then some none
  else do
    let (vr, vl) ← wheels2 m radius
    some (some ⟨m.stamp.toSec, ![(vr + vl) / 2, 0, 0]⟩)

/-- `DifferentialEncoder2VelocityCallback_Fetch`, ros_subscriber.cpp:498-543 -/
noncomputable def fetch2Cb (m : JointMsg) (radius track : ℝ) : Option (Option (VelMeas × AngVelMeas)) :=
  if m.vel.length ≤ 2 then some none
  else do
    let (vr, vl) ← wheels2 m radius
    if track = 0 then none
    else some (some (⟨m.stamp.toSec, ![(vr + vl) / 2, 0, 0]⟩, ⟨m.stamp.toSec, ![0, 0, (vr - vl) / track]⟩))

/-- reads `l[0..n-1]` -/
def readN {α : Type} [Inhabited α] (l : List α) (n : ℕ) : Option (Fin n → α) :=
  if n ≤ l.length then some fun i => l[i.val]! else none

/-- `MiniCheetahKinCallBack`, ros_subscriber.cpp:545-587: the stamp is that of the contact message -/
noncomputable def kinCb (c : ContactMsg) (e : JointMsg) : Option KinMeas := do
  let ct ← readN c.contacts 4
  let q ← readN e.pos 12
  let dq ← readN e.vel 12
  some ⟨c.stamp.toSec, ct, q, dq⟩

/-- what a stateless callback pushes on its (first, second) queue -/
noncomputable def convert : SubKind → RosMsg → Option (List RosMeas × List RosMeas)
  | .imu, .imu m => (imuCb m).map fun r => ([.imu r], [])
  | .fetchImu, .imuOff m off => (fetchImuCb m off).map fun r => ([.imu r], [])
  | .vel, .twist m => some ([.vel (velCb m)], [])
  | .velCov, .twist m => some ([.vel (velCb m)], [])
  | .diff1 r, .joint m => (diff1Cb m r).map fun v => ([.vel v], [])
  | .diff2 r b, .joint m => (diff2Cb m r b).map fun v => ([.vel v.1], [.ang v.2])
  | .fetch1 r, .joint m => (fetch1Cb m r).map fun
      | none => ([], [])
      | some v => ([.vel v], [])
  | .fetch2 r b, .joint m => (fetch2Cb m r b).map fun
      | none => ([], [])
      | some v => ([.vel v.1], [.ang v.2])
  | .kin, .kin c e => (kinCb c e).map fun k => ([.kin k], [])
  | _, _ => some ([], [])

/-! ### Odometry -/

/-- `OdomMeasurement::set_transformation`, odom.h:60-63, and ros_subscriber.cpp:252-260: the homogeneous matrix -/
def pose4 (R : M3) (p : V3) : M4 :=
  !![R 0 0, R 0 1, R 0 2, p 0;
     R 1 0, R 1 1, R 1 2, p 1;
     R 2 0, R 2 1, R 2 2, p 2;
     0, 0, 0, 1]

/-- `OdomMeasurement` of a message (odom.h:30-47, ros_subscriber.cpp:633-642): transformation and time -/
noncomputable def odomOf (m : OdomMsg) : M4 × ℝ := (pose4 m.ori.toRot m.pos, m.stamp.toSec)

/-- the mounting transform computed by `AddOdom2VelocityCallback`, ros_subscriber.cpp:251-260 -/
def mount (tr rot : List ℝ) : Option M4 := do
  let q0 ← rot[0]?
  let q1 ← rot[1]?
  let q2 ← rot[2]?
  let q3 ← rot[3]?
  let t0 ← tr[0]?
  let t1 ← tr[1]?
  let t2 ← tr[2]?
  some (pose4 (Quat.toRot ⟨q0, q1, q2, q3⟩) ![t0, t1, t2])

open Classical in
/-- `Matrix4d::inverse()`; a singular matrix gives infinities -/
noncomputable def inv4 (A : M4) : Option M4 := if A.det = 0 then none else some A⁻¹

open Classical in
/-- the velocity of two consecutive odometry poses, ros_subscriber.cpp:652-680; `mlog` is Eigen's `MatrixBase::log`
(unsupported/MatrixFunctions), which is not modelled: it is a parameter -/
noncomputable def odomVel (mlog : M4 → M4) (T : M4) (prev cur : M4 × ℝ) : Option VelMeas := do
  let Ti ← inv4 T
  let Pi ← inv4 prev.1
  let X := mlog (Ti * Pi * cur.1 * T)
  if cur.2 - prev.2 = 0 then none
  else some ⟨cur.2, ![X 0 3 / (cur.2 - prev.2), X 1 3 / (cur.2 - prev.2), X 2 3 / (cur.2 - prev.2)]⟩

end Ros

/-! ### The subscriber object -/

/-- a subscription: the arguments bound by `boost::bind` -/
structure Bound where
  kind : SubKind
  /-- queue and mutex -/
  q : ℕ
  m : ℕ
  /-- angular velocity queue and mutex, for the kinds that have them -/
  q2 : ℕ
  m2 : ℕ
  /-- odometry source id -/
  src : ℕ

/-- what `Add...` returns to the user -/
structure SubHandle where
  q : ℕ
  m : ℕ
  q2 : ℕ
  m2 : ℕ

/-- `ROSSubscriber`, ros_subscriber.h:238-280 -/
structure RosSub where
  queues : List (List RosMeas)
  nMutex : ℕ
  subs : List Bound
  /-- `prev_odom_map_`: absent and `nullptr` are both `none` -/
  prevOdom : ℕ → Option (M4 × ℝ)
  /-- `odom_src_to_body_`, uninitialised before the first registration -/
  srcToBody : Option M4
  srcId : ℕ

/-- what can happen -/
inductive SubOp
  /-- the user registers a topic -/
  | add (k : SubKind)
  /-- a message arrives for subscription number `i` -/
  | deliver (i : ℕ) (m : RosMsg)
  /-- the owner of queue `q` takes its front element (if any) -/
  | pop (q : ℕ)

namespace RosSub

/-- the constructor, ros_subscriber.cpp:19-20 -/
def init : RosSub := ⟨[], 0, [], fun _ => none, none, 0⟩

/-- `Add...Subscriber`, ros_subscriber.cpp:34-309: a new queue, a new mutex (two of each for the kinds with angular
velocity), the subscription bound to them, and the pair returned.  `mutex_list_.back()` is the newest mutex. -/
def add (s : RosSub) (k : SubKind) : Option (RosSub × SubHandle) :=
  let q := s.queues.length
  let queues1 := s.queues ++ [[]]
  if k.two then
    -- lines 191-214 and 286-308: vel_mutex and ang_vel_mutex are saved in local variables
    let velMutex := s.nMutex
    let angMutex := s.nMutex + 1
    some ({ s with
        queues := queues1 ++ [[]]
        nMutex := s.nMutex + 2
        subs := s.subs ++ [⟨k, q, velMutex, q + 1, angMutex, 0⟩] },
      ⟨q, velMutex, q + 1, angMutex⟩)
  else
    let nMutex := s.nMutex + 1
    match k with
    | .odom tr rot => do
      let T ← Ros.mount tr rot
      some ({ s with
          queues := queues1
          nMutex := nMutex
          srcToBody := some T
          prevOdom := Function.update s.prevOdom s.srcId none
          subs := s.subs ++ [⟨k, q, nMutex - 1, 0, 0, s.srcId⟩]
          srcId := s.srcId + 1 },
        ⟨q, nMutex - 1, 0, 0⟩)
    | k => some ({ s with
          queues := queues1
          nMutex := nMutex
          subs := s.subs ++ [⟨k, q, nMutex - 1, 0, 0, 0⟩] },
        ⟨q, nMutex - 1, 0, 0⟩)

/-- `queue->push` of several elements, under the queue's mutex -/
def push (s : RosSub) (q : ℕ) (ms : List RosMeas) : RosSub :=
  { s with queues := s.queues.modify q (· ++ ms) }

/-- the callback of subscription `b` -/
noncomputable def callback (mlog : M4 → M4) (s : RosSub) (b : Bound) (msg : RosMsg) : Option RosSub :=
  match b.kind, msg with
  | .odom _ _, .odom m =>
    -- `Odom2VelocityCallback`, ros_subscriber.cpp:629-686
    match s.prevOdom b.src with
    | none => some { s with prevOdom := Function.update s.prevOdom b.src (some (Ros.odomOf m)) }
    | some prev => do
      let T ← s.srcToBody
      let v ← Ros.odomVel mlog T prev (Ros.odomOf m)
      some ({ s with prevOdom := Function.update s.prevOdom b.src (some (Ros.odomOf m)) }.push b.q [.vel v])
  | k, msg => do
    let (a, c) ← Ros.convert k msg
    some ((s.push b.q a).push b.q2 c)

/-- one operation; `none` = no defined continuation -/
noncomputable def step (mlog : M4 → M4) (s : RosSub) : SubOp → Option RosSub
  | .add k => (s.add k).map Prod.fst
  | .deliver i msg =>
    match s.subs[i]? with
    | some b => s.callback mlog b msg
    | none => some s
  | .pop q => some { s with queues := s.queues.modify q List.tail }

/-- ROS delivers to existing subscriptions, messages of the topic's type -/
def enabled (s : RosSub) : SubOp → Prop
  | .deliver i msg => ∃ b, s.subs[i]? = some b ∧ b.kind.accepts msg
  | _ => True

/-- the element an operation takes out of a queue -/
def popped (s : RosSub) : SubOp → List (ℕ × RosMeas)
  | .pop q => ((s.queues[q]?.bind List.head?).map fun m => (q, m)).toList
  | _ => []

/-- the message an operation delivers -/
def delivered : SubOp → List (ℕ × RosMsg)
  | .deliver i m => [(i, m)]
  | _ => []

/-- `Exec mlog s l s' D P`: the operations `l` lead from `s` to `s'`; `D` are the deliveries (subscription, message) and
`P` the elements taken by consumers (queue, element), in order -/
inductive Exec (mlog : M4 → M4) : RosSub → List SubOp → RosSub → List (ℕ × RosMsg) → List (ℕ × RosMeas) → Prop
  | nil (s) : Exec mlog s [] s [] []
  | snoc {s l s' D P} (h : Exec mlog s l s' D P) (o s'') (he : s'.enabled o) (ho : s'.step mlog o = some s'') :
      Exec mlog s (l ++ [o]) s'' (D ++ delivered o) (P ++ s'.popped o)

end RosSub
end Drift
