import Verif.Model.Measurement
import Verif.Model.RobotState
import Mathlib.Data.Real.Archimedean
import Mathlib.Analysis.Real.Sqrt

/-!
# Model of the ROS publisher (`ROS/drift/src/communication/ros_publisher.cpp`, `ros_publisher.h`)

First the content of the messages (`RosPub`, whole calls), then the access to the shared state queue step by step
(`PubSys`).  `ros::Time::fromSec` (rounding to nanoseconds), frame ids and the slip publishers (empty bodies) are not
modelled.
-/
namespace Drift
open Mat Matrix

namespace Quat
open Classical in
/-- `Eigen::Quaterniond(const Matrix3d&)`: Eigen/src/Geometry/Quaternion.h, `quaternionbase_assign_impl<..,3,3>::run` -/
noncomputable def ofRot (R : M3) : Quat :=
  if R.trace > 0 then
    let t := Real.sqrt (R.trace + 1)
    let u := 0.5 / t
    ⟨0.5 * t, (R 2 1 - R 1 2) * u, (R 0 2 - R 2 0) * u, (R 1 0 - R 0 1) * u⟩
  else
    let i : Fin 3 := if R 1 1 > R 0 0 then 1 else 0
    let i : Fin 3 := if R 2 2 > R i i then 2 else i
    let j : Fin 3 := i + 1
    let k : Fin 3 := j + 1
    let t := Real.sqrt (R i i - R j j - R k k + 1)
    let u := 0.5 / t
    let c : Fin 3 → ℝ := fun a => if a = i then 0.5 * t else if a = j then (R j i + R i j) * u else (R k i + R i k) * u
    ⟨(R k j - R j k) * u, c 0, c 1, c 2⟩
end Quat

/-- `geometry_msgs::PoseWithCovarianceStamped` -/
structure PoseMsg where
  seq : ℕ
  stamp : ℝ
  pos : V3
  ori : Quat
  /-- `covariance[i * 6 + j]` -/
  cov : Matrix (Fin 6) (Fin 6) ℝ

/-- `geometry_msgs::PoseStamped`, the elements of the path -/
structure PathPose where
  seq : ℕ
  stamp : ℝ
  pos : V3
  ori : Quat

/-- `nav_msgs::Path` -/
structure PathMsg where
  seq : ℕ
  stamp : ℝ
  poses : List PathPose

/-- `ROSPublisher` and the shared queue; `sent` and `sentPaths` are the messages published so far -/
structure RosPub where
  queue : List RobotState
  /-- `pose_seq_`, a `uint32_t` -/
  poseSeq : ℕ
  pathSeq : ℕ
  poseRate : ℝ
  pathRate : ℝ
  poses : List PathPose
  sent : List PoseMsg
  sentPaths : List PathMsg

namespace RosPub

/-- the constructors, ros_publisher.cpp:18-76; without a configuration file the rates are 1000 and 10 -/
def init (poseRate pathRate : ℝ) : RosPub := ⟨[], 0, 0, poseRate, pathRate, [], [], []⟩

/-- `++` on a `uint32_t` -/
def inc32 (n : ℕ) : ℕ := (n + 1) % 2 ^ 32

/-- `int(pose_seq_)`: two's complement -/
def toInt32 (n : ℕ) : ℤ := if n < 2 ^ 31 then n else n - 2 ^ 32

open Classical in
/-- `int pose_skip = pose_publish_rate_ / path_publish_rate_`, ros_publisher.cpp:142-144: conversion of a double to int
truncates and is undefined out of range -/
noncomputable def poseSkip (poseRate pathRate : ℝ) : Option ℤ :=
  if pathRate = 0 then none
  else
    let r := poseRate / pathRate
    let k : ℤ := if 0 ≤ r then ⌊r⌋ else ⌈r⌉
    if -2 ^ 31 ≤ k ∧ k < 2 ^ 31 then some k else none

/-- C++ `a % b` on `int`: truncated, undefined for `b = 0` and for the overflow `INT_MIN % -1` -/
def cmod (a b : ℤ) : Option ℤ :=
  if b = 0 ∨ (a = -2 ^ 31 ∧ b = -1) then none else some (a.tmod b)

/-- the message made of a state, ros_publisher.cpp:108-138 (`first_pose_` is always zero) -/
noncomputable def poseMsg (seq : ℕ) (st : RobotState) : Option PoseMsg := do
  let t ← st.t
  let p ← st.get_world_position
  let R ← st.get_world_rotation
  if 6 ≤ st.P.rows ∧ 6 ≤ st.P.cols then
    some ⟨seq, t, fun i => p i - 0, Quat.ofRot R, fun i j => st.P.e i j⟩
  else none

/-- `PosePublish`, ros_publisher.cpp:96-154, as one call -/
noncomputable def posePublish (s : RosPub) : Option RosPub :=
  match s.queue with
  | [] => some s
  | st :: q => do
    let m ← poseMsg s.poseSeq st
    let seq' := inc32 s.poseSeq
    let k ← poseSkip s.poseRate s.pathRate
    let r ← cmod (toInt32 seq') k
    some { s with
      queue := q
      poseSeq := seq'
      sent := s.sent ++ [m]
      poses := if r = 0 then s.poses ++ [⟨m.seq, m.stamp, m.pos, m.ori⟩] else s.poses }

/-- `PathPublish`, ros_publisher.cpp:171-185 -/
def pathPublish (s : RosPub) : RosPub :=
  match s.poses.getLast? with
  | none => s
  | some p => { s with pathSeq := inc32 s.pathSeq, sentPaths := s.sentPaths ++ [⟨s.pathSeq, p.stamp, s.poses⟩] }

/-- what can happen: the estimator pushes a state, `PosePublish` runs, `PathPublish` runs -/
inductive Op
  | push (st : RobotState)
  | pose
  | path

/-- one operation -/
noncomputable def step (s : RosPub) : Op → Option RosPub
  | .push st => some { s with queue := s.queue ++ [st] }
  | .pose => s.posePublish
  | .path => some s.pathPublish

/-- a history of operations -/
noncomputable def run : List Op → RosPub → Option RosPub
  | [], s => some s
  | o :: l, s => (s.step o).bind (run l)

end RosPub

/-! ### Access to the shared queue, step by step -/

/-- the publisher thread inside `PosePublish` -/
inductive PubPc
  /-- before the test `empty()` of line 97, made without the mutex -/
  | test
  /-- before `lock()`, line 102 -/
  | lock
  /-- before `front()`, line 103 -/
  | front
  /-- before `pop()`, line 104 -/
  | pop
  /-- before `unlock()`, line 105 -/
  | unlock

/-- the estimator thread -/
inductive EstPc
  | idle
  /-- `RunOnce`/`InitState` before `lock()`, inekf_estimator.cpp:108, 278 -/
  | lockPush
  /-- before `push`, line 109, 279 -/
  | push
  /-- before `unlock()` -/
  | unlock
  /-- `clear()` before `lock()`, line 304 -/
  | lockClear
  /-- in the loop of lines 305-307: before the test -/
  | clearTest
  /-- before `pop`, line 306 -/
  | clearPop

/-- who holds the queue's mutex -/
inductive PubThread
  | pub
  | est
  deriving DecidableEq

/-- the shared queue (only its length matters), its mutex and the two threads; `ub` = `front` or `pop` was called on the
empty queue -/
structure PubSys where
  len : ℕ
  owner : Option PubThread
  pub : PubPc
  est : EstPc
  ub : Bool

/-- what can happen -/
inductive PubAct
  /-- the publisher thread makes one step -/
  | pub
  /-- the estimator thread makes one step -/
  | est
  /-- the estimator (idle) starts to publish a state -/
  | startPush
  /-- the estimator (idle) starts `clear()` -/
  | startClear
  deriving DecidableEq

namespace PubSys
/-- initially the queue is empty -/
def init : PubSys := ⟨0, none, .test, .idle, false⟩

/-- one step of `PosePublish`; `none` = blocked -/
def pubStep (s : PubSys) : Option PubSys :=
  match s.pub with
  | .test => some (if s.len = 0 then s else { s with pub := .lock })
  | .lock => if s.owner = none then some { s with owner := some .pub, pub := .front } else none
  | .front => some { s with ub := s.ub || s.len == 0, pub := .pop }
  | .pop => some { s with ub := s.ub || s.len == 0, len := s.len - 1, pub := .unlock }
  | .unlock => some { s with owner := none, pub := .test }

/-- one step of the estimator -/
def estStep (s : PubSys) : Option PubSys :=
  match s.est with
  | .idle => none
  | .lockPush => if s.owner = none then some { s with owner := some .est, est := .push } else none
  | .push => some { s with len := s.len + 1, est := .unlock }
  | .unlock => some { s with owner := none, est := .idle }
  | .lockClear => if s.owner = none then some { s with owner := some .est, est := .clearTest } else none
  | .clearTest => some { s with est := if s.len = 0 then .unlock else .clearPop }
  | .clearPop => some { s with ub := s.ub || s.len == 0, len := s.len - 1, est := .clearTest }

/-- one action; `none` = not enabled -/
def act (s : PubSys) : PubAct → Option PubSys
  | .pub => s.pubStep
  | .est => s.estStep
  | .startPush => match s.est with
    | .idle => some { s with est := .lockPush }
    | _ => none
  | .startClear => match s.est with
    | .idle => some { s with est := .lockClear }
    | _ => none

/-- a sequence of actions, each enabled -/
def run : List PubAct → PubSys → Option PubSys
  | [], s => some s
  | a :: l, s => (s.act a).bind (run l)
end PubSys

end Drift
