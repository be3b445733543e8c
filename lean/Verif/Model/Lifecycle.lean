import Mathlib.Data.Nat.Notation
import Mathlib.Tactic.Common

/-!
# Model of construction, start and destruction of the objects with threads

`std::thread` as far as it matters: a thread object is joinable from the moment it is given a thread until it is joined.
Assigning to a joinable thread object calls `std::terminate`; `join` on one that is not joinable throws `std::system_error`,
which leaves a destructor (`noexcept`) by `std::terminate`; destroying a joinable one calls `std::terminate`.  `none` stands for
these, and for reading an uninitialised variable.  A `join` is assumed to return (C100, C135).
-/
namespace Drift.Life

/-- a `std::thread` object -/
structure Th where
  joinable : Bool := false

/-- `t = std::thread(...)` -/
def Th.assign (t : Th) : Option Th := if t.joinable then none else some ⟨true⟩
/-- `t.join()` -/
def Th.join (t : Th) : Option Th := if t.joinable then some ⟨false⟩ else none
/-- `~thread()` -/
def Th.dtor (t : Th) : Option Unit := if t.joinable then none else some ()

/-- ros_subscriber.h:426-428 -/
structure Sub where
  started : Bool
  th : Th
/-- ros_subscriber.cpp:19-20 -/
def Sub.ctor : Sub := ⟨false, {}⟩
/-- ros_subscriber.cpp:311-314 `StartSubscribingThread` -/
def Sub.start (s : Sub) : Option Sub := do
  let t ← s.th.assign
  some ⟨true, t⟩
/-- ros_subscriber.cpp:23-31 -/
def Sub.dtor (s : Sub) : Option Unit := do
  let t ← if s.started then s.th.join else some s.th
  t.dtor

/-- ros_publisher.h:95-107 -/
structure Pub where
  started : Bool
  pose : Th
  path : Th
/-- ros_publisher.cpp:17-75 -/
def Pub.ctor : Pub := ⟨false, {}, {}⟩
/-- ros_publisher.cpp:85-93 `StartPublishingThread` -/
def Pub.start (s : Pub) : Option Pub := do
  let t ← s.pose.assign
  let u ← s.path.assign
  some ⟨true, t, u⟩
/-- ros_publisher.cpp:77-83 -/
def Pub.dtor (s : Pub) : Option Unit := do
  let t ← if s.started then s.pose.join else some s.pose
  let u ← if s.started then s.path.join else some s.path
  let _ ← t.dtor
  u.dtor

/-- imu_ang_vel_ekf.h:364-365 -/
structure Filt where
  th : Th
/-- imu_ang_vel_ekf.cpp:26-50, 172-324 -/
def Filt.ctor : Filt := ⟨{}⟩
/-- imu_ang_vel_ekf.cpp:369-372 `StartImuFilterThread` -/
def Filt.start (s : Filt) : Option Filt := do
  let t ← s.th.assign
  some ⟨t⟩
/-- imu_ang_vel_ekf.cpp:326-334: the join is not guarded -/
def Filt.dtor (s : Filt) : Option Unit := do
  let t ← s.th.join
  t.dtor

/-- inekf_estimator.h:295-304; `logger = none`: `enable_pose_logger_` is not initialised -/
structure Est where
  logger : Option Bool
  th : Th
/-- inekf_estimator.cpp:125-131 `StartLoggingThread` (public) -/
def Est.start (s : Est) : Option Est := do
  let l ← s.logger
  if l then do
    let t ← s.th.assign
    some { s with th := t }
  else some s
/-- inekf_estimator.cpp:16-21: the default constructor -/
def Est.ctor0 : Est := ⟨none, {}⟩
/-- inekf_estimator.cpp:23-76: with a configuration file; `logger` is the entry `enable_pose_logger` -/
def Est.ctor (logger : Bool) : Option Est := if logger then Est.start ⟨some true, {}⟩ else some ⟨some false, {}⟩
/-- inekf_estimator.cpp:78-93 -/
def Est.dtor (s : Est) : Option Unit := do
  let l ← s.logger
  let t ← if l then s.th.join else some s.th
  t.dtor

/-- the same call, `n` times -/
def times {α : Type} (f : α → Option α) : ℕ → α → Option α
  | 0, a => some a
  | n + 1, a => (f a).bind (times f n)

end Drift.Life
