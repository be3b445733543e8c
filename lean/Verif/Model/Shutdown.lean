import Verif.Model.System

/-!
# Model of the end of the shipped programs: `ros::ok()`, the destructors and the threads

A running program (`Model/System`) together with the state of ROS, of the threads and of the main thread.  Ctrl-C (or any
other call of `ros::shutdown`) makes `ros::ok()` false for ever.  The main thread then leaves its loop, at the next test of
`ros::ok()`, and destroys the objects of `main` in the reverse order of their construction; the destructors join the threads.

As in `Model/System`, one turn of a loop (with the test before it) is one event.  The callbacks run in the threads of the
spinner that `RosSpin` creates (and in the main thread, in `ros::spinOnce`): a message can arrive as long as `RosSpin` has not
returned (its `AsyncSpinner` is destroyed then).
-/
namespace Drift.Shut

/-- the threads of a program besides the main thread -/
inductive Thread
  /-- ros_publisher.cpp:157-168 -/
  | pose
  /-- ros_publisher.cpp:188-195 -/
  | path
  /-- inekf_estimator.cpp:133-175 -/
  | log
  /-- imu_ang_vel_ekf.cpp:374-378 -/
  | filter
  /-- ros_subscriber.cpp:688-697 -/
  | spin
  deriving DecidableEq

/-- the objects of `main` -/
inductive Obj
  | pub
  | est
  | filter
  | sub
  deriving DecidableEq

/-- what the main thread does in the destructors -/
inductive Act
  /-- `std::thread::join` -/
  | join (t : Thread)
  /-- `stop_signal_ = true`, `stop_thread_ = true` -/
  | stop (t : Thread)
  /-- the end of the destructor: the object is gone -/
  | gone (o : Obj)
  deriving DecidableEq

/-- ros_publisher.cpp:77-83 (the threads have been started by `main`) -/
def dtorPub : List Act := [.join .pose, .join .path, .gone .pub]
/-- inekf_estimator.cpp:78-93 -/
def dtorEst (logger : Bool) : List Act := (if logger then [.stop .log, .join .log] else []) ++ [.gone .est]
/-- imu_ang_vel_ekf.cpp:326-334, if there is a filter -/
def dtorFilter (filter : Bool) : List Act := if filter then [.stop .filter, .join .filter, .gone .filter] else []
/-- ros_subscriber.cpp:23-31 -/
def dtorSub : List Act := [.join .spin, .gone .sub]

/-- The destructors in the reverse order of construction.  `filterFirst`: the filter is constructed after the estimator
(fetch_gyro_filter.cpp:79-85); in husky_double_imu_filter.cpp:71-85 and neya_gyro_filter.cpp:72-86 it is constructed before,
in husky_gyro_filter.cpp it is a member of the estimator and destroyed after the body of its destructor. -/
def unwind (filterFirst logger filter : Bool) : List Act :=
  dtorPub ++ (if filterFirst then dtorFilter filter ++ dtorEst logger else dtorEst logger ++ dtorFilter filter) ++ dtorSub

/-- the running program.  `todo = none`: the main thread is in its loop, otherwise it has left it and still has to do the
given actions; `some []`: the program has ended. -/
structure Run where
  sys : System
  ok : Bool
  todo : Option (List Act)
  ended : Thread → Bool
  stopped : Thread → Bool
  gone : Obj → Bool

/-- what can happen -/
inductive Ev
  /-- Ctrl-C -/
  | shutdown
  /-- a message arrives at topic number `i` and its callback runs -/
  | msg (i : ℕ) (m : RosMsg)
  /-- the main thread goes on: a turn of its loop, or the next action of the destructors -/
  | main
  /-- a thread makes a turn of its loop -/
  | thread (t : Thread)

/-- whether a thread leaves its loop at the next test: `while (ros::ok())` (ros_publisher.cpp:160, 191,
`ros::waitForShutdown` at ros_subscriber.cpp:696), `while (stop_signal_ == false)` (inekf_estimator.cpp:135),
`while (!stop_thread_)` (imu_ang_vel_ekf.cpp:375) -/
def Run.leaves (r : Run) : Thread → Bool
  | .pose => !r.ok
  | .path => !r.ok
  | .spin => !r.ok
  | .log => r.stopped .log
  | .filter => r.stopped .filter

/-- the body of the loop of a thread -/
noncomputable def Run.body (mlog : M4 → M4) (r : Run) : Thread → Option System
  | .pose => r.sys.step mlog .pose
  | .path => r.sys.step mlog .path
  | .log => r.sys.step mlog .log
  | .filter => r.sys.step mlog .filter
  | .spin => some r.sys

/-- one event.  The main thread tests `ros::ok()` at the head of its loop, e.g. husky_odom.cpp:108, but not while it is
waiting in the loop of `InitState` (inekf_estimator.cpp:258-262).  A thread that has returned does nothing, `join` waits until
it has. -/
noncomputable def Run.step (mlog : M4 → M4) (filterFirst : Bool) (r : Run) : Ev → Option Run
  | .shutdown => some { r with ok := false }
  | .msg i m => if r.ended .spin then some r else (r.sys.step mlog (.msg i m)).map fun s => { r with sys := s }
  | .thread t =>
    if r.ended t then some r
    else if r.leaves t then some { r with ended := Function.update r.ended t true }
    else (r.body mlog t).map fun s => { r with sys := s }
  | .main => match r.todo with
    | none =>
      if r.ok || r.sys.est.pending.isSome then (r.sys.step mlog .tick).map fun s => { r with sys := s }
      else some { r with todo := some (unwind filterFirst r.sys.est.log.enabled r.sys.filter.isSome) }
    | some [] => some r
    | some (.join t :: l) => if r.ended t then some { r with todo := some l } else some r
    | some (.stop t :: l) => some { r with todo := some l, stopped := Function.update r.stopped t true }
    | some (.gone o :: l) => some { r with todo := some l, gone := Function.update r.gone o true }

/-- a history -/
noncomputable def Run.run (mlog : M4 → M4) (filterFirst : Bool) : Run → List Ev → Option Run
  | r, [] => some r
  | r, ev :: evs => (r.step mlog filterFirst ev).bind fun r => Run.run mlog filterFirst r evs

/-- `main` at the head of its loop; a thread that the program does not have counts as one that has returned -/
def Run.begin (s : System) : Run :=
  { sys := s, ok := true, todo := none
    ended := fun t => match t with | .log => !s.est.log.enabled | .filter => !s.filter.isSome | _ => false
    stopped := fun _ => false, gone := fun _ => false }

/-- `main` of a program, up to its loop -/
noncomputable def boot (P : Program) (h : Heap) : Option Run := (P.start h).map Run.begin

end Drift.Shut
