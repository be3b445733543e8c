import Verif.Model.LieGroup
import Verif.Model.RobotState
import Verif.Model.Correction
import Verif.Model.ImuFilter

/-!
# Model of the wheel odometry baseline (`baselines/src/wheel_odometry/wheel_odometry.cpp`)

First the sequential part (`Odo`), then the two threads (`Sys`): the encoder callback of `ros_subscriber.cpp`
(one callback at a time per subscription, as ROS guarantees) and the thread calling `RunOnce`, step by step with
their two mutexes.  A blocked `lock()` is an action that is not enabled.
-/
namespace Drift
open Matrix Mat

/-- one line of the pose file; the quaternion conversion of the rotation is not modelled -/
structure OdoRow where
  time : ℝ
  pos : V3
  rot : M3

/-- `WheelOdometry` (wheel_odometry.h:54-70); `rows` is what was written to the file so far -/
structure Odo where
  state : RobotState
  prevT : ℝ
  lastPub : ℝ
  enabled : Bool
  rate : ℝ
  rows : List OdoRow

namespace Odo

/-- the constructor, wheel_odometry.cpp:22-56 (the rate is not initialised, and not read, when the logger is
disabled) -/
noncomputable def ctor (enabled : Bool) (rate : Option ℝ) : Odo where
  state := RobotState.init
  prevT := 0
  lastPub := 0
  enabled := enabled
  rate := rate.getD 10
  rows := []

/-- `Integrate`, wheel_odometry.cpp:112-129: note `Ones(5,5)` -/
noncomputable def integrate (o : Odo) (v w : V3) (dt : ℝ) : Option Odo := do
  let R ← o.state.get_rotation
  let _v ← o.state.get_velocity
  let p ← o.state.get_position
  let E ← gamma_SO3 (dt • w) 0
  let X := Mat.ones 5 5
  let X ← X.setBlock? 0 0 (of3 (R * E))
  let X ← X.setBlock? 0 3 (ofV (R.mulVec v))
  let X ← X.setBlock? 0 4 (ofV (p + dt • R.mulVec v))
  let t ← o.state.t
  some { o with state := { o.state with X := X, t := some (t + dt) } }

open Classical in
/-- `LogPose`, wheel_odometry.cpp:131-143 (`1.0 / 0` is infinite) -/
noncomputable def logPose (o : Odo) : Option Odo := do
  let t ← o.state.t
  if o.enabled = true ∧ o.rate ≠ 0 ∧ t - o.lastPub ≥ 1 / o.rate then
    let R ← o.state.get_world_rotation
    let p ← o.state.get_world_position
    some { o with rows := o.rows ++ [⟨t, p, R⟩], lastPub := t }
  else some o

open Classical in
/-- The part of `RunOnce` after both measurements were taken, wheel_odometry.cpp:84-109 -/
noncomputable def process (o : Odo) (v : VelMeas) (w : AngVelMeas) : Option Odo :=
  if o.prevT = 0 then some { o with prevT := v.time, state := { o.state with t := some v.time } }
  else do
    let o' ← integrate { o with prevT := v.time } v.vel w.angVel (v.time - o.prevT)
    o'.logPose

/-- processing a sequence of pairs -/
noncomputable def processAll : List (VelMeas × AngVelMeas) → Odo → Option Odo
  | [], o => some o
  | m :: l, o => (o.process m.1 m.2).bind (processAll l)

end Odo

/-! ### The two threads -/

/-- the two threads -/
inductive OThread
  | cb
  | run
  deriving DecidableEq

/-- Program counter of `DifferentialEncoder2VelocityCallback` (ros_subscriber.cpp:404-446; the Fetch variant
472-520 ends the same way), after both measurements have been computed. -/
inductive CbPc
  | idle
  /-- before `vel_mutex.lock()` -/
  | wantV (v : VelMeas) (w : AngVelMeas)
  /-- holds `vel_mutex`, before `vel_queue->push` -/
  | holdV (v : VelMeas) (w : AngVelMeas)
  /-- before `vel_mutex.unlock()` -/
  | doneV (w : AngVelMeas)
  /-- before `ang_vel_mutex.lock()` -/
  | wantW (w : AngVelMeas)
  /-- holds `ang_vel_mutex`, before `ang_vel_queue->push` -/
  | holdW (w : AngVelMeas)
  /-- before `ang_vel_mutex.unlock()` -/
  | doneW

/-- Program counter of `RunOnce`, wheel_odometry.cpp:63-84 -/
inductive RunPc
  | idle
  /-- before line 68 -/
  | wantV
  /-- before line 69 -/
  | wantW
  /-- before the test of line 70 -/
  | check
  /-- before line 71 -/
  | emptyV
  /-- before line 72 -/
  | emptyW
  /-- before lines 75-76 -/
  | takeV
  /-- before line 77 -/
  | unlockV (v : VelMeas)
  /-- before lines 78-79 -/
  | takeW (v : VelMeas)
  /-- before line 80 -/
  | unlockW (v : VelMeas) (w : AngVelMeas)

/-- the whole system; `odo = none` records undefined behaviour -/
structure OSys where
  odo : Option Odo
  velQ : List VelMeas
  angQ : List AngVelMeas
  /-- owner of the velocity queue mutex -/
  ownV : Option OThread
  /-- owner of the angular velocity queue mutex -/
  ownW : Option OThread
  cb : CbPc
  run : RunPc

/-- what can happen: an encoder message arrives (the callback starts), one of the threads makes one step -/
inductive OAct
  | deliver (v : VelMeas) (w : AngVelMeas)
  | cb
  | run

namespace OSys

/-- start -/
noncomputable def init (o : Odo) : OSys where
  odo := some o
  velQ := []
  angQ := []
  ownV := none
  ownW := none
  cb := .idle
  run := .idle

/-- one step of the callback; `none` = blocked or nothing to do -/
def cbStep (s : OSys) : Option OSys :=
  match s.cb with
  | .idle => none
  | .wantV v w => if s.ownV = none then some { s with ownV := some .cb, cb := .holdV v w } else none
  | .holdV v w => some { s with velQ := s.velQ ++ [v], cb := .doneV w }
  | .doneV w => some { s with ownV := none, cb := .wantW w }
  | .wantW w => if s.ownW = none then some { s with ownW := some .cb, cb := .holdW w } else none
  | .holdW w => some { s with angQ := s.angQ ++ [w], cb := .doneW }
  | .doneW => some { s with ownW := none, cb := .idle }

/-- one step of the thread running `RunOnce`; from `idle` it calls `RunOnce` again -/
noncomputable def runStep (s : OSys) : Option OSys :=
  match s.run with
  | .idle => some { s with run := .wantV }
  | .wantV => if s.ownV = none then some { s with ownV := some .run, run := .wantW } else none
  | .wantW => if s.ownW = none then some { s with ownW := some .run, run := .check } else none
  | .check => if s.velQ = [] ∨ s.angQ = [] then some { s with run := .emptyV } else some { s with run := .takeV }
  | .emptyV => some { s with ownV := none, run := .emptyW }
  | .emptyW => some { s with ownW := none, run := .idle }
  | .takeV =>
    match s.velQ with
    | [] => some { s with odo := none }
    | v :: q => some { s with velQ := q, run := .unlockV v }
  | .unlockV v => some { s with ownV := none, run := .takeW v }
  | .takeW v =>
    match s.angQ with
    | [] => some { s with odo := none }
    | w :: q => some { s with angQ := q, run := .unlockW v w }
  | .unlockW v w => some { s with ownW := none, odo := s.odo.bind fun o => o.process v w, run := .idle }

/-- one action; `none` = not enabled -/
noncomputable def act (s : OSys) : OAct → Option OSys
  | .deliver v w =>
    match s.cb with
    | .idle => some { s with cb := .wantV v w }
    | _ => none
  | .cb => s.cbStep
  | .run => s.runStep

/-- the pair whose integration an action performs -/
def processedBy (s : OSys) : OAct → List (VelMeas × AngVelMeas)
  | .run =>
    match s.run with
    | .unlockW v w => [(v, w)]
    | _ => []
  | _ => []

/-- the encoder message (velocity, angular velocity) an action delivers -/
def deliveredBy : OAct → List (VelMeas × AngVelMeas)
  | .deliver v w => [(v, w)]
  | _ => []

/-- `Exec s l s' D N`: the actions `l`, each enabled, lead from `s` to `s'`; the messages `D` were delivered and the
pairs `N` processed, in order -/
inductive Exec : OSys → List OAct → OSys → List (VelMeas × AngVelMeas) → List (VelMeas × AngVelMeas) → Prop
  | nil (s) : Exec s [] s [] []
  | snoc {s l s' D N} (h : Exec s l s' D N) (a s'') (ha : s'.act a = some s'') :
      Exec s (l ++ [a]) s'' (D ++ deliveredBy a) (N ++ s'.processedBy a)

end OSys
end Drift
