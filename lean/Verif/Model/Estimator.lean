import Verif.Model.Correction
import Mathlib.Data.Nat.Digits.Defs

/-!
# Model of `src/estimator/inekf_estimator.cpp` and of the main loop of `ROS/drift/examples/mini_cheetah.cpp`

Strings are lists of characters.  The estimator object is used by one thread (the main loop); sensor callbacks
only append to the measurement queues (under the queue mutexes), the publisher only removes from the front of
the output queue, the logging thread only removes from the front of the log queue.  A call is one atomic step here;
that every interleaving is explained by such a history is proved in Props/Threads (C123).  The optional gyro filter
(`imu_filter_`) is modelled separately (Model/ImuFilter.lean): it is another producer of the IMU queue.
`none` is undefined behaviour.
-/
namespace Drift
open Mat Matrix RobotState

/-! ### robot_state.cpp: covariance setters -/

/-- robot_state.cpp:306-308 -/
def RobotState.set_rotation_covariance (s : RobotState) (c : M3) : Option RobotState :=
  (s.P.setBlock? 0 0 (of3 c)).map fun P => { s with P := P }
/-- robot_state.cpp:309-311 -/
def RobotState.set_velocity_covariance (s : RobotState) (c : M3) : Option RobotState :=
  (s.P.setBlock? 3 3 (of3 c)).map fun P => { s with P := P }
/-- robot_state.cpp:312-314 -/
def RobotState.set_position_covariance (s : RobotState) (c : M3) : Option RobotState :=
  (s.P.setBlock? 6 6 (of3 c)).map fun P => { s with P := P }

/-! ### Corrections -/

/-- include/drift/estimator/inekf_estimator.h:276-277: `corrections_` holds pointers to the base class
`Correction`; the two implementations -/
inductive Corr
  | vel (c : VelCorr)
  | leg (c : LegCorr)

namespace Corr
/-- virtual `Correct` -/
noncomputable def correct (c : Corr) (h : Heap) (s : RobotState) : Option (Bool × Corr × Heap × RobotState) :=
  match c with
  | .vel c => (c.correct s).map fun r => (r.1, .vel r.2.1, h, r.2.2)
  | .leg c => (c.correct h s).map fun r => (r.1, .leg r.2.1, r.2.2.1, r.2.2.2)
/-- virtual `initialize` -/
def setInitial (c : Corr) (s : RobotState) : Option (Bool × Corr × RobotState) :=
  match c with
  | .vel c => (c.setInitial s).map fun r => (r.1, .vel r.2.1, r.2.2)
  | .leg c => (c.setInitial s).map fun r => (r.1, .leg r.2.1, r.2.2)
/-- virtual `clear` -/
def clear : Corr → Corr
  | .vel c => .vel c.clear
  | .leg c => .leg c.clear
end Corr

/-! ### The pose logger -/

/-- One line of each of the three log files (inekf_estimator.cpp:151-171); the orientation is kept as a
rotation matrix instead of a quaternion. -/
structure LogRow where
  time : ℝ
  pos : V3
  rot : M3
  vel : V3
  bodyVel : V3

/-- the members of the estimator that serve logging.  `opened` is the history of file names (pose, velocity,
body velocity) opened so far, `written` the history of rows written. -/
structure Logger where
  enabled : Bool
  poseBase : List Char
  velBase : List Char
  rate : ℝ
  lastPub : ℝ
  initCount : ℕ
  queue : List RobotState
  opened : List (List Char × List Char × List Char)
  written : List LogRow

namespace Logger
/-- `std::string::find_last_of(".")` followed by `erase(pos, length)` (inekf_estimator.cpp:51-58): drop
everything from the last `'.'`, if there is one -/
def stripDot (s : List Char) : List Char :=
  if '.' ∈ s then ((s.reverse.dropWhile (· ≠ '.')).drop 1).reverse else s

/-- `std::to_string(n)` for `n > 0` -/
def dec (n : ℕ) : List Char := ((Nat.digits 10 n).map Nat.digitChar).reverse

/-- inekf_estimator.cpp:41-74: the part of the constructor that sets up logging -/
noncomputable def ctor (enabled : Bool) (poseFile velFile : Option (List Char)) (rate : Option ℝ) : Logger :=
  let pb := stripDot (poseFile.getD "inekf_pose".toList)
  let vb := stripDot (velFile.getD "inekf_vel".toList)
  { enabled := enabled
    poseBase := if enabled then pb else []
    velBase := if enabled then vb else []
    rate := rate.getD 10
    lastPub := 0
    initCount := 0
    queue := []
    opened := if enabled then [(pb ++ ".txt".toList, vb ++ ".txt".toList, vb ++ "_body_frame.txt".toList)] else []
    written := [] }

/-- inekf_estimator.cpp:114-119: a processed state is queued for the logging thread -/
def push (l : Logger) (s : RobotState) : Logger :=
  if l.enabled then { l with queue := l.queue ++ [s] } else l

/-- inekf_estimator.cpp:149 `time_diff >= 1.0 / pose_log_rate_`; `1.0 / 0` is infinite -/
noncomputable def due (l : Logger) (t : ℝ) : Prop := l.rate ≠ 0 ∧ t - l.lastPub ≥ 1 / l.rate

open Classical in
/-- inekf_estimator.cpp:133-175: one iteration of the loop of `PoseLoggingThread` -/
noncomputable def iter (l : Logger) : Option Logger :=
  match l.queue with
  | [] => some l
  | s :: rest => do
    let t ← s.t
    let l := { l with queue := rest }
    if l.enabled = true ∧ l.due t then
      let p ← s.get_world_position
      let R ← s.get_world_rotation
      let v ← s.get_world_velocity
      let b ← s.get_body_velocity
      some { l with written := l.written ++ [⟨t, p, R, v, b⟩], lastPub := t }
    else some l

/-- inekf_estimator.cpp:313-333: the logging part of `clear`.  `++init_count_` occurs once per file. -/
def clear (l : Logger) : Logger :=
  let l := { l with queue := [] }
  if l.enabled then
    { l with
      opened := l.opened ++ [(l.poseBase ++ '_' :: dec (l.initCount + 1) ++ ".txt".toList,
        l.velBase ++ '_' :: dec (l.initCount + 2) ++ ".txt".toList,
        l.velBase ++ "_body_frame_".toList ++ dec (l.initCount + 3) ++ ".txt".toList)]
      initCount := l.initCount + 3 }
  else l
end Logger

/-! ### The estimator -/

/-- include/drift/estimator/inekf_estimator.h:271-320: the members.  `new_pose_ready_` is only used inside
`RunOnce`.  `pending = some i` says that `InitState` is inside its waiting loop for correction number `i`
(inekf_estimator.cpp:258-262). -/
structure Estimator where
  errorType : ErrorType
  prop : ImuProp
  corrs : List Corr
  state : RobotState
  heap : Heap
  enabled : Bool
  outQ : List RobotState
  rotCov : ℝ
  velCov : ℝ
  posCov : ℝ
  log : Logger
  pending : Option ℕ

/-- the YAML file of the estimator: keys `state/*_std_value` and `logger/*` -/
structure EstConfig where
  rotation_std_value : Option ℝ := none
  velocity_std_value : Option ℝ := none
  position_std_value : Option ℝ := none
  enable_pose_logger : Bool := false
  pose_log_file : Option (List Char) := none
  vel_log_file : Option (List Char) := none
  pose_log_rate : Option ℝ := none

/-- a correction to be added: its kind and configuration -/
inductive CorrConfig
  | vel (c : VelConfig)
  | leg (c : LegConfig)

/-- inekf_estimator.cpp:216-229: `add_velocity_correction`, `add_legged_kinematics_correction` (with a new,
empty queue) -/
noncomputable def CorrConfig.build (et : ErrorType) : CorrConfig → Option Corr
  | .vel c => (VelCorr.ctor [] et c).map .vel
  | .leg c => some (.leg (LegCorr.ctor [] et c))

namespace Estimator

/-- inekf_estimator.cpp:23-76 and 190-229: construction, `add_imu_propagation` and any number of
`add_*_correction` calls, with empty queues.  The heap of column numbers is a parameter. -/
noncomputable def ctor (et : ErrorType) (h : Heap) (c : EstConfig) (ic : ImuPropConfig) (cs : List CorrConfig) :
    Option Estimator := do
  let p ← ImuProp.ctor [] et ic
  let corrs ← cs.mapM (CorrConfig.build et)
  some
    { errorType := et
      prop := p
      corrs := corrs
      state := RobotState.init
      heap := h
      enabled := false
      outQ := []
      rotCov := (c.rotation_std_value.map (· ^ 2)).getD 0.03
      velCov := (c.velocity_std_value.map (· ^ 2)).getD 0.01
      posCov := (c.position_std_value.map (· ^ 2)).getD 0.00001
      log := Logger.ctor c.enable_pose_logger c.pose_log_file c.vel_log_file c.pose_log_rate
      pending := none }

/-- inekf_estimator.cpp:100-104: the loop over the corrections -/
noncomputable def correctAll : List Corr → Heap → RobotState → Option (Bool × List Corr × Heap × RobotState)
  | [], h, s => some (false, [], h, s)
  | c :: cs, h, s => do
    let (b, c, h, s) ← c.correct h s
    let (b', cs, h, s) ← correctAll cs h s
    some (b || b', c :: cs, h, s)

/-- inekf_estimator.cpp:95-123 `RunOnce`.  `enabled_slip_estimator_` is never set, so `SlipEstimatorStep` is
not called. -/
noncomputable def runOnce (e : Estimator) : Option Estimator := do
  let (b, p, s) ← e.prop.propagate e.state
  let (b', cs, h, s) ← correctAll e.corrs e.heap s
  let e := { e with prop := p, corrs := cs, heap := h, state := s }
  if b || b' then some { e with outQ := e.outQ ++ [s], log := e.log.push s } else some e

/-- inekf_estimator.cpp:258-262: the initialisation of the corrections, from the first one not yet
initialised; stops at the first correction without data (where the code goes on waiting) -/
def initCorrs : List Corr → List Corr → RobotState → Option (List Corr × List Corr × RobotState)
  | done, [], s => some (done, [], s)
  | done, c :: cs, s => do
    let (b, c, s) ← c.setInitial s
    if b then initCorrs (done ++ [c]) cs s else some (done, c :: cs, s)

/-- inekf_estimator.cpp:264-284: the end of `InitState` -/
noncomputable def finishInit (e : Estimator) : Option Estimator := do
  let s ← e.state.set_rotation_covariance (e.rotCov • (1 : M3))
  let s ← s.set_velocity_covariance (e.velCov • (1 : M3))
  let s ← s.set_position_covariance (e.posCov • (1 : M3))
  some { e with state := s, outQ := e.outQ ++ [s], enabled := true, pending := none }

/-- inekf_estimator.cpp:258-284: from correction number `i` on -/
noncomputable def initFrom (e : Estimator) (i : ℕ) : Option Estimator := do
  let (done, todo, s) ← initCorrs (e.corrs.take i) (e.corrs.drop i) e.state
  let e := { e with corrs := done ++ todo, state := s }
  match todo with
  | [] => e.finishInit
  | _ :: _ => some { e with pending := some done.length }

/-- inekf_estimator.cpp:251-284 `InitState`, up to its return or to the first wait -/
noncomputable def initState (e : Estimator) : Option Estimator := do
  let (b, p, s) ← e.prop.setInitialState e.state
  let e := { e with prop := p, state := s }
  if b then e.initFrom 0 else some e

/-- inekf_estimator.cpp:243-249 `InitBias` -/
noncomputable def initBias (e : Estimator) : Option Estimator :=
  e.prop.initImuBias.map fun p => { e with prop := p }

/-- inekf_estimator.cpp:286-334 `clear` -/
def clear (e : Estimator) : Estimator :=
  { e with
    prop := e.prop.clear
    corrs := e.corrs.map Corr.clear
    state := e.state.clear
    outQ := []
    enabled := false
    log := e.log.clear }

/-- inekf_estimator.cpp:231-232 `EnableFilter` -/
def enableFilter (e : Estimator) : Estimator := { e with enabled := true }

/-- ROS/drift/examples/mini_cheetah.cpp:103-115: one turn of the main loop (the other examples have the same
loop); when `InitState` is waiting for a correction, the wait goes on. -/
noncomputable def tick (e : Estimator) : Option Estimator :=
  match e.pending with
  | some i => e.initFrom i
  | none => if e.enabled then e.runOnce else if e.prop.biasInitialized then e.initState else e.initBias

end Estimator

/-- what can happen to a running system -/
inductive EstEv
  | imu (m : ImuMeas)
  | vel (i : ℕ) (m : VelMeas)
  | leg (i : ℕ) (m : LegMeas)
  | tick
  | clear
  | log
  | consume

/-- queue a velocity measurement at a correction (nothing happens if it is of the other kind) -/
def Corr.pushVel (m : VelMeas) : Corr → Corr
  | .vel c => .vel { c with buffer := c.buffer ++ [m] }
  | c => c
/-- queue a kinematic measurement -/
def Corr.pushLeg (m : LegMeas) : Corr → Corr
  | .leg c => .leg { c with buffer := c.buffer ++ [m] }
  | c => c

namespace Estimator
/-- One event: a sensor callback queues a measurement (for correction number `i`); one turn of the main loop;
a call of `clear` from the main loop (not while `InitState` is waiting: nothing happens); one iteration of the
logging thread; the publisher takes the oldest published state. -/
noncomputable def step (e : Estimator) : EstEv → Option Estimator
  | .imu m => some { e with prop := { e.prop with buffer := e.prop.buffer ++ [m] } }
  | .vel i m => some { e with corrs := e.corrs.modify i (Corr.pushVel m) }
  | .leg i m => some { e with corrs := e.corrs.modify i (Corr.pushLeg m) }
  | .tick => e.tick
  | .clear => match e.pending with
    | none => some e.clear
    | some _ => some e
  | .log => e.log.iter.map fun l => { e with log := l }
  | .consume => some { e with outQ := e.outQ.tail }

/-- a history -/
noncomputable def run : Estimator → List EstEv → Option Estimator
  | e, [] => some e
  | e, ev :: evs => (e.step ev).bind fun e' => run e' evs

/-- inekf_estimator.cpp:336-364 `SlipEstimatorStep`.  `Sigma` is computed and not used (its blocks need
`dimP ≥ 12`); `Sigma1 = 0.001 I`, so `chi = d . (1000 d)`. -/
noncomputable def slipStep (s : RobotState) : Option RobotState := do
  let d ← s.get_vector ((s.dimX : ℤ) - 1)
  let _ ← s.get_rotation
  if s.P.rows < 12 ∨ s.P.cols < 12 then none else
  let chi := d ⬝ᵥ ((((0.001 : ℝ) • (1 : M3))⁻¹).mulVec d)
  some { s with slip := if chi > 4.642 then 1 else 0 }

end Estimator
end Drift
