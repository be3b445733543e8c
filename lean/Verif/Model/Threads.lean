import Verif.Model.Estimator

/-!
# Model of the main loop against the other threads, one critical section at a time

`Model/Estimator` treats a call of `RunOnce`, `InitBias`, `InitState` or `clear` as one step.  In the program the main
thread works on four kinds of queues (IMU, one per correction, output, log), each with its own mutex; it takes and
releases a mutex several times during one call, and between any two such moments sensor callbacks push measurements,
the publisher takes published states and the logging thread takes logged ones.  This module models the calls at that
granularity, with the mutexes.

A critical section is `lock`, the work on the queue (with the computation that follows, which concerns members that only
the main thread uses), `unlock`: three steps.  The work is one step: whoever else works on that queue needs the mutex.
`empty()` without the mutex is a step of its own.
-/
namespace Drift
open RobotState
namespace Thr

/-- the queues: IMU measurements, measurements of correction number `i`, published states, states to be logged -/
inductive Res
  | imu
  | corr (i : ℕ)
  | out
  | log
deriving DecidableEq

/-- the queue on which another thread works in an event: a sensor callback (`mutex.lock(); queue->push(..);
mutex.unlock()`, ros_subscriber.cpp:348-350 and every other callback), the publisher, the logging thread
(inekf_estimator.cpp:137-146).  `tick` and `clear` belong to the main thread. -/
def res : EstEv → Option Res
  | .imu _ => some .imu
  | .vel i _ => some (.corr i)
  | .leg i _ => some (.corr i)
  | .consume => some .out
  | .log => some .log
  | .tick => none
  | .clear => none

/-- where the main thread is -/
inductive PC
  /-- between two calls -/
  | idle
  /-- `RunOnce`: about to call `Propagate`, imu_propagation.cpp:134-142 -/
  | prop
  /-- `RunOnce`: in `Correct` of correction `i`; `b` = `new_pose_ready_`; `again`: a measurement was taken and is too
  old (velocity_correction.cpp:102-109, legged_kinematics_correction.cpp:74-81), otherwise at the first section
  (84-98, 59-67) -/
  | corr (i : ℕ) (b again : Bool)
  /-- `RunOnce`: about to publish, inekf_estimator.cpp:108-110 -/
  | out
  /-- `RunOnce`: about to log, inekf_estimator.cpp:115-120 -/
  | log
  /-- `InitBias`, imu_propagation.cpp:415-476 -/
  | bias
  /-- `InitState`: about to test `empty()` without the mutex, imu_propagation.cpp:493 -/
  | initPeek
  /-- `InitState`: about to take an IMU measurement, imu_propagation.cpp:496-499 -/
  | initPop
  /-- `InitState`: about to test `empty()` of correction `i` without the mutex, velocity_correction.cpp:153,
  legged_kinematics_correction.cpp:262 -/
  | initCorrPeek (i : ℕ)
  /-- `InitState`: about to take the newest measurement of correction `i`, velocity_correction.cpp:158-166,
  legged_kinematics_correction.cpp:267-276 -/
  | initCorr (i : ℕ)
  /-- `InitState`: about to publish, inekf_estimator.cpp:264-283 -/
  | finish
  /-- `clear`, inekf_estimator.cpp:293 -/
  | clearProp
  /-- `clear` of correction `i`, inekf_estimator.cpp:296-298 -/
  | clearCorr (i : ℕ)
  /-- `clear`, inekf_estimator.cpp:301-312 -/
  | clearOut
  /-- `clear`, inekf_estimator.cpp:315-333; the files are dealt with in `Model/LogThread` -/
  | clearLog

/-- the result of one critical section of `Correct` -/
inductive Sect
  /-- `Correct` returns `b` -/
  | done (b : Bool) (c : Corr) (h : Heap) (s : RobotState)
  /-- a measurement was taken from the queue, it is too old -/
  | again (c : Corr)

/-- velocity_correction.cpp:84-138: one critical section and what follows until the next -/
noncomputable def velSect (again : Bool) (c : VelCorr) (h : Heap) (s : RobotState) : Option Sect :=
  match c.buffer with
  | [] => some (.done false (.vel c) h s)
  | front :: rest => do
    let tp ← s.tProp
    if again = false ∧ front.time - tp ≥ 0 then some (.done false (.vel c) h s)
    else if front.time - tp < -c.tDiffThres then some (.again (.vel { c with buffer := rest }))
    else do
      let s' ← c.apply front s
      some (.done true (.vel { c with buffer := rest }) h s')

/-- legged_kinematics_correction.cpp:59-251: the same -/
noncomputable def legSect (c : LegCorr) (h : Heap) (s : RobotState) : Option Sect :=
  match c.buffer with
  | [] => some (.done false (.leg c) h s)
  | front :: rest => do
    let tp ← s.tProp
    if front.time - tp < -c.tDiffThres then some (.again (.leg { c with buffer := rest }))
    else do
      let (ids, h, s) ← c.apply front h s
      some (.done true (.leg { c with buffer := rest, ids := ids }) h s)

/-- one critical section of the virtual `Correct` -/
noncomputable def corrSect (again : Bool) : Corr → Heap → RobotState → Option Sect
  | .vel c, h, s => velSect again c h s
  | .leg c, h, s => legSect c h s

/-- is the queue of the correction empty? -/
def corrEmpty : Corr → Bool
  | .vel c => c.buffer.isEmpty
  | .leg c => c.buffer.isEmpty

/-- One step of the main thread inside a call, without the mutexes; `none` is undefined behaviour (for instance `front()`
of an empty queue). -/
noncomputable def mstep (e : Estimator) : PC → Option (Estimator × PC)
  | .idle => none
  | .prop => (e.prop.propagate e.state).map fun r => ({ e with prop := r.2.1, state := r.2.2 }, .corr 0 r.1 false)
  | .corr i b again =>
    match e.corrs[i]? with
    | none => some (e, if b then .out else .idle)
    | some c => (corrSect again c e.heap e.state).map fun
      | .done b' c h s => ({ e with corrs := e.corrs.set i c, heap := h, state := s }, .corr (i + 1) (b || b') false)
      | .again c => ({ e with corrs := e.corrs.set i c }, .corr i b true)
  | .out => some ({ e with outQ := e.outQ ++ [e.state] }, .log)
  | .log => some ({ e with log := e.log.push e.state }, .idle)
  | .bias => e.initBias.map fun e => (e, .idle)
  | .initPeek => some (e, if e.prop.buffer.isEmpty then .idle else .initPop)
  | .initPop =>
    match e.prop.buffer with
    | [] => none
    | _ :: _ => (e.prop.setInitialState e.state).map fun r => ({ e with prop := r.2.1, state := r.2.2 }, .initCorrPeek 0)
  | .initCorrPeek i =>
    match e.corrs[i]? with
    | none => some (e, .finish)
    | some c => some (if corrEmpty c then ({ e with pending := some i }, .idle) else (e, .initCorr i))
  | .initCorr i =>
    match e.corrs[i]? with
    | none => none
    | some c =>
      if corrEmpty c then none
      else (c.setInitial e.state).map fun r => ({ e with corrs := e.corrs.set i r.2.1, state := r.2.2 }, .initCorrPeek (i + 1))
  | .finish => e.finishInit.map fun e => (e, .idle)
  | .clearProp => some ({ e with prop := e.prop.clear }, .clearCorr 0)
  | .clearCorr i =>
    match e.corrs[i]? with
    | none => some (e, .clearOut)
    | some c => some ({ e with corrs := e.corrs.set i c.clear }, .clearCorr (i + 1))
  | .clearOut => some ({ e with state := e.state.clear, outQ := [], enabled := false }, .clearLog)
  | .clearLog => some ({ e with log := e.log.clear }, .idle)

/-- the first step of a call: one turn of the main loop (mini_cheetah.cpp:103-115; if `InitState` is waiting for a
correction it goes on), or `clear`, which cannot be called while `InitState` is waiting -/
def start (e : Estimator) : EstEv → Option PC
  | .tick => some (match e.pending with
    | some i => .initCorrPeek i
    | none => if e.enabled then .prop else if e.prop.biasInitialized then .initPeek else .bias)
  | .clear => match e.pending with
    | none => some .clearProp
    | some _ => none
  | _ => none

open Classical in
/-- the mutex under which the next step of the main thread is made -/
noncomputable def lockOf (e : Estimator) : PC → Option Res
  | .prop => some .imu
  | .corr i _ _ => if i < e.corrs.length then some (.corr i) else none
  | .out => some .out
  | .log => if e.log.enabled then some .log else none
  | .bias => if e.prop.staticInit = true ∧ e.prop.biasInitVec.length < ImuProp.toSizeT e.prop.initBiasSize then some .imu
      else none
  | .initPop => some .imu
  | .initCorr i => some (.corr i)
  | .finish => some .out
  | .clearProp => some .imu
  | .clearCorr i => if i < e.corrs.length then some (.corr i) else none
  | .clearOut => some .out
  | .clearLog => some .log
  | .idle => none
  | .initPeek => none
  | .initCorrPeek _ => none

/-- who holds a mutex: the main thread, or another thread, before or after its work -/
inductive Holder
  | main
  | other (ev : EstEv)
  | otherDone

/-- the main thread is about to enter its next step, inside a critical section before the work, or after it -/
inductive Phase
  | enter
  | inside
  | leave (r : Res)

/-- the whole program -/
structure Sys where
  e : Estimator
  pc : PC
  ph : Phase
  own : Res → Option Holder

/-- the program between two calls -/
def Sys.init (e : Estimator) : Sys := ⟨e, .idle, .enter, fun _ => none⟩

/-- the steps -/
inductive Act
  /-- the main thread begins a call -/
  | call (op : EstEv)
  /-- the main thread makes a step -/
  | main
  /-- another thread locks the mutex of the queue it will work on -/
  | lock (ev : EstEv)
  /-- it does its work -/
  | work (ev : EstEv)
  /-- it unlocks -/
  | unlock (r : Res)

/-- `own r := o` -/
def setOwn (own : Res → Option Holder) (r : Res) (o : Option Holder) : Res → Option Holder :=
  fun r' => if r' = r then o else own r'

/-- One step; `none`: not possible now (a mutex is held by someone else), or undefined behaviour. -/
noncomputable def Sys.act (y : Sys) : Act → Option Sys
  | .call op =>
    match y.pc, y.ph with
    | .idle, .enter => (start y.e op).map fun pc => { y with pc := pc }
    | _, _ => none
  | .main =>
    match y.ph with
    | .enter =>
      match lockOf y.e y.pc with
      | none => (mstep y.e y.pc).map fun r => { y with e := r.1, pc := r.2 }
      | some r => match y.own r with
        | none => some { y with ph := .inside, own := setOwn y.own r (some .main) }
        | some _ => none
    | .inside =>
      match lockOf y.e y.pc with
      | none => none
      | some r => (mstep y.e y.pc).map fun x => { y with e := x.1, pc := x.2, ph := .leave r }
    | .leave r => some { y with ph := .enter, own := setOwn y.own r none }
  | .lock ev =>
    match res ev with
    | none => none
    | some r => match y.own r with
      | none => some { y with own := setOwn y.own r (some (.other ev)) }
      | some _ => none
  | .work ev =>
    match res ev with
    | none => none
    | some r => match y.own r with
      | some (.other ev') => open Classical in
        if ev' = ev then (y.e.step ev).map fun e => { y with e := e, own := setOwn y.own r (some .otherDone) } else none
      | _ => none
  | .unlock r => match y.own r with
    | some .otherDone => some { y with own := setOwn y.own r none }
    | _ => none

/-- a sequence of steps, each possible -/
noncomputable def Sys.run : Sys → List Act → Option Sys
  | y, [] => some y
  | y, a :: l => (y.act a).bind fun y' => run y' l

end Thr
end Drift
