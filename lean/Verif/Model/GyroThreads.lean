import Verif.Model.ImuFilter

/-!
# Model of the gyro filter thread against the other threads, one critical section at a time

`Model/ImuFilter` treats `RunOnce` and `clear` of the gyro filter as one step each.  In the program the filter thread
(imu_ang_vel_ekf.cpp:367-378) works on the gyro queue, the IMU queues, the angular velocity queue and the output queue,
takes and releases their mutexes several times during one `RunOnce`, and between any two such moments sensor callbacks
append measurements, the estimator takes outputs, and the main thread may be in `clear` (called by
`InekfEstimator::clear`, inekf_estimator.cpp:286-290).  This module models them at that granularity.

Every access to a queue in imu_ang_vel_ekf.cpp is made with the queue's mutex held, as is every access in the callbacks
and in `ImuPropagation`, so a critical section is one step here (that a section of one thread excludes those of the
others is shown for the main loop, with the mutexes, in `Model/Threads`).  What `RunOnce` computes between two sections
concerns members that only the filter thread uses; it is made part of the section before it (or of the beginning of the
call).  The debug files are not modelled.
-/
namespace Drift
open GyroFilter
namespace GyroThr

/-- the queues: propagation gyro, first IMU, `i`-th further IMU, angular velocity, output -/
inductive Q
  | gyro
  | imu
  | imus (i : ℕ)
  | enc
  | out
deriving DecidableEq

/-- where the filter thread is inside `RunOnce` -/
inductive PC
  /-- between two calls -/
  | idle
  /-- about to take gyro data, imu_ang_vel_ekf.cpp:725-733 -/
  | gyroProp
  /-- `SingleImuCorrection`: about to inspect the IMU queue, 547-566 -/
  | imuSingle
  /-- `MultiImuCorrection`: about to inspect queue `i`, 580-588; `fused` is the local `fused_ang_imu` -/
  | imuMulti (i : ℕ) (fused : Option ImuMeas)
  /-- `SingleImuAngVelCorrection`: about to read the front of the IMU queue, 609-615 -/
  | frontImu
  /-- `SingleImuAngVelCorrection`: about to read the front of the angular velocity queue, 617-623; `m` is the local
  `imu_measurement` -/
  | frontEnc (m : Option ImuMeas)
  /-- `AngVelCorrection`: about to read the front of the angular velocity queue, 682-690 -/
  | encOnly
  /-- about to push `o` to the output queue, then on to `next`: 564-566, 597-599, 645-647, 669-671, 703-705 -/
  | push (o : ImuMeas) (next : PC)
  /-- about to pop the IMU queue, 650-652 -/
  | popImu
  /-- about to pop the angular velocity queue, 657-659, 674-676, 694-696, 707-709 -/
  | popEnc
  /-- `InitializeFilter`: about to take an IMU sample, 474-481 -/
  | biasImu
  /-- `InitializeFilter`: about to take a gyro sample, 485-493 -/
  | biasGyro
  /-- `InitializeFilter`: about to empty the gyro queue, 510-513 -/
  | clrGyro
  /-- `InitializeFilter`: about to empty the IMU queue, 518-521 -/
  | clrImu
  /-- `InitializeFilter`: about to empty IMU queue `i`, 523-528 -/
  | clrImus (i : ℕ)
  /-- `InitializeFilter`: about to empty the angular velocity queue, 534-537 -/
  | clrEnc

/-- the first section of the correction, imu_ang_vel_ekf.cpp:392-409 -/
def corrPC : FMethod → PC
  | .imuPlusAngVel => .frontImu
  | .singleImu => .imuSingle
  | .multiImu => .imuMulti 0 none
  | .angVel => .encOnly
  | .invalid => .idle

/-- 533-539 with nothing else to empty: the angular velocity queue, or the end of the initialisation -/
def endInit (f : GyroFilter) : GyroFilter × PC :=
  match f.method with
  | .imuPlusAngVel => (f, .clrEnc)
  | .angVel => (f, .clrEnc)
  | _ => ({ f with initialized := true }, .idle)

/-- 516-539: what is emptied after the gyro queue -/
def clrPC (f : GyroFilter) : GyroFilter × PC :=
  match f.method with
  | .imuPlusAngVel => (f, .clrImu)
  | .singleImu => (f, .clrImu)
  | .multiImu => (f, .clrImus 0)
  | _ => endInit f

/-- 510: the gyro queue is emptied first, if there is one -/
def clrStart (f : GyroFilter) : GyroFilter × PC :=
  match f.gyro with
  | none => clrPC f
  | some _ => (f, .clrGyro)

/-- The beginning of `InitializeFilter` up to its first section, imu_ang_vel_ekf.cpp:468-509.  `none`: reads the
uninitialised `init_bias_size_`, or averages no samples. -/
noncomputable def startInit (f : GyroFilter) : Option (GyroFilter × PC) :=
  if f.cfg.staticBias then
    f.biasTarget.bind fun n =>
      if f.biasVec.length < n then some (f, .biasImu)
      else if f.biasVec.length = 0 then none
      else some (clrStart { f with x := join 0 (mean f.biasVec) })
  else some ({ f with initialized := true }, .idle)

/-- The beginning of `RunOnce` up to its first section, imu_ang_vel_ekf.cpp:381-432, 770-776. -/
noncomputable def start (f : GyroFilter) : Option (GyroFilter × PC) :=
  if f.initialized then
    match f.gyro with
    | none => some (f.propagate, corrPC f.method)
    | some _ => some (f, .gyroProp)
  else startInit { f with method := f.chooseMethod }

open Classical in
/-- 639-653 up to the next section -/
noncomputable def useImu (f : GyroFilter) (m : ImuMeas) : Option (GyroFilter × PC) :=
  let f := { f with latest := some m }
  if f.Fresh m.time then (f.correctImu m).map fun r => (r.2, .push r.1 .popImu) else some (f, .popImu)

open Classical in
/-- 655-677 up to the next section -/
noncomputable def useEnc (f : GyroFilter) (a : AngVelMeas) : Option (GyroFilter × PC) :=
  match f.latest with
  | none => some (f, .popEnc)
  | some m => if f.Fresh a.time then (f.correctEnc m a).map fun r => (r.2, .push r.1 .popEnc) else some (f, .popEnc)

open Classical in
/-- 625-637: which of the two fronts is used -/
noncomputable def choose (f : GyroFilter) : Option ImuMeas → Option AngVelMeas → Option (GyroFilter × PC)
  | none, none => some (f, .idle)
  | some m, none => useImu f m
  | none, some a => useEnc f a
  | some m, some a => if m.time ≤ a.time then useImu f m else useEnc f a

open Classical in
/-- One critical section of the filter thread and what follows until the next; `none` is undefined behaviour (a queue that
was never registered, `pop()` of an empty queue) or a singular innovation covariance. -/
noncomputable def mstep (f : GyroFilter) : PC → Option (GyroFilter × PC)
  | .idle => none
  | .gyroProp => f.gyro.map fun _ => (f.propagate, corrPC f.method)
  | .imuSingle =>
    match f.imu with
    | none => none
    | some [] => some (f, .idle)
    | some (m :: q) =>
      if f.lastProp - m.time ≤ f.cfg.tThres ∧ f.lastProp ≥ m.time then
        (correctImu { f with imu := some q } m).map fun r => (r.2, .push r.1 .idle)
      else some (f, .idle)
  | .imuMulti i fused =>
    match f.imus[i]? with
    | none => some (f, .idle)
    | some [] => some (f, .imuMulti (i + 1) fused)
    | some (m :: q) =>
      let f := { f with imus := f.imus.set i q }
      if f.Fresh m.time then (f.correctImu m).map fun r => (r.2, .push r.1 (.imuMulti (i + 1) (some r.1)))
      else match fused with
        | none => some (f, .imuMulti (i + 1) none)
        | some o => some (f, .push o (.imuMulti (i + 1) (some o)))
  | .frontImu => f.imu.map fun q => (f, .frontEnc q.head?)
  | .frontEnc m => f.enc.bind fun q => choose f m q.head?
  | .encOnly =>
    match f.enc with
    | none => none
    | some [] => some (f, .idle)
    | some (a :: _) =>
      match f.latest with
      | none => some (f, .popEnc)
      | some m => (f.correctEnc m a).map fun r => (r.2, .push r.1 .popEnc)
  | .push o next => some (f.push o, next)
  | .popImu =>
    match f.imu with
    | some (_ :: q) => some ({ f with imu := some q }, .idle)
    | _ => none
  | .popEnc =>
    match f.enc with
    | some (_ :: q) => some ({ f with enc := some q }, .idle)
    | _ => none
  | .biasImu =>
    match f.imu with
    | none => none
    | some [] => some (f, .idle)
    | some (m :: q) =>
      some ({ f with imu := some q, biasVec := f.biasVec ++ [m.angVel] },
        match f.gyro with
        | none => .idle
        | some _ => .biasGyro)
  | .biasGyro =>
    match f.gyro with
    | none => none
    | some [] => some (f, .idle)
    | some (g :: q) => some ({ f with gyro := some q, prev := g.angVel }, .idle)
  | .clrGyro => f.gyro.map fun _ => clrPC { f with gyro := some [] }
  | .clrImu => f.imu.map fun _ => endInit { f with imu := some [] }
  | .clrImus i => some (if i < f.imus.length then ({ f with imus := f.imus.set i [] }, .clrImus (i + 1)) else endInit f)
  | .clrEnc => f.enc.map fun _ => ({ f with enc := some [], initialized := true }, .idle)

/-- where the main thread is inside `clear`, imu_ang_vel_ekf.cpp:870-891: not in it, or about to empty the IMU queue, the
angular velocity queue, the output queue -/
inductive CPC
  | no
  | imu
  | enc
  | out
deriving DecidableEq

/-- The whole program. -/
structure Sys where
  f : GyroFilter
  pc : PC
  cl : CPC

/-- nobody is inside a call -/
def Sys.init (f : GyroFilter) : Sys := ⟨f, .idle, .no⟩

/-- the queue on which a callback or the estimator works in an event (none for the other operations) -/
def res : Op → Option Q
  | .gyroData _ => some .gyro
  | .imuData _ => some .imu
  | .imuDataN i _ => some (.imus i)
  | .encData _ => some .enc
  | .popOut => some .out
  | _ => none

/-- the steps -/
inductive Act
  /-- the filter thread calls `RunOnce` -/
  | call
  /-- the filter thread inside `RunOnce` -/
  | filter
  /-- a callback appends a measurement, or the estimator takes an output if there is one (imu_propagation.cpp:134-142) -/
  | ev (o : Op)
  /-- the main thread begins `clear`, or does its next section -/
  | clear

/-- One step; `none`: not possible now, or undefined behaviour. -/
noncomputable def Sys.act (y : Sys) : Act → Option Sys
  | .call => match y.pc with
    | .idle => (start y.f).map fun r => { y with f := r.1, pc := r.2 }
    | _ => none
  | .filter => (mstep y.f y.pc).map fun r => { y with f := r.1, pc := r.2 }
  | .ev o => match res o with
    | none => none
    | some _ => (y.f.step o).map fun f => { y with f := f }
  | .clear => match y.cl with
    | .no => some { y with cl := .imu }
    | .imu => y.f.imu.map fun _ => { y with f := { y.f with imu := some [] }, cl := .enc }
    | .enc => y.f.enc.map fun _ => { y with f := { y.f with enc := some [] }, cl := .out }
    | .out => some { y with f := { y.f with out := [] }, cl := .no }

/-- a sequence of steps, each possible -/
noncomputable def Sys.run : Sys → List Act → Option Sys
  | y, [] => some y
  | y, a :: l => (y.act a).bind fun y' => run y' l

end GyroThr
end Drift
