import Verif.Model.Measurement
import Mathlib.LinearAlgebra.Matrix.NonsingularInverse

/-!
# Model of the gyro filter `src/imu_filter/imu_ang_vel_ekf.cpp`

All sizes are fixed (6 states, 3 measurement rows), so Mathlib matrices are used.  `none` is undefined behaviour
or a NaN: dereferencing a buffer pointer that was never set, inverting a singular innovation covariance,
dividing by zero, reading the uninitialised `init_bias_size_`.

The filter object is used by its own thread; sensor callbacks append to the input queues and the estimator pops
the output queue, each under the queue mutex.  Here a whole
`RunOnce` and a whole `clear` are one step each; `Model/GyroThreads` cuts them into their critical sections, and C133
proves that every interleaving of a run with callbacks and the estimator is explained by whole runs (C134: `clear`).
The queues registered with the filter are assumed to be pairwise different objects.
The debug log files are not modelled.
-/
namespace Drift
open Matrix

/-- include/drift/measurement/angular_velocity.h -/
structure AngVelMeas where
  time : ℝ
  angVel : V3

/-- `ang_vel_and_bias_est_`: angular velocity (0..2) and gyro bias (3..5) -/
abbrev V6 := Fin 6 → ℝ
/-- 6x6 covariance -/
abbrev M66 := Matrix (Fin 6) (Fin 6) ℝ
/-- 3x6 measurement Jacobian -/
abbrev M36 := Matrix (Fin 3) (Fin 6) ℝ

/-- imu_ang_vel_ekf.h:46-51 `CORRECTION_METHOD`; `invalid` stands for any other number read from the yaml file -/
inductive FMethod
  | imuPlusAngVel
  | singleImu
  | multiImu
  | angVel
  | invalid
  deriving DecidableEq

/-- Settings read from the yaml file (imu_ang_vel_ekf.cpp:43-116, 181-232, 274-288). -/
structure FCfg where
  /-- `rotation_imu2body` -/
  rotImu2body : Quat
  /-- `t_threshold` -/
  tThres : ℝ
  /-- `correction_method` -/
  method : FMethod
  /-- `init_bias_size` -/
  initBiasSize : ℤ
  angVelStd : ℝ
  biasStd : ℝ
  filterStd : ℝ
  filterBiasStd : ℝ
  imuStd : ℝ
  encStd : ℝ
  flatGround : Bool
  staticBias : Bool
  /-- `priors/ang_vel_bias` -/
  prior : V3

/-- `ImuAngVelEKF` -/
structure GyroFilter where
  cfg : FCfg
  /-- `gyro_prop_data_buffer_ptr_`; `propagation_method_ == GYRO` iff it is set -/
  gyro : Option (List ImuMeas)
  /-- `imu_data_buffer_ptr_` -/
  imu : Option (List ImuMeas)
  /-- `imu_data_buffer_ptrs_` -/
  imus : List (List ImuMeas)
  /-- `ang_vel_data_buffer_ptr_` -/
  enc : Option (List AngVelMeas)
  /-- `last_propagate_time_` -/
  lastProp : ℝ
  /-- `correction_method_` -/
  method : FMethod
  /-- `num_imu_` -/
  numImu : ℕ
  /-- `num_ang_vel_` -/
  numAngVel : ℕ
  /-- `prev_ang_vel_measurement_` -/
  prev : V3
  /-- `init_bias_size_` converted to `size_t` by the comparison at 473; `none` = uninitialised -/
  biasTarget : Option ℕ
  /-- `bias_init_vec_` -/
  biasVec : List V3
  /-- `filter_initialized_` -/
  initialized : Bool
  /-- `latest_imu_measurement_` -/
  latest : Option ImuMeas
  /-- `ang_vel_and_bias_est_` -/
  x : V6
  /-- `ang_vel_and_bias_P_` -/
  P : M66
  /-- `filtered_imu_data_buffer_ptr_` -/
  out : List ImuMeas

namespace GyroFilter

/-- diagonal 6x6 matrix with `a²` (rates) and `b²` (biases): imu_ang_vel_ekf.cpp:117-129, 234-247 -/
def diag6 (a b : ℝ) : M66 := Matrix.diagonal fun i => if i.val < 3 then a * a else b * b
/-- imu_ang_vel_ekf.cpp:132-137, 250-255 -/
def noise3 (s : ℝ) : M3 := (s * s) • (1 : M3)
/-- `H_imu_`, imu_ang_vel_ekf.cpp:140-153, 258-270 -/
def Himu (flat : Bool) : M36 :=
  if flat then Matrix.of fun i j => if j.val = i.val ∨ j.val = i.val + 3 then 1 else 0
  else Matrix.of fun i j => if i.val = 2 ∧ (j.val = 2 ∨ j.val = 5) then 1 else 0
/-- `H_enc_`, imu_ang_vel_ekf.cpp:140-153, 258-270 -/
def Henc (flat : Bool) : M36 :=
  if flat then Matrix.of fun i j => if j.val = i.val then 1 else 0
  else Matrix.of fun i j => if i.val = 2 ∧ j.val = 2 then 1 else 0

/-- `(a, b)` as a 6-vector -/
def join (a b : V3) : V6 := ![a 0, a 1, a 2, b 0, b 1, b 2]
/-- `est.head(3)` -/
def hd (x : V6) : V3 := ![x 0, x 1, x 2]
/-- `est.tail(3)` -/
def tl (x : V6) : V3 := ![x 3, x 4, x 5]

/-- The implicit conversion `int → size_t` (64 bit) of `bias_init_vec_.size() < init_bias_size_`, line 473. -/
def toSize (n : ℤ) : ℕ := (n % 2 ^ 64).toNat

/-- initial members shared by both constructors: 68-91 / 281-295 (bias prior), 117-121 / 234-238 (P),
header 304-353 (defaults) -/
def base (c : FCfg) : GyroFilter where
  cfg := c
  gyro := none
  imu := none
  imus := []
  enc := none
  lastProp := -1
  method := c.method
  numImu := 0
  numAngVel := 0
  prev := 0
  biasTarget := some (toSize c.initBiasSize)
  biasVec := []
  initialized := false
  latest := none
  x := if c.staticBias then 0 else join 0 c.prior
  P := diag6 c.angVelStd c.biasStd
  out := []

/-- The constructor `ImuAngVelEKF(yaml)`, imu_ang_vel_ekf.cpp:172-323. -/
def mk1 (c : FCfg) : GyroFilter := base c
/-- The constructor with buffers, imu_ang_vel_ekf.cpp:26-170: it never assigns `init_bias_size_` and leaves
`num_imu_ = num_ang_vel_ = 0`.  It is the one used by `InekfEstimator::add_imu_ang_vel_ekf`
(inekf_estimator.cpp:196-212). -/
def mk5 (c : FCfg) : GyroFilter :=
  { base c with imu := some [], enc := some [], biasTarget := none }

/-- imu_ang_vel_ekf.cpp:336-342 (the queue passed is empty) -/
def addGyro (f : GyroFilter) : GyroFilter := { f with gyro := some [] }
/-- imu_ang_vel_ekf.cpp:344-357 (the queue passed is empty) -/
def addImu (f : GyroFilter) : GyroFilter :=
  let f := { f with numImu := f.numImu + 1 }
  if f.numImu = 1 then { f with imu := some [] } else { f with imus := f.imus ++ [[]] }
/-- imu_ang_vel_ekf.cpp:359-365 (the queue passed is empty) -/
def addAngVel (f : GyroFilter) : GyroFilter :=
  { f with numAngVel := f.numAngVel + 1, enc := some [] }

/-- Kalman correction shared by 780-788 and 817-827: innovation of the measurement `y`, gain `K = P Hᵀ S⁻¹`,
`x ← x + K z`, `P ← (I - K H) P`.  `K` is an unevaluated Eigen expression referring to `P`; both uses read the
old `P` because each assignment evaluates its right-hand side into a temporary first. -/
noncomputable def kalman (f : GyroFilter) (H : M36) (R : M3) (y : V3) : Option GyroFilter :=
  let z := y - H *ᵥ f.x
  let S := H * f.P * Hᵀ + R
  if S.det = 0 then none
  else
    let K := f.P * Hᵀ * S⁻¹
    some { f with x := f.x + K *ᵥ z, P := (1 - K * H) * f.P }

/-- `AngVelFilterCorrectIMU`, imu_ang_vel_ekf.cpp:778-812 -/
noncomputable def correctImu (f : GyroFilter) (m : ImuMeas) : Option (ImuMeas × GyroFilter) :=
  (f.kalman (Himu f.cfg.flatGround) (noise3 f.cfg.imuStd) m.angVel).map fun f' =>
    ({ m with angVel := hd f'.x, time := m.time }, f')

/-- `R_imu2body_inverse_`, imu_ang_vel_ekf.cpp:55, 192 -/
def rotInv (c : FCfg) : M3 := c.rotImu2body.toRotᵀ

/-- `AngVelFilterCorrectEncoder`, imu_ang_vel_ekf.cpp:814-853 -/
noncomputable def correctEnc (f : GyroFilter) (m : ImuMeas) (a : AngVelMeas) : Option (ImuMeas × GyroFilter) :=
  (f.kalman (Henc f.cfg.flatGround) (noise3 f.cfg.encStd) (rotInv f.cfg *ᵥ a.angVel)).map fun f' =>
    ({ m with angVel := hd f'.x, time := a.time }, f')

/-- push to the output queue -/
def push (f : GyroFilter) (m : ImuMeas) : GyroFilter := { f with out := f.out ++ [m] }

/-- `GyroPropagate` 723-768 and `RandomWalkPropagate` 770-776, selected at 383-390 -/
def propagate (f : GyroFilter) : GyroFilter :=
  let Q := diag6 f.cfg.filterStd f.cfg.filterBiasStd
  match f.gyro with
  | none => { f with P := f.P + Q }
  | some [] => f
  | some (m :: q) =>
    { f with
      gyro := some q
      lastProp := m.time
      latest := if f.method = .angVel then some m else f.latest
      x := join (m.angVel - f.prev) 0 + f.x
      prev := m.angVel
      P := f.P + Q }

/-- the test at 592-593, 641-642, 664-665 -/
def Fresh (f : GyroFilter) (t : ℝ) : Prop := f.lastProp = -1 ∨ f.lastProp - t ≤ f.cfg.tThres

open Classical in
/-- `SingleImuCorrection`, imu_ang_vel_ekf.cpp:545-572 -/
noncomputable def singleImu (f : GyroFilter) : Option GyroFilter :=
  match f.imu with
  | none => none
  | some [] => some f
  | some (m :: q) =>
    if f.lastProp - m.time ≤ f.cfg.tThres ∧ f.lastProp ≥ m.time then
      (correctImu { f with imu := some q } m).map fun r => r.2.push r.1
    else some f

open Classical in
/-- the loop of `MultiImuCorrection`, imu_ang_vel_ekf.cpp:574-603; `fused` survives from one iteration to the
next -/
noncomputable def multiLoop :
    List (List ImuMeas) → Option ImuMeas → GyroFilter → Option (List (List ImuMeas) × GyroFilter)
  | [], _, f => some ([], f)
  | [] :: qs, fused, f => (multiLoop qs fused f).map fun r => ([] :: r.1, r.2)
  | (m :: q) :: qs, fused, f =>
    (if f.Fresh m.time then (f.correctImu m).map fun r => (some r.1, r.2) else some (fused, f)).bind fun r =>
      let f' := match r.1 with
        | none => r.2
        | some o => r.2.push o
      (multiLoop qs r.1 f').map fun r' => (q :: r'.1, r'.2)

/-- `MultiImuCorrection`, imu_ang_vel_ekf.cpp:574-603 -/
noncomputable def multiImu (f : GyroFilter) : Option GyroFilter :=
  (multiLoop f.imus none f).map fun r => { r.2 with imus := r.1 }

open Classical in
/-- the IMU branch of `SingleImuAngVelCorrection`, imu_ang_vel_ekf.cpp:639-653; `q` is the rest of the queue -/
noncomputable def fuseImu (f : GyroFilter) (m : ImuMeas) (q : List ImuMeas) : Option GyroFilter :=
  let f := { f with latest := some m }
  (if f.Fresh m.time then (f.correctImu m).map fun r => r.2.push r.1 else some f).map fun f =>
    { f with imu := some q }

open Classical in
/-- the angular velocity branches of `SingleImuAngVelCorrection`, imu_ang_vel_ekf.cpp:655-677 -/
noncomputable def fuseEnc (f : GyroFilter) (a : AngVelMeas) (q : List AngVelMeas) : Option GyroFilter :=
  match f.latest with
  | none => some { f with enc := some q }
  | some m =>
    (if f.Fresh a.time then (f.correctEnc m a).map fun r => r.2.push r.1 else some f).map fun f =>
      { f with enc := some q }

open Classical in
/-- `SingleImuAngVelCorrection`, imu_ang_vel_ekf.cpp:605-678 -/
noncomputable def imuPlusAngVel (f : GyroFilter) : Option GyroFilter :=
  match f.imu, f.enc with
  | some [], some [] => some f
  | some (m :: q), some [] => f.fuseImu m q
  | some [], some (a :: q) => f.fuseEnc a q
  | some (m :: q), some (a :: q') => if m.time ≤ a.time then f.fuseImu m q else f.fuseEnc a q'
  | _, _ => none

/-- `AngVelCorrection`, imu_ang_vel_ekf.cpp:680-713 -/
noncomputable def angVelCorr (f : GyroFilter) : Option GyroFilter :=
  match f.enc with
  | none => none
  | some [] => some f
  | some (a :: q) =>
    match f.latest with
    | none => some { f with enc := some q }
    | some m => (f.correctEnc m a).map fun r => { (r.2.push r.1) with enc := some q }

/-- the mean computed at 498-502 -/
noncomputable def mean (l : List V3) : V3 := (l.length : ℝ)⁻¹ • l.foldl (· + ·) 0

/-- imu_ang_vel_ekf.cpp:517-530: clear the IMU queue(s) -/
def clearImuQueues (f : GyroFilter) : Option GyroFilter :=
  match f.method with
  | .imuPlusAngVel => f.imu.map fun _ => { f with imu := some [] }
  | .singleImu => f.imu.map fun _ => { f with imu := some [] }
  | .multiImu => some { f with imus := f.imus.map (fun _ => []) }
  | _ => some f

/-- imu_ang_vel_ekf.cpp:532-538: clear the angular velocity queue -/
def clearEncQueue (f : GyroFilter) : Option GyroFilter :=
  match f.method with
  | .imuPlusAngVel => f.enc.map fun _ => { f with enc := some [] }
  | .angVel => f.enc.map fun _ => { f with enc := some [] }
  | _ => some f

/-- the branch 497-539 of `InitializeFilter`: average, clear the queues -/
noncomputable def finishInit (f : GyroFilter) : Option GyroFilter :=
  if f.biasVec.length = 0 then none
  else
    (clearImuQueues { f with x := join 0 (mean f.biasVec), gyro := f.gyro.map (fun _ => []) }).bind fun f2 =>
      f2.clearEncQueue.map fun f3 => { f3 with initialized := true }

/-- the branch 473-496 of `InitializeFilter`: collect one sample -/
def collectBias (f : GyroFilter) : Option GyroFilter :=
  match f.imu with
  | none => none
  | some [] => some f
  | some (m :: q) =>
    let f1 := { f with imu := some q, biasVec := f.biasVec ++ [m.angVel] }
    match f1.gyro with
    | none => some f1
    | some [] => some f1
    | some (g :: gq) => some { f1 with gyro := some gq, prev := g.angVel }

/-- `InitializeFilter`, imu_ang_vel_ekf.cpp:468-543.  (The uninitialised `init_bias_size_` is read at 473 even
when static initialisation is off, where its value does not matter; only the other case is `none` here.) -/
noncomputable def initializeFilter (f : GyroFilter) : Option GyroFilter :=
  if f.cfg.staticBias then
    f.biasTarget.bind fun n => if f.biasVec.length < n then f.collectBias else f.finishInit
  else some { f with initialized := true }

/-- choice of the correction method, imu_ang_vel_ekf.cpp:411-425 -/
def chooseMethod (f : GyroFilter) : FMethod :=
  if f.numImu = 0 ∧ f.numAngVel = 1 then .angVel
  else if f.numImu = 1 ∧ f.numAngVel = 0 then .singleImu
  else if f.numImu = 1 ∧ f.numAngVel = 1 then .imuPlusAngVel
  else if f.numImu > 1 ∧ f.numAngVel = 0 then .multiImu
  else f.method

/-- the switch 392-409 -/
noncomputable def correctStep (f : GyroFilter) : Option GyroFilter :=
  match f.method with
  | .imuPlusAngVel => f.imuPlusAngVel
  | .singleImu => f.singleImu
  | .multiImu => f.multiImu
  | .angVel => f.angVelCorr
  | .invalid => some f

/-- `RunOnce`, imu_ang_vel_ekf.cpp:381-432 -/
noncomputable def runOnce (f : GyroFilter) : Option GyroFilter :=
  if f.initialized then f.propagate.correctStep
  else initializeFilter { f with method := f.chooseMethod }

/-- `clear`, imu_ang_vel_ekf.cpp:870-891 -/
def clear (f : GyroFilter) : Option GyroFilter :=
  f.imu.bind fun _ => f.enc.map fun _ => { f with imu := some [], enc := some [], out := [] }

/-- `n` iterations of the loop of `RunFilter`, imu_ang_vel_ekf.cpp:374-378 -/
noncomputable def runN : ℕ → GyroFilter → Option GyroFilter
  | 0, f => some f
  | n + 1, f => f.runOnce.bind (runN n)

/-! ### Histories -/

/-- Everything that can happen to a filter object: registrations, sensor callbacks appending to a registered
queue, the filter thread running once, the consumer taking the front of the output queue, `clear`. -/
inductive Op
  | addGyro
  | addImu
  | addAngVel
  | gyroData (m : ImuMeas)
  | imuData (m : ImuMeas)
  /-- data of the `i`-th queue of `imu_data_buffer_ptrs_` -/
  | imuDataN (i : ℕ) (m : ImuMeas)
  | encData (a : AngVelMeas)
  | popOut
  | run
  | clear

/-- One event. -/
noncomputable def step (f : GyroFilter) : Op → Option GyroFilter
  | .addGyro => some f.addGyro
  | .addImu => some f.addImu
  | .addAngVel => some f.addAngVel
  | .gyroData m => some { f with gyro := f.gyro.map (· ++ [m]) }
  | .imuData m => some { f with imu := f.imu.map (· ++ [m]) }
  | .imuDataN i m => some { f with imus := f.imus.modify i (· ++ [m]) }
  | .encData a => some { f with enc := f.enc.map (· ++ [a]) }
  | .popOut => some { f with out := f.out.tail }
  | .run => f.runOnce
  | .clear => f.clear

/-- A history of events. -/
noncomputable def runOps : List Op → GyroFilter → Option GyroFilter
  | [], f => some f
  | o :: l, f => (f.step o).bind (runOps l)

end GyroFilter
end Drift
