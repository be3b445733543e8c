import Verif.Model.ImuFilter
import Mathlib.LinearAlgebra.Matrix.PosDef

/-!
# Specification vocabulary for the gyro filter

`ImuIn l m`: the measurement `m` was delivered to some IMU queue in the history `l`; similarly `GyroIn`,
`EncIn`.  `mergeByTime` is the usual merge of two queues by time stamp (ties: IMU first).
-/
namespace Drift
namespace GyroFilter

/-- a freshly constructed filter (either constructor) -/
def Fresh0 (c : FCfg) (f : GyroFilter) : Prop := f = mk1 c ∨ f = mk5 c

/-- delivered to the propagation gyro -/
def GyroIn (l : List Op) (m : ImuMeas) : Prop := Op.gyroData m ∈ l
/-- delivered by any IMU -/
def ImuIn (l : List Op) (m : ImuMeas) : Prop :=
  Op.gyroData m ∈ l ∨ Op.imuData m ∈ l ∨ ∃ i, Op.imuDataN i m ∈ l
/-- delivered by the encoder -/
def EncIn (l : List Op) (a : AngVelMeas) : Prop := Op.encData a ∈ l

/-- Events that happen after the sensors have been registered, `clear()` excluded. -/
def Op.running : Op → Prop
  | .addGyro | .addImu | .addAngVel | .clear => False
  | _ => True

/-- a queued sensor reading of the IMU + angular velocity configuration -/
abbrev Reading := ImuMeas ⊕ AngVelMeas
/-- its stamp -/
def Reading.time : Reading → ℝ
  | .inl m => m.time
  | .inr a => a.time
/-- is it an encoder reading -/
def Reading.isEnc : Reading → Bool
  | .inl _ => false
  | .inr _ => true
/-- the IMU readings of a sequence -/
def imuPart (l : List Reading) : List ImuMeas := l.filterMap fun r => r.elim some fun _ => none
/-- the encoder readings of a sequence -/
def encPart (l : List Reading) : List AngVelMeas := l.filterMap fun r => r.elim (fun _ => none) some

open Classical in
/-- merge two queues by time stamp, IMU first on ties -/
noncomputable def mergeByTime : List ImuMeas → List AngVelMeas → List Reading
  | [], es => es.map Sum.inr
  | m :: is, [] => Sum.inl m :: is.map Sum.inl
  | m :: is, a :: es =>
    if m.time ≤ a.time then Sum.inl m :: mergeByTime is (a :: es)
    else Sum.inr a :: mergeByTime (m :: is) es

/-- measurement noises are nonzero -/
def Noisy (c : FCfg) : Prop := c.imuStd ≠ 0 ∧ c.encStd ≠ 0

/-- The IMU + angular velocity configuration after initialisation, with the given queue contents. -/
structure PlusReady (I : List ImuMeas) (E : List AngVelMeas) (f : GyroFilter) : Prop where
  init : f.initialized = true
  method : f.method = .imuPlusAngVel
  imu : f.imu = some I
  enc : f.enc = some E
  psd : f.P.PosSemidef
  noisy : Noisy f.cfg

/-- The single-IMU configuration after initialisation, with the given gyro and IMU queues. -/
structure SingleReady (G I : List ImuMeas) (f : GyroFilter) : Prop where
  init : f.initialized = true
  method : f.method = .singleImu
  gyro : f.gyro = some G
  imu : f.imu = some I
  psd : f.P.PosSemidef
  noisy : Noisy f.cfg

/-- The multi-IMU configuration after initialisation. -/
structure MultiReady (f : GyroFilter) : Prop where
  init : f.initialized = true
  method : f.method = .multiImu
  psd : f.P.PosSemidef
  noisy : Noisy f.cfg

/-- a registration -/
def Op.isAdd : Op → Bool
  | .addGyro | .addImu | .addAngVel => true
  | _ => false
/-- registration of an IMU -/
def Op.isAddImu : Op → Bool
  | .addImu => true
  | _ => false
/-- registration of an encoder -/
def Op.isAddAngVel : Op → Bool
  | .addAngVel => true
  | _ => false

/-- the sensor combinations the code accepts without an error message (imu_ang_vel_ekf.cpp:411-425):
`i` IMUs and `k` encoders -/
def Supported (i k : ℕ) : Prop := (i = 0 ∧ k = 1) ∨ (i = 1 ∧ k = 0) ∨ (i = 1 ∧ k = 1) ∨ (1 < i ∧ k = 0)

end GyroFilter
end Drift
