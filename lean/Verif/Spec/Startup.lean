import Verif.Spec.Estimator
import Verif.Spec.Bias
import Verif.Spec.System

/-!
# Specification vocabulary: starting up
-/
namespace Drift
open Matrix

/-- the number of IMU measurements that the static bias initialisation averages; 0 if it is switched off -/
def biasSamples (ic : ImuPropConfig) : ℕ :=
  if ic.static_bias_initialization.getD true then (ic.init_bias_size.getD 0).toNat else 0

/-- measurements for correction number `i` (of its own kind) have arrived -/
def GotData (cs : List CorrConfig) (evs : List EstEv) (i : ℕ) : Prop :=
  match cs[i]? with
  | some (.vel _) => ∃ m, EstEv.vel i m ∈ evs
  | some (.leg _) => ∃ m, EstEv.leg i m ∈ evs
  | none => True

/-- number of turns of the main loop -/
def turns : List EstEv → ℕ
  | [] => 0
  | .tick :: evs => turns evs + 1
  | _ :: evs => turns evs

/-- number of turns of the main loop of a program -/
def mainTurns : List SysEv → ℕ
  | [] => 0
  | .tick :: evs => mainTurns evs + 1
  | _ :: evs => mainTurns evs

/-- no call of `clear()` -/
def NoClear (evs : List EstEv) : Prop := EstEv.clear ∉ evs

/-- the gyroscope bias to start with: the mean of the first samples, or the configured one -/
noncomputable def startGyroBias (p : ImuProp) (N : ℕ) (imu : List ImuMeas) : V3 :=
  if p.staticInit then mean ((imu.take N).map (gyroSample p)) else p.bg0

/-- the accelerometer bias to start with -/
noncomputable def startAccelBias (p : ImuProp) (N : ℕ) (imu : List ImuMeas) : V3 :=
  if p.staticInit then mean ((imu.take N).map (accelSample p)) else p.ba0

/-- `s` is the estimate with which the estimator `e0`, just built, starts, when the IMU measurements are `imu` and the
first `N` of them serve the bias initialisation: orientation of the next measurement (or identity), at the origin, with
these biases, the configured covariances and the time of that measurement -/
structure StartsWith (e0 : Estimator) (N : ℕ) (imu : List ImuMeas) (s : RobotState) : Prop where
  first : ∃ m, imu[N]? = some m ∧ s.get_rotation = some (if e0.prop.useImuOri then m.quat.toRot else 1) ∧ s.tProp = some m.time
  pos : s.get_position = some 0
  bg : s.get_gyroscope_bias = some (startGyroBias e0.prop N imu)
  ba : s.get_accelerometer_bias = some (startAccelBias e0.prop N imu)
  rotCov : s.get_rotation_covariance = some (e0.rotCov • (1 : M3))
  velCov : s.get_velocity_covariance = some (e0.velCov • (1 : M3))
  posCov : s.get_position_covariance = some (e0.posCov • (1 : M3))

end Drift
