import Verif.Model.ImuPropagation

/-!
# Specification vocabulary: histories of the static bias initialisation
-/
namespace Drift
open Matrix

/-- What happens to the propagation object before the filter is started: an IMU measurement is queued by
the sensor callback, or the main loop calls `InitImuBias`. -/
inductive BiasEv
  | arrive (m : ImuMeas)
  | call

/-- one event -/
noncomputable def biasStep (p : ImuProp) : BiasEv → Option ImuProp
  | .arrive m => some { p with buffer := p.buffer ++ [m] }
  | .call => p.initImuBias

/-- a history of events, in order -/
noncomputable def biasRun : ImuProp → List BiasEv → Option ImuProp
  | p, [] => some p
  | p, e :: es => (biasStep p e).bind fun p' => biasRun p' es

/-- the measurements that arrive during a history -/
def arrivals : List BiasEv → List ImuMeas
  | [] => []
  | .arrive m :: es => m :: arrivals es
  | .call :: es => arrivals es

/-- the gyroscope sample of a measurement: the rate in the body frame -/
def gyroSample (p : ImuProp) (m : ImuMeas) : V3 := p.R_imu2body.mulVec m.angVel

/-- the accelerometer sample of a measurement: acceleration in the body frame, without the centripetal
acceleration of the lever arm, with gravity compensated using the orientation estimate `R` (identity, or
the orientation reported by the IMU when `use_imu_ori_to_init` is set). -/
noncomputable def accelSample (p : ImuProp) (m : ImuMeas) : V3 :=
  let R : M3 := if p.useImuOri then p.R_imu2body * m.quat.toRot else 1
  Rᵀ.mulVec (R.mulVec (p.R_imu2body.mulVec m.linAcc
    - crossProduct (gyroSample p m) (crossProduct (gyroSample p m) p.t_imu2body)) + ![0, 0, -9.8])

/-- arithmetic mean of a list of vectors -/
noncomputable def mean (l : List V3) : V3 := (l.length : ℝ)⁻¹ • l.sum

/-- A propagation object as constructed with static initialisation of `N` samples. -/
structure BiasFresh (p : ImuProp) (N : ℤ) : Prop where
  static : p.staticInit = true
  size : p.initBiasSize = N
  empty : p.biasInitVec = []
  flag : p.biasInitialized = false

end Drift
