import Verif.Model.NotANumber

/-!
# Model of the wheel odometry and of the gyro filter with values that are not numbers

See `Model/NotANumber` for the arithmetic.
-/
namespace Drift
namespace Nan
open Dbl

/-- the pose kept by the wheel odometry -/
structure Odo where
  rot : DMat 3 3
  pos : DVec 3

/-- wheel_odometry.cpp:112-127 `Integrate`: velocity, angular velocity, time step -/
noncomputable def Odo.step (o : Odo) (e : DVec 3 × DVec 3 × Dbl) : Odo :=
  ⟨o.rot.mul (gamma0 (e.2.1.scale e.2.2)), o.pos.add ((o.rot.mulV e.1).scale e.2.2)⟩

noncomputable def Odo.run (o : Odo) (l : List (DVec 3 × DVec 3 × Dbl)) : Odo := l.foldl Odo.step o

/-- estimate of rate and bias (`ang_vel_and_bias_est_`), and the previous reading of the propagation gyro.  The covariance is not modelled: it
does not depend on the measurements, and the gain of each correction is an arbitrary matrix. -/
structure Gyro where
  est : DVec 6
  prev : DVec 3

/-- what the filter does with a measurement -/
inductive GMsg where
  /-- imu_ang_vel_ekf.cpp:723-745 `GyroPropagate` -/
  | prop (w : DVec 3)
  /-- imu_ang_vel_ekf.cpp:778-786, 814-825 `AngVelFilterCorrectIMU` and `AngVelFilterCorrectEncoder`: gain `K`, `H_imu_` or `H_enc_`, the measured rate
  times `A` (identity or `R_imu2body_inverse_`; the identity, for which the code multiplies nothing, is treated the same) -/
  | corr (K : DMat 6 3) (H : Matrix (Fin 3) (Fin 6) ℝ) (A : M3) (w : DVec 3)

/-- imu_ang_vel_ekf.cpp:744: the difference as a six-vector -/
def pad (v : DVec 3) : DVec 6 := ![v 0, v 1, v 2, num 0, num 0, num 0]

noncomputable def Gyro.step (g : Gyro) : GMsg → Gyro
  | .prop w => ⟨(pad (w.sub g.prev)).add g.est, w⟩
  | .corr K H A w => { g with est := g.est.add (K.mulV (((ofNum A).mulV w).sub ((ofNum H).mulV g.est))) }

noncomputable def Gyro.run (g : Gyro) (l : List GMsg) : Gyro := l.foldl Gyro.step g

end Nan
end Drift
