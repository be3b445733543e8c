import Verif.Model.RoundedImu

/-!
# Model of the preparation of an IMU reading in binary64 arithmetic
-/
namespace Drift
namespace F64
open Matrix

variable (F : Fpu)

/-- `u.cross(v)` of two `Vector3d` -/
def crossF (u v : V3) : V3 :=
  ![F.rn (F.rn (u 1 * v 2) - F.rn (u 2 * v 1)), F.rn (F.rn (u 2 * v 0) - F.rn (u 0 * v 2)), F.rn (F.rn (u 0 * v 1) - F.rn (u 1 * v 0))]

/-- what the filter knows of the mounting of the IMU and of its biases: `R_imu2body_`, `t_imu2body_`, and the biases of the state (without
corrections they do not change) -/
structure Mount where
  rot : M3
  pos : V3
  bg : V3
  ba : V3

/-- one message of the IMU and how long it is held: angular velocity, linear acceleration, seconds -/
structure Raw where
  gyro : V3
  acc : V3
  dt : ℝ

/-- imu_propagation.cpp:148-149: `R_imu2body_ * gyro - bias` -/
def rateF (m : Mount) (r : Raw) : V3 := fun i => F.rn (mulMV F m.rot r.gyro i - m.bg i)

/-- imu_propagation.cpp:154-157: `R_imu2body_ * acc - bias - w.cross(w.cross(t_imu2body_))`, from left to right -/
def forceF (m : Mount) (r : Raw) : V3 := fun i =>
  F.rn (F.rn (mulMV F m.rot r.acc i - m.ba i) - crossF F (rateF F m r) (crossF F (rateF F m r) m.pos) i)

/-- the rate and specific force used for the propagation -/
def Raw.reading (m : Mount) (r : Raw) : Reading := ⟨rateF F m r, forceF F m r, r.dt⟩

/-- imu_propagation.cpp:126-199: messages, one after the other -/
noncomputable def NavF.runRaw (m : Mount) (s : NavF) (l : List Raw) : NavF := s.run F (l.map (Raw.reading F m))

end F64
end Drift
