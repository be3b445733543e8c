import Verif.Basic.Fixed

/-!
# Model of the measurement classes (`include/drift/measurement`, `src/measurement`)
-/
namespace Drift
open Mat Matrix

/-- `Eigen::Quaternion<double>` -/
structure Quat where
  w : ℝ
  x : ℝ
  y : ℝ
  z : ℝ

namespace Quat
/-- the identity quaternion -/
def id : Quat := ⟨1, 0, 0, 0⟩
/-- Eigen `QuaternionBase::toRotationMatrix` (Geometry/Quaternion.h) -/
def toRot (q : Quat) : M3 :=
  let tx := 2 * q.x
  let ty := 2 * q.y
  let tz := 2 * q.z
  let twx := tx * q.w
  let twy := ty * q.w
  let twz := tz * q.w
  let txx := tx * q.x
  let txy := ty * q.x
  let txz := tz * q.x
  let tyy := ty * q.y
  let tyz := tz * q.y
  let tzz := tz * q.z
  !![1 - (tyy + tzz), txy - twz, txz + twy;
     txy + twz, 1 - (txx + tzz), tyz - twx;
     txz - twy, tyz + twx, 1 - (txx + tyy)]
end Quat

/-- include/drift/measurement/imu.h `ImuMeasurement<double>` with its time stamp -/
structure ImuMeas where
  time : ℝ
  angVel : V3
  linAcc : V3
  quat : Quat

namespace ImuMeas
/-- impl/imu_impl.cpp:15-20 and measurement.cpp:22-24: default constructor -/
def default : ImuMeas := ⟨0, 0, 0, Quat.id⟩
/-- impl/imu_impl.cpp:22-30, 66-75 `set_quaternion`, `validate_quat`: `none` is the thrown
`std::invalid_argument` (raised before any assignment). -/
noncomputable def set_quaternion (m : ImuMeas) (w x y z : ℝ) : Option ImuMeas :=
  if |w * w + x * x + y * y + z * z - 1| ≥ 1e-5 then none
  else some { m with quat := ⟨w, x, y, z⟩ }
/-- impl/imu_impl.cpp:46-49 -/
def get_rotation_matrix (m : ImuMeas) : M3 := m.quat.toRot
end ImuMeas

end Drift
