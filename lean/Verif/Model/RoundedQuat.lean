import Verif.Model.Rounded
import Verif.Model.RosPub

/-!
# Model of the conversion of an orientation to a quaternion in binary64 arithmetic

As in `Model/Rounded`, every `double` operation is rounded to nearest; the comparisons are exact.
-/
namespace Drift
namespace F64

open Classical in
/-- `Eigen::Quaterniond(const Matrix3d&)` (Eigen/src/Geometry/Quaternion.h), as used by ros_publisher.cpp:123 and inekf_estimator.cpp:150.  The sum in
`trace()` is evaluated in either order (`right`). -/
noncomputable def ofRotF (R : Round) (right : Bool) (X : M3) : Quat :=
  let tr := sum3 R right (X 0 0) (X 1 1) (X 2 2)
  if tr > 0 then
    let t := R.rn (Real.sqrt (R.rn (tr + 1)))
    let u := R.rn (0.5 / t)
    ⟨R.rn (0.5 * t), R.rn (R.rn (X 2 1 - X 1 2) * u), R.rn (R.rn (X 0 2 - X 2 0) * u), R.rn (R.rn (X 1 0 - X 0 1) * u)⟩
  else
    let i : Fin 3 := if X 1 1 > X 0 0 then 1 else 0
    let i : Fin 3 := if X 2 2 > X i i then 2 else i
    let j : Fin 3 := i + 1
    let k : Fin 3 := j + 1
    let t := R.rn (Real.sqrt (R.rn (R.rn (R.rn (X i i - X j j) - X k k) + 1)))
    let u := R.rn (0.5 / t)
    let c : Fin 3 → ℝ := fun a =>
      if a = i then R.rn (0.5 * t) else if a = j then R.rn (R.rn (X j i + X i j) * u) else R.rn (R.rn (X k i + X i k) * u)
    ⟨R.rn (R.rn (X k j - X j k) * u), c 0, c 1, c 2⟩

end F64
end Drift
