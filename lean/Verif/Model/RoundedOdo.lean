import Verif.Model.Rounded
import Verif.Model.WheelOdometry

/-!
# Model of the wheel odometry in binary64 arithmetic

`RunOnce` and `Integrate` of `baselines/src/wheel_odometry/wheel_odometry.cpp` with every `double` operation rounded (see
`Model/Rounded` for what is assumed of the arithmetic).  The pose file and the clock (C127) are left out.
-/
namespace Drift
namespace F64
open Matrix

variable (F : Fpu)

/-- `A * v` of an `Eigen::Matrix3d` and a `Vector3d` -/
def mulV (A : M3) (v : V3) : V3 := fun i =>
  sum3 F.toRound F.mulRight (F.rn (A i 0 * v 0)) (F.rn (A i 1 * v 1)) (F.rn (A i 2 * v 2))

/-- the numbers kept between two messages (`state_` and `prev_t_`) -/
structure OdoF where
  rot : M3
  pos : V3
  prevT : ℝ

/-- the constructor, wheel_odometry.cpp:22-56: identity, origin, `prev_t_ = 0` -/
def OdoF.init : OdoF := ⟨1, 0, 0⟩

open Classical in
/-- wheel_odometry.cpp:84-107 and `Integrate`, 112-127: one pair of measurements.  `R * v_mea * dt` is `(R * v_mea) * dt`. -/
noncomputable def OdoF.step (o : OdoF) (m : VelMeas × AngVelMeas) : OdoF :=
  if o.prevT = 0 then { o with prevT := m.1.time }
  else
    let dt := F.rn (m.1.time - o.prevT)
    { rot := mulM F o.rot (gamma0 F (smulV F.toRound dt m.2.angVel))
      pos := fun i => F.rn (o.pos i + F.rn (mulV F o.rot m.1.vel i * dt))
      prevT := m.1.time }

/-- any number of pairs -/
noncomputable def OdoF.run (o : OdoF) (l : List (VelMeas × AngVelMeas)) : OdoF := l.foldl (OdoF.step F) o

end F64
end Drift
