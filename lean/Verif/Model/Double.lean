import Verif.Spec.Double
import Verif.Model.RosSub

/-!
# Model of the time arithmetic in binary64

Elsewhere in the model `double` is ℝ.  Here time stamps are computed with rounding: the conversion of message stamps, the time
differences, and the conversion of the state's time to the stamp of the published message.
-/
namespace Drift
namespace F64

/-- ros_subscriber.cpp:326, 362, 384, 407, 438, 478, 513, 556, 601, 673: `stamp.sec + stamp.nsec / 1000000000.0`; the
operands are unsigned 32-bit integers, which convert exactly. -/
noncomputable def stamp (R : Round) (s : Stamp) : ℝ := R.rn (s.sec + R.rn (s.nsec / 1000000000))

/-- imu_propagation.cpp:144, velocity_correction.cpp:90, legged_kinematics_correction.cpp:71, wheel_odometry.cpp:103: the
difference of two stamps -/
noncomputable def diff (R : Round) (t t' : ℝ) : ℝ := R.rn (t - t')

/-- ros_publisher.cpp:112 `ros::Time().fromSec(t)` (rostime `TimeBase::fromSec`: `sec = floor(t)`,
`nsec = boost::math::round((t - sec) * 1e9)`, `sec += nsec / 1000000000`, `nsec %= 1000000000`), for times it can represent
(otherwise it throws). -/
noncomputable def fromSec (R : Round) (t : ℝ) : Stamp :=
  let sec := ⌊t⌋₊
  let nsec := ⌊R.rn (R.rn (t - sec) * 1000000000) + 1 / 2⌋₊
  ⟨sec + nsec / 1000000000, nsec % 1000000000⟩

/-- wheel_odometry.cpp:86-106, 128: the clock of the wheel odometry after the stamps `ts`, `t` being that of the first:
`state_.set_time(state_.get_time() + dt)` with `dt = t - prev_t_`; the pair is (state time, `prev_t_`) -/
noncomputable def wheelClock (R : Round) (t : ℝ) (ts : List ℝ) : ℝ × ℝ :=
  ts.foldl (fun c t => (R.rn (c.1 + R.rn (t - c.2)), t)) (t, t)

end F64
end Drift
