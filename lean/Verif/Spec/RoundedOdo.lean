import Verif.Spec.Wheel
import Verif.Spec.Double
import Verif.Spec.Rotation

/-!
# Specification: drives for which the rounding errors of the wheel odometry are bounded
-/
namespace Drift
namespace F64

/-- the length of the way driven: speed times time, added up; `t` is the stamp of the message before -/
noncomputable def wayLen : ℝ → List (VelMeas × AngVelMeas) → ℝ
  | _, [] => 0
  | t, m :: l => |m.1.time - t| * Drift.norm3 m.1.vel + wayLen m.1.time l

/-- every step turns by 0, or by at least `2e-10` rad and at most 4 rad about each axis, and lasts at most `10^9` s -/
def Steps : ℝ → List (VelMeas × AngVelMeas) → Prop
  | _, [] => True
  | t, m :: l => (RotOp.imu m.2.angVel (m.1.time - t)).Turn ∧ |m.1.time - t| ≤ 10 ^ 9 ∧ Steps m.1.time l

/-- the stamps are positive `double`s within a factor of 2 of each other (such as 2004 to 2038 in seconds since 1970) -/
def Stamped (ts : List ℝ) : Prop := (∀ x ∈ ts, IsF x ∧ 0 < x) ∧ ∀ x ∈ ts, ∀ y ∈ ts, x ≤ 2 * y

end F64
end Drift
