import Verif.Model.WheelOdometry
import Verif.Spec.Group

/-!
# Specification vocabulary for the wheel odometry

`Reckons t R p l t' R' p'`: textbook dead reckoning of the velocity / angular velocity pairs `l` from the pose
`(R, p)` at time `t`.
-/
namespace Drift
open Matrix

/-- dead reckoning -/
inductive Reckons : ℝ → M3 → V3 → List (VelMeas × AngVelMeas) → ℝ → M3 → V3 → Prop
  | nil (t R p) : Reckons t R p [] t R p
  | cons {t R p l t' R' p'} (m : VelMeas × AngVelMeas) (E : M3)
      (hE : exp_SO3 ((m.1.time - t) • m.2.angVel) = some E)
      (h : Reckons m.1.time (R * E) (p + (m.1.time - t) • R.mulVec m.1.vel) l t' R' p') :
      Reckons t R p (m :: l) t' R' p'

end Drift
