import Verif.Spec.Estimator

/-!
# Specification vocabulary: directions no sensor of the filter observes

IMU, body velocities and leg kinematics carry no information on the heading and on the absolute position: turning the
whole world about the vertical and shifting it changes no measurement.
-/
namespace Drift
open Finset Mat

/-- `P` (of the right-invariant error with `K - 2` contacts) is at least the covariance of a common unknown heading of
variance `rc` and a common unknown shift of variance `pc` (per axis) of position and all contacts: for every linear
function `x` of the error, `rc x_yaw² + pc |x_position + Σ x_contact|² ≤ xᵀ P x`. -/
def UnknownFrame (K : ℕ) (rc pc : ℝ) (P : Mat) : Prop :=
  ∀ x : ℕ → ℝ, rc * x 2 ^ 2 + pc * ∑ k ∈ range 3, (∑ b ∈ Icc 2 K, x (3 * b + k)) ^ 2 ≤ quad P x

end Drift
