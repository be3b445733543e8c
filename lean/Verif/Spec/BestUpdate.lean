import Verif.Spec.Filter

/-!
# Specification vocabulary: minimum-variance linear updates

A filter holds an estimate with error `e` of covariance `P` and observes `z = H e + n`, `n` of covariance `N`,
uncorrelated with `e`.  The linear update with gain `L` replaces `e` by `e - L z`.
-/
namespace Drift
open Mat

/-- The covariance of `e - L (H e + n) = (I - L H) e - L n`. -/
noncomputable def errCov (P H N L : Mat) : Mat :=
  (one P.rows - L * H) * P * (one P.rows - L * H).T + L * N * L.T

/-- `L` is a minimum-variance gain: of the right size, and no other gain has a smaller error variance in any
direction. -/
def MinVar (P H N L : Mat) : Prop :=
  L.rows = P.rows ∧ L.cols = H.rows ∧
    ∀ L' : Mat, L'.rows = P.rows → L'.cols = H.rows → ∀ x, quad (errCov P H N L) x ≤ quad (errCov P H N L') x

/-- The covariance a correction starts from: `P` itself, or, with the bias update disabled, `P` with the six biases
decoupled and given the variance `1e-4`. -/
structure IsPrior (K : ℕ) (s : RobotState) (P0 : Mat) : Prop where
  rows : P0.rows = 3 * K + 9
  cols : P0.cols = 3 * K + 9
  on : s.enableBias = true → P0 = s.P
  offMain : s.enableBias = false → ∀ i j, i < 3 * K + 3 → j < 3 * K + 3 → P0.e i j = s.P.e i j
  offBias : s.enableBias = false → ∀ i j, i < 3 * K + 9 → j < 3 * K + 9 → 3 * K + 3 ≤ i ∨ 3 * K + 3 ≤ j →
    P0.e i j = if i = j then 0.0001 else 0

end Drift
