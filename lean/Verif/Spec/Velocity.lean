import Verif.Spec.Filter
import Verif.Model.Correction

/-!
# Specification vocabulary: the velocity observation
-/
namespace Drift
open Matrix

/-- The observation matrix that picks the velocity error (coordinates 3, 4, 5) out of an `n`-dimensional
error. -/
def velH (n : ℕ) : Mat := Mat.ofFn 3 n fun i j => if j = i + 3 then 1 else 0

/-- The update a velocity measurement `vel` stands for: the state (with orientation `R` and velocity `v`)
is corrected by `CorrectRightInvariant` with innovation `scale * R R_vel2body vel - v`, the observation
matrix `velH` and the measurement covariance rotated into the world frame. -/
def VelUpdate (c : VelCorr) (vel : V3) (s s' : RobotState) : Prop :=
  ∃ R v, s.get_rotation = some R ∧ s.get_velocity = some v ∧
    correctRightInvariant (Mat.ofV (c.scale • R.mulVec (c.R_vel2body.mulVec vel) - v)) (velH s.dimP)
      (Mat.of3 (R * c.cov * Rᵀ)) s c.errorType = some s'

/-- `m` is stale: older than the propagation time `tp` by more than the threshold -/
def Stale (thres tp t : ℝ) : Prop := t - tp < -thres

end Drift
