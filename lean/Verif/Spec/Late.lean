import Verif.Spec.Estimator

/-!
# Specification vocabulary: dead reckoning
-/
namespace Drift

/-- the total orientation variance of an estimate: the trace of the orientation block of the covariance -/
def oriVar (s : RobotState) : ℝ := s.P.e 0 0 + s.P.e 1 1 + s.P.e 2 2

/-- an event that brings no correction: IMU data, a turn of the main loop, logging, publishing -/
def DeadReckoning : EstEv → Prop
  | .imu _ | .tick | .log | .consume => True
  | .vel _ _ | .leg _ _ | .clear => False

end Drift
