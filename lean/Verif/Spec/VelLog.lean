import Verif.Model.VelLog

/-!
# Specification vocabulary: the velocity in the frame of the velocity sensor
-/
namespace Drift
open Matrix

/-- `u` is the velocity estimate of the state `s`, expressed in the frame of the sensor of the correction `c`: turned into the body frame
by the mounting and into the world frame by the orientation of `s` it is the velocity of `s` -/
def SensorVel (c : VelCorr) (s : RobotState) (u : V3) : Prop :=
  ∃ R v, s.get_rotation = some R ∧ s.get_velocity = some v ∧ R.mulVec (c.R_vel2body.mulVec u) = v

end Drift
