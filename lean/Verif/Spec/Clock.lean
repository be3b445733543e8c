import Verif.Spec.Estimator

/-!
# Specification: histories that differ by the origin of time

All sensors of a robot stamp their measurements with one clock.  Setting that clock differently adds a constant
to every time stamp.
-/
namespace Drift
open RobotState

/-- the same IMU measurement on a clock that is `c` ahead -/
def ImuMeas.later (c : ℝ) (m : ImuMeas) : ImuMeas := { m with time := m.time + c }
def VelMeas.later (c : ℝ) (m : VelMeas) : VelMeas := { m with time := m.time + c }
def LegMeas.later (c : ℝ) (m : LegMeas) : LegMeas := { m with time := m.time + c }

/-- the same event on a clock that is `c` ahead -/
def EstEv.later (c : ℝ) : EstEv → EstEv
  | .imu m => .imu (m.later c)
  | .vel i m => .vel i (m.later c)
  | .leg i m => .leg i (m.later c)
  | ev => ev

/-- the same state on a clock that is `c` ahead: only the two time stamps differ -/
def RobotState.later (c : ℝ) (s : RobotState) : RobotState := { s with t := s.t.map (· + c), tProp := s.tProp.map (· + c) }

/-- the same row of the log on a clock that is `c` ahead -/
def LogRow.later (c : ℝ) (r : LogRow) : LogRow := { r with time := r.time + c }

end Drift

namespace Drift

/-- the time stamp of the measurement that arrives, if the event is an arrival -/
def EstEv.stamp : EstEv → Option ℝ
  | .imu m => some m.time
  | .vel _ m => some m.time
  | .leg _ m => some m.time
  | _ => none

end Drift
