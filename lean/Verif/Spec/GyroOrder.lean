import Verif.Spec.ImuFilter

/-!
# Specification vocabulary: time stamps delivered to the gyro filter, in the order of delivery
-/
namespace Drift
namespace GyroFilter

/-- the stamps of the measurements delivered by the (first) IMU, in the order of delivery -/
def imuStamps (l : List Op) : List ℝ := l.filterMap fun
  | .imuData m => some m.time
  | _ => none
/-- the stamps of the measurements delivered by the angular velocity sensor, in the order of delivery -/
def encStamps (l : List Op) : List ℝ := l.filterMap fun
  | .encData a => some a.time
  | _ => none
/-- the stamps delivered by the IMU and the angular velocity sensor together, in the order of delivery -/
def bothStamps (l : List Op) : List ℝ := l.filterMap fun
  | .imuData m => some m.time
  | .encData a => some a.time
  | _ => none
/-- the stamps delivered by all IMUs together, in the order of delivery -/
def stampsImus (l : List Op) : List ℝ := l.filterMap fun
  | .imuData m => some m.time
  | .imuDataN _ m => some m.time
  | _ => none

/-- a list in time order -/
def InOrder (l : List ℝ) : Prop := l.Pairwise (· ≤ ·)

/-- a sensor delivers, or the filter thread runs; nobody takes the outputs away (so that the output queue holds everything
ever produced) -/
def Op.feeds : Op → Prop
  | .gyroData _ | .imuData _ | .imuDataN _ _ | .encData _ | .run => True
  | _ => False

end GyroFilter
end Drift
