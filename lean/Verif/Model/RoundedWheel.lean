import Verif.Model.RoundedOdo
import Verif.Model.Double
import Verif.Spec.DiffDrive

/-!
# Model of the differential-drive callbacks in binary64 arithmetic

As in `Model/Rounded`, every `double` operation is rounded to nearest.
-/
namespace Drift
namespace F64

variable (R : Round)

/-- ros_subscriber.cpp:448-451: `(velocity[1] + velocity[3]) / 2.0 * wheel_radius`, and the same with 0 and 2 -/
noncomputable def side4F (radius a b : ℝ) : ℝ := R.rn (R.rn (R.rn (a + b) / 2) * radius)

/-- lines 452-453 and 531-532: `(vr + vl) / 2.0` and `(vr - vl) / track_width` -/
noncomputable def driveF (t track vr vl : ℝ) : Drift.Reading :=
  ⟨t, R.rn (R.rn (vr + vl) / 2), R.rn (R.rn (vr - vl) / track)⟩

/-- `DifferentialEncoder2VelocityCallback` (ros_subscriber.cpp:423-465) and `DifferentialEncoder2VelocityCallback_Fetch` (498-547), with the radius and
track width of ROS/drift/config/baselines/*/ros_comm.yaml as read into a `double`: stamp, `vx` and `omega_z`; `none` for the messages that are ignored -/
noncomputable def readingF (p : BaseProg) (m : JointMsg) : Option Drift.Reading :=
  match p, m.vel with
  | .husky, l0 :: r0 :: l1 :: r1 :: _ =>
    some (driveF R (stamp R m.stamp) (R.rn 0.688) (side4F R (R.rn 0.158) r0 r1) (side4F R (R.rn 0.158) l0 l1))
  | .fetch, l :: r :: _ :: _ =>
    some (driveF R (stamp R m.stamp) (R.rn 0.37476) (R.rn (r * R.rn 0.06033)) (R.rn (l * R.rn 0.06033)))
  | _, _ => none

end F64
end Drift
