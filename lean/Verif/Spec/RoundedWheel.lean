import Verif.Spec.RoundedOdo
import Verif.Spec.Slip
import Verif.Model.RoundedWheel

/-!
# Specification: what a joint message says, without rounding
-/
namespace Drift
namespace F64

/-- what the message says about the motion, at the time that its stamp has as a `double` -/
noncomputable def saidBy (R : Round) (p : BaseProg) (m : JointMsg) : Option Drift.Reading :=
  (p.reading m).map fun r => ⟨stamp R m.stamp, r.v, r.ω⟩

/-- no two readings are more than `d` seconds apart, and the robot turns by 0, or by `3e-10` to 3 rad, from one to the next -/
def Gentle (d : ℝ) : ℝ → List Drift.Reading → Prop
  | _, [] => True
  | t, r :: l => 0 ≤ r.t - t ∧ r.t - t ≤ d ∧ (r.ω * (r.t - t) = 0 ∨ 3e-10 ≤ |r.ω * (r.t - t)|) ∧ |r.ω * (r.t - t)| ≤ 3 ∧ Gentle d r.t l

/-- the measurements of velocity and of angular velocity that go into the queues for a reading -/
def queued (r : Drift.Reading) : VelMeas × AngVelMeas := (⟨r.t, ![r.v, 0, 0]⟩, ⟨r.t, ![0, 0, r.ω]⟩)

end F64
end Drift
