import Verif.Model.RoundedQuat

/-!
# Specification: quaternions near each other
-/
namespace Drift
namespace F64

/-- the components differ by at most `δ` -/
def QNear (δ : ℝ) (p q : Quat) : Prop := |p.w - q.w| ≤ δ ∧ |p.x - q.x| ≤ δ ∧ |p.y - q.y| ≤ δ ∧ |p.z - q.z| ≤ δ

/-- the square of the length of a quaternion -/
def qlen2 (q : Quat) : ℝ := q.w ^ 2 + q.x ^ 2 + q.y ^ 2 + q.z ^ 2

end F64
end Drift
