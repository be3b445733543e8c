import Verif.Model.Rounded
import Mathlib.Analysis.Normed.Algebra.MatrixExponential

/-!
# Specification: the orientation without rounding errors
-/
namespace Drift
namespace F64
open Matrix

/-- the same steps without rounding: products of matrix exponentials -/
noncomputable def RotOp.exact (X : M3) : RotOp → M3
  | .imu w dt => X * NormedSpace.exp (skew (dt • w))
  | .right δ => NormedSpace.exp (skew δ) * X
  | .left δ => X * NormedSpace.exp (skew δ)

/-- the rotation vector of a step -/
def RotOp.vec : RotOp → V3
  | .imu w dt => dt • w
  | .right δ => δ
  | .left δ => δ

/-- a rotation vector whose components are at most 4 rad, and which is zero or at least `2e-10` rad long (the code ignores
rotations of less than `1e-10` rad) -/
def RotOp.Turn (op : RotOp) : Prop := (∀ i, |op.vec i| ≤ 4) ∧ (op.vec = 0 ∨ (2 / 10 ^ 10 : ℝ) ^ 2 ≤ op.vec 0 ^ 2 + op.vec 1 ^ 2 + op.vec 2 ^ 2)

end F64
end Drift
