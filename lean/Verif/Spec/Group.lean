import Verif.Basic.Fixed

/-!
# Specification vocabulary: rotations and the group SE_K(3)

These are the textbook definitions, independent of the model of the code.
-/
namespace Drift
open Matrix

/-- A proper rotation: `RᵀR = RRᵀ = I`, `det R = 1`. -/
def IsRot (R : M3) : Prop := Rᵀ * R = 1 ∧ R * Rᵀ = 1 ∧ R.det = 1

/-- squared Euclidean norm -/
def nsq (w : V3) : ℝ := w 0 ^ 2 + w 1 ^ 2 + w 2 ^ 2

/-- An element of SE_K(3): a `(3+K) x (3+K)` matrix whose top-left 3x3 block is a rotation and whose
bottom `K` rows are those of the identity. -/
structure IsSEK (K : ℕ) (X : Mat) : Prop where
  rows : X.rows = 3 + K
  cols : X.cols = 3 + K
  rot : IsRot (X.blk3 0 0)
  bot : ∀ i j, 3 ≤ i → i < 3 + K → j < 3 + K → X.e i j = if i = j then 1 else 0

end Drift
