import Verif.Spec.Perfect

/-!
# Specification vocabulary: the reported covariance covers the error
-/
namespace Drift
open Mat Matrix Finset

/-- the state `s` with its pose, velocity and further columns moved by `E` on the side on which the error of the filter is defined -/
noncomputable def movedBy (et : ErrorType) (E : Mat) (s : RobotState) : RobotState :=
  { s with X := match et with
      | .rightInvariant => E * s.X
      | .leftInvariant => s.X * E }

/-- The covariance that `s` reports covers the error that `s` has at time `t`, to `κ` standard deviations: the truth is the estimate moved by
`Exp(ξ)`, and every linear function `x` of the error takes on `ξ` (the errors of the biases being zero) a value of at most `κ` times the standard
deviation that the covariance gives to `x`.  `ξ` may be of any size.  (`en` tells if biases are estimated; if not, `x` does not look at them.  A turn by less than
`1e-10` rad that is not zero is excluded: there the code takes it to be zero, C03.) -/
def Truth.Covered (T : Truth) (et : ErrorType) (en : Bool) (κ t : ℝ) (s : RobotState) : Prop :=
  ∃ ξ E : Mat, ξ.rows + 6 = 3 * s.X.rows ∧ ξ.cols = 1 ∧ exp_SEK3 ξ = some E ∧ (¬ norm3 (ξ.blkV 0 0) < 1e-10 ∨ ξ.blkV 0 0 = 0) ∧ T.At t (movedBy et E s) ∧
    ∀ x : ℕ → ℝ, (en = false → ∀ i, ξ.rows ≤ i → x i = 0) → (∑ i ∈ range ξ.rows, x i * ξ.e i 0) ^ 2 ≤ κ ^ 2 * quad s.P x

end Drift
