import Verif.Spec.Group
import Verif.Spec.PSD
import Verif.Model.RobotState
import Verif.Model.LieGroup

/-!
# Specification vocabulary: well-formed filter states
-/
namespace Drift
open Mat

/-- A filter state with `K` columns beside the rotation (`K = 2 +` number of contacts): `X` is in
SE_K(3), `theta` is 6x1, `P` is square of size `3*dimX - 6 + dimTheta = 3K + 9`. -/
structure Shape (K : ℕ) (s : RobotState) : Prop where
  x : IsSEK K s.X
  k : 2 ≤ K
  thr : s.Theta.rows = 6
  thc : s.Theta.cols = 1
  pr : s.P.rows = 3 * K + 9
  pc : s.P.cols = 3 * K + 9

/-- Sizes of an observation: `Z` is m x 1, `H` is m x n, `N` is m x m, any m. -/
structure ObsSizes (n : ℕ) (Z H N : Mat) : Prop where
  hc : H.cols = n
  nr : N.rows = H.rows
  nc : N.cols = H.rows
  zr : Z.rows = H.rows
  zc : Z.cols = 1

/-- block diagonal `A ⊕ I`, of size `n` -/
def bd (A : Mat) (n : ℕ) : Mat := (one n).setBlockP 0 0 A

/-- `PL`, `PR` are the covariances of the same estimate `X` in the left- and in the right-invariant
error: `PR = (Ad_X ⊕ I) PL (Ad_X ⊕ I)ᵀ` (the six biases are not transformed). -/
def AdjRelated (K : ℕ) (X PL PR : Mat) : Prop :=
  ∃ A, adjoint_SEK3 X = some A ∧ PR = bd A (3 * K + 9) * PL * (bd A (3 * K + 9)).T

/-- The continuous noise covariance of a filter state: right size, symmetric PSD, and nothing stored
for rotation/velocity (indices `< 6`) nor for the biases (indices `≥ 3K+3`): those blocks are filled in
by the propagation. -/
structure QcOK (K : ℕ) (Q : Mat) : Prop where
  r : Q.rows = 3 * K + 9
  psd : PSD Q
  zero : ∀ i j, (i < 6 ∨ 3 * K + 3 ≤ i) → Q.e i j = 0

end Drift
