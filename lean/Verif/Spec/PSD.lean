import Verif.Basic.Mat

/-!
# Specification vocabulary: symmetric positive (semi)definite matrices

A covariance `P` is *valid* when it is symmetric and `xᵀ P x ≥ 0` for every `x`.
`psd_iff_posSemidef` (in `Verif/Lemmas/PSD.lean`) shows this is Mathlib's `Matrix.PosSemidef`.
-/
namespace Drift
open Finset

/-- the quadratic form `xᵀ A x` -/
def quad (A : Mat) (x : ℕ → ℝ) : ℝ :=
  ∑ i ∈ range A.rows, ∑ j ∈ range A.cols, x i * A.e i j * x j

/-- symmetric (hence square) -/
def Sym (A : Mat) : Prop := A.T = A

/-- symmetric positive semidefinite -/
def PSD (A : Mat) : Prop := Sym A ∧ ∀ x, 0 ≤ quad A x

/-- symmetric positive definite -/
def PD (A : Mat) : Prop := Sym A ∧ ∀ x, (∃ i < A.rows, x i ≠ 0) → 0 < quad A x

/-- Loewner order: `A ≤ B` iff `B - A` is positive semidefinite (same sizes). -/
def Loewner (A B : Mat) : Prop := A.rows = B.rows ∧ A.cols = B.cols ∧ PSD (B - A)

end Drift
