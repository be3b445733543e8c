import Verif.Model.LieGroup
import Mathlib.Analysis.Calculus.Deriv.Basic

/-!
# Specification vocabulary: the strapdown equations
-/
namespace Drift
open Matrix

/-- entrywise derivative of a matrix valued function -/
def MDeriv {m n : Type} (R : ℝ → Matrix m n ℝ) (R' : Matrix m n ℝ) (t : ℝ) : Prop :=
  ∀ i j, HasDerivAt (fun τ => R τ i j) (R' i j) t

/-- entrywise derivative of a vector valued function -/
def VDeriv {n : Type} (v : ℝ → n → ℝ) (v' : n → ℝ) (t : ℝ) : Prop := ∀ i, HasDerivAt (fun τ => v τ i) (v' i) t

/-- The small-angle test of `lie_group.cpp` (`norm < TOLERANCE = 1e-10`) does not fire at `x`, or fires where its
answer is exact: the tolerance test of the code does not fire, or fires where it is exact -/
def ExactAt (x : V3) : Prop := ¬ norm3 x < 1e-10 ∨ x = 0

/-- `R, v, q` solve the strapdown equations `R' = R w^`, `v' = R a + g`, `q' = v` for constant body rate
`w` and acceleration `a`. -/
structure Strapdown (w a g : V3) (R : ℝ → M3) (v q : ℝ → V3) : Prop where
  rot : ∀ t, MDeriv R (R t * skew w) t
  vel : ∀ t, VDeriv v ((R t).mulVec a + g) t
  pos : ∀ t, VDeriv q (v t) t

end Drift
