import Verif.Spec.Flow
import Verif.Model.ImuPropagation
import Mathlib.LinearAlgebra.CrossProduct

/-!
# Specification vocabulary: the linear error equations of the invariant filter

`ξR, ξv, ξp, ξd k` are the errors of orientation, velocity, position and the further column `k`; `bg, ba` are
the (constant) errors of the gyro and accelerometer bias.
-/
namespace Drift
open Matrix

/-- The linear error equations of the left-invariant error, for constant body rate `w` and acceleration `a`. -/
structure LeftErr (w a bg ba : V3) (ξR ξv ξp : ℝ → V3) (ξd : ℕ → ℝ → V3) : Prop where
  rot : ∀ t, VDeriv ξR (-crossProduct w (ξR t) - bg) t
  vel : ∀ t, VDeriv ξv (-crossProduct a (ξR t) - crossProduct w (ξv t) - ba) t
  pos : ∀ t, VDeriv ξp (ξv t - crossProduct w (ξp t)) t
  other : ∀ k t, VDeriv (ξd k) (-crossProduct w (ξd k t)) t

/-- The linear error equations of the right-invariant error along the trajectory `R, v, q` with further (constant)
columns `d k`, under gravity `g`. -/
structure RightErr (g bg ba : V3) (R : ℝ → M3) (v q : ℝ → V3) (d : ℕ → V3) (ξR ξv ξp : ℝ → V3)
    (ξd : ℕ → ℝ → V3) : Prop where
  rot : ∀ t, VDeriv ξR (-(R t).mulVec bg) t
  vel : ∀ t, VDeriv ξv (crossProduct g (ξR t) - crossProduct (v t) ((R t).mulVec bg) - (R t).mulVec ba) t
  pos : ∀ t, VDeriv ξp (ξv t - crossProduct (q t) ((R t).mulVec bg)) t
  other : ∀ k t, VDeriv (ξd k) (-crossProduct (d k) ((R t).mulVec bg)) t

/-- The stacked error `(ξR, ξv, ξp, ξd 0, …, ξd (K-3), bg, ba)` as a column. -/
def errVec (K : ℕ) (ξR ξv ξp : V3) (ξd : ℕ → V3) (bg ba : V3) : Mat :=
  Mat.ofFn (3 * (K + 3)) 1 fun i _ =>
    (if i / 3 = 0 then ξR else if i / 3 = 1 then ξv else if i / 3 = 2 then ξp
      else if i / 3 ≤ K then ξd (i / 3 - 3) else if i / 3 = K + 1 then bg else ba) (Fin.ofNat 3 i)

end Drift
