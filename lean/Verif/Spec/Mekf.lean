import Verif.Model.Mekf
import Verif.Spec.Flow
import Verif.Spec.Group

/-!
# Specification vocabulary for the multiplicative EKF

The error of an estimate (position `p`, velocity `v`, orientation `R`) is nine-dimensional, `δ = (δp, δv, δθ)`: the
true values are `p + δp`, `v + δv`, `R exp(δθ^)`.
-/
namespace Drift
open Matrix
namespace Mekf

/-- a unit quaternion and a symmetric positive semidefinite covariance -/
structure Valid (s : St) : Prop where
  unit : s.q.w ^ 2 + s.q.x ^ 2 + s.q.y ^ 2 + s.q.z ^ 2 = 1
  psd : s.P.PosSemidef

/-- the orientation with the error `θ` -/
noncomputable def turned (R : M3) (θ : V3) : M3 := R * NormedSpace.exp (skew θ)

/-- `H` is the derivative of the predicted body velocity `Rᵀ v` with respect to the error. -/
def IsObsJac (H : M39) (R : M3) (v : V3) : Prop :=
  ∀ δ : V9, VDeriv (fun τ => (turned R (τ • seg δ 2))ᵀ *ᵥ (v + τ • seg δ 1)) (H *ᵥ δ) 0

/-- covariance of the error after the linear update with gain `L`, for measurement variance `r` -/
noncomputable def updCov (P : M99) (H : M39) (r : ℝ) (L : Matrix I9 (Fin 3) ℝ) : M99 :=
  (1 - L * H) * P * (1 - L * H)ᵀ + r • (L * Lᵀ)

/-- velocity after `dt` with specific force `a` in the body frame at orientation `R` -/
noncomputable def nextV (R : M3) (v a : V3) (dt : ℝ) : V3 := v + dt • (R *ᵥ a - ![0, 0, 9.81])
/-- position after `dt` -/
noncomputable def nextP (R : M3) (p v a : V3) (dt : ℝ) : V3 :=
  p + dt • v + (dt ^ 2 / 2) • (R *ᵥ a - ![0, 0, 9.81])
/-- orientation after `dt` with the body rate `w` -/
noncomputable def nextR (R : M3) (w : V3) (dt : ℝ) : M3 := turned R (dt • w)

/-- `F` is the derivative of one step of dead reckoning with respect to the error: of position and velocity, and (not
only to first order) of the orientation. -/
structure IsStepJac (F : M99) (R : M3) (p v a w : V3) (dt : ℝ) : Prop where
  pos : ∀ δ : V9, VDeriv (fun τ => nextP (turned R (τ • seg δ 2)) (p + τ • seg δ 0) (v + τ • seg δ 1) a dt)
    (seg (F *ᵥ δ) 0) 0
  vel : ∀ δ : V9, VDeriv (fun τ => nextV (turned R (τ • seg δ 2)) (v + τ • seg δ 1) a dt) (seg (F *ᵥ δ) 1) 0
  rot : ∀ (δ : V9) (τ : ℝ), nextR (turned R (τ • seg δ 2)) w dt = turned (nextR R w dt) (τ • seg (F *ᵥ δ) 2)

/-- the process noise of one step: variances per axis of position, velocity and orientation -/
noncomputable def stepNoise (accCov gyroCov dt : ℝ) : M99 :=
  Matrix.diagonal fun a => ![1e-6, accCov * dt ^ 2, gyroCov * dt ^ 2] a.1

end Mekf
end Drift
