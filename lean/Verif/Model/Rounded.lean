import Verif.Spec.Double
import Verif.Model.ImuPropagation

/-!
# Model of `Gamma_SO3`, `Phi35L` and the propagation of the orientation in binary64 arithmetic

Every `double` operation is rounded to nearest (`Spec/Double`).  `sin`, `cos` and `pow` of the C library are
parameters.  Sums of three products (matrix products, norms) are evaluated without fused multiply-add, in either order,
`(a + b) + c` or `a + (b + c)`: which one Eigen takes depends on its version and on vectorisation, so it is a
parameter too.  As Eigen does, `k * (A * B)` is evaluated as `(k * A) * B`.
-/
namespace Drift
namespace F64
open Matrix

/-- floating point unit and mathematical library -/
structure Fpu extends Round where
  /-- whether the sums of matrix products are evaluated as `a + (b + c)` -/
  mulRight : Bool
  /-- whether the sum of `w.norm()` is evaluated as `a + (b + c)` -/
  normRight : Bool
  /-- `sin` of `<cmath>` -/
  sin : ℝ → ℝ
  /-- `cos` of `<cmath>` -/
  cos : ℝ → ℝ

variable (R : Round)

/-- the sum of three products -/
def sum3 (right : Bool) (a b c : ℝ) : ℝ := if right then R.rn (a + R.rn (b + c)) else R.rn (R.rn (a + b) + c)
/-- `A + B` -/
def addM (A B : M3) : M3 := fun i j => R.rn (A i j + B i j)
/-- `A - B` -/
def subM (A B : M3) : M3 := fun i j => R.rn (A i j - B i j)
/-- `c * A` (or `A * c`) -/
def smulM (c : ℝ) (A : M3) : M3 := fun i j => R.rn (c * A i j)
/-- `c * v` of a `Vector3d` -/
def smulV (c : ℝ) (v : V3) : V3 := fun i => R.rn (c * v i)

variable (F : Fpu)

/-- `A * B` of two `Eigen::Matrix3d` -/
def mulM (A B : M3) : M3 := fun i j =>
  sum3 F.toRound F.mulRight (F.rn (A i 0 * B 0 j)) (F.rn (A i 1 * B 1 j)) (F.rn (A i 2 * B 2 j))
/-- `w.norm()` -/
noncomputable def norm3 (w : V3) : ℝ :=
  F.rn (Real.sqrt (sum3 F.toRound F.normRight (F.rn (w 0 * w 0)) (F.rn (w 1 * w 1)) (F.rn (w 2 * w 2))))

/-- lie_group.cpp:50, 71: `I + (sin(theta) / theta) * A + ((1 - cos(theta)) / theta2) * A * A` -/
noncomputable def rodrigues (w : V3) (θ : ℝ) : M3 :=
  let A := skew w
  let s := F.rn (F.sin θ / θ)
  let c := F.rn (F.rn (1 - F.cos θ) / F.rn (θ * θ))
  addM F.toRound (addM F.toRound 1 (smulM F.toRound s A)) (mulM F (smulM F.toRound c A) A)

open Classical in
/-- lie_group.cpp:33-50: `Gamma_SO3(w, 0)` -/
noncomputable def gamma0 (w : V3) : M3 :=
  let θ := norm3 F w
  if θ < F.rn TOLERANCE then 1 else rodrigues F w θ

open Classical in
/-- lie_group.cpp:108-124: the rotation that `Exp_SEK3` computes from the first three components `w` of its argument; here
`A * A` is evaluated first -/
noncomputable def expRot (w : V3) : M3 :=
  let R := F.toRound
  let θ := norm3 F w
  if θ < F.rn TOLERANCE then 1
  else
    let A := skew w
    let c := F.rn (F.rn (1 - F.cos θ) / F.rn (θ * θ))
    let A2 := mulM F A A
    addM R (addM R 1 (smulM R (F.rn (F.sin θ / θ)) A)) (smulM R c A2)

/-- what happens to the orientation of a world-centric state -/
inductive RotOp where
  /-- imu_propagation.cpp:186, 197: `R * Gamma_SO3(w * dt, 0)` -/
  | imu (w : V3) (dt : ℝ)
  /-- inekf.cpp:64-69: right-invariant update `dX * X`, where `δ` is the orientation part of `K * Z` -/
  | right (δ : V3)
  /-- inekf.cpp:139-144: left-invariant update `X * dX` -/
  | left (δ : V3)

/-- the orientation afterwards.  (The rows of `X` below the orientation are zero: in `dX * X` they only add zeros.) -/
noncomputable def RotOp.run (X : M3) : RotOp → M3
  | .imu w dt => mulM F X (gamma0 F (smulV F.toRound dt w))
  | .right δ => mulM F (expRot F δ) X
  | .left δ => mulM F X (expRot F δ)

open Classical in
/-- lie_group.cpp:69-88 for `m = 3`: `Gamma_SO3(w, 3)`; `pow(theta, 4)` is a parameter -/
noncomputable def gamma3 (pow4 : ℝ → ℝ) (w : V3) : M3 :=
  let R := F.toRound
  let θ := norm3 F w
  if θ < F.rn TOLERANCE then smulM R (F.rn (1 / 6)) 1
  else
    let A := skew w
    let A1 := mulM F 1 A
    let S1 := addM R 1 (smulM F.toRound (F.rn (1 / 1)) A1)
    let A2 := mulM F A1 A
    let S2 := addM R S1 (smulM F.toRound (F.rn (1 / 2)) A2)
    let A3 := mulM F A2 A
    let S3 := addM R S2 (smulM F.toRound (F.rn (1 / 6)) A3)
    addM R (smulM F.toRound (F.rn (1 / 6)) 1) (mulM F (smulM F.toRound (F.rn (1 / pow4 θ)) A) (subM R (rodrigues F w θ) S3))

/-- imu_propagation.cpp:225-304: `Phi35L`, general formula (rates of at least 1e-6), with the intermediate variables of the
code -/
noncomputable def phi35 (pow4 : ℝ → ℝ) (w a : V3) (dt : ℝ) : M3 :=
  let R := F.toRound
  let phi := smulV R dt w
  let G0t := (gamma0 F phi)ᵀ
  let G3t := gamma3 F pow4 (-phi)
  let ax := skew a
  let wx := skew w
  let wx2 := mulM F wx wx
  let dt2 := F.rn (dt * dt)
  let dt3 := F.rn (dt2 * dt)
  let theta := norm3 F w
  let theta2 := F.rn (theta * theta)
  let theta3 := F.rn (theta2 * theta)
  let theta4 := F.rn (theta3 * theta)
  let theta5 := F.rn (theta4 * theta)
  let theta6 := F.rn (theta5 * theta)
  let theta7 := F.rn (theta6 * theta)
  let x := F.rn (theta * dt)
  let x2 := F.rn (x * x)
  let x3 := F.rn (x2 * x)
  let s := F.sin x
  let c := F.cos x
  let s2 := F.sin (F.rn (2 * x))
  let c2 := F.cos (F.rn (2 * x))
  let xc := F.rn (x * c)
  let xs := F.rn (x * s)
  let k1 := F.rn (F.rn (F.rn (xs + F.rn (2 * c)) - 2) / theta4)
  let k2 := F.rn (F.rn (F.rn (F.rn (6 * x) - F.rn (8 * s)) + s2) / F.rn (8 * theta5))
  let k3 := F.rn (F.rn (F.rn (F.rn (F.rn (F.rn (2 * x2) + F.rn (8 * xs)) + F.rn (16 * c)) + c2) - 17) / F.rn (8 * theta6))
  let k4 := F.rn (F.rn (F.rn (F.rn (x3 + F.rn (6 * x)) - F.rn (12 * s)) + F.rn (6 * xc)) / F.rn (6 * theta5))
  let k5 := F.rn (F.rn (F.rn (F.rn (F.rn (6 * x2) + F.rn (16 * c)) - c2) - 15) / F.rn (8 * theta6))
  let k6 := F.rn (F.rn (F.rn (F.rn (F.rn (F.rn (4 * x3) + F.rn (6 * x)) - F.rn (24 * s)) - F.rn (3 * s2)) + F.rn (24 * xc)) /
    F.rn (24 * theta7))
  let M0 := smulM R dt3 (mulM F ax G3t)
  let M1 := subM R M0 (mulM F (smulM R k1 wx) ax)
  let M2 := subM R M1 (mulM F (mulM F (smulM R k2 wx) ax) wx)
  let M3 := subM R M2 (mulM F (mulM F (smulM R k3 wx) ax) wx2)
  let M4 := addM R M3 (mulM F (smulM R k4 wx2) ax)
  let M5 := subM R M4 (mulM F (mulM F (smulM R k5 wx2) ax) wx)
  let M6 := addM R M5 (mulM F (mulM F (smulM R k6 wx2) ax) wx2)
  mulM F G0t M6

end F64
end Drift
