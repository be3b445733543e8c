import Verif.Model.Rounded

/-!
# Model of the propagation of the mean in binary64 arithmetic

`Gamma_SO3(., 1)`, `Gamma_SO3(., 2)` and the world-centric mean of `ImuPropagation::Propagate`, operation by operation (see
`Model/Rounded` for what is assumed of the arithmetic).
-/
namespace Drift
namespace F64
open Matrix

variable (F : Fpu)

/-- `u + v` of two `Vector3d` -/
def addV (u v : V3) : V3 := fun i => F.rn (u i + v i)

/-- `A * v` of an `Eigen::Matrix3d` and a `Vector3d` -/
def mulMV (A : M3) (v : V3) : V3 := fun i =>
  sum3 F.toRound F.mulRight (F.rn (A i 0 * v 0)) (F.rn (A i 1 * v 1)) (F.rn (A i 2 * v 2))

open Classical in
/-- lie_group.cpp:33-45, 52-56: `Gamma_SO3(w, 1)` -/
noncomputable def gamma1 (w : V3) : M3 :=
  let R := F.toRound
  let θ := norm3 F w
  if θ < F.rn TOLERANCE then smulM R (F.rn (1 / 1)) 1
  else
    let A := skew w
    let theta2 := F.rn (θ * θ)
    let c := F.rn (F.rn (1 - F.cos θ) / theta2)
    let d := F.rn (F.rn (θ - F.sin θ) / F.rn (theta2 * θ))
    addM R (addM R 1 (smulM R c A)) (mulM F (smulM R d A) A)

open Classical in
/-- lie_group.cpp:33-45, 58-63: `Gamma_SO3(w, 2)` -/
noncomputable def gamma2 (w : V3) : M3 :=
  let R := F.toRound
  let θ := norm3 F w
  if θ < F.rn TOLERANCE then smulM R (F.rn (1 / 2)) 1
  else
    let A := skew w
    let theta2 := F.rn (θ * θ)
    let d := F.rn (F.rn (θ - F.sin θ) / F.rn (theta2 * θ))
    let e := F.rn (F.rn (F.rn (theta2 + F.rn (2 * F.cos θ)) - 2) / F.rn (F.rn (2 * theta2) * theta2))
    addM R (addM R (smulM R (1 / 2) 1) (smulM R d A)) (mulM F (smulM R e A) A)

/-- the constant `g_`, imu_propagation.h: `-9.80` is rounded like any other literal -/
noncomputable def gravityF : V3 := ![0, 0, F.rn (-9.80)]

/-- rotation, velocity, position -/
structure NavF where
  rot : M3
  vel : V3
  pos : V3

/-- imu_propagation.cpp:181-199, world-centric: one IMU reading, `w` and `a` being the rate and specific force of lines 134-150.
`(R * G1 * a + g_) * dt` and `p + v * dt + (R * G2 * a + 0.5 * g_) * dt * dt` are evaluated from left to right. -/
noncomputable def NavF.step (s : NavF) (w a : V3) (dt : ℝ) : NavF :=
  let R := F.toRound
  let phi := smulV R dt w
  let G0 := gamma0 F phi
  let G1 := gamma1 F phi
  let G2 := gamma2 F phi
  { rot := mulM F s.rot G0
    vel := addV F s.vel (smulV R dt (addV F (mulMV F (mulM F s.rot G1) a) (gravityF F)))
    pos := addV F (addV F s.pos (smulV R dt s.vel))
      (smulV R dt (smulV R dt (addV F (mulMV F (mulM F s.rot G2) a) (smulV R (1 / 2) (gravityF F))))) }

/-- one reading of the IMU, without biases, and how long it is held: angular rate, specific force, seconds -/
structure Reading where
  w : V3
  a : V3
  dt : ℝ

/-- imu_propagation.cpp:125-199: readings, one after the other -/
noncomputable def NavF.run (s : NavF) (l : List Reading) : NavF := l.foldl (fun s r => s.step F r.w r.a r.dt) s

end F64
end Drift
