import Verif.Spec.Estimator
import Verif.Spec.Flow

/-!
# Specification vocabulary: a true motion and sensors without error
-/
namespace Drift
open Matrix

/-- the true motion: orientation, velocity and position of the body in the world, at every time -/
structure Truth where
  R : ℝ → M3
  v : ℝ → V3
  q : ℝ → V3

namespace Truth

/-- the estimate `s` is the true pose and velocity at time `t` -/
def At (T : Truth) (t : ℝ) (s : RobotState) : Prop :=
  s.get_rotation = some (T.R t) ∧ s.get_velocity = some (T.v t) ∧ s.get_position = some (T.q t)

/-- `m` is the reading of an IMU without noise, mounted with rotation `Rm` and lever arm `tm`, with biases `bg`, `ba`: from `t0` to its stamp the
body turns with a constant rate `w` and accelerates with a constant `a`, both in the body frame; the reading is `w` and `a` (with the centripetal
acceleration of the lever arm) in the frame of the sensor, plus the biases.  (A turn by less than `1e-10` rad that is not zero is excluded: there
the code takes it to be zero, C03.) -/
def Imu (T : Truth) (Rm : M3) (tm bg ba : V3) (t0 : ℝ) (m : ImuMeas) : Prop :=
  t0 ≤ m.time ∧ ∃ w a R v q, Rm.mulVec m.angVel = w + bg ∧ Rm.mulVec m.linAcc = a + ba + crossProduct w (crossProduct w tm) ∧
    Strapdown w a ![0, 0, -9.8] R v q ∧ (1e-10 ≤ norm3 ((m.time - t0) • w) ∨ (m.time - t0) • w = 0) ∧
    ∀ τ, t0 ≤ τ → τ ≤ m.time → T.R τ = R (τ - t0) ∧ T.v τ = v (τ - t0) ∧ T.q τ = q (τ - t0)

/-- consecutive readings of such an IMU, the first one from `t0` -/
def Imus (T : Truth) (Rm : M3) (tm bg ba : V3) : ℝ → List ImuMeas → Prop
  | _, [] => True
  | t0, m :: l => T.Imu Rm tm bg ba t0 m ∧ Imus T Rm tm bg ba m.time l

/-- `m` is the reading of a velocity sensor without noise, for the mounting and scale that `c` is configured with: the true velocity at its stamp -/
def Vel (T : Truth) (c : VelCorr) (m : VelMeas) : Prop :=
  (T.R m.time).mulVec (c.scale • c.R_vel2body.mulVec m.vel) = T.v m.time

/-- the velocity in the body frame does not change -/
def Steady (T : Truth) : Prop := ∃ u, ∀ t, T.v t = (T.R t).mulVec u

end Truth

/-- velocity corrections only -/
def velOnly (vs : List VelCorr) : List Corr := vs.map Corr.vel

end Drift
