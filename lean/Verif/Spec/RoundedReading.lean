import Verif.Spec.RoundedImu
import Verif.Spec.DriftRate
import Verif.Model.RoundedReading

/-!
# Specification: what an IMU message says, without rounding
-/
namespace Drift
namespace F64
open Matrix

/-- the angular rate of the body according to the message -/
noncomputable def Raw.rate (m : Mount) (r : Raw) : V3 := m.rot *ᵥ r.gyro - m.bg

/-- the specific force at the origin of the body frame according to the message: without the bias and the centripetal part -/
noncomputable def Raw.force (m : Mount) (r : Raw) : V3 :=
  m.rot *ᵥ r.acc - m.ba - crossProduct (r.rate m) (crossProduct (r.rate m) m.pos)

/-- bounds for the numbers in a message and for the mounting: rate `G`, acceleration `A`, biases `Bg` and `Ba`, lever arm `L`, each per
coordinate; the matrix `R_imu2body_` is a rotation up to some rounding, or anything else with entries up to 1.11 -/
structure Mount.Bounds (m : Mount) (G A Bg Ba L : ℝ) : Prop where
  rot : ∀ i j, |m.rot i j| ≤ 111 / 100
  pos : ∀ i, |m.pos i| ≤ L
  bg : ∀ i, |m.bg i| ≤ Bg
  ba : ∀ i, |m.ba i| ≤ Ba
  nonneg : 0 ≤ G ∧ 0 ≤ A

/-- a message within the bounds -/
def Raw.Within (G A : ℝ) (r : Raw) : Prop := (∀ i, |r.gyro i| ≤ G) ∧ ∀ i, |r.acc i| ≤ A

/-- the messages tell the rate `w` and specific force `a` of a motion up to `εg` and `εa`, during all the time each of them is held, the first from `t0` on -/
def Tells (w a : ℝ → V3) (εg εa : ℝ) (m : Mount) : ℝ → List Raw → Prop
  | _, [] => True
  | t0, r :: l => 0 < r.dt ∧ (∀ t, t0 ≤ t → t < t0 + r.dt → Drift.norm3 (r.rate m - w t) ≤ εg ∧ Drift.norm3 (r.force m - a t) ≤ εa) ∧
      Tells w a εg εa m (t0 + r.dt) l

/-- how long the messages are held, altogether -/
noncomputable def span (l : List Raw) : ℝ := (l.map Raw.dt).sum

/-- what rounding adds to the error of the rate -/
noncomputable def roundRate (G Bg : ℝ) : ℝ := (G + Bg + 1 / 10 ^ 40) / 2 ^ 47

/-- what rounding adds to the error of the specific force -/
noncomputable def roundForce (G A Bg Ba L : ℝ) : ℝ := (A + Ba + 25 * (G + Bg + 1 / 10 ^ 20) ^ 2 * (L + 1 / 10 ^ 20) + 1 / 10 ^ 40) / 2 ^ 45

end F64
end Drift
