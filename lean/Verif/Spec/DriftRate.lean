import Verif.Spec.Perfect
import Verif.Spec.Late
import Mathlib.Topology.Instances.Real.Lemmas
import Mathlib.Topology.Order.OrderClosed

/-!
# Specification vocabulary: a true motion with any rates, and sensors with bounded errors
-/
namespace Drift
open Matrix
namespace Truth

/-- The body moves with the angular rate `w` and the specific force `a`, both in the body frame and both any functions of time, with jumps
allowed: `R' = R w^`, `v' = R a + g`, `q' = v` (derivatives from the right, of continuous functions). -/
structure Moves (T : Truth) (w a : ℝ → V3) : Prop where
  orient : ∀ t, IsRot (T.R t)
  contR : ∀ i j, Continuous fun t => T.R t i j
  contV : ∀ i, Continuous fun t => T.v t i
  contQ : ∀ i, Continuous fun t => T.q t i
  rot : ∀ t i j, HasDerivWithinAt (fun τ => T.R τ i j) ((T.R t * skew (w t)) i j) (Set.Ici t) t
  vel : ∀ t i, HasDerivWithinAt (fun τ => T.v τ i) (((T.R t).mulVec (a t) + ![0, 0, -9.8] : V3) i) (Set.Ici t) t
  pos : ∀ t i, HasDerivWithinAt (fun τ => T.q τ i) (T.v t i) (Set.Ici t) t

end Truth

/-- `m` is a reading of an IMU (mounted with `Rm` and `tm`, with biases `bg`, `ba`) whose errors are bounded: what the reading says about the rate
and the specific force of the body differs, at every time from `t0` to its stamp, by at most `εg` and `εa` from the true ones.  (This covers noise,
errors of the biases, and the change of the motion during the interval.) -/
def ReadsOne (w a : ℝ → V3) (εg εa : ℝ) (Rm : M3) (tm bg ba : V3) (t0 : ℝ) (m : ImuMeas) : Prop :=
  t0 ≤ m.time ∧ ∃ w' a', w' = Rm.mulVec m.angVel - bg ∧ a' = Rm.mulVec m.linAcc - ba - crossProduct w' (crossProduct w' tm) ∧
    ∀ t, t0 ≤ t → t < m.time → norm3 (w' - w t) ≤ εg ∧ norm3 (a' - a t) ≤ εa

/-- consecutive readings, the first one from `t0` -/
def Reads (w a : ℝ → V3) (εg εa : ℝ) (Rm : M3) (tm bg ba : V3) : ℝ → List ImuMeas → Prop
  | _, [] => True
  | t0, m :: l => ReadsOne w a εg εa Rm tm bg ba t0 m ∧ Reads w a εg εa Rm tm bg ba m.time l

/-- the estimate `s` is the true motion at time `t` up to `δR` in orientation (every vector is turned to within `δR` times its length of where
it should be), `δv` in velocity and `δq` in position -/
def Truth.Within (T : Truth) (δR δv δq t : ℝ) (s : RobotState) : Prop :=
  ∃ R v q, s.get_rotation = some R ∧ s.get_velocity = some v ∧ s.get_position = some q ∧
    (∀ x, norm3 (R.mulVec x - (T.R t).mulVec x) ≤ δR * norm3 x) ∧ norm3 (v - T.v t) ≤ δv ∧ norm3 (q - T.q t) ≤ δq

end Drift
