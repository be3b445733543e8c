import Verif.Spec.Filter
import Verif.Model.ImuPropagation

/-!
# Specification vocabulary: when `Propagate` has work to do
-/
namespace Drift

/-- The situation of a `Propagate` call that has something to do: well-formed world-centric state with `K`
columns, noise covariance of matching size, last propagation time `tp`, previously held measurement `m`,
queue `f :: rest`. -/
structure PropReady (K : ℕ) (p : ImuProp) (s : RobotState) (m f : ImuMeas) (rest : List ImuMeas) (tp : ℝ) :
    Prop where
  shape : Shape K s
  world : s.stateType = .worldCentric
  qr : s.Qc.rows = 3 * K + 9
  qc : s.Qc.cols = 3 * K + 9
  buf : p.buffer = f :: rest
  prev : p.prev = some m
  time : s.tProp = some tp

/-- Body rate and body acceleration of a measurement `m` given the bias estimates `bg`, `ba`: rotated into
the body frame, biases removed, centripetal acceleration of the lever arm removed. -/
def RatesOf (p : ImuProp) (m : ImuMeas) (bg ba w a : V3) : Prop :=
  w = p.R_imu2body.mulVec m.angVel - bg ∧
  a = p.R_imu2body.mulVec m.linAcc - ba - crossProduct w (crossProduct w p.t_imu2body)

end Drift
