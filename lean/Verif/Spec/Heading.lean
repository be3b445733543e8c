import Verif.Spec.Estimator

/-!
# Specification: histories that differ by a turn of the world frame

A turn is a rotation `Q` of the world frame.  Gravity is the only thing that distinguishes a direction of the
world frame, so a turn that fixes gravity (a change of heading) is not observable.
-/
namespace Drift
open Mat Matrix RobotState

/-- Two IMU measurements that differ by a turn of the world frame: same time, rate and acceleration; the
orientation reported by the IMU (if it is used, `uo`) is turned.  If it is not used, the reported orientations
may differ in any way. -/
structure ImuTurn (uo : Bool) (Q : M3) (m m' : ImuMeas) : Prop where
  same : m' = { m with quat := m'.quat }
  quat : uo = true → m'.quat.toRot = Q * m.quat.toRot

/-- two events that differ by a turn: IMU measurements as above, everything else is the same -/
def EvTurn (uo : Bool) (Q : M3) : EstEv → EstEv → Prop
  | .imu m, ev' => ∃ m', ev' = .imu m' ∧ ImuTurn uo Q m m'
  | ev, ev' => ev' = ev

/-- Two states that differ by a turn of the world frame.  Orientation, velocity, position and all contact
positions (the columns 3, 4, ... of the state) are turned; the biases, the time stamps and all other members
are the same.  The covariance of the left-invariant error (expressed in the body frame) is the same; that of
the right-invariant error (expressed in the world frame) has its group blocks turned, and the last two blocks
(the biases) not. -/
structure Turned (Q : M3) (et : ErrorType) (s s' : RobotState) : Prop where
  same : s' = { s with X := s'.X, P := s'.P }
  dimX : s'.dimX = s.dimX
  rot : ∃ R, s.get_rotation = some R ∧ s'.get_rotation = some (Q * R)
  vec : ∀ i : ℕ, 3 ≤ i → i < s.dimX → ∃ v, s.get_vector i = some v ∧ s'.get_vector i = some (Q.mulVec v)
  left : et = .leftInvariant → s'.P = s.P
  dimP : s'.dimP = s.dimP
  right : et = .rightInvariant → ∀ i j, 3 * i < s.dimP → 3 * j < s.dimP →
    s'.P.blk3 (3 * i) (3 * j) =
      (if 3 * i + 6 < s.dimP then Q else 1) * s.P.blk3 (3 * i) (3 * j) * (if 3 * j + 6 < s.dimP then Q else 1)ᵀ

/-- two log rows that differ by a turn: the body velocity is the same -/
structure RowTurned (Q : M3) (r r' : LogRow) : Prop where
  time : r'.time = r.time
  pos : r'.pos = Q.mulVec r.pos
  rot : r'.rot = Q * r.rot
  vel : r'.vel = Q.mulVec r.vel
  bodyVel : r'.bodyVel = r.bodyVel

/-- The turn is not observable for this configuration of the IMU propagation: if the IMU orientation is not used
to initialise, nothing depends on it (there is no turn); if it is used and the biases are initialised from
static samples, the turn also fixes gravity seen through the IMU mounting. -/
structure TurnOK (Q : M3) (p : ImuProp) : Prop where
  rot : IsRot Q
  grav : Q.mulVec gravity = gravity
  ori : p.useImuOri = false → Q = 1
  bias : p.useImuOri = true → p.staticInit = true →
    p.R_imu2bodyᵀ * p.R_imu2body = 1 ∧ Q.mulVec (p.R_imu2bodyᵀ.mulVec gravity) = p.R_imu2bodyᵀ.mulVec gravity

end Drift
