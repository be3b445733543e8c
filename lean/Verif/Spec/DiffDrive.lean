import Verif.Model.Baseline
import Mathlib.Analysis.SpecialFunctions.Trigonometric.Deriv

/-!
# Specification vocabulary: differential drive robots

A reading is a time stamp, a forward speed and a turning rate.  `reckon` is planar dead reckoning with the Euler rule.
`Drives` says that a path in the plane is that of a robot with constant speed and rate between two readings (those of the
later one).
-/
namespace Drift
open Real

/-- a wheel reading: time, forward speed, turning rate -/
structure Reading where
  t : ℝ
  v : ℝ
  ω : ℝ

/-- a pose in the plane with its time: heading, position -/
structure Planar where
  t : ℝ
  θ : ℝ
  x : ℝ
  y : ℝ

/-- turns of less than 1e-10 rad are ignored -/
noncomputable def turnOf (a : ℝ) : ℝ := if |a| < 1e-10 then 0 else a

/-- planar dead reckoning -/
noncomputable def Planar.reckon : Planar → List Reading → Planar
  | s, [] => s
  | s, r :: l => Planar.reckon
      ⟨r.t, s.θ + turnOf (r.ω * (r.t - s.t)), s.x + r.v * (r.t - s.t) * cos s.θ, s.y + r.v * (r.t - s.t) * sin s.θ⟩ l

/-- The motion of a differential drive robot from time `t0` on: heading `θ`, position `(x, y)`, speed and rate of reading
number `k` during the time between reading `k - 1` (or `t0`) and reading `k`. -/
def Drives (θ x y : ℝ → ℝ) : ℝ → List Reading → Prop
  | _, [] => True
  | t0, r :: l => t0 ≤ r.t ∧
      (∀ t ∈ Set.Icc t0 r.t, HasDerivWithinAt θ r.ω (Set.Icc t0 r.t) t ∧
        HasDerivWithinAt x (r.v * cos (θ t)) (Set.Icc t0 r.t) t ∧ HasDerivWithinAt y (r.v * sin (θ t)) (Set.Icc t0 r.t) t) ∧
      Drives θ x y r.t l

/-- The error that dead reckoning may accumulate: in each interval of length `d` the true heading moves away from the one
that is used by at most `|ω| d`, hence `|v| |ω| d² / 2`; the ignored turns `e` of all earlier intervals add `e |v| d`. -/
noncomputable def driftBound : ℝ → ℝ → List Reading → ℝ
  | _, _, [] => 0
  | e, t0, r :: l => |r.v| * |r.ω| * (r.t - t0) ^ 2 / 2 + e * |r.v| * (r.t - t0) +
      driftBound (e + |r.ω * (r.t - t0) - turnOf (r.ω * (r.t - t0))|) r.t l

/-- rotation about the vertical axis -/
noncomputable def Rz (θ : ℝ) : M3 := !![cos θ, -sin θ, 0; sin θ, cos θ, 0; 0, 0, 1]

/-- The reading of a joint message, `none` if the program ignores it.  Husky: four wheels, left at 0 and 2, right at 1 and 3,
radius 0.158, track 0.688.  Fetch: left at 0, right at 1, radius 0.06033, track 0.37476; messages with at most two entries
are of other joints. -/
noncomputable def BaseProg.reading (p : BaseProg) (m : JointMsg) : Option Reading :=
  match p, m.vel with
  | .husky, l0 :: r0 :: l1 :: r1 :: _ =>
    some ⟨m.stamp.toSec, 0.158 * (l0 + r0 + l1 + r1) / 4, 0.158 * ((r0 + r1) - (l0 + l1)) / 2 / 0.688⟩
  | .fetch, l :: r :: _ :: _ => some ⟨m.stamp.toSec, 0.06033 * (l + r) / 2, 0.06033 * (r - l) / 0.37476⟩
  | _, _ => none

/-- well-formed messages: the husky driver reports four wheels; the orientation of an IMU message is absent (zero) or
normalised up to rounding -/
def BaseProg.Fine : BaseProg → BAct → Prop
  | .husky, .joint m => 4 ≤ m.vel.length
  | .husky, .imu m => let n := m.ori.w ^ 2 + m.ori.x ^ 2 + m.ori.y ^ 2 + m.ori.z ^ 2; n = 0 ∨ |n - 1| < 1e-5
  | _, _ => True

/-- the readings of the joint messages of a history, in order -/
noncomputable def BaseProg.readings (p : BaseProg) : List BAct → List Reading
  | [] => []
  | .joint m :: l => (p.reading m).toList ++ readings p l
  | _ :: l => readings p l

/-- The pose an odometry object reports: time, rotation and position -/
def Odo.Reports (o : Odo) (s : Planar) : Prop :=
  o.state.t = some s.t ∧ o.state.get_world_rotation = some (Rz s.θ) ∧ o.state.get_world_position = some ![s.x, s.y, 0]

/-- the IMU messages in a history -/
def imuMsgs : List BAct → List ImuMsg
  | [] => []
  | .imu m :: l => m :: imuMsgs l
  | _ :: l => imuMsgs l

end Drift
