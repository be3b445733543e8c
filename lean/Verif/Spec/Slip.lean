import Verif.Spec.DiffDrive

/-!
# Specification vocabulary: robots whose wheels slip

`NearlyDrives` is an arbitrary motion in the plane that the wheel readings describe up to an error: sliding in any direction
(also sideways), a wrong wheel radius or track width, speeds that change between readings.
-/
namespace Drift
open Real

/-- The motion of a robot from time `t0` on: between two readings its turning rate is within `εω` of that of the later
reading, and its velocity within `εv` of the speed of the later reading in the direction of its heading. -/
def NearlyDrives (εv εω : ℝ) (θ x y : ℝ → ℝ) : ℝ → List Reading → Prop
  | _, [] => True
  | t0, r :: l => t0 ≤ r.t ∧
      (∀ t ∈ Set.Icc t0 r.t, ∃ w a b, HasDerivWithinAt θ w (Set.Icc t0 r.t) t ∧ HasDerivWithinAt x a (Set.Icc t0 r.t) t ∧
        HasDerivWithinAt y b (Set.Icc t0 r.t) t ∧ |w - r.ω| ≤ εω ∧
        √((a - r.v * cos (θ t)) ^ 2 + (b - r.v * sin (θ t)) ^ 2) ≤ εv) ∧
      NearlyDrives εv εω θ x y r.t l

/-- The position error that dead reckoning may accumulate: in an interval of length `d` the velocity error adds `εv d`, the
heading error `e` at its beginning adds `e |v| d`, the turn within the interval adds `|v| (|ω| + εω) d² / 2`. -/
noncomputable def slipBound (εv εω : ℝ) : ℝ → ℝ → List Reading → ℝ
  | _, _, [] => 0
  | e, t0, r :: l => εv * (r.t - t0) + |r.v| * (|r.ω| + εω) * (r.t - t0) ^ 2 / 2 + e * |r.v| * (r.t - t0) +
      slipBound εv εω (e + εω * (r.t - t0) + |r.ω * (r.t - t0) - turnOf (r.ω * (r.t - t0))|) r.t l

/-- Two joint messages with the same stamp and number of entries whose wheel speeds differ by at most `η` -/
def JointMsg.Near (η : ℝ) (m m' : JointMsg) : Prop :=
  m.stamp = m'.stamp ∧ m.vel.length = m'.vel.length ∧ ∀ (i : ℕ) (a b : ℝ), m.vel[i]? = some a → m'.vel[i]? = some b → |a - b| ≤ η

/-- the joint messages of a history, in order -/
def jointMsgs : List BAct → List JointMsg
  | [] => []
  | .joint m :: l => m :: jointMsgs l
  | _ :: l => jointMsgs l

/-- wheel radius and track width in the programs -/
noncomputable def BaseProg.radius : BaseProg → ℝ
  | .husky => 0.158
  | .fetch => 0.06033
/-- wheel radius and track width in the programs -/
noncomputable def BaseProg.track : BaseProg → ℝ
  | .husky => 0.688
  | .fetch => 0.37476

end Drift
