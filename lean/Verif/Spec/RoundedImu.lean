import Verif.Spec.Flow
import Verif.Model.RoundedImu

/-!
# Specification: inertial navigation without rounding
-/
namespace Drift
namespace F64

/-- `Flown R v p l R' v' p'`: who starts with orientation `R`, velocity `v` and position `p`, and follows the differential equations of
motion in a field of 9.8 m/s² downwards with each reading of `l` in turn, ends with `R'`, `v'` and `p'` -/
inductive Flown : M3 → V3 → V3 → List Reading → M3 → V3 → V3 → Prop
  | nil (R : M3) (v p : V3) : Flown R v p [] R v p
  | cons {R : ℝ → M3} {v p : ℝ → V3} (r : Reading) {l : List Reading} {R' : M3} {v' p' : V3} (h : Strapdown r.w r.a ![0, 0, -9.8] R v p)
      (hl : Flown (R r.dt) (v r.dt) (p r.dt) l R' v' p') : Flown (R 0) (v 0) (p 0) (r :: l) R' v' p'

/-- how long the readings are held, altogether -/
noncomputable def duration (l : List Reading) : ℝ := (l.map fun r => |r.dt|).sum

/-- the specific force (and 1 m/s²), added up over time -/
noncomputable def push (l : List Reading) : ℝ := (l.map fun r => |r.dt| * (Drift.norm3 r.a + 1)).sum

/-- the specific force (and 1 m/s²) times the square of the time it is held, added up -/
noncomputable def push2 (l : List Reading) : ℝ := (l.map fun r => |r.dt| * (|r.dt| * (Drift.norm3 r.a + 1))).sum

/-- a reading held for at most a second in which the body does not turn, or turns by at least `τ` rad and at most 1 rad -/
def Reading.Turns (τ : ℝ) (r : Reading) : Prop :=
  |r.dt| ≤ 1 ∧ (r.dt • r.w = 0 ∨ τ ≤ Drift.norm3 (r.dt • r.w) ∧ Drift.norm3 (r.dt • r.w) ≤ 1)

end F64
end Drift
