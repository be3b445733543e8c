import Verif.Spec.Tilt
import Verif.Spec.Startup

/-!
# Specification vocabulary: a drive with regular velocity measurements (C161)
-/
namespace Drift

/-- the estimated position of `s` is at most `D` away from the origin of the world -/
def FarLe (D : ℝ) (s : RobotState) : Prop := ∃ p, s.get_position = some p ∧ norm3 p ≤ D

/-- in a history of `e` the estimated position stays at most `D` away from the origin -/
def FarBound (D : ℝ) (e : Estimator) (evs : List EstEv) : Prop :=
  ∀ pre e', pre <+: evs → e.run pre = some e' → FarLe D e'.state

/-- the history of a drive in segments: the events of each segment and then a turn of the main loop -/
def driveEvs (segs : List (List EstEv)) : List EstEv := segs.flatMap fun evs => evs ++ [.tick]

/-- The turn at the end of every segment uses a measurement, and its estimate is at most `τ` later than the estimate at the start of the segment. Within
a segment the turns need not use any measurement. -/
def Regular (τ : ℝ) : Estimator → List (List EstEv) → Prop
  | _, [] => True
  | e, evs :: segs => NoClear evs ∧ ∃ e1 e2 t t', e.run evs = some e1 ∧ Measures e1 ∧ e1.step .tick = some e2 ∧ e.state.tProp = some t ∧
      e2.state.tProp = some t' ∧ t' ≤ t + τ ∧ Regular τ e2 segs

end Drift
