import Verif.Spec.Estimator

/-!
# Specification vocabulary: turns of the main loop that use a velocity measurement (C151)
-/
namespace Drift

/-- The next turn of the main loop uses a measurement: of the calls of `Correct` that `RunOnce` makes after `Propagate`, one in order for each
correction (C56), at least one returns true. -/
def Measures (e : Estimator) : Prop :=
  ∃ b p s1 bs cs h s2, e.prop.propagate e.state = some (b, p, s1) ∧ CorrRun e.corrs e.heap s1 bs cs h s2 ∧ true ∈ bs

/-- the estimated speed of `s` is at most `V` -/
def SpeedLe (V : ℝ) (s : RobotState) : Prop := ∃ v, s.get_velocity = some v ∧ norm3 v ≤ V

/-- in a history of `e` the estimated speed stays at most `V` -/
def SpeedBound (V : ℝ) (e : Estimator) (evs : List EstEv) : Prop :=
  ∀ pre e', pre <+: evs → e.run pre = some e' → SpeedLe V e'.state

end Drift
