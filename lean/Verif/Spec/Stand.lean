import Verif.Spec.Tilt
import Verif.Spec.Legged
import Verif.Spec.Startup

/-!
# Specification vocabulary: a foot that stays on the ground (C160)
-/
namespace Drift
open Matrix

/-- The kinematic measurement `m` reports leg `id` in contact, and the covariance that the correction gives its foot position, from the configured
standard deviations `enc` of the encoders and `kin` of the kinematics, is at most `σ²` in each direction. -/
def StandsOn (id : ℕ) (σ enc kin : ℝ) (m : LegMeas) : Prop :=
  ∃ o, m.legs[id]? = some o ∧ o.contact = true ∧ ∀ u : V3, u ⬝ᵥ (footCovSpec enc kin o).mulVec u ≤ σ ^ 2 * (u ⬝ᵥ u)

/-- every kinematic measurement that is waiting in the queues of `e` or that arrives in the history `evs` reports leg `id` in contact -/
def Standing (id : ℕ) (σ enc kin : ℝ) (e : Estimator) (evs : List EstEv) : Prop :=
  (∀ c, Corr.leg c ∈ e.corrs → ∀ m ∈ c.buffer, StandsOn id σ enc kin m) ∧ ∀ k m, EstEv.leg k m ∈ evs → StandsOn id σ enc kin m

/-- the estimated foot of leg `id`, if the filter has one, is at most `D` away from the estimated position -/
def ReachLe (id : ℕ) (D : ℝ) (e : Estimator) : Prop :=
  ∀ c a p d, Corr.leg c ∈ e.corrs → c.ids id = some a → e.state.get_position = some p → e.state.get_vector (e.heap.val a) = some d → norm3 (p - d) ≤ D

/-- in a history of `e` the estimated foot of leg `id` stays at most `D` away from the estimated position -/
def ReachBound (id : ℕ) (D : ℝ) (e : Estimator) (evs : List EstEv) : Prop :=
  ∀ pre e', pre <+: evs → e.run pre = some e' → ReachLe id D e'

/-- The history of C160: after `evs0` three turns of the main loop use kinematic measurements, with the histories `evsA` and `evsB` between them. -/
structure ThreeTurns (id : ℕ) (σ V D enc kin t1 t2 t3 : ℝ) (e e1 e2 e3 e4 e5 : Estimator) (evsA evsB : List EstEv) : Prop where
  /-- the estimator runs -/
  run : e.enabled = true
  /-- the first of the three turns, the history after it, the second turn, the history after it, the third turn -/
  tick1 : e.step .tick = some e1
  runA : e1.run evsA = some e2
  tick2 : e2.step .tick = some e3
  runB : e3.run evsB = some e4
  tick3 : e4.step .tick = some e5
  /-- each of the turns uses a measurement -/
  uses1 : Measures e
  uses2 : Measures e2
  uses3 : Measures e4
  /-- the state is not cleared between -/
  keepA : NoClear evsA
  keepB : NoClear evsB
  /-- all kinematic measurements report leg `id` in contact -/
  standing : Standing id σ enc kin e (evsA ++ evsB)
  /-- the estimated speed and the estimated distance to the foot -/
  speed : SpeedBound V e1 (evsA ++ .tick :: evsB)
  reach : ReachBound id D e1 (evsA ++ .tick :: evsB)
  /-- the times of the estimates after the three turns -/
  time1 : e1.state.tProp = some t1
  time2 : e3.state.tProp = some t2
  time3 : e5.state.tProp = some t3
  lt12 : t1 < t2
  lt23 : t2 < t3

end Drift
