import Verif.Spec.Stand

/-!
# Specification vocabulary: a foot on the ground as an anchor (C163)
-/
namespace Drift
open Matrix

/-- the estimated foot of leg `id`, if the filter has one, is at most `D` away from the origin of the world -/
def FootLe (id : ℕ) (D : ℝ) (e : Estimator) : Prop :=
  ∀ c a d, Corr.leg c ∈ e.corrs → c.ids id = some a → e.state.get_vector (e.heap.val a) = some d → norm3 d ≤ D

/-- in a history of `e` the estimated foot of leg `id` stays at most `D` away from the origin of the world -/
def FootBound (id : ℕ) (D : ℝ) (e : Estimator) (evs : List EstEv) : Prop :=
  ∀ pre e', pre <+: evs → e.run pre = some e' → FootLe id D e'

/-- The history of C163: a turn of the main loop that uses a kinematic measurement, any history `evs`, and another such turn; all the while leg `id`
is reported in contact. -/
structure StanceOf (id : ℕ) (σ D enc kin t t' : ℝ) (e e1 e2 e3 : Estimator) (evs : List EstEv) : Prop where
  /-- the estimator runs -/
  run : e.enabled = true
  /-- the first turn, the history, the last turn -/
  first : e.step .tick = some e1
  between : e1.run evs = some e2
  last : e2.step .tick = some e3
  /-- both turns use a measurement -/
  uses : Measures e
  uses' : Measures e2
  /-- the state is not cleared between -/
  keep : NoClear evs
  /-- all kinematic measurements report leg `id` in contact, with a position of the foot that is known to `σ` -/
  standing : Standing id σ enc kin e evs
  /-- the estimated foot is not farther than `D` from the origin of the world -/
  far : FootBound id D e1 evs
  /-- the times of the estimates after the two turns -/
  time : e1.state.tProp = some t
  time' : e3.state.tProp = some t'

/-- A walk: stances of which each starts with the turn of the main loop that ends the one before.  `(id, evs)` says which leg stands and what happens
between the two turns.  `t`, `e`, `e1` are the time and the estimator before and after the first turn, `t'`, `x`, `x1` those of the last turn. -/
def StancesOf (σ D enc kin : ℝ) : List (ℕ × List EstEv) → ℝ → Estimator → Estimator → ℝ → Estimator → Estimator → Prop
  | [], t, e, e1, t', x, x1 => t' = t ∧ x = e ∧ x1 = e1
  | (id, evs) :: rest, t, e, e1, t', x, x1 =>
    ∃ s e2 e3, StanceOf id σ D enc kin t s e e1 e2 e3 evs ∧ StancesOf σ D enc kin rest s e2 e3 t' x x1

/-- the history from before the first turn to before the last -/
def stanceEvs (l : List (ℕ × List EstEv)) : List EstEv := l.flatMap fun p => .tick :: p.2

end Drift
