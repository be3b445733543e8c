import Verif.Spec.Perfect

/-!
# Specification vocabulary: a walking robot, with sensors without error
-/
namespace Drift
open Matrix

/-- `m` is the reading of joint encoders and contact sensors without noise, of a robot with `n` legs whose feet are at the places `foot id t` of the
world: of every leg in contact the foot is where forward kinematics puts it, seen from the true pose at the stamp of `m` -/
def Truth.Kin (T : Truth) (foot : ℕ → ℝ → V3) (n : ℕ) (m : LegMeas) : Prop :=
  m.legs.length = n ∧ ∀ (id : ℕ) o, m.legs[id]? = some o → o.contact = true → (T.R m.time).mulVec o.pos = foot id m.time - T.q m.time

/-- a foot that is in contact both in the measurement used last (if any) and in `m` is where it was -/
def Planted (foot : ℕ → ℝ → V3) (last : Option LegMeas) (m : LegMeas) : Prop :=
  ∀ l, last = some l → ∀ (id : ℕ) o o', l.legs[id]? = some o → m.legs[id]? = some o' → o.contact = true → o'.contact = true →
    foot id m.time = foot id l.time

namespace Estimator

/-- the kinematic measurement that the next turn of the main loop uses (the first one in the queue that is not too old, C48), with the time up to
which the estimate is propagated when it is used; for an estimator whose only correction is a contact correction -/
noncomputable def nextKin (e : Estimator) : Option (ℝ × LegMeas) :=
  (e.prop.propagate e.state).bind fun r => r.2.2.tProp.bind fun tp =>
    match e.corrs with
    | [.leg c] => match c.buffer with
      | [] => none
      | f :: rest => (popFresh LegMeas.time c.tDiffThres tp f rest).map fun q => (tp, q.1)
    | _ => none

/-- the kinematic measurement used last, after the event -/
noncomputable def lastKin (last : Option LegMeas) (e : Estimator) : EstEv → Option LegMeas
  | .tick => (e.nextKin.map Prod.snd).or last
  | _ => last

/-- every kinematic measurement that is used in the history `evs` from `e` on is without error, is used when the estimate is propagated to its
stamp, and the feet that stay in contact from one used measurement to the next do not move.  `last` is the measurement used last before. -/
def Walking (T : Truth) (foot : ℕ → ℝ → V3) (n : ℕ) : Option LegMeas → Estimator → List EstEv → Prop
  | _, _, [] => True
  | last, e, ev :: evs =>
    (ev = .tick → ∀ q, e.nextKin = some q → T.Kin foot n q.2 ∧ q.2.time = q.1 ∧ Planted foot last q.2) ∧
      ∀ e', e.step ev = some e' → Walking T foot n (e.lastKin last ev) e' evs

/-- the kinematic measurement used last in the history `evs` from `e` on -/
noncomputable def lastUsed : Option LegMeas → Estimator → List EstEv → Option LegMeas
  | last, _, [] => last
  | last, e, ev :: evs => match e.step ev with
    | some e' => lastUsed (e.lastKin last ev) e' evs
    | none => last

end Estimator
end Drift
