import Verif.Model.Shutdown
import Verif.Spec.System

/-!
# Specification vocabulary: the end of the shipped programs
-/
namespace Drift.Shut

/-- the object on which a thread works -/
def uses : Thread → Obj
  | .pose => .pub
  | .path => .pub
  | .log => .est
  | .filter => .filter
  | .spin => .sub

/-- the program has ended: `main` has returned -/
def Run.over (r : Run) : Prop := r.todo = some []

/-- the messages of a history -/
def messages (evs : List Ev) : List SysEv :=
  evs.filterMap fun
    | .msg i m => some (.msg i m)
    | _ => none

/-- the messages among the events of a program -/
def delivered (evs : List SysEv) : List SysEv :=
  evs.filter fun
    | .msg _ _ => true
    | _ => false

/-- every thread gets its turn at least once -/
def Round (l : List Ev) : Prop := .main ∈ l ∧ ∀ t, .thread t ∈ l

/-- every thread gets its turn at least once in each of `n` consecutive pieces of the history -/
def Rounds (n : ℕ) (l : List Ev) : Prop := ∃ ls : List (List Ev), ls.length = n ∧ ls.flatten = l ∧ ∀ x ∈ ls, Round x

end Drift.Shut

/-- a measurement is waiting in the queue of the correction -/
def Drift.Corr.hasData : Drift.Corr → Prop
  | .vel c => c.buffer ≠ []
  | .leg c => c.buffer ≠ []

namespace Drift.Shut

/-- the main thread is in `InitState`, waiting for the first measurement of correction number `i` or a later one that it has
not got yet -/
def Run.waits (r : Run) (i : ℕ) : Prop := r.todo = none ∧ r.sys.est.pending = some i

/-- whatever `InitState` is waiting for is there: if the main thread is waiting in `InitState`, at correction number `i`, then there is
a measurement for this correction and for each of the following ones -/
def Run.served (r : Run) : Prop :=
  ∀ i, r.waits i → ∀ (j : ℕ) c, i ≤ j → r.sys.est.corrs[j]? = some c → c.hasData

end Drift.Shut
