import Verif.Model.Estimator

/-! # Specification vocabulary: queues that were filled before the start -/
namespace Drift

/-- the same correction with only the newest of its queued measurements -/
def Corr.newestOnly : Corr → Corr
  | .vel c => .vel { c with buffer := c.buffer.getLast?.toList }
  | .leg c => .leg { c with buffer := c.buffer.getLast?.toList }

end Drift
