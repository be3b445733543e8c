import Verif.Model.RobotState
import Verif.Spec.Group

/-!
# Specification vocabulary for the robot state
-/
namespace Drift
open Mat

/-- position in the larger index range of index `a` after removing `k` indices starting at `i` -/
def skip (i k a : ℕ) : ℕ := if a < i then a else a + k

/-- `M'` is `M` (of size `d x d`) with rows and columns `i, ..., i+k-1` deleted -/
def Deletes (M M' : Mat) (i k : ℕ) : Prop :=
  M'.rows = M.rows - k ∧ M'.cols = M.cols - k ∧
    ∀ a b, a < M.rows - k → b < M.cols - k → M'.e a b = M.e (skip i k a) (skip i k b)

/-- All sizes of a state agree: `X` is square with at least the five base columns, the covariance and
the noise covariance are square of size `3*dimX - 6 + dimTheta`, and the column table has one
entry per column of `X`. -/
structure Consistent (s : RobotState) : Prop where
  x_sq : s.X.rows = s.X.cols
  x_ge : 5 ≤ s.X.cols
  th_col : s.Theta.cols = 1
  th_rows : s.Theta.rows = 6
  p_rows : s.P.rows + 6 = 3 * s.X.cols + s.Theta.rows
  p_cols : s.P.cols + 6 = 3 * s.X.cols + s.Theta.rows
  q_rows : s.Qc.rows + 6 = 3 * s.X.cols + s.Theta.rows
  q_cols : s.Qc.cols + 6 = 3 * s.X.cols + s.Theta.rows
  map_len : s.colMap.length = s.X.cols

/-- The column table mirrors the matrix: entry `j ≥ 5` points to a cell holding `j`; the base columns
have no reference. -/
def TableOK (h : Heap) (s : RobotState) : Prop :=
  (∀ j, j < 5 → s.colMap[j]? = some none) ∧
  ∀ j, 5 ≤ j → j < s.colMap.length → ∃ a, s.colMap[j]? = some (some a) ∧ h.val a = j ∧ a < h.next

/-- States reachable through the state API: construction, adding an augmented column through a freshly
allocated reference (as the contact correction does, with any covariance of the right size),
deleting an augmented column, clearing. -/
inductive StateReach : Heap → RobotState → Prop
  | init (h : Heap) : StateReach h RobotState.init
  | add {h s} (aug : V3) (P : Mat) (noise : M3) (k : ℤ) (s' : RobotState) :
      StateReach h s → P.rows = s.P.rows + 3 → P.cols = s.P.cols + 3 →
      s.add_aug_state aug P noise (some (h.alloc 0).1) = some (k, s') →
      StateReach ((h.alloc 0).2.write (h.alloc 0).1 k) s'
  | del {h s} (idx : ℕ) (h' : Heap) (s' : RobotState) :
      StateReach h s → 5 ≤ idx → idx < s.dimX →
      s.del_aug_state h idx = some (h', s') → StateReach h' s'
  | clear {h s} : StateReach h s → StateReach h s.clear

end Drift
