import Mathlib.Data.Real.Basic

/-!
# Specification: what a rate-limited log of a sequence of states is
-/
namespace Drift.LogT

open Classical in
/-- The states of a sequence that are logged, given the time `last` of the last row: a state is logged when at
least `1 / rate` has passed since the last one logged. -/
noncomputable def limited {α : Type} (time : α → ℝ) (rate : ℝ) : ℝ → List α → List α
  | _, [] => []
  | last, s :: l => if rate ≠ 0 ∧ time s - last ≥ 1 / rate then s :: limited time rate (time s) l else limited time rate last l

end Drift.LogT
