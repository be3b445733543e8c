import Verif.Model.Estimator

/-! # Specification vocabulary: the names of the log files of a session -/
namespace Drift

/-- the three names are different -/
def Three (f : List Char × List Char × List Char) : Prop := f.1 ≠ f.2.1 ∧ f.1 ≠ f.2.2 ∧ f.2.1 ≠ f.2.2

end Drift
