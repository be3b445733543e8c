import Verif.Spec.NotANumber
import Verif.Model.NotANumber2

/-!
# Specification: poses and estimates of numbers, faulty messages
-/
namespace Drift
namespace Nan

/-- a pose of numbers -/
def Odo.Numbers (o : Odo) : Prop := (∀ i j, (o.rot i j).IsNum) ∧ ∀ i, (o.pos i).IsNum

/-- a pair of measurements with a value that is not a number -/
def FaultyPair (e : DVec 3 × DVec 3 × Dbl) : Prop := (∃ i, e.1 i = .nan) ∨ ∃ i, e.2.1 i = .nan

/-- an estimate of numbers, as is the reading kept -/
def Gyro.Numbers (g : Gyro) : Prop := (∀ i, (g.est i).IsNum) ∧ ∀ i, (g.prev i).IsNum

/-- a rate with a coordinate that is not a number -/
def GMsg.Faulty : GMsg → Prop
  | .prop w => ∃ i, w i = .nan
  | .corr _ _ _ w => ∃ i, w i = .nan

/-- the gain is a matrix of numbers -/
def GMsg.RestNum : GMsg → Prop
  | .prop _ => True
  | .corr K _ _ _ => ∀ i j, (K i j).IsNum

end Nan
end Drift
