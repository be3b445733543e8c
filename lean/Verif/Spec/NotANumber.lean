import Verif.Model.NotANumber

/-!
# Specification: states of numbers, faulty messages
-/
namespace Drift
namespace Nan

/-- a number -/
def Dbl.IsNum (x : Dbl) : Prop := x ≠ .nan

/-- a state in which everything is a number -/
def St.Numbers (s : St) : Prop := (∀ i j, (s.X i j).IsNum) ∧ (∀ i, (s.bg i).IsNum) ∧ ∀ i, (s.ba i).IsNum

/-- a message with a measured value that is not a number -/
def Msg.Faulty : Msg → Prop
  | .imu gyro acc _ => (∃ i, gyro i = .nan) ∨ ∃ i, acc i = .nan
  | .velocity _ u => ∃ i, u i = .nan

/-- everything else that goes into the use of a message, its time step or its gain, is a number -/
def Msg.RestNum : Msg → Prop
  | .imu _ _ dt => dt.IsNum
  | .velocity K _ => ∀ i j, (K i j).IsNum

/-- not one entry of the orientation, the velocity and the position is a number -/
def St.Lost (s : St) : Prop := (∀ i j, s.rot i j = .nan) ∧ (∀ i, s.vel i = .nan) ∧ ∀ i, s.pos i = .nan

end Nan
end Drift
