import Verif.Model.Correction

/-!
# Model of the log file of the velocity correction

`VelocityCorrection::Correct` (velocity_correction.cpp:74-146) writes a line to `vanila_est_vel_log.txt` for each measurement it
uses.  Same function as `VelCorr.correct` (Model/Correction), with the lines it writes.
-/
namespace Drift
open Mat Matrix RobotState

/-- one line: stamp and velocity.  `vel = none`: the matrix that is inverted is singular, the line holds infinities or NaNs. -/
structure VelRow where
  time : ℝ
  vel : Option V3

namespace VelCorr

/-- velocity_correction.cpp:139-144: the line for the measurement `m`.  `R` is the local variable of line 123: it is read before
the correction (`s`); the velocity is read after it (`s'`). -/
noncomputable def row (c : VelCorr) (m : VelMeas) (s s' : RobotState) : Option VelRow := do
  let R ← s.get_rotation
  let v ← s'.get_velocity
  let A := R * c.R_vel2body
  some ⟨m.time, if A.det = 0 then none else some (A⁻¹.mulVec v)⟩

/-- velocity_correction.cpp:74-146 `Correct`: result and lines written -/
noncomputable def correctLog (c : VelCorr) (s : RobotState) : Option ((Bool × VelCorr × RobotState) × List VelRow) :=
  match c.buffer with
  | [] => some ((false, c, s), [])
  | front :: rest => do
    let tp ← s.tProp
    if front.time - tp ≥ 0 then some ((false, c, s), [])
    else match popFresh VelMeas.time c.tDiffThres tp front rest with
      | none => some ((false, { c with buffer := [] }, s), [])
      | some (m, rest') => do
        let s' ← c.apply m s
        let l ← c.row m s s'
        some ((true, { c with buffer := rest' }, s'), [l])

end VelCorr
end Drift
