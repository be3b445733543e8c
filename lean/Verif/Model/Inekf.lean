import Verif.Model.LieGroup
import Verif.Model.RobotState

/-!
# Model of `src/filter/inekf/inekf.cpp`

`CorrectRightInvariant` and `CorrectLeftInvariant`.  Every size mismatch, out-of-range block and the
inverse of a singular matrix are `none`.
-/
namespace Drift
open Mat

/-- include/drift/filter/inekf/inekf.h: `enum ErrorType {LeftInvariant, RightInvariant}` -/
inductive ErrorType | leftInvariant | rightInvariant
deriving DecidableEq

/-- `A.block(r,c,nr,nc) = B`: the sizes of `B` must be `nr x nc` -/
def Mat.assign? (A : Mat) (r c nr nc : ℕ) (B : Mat) : Option Mat :=
  if B.rows = nr ∧ B.cols = nc then A.setBlock? r c B else none

/-- inekf.cpp:39-47 and 114-122 "Remove bias": the 6x6 bias block becomes `1e-4 I`, the cross blocks
zero.  (`dimP - dimTheta` negative is out of range.) -/
def removeBias (P : Mat) (dimP dimTheta : ℕ) : Option Mat :=
  if dimP < dimTheta then none
  else do
    let b := dimP - dimTheta
    let P ← P.setBlock? b b ((0.0001 : ℝ) • one 6)
    let P ← P.setBlock? 0 b (zero b dimTheta)
    P.setBlock? b 0 (zero dimTheta b)

/-- inekf.cpp:50-55, 85-90, 125-130, 156-161: `Adj = I` with `Adjoint_SEK3(X)` in the leading block;
`Adj * P * Adj^T` -/
noncomputable def mapCov (X P : Mat) (dimP dimTheta : ℕ) : Option Mat :=
  if dimP < dimTheta then none
  else do
    let A ← adjoint_SEK3 X
    let Adj ← (one dimP).assign? 0 0 (dimP - dimTheta) (dimP - dimTheta) A
    let AP ← Adj.mul? P
    AP.mul? Adj.T

/-- inekf.cpp:58-60, 133-135: the Kalman gain -/
noncomputable def kalmanGain (P H N : Mat) : Option Mat := do
  let PHT ← P.mul? H.T
  let HPHT ← H.mul? PHT
  let S ← HPHT.add? N
  let Si ← S.inv?
  PHT.mul? Si

/-- inekf.cpp:76-78, 151-153: Joseph form -/
noncomputable def josephUpdate (P H N K : Mat) (dimP : ℕ) : Option Mat := do
  let KH ← K.mul? H
  let IKH ← (one dimP).sub? KH
  let A ← IKH.mul? P
  let A ← A.mul? IKH.T
  let B ← K.mul? N
  let B ← B.mul? K.T
  A.add? B

/-- inekf.cpp:81-84: row and column `i` zero, diagonal entry `0.0001 * 1` -/
noncomputable def resetYaw (P : Mat) (i : ℕ) : Option Mat := do
  let P ← P.setBlock? i 0 (zero 1 P.cols)
  let P ← P.setBlock? 0 i (zero P.rows 1)
  P.set? i i (0.0001 * 1)

/-- inekf.cpp:63-66, 138-141: `delta = K*Z` split into the group increment `Exp_SEK3(head)` and the
parameter increment -/
noncomputable def increments (K Z : Mat) (dimTheta : ℕ) : Option (Mat × Mat) := do
  let delta ← K.mul? Z
  -- assigning to a VectorXd needs one column
  if delta.cols ≠ 1 ∨ delta.rows < dimTheta then none else
  let head ← delta.block? 0 0 (delta.rows - dimTheta) 1
  let dX ← exp_SEK3 head
  let dTheta ← delta.block? (delta.rows - dimTheta) 0 dimTheta 1
  some (dX, dTheta)

/-- inekf.cpp:27-94 `CorrectRightInvariant` -/
noncomputable def correctRightInvariant (Z H N : Mat) (s : RobotState) (et : ErrorType) :
    Option RobotState := do
  let dimTheta := s.dimTheta
  let dimP := s.dimP
  let P ← (if s.enableBias then some s.P else removeBias s.P dimP dimTheta)
  let P ← (if et = .leftInvariant then mapCov s.X P dimP dimTheta else some P)
  let K ← kalmanGain P H N
  let (dX, dTheta) ← increments K Z dimTheta
  let X_new ← dX.mul? s.X
  let dTheta ← dTheta.set? 2 0 0
  let Theta_new ← s.Theta.add? dTheta
  let s := { s with X := X_new, Theta := Theta_new }
  let P_new ← josephUpdate P H N K dimP
  let P_new ← resetYaw P_new (dimP - dimTheta + 2)
  let P_new ← (if et = .leftInvariant then
      s.get_Xinv.bind fun Xinv => mapCov Xinv P_new dimP dimTheta
    else some P_new)
  some { s with P := P_new }

/-- inekf.cpp:98-165 `CorrectLeftInvariant` -/
noncomputable def correctLeftInvariant (Z H N : Mat) (s : RobotState) (et : ErrorType) :
    Option RobotState := do
  let dimTheta := s.dimTheta
  let dimP := s.dimP
  let P ← (if s.enableBias then some s.P else removeBias s.P dimP dimTheta)
  let P ← (if et = .leftInvariant then
      s.get_Xinv.bind fun Xinv => mapCov Xinv P dimP dimTheta
    else some P)
  let K ← kalmanGain P H N
  let (dX, dTheta) ← increments K Z dimTheta
  let X_new ← s.X.mul? dX
  let Theta_new ← s.Theta.add? dTheta
  let s := { s with X := X_new, Theta := Theta_new }
  let P_new ← josephUpdate P H N K dimP
  let P_new ← (if et = .rightInvariant then mapCov X_new P_new dimP dimTheta else some P_new)
  some { s with P := P_new }

end Drift
