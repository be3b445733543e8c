import Verif.Basic.Fixed

/-!
# Model of `src/state/robot_state.cpp` and `src/math/se_k_3.cpp`

`none` is undefined behaviour (Eigen out of range / size mismatch, null dereference, vector index out
of range).  `std::shared_ptr<int>` is an address into a heap of `int`s; the null pointer is `none`.
Members that the constructors leave uninitialised (`t_`, `t_prop_`, `body_ang_vel_`) are `Option`s,
`none` while uninitialised.
-/
namespace Drift
open Mat Matrix

/-- The heap cells behind the `shared_ptr<int>`s: address ↦ value.  `next` is the first address
never allocated (reference counting frees cells silently; freed cells are never read again). -/
structure Heap where
  val : ℕ → ℤ
  next : ℕ

/-- `std::make_shared<int>(x)` / `std::shared_ptr<int>(new int(x))` -/
def Heap.alloc (h : Heap) (x : ℤ) : ℕ × Heap :=
  (h.next, { val := fun a => if a = h.next then x else h.val a, next := h.next + 1 })

/-- `*p = x` -/
def Heap.write (h : Heap) (a : ℕ) (x : ℤ) : Heap :=
  { h with val := fun b => if b = a then x else h.val b }

/-- include/drift/state/robot_state.h: `enum class StateType` -/
inductive StateType | worldCentric | bodyCentric
deriving DecidableEq

/-- include/drift/state/robot_state.h:629-646: the private members.  `stateType` has no setter and is
`WorldCentric` in every constructed object. -/
structure RobotState where
  stateType : StateType
  X : Mat
  Theta : Mat
  P : Mat
  colMap : List (Option ℕ)
  t : Option ℝ
  tProp : Option ℝ
  Qc : Mat
  bodyAngVel : Option V3
  enableBias : Bool
  slip : ℤ

namespace RobotState

/-- robot_state.cpp:190-193 -/
def dimX (s : RobotState) : ℕ := s.X.cols
/-- robot_state.cpp:191 -/
def dimTheta (s : RobotState) : ℕ := s.Theta.rows
/-- robot_state.cpp:192 -/
def dimP (s : RobotState) : ℕ := s.P.cols
/-- robot_state.cpp:193 -/
def dimQc (s : RobotState) : ℕ := s.Qc.cols

/-- robot_state.cpp:20-25: default constructor -/
def init : RobotState where
  stateType := .worldCentric
  X := one 5
  Theta := zero 6 1
  P := one 15
  colMap := List.replicate 5 none
  t := none
  tProp := none
  Qc := zero 15 15
  bodyAngVel := none
  enableBias := false
  slip := 0

/-- robot_state.cpp:38-45 (and, with `Theta = 0_{6x1}`, 28-35): constructor from `X` and `Theta`.
`3*dimX + dimTheta - 6` is an `int`; a negative size is `none`. -/
def ofXTheta (X Theta : Mat) : Option RobotState :=
  let n : ℤ := 3 * X.cols + Theta.rows - 6
  if n < 0 then none
  else some
    { init with
      X := X
      Theta := Theta
      P := one n.toNat
      Qc := zero n.toNat n.toNat
      colMap := List.replicate X.cols none }

/-- robot_state.cpp:28-35 -/
def ofX (X : Mat) : Option RobotState := ofXTheta X (zero 6 1)

/-- robot_state.cpp:48-54 -/
def ofXThetaP (X Theta P : Mat) : RobotState :=
  { init with
    X := X
    Theta := Theta
    P := P
    Qc := zero P.cols P.cols
    colMap := List.replicate X.cols none }

/-- robot_state.cpp:93-95 -/
def get_rotation (s : RobotState) : Option M3 := s.X.blk3? 0 0
/-- robot_state.cpp:96-98 -/
def get_velocity (s : RobotState) : Option V3 := s.X.blkV? 0 3
/-- robot_state.cpp:99-101 -/
def get_position (s : RobotState) : Option V3 := s.X.blkV? 0 4
/-- robot_state.cpp:102-104 (and 186-188 `get_aug_state`) -/
def get_vector (s : RobotState) (i : ℤ) : Option V3 :=
  if i < 0 then none else s.X.blkV? 0 i.toNat
/-- robot_state.cpp:106-108 -/
def get_gyroscope_bias (s : RobotState) : Option V3 := s.Theta.blkV? 0 0
/-- robot_state.cpp:109-111 -/
def get_accelerometer_bias (s : RobotState) : Option V3 := s.Theta.blkV? 3 0
/-- robot_state.cpp:113-115 -/
def get_rotation_covariance (s : RobotState) : Option M3 := s.P.blk3? 0 0
/-- robot_state.cpp:116-118 -/
def get_velocity_covariance (s : RobotState) : Option M3 := s.P.blk3? 3 3
/-- robot_state.cpp:119-121 -/
def get_position_covariance (s : RobotState) : Option M3 := s.P.blk3? 6 6
/-- robot_state.cpp:122-124 -/
def get_gyroscope_bias_covariance (s : RobotState) : Option M3 := s.P.blk3? 9 9
/-- robot_state.cpp:125-127 -/
def get_accelerometer_bias_covariance (s : RobotState) : Option M3 := s.P.blk3? 12 12

/-- `M.conservativeResizeLike(Identity(n,n))` (robot_state.cpp:142) -/
def resizeLikeIdentity (A : Mat) (n : ℕ) : Mat :=
  ofFn n n fun i j => if i < A.rows ∧ j < A.cols then A.e i j else if i = j then 1 else 0

/-- `M.conservativeResizeLike(Zero(n,n))` (robot_state.cpp:327) -/
def resizeLikeZero (A : Mat) (n : ℕ) : Mat :=
  ofFn n n fun i j => if i < A.rows ∧ j < A.cols then A.e i j else 0

/-- `M.conservativeResize(r,c)`: new coefficients are uninitialised; `garbage` stands for whatever
they contain. -/
def resize (garbage : ℕ → ℕ → ℝ) (A : Mat) (r c : ℕ) : Mat :=
  ofFn r c fun i j => if i < A.rows ∧ j < A.cols then A.e i j else garbage i j

/-- robot_state.cpp:147-160: the enlarged continuous noise covariance.  `dimX1` is `this->dimX()`
*after* the resize at line 142 (the number of columns of `X_`, not the size of the covariance). -/
def augQc (Qc : Mat) (dimTheta dimX1 : ℕ) (noise : M3) : Option Mat := do
  let dimQc := Qc.cols
  let A := zero (dimQc + 3) (dimQc + 3)
  let tl ← Qc.block? 0 0 dimX1 dimX1
  let A ← A.setBlock? 0 0 tl
  -- corners of a matrix with r rows start at r - n; out of range if n > r
  if Qc.rows < dimTheta ∨ Qc.cols < dimTheta then none else do
  let bl ← Qc.block? (Qc.rows - dimTheta) 0 dimTheta dimX1
  let A ← A.setBlock? (A.rows - dimTheta) 0 bl
  let tr ← Qc.block? 0 (Qc.cols - dimTheta) dimX1 dimTheta
  let A ← A.setBlock? 0 (A.cols - dimTheta) tr
  let br ← Qc.block? (Qc.rows - dimTheta) (Qc.cols - dimTheta) dimTheta dimTheta
  let A ← A.setBlock? (A.rows - dimTheta) (A.cols - dimTheta) br
  A.setBlock? (dimQc - dimTheta) (dimQc - dimTheta) (of3 noise)

/-- robot_state.cpp:137-164 `add_aug_state`; returns the new column index and the new state. -/
def add_aug_state (s : RobotState) (aug : V3) (P_aug : Mat) (noise : M3) (ptr : Option ℕ) :
    Option (ℤ × RobotState) := do
  let d := s.dimX
  let X := resizeLikeIdentity s.X (d + 1)
  let X ← X.setBlock? 0 d (ofV aug)
  let Qc ← augQc s.Qc s.dimTheta (d + 1) noise
  some ((d : ℤ), { s with X := X, P := P_aug, Qc := Qc, colMap := s.colMap ++ [ptr] })

/-- robot_state.cpp:166-168 -/
def set_aug_state (s : RobotState) (i : ℤ) (aug : V3) : Option RobotState :=
  if i < 0 then none else (s.X.setBlock? 0 i.toNat (ofV aug)).map fun X => { s with X := X }

/-- robot_state.cpp:398-406 `RemoveRowAndColumn`.  The sizes are computed in unsigned arithmetic, so
`index + move_dim > cols` wraps around and is out of range. -/
def removeRowAndColumn (M : Mat) (index : ℤ) (k : ℕ) : Option Mat :=
  let d := M.cols
  if index < 0 ∨ (d : ℤ) < index + k then none
  else do
    let i := index.toNat
    let n := d - i - k
    -- M.bottomRows(n)
    if M.rows < n then none else
    let low ← M.block? (M.rows - n) 0 n d
    let M ← M.setBlock? i 0 low
    let right ← M.block? 0 (d - n) M.rows n
    -- M.block(0,index,dimX,n) has dimX rows and must match M.rightCols(n)
    if M.rows ≠ d then none else
    let M ← M.setBlock? 0 i right
    some (M.blockP 0 0 (d - k) (d - k))

/-- robot_state.cpp:176-179: the loop of `del_aug_state` shifting the column table and decrementing
the stored column numbers. -/
def shiftCols (h : Heap) (m : List (Option ℕ)) (idx : ℕ) (n : ℕ) :
    Option (Heap × List (Option ℕ)) :=
  forRange n (h, m) fun k s => do
    let i := idx + k
    let q ← s.2[i + 1]?
    -- writing m[i] needs i to be a valid index as well; i < i+1 is
    let m' := s.2.set i q
    let a ← q
    some (s.1.write a (s.1.val a - 1), m')

/-- robot_state.cpp:174-184 `del_aug_state` -/
def del_aug_state (h : Heap) (s : RobotState) (idx : ℤ) : Option (Heap × RobotState) :=
  if idx < 0 then none
  else do
    let d := s.dimX
    let (h', m) ← shiftCols h s.colMap idx.toNat (d - 1 - idx.toNat)
    -- pop_back of an empty vector is undefined
    if m = [] then none else
    let X ← removeRowAndColumn s.X idx 1
    let P ← removeRowAndColumn s.P (3 + 3 * (idx - 3)) 3
    let Qc ← removeRowAndColumn s.Qc (3 + 3 * (idx - 3)) 3
    some (h', { s with X := X, P := P, Qc := Qc, colMap := m.dropLast })

/-- robot_state.cpp:377-386 `get_Xinv` -/
def get_Xinv (s : RobotState) : Option Mat := do
  let d := s.dimX
  let R ← s.X.blk3? 0 0
  let RT := Rᵀ
  let Xinv ← (one d).setBlock? 0 0 (of3 RT)
  forRange (d - 3) Xinv fun k Xinv => do
    let i := 3 + k
    let c ← s.X.blkV? 0 i
    Xinv.setBlock? 0 i (ofV ((-RT).mulVec c))

/-- robot_state.cpp:197-203 -/
def get_world_X (s : RobotState) : Option Mat :=
  match s.stateType with
  | .worldCentric => some s.X
  | .bodyCentric => s.get_Xinv
/-- robot_state.cpp:205-211 -/
def get_world_rotation (s : RobotState) : Option M3 :=
  match s.stateType with
  | .worldCentric => s.get_rotation
  | .bodyCentric => s.get_rotation.map fun R => Rᵀ
/-- robot_state.cpp:213-219 -/
def get_world_velocity (s : RobotState) : Option V3 :=
  match s.stateType with
  | .worldCentric => s.get_velocity
  | .bodyCentric => do return (-(← s.get_rotation)ᵀ).mulVec (← s.get_velocity)
/-- robot_state.cpp:221-227 -/
def get_world_position (s : RobotState) : Option V3 :=
  match s.stateType with
  | .worldCentric => s.get_position
  | .bodyCentric => do return (-(← s.get_rotation)ᵀ).mulVec (← s.get_position)
/-- robot_state.cpp:229-235 -/
def get_body_X (s : RobotState) : Option Mat :=
  match s.stateType with
  | .bodyCentric => some s.X
  | .worldCentric => s.get_Xinv
/-- robot_state.cpp:237-243 -/
def get_body_rotation (s : RobotState) : Option M3 :=
  match s.stateType with
  | .bodyCentric => s.get_rotation
  | .worldCentric => s.get_rotation.map fun R => Rᵀ
/-- robot_state.cpp:245-251 -/
def get_body_velocity (s : RobotState) : Option V3 :=
  match s.stateType with
  | .bodyCentric => s.get_velocity
  | .worldCentric => do return ((← s.get_rotation)ᵀ).mulVec (← s.get_velocity)
/-- robot_state.cpp:253-259 -/
def get_body_position (s : RobotState) : Option V3 :=
  match s.stateType with
  | .bodyCentric => s.get_position
  | .worldCentric => do return ((← s.get_rotation)ᵀ).mulVec (← s.get_position)

/-- robot_state.cpp:269-271 -/
def set_rotation (s : RobotState) (R : M3) : Option RobotState :=
  (s.X.setBlock? 0 0 (of3 R)).map fun X => { s with X := X }
/-- robot_state.cpp:272-274 -/
def set_velocity (s : RobotState) (v : V3) : Option RobotState :=
  (s.X.setBlock? 0 3 (ofV v)).map fun X => { s with X := X }
/-- robot_state.cpp:275-277 -/
def set_position (s : RobotState) (p : V3) : Option RobotState :=
  (s.X.setBlock? 0 4 (ofV p)).map fun X => { s with X := X }
/-- robot_state.cpp:279-281 -/
def set_gyroscope_bias (s : RobotState) (b : V3) : Option RobotState :=
  (s.Theta.setBlock? 0 0 (ofV b)).map fun T => { s with Theta := T }
/-- robot_state.cpp:282-284 -/
def set_accelerometer_bias (s : RobotState) (b : V3) : Option RobotState :=
  (s.Theta.setBlock? 3 0 (ofV b)).map fun T => { s with Theta := T }
/-- robot_state.cpp:315-317 -/
def set_gyroscope_bias_covariance (s : RobotState) (c : M3) : Option RobotState :=
  (s.P.setBlock? 9 9 (of3 c)).map fun P => { s with P := P }
/-- robot_state.cpp:318-320 -/
def set_accelerometer_bias_covariance (s : RobotState) (c : M3) : Option RobotState :=
  (s.P.setBlock? 12 12 (of3 c)).map fun P => { s with P := P }

/-- robot_state.cpp:287-291 `add_aug_bias` -/
def add_aug_bias (garbage : ℕ → ℕ → ℝ) (s : RobotState) (b : V3) : Option RobotState :=
  let n := s.Theta.rows
  ((resize garbage s.Theta (n + 3) 1).setBlock? n 0 (ofV b)).map fun T => { s with Theta := T }

/-- robot_state.cpp:294-299 `del_aug_bias` -/
def del_aug_bias (s : RobotState) (idx : ℤ) : Option RobotState :=
  let start : ℤ := idx - 5 + 6
  let len : ℤ := s.Theta.rows - start - 3
  if start < 0 ∨ len < 0 then none
  else do
    let src ← s.Theta.block? (start + 3).toNat 0 len.toNat 1
    let T ← s.Theta.setBlock? start.toNat 0 src
    some { s with Theta := T.blockP 0 0 (T.rows - 3) 1 }

/-- robot_state.cpp:302-304 `get_aug_bias`: the index is ignored -/
def get_aug_bias (s : RobotState) (_idx : ℤ) : Option V3 :=
  if s.Theta.rows < 3 then none else s.Theta.blkV? (s.Theta.rows - 3) 0

/-- robot_state.cpp:325-329 `add_aug_cov` -/
def add_aug_cov (s : RobotState) (c : M3) : Option RobotState :=
  let d := s.dimP
  ((resizeLikeZero s.P (d + 3)).setBlock? d d (of3 c)).map fun P => { s with P := P }

/-- robot_state.cpp:331-335 `del_aug_cov` -/
def del_aug_cov (s : RobotState) (idx : ℤ) : Option RobotState :=
  (removeRowAndColumn s.P (3 + 3 * (idx - 3)) 3).map fun P => { s with P := P }

/-- robot_state.cpp:343-346 `get_aug_cov` -/
def get_aug_cov (s : RobotState) (idx : ℤ) : Option M3 :=
  if 3 + 3 * (idx - 3) < 0 then none
  else s.P.blk3? (3 + 3 * (idx - 3)).toNat (3 + 3 * (idx - 3)).toNat

/-- robot_state.cpp:350-358 (and 365-373): append `n` diagonal copies of `X` to `B`.
`garbage` is the content of the coefficients that `conservativeResize` leaves uninitialised. -/
def copyDiag (garbage : ℕ → ℕ → ℝ) (X : Mat) (dimX n : ℕ) (B : Mat) : Option Mat :=
  forRange n B fun _ B => do
    let st := B.rows
    let B := resize garbage B (st + dimX) (st + dimX)
    let B ← B.setBlock? st 0 (zero dimX st)
    let B ← B.setBlock? 0 st (zero st dimX)
    -- assigning a matrix of another size to a fixed block is an error
    if X.rows = dimX ∧ X.cols = dimX then B.setBlock? st st X else none

/-- robot_state.cpp:348-360 `copy_diag_X` -/
def copy_diag_X (garbage : ℕ → ℕ → ℝ) (s : RobotState) (n : ℕ) (B : Mat) : Option Mat :=
  copyDiag garbage s.X s.dimX n B

/-- robot_state.cpp:362-375 `copy_diag_Xinv` -/
def copy_diag_Xinv (garbage : ℕ → ℕ → ℝ) (s : RobotState) (n : ℕ) (B : Mat) : Option Mat := do
  let Xinv ← s.get_Xinv
  copyDiag garbage Xinv s.dimX n B

/-- robot_state.cpp:416-425 `clear`.  `t_`, `t_prop_`, the bias-update flag and the slip flag are not
touched. -/
def clear (s : RobotState) : RobotState :=
  { s with
    X := one 5
    Theta := zero 6 1
    P := one 15
    Qc := zero 15 15
    colMap := List.replicate 5 none
    bodyAngVel := some 0 }

end RobotState

/-! ### `SEK3` (src/math/se_k_3.cpp) -/

/-- include/drift/math/se_k_3.h:184-185 -/
structure SEK3 where
  K : ℤ
  X : Mat

namespace SEK3
/-- se_k_3.cpp:22 with the member initialisers of se_k_3.h:184-185 -/
def default : SEK3 := ⟨5, one 5⟩
/-- se_k_3.cpp:24 -/
def ofX (X : Mat) : SEK3 := { default with X := X }
/-- se_k_3.cpp:31-36 (for 3x3 `R` and 3-vectors `p`, `v`; other sizes are an Eigen error) -/
def ofRpv (R : M3) (p v : V3) : Option SEK3 := do
  let X ← default.X.setBlock? 0 0 (of3 R)
  let X ← X.setBlock? 0 3 (ofV p)
  let X ← X.setBlock? 0 4 (ofV v)
  some { default with X := X }
/-- se_k_3.cpp:40 -/
def get_R (s : SEK3) : Option M3 := s.X.blk3? 0 0
/-- se_k_3.cpp:41 -/
def get_p (s : SEK3) : Option V3 := s.X.blkV? 0 3
/-- se_k_3.cpp:42 -/
def get_v (s : SEK3) : Option V3 := s.X.blkV? 0 4
/-- se_k_3.cpp:54-61 `operator*` -/
noncomputable def mul (s t : SEK3) : Option SEK3 := (s.X.mul? t.X).map fun X => ⟨s.K, X⟩
/-- se_k_3.cpp:64-71 `inverse`: starts from a default (5x5) element -/
def inverse (s : SEK3) : Option SEK3 := do
  let R ← s.get_R
  let p ← s.get_p
  let v ← s.get_v
  let Y ← ofRpv Rᵀ ((-Rᵀ).mulVec p) ((-Rᵀ).mulVec v)
  some { Y with K := s.K }
end SEK3

/-- robot_state.cpp:57-64: constructor from an `SEK3` (`Theta_` has `3*(dimX-3)` rows) -/
def RobotState.ofSEK3 (s : SEK3) : Option RobotState :=
  if s.X.cols < 3 then none else RobotState.ofXTheta s.X (zero (3 * (s.X.cols - 3)) 1)

end Drift
