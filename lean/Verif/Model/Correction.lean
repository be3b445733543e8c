import Verif.Model.Inekf
import Verif.Model.Measurement
import Verif.Model.ImuPropagation

/-!
# Model of `src/filter/inekf/correction/velocity_correction.cpp` and `legged_kinematics_correction.cpp`

Queues are lists (front = head).  A call is one atomic step: the queue mutex is released between two pops,
but a measurement pushed meanwhile goes to the back of the queue, so the call behaves as if it had been
pushed before the call (if some later pop still happens) or after it; this is proved in Props/Threads (C123),
where the calls are cut into their critical sections (Model/Threads).  The log file of the velocity
correction is modelled in Model/VelLog (C137).
`none` is undefined behaviour.
-/
namespace Drift
open Mat Matrix RobotState

/-- include/drift/measurement/velocity.h `VelocityMeasurement<double>` with its time stamp -/
structure VelMeas where
  time : ℝ
  vel : V3

/-- What `LeggedKinematicsCorrection` reads of one leg of a kinematic measurement after
`ComputeKinematics`: include/drift/measurement/legged_kinematics.h `get_contact`, `get_kin_pos`, `get_J` -/
structure LegObs where
  contact : Bool
  pos : V3
  J : M3

/-- `LeggedKinematicsMeasurement` as seen by the correction: stamp, the legs (`get_num_legs` of them) and
the virtual function `get_init_velocity`. -/
structure LegMeas where
  time : ℝ
  legs : List LegObs
  initVel : V3 → V3

/-- velocity_correction.cpp:97-112 and legged_kinematics_correction.cpp:68-83: `cur` has been popped;
while it is older than the threshold pop the next one; `none` when the queue runs empty. -/
noncomputable def popFresh {α : Type} (time : α → ℝ) (thres tp : ℝ) : α → List α → Option (α × List α)
  | cur, [] => if time cur - tp < -thres then none else some (cur, [])
  | cur, m :: rest => if time cur - tp < -thres then popFresh time thres tp m rest else some (cur, m :: rest)

/-- include/drift/filter/inekf/correction/velocity_correction.h:110-122: the members -/
structure VelCorr where
  errorType : ErrorType
  buffer : List VelMeas
  cov : M3
  tDiffThres : ℝ
  R_vel2body : M3
  scale : ℝ

/-- the YAML file of the velocity correction -/
structure VelConfig where
  velocity_std : Option ℝ := none
  correction_time_threshold : Option ℝ := none
  rotation_vel2body : Option (List ℝ) := none
  velocity_scale : Option ℝ := none

namespace VelCorr

/-- velocity_correction.cpp:21-64: constructor -/
noncomputable def ctor (buffer : List VelMeas) (et : ErrorType) (c : VelConfig) : Option VelCorr := do
  let std := c.velocity_std.getD 0.1
  let q ← quat? (c.rotation_vel2body.getD [1, 0, 0, 0])
  some
    { errorType := et
      buffer := buffer
      cov := (std * std) • (1 : M3)
      tDiffThres := c.correction_time_threshold.getD 0.3
      R_vel2body := q.toRot
      scale := c.velocity_scale.getD 1.0 }

/-- velocity_correction.cpp:114-138: the update with one measurement -/
noncomputable def apply (c : VelCorr) (m : VelMeas) (s : RobotState) : Option RobotState := do
  let s := { s with t := some m.time }
  let H ← (zero 3 s.dimP).setBlock? 0 3 (of3 1)
  let Rw ← s.get_world_rotation
  let N := of3 (Rw * c.cov * Rwᵀ)
  let R ← s.get_rotation
  let v ← s.get_velocity
  let Z := ofV ((c.scale • (R * c.R_vel2body)).mulVec m.vel - v)
  correctRightInvariant Z H N s c.errorType

/-- velocity_correction.cpp:74-146 `Correct` -/
noncomputable def correct (c : VelCorr) (s : RobotState) : Option (Bool × VelCorr × RobotState) :=
  match c.buffer with
  | [] => some (false, c, s)
  | front :: rest => do
    let tp ← s.tProp
    if front.time - tp ≥ 0 then some (false, c, s)
    else match popFresh VelMeas.time c.tDiffThres tp front rest with
      | none => some (false, { c with buffer := [] }, s)
      | some (m, rest') => do
        let s' ← c.apply m s
        some (true, { c with buffer := rest' }, s')

/-- velocity_correction.cpp:148-172 `initialize`: the newest measurement is used, the queue is drained -/
def setInitial (c : VelCorr) (s : RobotState) : Option (Bool × VelCorr × RobotState) :=
  match c.buffer.getLast? with
  | none => some (false, c, s)
  | some m => do
    let R ← s.get_rotation
    let s ← s.set_velocity (R.mulVec m.vel)
    some (true, { c with buffer := [] }, { s with t := some m.time })

/-- velocity_correction.cpp:174-180 `clear` -/
def clear (c : VelCorr) : VelCorr := { c with buffer := [] }

end VelCorr

/-- include/drift/filter/inekf/correction/legged_kinematics_correction.h:122-144: the members.
`ids` is `aug_id_to_column_id_ptr_`: leg id ↦ address of the shared column number. -/
structure LegCorr where
  errorType : ErrorType
  buffer : List LegMeas
  encStd : ℝ
  kinStd : ℝ
  contactNoise : M3
  tDiffThres : ℝ
  ids : ℕ → Option ℕ

/-- the YAML file of the legged correction -/
structure LegConfig where
  encoder_std : Option ℝ := none
  kinematics_additive_std : Option ℝ := none
  contact_noise_std : Option ℝ := none
  correction_time_threshold : Option ℝ := none

/-- legged_kinematics_correction.cpp:53-60: what the loop over the legs accumulates -/
structure LegAcc where
  H : Mat
  N : Mat
  Z : Mat
  rem : List ℕ
  new : List (ℕ × V3 × M3)

namespace LegCorr

/-- legged_kinematics_correction.cpp:10-41: constructor -/
noncomputable def ctor (buffer : List LegMeas) (et : ErrorType) (c : LegConfig) : LegCorr :=
  let cn := c.contact_noise_std.getD 0.1
  { errorType := et
    buffer := buffer
    encStd := c.encoder_std.getD 0.01
    kinStd := c.kinematics_additive_std.getD 0.05
    contactNoise := (cn * cn) • (1 : M3)
    tDiffThres := c.correction_time_threshold.getD 0.3
    ids := fun _ => none }

/-- legged_kinematics_correction.cpp:103-106: covariance of the foot position -/
def footCov (c : LegCorr) (o : LegObs) : M3 :=
  (c.encStd * c.encStd) • (o.J * o.Jᵀ) + (c.kinStd * c.kinStd) • (1 : M3)

/-- `A.conservativeResize(r, k)`; the new entries are overwritten by the code right away, so they are
taken to be zero -/
def grow (A : Mat) (r k : ℕ) : Mat := ofFn r k fun i j => if i < A.rows ∧ j < A.cols then A.e i j else 0

/-- legged_kinematics_correction.cpp:124-164: the three observation rows of a leg in contact whose column
number is `col` -/
def stackLeg (c : LegCorr) (s : RobotState) (o : LegObs) (col : ℤ) (acc : LegAcc) : Option LegAcc := do
  if 3 * col - s.dimTheta < 0 then none else
  let r := acc.H.rows
  let H := grow acc.H (r + 3) s.dimP
  let sg : ℝ := match s.stateType with
    | .worldCentric => -1
    | .bodyCentric => 1
  let H ← H.setBlock? r 6 (of3 (sg • (1 : M3)))
  let H ← H.setBlock? r (3 * col - s.dimTheta).toNat (of3 ((-sg) • (1 : M3)))
  let n := acc.N.rows
  let Rw ← s.get_world_rotation
  let N ← (grow acc.N (n + 3) (n + 3)).setBlock? n n (of3 (Rw * c.footCov o * Rwᵀ))
  let z := acc.Z.rows
  let R ← s.get_rotation
  let p ← s.get_position
  let d ← s.get_vector col
  let zi := match s.stateType with
    | .worldCentric => R.mulVec o.pos - (d - p)
    | .bodyCentric => Rᵀ.mulVec (o.pos - (p - d))
  let Z ← (grow acc.Z (z + 3) 1).setBlock? z 0 (ofV zi)
  some { acc with H := H, N := N, Z := Z }

/-- legged_kinematics_correction.cpp:100-170: one iteration of the loop over the legs -/
def legStep (c : LegCorr) (h : Heap) (s : RobotState) (m : LegMeas) (id : ℕ) (acc : LegAcc) : Option LegAcc := do
  let o ← m.legs[id]?
  match o.contact, c.ids id with
  | false, some _ => some { acc with rem := acc.rem ++ [id] }
  | true, none => some { acc with new := acc.new ++ [(id, o.pos, c.footCov o)] }
  | true, some a => c.stackLeg s o (h.val a) acc
  | false, none => some acc

/-- the accumulators before the loop: empty matrices (`VectorXd Z` has one column) -/
def acc0 : LegAcc := ⟨zero 0 0, zero 0 0, zero 0 1, [], []⟩

/-- legged_kinematics_correction.cpp:182-185: remove the contacts that ended -/
def removeLoop : List ℕ → (ℕ → Option ℕ) → Heap → RobotState → Option ((ℕ → Option ℕ) × Heap × RobotState)
  | [], ids, h, s => some (ids, h, s)
  | id :: rest, ids, h, s => do
    let a ← ids id
    let (h, s) ← s.del_aug_state h (h.val a)
    removeLoop rest (fun j => if j = id then none else ids j) h s

/-- legged_kinematics_correction.cpp:192-236: mean and covariance of one new contact.  `P` is `P_aug`. -/
noncomputable def augment (c : LegCorr) (s : RobotState) (pose : V3) (cov : M3) (P : Mat) : Option (V3 × Mat) := do
  if s.dimP < s.dimTheta then none else
  let p ← s.get_position
  let R ← s.get_rotation
  let aug := match s.stateType with
    | .worldCentric => p + R.mulVec pose
    | .bodyCentric => p - pose
  let b := s.dimP - s.dimTheta
  let F := zero (s.dimP + 3) s.dimP
  let F ← F.setBlock? 0 0 (one b)
  let F ← F.setBlock? (b + 3) b (one s.dimTheta)
  let G := zero F.rows 3
  let (F, G) ← (if (s.stateType = .worldCentric ∧ c.errorType = .rightInvariant)
      ∨ (s.stateType = .bodyCentric ∧ c.errorType = .leftInvariant) then do
      let F ← F.setBlock? b 6 (of3 1)
      let Rw ← s.get_world_rotation
      let G ← G.setBlock? (F.rows - s.dimTheta - 3) 0 (of3 Rw)
      some (F, G)
    else do
      let F ← F.setBlock? b 6 (of3 1)
      let F ← F.setBlock? b 0 (of3 (skew (-pose)))
      let G ← G.setBlock? (F.rows - s.dimTheta - 3) 0 (of3 1)
      some (F, G))
  let A ← F.mul? P
  let A ← A.mul? F.T
  let B ← G.mul? (of3 cov)
  let B ← B.mul? G.T
  let P ← A.add? B
  some (aug, P)

/-- legged_kinematics_correction.cpp:188-249: augment the state with the new contacts -/
noncomputable def addLoop (c : LegCorr) : List (ℕ × V3 × M3) → Mat → (ℕ → Option ℕ) → Heap → RobotState →
    Option ((ℕ → Option ℕ) × Heap × RobotState)
  | [], _, ids, h, s => some (ids, h, s)
  | (id, pose, cov) :: rest, P, ids, h, s => do
    let (aug, P) ← c.augment s pose cov P
    let (a, h) := h.alloc s.dimX
    let (k, s) ← s.add_aug_state aug P c.contactNoise (some a)
    addLoop c rest P (fun j => if j = id then some a else ids j) (h.write a k) s

/-- legged_kinematics_correction.cpp:95-251: processing of one measurement -/
noncomputable def apply (c : LegCorr) (m : LegMeas) (h : Heap) (s : RobotState) :
    Option ((ℕ → Option ℕ) × Heap × RobotState) := do
  let s := { s with t := some m.time }
  let acc ← forRange m.legs.length acc0 (c.legStep h s m)
  let s ← (if acc.Z.rows > 0 then
      match s.stateType with
      | .worldCentric => correctRightInvariant acc.Z acc.H acc.N s c.errorType
      | .bodyCentric => correctLeftInvariant acc.Z acc.H acc.N s c.errorType
    else some s)
  let (ids, h, s) ← removeLoop acc.rem c.ids h s
  addLoop c acc.new s.P ids h s

/-- legged_kinematics_correction.cpp:49-255 `Correct`.  A measurement that is too new is only reported on
`cerr`, then processed. -/
noncomputable def correct (c : LegCorr) (h : Heap) (s : RobotState) : Option (Bool × LegCorr × Heap × RobotState) :=
  match c.buffer with
  | [] => some (false, c, h, s)
  | front :: rest => do
    let tp ← s.tProp
    match popFresh LegMeas.time c.tDiffThres tp front rest with
    | none => some (false, { c with buffer := [] }, h, s)
    | some (m, rest') => do
      let (ids, h, s) ← c.apply m h s
      some (true, { c with buffer := rest', ids := ids }, h, s)

/-- legged_kinematics_correction.cpp:257-284 `initialize` -/
def setInitial (c : LegCorr) (s : RobotState) : Option (Bool × LegCorr × RobotState) :=
  match c.buffer.getLast? with
  | none => some (false, c, s)
  | some m => do
    let w ← s.bodyAngVel
    let R ← s.get_rotation
    let s ← s.set_velocity (R.mulVec (m.initVel w))
    some (true, { c with buffer := [] }, { s with t := some m.time })

/-- legged_kinematics_correction.cpp:286-294 `clear` -/
def clear (c : LegCorr) : LegCorr := { c with buffer := [], ids := fun _ => none }

end LegCorr
end Drift
