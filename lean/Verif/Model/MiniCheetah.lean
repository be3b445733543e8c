import Verif.Model.MiniCheetahGen
import Verif.Spec.Kinematics
import Verif.Model.LieGroup

/-!
# Model of `src/kinematics/mini_cheetah_kinematics.cpp` and `src/measurement/legged_kinematics.cpp`

The generated functions of `robots/mini_cheetah/*.cpp` are in `MiniCheetahGen`.  Vectors of dynamic size are lists; a vector
of the wrong size bound to a fixed-size parameter, or an index out of range, is `none`.
-/
namespace Drift
open Matrix

/-! The generated functions by leg (the names spell the leg out). -/
namespace Cheetah
/-- p_Body_to_*Foot.cpp -/
noncomputable def p : Leg → (Fin 12 → ℝ) → Matrix (Fin 3) (Fin 1) ℝ
  | .FR => p_FrontRight | .FL => p_FrontLeft | .HR => p_HindRight | .HL => p_HindLeft
/-- R_Body_to_*Foot.cpp -/
noncomputable def R : Leg → (Fin 12 → ℝ) → Matrix (Fin 3) (Fin 3) ℝ
  | .FR => R_FrontRight | .FL => R_FrontLeft | .HR => R_HindRight | .HL => R_HindLeft
/-- H_Body_to_*Foot.cpp -/
noncomputable def H : Leg → (Fin 12 → ℝ) → Matrix (Fin 4) (Fin 4) ℝ
  | .FR => H_FrontRight | .FL => H_FrontLeft | .HR => H_HindRight | .HL => H_HindLeft
/-- Jp_Body_to_*Foot.cpp -/
noncomputable def Jp : Leg → (Fin 12 → ℝ) → Matrix (Fin 3) (Fin 12) ℝ
  | .FR => Jp_FrontRight | .FL => Jp_FrontLeft | .HR => Jp_HindRight | .HL => Jp_HindLeft
/-- Jb_Body_to_*Foot.cpp -/
noncomputable def Jb : Leg → (Fin 12 → ℝ) → Matrix (Fin 6) (Fin 12) ℝ
  | .FR => Jb_FrontRight | .FL => Jb_FrontLeft | .HR => Jb_HindRight | .HL => Jb_HindLeft
/-- Js_Body_to_*Foot.cpp -/
noncomputable def Js : Leg → (Fin 12 → ℝ) → Matrix (Fin 6) (Fin 12) ℝ
  | .FR => Js_FrontRight | .FL => Js_FrontLeft | .HR => Js_HindRight | .HL => Js_HindLeft
/-- Jvb_Body_to_*Foot.cpp -/
noncomputable def Jvb : Leg → (Fin 12 → ℝ) → Matrix (Fin 3) (Fin 12) ℝ
  | .FR => Jvb_FrontRight | .FL => Jvb_FrontLeft | .HR => Jvb_HindRight | .HL => Jvb_HindLeft
/-- Jwb_Body_to_*Foot.cpp -/
noncomputable def Jwb : Leg → (Fin 12 → ℝ) → Matrix (Fin 3) (Fin 12) ℝ
  | .FR => Jwb_FrontRight | .FL => Jwb_FrontLeft | .HR => Jwb_HindRight | .HL => Jwb_HindLeft
/-- Jvs_Body_to_*Foot.cpp -/
noncomputable def Jvs : Leg → (Fin 12 → ℝ) → Matrix (Fin 3) (Fin 12) ℝ
  | .FR => Jvs_FrontRight | .FL => Jvs_FrontLeft | .HR => Jvs_HindRight | .HL => Jvs_HindLeft
/-- Jws_Body_to_*Foot.cpp -/
noncomputable def Jws : Leg → (Fin 12 → ℝ) → Matrix (Fin 3) (Fin 12) ℝ
  | .FR => Jws_FrontRight | .FL => Jws_FrontLeft | .HR => Jws_HindRight | .HL => Jws_HindLeft
end Cheetah

/-- `measurement::kinematics::MiniCheetahKinematics`, legged_kinematics.h:133-147; the time stamp is in the base class -/
structure CheetahMeas where
  /-- 3 x 4 -/
  positions : Matrix (Fin 3) (Fin 4) ℝ
  /-- 3 x 12 -/
  jacobians : Matrix (Fin 3) (Fin 12) ℝ
  contacts : List Bool
  encoders : List ℝ
  dEncoders : List ℝ

namespace CheetahMeas

/-- mini_cheetah_kinematics.cpp:24-29: the default constructor leaves `d_encoders_` empty -/
def default : CheetahMeas := ⟨0, 0, List.replicate 4 false, List.replicate 12 0, []⟩

/-- mini_cheetah_kinematics.cpp:31-38 -/
def mk3 (enc dEnc : List ℝ) (contacts : List Bool) : CheetahMeas := ⟨0, 0, contacts, enc, dEnc⟩

/-- legged_kinematics.cpp:26-29 -/
def set_contact (m : CheetahMeas) (c : List Bool) : CheetahMeas := { m with contacts := c }
/-- legged_kinematics.cpp:31-34 -/
def set_joint_state (m : CheetahMeas) (e : List ℝ) : CheetahMeas := { m with encoders := e }
/-- legged_kinematics.cpp:36-39 -/
def set_joint_state_velocity (m : CheetahMeas) (e : List ℝ) : CheetahMeas := { m with dEncoders := e }

/-- a dynamic vector bound to `const Eigen::Matrix<double, 12, 1>&` (or multiplied by a 3 x 12 matrix) -/
def fixed12 (l : List ℝ) : Option (Fin 12 → ℝ) :=
  if h : l.length = 12 then some fun i => l.get (i.cast h.symm) else none

/-- the leg with number `n` -/
def leg : Fin 4 → Leg
  | 0 => .FR | 1 => .FL | 2 => .HR | 3 => .HL

/-- mini_cheetah_kinematics.cpp:40-53 -/
noncomputable def ComputeKinematics (m : CheetahMeas) : Option CheetahMeas := do
  let q ← fixed12 m.encoders
  some { m with
    positions := fun i l => Cheetah.p (leg l) q i 0
    jacobians := fun i j => Cheetah.Jp (leg ⟨j.val / 3, by omega⟩) q i j }

/-- legged_kinematics.cpp:47-49 -/
def get_contact (m : CheetahMeas) (l : ℕ) : Option Bool := m.contacts[l]?

/-- legged_kinematics.cpp:55-58 -/
def get_kin_pos (m : CheetahMeas) (l : ℕ) : Option V3 :=
  if h : l < 4 then some fun i => m.positions i ⟨l, h⟩ else none

/-- `jacobians_.block(0, l * dim, 3, dim)`, legged_kinematics.cpp:44; out of range is `none` -/
def blockJ (J : Matrix (Fin 3) (Fin 12) ℝ) (l dim : ℕ) : Option (Σ n : ℕ, Matrix (Fin 3) (Fin n) ℝ) :=
  if h : l * dim + dim ≤ 12 then some ⟨dim, fun i j => J i ⟨l * dim + j.val, by have := j.isLt; omega⟩⟩ else none

/-- legged_kinematics.cpp:41-45: `dim` is an integer division; division by zero is `none` -/
def get_J (m : CheetahMeas) (l : ℕ) : Option (Σ n : ℕ, Matrix (Fin 3) (Fin n) ℝ) :=
  if m.contacts.length = 0 then none
  else blockJ m.jacobians l (m.encoders.length / m.contacts.length)

/-- one branch of lines 59-75: `-J * d_encoders_ - skew(w) * p` -/
noncomputable def legVel (m : CheetahMeas) (l : Leg) (w : V3) : Option V3 := do
  let q ← fixed12 m.encoders
  let dq ← fixed12 m.dEncoders
  some ((-(Cheetah.Jp l q)).mulVec dq - (skew w).mulVec (fun i => Cheetah.p l q i 0))

/-- mini_cheetah_kinematics.cpp:55-77 -/
noncomputable def get_init_velocity (m : CheetahMeas) (w : V3) : Option V3 := do
  if ← m.get_contact 0 then m.legVel .FR w
  else if ← m.get_contact 1 then m.legVel .FL w
  else if ← m.get_contact 2 then m.legVel .HR w
  else if ← m.get_contact 3 then m.legVel .HL w
  else some 0

/-- mini_cheetah_kinematics.cpp:79 -/
def get_num_legs (_ : CheetahMeas) : ℕ := 4

end CheetahMeas
end Drift
