import Verif.Model.MeasObj

/-!
# Specification of the measurement objects (C141)
-/
namespace Drift

/-- the type that belongs to the class of which an object is constructed -/
def MCtor.cls : MCtor → MType
  | imu => .IMU
  | vel => .VELOCITY
  | ang => .ANGULAR_VELOCITY
  | joint => .JOINT_STATE
  | contact => .CONTACT
  | odom => .ODOM
  | odomOf _ _ _ _ _ => .ODOM
  | cheetah => .LEGGED_KINEMATICS
  | cheetahOf _ _ _ => .LEGGED_KINEMATICS

/-- the time, sequence number (`none`: indeterminate) and frame with which an object starts: only the odometry constructor that
takes values is given them -/
def MCtor.header1 : MCtor → ℝ × Option ℕ × String
  | odomOf _ _ seq stamp frame => (stamp, some seq, frame)
  | _ => (0, none, "")

/-- `v` is the value of the last call in `ops` that sets the quantity `f`, or `d` if there is none -/
def Latest {α : Type} (f : MOp → Option α) (d : α) (ops : List MOp) (v : α) : Prop :=
  (∃ a op b, ops = a ++ op :: b ∧ f op = some v ∧ ∀ x ∈ b, f x = none) ∨ ((∀ x ∈ ops, f x = none) ∧ v = d)

namespace Sets
/-- the calls that set the time -/
def time : MOp → Option ℝ
  | .setTime t => some t
  | .setHeader _ t _ => some t
  | _ => none
/-- the calls that set the sequence number -/
def seq : MOp → Option (Option ℕ)
  | .setHeader n _ _ => some (some n)
  | _ => none
/-- the calls that set the frame -/
def frame : MOp → Option String
  | .setHeader _ _ f => some f
  | _ => none
/-- the calls that set an orientation; only a normalised quaternion is taken -/
noncomputable def quat : MOp → Option Quat
  | .setQuat w x y z => if |w ^ 2 + x ^ 2 + y ^ 2 + z ^ 2 - 1| < 1e-5 then some ⟨w, x, y, z⟩ else none
  | _ => none
/-- the calls that set an IMU's angular velocity -/
def angVel : MOp → Option V3
  | .setAngVel w => some w
  | _ => none
/-- the calls that set a linear acceleration -/
def linAcc : MOp → Option V3
  | .setLinAcc a => some a
  | _ => none
/-- the calls that set a velocity -/
def vel : MOp → Option V3
  | .setVel v => some v
  | _ => none
/-- the calls that set an angular velocity measurement -/
def rate : MOp → Option V3
  | .setRate v => some v
  | _ => none
/-- the calls that set joint positions -/
def jointPos : MOp → Option (List ℝ)
  | .setJoint p _ _ => some p
  | .setEncoders p => some p
  | _ => none
/-- the calls that set joint velocities -/
def jointVel : MOp → Option (List ℝ)
  | .setJoint _ v _ => some v
  | _ => none
/-- the calls that set joint efforts -/
def jointEffort : MOp → Option (List ℝ)
  | .setJoint _ _ e => some e
  | _ => none
/-- the calls that set a contact vector -/
def contact : MOp → Option (List Bool)
  | .setContact c => some c
  | _ => none
/-- the calls that set the contacts of a kinematic measurement -/
def kinContact : MOp → Option (List Bool)
  | .kinContact c => some c
  | _ => none
/-- the calls that set the encoders of a kinematic measurement -/
def kinJoint : MOp → Option (List ℝ)
  | .kinJoint c => some c
  | _ => none
/-- the calls that set the joint velocities of a kinematic measurement -/
def kinJointVel : MOp → Option (List ℝ)
  | .kinJointVel c => some c
  | _ => none
/-- the calls that set the translation of an odometry measurement -/
def translation : MOp → Option V3
  | .setTranslation t => some t
  | _ => none
/-- the calls that set the rotation of an odometry measurement -/
def rotation : MOp → Option M3
  | .setRotation q => some q.toRot
  | _ => none
end Sets

end Drift
