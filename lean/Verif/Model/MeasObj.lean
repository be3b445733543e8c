import Verif.Model.RosSub
import Verif.Model.MiniCheetah

/-!
# Model of the measurement objects (`include/drift/measurement`, `src/measurement`)

The other models keep of a measurement only what the filters read.  Here the objects themselves are modelled, with their type
and header, as a user of the library constructs, fills and reads them.
-/
namespace Drift
open Matrix

/-- measurement.h:22-31 `enum MeasurementType` -/
inductive MType
  | EMPTY | IMU | LEGGED_KINEMATICS | VELOCITY | ANGULAR_VELOCITY | JOINT_STATE | CONTACT | ODOM
  deriving DecidableEq

/-- measurement.cpp:40-63 `operator<<`: the name that is printed -/
def MType.name : MType → String
  | IMU => "IMU"
  | LEGGED_KINEMATICS => "LEGGED_KINEMATICS"
  | VELOCITY => "VELOCITY"
  | JOINT_STATE => "JOINT_STATE"
  | CONTACT => "CONTACT"
  | _ => "UNKNOWN"

/-- measurement.h:41-45 `MeasurementHeader`; `seq` is not initialised -/
structure MHeader where
  seq : Option ℕ
  stamp : ℝ
  frame : String

/-- the members of the derived classes -/
inductive MData
  /-- imu.h `ImuMeasurement<double>` -/
  | imu (q : Quat) (w a : V3)
  /-- velocity.h `VelocityMeasurement<double>` -/
  | vel (v : V3)
  /-- angular_velocity.h `AngularVelocityMeasurement<double>` -/
  | ang (w : V3)
  /-- joint_state.h `JointStateMeasurement<double>` -/
  | joint (p v e : List ℝ)
  /-- contact.h `ContactMeasurement` -/
  | contact (c : List Bool)
  /-- odom.h `OdomMeasurement` -/
  | odom (t : V3) (R : M3) (T : M4)
  /-- mini_cheetah_kinematics.h `MiniCheetahKinematics` -/
  | kin (m : CheetahMeas)

/-- a measurement object -/
structure MObj where
  type : MType
  header : MHeader
  data : MData

/-- the public constructors -/
inductive MCtor
  | imu | vel | ang | joint | contact | odom
  | odomOf (t : V3) (q : Quat) (seq : ℕ) (stamp : ℝ) (frame : String)
  | cheetah
  | cheetahOf (enc dEnc : List ℝ) (contacts : List Bool)

namespace MCtor

/-- measurement.cpp:20-24: both base constructors set only the stamp -/
def header0 : MHeader := ⟨none, 0, ""⟩

/-- impl/imu_impl.cpp:15-20, velocity_impl.cpp:15-17, angular_velocity_impl.cpp:15-17, joint_state_impl.cpp:15-16,
contact_impl.cpp:15, odom.h:22-47, legged_kinematics.cpp:17-24 with mini_cheetah_kinematics.cpp:24-38.  The constructor of
`LeggedKinematicsMeasurement` that takes values does not name the type: the default constructor of the base class runs. -/
def make : MCtor → MObj
  | imu => ⟨.IMU, header0, .imu Quat.id 0 0⟩
  | vel => ⟨.VELOCITY, header0, .vel 0⟩
  | ang => ⟨.ANGULAR_VELOCITY, header0, .ang 0⟩
  | joint => ⟨.JOINT_STATE, header0, .joint [] [] []⟩
  | contact => ⟨.CONTACT, header0, .contact []⟩
  | odom => ⟨.ODOM, header0, .odom 0 1 1⟩
  | odomOf t q seq stamp frame => ⟨.ODOM, ⟨some seq, stamp, frame⟩, .odom t q.toRot (Ros.pose4 q.toRot t)⟩
  | cheetah => ⟨.LEGGED_KINEMATICS, header0, .kin CheetahMeas.default⟩
  | cheetahOf e d c => ⟨.EMPTY, header0, .kin (CheetahMeas.mk3 e d c)⟩

end MCtor

/-- the calls that change an object -/
inductive MOp
  | setTime (t : ℝ)
  | setHeader (seq : ℕ) (t : ℝ) (frame : String)
  | setQuat (w x y z : ℝ)
  | setAngVel (w : V3)
  | setLinAcc (a : V3)
  | setVel (v : V3)
  | setRate (w : V3)
  | setJoint (p v e : List ℝ)
  | setEncoders (p : List ℝ)
  | setContact (c : List Bool)
  | setTranslation (t : V3)
  | setRotation (q : Quat)
  | setTransformation
  | kinContact (c : List Bool)
  | kinJoint (e : List ℝ)
  | kinJointVel (e : List ℝ)
  | kinCompute

namespace MObj

/-- the derived classes' setters: impl/imu_impl.cpp:22-44 (a quaternion that is not normalised throws before anything is
assigned), velocity_impl.cpp:19-24, angular_velocity_impl.cpp:19-24, joint_state_impl.cpp:18-32, contact_impl.cpp:18-21,
odom.h:50-63, legged_kinematics.cpp:26-39, mini_cheetah_kinematics.cpp:40-53.  `none`: the class has no such member, or
undefined behaviour in `ComputeKinematics`. -/
noncomputable def setData : MData → MOp → Option MData
  | .imu q w a, .setQuat qw qx qy qz =>
    some (match (⟨0, w, a, q⟩ : ImuMeas).set_quaternion qw qx qy qz with
      | some m => .imu m.quat w a
      | none => .imu q w a)
  | .imu q _ a, .setAngVel w' => some (.imu q w' a)
  | .imu q w _, .setLinAcc a' => some (.imu q w a')
  | .vel _, .setVel v' => some (.vel v')
  | .ang _, .setRate w' => some (.ang w')
  | .joint _ _ _, .setJoint p v e => some (.joint p v e)
  | .joint _ v e, .setEncoders p => some (.joint p v e)
  | .contact _, .setContact c => some (.contact c)
  | .odom _ R T, .setTranslation t => some (.odom t R T)
  | .odom t _ T, .setRotation q => some (.odom t q.toRot T)
  | .odom t R _, .setTransformation => some (.odom t R (Ros.pose4 R t))
  | .kin m, .kinContact c => some (.kin (m.set_contact c))
  | .kin m, .kinJoint e => some (.kin (m.set_joint_state e))
  | .kin m, .kinJointVel e => some (.kin (m.set_joint_state_velocity e))
  | .kin m, .kinCompute => m.ComputeKinematics.map .kin
  | _, _ => none

/-- one call; measurement.cpp:25-34 for the header -/
noncomputable def step (o : MObj) : MOp → Option MObj
  | .setTime t => some { o with header := { o.header with stamp := t } }
  | .setHeader seq t frame => some { o with header := ⟨some seq, t, frame⟩ }
  | op => (setData o.data op).map fun d => { o with data := d }

/-- a sequence of calls -/
noncomputable def run : MObj → List MOp → Option MObj
  | o, [] => some o
  | o, op :: ops => (o.step op).bind fun o' => run o' ops

/-- velocity_impl.cpp:31-34 `get_vel_mag`, angular_velocity_impl.cpp:31-34 `get_angular_velocity_magnitude`: Eigen's `norm` -/
noncomputable def mag (v : V3) : ℝ := norm3 v

/-- velocity_impl.cpp:36-39 `get_vel_unit_vec`, angular_velocity_impl.cpp:36-40 `get_ang_vel_unit_vec`: Eigen's `normalized`
divides by the square root of the squared norm if that is positive and else returns a copy -/
noncomputable def unitVec (v : V3) : V3 :=
  let z := v 0 ^ 2 + v 1 ^ 2 + v 2 ^ 2
  if z > 0 then fun i => v i / Real.sqrt z else v

end MObj
end Drift
