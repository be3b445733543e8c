import Verif.Spec.System

/-!
# Specification vocabulary: the wiring of a program

What a topic delivers (`DataType`), and which consumer takes what.
-/
namespace Drift

/-- the types of measurement -/
inductive DataType
  | imu | velocity | angularVelocity | kinematics
  deriving DecidableEq

/-- the type of a measurement -/
def RosMeas.type : RosMeas → DataType
  | .imu _ => .imu
  | .vel _ => .velocity
  | .ang _ => .angularVelocity
  | .kin _ => .kinematics

/-- what a subscription puts into its first queue -/
def SubKind.delivers : SubKind → DataType
  | .imu => .imu
  | .fetchImu => .imu
  | .kin => .kinematics
  | _ => .velocity

/-- what a correction expects -/
def CorrConfig.expects : CorrConfig → DataType
  | .vel _ => .velocity
  | .leg _ => .kinematics

/-- the connections of a program: consumer and type of data, for every queue of every topic -/
def Program.links (P : Program) : List (Port × DataType) :=
  P.topics.flatMap fun x => (x.2.1, x.1.delivers) :: if x.1.two then [(x.2.2, .angularVelocity)] else []

/-- the connections to a correction -/
def toCorr (i : ℕ) (x : Port × DataType) : Bool :=
  match x.1 with
  | .corr j => i = j
  | _ => false
/-- the connections to the propagation -/
def toImu (x : Port × DataType) : Bool := match x.1 with | .imu => true | _ => false
/-- the connections to the propagation gyro of the filter -/
def toFGyro (x : Port × DataType) : Bool := match x.1 with | .fgyro => true | _ => false
/-- the connections to the IMU of the filter -/
def toFImu (x : Port × DataType) : Bool := match x.1 with | .fimu => true | _ => false
/-- the connections to the angular velocity input of the filter -/
def toFEnc (x : Port × DataType) : Bool := match x.1 with | .fenc => true | _ => false

/-- the program is wired correctly: every correction has exactly one source, of its type; no connection goes to a correction that does not
exist; the IMU data come from exactly one topic or from the filter, and every sensor registered with the filter has exactly one
source, of its type -/
structure Wired (P : Program) : Prop where
  corr : ∀ (i : ℕ) (c : CorrConfig), P.corrs[i]? = some c → (P.links.filter (toCorr i)).map Prod.snd = [c.expects]
  exist : ∀ i x, x ∈ P.links → toCorr i x = true → i < P.corrs.length
  imu : (P.links.filter toImu).map Prod.snd = if P.filter = none then [.imu] else []
  gyro : (P.links.filter toFGyro).map Prod.snd = if (P.filter.bind GyroFilter.gyro) = none then [] else [.imu]
  fimu : (P.links.filter toFImu).map Prod.snd = if (P.filter.bind GyroFilter.imu) = none then [] else [.imu]
  fenc : (P.links.filter toFEnc).map Prod.snd = if (P.filter.bind GyroFilter.enc) = none then [] else [.angularVelocity]

end Drift
