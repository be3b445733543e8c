import Verif.Model.RosSub

/-!
# Specification vocabulary for the ROS subscriber

* `forSub D i`: the messages of the delivery history `D` that went to subscription `i`;
* `taken P q`: the elements that consumers took from queue `q`;
* `BodyPose`, `IsOdomVel`: what the velocity computed from two odometry messages should be.
-/
namespace Drift
open Matrix

/-- the messages delivered to subscription `i`, in order -/
def forSub (D : List (ℕ × RosMsg)) (i : ℕ) : List RosMsg :=
  D.filterMap fun x => if x.1 = i then some x.2 else none

/-- the elements taken from queue `q`, in order -/
def taken (P : List (ℕ × RosMeas)) (q : ℕ) : List RosMeas :=
  P.filterMap fun x => if x.1 = q then some x.2 else none

/-- everything that was ever put on queue `q`: what was taken, followed by what is there -/
def everQueued (s : RosSub) (P : List (ℕ × RosMeas)) (q : ℕ) : List RosMeas :=
  taken P q ++ s.queues[q]?.getD []

/-- the queues a subscription fills -/
def Bound.qs (b : Bound) : List ℕ := if b.kind.two then [b.q, b.q2] else [b.q]

/-- the mutexes its callback locks -/
def Bound.ms (b : Bound) : List ℕ := if b.kind.two then [b.m, b.m2] else [b.m]

/-- pose of the body when the odometry source, mounted at `T`, is at the pose of the message -/
noncomputable def bodyPose (T : M4) (m : OdomMsg) : M4 := Ros.pose4 m.ori.toRot m.pos * T

/-- `v` is the mean velocity of the body between two odometry messages: stamped with the later message, and times the
elapsed time equal to the translation part of the logarithm of the body's displacement -/
def IsOdomVel (mlog : M4 → M4) (T : M4) (m m' : OdomMsg) (v : VelMeas) : Prop :=
  v.time = m'.stamp.toSec ∧ m'.stamp.toSec ≠ m.stamp.toSec ∧
    ∀ i : Fin 3, v.vel i * (m'.stamp.toSec - m.stamp.toSec) = mlog ((bodyPose T m)⁻¹ * bodyPose T m') i.castSucc 3

/-- `OdomVels mlog A ms vs`: the velocities `vs` are those of the consecutive pairs of the messages `ms`, each computed
with some mounting transform satisfying `A` -/
inductive OdomVels (mlog : M4 → M4) (A : M4 → Prop) : List OdomMsg → List VelMeas → Prop
  | nil : OdomVels mlog A [] []
  | one (m) : OdomVels mlog A [m] []
  | snoc {ms m vs} (h : OdomVels mlog A (ms ++ [m]) vs) (m' v T) (hT : A T) (hv : IsOdomVel mlog T m m' v) :
      OdomVels mlog A (ms ++ [m, m']) (vs ++ [v])

/-- the odometry messages among messages -/
def odomMsgs (l : List RosMsg) : List OdomMsg :=
  l.filterMap fun
    | .odom m => some m
    | _ => none

/-- `T` is the mounting transform of some odometry source registered in the history -/
def RegisteredMount (l : List SubOp) (T : M4) : Prop :=
  ∃ tr rot, SubOp.add (.odom tr rot) ∈ l ∧ Ros.mount tr rot = some T

end Drift
