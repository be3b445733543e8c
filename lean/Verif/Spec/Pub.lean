import Verif.Model.RosPub
/-!
# Specification vocabulary for the publisher
-/
namespace Drift

/-- what a path keeps of a published pose: header and pose, not the covariance -/
def PoseMsg.toPath (m : PoseMsg) : PathPose := ⟨m.seq, m.stamp, m.pos, m.ori⟩

/-- `path` consists of the poses number `k`, `2k`, `3k`, ... of `sent` (the first pose has number 1) -/
def EveryKth (k : ℕ) (sent : List PoseMsg) (path : List PathPose) : Prop :=
  path.length = sent.length / k ∧
    ∀ j, j < path.length → path[j]? = (sent[(j + 1) * k - 1]?).map PoseMsg.toPath

/-- the states handed to the publisher in a history -/
def pushed : List RosPub.Op → List RobotState
  | [] => []
  | .push st :: l => st :: pushed l
  | _ :: l => pushed l

/-- `m` reports the state `st`: its time, its position in the world, and its orientation in the world as a
quaternion -/
def Reports (m : PoseMsg) (st : RobotState) : Prop :=
  st.t = some m.stamp ∧ st.get_world_position = some m.pos ∧ st.get_world_rotation = some m.ori.toRot ∧
    m.ori.w ^ 2 + m.ori.x ^ 2 + m.ori.y ^ 2 + m.ori.z ^ 2 = 1

/-- the documented content of the covariance: position first, then orientation -/
def DocumentedCov (m : PoseMsg) (st : RobotState) : Prop :=
  ∃ Pp Pr, st.get_position_covariance = some Pp ∧ st.get_rotation_covariance = some Pr ∧
    (∀ i j : Fin 3, m.cov (i.castLE (by omega)) (j.castLE (by omega)) = Pp i j) ∧
    (∀ i j : Fin 3, m.cov (i.natAdd 3) (j.natAdd 3) = Pr i j)

/-- the state has its time set, the base columns and a covariance of at least the base size -/
def Publishable (st : RobotState) : Prop :=
  st.t.isSome ∧ 5 ≤ st.X.rows ∧ 5 ≤ st.X.cols ∧ 6 ≤ st.P.rows ∧ 6 ≤ st.P.cols

end Drift
