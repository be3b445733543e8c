import Verif.Spec.Legged
import Verif.Model.Estimator

/-!
# Specification vocabulary: the estimator
-/
namespace Drift
open Mat Matrix

namespace Corr
/-- number of queued measurements -/
def queued : Corr → ℕ
  | .vel c => c.buffer.length
  | .leg c => c.buffer.length
/-- the references held for the legs -/
def refs : Corr → ℕ → Option ℕ
  | .vel _ => fun _ => none
  | .leg c => c.ids
/-- The parameters are usable: a positive definite velocity covariance; a non-zero kinematic standard deviation
and a PSD contact noise. -/
def ParamOK : Corr → Prop
  | .vel c => PD (of3 c.cov)
  | .leg c => c.kinStd ≠ 0 ∧ PSD (of3 c.contactNoise)
/-- the velocity that `initialize` sets for the orientation `R` and body rate `w`: the newest queued velocity, or
the velocity the newest kinematic measurement implies, rotated by `R` -/
def newestVel (R : M3) (w : V3) : Corr → Option V3
  | .vel c => c.buffer.getLast?.map fun m => R.mulVec m.vel
  | .leg c => c.buffer.getLast?.map fun m => R.mulVec (m.initVel w)
/-- the time stamp of the newest queued measurement -/
def newestTime : Corr → Option ℝ
  | .vel c => c.buffer.getLast?.map VelMeas.time
  | .leg c => c.buffer.getLast?.map LegMeas.time
/-- the same correction with an empty queue -/
def drained : Corr → Corr
  | .vel c => .vel { c with buffer := [] }
  | .leg c => .leg { c with buffer := [] }
end Corr

/-- Calling `Correct` of each correction in turn; `bs` lists the return values. -/
inductive CorrRun : List Corr → Heap → RobotState → List Bool → List Corr → Heap → RobotState → Prop
  | nil (h s) : CorrRun [] h s [] [] h s
  | cons {c cs h s b c' h1 s1 bs cs' h2 s2} (e : c.correct h s = some (b, c', h1, s1))
      (r : CorrRun cs h1 s1 bs cs' h2 s2) : CorrRun (c :: cs) h s (b :: bs) (c' :: cs') h2 s2

/-- A published estimate is valid: `X` in SE_K(3), `P` symmetric PSD of the matching size. -/
def ValidEstimate (s : RobotState) : Prop := ∃ K, Shape K s ∧ PSD s.P

/-- the IMU measurements that arrive during a history -/
def imuArrivals : List EstEv → List ImuMeas
  | [] => []
  | .imu m :: es => m :: imuArrivals es
  | _ :: es => imuArrivals es

end Drift

namespace Drift

/-- The configuration of an estimator and its measurements can be used:
* `velocity_std` and `kinematics_additive_std` are not zero (they are divided by, in effect);
* static bias initialisation is off, or averages at least one sample;
* the IMU orientation is not used, or every IMU measurement carries a unit quaternion;
* the IMU time stamps do not decrease in the order of arrival. -/
structure Usable (ic : ImuPropConfig) (cs : List CorrConfig) (imu : List ImuMeas) : Prop where
  vel : ∀ c, CorrConfig.vel c ∈ cs → c.velocity_std.getD 0.1 ≠ 0
  leg : ∀ c, CorrConfig.leg c ∈ cs → c.kinematics_additive_std.getD 0.05 ≠ 0
  bias : ic.static_bias_initialization.getD true = false ∨ (1 ≤ ic.init_bias_size.getD 0 ∧ ic.init_bias_size.getD 0 < 2 ^ 31)
  ori : ic.use_imu_ori_to_init.getD false = false ∨
    ∀ m ∈ imu, m.quat.w ^ 2 + m.quat.x ^ 2 + m.quat.y ^ 2 + m.quat.z ^ 2 = 1
  sorted : imu.Pairwise fun a b => a.time ≤ b.time

/-- `e` is an estimator in use: built by the constructor from a usable configuration and reached by some
history of sensor arrivals, main-loop turns, `clear()` calls, logging and publishing. -/
def InUse (e : Estimator) : Prop :=
  ∃ et h c ic cs e0 evs, Usable ic cs (imuArrivals evs) ∧ Estimator.ctor et h c ic cs = some e0 ∧ e0.run evs = some e

/-- first correction without data -/
def firstEmpty (cs : List Corr) : ℕ := cs.findIdx fun c => c.queued == 0

end Drift

namespace Drift

/-- the states published (appended to the output queue) by one event -/
noncomputable def publishedBy (e : Estimator) (ev : EstEv) : List RobotState :=
  match ev, e.step ev with
  | .tick, some e' => e'.outQ.drop e.outQ.length
  | _, _ => []

/-- the states published during a history -/
noncomputable def published : Estimator → List EstEv → List RobotState
  | _, [] => []
  | e, ev :: evs => publishedBy e ev ++ match e.step ev with
    | some e' => published e' evs
    | none => []

/-- the row that is written for a state -/
def IsRow (s : RobotState) (r : LogRow) : Prop :=
  s.t = some r.time ∧ s.get_world_position = some r.pos ∧ s.get_world_rotation = some r.rot ∧
    s.get_world_velocity = some r.vel ∧ s.get_body_velocity = some r.bodyVel

/-- consecutive rows are at least `d` seconds apart -/
def Spaced (d : ℝ) : List LogRow → Prop
  | a :: b :: l => d ≤ b.time - a.time ∧ Spaced d (b :: l)
  | _ => True

/-- the names of the three files of session number `n` (counted from 0), with base names `pb`, `vb` and file
numbers given by `k`, for the sessions after the first -/
def sessionFiles (pb vb : List Char) (k : ℕ → ℕ × ℕ × ℕ) : ℕ → List Char × List Char × List Char
  | 0 => (pb ++ ".txt".toList, vb ++ ".txt".toList, vb ++ "_body_frame.txt".toList)
  | n + 1 => (pb ++ '_' :: Logger.dec (k n).1 ++ ".txt".toList, vb ++ '_' :: Logger.dec (k n).2.1 ++ ".txt".toList,
      vb ++ "_body_frame_".toList ++ Logger.dec (k n).2.2 ++ ".txt".toList)

/-- all files opened in sessions `0..n` -/
def allFiles (l : List (List Char × List Char × List Char)) : List (List Char) := l.flatMap fun f => [f.1, f.2.1, f.2.2]

/-- 1 for a `clear()` call that is carried out -/
def clearNow : EstEv → Option ℕ → ℕ
  | .clear, none => 1
  | _, _ => 0

/-- number of `clear()` calls of a history that are carried out -/
noncomputable def clears : Estimator → List EstEv → ℕ
  | _, [] => 0
  | e, ev :: evs => clearNow ev e.pending + match e.step ev with
    | some e' => clears e' evs
    | none => 0

end Drift

namespace Drift

/-- equal in everything but the covariance: same orientation, velocity, position, contacts, biases, times -/
def SameMean (s s' : RobotState) : Prop := s' = { s with P := s'.P }

/-- the error type a correction was configured with -/
def Corr.type : Corr → ErrorType
  | .vel c => c.errorType
  | .leg c => c.errorType
/-- the same correction configured for the right-invariant error -/
def Corr.asRight : Corr → Corr
  | .vel c => .vel { c with errorType := .rightInvariant }
  | .leg c => .leg { c with errorType := .rightInvariant }

/-- all parts of an estimator are configured for the left-invariant error -/
structure IsLeft (e : Estimator) : Prop where
  self : e.errorType = .leftInvariant
  prop : e.prop.errorType = .leftInvariant
  corrs : ∀ c ∈ e.corrs, c.type = .leftInvariant

/-- the same estimator configured for the right-invariant error, with covariance `P` -/
def Estimator.asRight (e : Estimator) (P : Mat) : Estimator :=
  { e with
    errorType := .rightInvariant
    prop := { e.prop with errorType := .rightInvariant }
    corrs := e.corrs.map Corr.asRight
    state := { e.state with P := P } }

/-- Whenever a turn of the main loop completes the initialisation, the initial velocity is zero. -/
noncomputable def StartsAtRest : Estimator → List EstEv → Prop
  | _, [] => True
  | e, ev :: evs => ∀ e', e.step ev = some e' →
      (e.enabled = false → e'.enabled = true → e'.state.get_velocity = some 0) ∧ StartsAtRest e' evs

end Drift

namespace Drift
open Mat

/-- block-diagonal with 3x3 blocks -/
def BlockDiag3 (P : Mat) : Prop := ∀ i j, i / 3 ≠ j / 3 → P.e i j = 0

/-- a freshly initialised state: valid, without contacts, and uncorrelated -/
structure InitOK (h : Heap) (s : RobotState) : Prop where
  good : Good 2 h s
  bd : BlockDiag3 s.P

end Drift
