import Verif.Lemmas.Sys10

/-!
# C104, C105, C106: the shipped programs
-/
set_option linter.unusedSimpArgs false
namespace Drift
open Mat Matrix RobotState

/-- **C104**: every shipped program starts, and no history of well-formed messages makes it run into undefined behaviour, a
division by zero or an exception: whatever the order of callbacks, loop turns, filter iterations, logging and publishing, if
the messages that time the propagation arrive in the order of their stamps and consecutive odometry messages have different
stamps. -/
theorem C104_defined (P : Program) (hP : P ∈ Program.shipped) (mlog : M4 → M4) (h : Heap) (evs : List SysEv) (hw : WellFormed P evs)
    (ho : OdomDistinct P evs) (hs : PropSorted P evs) :
    ∃ s0 s, P.start h = some s0 ∧ s0.run mlog evs = some s := by
  obtain ⟨s0, h1, i⟩ := start_ok (sound_shipped P hP) h ho hs
  obtain ⟨s, h2, -⟩ := sys_run_ok (sound_shipped P hP) (mlog := mlog) evs i hw
  exact ⟨s0, s, h1, h2⟩

/-- **C105**: every pose that a shipped program has published carries the stamp of a message it received, a unit quaternion
and a positive semidefinite covariance; the paths consist of published poses; and every state still waiting is a valid
estimate with the stamp of a message received. -/
theorem C105_sound_poses (P : Program) (hP : P ∈ Program.shipped) (mlog : M4 → M4) (h : Heap) (evs : List SysEv) (hw : WellFormed P evs)
    (ho : OdomDistinct P evs) (hs : PropSorted P evs) (s0 s : System) (h0 : P.start h = some s0) (h1 : s0.run mlog evs = some s) :
    (∀ m ∈ s.pub.sent, SoundPose evs m) ∧ (∀ q ∈ s.pub.sentPaths, ∀ x ∈ q.poses, ∃ m ∈ s.pub.sent, x = m.toPath) ∧
      ∀ st ∈ s.est.outQ, ValidEstimate st ∧ ∃ t, st.t = some t ∧ Received evs t := by
  obtain ⟨s0', h0', i⟩ := start_ok (sound_shipped P hP) h ho hs
  rw [h0] at h0'
  obtain rfl := Option.some.inj h0'
  have hT : ∀ i m, SysEv.msg i m ∈ evs → Received evs m.sec := fun i m hm => ⟨i, m, hm, rfl⟩
  have sy := start_stamp (T := Received evs) (sound_shipped P hP).fresh h0
  have st : StampInv (Received evs) s0.est ∧ s0.pub = RosPub.init P.poseRate P.pathRate := by
    simp only [Program.start, Option.bind_eq_bind, Option.bind_eq_some_iff] at h0
    obtain ⟨⟨sub, w⟩, -, e, he, h0⟩ := h0
    rw [← Option.some.inj h0]
    exact ⟨(ctor_later he 0 _).2.2.2.2, rfl⟩
  have se : Sent (Received evs) s0.pub := by rw [st.2]; exact ⟨by simp [RosPub.init], by simp [RosPub.init], by simp [RosPub.init]⟩
  obtain ⟨a, b⟩ := sys_run_sent (sound_shipped P hP) evs i hw sy st.1 se hT h1
  exact ⟨fun m hm => ⟨(a.sent m hm).1, (a.sent m hm).2.1, (a.sent m hm).2.2⟩, a.paths, b⟩

/-- a history for the odometry program: two IMU messages, two odometry messages, the main loop, the publisher -/
noncomputable def exHistory : List SysEv :=
  [.msg 0 (.imu ⟨⟨10, 0⟩, 0, ![0, 0, 9.81], ⟨0, 0, 0, 0⟩⟩), .msg 1 (.odom ⟨⟨10, 0⟩, 0, ⟨1, 0, 0, 0⟩⟩), .tick,
   .msg 0 (.imu ⟨⟨10, 500000000⟩, ![0, 0, 0.1], ![0, 0, 9.81], ⟨0, 0, 0, 0⟩⟩), .msg 1 (.odom ⟨⟨11, 0⟩, ![1, 0, 0], ⟨1, 0, 0, 0⟩⟩),
   .tick, .pose, .tick, .pose, .log, .path]

/-- the hypotheses of C104 and C105 are met by a program with odometry in use -/
theorem exHistory_ok : WellFormed .huskyOdom exHistory ∧ OdomDistinct .huskyOdom exHistory ∧ PropSorted .huskyOdom exHistory := by
  refine ⟨?_, ?_, ?_⟩
  · intro i m x hm hx
    simp only [exHistory, List.mem_cons, SysEv.msg.injEq, reduceCtorEq, List.not_mem_nil, false_or, or_false] at hm
    rcases hm with ⟨rfl, rfl⟩ | ⟨rfl, rfl⟩ | ⟨rfl, rfl⟩ | ⟨rfl, rfl⟩ <;>
      simp only [Program.huskyOdom, Program.plain, List.getElem?_cons_zero, List.getElem?_cons_succ, Option.some.injEq] at hx <;>
      subst hx <;> norm_num [MsgOK, OriOK]
  · intro i x hx ho
    rcases i with _ | _ | i <;>
      simp only [Program.huskyOdom, Program.plain, List.getElem?_cons_zero, List.getElem?_cons_succ, Option.some.injEq, List.getElem?_nil, reduceCtorEq] at hx
    · subst hx; simp [SubKind.isOdom] at ho
    · simp only [exHistory, stampsAt, List.filterMap_cons, List.filterMap_nil]
      norm_num [RosMsg.sec, Stamp.toSec]
  · simp only [PropSorted, propStamps, exHistory, List.filterMap_cons, List.filterMap_nil, Program.huskyOdom, Program.plain]
    norm_num [RosMsg.sec, Stamp.toSec, clockedTopic, Port.clocked, SubKind.two]

/-- **C106**: nothing is lost, duplicated, reordered or misrouted between the topics and the published poses.  The estimator
of a shipped program processes, event by event (`parts`, one part for each event), exactly what the history means to it
(`heard`): the converted messages of each topic, for the consumer of that topic, the turns of the main loop, of the logger
and of the publisher; its IMU measurements are those received or, in programs with a gyro filter, the outputs that the filter,
given what the history means to it, has produced by then.  The published poses report, in order, the first of the states that
such an estimator publishes, and the others are still waiting. -/
theorem C106_routing (P : Program) (hP : P ∈ Program.shipped) (mlog : M4 → M4) (h : Heap) (evs : List SysEv) (hw : WellFormed P evs)
    (ho : OdomDistinct P evs) (hs : PropSorted P evs) (s0 s : System) (h0 : P.start h = some s0) (h1 : s0.run mlog evs = some s) :
    ∃ parts : List (List EstEv), parts.length = evs.length ∧ s0.est.run parts.flatten = some s.est ∧
      (∀ k, besidesImu (parts.take k).flatten = besidesImu (heard mlog P (evs.take k)) ∧
        ImuData mlog P (evs.take k) (imuArrivals (parts.take k).flatten) ∧
        (P.filter = none → (parts.take k).flatten = heard mlog P (evs.take k))) ∧
      (∀ (i : ℕ) m, s.pub.sent[i]? = some m → ∃ st, (published s0.est parts.flatten)[i]? = some st ∧ Reports m st) ∧
      s.est.outQ = (published s0.est parts.flatten).drop s.pub.sent.length ∧
      s.pub.sent.length + s.est.outQ.length = (published s0.est parts.flatten).length := by
  obtain ⟨s0', h0', i⟩ := start_ok (sound_shipped P hP) h ho hs
  rw [h0] at h0'
  obtain rfl := Option.some.inj h0'
  obtain ⟨r, hf, hp, hq⟩ := start_route (sound_shipped P hP) (oneMount_shipped P hP) h0
  obtain ⟨parts, q⟩ := sys_run_parts (sound_shipped P hP) evs i r hw h1
  obtain ⟨c1, ops, c2, c3⟩ := q.comp
  have e0 : s0.publisher = RosPub.init P.poseRate P.pathRate := by
    unfold System.publisher
    rw [hp, hq]; rfl
  rw [e0] at c2
  obtain ⟨d1, d2, d3⟩ := C90_in_order P.poseRate P.pathRate ops c2
  rw [c3] at d1 d2 d3
  refine ⟨parts, q.len, c1, fun k => ⟨q.rest k, ?_, fun hn => q.plain (hf.trans hn) k⟩, fun j m hm => ?_, d2, d3⟩
  · unfold ImuData
    obtain ⟨fo, hfo⟩ : ∃ fo, P.filter = fo := ⟨_, rfl⟩
    rw [hfo]
    cases fo with
    | none => simp only; rw [q.plain (hf.trans hfo) k]; rfl
    | some f => exact q.filt f (hf.trans hfo) k
  · obtain ⟨st, a1, a2⟩ := d1 j m hm
    exact ⟨st, a1, valid_reports (q.valid st (List.mem_of_getElem? a1)) a2⟩

/-- what the history above means to the estimator of the odometry program: two IMU measurements, one velocity (of the second
odometry message), the main loop, the publisher and the logger -/
theorem exHistory_heard (mlog : M4 → M4) : ∃ m1 m2 v, m1.time = 10 ∧ m2.time = 10.5 ∧ v.time = 11 ∧
    heard mlog .huskyOdom exHistory = [.imu m1, .tick, .imu m2, .vel 0 v, .tick, .consume, .tick, .consume, .log] ∧
    heard mlog .huskyOdom (exHistory.take 5) = [.imu m1, .tick, .imu m2, .vel 0 v] := by
  have hi : ∀ (st : Stamp) (w a : V3), ∃ m, Ros.imuCb ⟨st, w, a, ⟨0, 0, 0, 0⟩⟩ = some m ∧ m.time = st.toSec := by
    intro st w a
    refine ⟨_, by simp [Ros.imuCb, ImuMeas.set_quaternion]; rfl, rfl⟩
  obtain ⟨m1, e1, t1⟩ := hi ⟨10, 0⟩ 0 ![0, 0, 9.81]
  obtain ⟨m2, e2, t2⟩ := hi ⟨10, 500000000⟩ ![0, 0, 0.1] ![0, 0, 9.81]
  have hT : ∃ T, Ros.mount [0, 0, 0] [1, 0, 0, 0] = some T ∧ T.det ≠ 0 := by
    refine ⟨_, rfl, ?_⟩
    rw [pose4_det, toRot_det]
    norm_num
  obtain ⟨T, hT, hd⟩ := hT
  obtain ⟨v, hv, tv⟩ : ∃ v, Ros.odomVel mlog T (Ros.odomOf ⟨⟨10, 0⟩, 0, ⟨1, 0, 0, 0⟩⟩) (Ros.odomOf ⟨⟨11, 0⟩, ![1, 0, 0], ⟨1, 0, 0, 0⟩⟩) = some v ∧
      v.time = (⟨11, 0⟩ : Stamp).toSec := by
    have h2 : (Ros.odomOf ⟨⟨10, 0⟩, 0, ⟨1, 0, 0, 0⟩⟩).1.det ≠ 0 := odomOf_det (.inr (by norm_num))
    unfold Ros.odomVel Ros.inv4
    rw [if_neg hd, if_neg h2]
    simp only [Option.bind_eq_bind, Option.bind_some]
    rw [if_neg (by norm_num [Ros.odomOf, Stamp.toSec])]
    exact ⟨_, rfl, rfl⟩
  refine ⟨m1, m2, v, by rw [t1]; norm_num [Stamp.toSec], by rw [t2]; norm_num [Stamp.toSec], by rw [tv]; norm_num [Stamp.toSec], ?_⟩
  constructor <;>
    simp [heard, exHistory, eachEvent, hear, reaches, Program.huskyOdom, Program.plain, lastOdom, Ros.convert, e1, e2, hT, hv, portEv]

example : Program.huskyOdom ∈ Program.shipped := by simp [Program.shipped]

end Drift
