import Verif.Lemmas.RosSub
import Verif.Lemmas.SO3
import Mathlib.Tactic.NormNum
import Mathlib.Tactic.FinCases

/-!
# C77, C79, C83, C84, C86, C88: the ROS subscriber
-/
namespace Drift
open Matrix

/-! ### C77 -/

/-- **C77**, four-wheel message with track width: the queued linear and angular velocity reproduce the speeds of the
right and the left side, carry the stamp of the message and have no other component. -/
theorem C77_four_wheels (m : JointMsg) (radius track : ℝ) (hb : track ≠ 0) (v0 v1 v2 v3 : ℝ) (rest : List ℝ)
    (hm : m.vel = v0 :: v1 :: v2 :: v3 :: rest) :
    ∃ v w, Ros.diff2Cb m radius track = some (v, w) ∧ v.time = m.stamp.toSec ∧ w.time = m.stamp.toSec ∧
      v.vel 0 + w.angVel 2 * (track / 2) = radius * ((v1 + v3) / 2) ∧
      v.vel 0 - w.angVel 2 * (track / 2) = radius * ((v0 + v2) / 2) ∧
      v.vel 1 = 0 ∧ v.vel 2 = 0 ∧ w.angVel 0 = 0 ∧ w.angVel 1 = 0 := by
  refine ⟨_, _, by simp [Ros.diff2Cb, Ros.wheels4, hm, hb]; exact ⟨rfl, rfl⟩, rfl, rfl, ?_, ?_, ?_⟩
  · show ((v1 + v3) / 2 * radius + (v0 + v2) / 2 * radius) / 2 +
      ((v1 + v3) / 2 * radius - (v0 + v2) / 2 * radius) / track * (track / 2) = _
    field_simp
    ring
  · show ((v1 + v3) / 2 * radius + (v0 + v2) / 2 * radius) / 2 -
      ((v1 + v3) / 2 * radius - (v0 + v2) / 2 * radius) / track * (track / 2) = _
    field_simp
    ring
  · exact ⟨rfl, rfl, rfl, rfl⟩

/-- **C77**: the callback without track width queues the same linear velocity. -/
theorem C77_linear_only (m : JointMsg) (radius track : ℝ) (v : VelMeas) (w : AngVelMeas)
    (h : Ros.diff2Cb m radius track = some (v, w)) : Ros.diff1Cb m radius = some v := by
  unfold Ros.diff2Cb at h
  unfold Ros.diff1Cb
  simp only [Option.bind_eq_bind, Option.bind_eq_some_iff] at h ⊢
  obtain ⟨p, h1, h2⟩ := h
  refine ⟨p, h1, ?_⟩
  split_ifs at h2
  exact congrArg some (Prod.mk.inj (Option.some.inj h2)).1

/-- **C77**, Fetch: entries 1 and 0 are the right and the left wheel. -/
theorem C77_fetch (m : JointMsg) (radius track : ℝ) (hb : track ≠ 0) (v0 v1 v2 : ℝ) (rest : List ℝ)
    (hm : m.vel = v0 :: v1 :: v2 :: rest) :
    ∃ v w, Ros.fetch2Cb m radius track = some (some (v, w)) ∧ Ros.fetch1Cb m radius = some (some v) ∧
      v.time = m.stamp.toSec ∧ w.time = m.stamp.toSec ∧
      v.vel 0 + w.angVel 2 * (track / 2) = radius * v1 ∧ v.vel 0 - w.angVel 2 * (track / 2) = radius * v0 ∧
      v.vel 1 = 0 ∧ v.vel 2 = 0 ∧ w.angVel 0 = 0 ∧ w.angVel 1 = 0 := by
  refine ⟨⟨m.stamp.toSec, ![(v1 * radius + v0 * radius) / 2, 0, 0]⟩,
    ⟨m.stamp.toSec, ![0, 0, (v1 * radius - v0 * radius) / track]⟩, ?_, ?_, rfl, rfl, ?_, ?_, rfl, rfl, rfl, rfl⟩
  · simp [Ros.fetch2Cb, Ros.wheels2, hm, hb]
  · simp [Ros.fetch1Cb, Ros.wheels2, hm]
  · show (v1 * radius + v0 * radius) / 2 + (v1 * radius - v0 * radius) / track * (track / 2) = _
    field_simp
    ring
  · show (v1 * radius + v0 * radius) / 2 - (v1 * radius - v0 * radius) / track * (track / 2) = _
    field_simp
    ring

/-- **C77**: short messages.  The Fetch callbacks ignore messages with at most two entries; the four-wheel callbacks
have no such test and read out of bounds when there are fewer than four. -/
theorem C77_short_messages (m : JointMsg) (radius track : ℝ) :
    (m.vel.length ≤ 2 → Ros.fetch1Cb m radius = some none ∧ Ros.fetch2Cb m radius track = some none) ∧
    (m.vel.length < 4 → Ros.diff1Cb m radius = none ∧ Ros.diff2Cb m radius track = none) := by
  refine ⟨fun h => by simp [Ros.fetch1Cb, Ros.fetch2Cb, h], fun h => ?_⟩
  have h3 : m.vel[3]? = none := List.getElem?_eq_none (by omega)
  have hw : Ros.wheels4 m radius = none := by
    unfold Ros.wheels4
    rw [h3]
    cases m.vel[0]? <;> cases m.vel[1]? <;> cases m.vel[2]? <;> rfl
  simp [Ros.diff1Cb, Ros.diff2Cb, hw]

/-- a message of the Husky -/
example : ∃ v w, Ros.diff2Cb ⟨⟨10, 500000000⟩, [], [1, 2, 3, 4]⟩ 0.165 0.5 = some (v, w) ∧ v.time = 10.5 := by
  obtain ⟨v, w, h, ht, _⟩ := C77_four_wheels ⟨⟨10, 500000000⟩, [], [1, 2, 3, 4]⟩ 0.165 0.5 (by norm_num) 1 2 3 4 [] rfl
  exact ⟨v, w, h, by rw [ht]; norm_num [Stamp.toSec]⟩

/-! ### C79 -/

/-- **C79**: `set_quaternion` stores the quaternion iff its squared norm is within 1e-5 of one, and changes nothing
else; otherwise it throws. -/
theorem C79_stored_iff_normalised (m : ImuMeas) (w x y z : ℝ) :
    (|w ^ 2 + x ^ 2 + y ^ 2 + z ^ 2 - 1| < 1e-5 →
      m.set_quaternion w x y z = some ⟨m.time, m.angVel, m.linAcc, ⟨w, x, y, z⟩⟩) ∧
    (¬ |w ^ 2 + x ^ 2 + y ^ 2 + z ^ 2 - 1| < 1e-5 → m.set_quaternion w x y z = none) := by
  have e : w * w + x * x + y * y + z * z - 1 = w ^ 2 + x ^ 2 + y ^ 2 + z ^ 2 - 1 := by ring
  unfold ImuMeas.set_quaternion
  rw [e]
  exact ⟨fun h => by rw [if_neg (not_le.2 h)], fun h => by rw [if_pos (not_lt.1 h)]⟩

/-- **C79**: the rotation matrix of a measurement whose quaternion was accepted is orthogonal up to 5e-5 in every entry,
and its determinant is one up to 5e-5. -/
theorem C79_nearly_orthogonal (m m' : ImuMeas) (w x y z : ℝ) (h : m.set_quaternion w x y z = some m') :
    (∀ i j, |(m'.get_rotation_matrix * m'.get_rotation_matrixᵀ - 1 : M3) i j| ≤ 5e-5) ∧
      |m'.get_rotation_matrix.det - 1| ≤ 5e-5 := by
  have hn : |w ^ 2 + x ^ 2 + y ^ 2 + z ^ 2 - 1| < 1e-5 := by
    by_contra hc
    rw [(C79_stored_iff_normalised m w x y z).2 hc] at h
    simp at h
  rw [(C79_stored_iff_normalised m w x y z).1 hn] at h
  obtain rfl := Option.some.inj h
  clear h
  have hn1 := (abs_lt.1 hn).1
  have hn2 := (abs_lt.1 hn).2
  have hx := sq_nonneg x
  have hy := sq_nonneg y
  have hz := sq_nonneg z
  have hw := sq_nonneg w
  have bound : ∀ c : ℝ, |c| ≤ x ^ 2 + y ^ 2 + z ^ 2 → |4 * (1 - (w ^ 2 + x ^ 2 + y ^ 2 + z ^ 2)) * c| ≤ 5e-5 := by
    intro c hc
    rw [abs_mul, abs_mul]
    have h1 : |1 - (w ^ 2 + x ^ 2 + y ^ 2 + z ^ 2)| ≤ 1e-5 := by rw [abs_sub_comm]; exact hn.le
    have h4 : |(4 : ℝ)| = 4 := by norm_num
    rw [h4]
    have hc' : |c| ≤ 1.1 := hc.trans (by norm_num at hn2 ⊢; linarith)
    have h0 := abs_nonneg c
    have h0' := abs_nonneg (1 - (w ^ 2 + x ^ 2 + y ^ 2 + z ^ 2))
    calc 4 * |1 - (w ^ 2 + x ^ 2 + y ^ 2 + z ^ 2)| * |c| ≤ 4 * 1e-5 * 1.1 := by gcongr
      _ ≤ 5e-5 := by norm_num
  have off : ∀ a b : ℝ, |a * b| ≤ a ^ 2 + b ^ 2 := fun a b => by
    rw [abs_le]; constructor <;> nlinarith [sq_nonneg (a + b), sq_nonneg (a - b)]
  have nb : ∀ c : ℝ, 0 ≤ c → c ≤ x ^ 2 + y ^ 2 + z ^ 2 → |-c| ≤ x ^ 2 + y ^ 2 + z ^ 2 := fun c h0 h1 => by
    rw [abs_neg, abs_of_nonneg h0]; exact h1
  constructor
  · intro i j
    have hxy := bound (x * y) ((off x y).trans (by linarith))
    have hxz := bound (x * z) ((off x z).trans (by linarith))
    have hyz := bound (y * z) ((off y z).trans (by linarith))
    have h00 := bound (-(y ^ 2 + z ^ 2)) (nb _ (by linarith) (by linarith))
    have h11 := bound (-(x ^ 2 + z ^ 2)) (nb _ (by linarith) (by linarith))
    have h22 := bound (-(x ^ 2 + y ^ 2)) (nb _ (by linarith) (by linarith))
    fin_cases i <;> fin_cases j <;>
      simp only [ImuMeas.get_rotation_matrix, Quat.toRot, Matrix.sub_apply, Matrix.mul_apply, Fin.sum_univ_three,
        Matrix.transpose_apply, Matrix.of_apply, Matrix.cons_val', Matrix.cons_val_zero, Matrix.cons_val_one,
        Matrix.cons_val, Fin.zero_eta, Fin.mk_one, Fin.reduceFinMk, Matrix.one_apply_eq, Matrix.one_apply_ne, ne_eq,
        Fin.reduceEq, not_false_eq_true, Matrix.one_apply, if_true, if_false] <;>
      [convert h00 using 2; convert hxy using 2; convert hxz using 2; convert hxy using 2; convert h11 using 2;
        convert hyz using 2; convert hxz using 2; convert hyz using 2; convert h22 using 2] <;> ring
  · have hd := bound (-(x ^ 2 + y ^ 2 + z ^ 2)) (nb _ (by linarith) le_rfl)
    rw [Matrix.det_fin_three]
    simp only [ImuMeas.get_rotation_matrix, Quat.toRot, Matrix.of_apply, Matrix.cons_val', Matrix.cons_val_zero,
      Matrix.cons_val_one, Matrix.cons_val]
    convert hd using 2
    ring

/-- the quaternion (0.6, 0, 0, 0.8) is accepted -/
example : ∃ m', ImuMeas.default.set_quaternion 0.6 0 0 0.8 = some m' :=
  ⟨_, (C79_stored_iff_normalised _ _ _ _ _).1 (by norm_num)⟩

/-! ### C86 -/

/-- **C86**, as long as the orientation is zero or normalised: the message is queued as exactly one measurement with its
stamp, angular velocity and acceleration, and with its orientation (the identity if it was zero).  (Missing: other
orientations, see `C86_false`.) -/
theorem C86_queued_partial (mlog : M4 → M4) (s : RosSub) (i : ℕ) (b : Bound) (m : ImuMsg) (hb : s.subs[i]? = some b)
    (hk : b.kind = .imu) (q : Quat)
    (hq : (m.ori.w = 0 ∧ m.ori.x = 0 ∧ m.ori.y = 0 ∧ m.ori.z = 0 ∧ q = ⟨1, 0, 0, 0⟩) ∨
      (|m.ori.w ^ 2 + m.ori.x ^ 2 + m.ori.y ^ 2 + m.ori.z ^ 2 - 1| < 1e-5 ∧ q = m.ori)) :
    ∃ s', s.step mlog (.deliver i (.imu m)) = some s' ∧
      s'.queues = s.queues.modify b.q (· ++ [.imu ⟨m.stamp.toSec, m.angVel, m.linAcc, q⟩]) := by
  have key : Ros.imuCb m = some ⟨m.stamp.toSec, m.angVel, m.linAcc, q⟩ := by
    unfold Ros.imuCb
    rcases hq with ⟨h1, h2, h3, h4, rfl⟩ | ⟨h, rfl⟩
    · simp only [h1, h2, h3, h4]
      rw [if_neg (by norm_num)]
      rfl
    · have hne : m.ori.w ^ 2 + m.ori.x ^ 2 + m.ori.y ^ 2 + m.ori.z ^ 2 ≠ 0 := by
        intro k
        rw [k] at h
        norm_num at h
      simp only []
      rw [if_pos hne, (C79_stored_iff_normalised _ _ _ _ _).1 h]
  simp only [RosSub.step, hb]
  rw [RosSub.callback_plain mlog s b (by rw [hk]; rfl), hk]
  simp only [Ros.convert, key, Option.map_some]
  refine ⟨_, rfl, ?_⟩
  have hid : ∀ (n : ℕ) (l : List (List RosMeas)), l.modify n (· ++ []) = l := by
    intro n l
    apply List.ext_getElem?
    intro k
    rw [List.getElem?_modify]
    cases l[k]? <;> simp
  show ((s.queues.modify b.q _).modify b.q2 (· ++ [])) = _
  rw [hid]

/-- **C86** is false: an orientation that is neither zero nor normalised ends the program (the exception of
`set_quaternion` is not caught), whatever the state of the subscriber. -/
theorem C86_false (mlog : M4 → M4) (s : RosSub) (i : ℕ) (b : Bound) (m : ImuMsg) (hb : s.subs[i]? = some b)
    (hk : b.kind = .imu) (h0 : ¬ (m.ori.w = 0 ∧ m.ori.x = 0 ∧ m.ori.y = 0 ∧ m.ori.z = 0))
    (h1 : ¬ |m.ori.w ^ 2 + m.ori.x ^ 2 + m.ori.y ^ 2 + m.ori.z ^ 2 - 1| < 1e-5) :
    s.step mlog (.deliver i (.imu m)) = none := by
  have hne : m.ori.w ^ 2 + m.ori.x ^ 2 + m.ori.y ^ 2 + m.ori.z ^ 2 ≠ 0 := by
    intro k
    apply h0
    have a1 := sq_nonneg m.ori.w
    have a2 := sq_nonneg m.ori.x
    have a3 := sq_nonneg m.ori.y
    have a4 := sq_nonneg m.ori.z
    refine ⟨?_, ?_, ?_, ?_⟩ <;> apply pow_eq_zero_iff (two_ne_zero) |>.1 <;> linarith
  have key : Ros.imuCb m = none := by
    unfold Ros.imuCb
    simp only []
    rw [if_pos hne, (C79_stored_iff_normalised _ _ _ _ _).2 h1]
  simp only [RosSub.step, hb]
  rw [RosSub.callback_plain mlog s b (by rw [hk]; rfl), hk]
  simp [Ros.convert, key]

/-- both cases occur: a subscriber with one IMU topic, an orientation (0.5, 0, 0, 0) and an orientation (0, 0, 0, 1) -/
example (mlog : M4 → M4) : ∃ s b, s.subs[0]? = some b ∧ b.kind = .imu ∧
    RosSub.Exec mlog .init [.add .imu] s [] [] ∧
    s.step mlog (.deliver 0 (.imu ⟨⟨1, 0⟩, 0, 0, ⟨0.5, 0, 0, 0⟩⟩)) = none ∧
    ∃ s', s.step mlog (.deliver 0 (.imu ⟨⟨1, 0⟩, 0, 0, ⟨0, 0, 0, 1⟩⟩)) = some s' := by
  refine ⟨⟨[[]], 1, [⟨.imu, 0, 0, 0, 0, 0⟩], fun _ => none, none, 0⟩, ⟨.imu, 0, 0, 0, 0, 0⟩, rfl, rfl, ?_, ?_, ?_⟩
  · exact (RosSub.Exec.nil _).snoc (.add .imu) _ trivial rfl
  · exact C86_false mlog _ 0 ⟨.imu, 0, 0, 0, 0, 0⟩ _ rfl rfl (by norm_num) (by norm_num)
  · obtain ⟨s', h, _⟩ := C86_queued_partial mlog ⟨[[]], 1, [⟨.imu, 0, 0, 0, 0, 0⟩], fun _ => none, none, 0⟩ 0
      ⟨.imu, 0, 0, 0, 0, 0⟩ ⟨⟨1, 0⟩, 0, 0, ⟨0, 0, 0, 1⟩⟩ rfl rfl _ (Or.inr ⟨by norm_num, rfl⟩)
    exact ⟨s', h⟩

/-! ### C88 -/

/-- **C88**: in every history of registrations, messages and reads, no two subscriptions share a queue or a mutex, and a
subscription with two queues has two different ones with two different mutexes. -/
theorem C88_private_queues (mlog : M4 → M4) (l : List SubOp) (s : RosSub) (D : List (ℕ × RosMsg))
    (P : List (ℕ × RosMeas)) (h : RosSub.Exec mlog .init l s D P) :
    (∀ (i : ℕ) (b : Bound), s.subs[i]? = some b → b.qs.Nodup ∧ b.ms.Nodup ∧ (∀ x ∈ b.qs, x < s.queues.length)) ∧
    (∀ (i j : ℕ) (b c : Bound), i ≠ j → s.subs[i]? = some b → s.subs[j]? = some c →
      (∀ x ∈ b.qs, x ∉ c.qs) ∧ (∀ x ∈ b.ms, x ∉ c.ms)) := by
  have I := RosSub.inv_exec h
  exact ⟨fun i b hb => ⟨(I.wired.lt i b hb).2.2.1, (I.wired.lt i b hb).2.2.2, (I.wired.lt i b hb).1⟩, I.wired.disj⟩

/-- **C88**: the queues and mutexes handed to the user are those the new subscription's callback uses. -/
theorem C88_handle (s s' : RosSub) (k : SubKind) (h : SubHandle) (e : s.add k = some (s', h)) :
    ∃ b, s'.subs = s.subs ++ [b] ∧ b.kind = k ∧ h.q = b.q ∧ h.m = b.m ∧ (k.two = true → h.q2 = b.q2 ∧ h.m2 = b.m2) := by
  obtain ⟨b, n, hs, hk, _, _, _, _, _, _, _, h1, h2, h3, _⟩ := RosSub.add_spec e
  exact ⟨b, hs, hk, h1, h2, h3⟩

/-- **C88**: for every subscription other than odometry, in every history: what was taken from its queue followed by
what is in it is exactly what the callback makes of the messages of its topic, in order; the same for the second
queue. -/
theorem C88_fifo (mlog : M4 → M4) (l : List SubOp) (s : RosSub) (D : List (ℕ × RosMsg))
    (P : List (ℕ × RosMeas)) (h : RosSub.Exec mlog .init l s D P) (i : ℕ) (b : Bound) (hb : s.subs[i]? = some b)
    (hk : b.kind.isOdom = false) :
    ∃ ps, List.Forall₂ (fun m p => Ros.convert b.kind m = some p) (forSub D i) ps ∧
      everQueued s P b.q = ps.flatMap Prod.fst ∧ (b.kind.two = true → everQueued s P b.q2 = ps.flatMap Prod.snd) :=
  (RosSub.inv_exec h).plain i b hb hk

/-- **C88**, read for a velocity topic: the stamps and velocities come out in the order of the messages. -/
theorem C88_velocity_topic (mlog : M4 → M4) (l : List SubOp) (s : RosSub) (D : List (ℕ × RosMsg))
    (P : List (ℕ × RosMeas)) (h : RosSub.Exec mlog .init l s D P) (i : ℕ) (b : Bound) (hb : s.subs[i]? = some b)
    (hk : b.kind = .vel) (ms : List TwistMsg) (hD : forSub D i = ms.map RosMsg.twist) :
    everQueued s P b.q = ms.map fun m => .vel ⟨m.stamp.toSec, m.lin⟩ := by
  obtain ⟨ps, h1, h2, h3⟩ := C88_fifo mlog l s D P h i b hb (by rw [hk]; rfl)
  clear h3
  rw [h2]
  rw [hD, hk] at h1
  clear h2 hD
  induction ms generalizing ps with
  | nil => cases h1; rfl
  | cons m ms ih =>
    cases h1 with
    | cons a r =>
      obtain rfl := Option.some.inj a
      rw [List.flatMap_cons, ih _ r]
      rfl

/-- two topics, one message each, one read: the hypotheses are met -/
example (mlog : M4 → M4) (a b : TwistMsg) : ∃ s, RosSub.Exec mlog .init
    [.add .vel, .add .velCov, .deliver 1 (.twist a), .deliver 0 (.twist b), .pop 1] s
    [(1, .twist a), (0, .twist b)] [(1, .vel (Ros.velCb a))] := by
  have e1 := (RosSub.Exec.nil (mlog := mlog) .init).snoc (.add .vel) _ trivial rfl
  have e2 := e1.snoc (.add .velCov) _ trivial rfl
  have e3 := e2.snoc (.deliver 1 (.twist a)) _ ⟨_, rfl, trivial⟩ rfl
  have e4 := e3.snoc (.deliver 0 (.twist b)) _ ⟨_, rfl, trivial⟩ rfl
  have e5 := e4.snoc (.pop 1) _ trivial rfl
  exact ⟨_, e5⟩

/-! ### C84 -/

/-- **C84**: for every odometry subscription, in every history: its queue receives exactly one velocity per consecutive
pair of messages of its own topic, in order, each computed from that pair with one of the registered mounting
transforms. -/
theorem C84_consecutive (mlog : M4 → M4) (l : List SubOp) (s : RosSub) (D : List (ℕ × RosMsg))
    (P : List (ℕ × RosMeas)) (h : RosSub.Exec mlog .init l s D P) (i : ℕ) (b : Bound) (hb : s.subs[i]? = some b)
    (hk : b.kind.isOdom = true) :
    ∃ ms vs, forSub D i = ms.map RosMsg.odom ∧ everQueued s P b.q = vs.map RosMeas.vel ∧
      OdomVels mlog (RegisteredMount l) ms vs := by
  obtain ⟨ms, vs, h1, h2, h3, _⟩ := (RosSub.inv_exec h).odom i b hb hk
  exact ⟨ms, vs, h1, h2, h3⟩

/-- **C84**: when the body's displacement between the messages is the exponential of a twist (that is, its logarithm is
the twist times the elapsed time), the velocity is the linear part of the twist. -/
theorem C84_constant_twist (mlog : M4 → M4) (T : M4) (m m' : OdomMsg) (v : VelMeas) (h : IsOdomVel mlog T m m' v)
    (E Ξ : M4) (hB : IsUnit (bodyPose T m).det) (hE : bodyPose T m' = bodyPose T m * E)
    (hlog : mlog E = (m'.stamp.toSec - m.stamp.toSec) • Ξ) (i : Fin 3) : v.vel i = Ξ i.castSucc 3 := by
  obtain ⟨_, h2, h3⟩ := h
  have := h3 i
  rw [hE, ← Matrix.mul_assoc, Matrix.nonsing_inv_mul _ hB, Matrix.one_mul, hlog] at this
  have hne : m'.stamp.toSec - m.stamp.toSec ≠ 0 := sub_ne_zero.2 h2
  rw [Matrix.smul_apply, smul_eq_mul, mul_comm] at this
  exact mul_left_cancel₀ hne this

/-! ### C83 -/

/-- **C83**, when all registered odometry sources have the same mounting transform `T` (for instance a single source):
every velocity is computed with it.  (Missing: different transforms, see `C83_false`.) -/
theorem C83_equal_mounts_partial (mlog : M4 → M4) (l : List SubOp) (s : RosSub) (D : List (ℕ × RosMsg))
    (P : List (ℕ × RosMeas)) (h : RosSub.Exec mlog .init l s D P) (T : M4)
    (hT : ∀ tr rot, SubOp.add (.odom tr rot) ∈ l → Ros.mount tr rot = some T)
    (i : ℕ) (b : Bound) (hb : s.subs[i]? = some b) (hk : b.kind.isOdom = true) :
    ∃ ms vs, forSub D i = ms.map RosMsg.odom ∧ everQueued s P b.q = vs.map RosMeas.vel ∧
      OdomVels mlog (fun T' => T' = T) ms vs := by
  obtain ⟨ms, vs, h1, h2, h3⟩ := C84_consecutive mlog l s D P h i b hb hk
  refine ⟨ms, vs, h1, h2, RosSub.OdomVels_mono h3 ?_⟩
  rintro T' ⟨tr, rot, ha, hm⟩
  exact Option.some.inj (hm.symm.trans (hT tr rot ha))

/-- the odometry message with identity orientation at the point (x, 0, 0) -/
def exOdom (sec : ℕ) (x : ℝ) : OdomMsg := ⟨⟨sec, 0⟩, ![x, 0, 0], ⟨1, 0, 0, 0⟩⟩

/-- rotation by 180 degrees about z -/
def exHalfTurn : M4 := !![-1, 0, 0, 0; 0, -1, 0, 0; 0, 0, 1, 0; 0, 0, 0, 1]

/-- **C83** is false: a front sensor (identity mounting) registered first and a rear sensor (turned by 180 degrees)
registered second; the robot drives forward 1 m in 1 s according to the front sensor, and the velocity queued for the
front sensor is 1 m/s backwards.  (`mlog` is any function that agrees with the matrix logarithm on 1 + N, N² = 0.) -/
theorem C83_false (mlog : M4 → M4) (hlog : ∀ N : M4, N * N = 0 → mlog (1 + N) = N) :
    ∃ s D, RosSub.Exec mlog .init [.add (.odom [0, 0, 0] [1, 0, 0, 0]), .add (.odom [0, 0, 0] [0, 0, 0, 1]),
        .deliver 0 (.odom (exOdom 1 0)), .deliver 0 (.odom (exOdom 2 1))] s D [] ∧
      s.queues = [[.vel ⟨2, ![-1, 0, 0]⟩], []] ∧
      Ros.mount [0, 0, 0] [1, 0, 0, 0] = some 1 ∧ IsOdomVel mlog 1 (exOdom 1 0) (exOdom 2 1) ⟨2, ![1, 0, 0]⟩ := by
  have hp : ∀ x : ℝ, Ros.pose4 (Quat.toRot ⟨1, 0, 0, 0⟩) ![x, 0, 0] =
      !![1, 0, 0, x; 0, 1, 0, 0; 0, 0, 1, 0; 0, 0, 0, 1] := by
    intro x
    ext i j
    fin_cases i <;> fin_cases j <;> simp [Ros.pose4, Quat.toRot]
  have hone : (1 : M4) = !![1, 0, 0, 0; 0, 1, 0, 0; 0, 0, 1, 0; 0, 0, 0, 1] := by
    ext i j
    fin_cases i <;> fin_cases j <;> simp
  have hm0 : Ros.mount [0, 0, 0] [1, 0, 0, 0] = some 1 := by
    have : Ros.mount [0, 0, 0] [1, 0, 0, 0] = some (Ros.pose4 (Quat.toRot ⟨1, 0, 0, 0⟩) ![0, 0, 0]) := rfl
    rw [this, hp 0, ← hone]
  have hm1 : Ros.mount [0, 0, 0] [0, 0, 0, 1] = some exHalfTurn := by
    have : Ros.mount [0, 0, 0] [0, 0, 0, 1] = some (Ros.pose4 (Quat.toRot ⟨0, 0, 0, 1⟩) ![0, 0, 0]) := rfl
    rw [this]
    congr 1
    ext i j
    fin_cases i <;> fin_cases j <;> simp [Ros.pose4, Quat.toRot, exHalfTurn] <;> norm_num
  have hH : exHalfTurn * exHalfTurn = 1 := by
    ext i j
    fin_cases i <;> fin_cases j <;> simp [exHalfTurn, Matrix.mul_apply, Fin.sum_univ_four]
  have hHi : exHalfTurn⁻¹ = exHalfTurn := Matrix.inv_eq_right_inv hH
  have hHd : exHalfTurn.det ≠ 0 := by
    intro k
    have := congrArg Matrix.det hH
    rw [Matrix.det_mul, k, Matrix.det_one] at this
    norm_num at this
  have ho1 : Ros.odomOf (exOdom 1 0) = (1, 1) := by
    show (Ros.pose4 (Quat.toRot ⟨1, 0, 0, 0⟩) ![0, 0, 0], Stamp.toSec ⟨1, 0⟩) = _
    rw [hp 0, ← hone]
    norm_num [Stamp.toSec]
  have ho2 : Ros.odomOf (exOdom 2 1) = (!![1, 0, 0, 1; 0, 1, 0, 0; 0, 0, 1, 0; 0, 0, 0, 1], 2) := by
    show (Ros.pose4 (Quat.toRot ⟨1, 0, 0, 0⟩) ![1, 0, 0], Stamp.toSec ⟨2, 0⟩) = _
    rw [hp 1]
    norm_num [Stamp.toSec]
  have hX : exHalfTurn * 1 * !![1, 0, 0, 1; 0, 1, 0, 0; 0, 0, 1, 0; 0, 0, 0, 1] * exHalfTurn =
      1 + !![0, 0, 0, -1; 0, 0, 0, 0; 0, 0, 0, 0; 0, 0, 0, 0] := by
    ext i j
    fin_cases i <;> fin_cases j <;> simp [exHalfTurn, Matrix.mul_apply, Fin.sum_univ_four]
  have hN : ∀ x : ℝ, (!![0, 0, 0, x; 0, 0, 0, 0; 0, 0, 0, 0; 0, 0, 0, 0] : M4) *
      !![0, 0, 0, x; 0, 0, 0, 0; 0, 0, 0, 0; 0, 0, 0, 0] = 0 := by
    intro x
    ext i j
    fin_cases i <;> fin_cases j <;> simp [Matrix.mul_apply, Fin.sum_univ_four]
  have hv : Ros.odomVel mlog exHalfTurn (Ros.odomOf (exOdom 1 0)) (Ros.odomOf (exOdom 2 1)) =
      some ⟨2, ![-1, 0, 0]⟩ := by
    rw [ho1, ho2]
    unfold Ros.odomVel Ros.inv4
    rw [if_neg hHd, if_neg (by rw [Matrix.det_one]; exact one_ne_zero)]
    simp only [Option.bind_eq_bind, Option.bind_some]
    rw [hHi, inv_one, hX, hlog _ (hN _)]
    norm_num
    exact ⟨rfl, rfl, rfl⟩
  have e1 := (RosSub.Exec.nil (mlog := mlog) .init).snoc (.add (.odom [0, 0, 0] [1, 0, 0, 0]))
    ⟨[[]], 1, [⟨.odom [0, 0, 0] [1, 0, 0, 0], 0, 0, 0, 0, 0⟩], fun _ => none, some 1, 1⟩ trivial (by
      simp [RosSub.step, RosSub.add, SubKind.two, hm0, RosSub.init])
  have e2 := e1.snoc (.add (.odom [0, 0, 0] [0, 0, 0, 1]))
    ⟨[[], []], 2, [⟨.odom [0, 0, 0] [1, 0, 0, 0], 0, 0, 0, 0, 0⟩, ⟨.odom [0, 0, 0] [0, 0, 0, 1], 1, 1, 0, 0, 1⟩],
      fun _ => none, some exHalfTurn, 2⟩ trivial (by
      simp [RosSub.step, RosSub.add, SubKind.two, hm1])
  have e3 := e2.snoc (.deliver 0 (.odom (exOdom 1 0)))
    ⟨[[], []], 2, [⟨.odom [0, 0, 0] [1, 0, 0, 0], 0, 0, 0, 0, 0⟩, ⟨.odom [0, 0, 0] [0, 0, 0, 1], 1, 1, 0, 0, 1⟩],
      Function.update (fun _ => none) 0 (some (Ros.odomOf (exOdom 1 0))), some exHalfTurn, 2⟩ ⟨_, rfl, trivial⟩ rfl
  have e4 := e3.snoc (.deliver 0 (.odom (exOdom 2 1)))
    ⟨[[.vel ⟨2, ![-1, 0, 0]⟩], []], 2,
      [⟨.odom [0, 0, 0] [1, 0, 0, 0], 0, 0, 0, 0, 0⟩, ⟨.odom [0, 0, 0] [0, 0, 0, 1], 1, 1, 0, 0, 1⟩],
      Function.update (Function.update (fun _ => none) 0 (some (Ros.odomOf (exOdom 1 0)))) 0
        (some (Ros.odomOf (exOdom 2 1))), some exHalfTurn, 2⟩ ⟨_, rfl, trivial⟩ (by
      simp only [RosSub.step, List.getElem?_cons_zero]
      rw [RosSub.callback_odom mlog _ _ rfl]
      simp only [Function.update_self, Option.bind_some]
      rw [hv]
      rfl)
  refine ⟨_, _, e4, rfl, hm0, ?_⟩
  refine ⟨by norm_num [exOdom, Stamp.toSec], by norm_num [exOdom, Stamp.toSec], ?_⟩
  have hb1 : bodyPose 1 (exOdom 1 0) = 1 := by
    unfold bodyPose
    rw [Matrix.mul_one]
    exact congrArg Prod.fst ho1
  have hb2 : bodyPose 1 (exOdom 2 1) = 1 + !![0, 0, 0, 1; 0, 0, 0, 0; 0, 0, 0, 0; 0, 0, 0, 0] := by
    unfold bodyPose
    rw [Matrix.mul_one]
    refine (congrArg Prod.fst ho2).trans ?_
    ext i j
    fin_cases i <;> fin_cases j <;> simp
  rw [hb1, hb2, inv_one, Matrix.one_mul, hlog _ (hN _)]
  have ht : (exOdom 2 1).stamp.toSec - (exOdom 1 0).stamp.toSec = 1 := by norm_num [exOdom, Stamp.toSec]
  rw [ht]
  intro i
  rw [mul_one]
  fin_cases i <;> rfl

/-- a function with the property required of the logarithm -/
example : ∃ mlog : M4 → M4, ∀ N : M4, N * N = 0 → mlog (1 + N) = N := ⟨fun A => A - 1, fun N _ => by simp⟩

end Drift
