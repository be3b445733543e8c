import Verif.Props.Kinematics
import Verif.Props.RosSub
import Verif.Model.System

/-!
# C103: from the sensor messages to what the estimator sees
-/
namespace Drift
open Matrix CheetahMeas

theorem legOf_some (k : KinMeas) : ∃ m' l, k.obj.ComputeKinematics = some m' ∧ m'.contacts = List.ofFn k.contacts ∧
    m'.encoders = List.ofFn k.encoders ∧ m'.dEncoders = List.ofFn k.dEncoders ∧ legOf k = some l ∧ l.time = k.time ∧
    l.legs.length = 4 ∧ (l.initVel = fun w => (m'.get_init_velocity w).getD 0) ∧
    (∀ g : Leg, ∃ J : M3, l.legs[g.idx.val]? = some ⟨k.contacts g.idx, legPos g k.encoders, J⟩ ∧
      ∀ (γ : ℝ → Fin 12 → ℝ) (v : Fin 12 → ℝ) (t : ℝ), γ t = k.encoders → HasDerivAt γ v t → ∀ i,
            HasDerivAt (fun s => legPos g (γ s) i) (J.mulVec (fun k => v (g.joint k)) i) t) := by
  have hd3 : k.obj.dEncoders = List.ofFn k.dEncoders := rfl
  obtain ⟨m', h1, h2, h3, h4, h5⟩ := C93_compute_kinematics k.obj k.encoders rfl (by
    show (List.ofFn k.contacts).length = 4
    simp)
  have h2 : m'.contacts = List.ofFn k.contacts := h2
  have h3 : m'.encoders = List.ofFn k.encoders := h3
  have hc : ∀ g : Leg, m'.get_contact g.idx = some (k.contacts g.idx) := by
    intro g
    unfold get_contact
    rw [h2, List.getElem?_ofFn, dif_pos g.idx.isLt]
  choose hp J hJ hd using h5
  have key : ∀ g : Leg, m'.legObs g.idx = some ⟨k.contacts g.idx, legPos g k.encoders, J g⟩ := by
    intro g
    unfold legObs
    rw [hc, hp, hJ]
    rfl
  refine ⟨m', ⟨k.time, [⟨k.contacts 0, legPos .FR k.encoders, J .FR⟩, ⟨k.contacts 1, legPos .FL k.encoders, J .FL⟩,
    ⟨k.contacts 2, legPos .HR k.encoders, J .HR⟩, ⟨k.contacts 3, legPos .HL k.encoders, J .HL⟩],
    fun w => (m'.get_init_velocity w).getD 0⟩, h1, h2, h3, h4.trans hd3, ?_, rfl, rfl, rfl, ?_⟩
  · have e0 : m'.legObs 0 = _ := key .FR
    have e1 : m'.legObs 1 = _ := key .FL
    have e2 : m'.legObs 2 = _ := key .HR
    have e3 : m'.legObs 3 = _ := key .HL
    unfold legOf
    rw [h1]
    simp only [Option.bind_eq_bind, Option.bind_some]
    have hr : List.range m'.get_num_legs = [0, 1, 2, 3] := rfl
    rw [hr]
    simp only [List.mapM_cons, List.mapM_nil, Option.bind_eq_bind]
    rw [e0, e1, e2, e3]
    rfl
  · intro g
    refine ⟨J g, ?_, hd g⟩
    cases g <;> rfl

/-- the callback of a subscription that has one queue and is no odometry source pushes what it makes of the message -/
theorem deliver_one (mlog : M4 → M4) (s : RosSub) (i : ℕ) (b : Bound) (msg : RosMsg) (hb : s.subs[i]? = some b)
    (ho : b.kind.isOdom = false) (ms : List RosMeas) (hc : Ros.convert b.kind msg = some (ms, [])) :
    ∃ s', s.step mlog (.deliver i msg) = some s' ∧ s'.queues = s.queues.modify b.q (· ++ ms) ∧ s'.subs = s.subs := by
  simp only [RosSub.step, hb]
  rw [RosSub.callback_plain mlog s b ho, hc]
  refine ⟨_, rfl, ?_, rfl⟩
  have hid : ∀ (n : ℕ) (l : List (List RosMeas)), l.modify n (· ++ []) = l := by
    intro n l
    apply List.ext_getElem?
    intro k
    rw [List.getElem?_modify]
    cases l[k]? <;> simp
  show ((s.queues.modify b.q _).modify b.q2 (· ++ [])) = _
  rw [hid]

theorem readN_spec {α : Type} [Inhabited α] (l : List α) (n : ℕ) :
    (∀ f, Ros.readN l n = some f ↔ ∀ i : Fin n, l[i.val]? = some (f i)) ∧ (Ros.readN l n = none ↔ l.length < n) := by
  unfold Ros.readN
  constructor
  · intro f
    constructor
    · intro h i
      split_ifs at h with hn
      rw [← Option.some.inj h]
      have hi : i.val < l.length := by have := i.isLt; omega
      simp [List.getElem?_eq_getElem hi, getElem!_pos l i.val hi]
    · intro h
      have hn : n ≤ l.length := by
        rcases Nat.eq_zero_or_pos n with hz | hz
        · omega
        · have := h ⟨n - 1, by omega⟩
          have := (List.getElem?_eq_some_iff.1 this).1
          simp only at this
          omega
      rw [if_pos hn]
      congr 1
      funext i
      have hi : i.val < l.length := by have := i.isLt; omega
      have := h i
      rw [List.getElem?_eq_getElem hi] at this
      rw [getElem!_pos l i.val hi]
      exact Option.some.inj this
  · split_ifs with hn
    · simp; omega
    · simp; omega

/-- **C103**, legged robot: a pair of synchronised messages, contacts `ct` and joint angles `q` with rates `dq` (the first four
and the first twelve entries; further entries are ignored), adds exactly one measurement to the queue.  The legged
correction sees it with the stamp of the contact message, four legs, each leg's contact flag, the foot position of the
robot's geometry at these joint angles and its derivative by the leg's own joints. -/
theorem C103_kinematic_message (mlog : M4 → M4) (s : RosSub) (i : ℕ) (b : Bound) (hb : s.subs[i]? = some b) (hk : b.kind = .kin)
    (c : ContactMsg) (e : JointMsg) (ct : Fin 4 → Bool) (q dq : Fin 12 → ℝ)
    (hct : ∀ j : Fin 4, c.contacts[j.val]? = some (ct j)) (hq : ∀ j : Fin 12, e.pos[j.val]? = some (q j))
    (hdq : ∀ j : Fin 12, e.vel[j.val]? = some (dq j)) :
    ∃ s' k l, s.step mlog (.deliver i (.kin c e)) = some s' ∧ s'.queues = s.queues.modify b.q (· ++ [.kin k]) ∧
      k.contacts = ct ∧ k.encoders = q ∧ k.dEncoders = dq ∧ legOf k = some l ∧ l.time = c.stamp.toSec ∧ l.legs.length = 4 ∧
      ∀ g : Leg, ∃ J : M3, l.legs[g.idx.val]? = some ⟨ct g.idx, legPos g q, J⟩ ∧
        ∀ (γ : ℝ → Fin 12 → ℝ) (v : Fin 12 → ℝ) (t : ℝ), γ t = q → HasDerivAt γ v t → ∀ i,
          HasDerivAt (fun s => legPos g (γ s) i) (J.mulVec (fun k => v (g.joint k)) i) t := by
  have hcb : Ros.kinCb c e = some ⟨c.stamp.toSec, ct, q, dq⟩ := by
    unfold Ros.kinCb
    rw [((readN_spec _ _).1 ct).2 hct, ((readN_spec _ _).1 q).2 hq, ((readN_spec _ _).1 dq).2 hdq]
    rfl
  obtain ⟨s', h1, h2, -⟩ := deliver_one mlog s i b (.kin c e) hb (by rw [hk]; rfl) [.kin ⟨c.stamp.toSec, ct, q, dq⟩] (by
    rw [hk]
    simp [Ros.convert, hcb])
  obtain ⟨m', l, -, -, -, -, k2, k3, k4, -, k6⟩ := legOf_some ⟨c.stamp.toSec, ct, q, dq⟩
  exact ⟨s', _, l, h1, h2, rfl, rfl, rfl, k2, k3, k4, k6⟩

/-- **C103**: the velocity that such a measurement gives to the initialisation makes the first foot in contact stand still:
if the robot moves with that body velocity, body rate `w` and the measured joint rates, the foot does not move. -/
theorem C103_initial_velocity (k : KinMeas) (l : LegMeas) (hl : legOf k = some l) (g : Leg) (hg : k.contacts g.idx = true)
    (hfirst : ∀ g' : Leg, g'.idx < g.idx → k.contacts g'.idx = false) (w : V3)
    (x : ℝ → V3) (B : ℝ → M3) (γ : ℝ → Fin 12 → ℝ) (t : ℝ) (hγ : γ t = k.encoders) (hd : HasDerivAt γ k.dEncoders t)
    (hx : ∀ i, HasDerivAt (fun s => x s i) ((B t).mulVec (l.initVel w) i) t)
    (hB : ∀ i j, HasDerivAt (fun s => B s i j) ((B t * skew w) i j) t) (i : Fin 3) :
    HasDerivAt (fun s => (x s + (B s).mulVec (legPos g (γ s))) i) 0 t := by
  obtain ⟨m', l', -, h2, h3, h4, k2, -, -, k5, -⟩ := legOf_some k
  obtain rfl := Option.some.inj (hl.symm.trans k2)
  have hf : FirstContact m'.contacts g := by
    rw [h2]
    refine ⟨by rw [List.getElem?_ofFn, dif_pos g.idx.isLt]; exact congrArg some hg, fun n hn => ?_⟩
    have hn4 : n < 4 := hn.trans g.idx.isLt
    rw [List.getElem?_ofFn, dif_pos hn4]
    have hx : ∃ g' : Leg, g'.idx = ⟨n, hn4⟩ := by
      have : n = 0 ∨ n = 1 ∨ n = 2 ∨ n = 3 := by omega
      rcases this with rfl | rfl | rfl | rfl
      exacts [⟨.FR, rfl⟩, ⟨.FL, rfl⟩, ⟨.HR, rfl⟩, ⟨.HL, rfl⟩]
    obtain ⟨g', hg'⟩ := hx
    have := hfirst g' (by rw [hg', Fin.lt_def]; exact hn)
    rw [hg'] at this
    exact congrArg some this
  obtain ⟨v, e, hv⟩ := C87_stance_foot_stationary m' k.encoders k.dEncoders h3 h4 hf w
  refine hv x B γ t hγ hd (fun i => ?_) hB i
  have := hx i
  rw [k5] at this
  beta_reduce at this
  rw [e] at this
  exact this

/-- **C103**: a contact message with fewer than four contacts, or a joint message with fewer than twelve positions or
velocities, is read out of bounds. -/
theorem C103_short_messages (c : ContactMsg) (e : JointMsg) :
    Ros.kinCb c e = none ↔ c.contacts.length < 4 ∨ e.pos.length < 12 ∨ e.vel.length < 12 := by
  unfold Ros.kinCb
  rw [← (readN_spec c.contacts 4).2, ← (readN_spec e.pos 12).2, ← (readN_spec e.vel 12).2]
  cases Ros.readN c.contacts 4 <;> cases Ros.readN e.pos 12 <;> cases Ros.readN e.vel 12 <;> simp

/-- **C103**, Fetch IMU: as for other IMUs (C86), with the angular velocity being the sum of the IMU's and of the offset message. -/
theorem C103_fetch_imu (mlog : M4 → M4) (s : RosSub) (i : ℕ) (b : Bound) (m : ImuMsg) (off : V3) (hb : s.subs[i]? = some b)
    (hk : b.kind = .fetchImu) (q : Quat)
    (hq : (m.ori.w = 0 ∧ m.ori.x = 0 ∧ m.ori.y = 0 ∧ m.ori.z = 0 ∧ q = ⟨1, 0, 0, 0⟩) ∨
      (|m.ori.w ^ 2 + m.ori.x ^ 2 + m.ori.y ^ 2 + m.ori.z ^ 2 - 1| < 1e-5 ∧ q = m.ori)) :
    ∃ s', s.step mlog (.deliver i (.imuOff m off)) = some s' ∧
      s'.queues = s.queues.modify b.q (· ++ [.imu ⟨m.stamp.toSec, m.angVel + off, m.linAcc, q⟩]) := by
  have key : Ros.fetchImuCb m off = some ⟨m.stamp.toSec, m.angVel + off, m.linAcc, q⟩ := by
    unfold Ros.fetchImuCb Ros.imuCb
    rcases hq with ⟨h1, h2, h3, h4, rfl⟩ | ⟨h, rfl⟩
    · simp only [h1, h2, h3, h4]
      rw [if_neg (by norm_num)]
      rfl
    · have hne : m.ori.w ^ 2 + m.ori.x ^ 2 + m.ori.y ^ 2 + m.ori.z ^ 2 ≠ 0 := by
        intro k
        rw [k] at h
        norm_num at h
      simp only []
      rw [if_pos hne, (C79_stored_iff_normalised _ _ _ _ _).1 h]
      rfl
  obtain ⟨s', h1, h2, -⟩ := deliver_one mlog s i b (.imuOff m off) hb (by rw [hk]; rfl)
    [.imu ⟨m.stamp.toSec, m.angVel + off, m.linAcc, q⟩] (by
      rw [hk]
      simp [Ros.convert, key])
  exact ⟨s', h1, h2⟩

/-- a subscriber with a kinematics topic receives messages with 4 contacts and 12 joints: the hypotheses are met -/
example (mlog : M4 → M4) : ∃ s b c e s', s.subs[0]? = some b ∧ b.kind = .kin ∧ RosSub.Exec mlog .init [.add .kin] s [] [] ∧
    s.step mlog (.deliver 0 (.kin c e)) = some s' ∧ s'.queues.length = 1 := by
  obtain ⟨s', k, l, h1, h2, -⟩ := C103_kinematic_message mlog ⟨[[]], 1, [⟨.kin, 0, 0, 0, 0, 0⟩], fun _ => none, none, 0⟩ 0 ⟨.kin, 0, 0, 0, 0, 0⟩ rfl
    rfl ⟨⟨3, 0⟩, [true, false, false, true]⟩ ⟨⟨3, 0⟩, List.ofFn fun i : Fin 12 => (i.val : ℝ), List.ofFn fun _ : Fin 12 => (1 : ℝ)⟩
    ![true, false, false, true] (fun i => i.val) (fun _ => 1) (by intro j; fin_cases j <;> rfl)
    (by intro j; rw [List.getElem?_ofFn, dif_pos j.isLt]) (by intro j; rw [List.getElem?_ofFn, dif_pos j.isLt])
  exact ⟨_, _, _, _, s', rfl, rfl, (RosSub.Exec.nil _).snoc (.add .kin) _ trivial rfl, h1, by rw [h2]; simp⟩

end Drift
