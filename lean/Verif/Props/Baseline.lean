import Verif.Lemmas.DiffDrive
import Verif.Props.Wheel

/-!
# Properties of the baseline programs (wheel odometry)
-/
set_option linter.unusedSimpArgs false
namespace Drift
open Real Matrix Mat

/-! ### messages and readings -/

/-- the pair of measurements of a reading -/
def Reading.pair (r : Reading) : VelMeas × AngVelMeas := (⟨r.t, ![r.v, 0, 0]⟩, ⟨r.t, ![0, 0, r.ω]⟩)

theorem callback_reading {p : BaseProg} {m : JointMsg} (h : p.Fine (.joint m)) :
    p.callback m = some ((p.reading m).map Reading.pair) := by
  obtain ⟨st, pos, vel⟩ := m
  cases p with
  | husky =>
    obtain ⟨a0, a1, a2, a3, l, rfl⟩ : ∃ a0 a1 a2 a3 l, vel = a0 :: a1 :: a2 :: a3 :: l := by
      match vel, h with
      | a0 :: a1 :: a2 :: a3 :: l, _ => exact ⟨_, _, _, _, _, rfl⟩
    simp [BaseProg.callback, Ros.diff2Cb, Ros.wheels4, BaseProg.reading, Reading.pair]
    norm_num
    constructor
    · ring
    · congr 2; ring
  | fetch =>
    match vel, h with
    | [], _ => simp [BaseProg.callback, Ros.fetch2Cb, BaseProg.reading]
    | [_], _ => simp [BaseProg.callback, Ros.fetch2Cb, BaseProg.reading]
    | [_, _], _ => simp [BaseProg.callback, Ros.fetch2Cb, BaseProg.reading]
    | a0 :: a1 :: a2 :: l, _ =>
      simp [BaseProg.callback, Ros.fetch2Cb, Ros.wheels2, BaseProg.reading, Reading.pair]
      norm_num
      constructor
      · congr 1; ring
      · congr 2; ring

theorem imuCb_fine {m : ImuMsg} (h : BaseProg.husky.Fine (.imu m)) : ∃ r, Ros.imuCb m = some r := by
  simp only [BaseProg.Fine] at h
  unfold Ros.imuCb
  by_cases h0 : m.ori.w ^ 2 + m.ori.x ^ 2 + m.ori.y ^ 2 + m.ori.z ^ 2 = 0
  · exact ⟨_, if_neg (not_not.mpr h0)⟩
  · rcases h with h | h
    · exact absurd h h0
    · simp only [if_pos h0, ImuMeas.set_quaternion]
      rw [show m.ori.w * m.ori.w + m.ori.x * m.ori.x + m.ori.y * m.ori.y + m.ori.z * m.ori.z - 1 =
        m.ori.w ^ 2 + m.ori.x ^ 2 + m.ori.y ^ 2 + m.ori.z ^ 2 - 1 by ring, if_neg (not_le.mpr h)]
      exact ⟨_, rfl⟩

theorem runs_exec {p : BaseProg} {s0 : OSys} : ∀ (acts : List BAct) {s s' : BSys} {l D N}, OSys.Exec s0 l s.core D N →
    p.runs s acts = some s' → (∀ a ∈ acts, p.Fine a) →
    ∃ l' N', OSys.Exec s0 l' s'.core (D ++ (p.readings acts).map Reading.pair) N' ∧
      s'.imuQ = s.imuQ ++ (imuMsgs acts).filterMap Ros.imuCb := by
  intro acts
  induction acts with
  | nil =>
    intro s s' l D N he h _
    obtain rfl := Option.some.inj h
    exact ⟨l, N, by simpa [BaseProg.readings] using he, by simp [imuMsgs]⟩
  | cons a acts ih =>
    intro s s' l D N he h hf
    obtain ⟨s1, h1, h2⟩ := Option.bind_eq_some_iff.mp h
    have hf' : ∀ a ∈ acts, p.Fine a := fun a ha => hf a (by simp [ha])
    have ha := hf a (by simp)
    cases a with
    | joint m =>
      simp only [BaseProg.act] at h1
      obtain ⟨c, hc⟩ : ∃ c, s.core.cb = c := ⟨_, rfl⟩
      rw [hc] at h1
      cases c <;> simp only [reduceCtorEq] at h1
      rw [callback_reading ha] at h1
      cases hr : p.reading m with
      | none =>
        rw [hr] at h1
        obtain rfl := Option.some.inj h1
        obtain ⟨l', N', e, q⟩ := ih he h2 hf'
        exact ⟨l', N', by simpa [BaseProg.readings, hr] using e, by simpa [imuMsgs] using q⟩
      | some r =>
        rw [hr] at h1
        obtain ⟨c, hd, rfl⟩ := Option.map_eq_some_iff.mp h1
        obtain ⟨l', N', e, q⟩ := ih (he.snoc _ c hd) h2 hf'
        exact ⟨l', N', by simpa [BaseProg.readings, hr, OSys.deliveredBy, Reading.pair] using e, by simpa [imuMsgs] using q⟩
    | imu m =>
      cases p with
      | fetch => simp [BaseProg.act] at h1
      | husky =>
        obtain ⟨r, hr⟩ := imuCb_fine ha
        simp only [BaseProg.act, hr] at h1
        obtain rfl := Option.some.inj h1
        obtain ⟨l', N', e, q⟩ := ih (s := { s with imuQ := s.imuQ ++ [r] }) he h2 hf'
        exact ⟨l', N', by simpa [BaseProg.readings] using e, by simpa [imuMsgs, hr] using q⟩
    | cb =>
      obtain ⟨c, hd, rfl⟩ := Option.map_eq_some_iff.mp h1
      obtain ⟨l', N', e, q⟩ := ih (he.snoc _ c hd) h2 hf'
      exact ⟨l', N', by simpa [BaseProg.readings, OSys.deliveredBy] using e, by simpa [imuMsgs] using q⟩
    | run =>
      obtain ⟨c, hd, rfl⟩ := Option.map_eq_some_iff.mp h1
      obtain ⟨l', N', e, q⟩ := ih (he.snoc _ c hd) h2 hf'
      exact ⟨l', N', by simpa [BaseProg.readings, OSys.deliveredBy] using e, by simpa [imuMsgs] using q⟩

/-! ### the reported pose -/

theorem Odo.Good.world {o : Odo} (h : o.Good) : o.state.get_world_rotation = some (o.state.X.blk3 0 0) ∧
    o.state.get_world_position = some (o.state.X.blkV 0 4) := by
  have hr := h.rows; have hc := h.cols
  constructor
  · unfold RobotState.get_world_rotation RobotState.get_rotation
    rw [h.type]
    exact blk3?_eq (by omega) (by omega)
  · unfold RobotState.get_world_position RobotState.get_position
    rw [h.type]
    exact blkV?_eq (by omega) (by omega)

theorem reckons_readings : ∀ (l : List Reading) (o : Odo) (s : Planar), o.Good → o.prevT ≠ 0 → o.prevT = s.t → o.Reports s →
    (∀ r ∈ l, r.t ≠ 0) → ∃ o', o.processAll (l.map Reading.pair) = some o' ∧ o'.Good ∧ o'.Reports (s.reckon l) := by
  intro l
  induction l with
  | nil => exact fun o s hg _ _ hr _ => ⟨o, rfl, hg, hr⟩
  | cons r l ih =>
    intro o s hg h0 hs hr hl
    obtain ⟨ht, hR, hp⟩ := hr
    rw [hg.world.1] at hR
    rw [hg.world.2] at hp
    have hR := Option.some.inj hR
    have hp := Option.some.inj hp
    obtain ⟨o1, e, hg1, h1, h2, _, _, _, h3⟩ := Odo.process_good hg (fun _ => by rw [ht, hs]) r.pair.1 r.pair.2
    obtain ⟨hX, _⟩ := h3 h0
    have hr0 : r.t ≠ 0 := hl r (by simp)
    have hpair1 : r.pair.1 = ⟨r.t, ![r.v, 0, 0]⟩ := rfl
    have hpair2 : r.pair.2 = ⟨r.t, ![0, 0, r.ω]⟩ := rfl
    rw [hR, hp, hs, hpair1, hpair2] at hX
    dsimp only at hX
    have hw : (r.t - s.t) • (![0, 0, r.ω] : V3) = ![0, 0, r.ω * (r.t - s.t)] := by
      funext i; fin_cases i <;> simp [mul_comm]
    rw [hw, Gam0_vertical, Rz_mul, Rz_fwd] at hX
    have hpos : (![s.x, s.y, 0] : V3) + (r.t - s.t) • (![r.v * cos s.θ, r.v * sin s.θ, 0] : V3) =
        ![s.x + r.v * (r.t - s.t) * cos s.θ, s.y + r.v * (r.t - s.t) * sin s.θ, 0] := by
      funext i; fin_cases i <;> simp <;> ring
    rw [hpos] at hX
    obtain ⟨_, _, b1, _, b2, _⟩ := Odo.X5_blocks (Rz (s.θ + turnOf (r.ω * (r.t - s.t)))) ![r.v * cos s.θ, r.v * sin s.θ, 0]
      ![s.x + r.v * (r.t - s.t) * cos s.θ, s.y + r.v * (r.t - s.t) * sin s.θ, 0]
    obtain ⟨o', e', hg', hr'⟩ := ih o1 ⟨r.t, s.θ + turnOf (r.ω * (r.t - s.t)), s.x + r.v * (r.t - s.t) * cos s.θ,
      s.y + r.v * (r.t - s.t) * sin s.θ⟩ hg1 (by rw [h1]; exact hr0) h1
      ⟨h2, by rw [hg1.world.1, hX, b1], by rw [hg1.world.2, hX, b2]⟩ fun r' hr' => hl r' (by simp [hr'])
    exact ⟨o', by rw [List.map_cons, Odo.processAll, e]; exact e', hg', hr'⟩

theorem odo_reports (b : Bool) (q : Option ℝ) (r : Reading) (l : List Reading) (hl : ∀ x ∈ r :: l, x.t ≠ 0) :
    ∃ o, (Odo.ctor b q).processAll ((r :: l).map Reading.pair) = some o ∧ o.Good ∧ o.Reports (Planar.reckon ⟨r.t, 0, 0, 0⟩ l) := by
  obtain ⟨o1, e, hg1, h1, h2, _, _, h3, _⟩ := Odo.process_good (Odo.ctor_good b q) (fun h => absurd rfl h) r.pair.1 r.pair.2
  obtain ⟨hX, _⟩ := h3 rfl
  have hR : (Odo.ctor b q).state.X.blk3 0 0 = 1 := by
    funext i j
    fin_cases i <;> fin_cases j <;> simp [Odo.ctor, RobotState.init, blk3, Mat.one, Mat.eye, Mat.ofFn]
  have hp : (Odo.ctor b q).state.X.blkV 0 4 = 0 := by
    funext i
    fin_cases i <;> simp [Odo.ctor, RobotState.init, blkV, Mat.one, Mat.eye, Mat.ofFn]
  obtain ⟨o, e', hg, hr⟩ := reckons_readings l o1 ⟨r.t, 0, 0, 0⟩ hg1 (by rw [h1]; exact hl r (by simp)) h1
    ⟨h2, by rw [hg1.world.1, hX, hR, Rz_zero], by rw [hg1.world.2, hX, hp]; congr 1; funext i; fin_cases i <;> rfl⟩
    fun x hx => hl x (by simp [hx])
  exact ⟨o, by rw [List.map_cons, Odo.processAll, e]; exact e', hg, hr⟩

/-! ### C110 -/

/-- **C110**: for every interleaving of joint messages, IMU messages, callback steps and steps of the main loop, neither
program reaches undefined behaviour or an uncaught exception, and the pose it holds is planar dead reckoning of the first
`n` readings of the joint messages that the program does not ignore, from the origin at the stamp of the first: its time,
rotation about the vertical axis and position (height 0).  `n` is the number of all readings whenever both threads are
idle and the velocity queue is empty. -/
theorem C110_pose (p : BaseProg) {acts : List BAct} {s : BSys} (h : p.runs BaseProg.start acts = some s)
    (hf : ∀ a ∈ acts, p.Fine a) (ht : ∀ r ∈ p.readings acts, r.t ≠ 0) :
    ∃ n o, n ≤ (p.readings acts).length ∧ s.core.odo = some o ∧
      (∀ r l, (p.readings acts).take n = r :: l → o.Reports (Planar.reckon ⟨r.t, 0, 0, 0⟩ l)) ∧
      (n = 0 → o = Odo.ctor true (some 100)) ∧
      (s.core.cb = .idle → s.core.run = .idle → s.core.velQ = [] → n = (p.readings acts).length) := by
  obtain ⟨l', N', e, -⟩ := runs_exec acts (.nil (OSys.init (Odo.ctor true (some 100)))) h hf
  rw [List.nil_append] at e
  have hpre := C74_pairs_same_message _ _ _ _ _ e
  have hseq := C74_sequential _ _ _ _ _ e
  have hlen : N'.length ≤ (p.readings acts).length := by simpa using hpre.length_le
  have hN : N' = ((p.readings acts).take N'.length).map Reading.pair := by
    rw [List.map_take]
    exact List.prefix_iff_eq_take.mp hpre
  have hidle : s.core.cb = .idle → s.core.run = .idle → s.core.velQ = [] → N'.length = (p.readings acts).length := by
    intro h1 h2 h3
    have := congrArg List.length (C74_nothing_lost _ _ _ _ _ e h1 h2).1
    rw [h3] at this
    simpa using this.symm
  obtain ⟨k, hk⟩ : ∃ k, (p.readings acts).take N'.length = k := ⟨_, rfl⟩
  rw [hk] at hN
  cases k with
  | nil =>
    refine ⟨N'.length, _, hlen, by rw [hseq, hN]; rfl, ?_, fun _ => rfl, hidle⟩
    intro r l hrl
    rw [hk] at hrl
    cases hrl
  | cons r l =>
    have hmem : ∀ x ∈ r :: l, x.t ≠ 0 := fun x hx => ht x (List.mem_of_mem_take (hk ▸ hx))
    obtain ⟨o, e', -, hr⟩ := odo_reports true (some 100) r l hmem
    refine ⟨N'.length, o, hlen, by rw [hseq, hN]; exact e', ?_, ?_, hidle⟩
    · intro r' l' hrl
      rw [hk] at hrl
      cases hrl
      exact hr
    · intro h0
      rw [h0] at hk
      cases hk

/-- **C110**, a defect: the husky program subscribes to an IMU topic and never reads the queue, which holds every IMU message
ever received. -/
theorem C110_imu_queue_grows {acts : List BAct} {s : BSys} (h : BaseProg.husky.runs BaseProg.start acts = some s)
    (hf : ∀ a ∈ acts, BaseProg.husky.Fine a) : s.imuQ.length = (imuMsgs acts).length := by
  obtain ⟨l', N', -, q⟩ := runs_exec acts (.nil (OSys.init (Odo.ctor true (some 100)))) h hf
  rw [q]
  have key : ∀ acts : List BAct, (∀ a ∈ acts, BaseProg.husky.Fine a) → ((imuMsgs acts).filterMap Ros.imuCb).length = (imuMsgs acts).length := by
    intro acts
    induction acts with
    | nil => intro _; rfl
    | cons a acts ih =>
      intro hf
      have ih := ih fun a ha => hf a (by simp [ha])
      cases a with
      | imu m =>
        obtain ⟨r, hr⟩ := imuCb_fine (hf (.imu m) (by simp))
        simp [imuMsgs, hr, ih]
      | joint m => simpa [imuMsgs] using ih
      | cb => simpa [imuMsgs] using ih
      | run => simpa [imuMsgs] using ih
  simpa [BaseProg.start] using key acts hf

/-- **C110**, another: an IMU message whose orientation is not normalised terminates the husky program (uncaught exception),
although its content is not used. -/
theorem C110_imu_crash (m : ImuMsg) (h0 : m.ori.w ^ 2 + m.ori.x ^ 2 + m.ori.y ^ 2 + m.ori.z ^ 2 ≠ 0)
    (h1 : 1e-5 ≤ |m.ori.w ^ 2 + m.ori.x ^ 2 + m.ori.y ^ 2 + m.ori.z ^ 2 - 1|) :
    ∃ s, BaseProg.husky.runs BaseProg.start [.imu m] = some s ∧ s.core.odo = none := by
  have : Ros.imuCb m = none := by
    unfold Ros.imuCb
    simp only [if_pos h0, ImuMeas.set_quaternion]
    rw [show m.ori.w * m.ori.w + m.ori.x * m.ori.x + m.ori.y * m.ori.y + m.ori.z * m.ori.z - 1 =
        m.ori.w ^ 2 + m.ori.x ^ 2 + m.ori.y ^ 2 + m.ori.z ^ 2 - 1 by ring, if_pos h1]
  exact ⟨_, by simp only [BaseProg.runs, BaseProg.act, this]; rfl, rfl⟩

/-- **C110**, the joint topic: a message with fewer than four wheel speeds is an out-of-bounds access in the husky program,
in whatever state it arrives … -/
theorem C110_short_message (m : JointMsg) (h : m.vel.length < 4) (s : BSys) (hs : s.core.cb = .idle) :
    ∃ s', BaseProg.husky.act s (.joint m) = some s' ∧ s'.core.odo = none := by
  have : BaseProg.husky.callback m = none := by
    obtain ⟨st, pos, vel⟩ := m
    match vel, h with
    | [], _ => rfl
    | [_], _ => rfl
    | [_, _], _ => rfl
    | [_, _, _], _ => rfl
    | _ :: _ :: _ :: _ :: l, h => simp at h; omega
  exact ⟨_, by simp only [BaseProg.act, hs, this]; rfl, rfl⟩

/-- … while the fetch program ignores messages with at most two. -/
theorem C110_fetch_ignores (m : JointMsg) (h : m.vel.length ≤ 2) (s : BSys) (hs : s.core.cb = .idle) :
    BaseProg.fetch.act s (.joint m) = some s := by
  have : BaseProg.fetch.callback m = some none := by
    show Ros.fetch2Cb m _ _ = _
    rw [Ros.fetch2Cb, if_pos h]
  simp only [BaseProg.act, hs, this]

example : BaseProg.start.core.cb = .idle := rfl

/-! ### C111 -/

theorem sqrt_le_of_norm {a b B : ℝ} (h : ‖(⟨a, b⟩ : ℂ)‖ ≤ B) : √(a ^ 2 + b ^ 2) ≤ B := by
  have : ‖(⟨a, b⟩ : ℂ)‖ = √(a ^ 2 + b ^ 2) := by
    rw [Complex.norm_def, Complex.normSq_mk, pow_two, pow_two]
  rwa [← this]

/-- **C111**: how far the reported pose can be from the true one.  If the wheels do not slip and speed and rate are constant
between messages (the path `θ, x, y` is that of a robot with the speed and rate of each reading), then for every
interleaving the reported pose after `n` readings differs from the true pose at that time by at most `1e-10` rad of heading
per reading and the distance `driftBound`. -/
theorem C111_accuracy (p : BaseProg) {acts : List BAct} {s : BSys} (h : p.runs BaseProg.start acts = some s)
    (hf : ∀ a ∈ acts, p.Fine a) (ht : ∀ r ∈ p.readings acts, r.t ≠ 0) :
    ∃ n o, n ≤ (p.readings acts).length ∧ s.core.odo = some o ∧
      (s.core.cb = .idle → s.core.run = .idle → s.core.velQ = [] → n = (p.readings acts).length) ∧
      ∀ r l, (p.readings acts).take n = r :: l → ∀ θ x y : ℝ → ℝ, Drives θ x y r.t l → θ r.t = 0 → x r.t = 0 → y r.t = 0 →
        ∃ tf φ q, o.state.t = some tf ∧ o.state.get_world_rotation = some (Rz φ) ∧ o.state.get_world_position = some q ∧
          |φ - θ tf| ≤ l.length * 1e-10 ∧ q 2 = 0 ∧ √((x tf - q 0) ^ 2 + (y tf - q 1) ^ 2) ≤ driftBound 0 r.t l := by
  obtain ⟨n, o, h1, h2, h3, -, h5⟩ := C110_pose p h hf ht
  refine ⟨n, o, h1, h2, h5, fun r l hrl θ x y hd hθ hx hy => ?_⟩
  obtain ⟨r1, r2, r3⟩ := h3 r l hrl
  obtain ⟨e1, e2⟩ := reckon_error l ⟨r.t, 0, 0, 0⟩ (e := 0) (E := 0) hd (by simp [hθ]) (by
    simp only [hx, hy, sub_zero]
    exact le_of_eq (by rw [Complex.norm_def]; simp))
  rw [zero_add] at e1 e2
  exact ⟨_, _, _, r1, r2, r3, e2, by simp, by simpa using sqrt_le_of_norm e1⟩

/-- **C111**: the bound is zero, so the reported position is exact, when the robot drives straight (or not at all). -/
theorem C111_straight : ∀ (l : List Reading) (t0 : ℝ), (∀ r ∈ l, r.ω = 0) → driftBound 0 t0 l = 0 := by
  intro l
  induction l with
  | nil => intro _ _; rfl
  | cons r l ih =>
    intro t0 h
    have h0 := h r (by simp)
    have h1 := ih r.t fun x hx => h x (by simp [hx])
    simp only [driftBound, h0]
    have : turnOf (0 * (r.t - t0)) = 0 := by simp [turnOf]
    rw [this]
    simp [h1]

/-- **C111**: likewise when it turns on the spot. -/
theorem C111_on_the_spot : ∀ (l : List Reading) (e t0 : ℝ), (∀ r ∈ l, r.v = 0) → driftBound e t0 l = 0 := by
  intro l
  induction l with
  | nil => intro _ _ _; rfl
  | cons r l ih =>
    intro e t0 h
    simp [driftBound, h r (by simp), ih _ _ fun x hx => h x (by simp [hx])]

/-- the time of the last reading -/
def lastTime : ℝ → List Reading → ℝ
  | t0, [] => t0
  | _, r :: l => lastTime r.t l

/-- readings in order, at most `d` seconds apart, with speed at most `V` and rate at most `W` -/
def Within (d V W : ℝ) : ℝ → List Reading → Prop
  | _, [] => True
  | t0, r :: l => t0 ≤ r.t ∧ r.t - t0 ≤ d ∧ |r.v| ≤ V ∧ |r.ω| ≤ W ∧ Within d V W r.t l

/-- **C111**: with messages at most `d` seconds apart, speed at most `V` and rate at most `W`, the error after the time `T` is
at most `(W d / 2 + N 1e-10) V T`, with `N` the number of readings: at a constant message rate it grows linearly with the
distance travelled. -/
theorem C111_uniform {d V W : ℝ} : ∀ (l : List Reading) (e t0 : ℝ), 0 ≤ e → Within d V W t0 l →
    driftBound e t0 l ≤ (W * d / 2 + e + l.length * 1e-10) * V * (lastTime t0 l - t0) ∧ t0 ≤ lastTime t0 l := by
  intro l
  induction l with
  | nil => intro e t0 _ _; simp [driftBound, lastTime]
  | cons r l ih =>
    intro e t0 he hw
    obtain ⟨h1, h2, h3, h4, h5⟩ := hw
    set a := |r.ω * (r.t - t0) - turnOf (r.ω * (r.t - t0))| with ha
    have hs : a ≤ 1e-10 := by
      rw [ha]
      unfold turnOf
      split_ifs with h
      · rw [sub_zero]; exact h.le
      · rw [sub_self, abs_zero]; norm_num
    have ha0 : 0 ≤ a := abs_nonneg _
    obtain ⟨k1, k2⟩ := ih (e + a) r.t (by linarith) h5
    refine ⟨?_, by simp only [lastTime]; linarith⟩
    have hd0 : 0 ≤ r.t - t0 := by linarith
    have hV : 0 ≤ V := (abs_nonneg _).trans h3
    have hW : 0 ≤ W := (abs_nonneg _).trans h4
    have hT : 0 ≤ lastTime r.t l - r.t := by linarith
    simp only [driftBound, lastTime, List.length_cons, Nat.cast_add, Nat.cast_one]
    rw [← ha]
    have s1 : |r.v| * |r.ω| * (r.t - t0) ^ 2 / 2 ≤ W * d / 2 * V * (r.t - t0) := by
      have : |r.v| * |r.ω| ≤ V * W := mul_le_mul h3 h4 (abs_nonneg _) hV
      have q1 : |r.v| * |r.ω| * (r.t - t0) ^ 2 ≤ V * W * (r.t - t0) ^ 2 := mul_le_mul_of_nonneg_right this (by positivity)
      have q2 : (r.t - t0) ^ 2 ≤ d * (r.t - t0) := by rw [pow_two]; exact mul_le_mul_of_nonneg_right h2 hd0
      have q3 : V * W * (r.t - t0) ^ 2 ≤ V * W * (d * (r.t - t0)) := mul_le_mul_of_nonneg_left q2 (by positivity)
      nlinarith
    have s2 : e * |r.v| * (r.t - t0) ≤ e * V * (r.t - t0) :=
      mul_le_mul_of_nonneg_right (mul_le_mul_of_nonneg_left h3 he) hd0
    have s3 : (W * d / 2 + (e + a) + (l.length : ℝ) * 1e-10) * V * (lastTime r.t l - r.t) ≤
        (W * d / 2 + e + ((l.length : ℝ) + 1) * 1e-10) * V * (lastTime r.t l - r.t) := by
      refine mul_le_mul_of_nonneg_right (mul_le_mul_of_nonneg_right ?_ hV) hT
      linarith
    have s4 : 0 ≤ ((l.length : ℝ) + 1) * 1e-10 * V * (r.t - t0) := by positivity
    nlinarith [s1, s2, s3, s4, k1]

/-- the hypotheses are met: a robot that drives an arc of radius 1 -/
example : ∃ (l : List Reading) (θ x y : ℝ → ℝ), l.length = 2 ∧ Drives θ x y 1 l ∧ θ 1 = 0 ∧ x 1 = 0 ∧ y 1 = 0 ∧ 0 < driftBound 0 1 l := by
  have h1 : ∀ (a b t : ℝ), HasDerivWithinAt (fun t => t - 1) 1 (Set.Icc a b) t := fun a b t =>
    (hasDerivWithinAt_id t _).sub_const 1
  have h2 : ∀ (a b t : ℝ), HasDerivWithinAt (fun t => sin (t - 1)) (1 * cos (t - 1)) (Set.Icc a b) t := fun a b t => by
    have := (h1 a b t).sin
    rwa [mul_comm] at this
  have h3 : ∀ (a b t : ℝ), HasDerivWithinAt (fun t => 1 - cos (t - 1)) (1 * sin (t - 1)) (Set.Icc a b) t := fun a b t => by
    have := (h1 a b t).cos.const_sub 1
    refine this.congr_deriv ?_
    ring
  refine ⟨[⟨2, 1, 1⟩, ⟨3, 1, 1⟩], fun t => t - 1, fun t => sin (t - 1), fun t => 1 - cos (t - 1), rfl, ?_, by simp, by simp, by simp, ?_⟩
  · exact ⟨by norm_num, fun t _ => ⟨h1 _ _ t, h2 _ _ t, h3 _ _ t⟩, by norm_num, fun t _ => ⟨h1 _ _ t, h2 _ _ t, h3 _ _ t⟩, trivial⟩
  · have : turnOf (1 * (2 - 1)) = 1 := by unfold turnOf; norm_num
    simp only [driftBound, this]
    norm_num

/-- one joint message, delivered and processed -/
theorem runs_one (p : BaseProg) {m : JointMsg} {v : VelMeas} {w : AngVelMeas} (h : p.callback m = some (some (v, w))) (o : Odo) (q : List ImuMeas)
    (l : List BAct) :
    p.runs ⟨⟨some o, [], [], none, none, .idle, .idle⟩, q⟩
      (.joint m :: .cb :: .cb :: .cb :: .cb :: .cb :: .cb :: .run :: .run :: .run :: .run :: .run :: .run :: .run :: .run :: l) =
      p.runs ⟨⟨o.process v w, [], [], none, none, .idle, .idle⟩, q⟩ l := by
  have st : ∀ (s s' : BSys) (a : BAct) (l : List BAct), p.act s a = some s' → p.runs s (a :: l) = p.runs s' l := fun s s' a l e => by
    rw [BaseProg.runs, e]; rfl
  rw [st _ ⟨⟨some o, [], [], none, none, .wantV v w, .idle⟩, q⟩ _ _ (by simp [BaseProg.act, h, OSys.act]),
    st _ ⟨⟨some o, [], [], some .cb, none, .holdV v w, .idle⟩, q⟩ _ _ (by simp [BaseProg.act, OSys.act, OSys.cbStep]),
    st _ ⟨⟨some o, [v], [], some .cb, none, .doneV w, .idle⟩, q⟩ _ _ (by simp [BaseProg.act, OSys.act, OSys.cbStep]),
    st _ ⟨⟨some o, [v], [], none, none, .wantW w, .idle⟩, q⟩ _ _ (by simp [BaseProg.act, OSys.act, OSys.cbStep]),
    st _ ⟨⟨some o, [v], [], none, some .cb, .holdW w, .idle⟩, q⟩ _ _ (by simp [BaseProg.act, OSys.act, OSys.cbStep]),
    st _ ⟨⟨some o, [v], [w], none, some .cb, .doneW, .idle⟩, q⟩ _ _ (by simp [BaseProg.act, OSys.act, OSys.cbStep]),
    st _ ⟨⟨some o, [v], [w], none, none, .idle, .idle⟩, q⟩ _ _ (by simp [BaseProg.act, OSys.act, OSys.cbStep]),
    st _ ⟨⟨some o, [v], [w], none, none, .idle, .wantV⟩, q⟩ _ _ (by simp [BaseProg.act, OSys.act, OSys.runStep]),
    st _ ⟨⟨some o, [v], [w], some .run, none, .idle, .wantW⟩, q⟩ _ _ (by simp [BaseProg.act, OSys.act, OSys.runStep]),
    st _ ⟨⟨some o, [v], [w], some .run, some .run, .idle, .check⟩, q⟩ _ _ (by simp [BaseProg.act, OSys.act, OSys.runStep]),
    st _ ⟨⟨some o, [v], [w], some .run, some .run, .idle, .takeV⟩, q⟩ _ _ (by simp [BaseProg.act, OSys.act, OSys.runStep]),
    st _ ⟨⟨some o, [], [w], some .run, some .run, .idle, .unlockV v⟩, q⟩ _ _ (by simp [BaseProg.act, OSys.act, OSys.runStep]),
    st _ ⟨⟨some o, [], [w], none, some .run, .idle, .takeW v⟩, q⟩ _ _ (by simp [BaseProg.act, OSys.act, OSys.runStep]),
    st _ ⟨⟨some o, [], [], none, some .run, .idle, .unlockW v w⟩, q⟩ _ _ (by simp [BaseProg.act, OSys.act, OSys.runStep]),
    st _ ⟨⟨o.process v w, [], [], none, none, .idle, .idle⟩, q⟩ _ _ (by simp [BaseProg.act, OSys.act, OSys.runStep])]

/-- and a run of the husky program that processes two joint messages -/
example (m1 m2 : JointMsg) (h1 : 4 ≤ m1.vel.length) (h2 : 4 ≤ m2.vel.length) :
    ∃ acts s, BaseProg.husky.runs BaseProg.start acts = some s ∧ (∀ a ∈ acts, BaseProg.husky.Fine a) ∧
      (BaseProg.husky.readings acts).length = 2 ∧ s.core.cb = .idle ∧ s.core.run = .idle ∧ s.core.velQ = [] := by
  obtain ⟨r1, e1⟩ : ∃ r, BaseProg.husky.reading m1 = some r := by
    obtain ⟨st, pos, vel⟩ := m1
    match vel, h1 with
    | a0 :: a1 :: a2 :: a3 :: l, _ => exact ⟨_, rfl⟩
  obtain ⟨r2, e2⟩ : ∃ r, BaseProg.husky.reading m2 = some r := by
    obtain ⟨st, pos, vel⟩ := m2
    match vel, h2 with
    | a0 :: a1 :: a2 :: a3 :: l, _ => exact ⟨_, rfl⟩
  have c1 : BaseProg.husky.callback m1 = some (some (r1.pair.1, r1.pair.2)) := by rw [callback_reading (p := .husky) (m := m1) h1, e1]; rfl
  have c2 : BaseProg.husky.callback m2 = some (some (r2.pair.1, r2.pair.2)) := by rw [callback_reading (p := .husky) (m := m2) h2, e2]; rfl
  obtain ⟨o1, p1, g1, k1, k2, -⟩ := Odo.process_good (Odo.ctor_good true (some 100)) (fun h => absurd rfl h) r1.pair.1 r1.pair.2
  refine ⟨[.joint m1, .cb, .cb, .cb, .cb, .cb, .cb, .run, .run, .run, .run, .run, .run, .run, .run,
        .joint m2, .cb, .cb, .cb, .cb, .cb, .cb, .run, .run, .run, .run, .run, .run, .run, .run], _,
    (runs_one _ c1 _ _ _).trans (by rw [p1]; exact runs_one _ c2 _ _ _), ?_, ?_, rfl, rfl, rfl⟩
  · intro a ha
    simp only [List.mem_cons, List.not_mem_nil, or_false] at ha
    rcases ha with rfl | rfl | rfl | rfl | rfl | rfl | rfl | rfl | rfl | rfl | rfl | rfl | rfl | rfl | rfl | rfl | rfl | rfl | rfl | rfl | rfl | rfl | rfl | rfl | rfl | rfl | rfl | rfl | rfl | rfl <;>
      first | exact h1 | exact h2 | trivial
  · simp [BaseProg.readings, e1, e2]

end Drift
