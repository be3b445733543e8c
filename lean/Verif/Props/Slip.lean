import Verif.Lemmas.Slip
import Verif.Props.Baseline

/-!
# Wheel odometry when the wheels slip
-/
set_option linter.unusedSimpArgs false
namespace Drift
open Real Matrix Mat

/-- **C156**: how far the reported pose can be from the true one when the wheels slip.  If between readings the turning rate
of the robot stays within `εω` of the reading and its velocity within `εv` of the reading (in any direction), then for every
interleaving the reported heading is off by at most `εω` per second (plus `1e-10` per reading) and the position by at most
`slipBound`. -/
theorem C156_slip (p : BaseProg) {acts : List BAct} {s : BSys} (h : p.runs BaseProg.start acts = some s)
    (hf : ∀ a ∈ acts, p.Fine a) (ht : ∀ r ∈ p.readings acts, r.t ≠ 0) :
    ∃ n o, n ≤ (p.readings acts).length ∧ s.core.odo = some o ∧
      (s.core.cb = .idle → s.core.run = .idle → s.core.velQ = [] → n = (p.readings acts).length) ∧
      ∀ r l, (p.readings acts).take n = r :: l → ∀ (εv εω : ℝ) (θ x y : ℝ → ℝ), NearlyDrives εv εω θ x y r.t l →
        θ r.t = 0 → x r.t = 0 → y r.t = 0 →
        ∃ tf φ q, o.state.t = some tf ∧ o.state.get_world_rotation = some (Rz φ) ∧ o.state.get_world_position = some q ∧
          |φ - θ tf| ≤ εω * (tf - r.t) + l.length * 1e-10 ∧ q 2 = 0 ∧
          √((x tf - q 0) ^ 2 + (y tf - q 1) ^ 2) ≤ slipBound εv εω 0 r.t l := by
  obtain ⟨n, o, h1, h2, h3, -, h5⟩ := C110_pose p h hf ht
  refine ⟨n, o, h1, h2, h5, fun r l hrl εv εω θ x y hd hθ hx hy => ?_⟩
  obtain ⟨r1, r2, r3⟩ := h3 r l hrl
  obtain ⟨e1, e2⟩ := slip_error l ⟨r.t, 0, 0, 0⟩ (e := 0) (E := 0) hd (by simp [hθ]) (by
    simp only [hx, hy, sub_zero]
    exact le_of_eq (by rw [Complex.norm_def]; simp))
  rw [zero_add] at e1 e2
  exact ⟨_, _, _, r1, r2, r3, e2, by simp, by simpa using sqrt_le_of_norm e1⟩

/-- **C156**: in the time `T`, with readings at most `d` seconds apart, of speed at most `V` and rate at most `W`, the bound is
`(εv + V (W d / 2 + N 1e-10)) T + V εω T² / 2`: a speed error makes the position drift linearly, a rate error quadratically. -/
theorem C156_growth {d V W εv εω : ℝ} (hω : 0 ≤ εω) : ∀ (l : List Reading) (e t0 : ℝ), 0 ≤ e → Within d V W t0 l →
    slipBound εv εω e t0 l ≤ (εv + V * (W * d / 2 + e + l.length * 1e-10)) * (lastTime t0 l - t0) +
      V * εω * (lastTime t0 l - t0) ^ 2 / 2 ∧ t0 ≤ lastTime t0 l := by
  intro l
  induction l with
  | nil => intro e t0 _ _; simp [slipBound, lastTime]
  | cons r l ih =>
    intro e t0 he hw
    obtain ⟨h1, h2, h3, h4, h5⟩ := hw
    set a := |r.ω * (r.t - t0) - turnOf (r.ω * (r.t - t0))| with ha
    have hs : a ≤ 1e-10 := turnOf_near _
    have ha0 : 0 ≤ a := abs_nonneg _
    have hd0 : 0 ≤ r.t - t0 := by linarith
    have hV : 0 ≤ V := (abs_nonneg _).trans h3
    have hW : 0 ≤ W := (abs_nonneg _).trans h4
    obtain ⟨k1, k2⟩ := ih (e + εω * (r.t - t0) + a) r.t (by positivity) h5
    refine ⟨?_, by simp only [lastTime]; linarith⟩
    have hT : 0 ≤ lastTime r.t l - r.t := by linarith
    simp only [slipBound, lastTime, List.length_cons, Nat.cast_add, Nat.cast_one]
    rw [← ha]
    set D := r.t - t0 with hD
    set U := lastTime r.t l - r.t with hU
    rw [show lastTime r.t l - t0 = D + U by rw [hD, hU]; ring]
    have q2 : D ^ 2 ≤ d * D := by rw [pow_two]; exact mul_le_mul_of_nonneg_right h2 hd0
    have s1 : |r.v| * (|r.ω| + εω) * D ^ 2 / 2 ≤ V * W * d * D / 2 + V * εω * D ^ 2 / 2 := by
      have t1 : |r.v| * (|r.ω| + εω) ≤ V * (W + εω) := mul_le_mul h3 (by linarith) (by positivity) hV
      have t2 : |r.v| * (|r.ω| + εω) * D ^ 2 ≤ V * (W + εω) * D ^ 2 := mul_le_mul_of_nonneg_right t1 (by positivity)
      have t3 : V * W * D ^ 2 ≤ V * W * (d * D) := mul_le_mul_of_nonneg_left q2 (by positivity)
      nlinarith
    have s2 : e * |r.v| * D ≤ e * V * D := mul_le_mul_of_nonneg_right (mul_le_mul_of_nonneg_left h3 he) hd0
    have s3 : V * a * U ≤ V * 1e-10 * U := mul_le_mul_of_nonneg_right (mul_le_mul_of_nonneg_left hs hV) hT
    have s4 : 0 ≤ ((l.length : ℝ) + 1) * 1e-10 * V * D := by positivity
    nlinarith [s1, s2, s3, s4, k1]

/-! ### wheels -/

theorem nearlyDrives_of {εv εω : ℝ} {θ x y : ℝ → ℝ} : ∀ {l l' : List Reading},
    List.Forall₂ (fun r r' : Reading => r.t = r'.t ∧ |r.v - r'.v| ≤ εv ∧ |r.ω - r'.ω| ≤ εω) l l' → ∀ {t0 : ℝ},
    Drives θ x y t0 l' → NearlyDrives εv εω θ x y t0 l := by
  intro l l' h
  induction h with
  | nil => intro t0 _; trivial
  | @cons r r' l l' h0 _ ih =>
    intro t0 hd
    obtain ⟨d1, d2, d3⟩ := hd
    obtain ⟨e1, e2, e3⟩ := h0
    refine ⟨by rw [e1]; exact d1, fun t ht => ?_, by rw [e1]; exact ih d3⟩
    rw [e1] at ht ⊢
    obtain ⟨a1, a2, a3⟩ := d2 t ht
    refine ⟨r'.ω, _, _, a1, a2, a3, by rwa [abs_sub_comm], ?_⟩
    rw [show (r'.v * cos (θ t) - r.v * cos (θ t)) ^ 2 + (r'.v * sin (θ t) - r.v * sin (θ t)) ^ 2 = (r.v - r'.v) ^ 2 by
      have := sin_sq_add_cos_sq (θ t)
      linear_combination (r.v - r'.v) ^ 2 * this, Real.sqrt_sq_eq_abs]
    exact e2

theorem readings_msgs (p : BaseProg) : ∀ acts : List BAct, p.readings acts = (jointMsgs acts).filterMap p.reading
  | [] => rfl
  | .joint m :: l => by
    rw [BaseProg.readings, jointMsgs, readings_msgs p l]
    cases h : p.reading m <;> simp [List.filterMap_cons, h]
  | .imu m :: l => readings_msgs p l
  | .cb :: l => readings_msgs p l
  | .run :: l => readings_msgs p l

/-- **C156**: one message: wheel speeds that are off by `η` make the speed off by `radius * η` and the rate by
`2 * radius * η / track`. -/
theorem C156_wheel_error (p : BaseProg) {η : ℝ} {m m' : JointMsg} (h : m.Near η m') :
    (p.reading m = none ∧ p.reading m' = none) ∨ ∃ r r', p.reading m = some r ∧ p.reading m' = some r' ∧ r.t = r'.t ∧
      |r.v - r'.v| ≤ p.radius * η ∧ |r.ω - r'.ω| ≤ 2 * p.radius * η / p.track := by
  obtain ⟨st, pos, vel⟩ := m
  obtain ⟨st', pos', vel'⟩ := m'
  obtain ⟨h1, h2, h3⟩ := h
  dsimp only at h1 h2 h3
  subst h1
  cases p with
  | husky =>
    match vel, vel', h2, h3 with
    | [], [], _, _ => exact Or.inl ⟨rfl, rfl⟩
    | [_], [_], _, _ => exact Or.inl ⟨rfl, rfl⟩
    | [_, _], [_, _], _, _ => exact Or.inl ⟨rfl, rfl⟩
    | [_, _, _], [_, _, _], _, _ => exact Or.inl ⟨rfl, rfl⟩
    | a0 :: a1 :: a2 :: a3 :: l, b0 :: b1 :: b2 :: b3 :: l', _, h3 =>
      have e0 := abs_le.mp (h3 0 a0 b0 rfl rfl)
      have e1 := abs_le.mp (h3 1 a1 b1 rfl rfl)
      have e2 := abs_le.mp (h3 2 a2 b2 rfl rfl)
      have e3 := abs_le.mp (h3 3 a3 b3 rfl rfl)
      refine Or.inr ⟨_, _, rfl, rfl, rfl, ?_, ?_⟩
      · simp only [BaseProg.radius]
        rw [abs_le]; constructor <;> linarith [e0.1, e1.1, e2.1, e3.1, e0.2, e1.2, e2.2, e3.2]
      · simp only [BaseProg.radius, BaseProg.track]
        rw [abs_le]; constructor <;> ring_nf <;> linarith [e0.1, e1.1, e2.1, e3.1, e0.2, e1.2, e2.2, e3.2]
  | fetch =>
    match vel, vel', h2, h3 with
    | [], [], _, _ => exact Or.inl ⟨rfl, rfl⟩
    | [_], [_], _, _ => exact Or.inl ⟨rfl, rfl⟩
    | [_, _], [_, _], _, _ => exact Or.inl ⟨rfl, rfl⟩
    | a0 :: a1 :: a2 :: l, b0 :: b1 :: b2 :: l', _, h3 =>
      have e0 := abs_le.mp (h3 0 a0 b0 rfl rfl)
      have e1 := abs_le.mp (h3 1 a1 b1 rfl rfl)
      refine Or.inr ⟨_, _, rfl, rfl, rfl, ?_, ?_⟩
      · simp only [BaseProg.radius]
        rw [abs_le]; constructor <;> linarith [e0.1, e1.1, e0.2, e1.2]
      · simp only [BaseProg.radius, BaseProg.track]
        rw [abs_le]; constructor <;> ring_nf <;> linarith [e0.1, e1.1, e0.2, e1.2]

theorem near_readings (p : BaseProg) {η : ℝ} {ms ms' : List JointMsg} (h : List.Forall₂ (JointMsg.Near η) ms ms') :
    List.Forall₂ (fun r r' : Reading => r.t = r'.t ∧ |r.v - r'.v| ≤ p.radius * η ∧ |r.ω - r'.ω| ≤ 2 * p.radius * η / p.track)
      (ms.filterMap p.reading) (ms'.filterMap p.reading) := by
  induction h with
  | nil => exact .nil
  | cons h0 _ ih =>
    rcases C156_wheel_error p h0 with ⟨e1, e2⟩ | ⟨r, r', e1, e2, e3⟩
    · rw [List.filterMap_cons, List.filterMap_cons, e1, e2]; exact ih
    · rw [List.filterMap_cons, List.filterMap_cons, e1, e2]; exact .cons e3 ih

/-- **C156**: if every wheel speed in the messages is within `η` of the one of a robot that rolls without slipping, the
readings of the program describe the motion of that robot up to a velocity error of `radius * η` and a rate error of
`2 * radius * η / track`. -/
theorem C156_wheels (p : BaseProg) {η : ℝ} {acts acts' : List BAct}
    (hm : List.Forall₂ (JointMsg.Near η) (jointMsgs acts) (jointMsgs acts')) {θ x y : ℝ → ℝ} {r' : Reading} {l' : List Reading}
    (hr : p.readings acts' = r' :: l') (hd : Drives θ x y r'.t l') :
    ∃ r l, p.readings acts = r :: l ∧ r.t = r'.t ∧
      NearlyDrives (p.radius * η) (2 * p.radius * η / p.track) θ x y r.t l := by
  have := near_readings p hm
  rw [← readings_msgs, ← readings_msgs, hr] at this
  obtain ⟨r, l, h1, h2, h3⟩ := List.forall₂_cons_right_iff.mp this
  exact ⟨r, l, h3, h1.1, nearlyDrives_of h2 (h1.1 ▸ hd)⟩

/-- the hypotheses are met: one wheel of a husky reports 1.1 rad/s, while all wheels of a robot driving straight on without
slipping turn at 1 rad/s -/
example : ∃ (acts acts' : List BAct) (θ x y : ℝ → ℝ) (r' : Reading) (l' : List Reading), l'.length = 1 ∧
    List.Forall₂ (JointMsg.Near 0.1) (jointMsgs acts) (jointMsgs acts') ∧ BaseProg.husky.readings acts' = r' :: l' ∧
    Drives θ x y r'.t l' ∧ BaseProg.husky.readings acts ≠ BaseProg.husky.readings acts' := by
  have hn : ∀ n, JointMsg.Near 0.1 ⟨⟨n, 0⟩, [], [1.1, 1, 1, 1]⟩ ⟨⟨n, 0⟩, [], [1, 1, 1, 1]⟩ := fun n => by
    refine ⟨rfl, rfl, fun i a b h1 h2 => ?_⟩
    match i with
    | 0 => simp at h1 h2; rw [← h1, ← h2, abs_le]; constructor <;> norm_num
    | 1 => simp at h1 h2; rw [← h1, ← h2]; norm_num
    | 2 => simp at h1 h2; rw [← h1, ← h2]; norm_num
    | 3 => simp at h1 h2; rw [← h1, ← h2]; norm_num
    | i + 4 => simp at h1
  refine ⟨[.joint ⟨⟨1, 0⟩, [], [1.1, 1, 1, 1]⟩, .joint ⟨⟨2, 0⟩, [], [1.1, 1, 1, 1]⟩],
    [.joint ⟨⟨1, 0⟩, [], [1, 1, 1, 1]⟩, .joint ⟨⟨2, 0⟩, [], [1, 1, 1, 1]⟩], fun _ => 0, fun t => 0.158 * t, fun _ => 0,
    ⟨1, 0.158, 0⟩, [⟨2, 0.158, 0⟩], rfl, .cons (hn 1) (.cons (hn 2) .nil), ?_, ⟨by norm_num, fun t _ => ⟨?_, ?_, ?_⟩, trivial⟩, ?_⟩
  · simp only [BaseProg.readings, BaseProg.reading, Option.toList, List.cons_append, List.nil_append, Stamp.toSec]
    norm_num
  · exact hasDerivWithinAt_const _ _ _
  · simpa using (hasDerivWithinAt_id t (Set.Icc (1 : ℝ) 2)).const_mul 0.158
  · simpa using hasDerivWithinAt_const t (Set.Icc (1 : ℝ) 2) (0 : ℝ)
  · simp only [BaseProg.readings, BaseProg.reading, Option.toList, List.cons_append, List.nil_append, Stamp.toSec]
    norm_num

/-! ### the bounds are attained -/

/-- readings, in order of time, of a robot that drives straight on with speed `V` -/
def Straight (V : ℝ) : ℝ → List Reading → Prop
  | _, [] => True
  | t0, r :: l => t0 ≤ r.t ∧ r.v = V ∧ r.ω = 0 ∧ Straight V r.t l

theorem straight_reckon {V : ℝ} : ∀ (l : List Reading) (t0 t x : ℝ), Straight V t l → x = V * (t - t0) →
    Planar.reckon ⟨t, 0, x, 0⟩ l = ⟨lastTime t l, 0, V * (lastTime t l - t0), 0⟩
  | [], t0, t, x, _, hx => by rw [hx]; rfl
  | r :: l, t0, t, x, h, hx => by
    obtain ⟨-, h2, h3, h4⟩ := h
    have := straight_reckon l t0 r.t (x + r.v * (r.t - t)) h4 (by rw [hx, h2]; ring)
    rw [Planar.reckon, h3]
    simpa [turnOf, lastTime] using this

theorem straight_nearly {V εv εω : ℝ} {θ x y : ℝ → ℝ}
    (h : ∀ t, ∃ w a b, HasDerivAt θ w t ∧ HasDerivAt x a t ∧ HasDerivAt y b t ∧ |w| ≤ εω ∧
      √((a - V * cos (θ t)) ^ 2 + (b - V * sin (θ t)) ^ 2) ≤ εv) :
    ∀ (l : List Reading) (t : ℝ), Straight V t l → NearlyDrives εv εω θ x y t l
  | [], _, _ => trivial
  | r :: l, t, hs => by
    obtain ⟨h1, h2, h3, h4⟩ := hs
    refine ⟨h1, fun t _ => ?_, straight_nearly h l r.t h4⟩
    obtain ⟨w, a, b, k1, k2, k3, k4, k5⟩ := h t
    exact ⟨w, a, b, k1.hasDerivWithinAt, k2.hasDerivWithinAt, k3.hasDerivWithinAt, by rw [h3, sub_zero]; exact k4, by rw [h2]; exact k5⟩

theorem lastTime_reckon : ∀ (l : List Reading) (s : Planar), (s.reckon l).t = lastTime s.t l
  | [], _ => rfl
  | r :: l, s => by rw [Planar.reckon, lastTime_reckon l]; rfl

/-- **C156**: the linear growth happens: a robot that slides forward `εv` faster than its wheels turn is, whatever the
interleaving, exactly `εv` times the elapsed time ahead of the reported position. -/
theorem C156_speed_error_attained (p : BaseProg) {acts : List BAct} {s : BSys} (h : p.runs BaseProg.start acts = some s)
    (hf : ∀ a ∈ acts, p.Fine a) (ht : ∀ r ∈ p.readings acts, r.t ≠ 0) {V εv : ℝ} (hε : 0 ≤ εv) {r : Reading} {l : List Reading}
    (hr : p.readings acts = r :: l) (hs : Straight V r.t l) (hidle : s.core.cb = .idle ∧ s.core.run = .idle ∧ s.core.velQ = []) :
    ∃ (θ x y : ℝ → ℝ) (o : Odo) (q : V3), NearlyDrives εv 0 θ x y r.t l ∧ θ r.t = 0 ∧ x r.t = 0 ∧ y r.t = 0 ∧
      s.core.odo = some o ∧ o.state.t = some (lastTime r.t l) ∧ o.state.get_world_position = some q ∧
      √((x (lastTime r.t l) - q 0) ^ 2 + (y (lastTime r.t l) - q 1) ^ 2) = εv * |lastTime r.t l - r.t| := by
  obtain ⟨n, o, -, h2, h3, -, h5⟩ := C110_pose p h hf ht
  have hn := h5 hidle.1 hidle.2.1 hidle.2.2
  rw [hn, List.take_length] at h3
  obtain ⟨r1, -, r3⟩ := h3 r l hr
  rw [straight_reckon l r.t r.t 0 hs (by ring)] at r1 r3
  refine ⟨fun _ => 0, fun t => (V + εv) * (t - r.t), fun _ => 0, o, _, straight_nearly (fun t => ?_) l r.t hs, rfl, by simp, rfl,
    h2, r1, r3, ?_⟩
  · refine ⟨0, V + εv, 0, hasDerivAt_const _ _, ?_, hasDerivAt_const _ _, by simp, ?_⟩
    · have := ((hasDerivAt_id t).sub_const r.t).const_mul (V + εv)
      simpa using this
    · simp [Real.sqrt_sq hε]
  · simp only [Matrix.cons_val_zero, Matrix.cons_val_one]
    rw [show ((V + εv) * (lastTime r.t l - r.t) - V * (lastTime r.t l - r.t)) ^ 2 + (0 - 0) ^ 2 = (εv * (lastTime r.t l - r.t)) ^ 2 by ring,
      Real.sqrt_sq_eq_abs, abs_mul, abs_of_nonneg hε]

/-- **C156**: the quadratic growth happens: a robot that turns at the rate `ε` while its wheels report driving straight on with
speed `V ≥ 0` has, after a time `T` with `ε T ≤ 1`, the heading error `ε T` and a position error of at least `0.44 V ε T²`. -/
theorem C156_rate_error_attained (p : BaseProg) {acts : List BAct} {s : BSys} (h : p.runs BaseProg.start acts = some s)
    (hf : ∀ a ∈ acts, p.Fine a) (ht : ∀ r ∈ p.readings acts, r.t ≠ 0) {V ε : ℝ} (hV : 0 ≤ V) (hε : 0 < ε) {r : Reading}
    {l : List Reading} (hr : p.readings acts = r :: l) (hs : Straight V r.t l) (hT : 0 ≤ lastTime r.t l - r.t)
    (hT1 : ε * (lastTime r.t l - r.t) ≤ 1) (hidle : s.core.cb = .idle ∧ s.core.run = .idle ∧ s.core.velQ = []) :
    ∃ (θ x y : ℝ → ℝ) (o : Odo) (q : V3), NearlyDrives 0 ε θ x y r.t l ∧ θ r.t = 0 ∧ x r.t = 0 ∧ y r.t = 0 ∧
      s.core.odo = some o ∧ o.state.t = some (lastTime r.t l) ∧ o.state.get_world_rotation = some 1 ∧
      o.state.get_world_position = some q ∧ θ (lastTime r.t l) = ε * (lastTime r.t l - r.t) ∧
      0.44 * V * ε * (lastTime r.t l - r.t) ^ 2 ≤ √((x (lastTime r.t l) - q 0) ^ 2 + (y (lastTime r.t l) - q 1) ^ 2) := by
  obtain ⟨n, o, -, h2, h3, -, h5⟩ := C110_pose p h hf ht
  have hn := h5 hidle.1 hidle.2.1 hidle.2.2
  rw [hn, List.take_length] at h3
  obtain ⟨r1, r2, r3⟩ := h3 r l hr
  rw [straight_reckon l r.t r.t 0 hs (by ring)] at r1 r2 r3
  dsimp only at r1 r2 r3
  rw [Rz_zero] at r2
  have hne : ε ≠ 0 := hε.ne'
  refine ⟨fun t => ε * (t - r.t), fun t => V / ε * sin (ε * (t - r.t)), fun t => V / ε * (1 - cos (ε * (t - r.t))), o, _,
    straight_nearly (fun t => ?_) l r.t hs, by simp, by simp, by simp, h2, r1, r2, r3, rfl, ?_⟩
  · have h1 : HasDerivAt (fun t => ε * (t - r.t)) ε t := by
      have := ((hasDerivAt_id t).sub_const r.t).const_mul ε
      simpa using this
    refine ⟨ε, V * cos (ε * (t - r.t)), V * sin (ε * (t - r.t)), h1, ?_, ?_, by rw [abs_of_pos hε], by simp⟩
    · refine (h1.sin.const_mul (V / ε)).congr_deriv ?_
      field_simp
    · refine ((h1.cos.const_sub 1).const_mul (V / ε)).congr_deriv ?_
      field_simp
  · set T := lastTime r.t l - r.t with hTd
    simp only [Matrix.cons_val_zero, Matrix.cons_val_one, sub_zero]
    refine le_trans ?_ (Real.abs_le_sqrt (le_add_of_nonneg_left (sq_nonneg _)))
    refine le_trans ?_ (le_abs_self _)
    have hx : |ε * T| ≤ 1 := by rw [abs_of_nonneg (by positivity)]; exact hT1
    have hc := (abs_le.mp (Real.cos_bound hx)).2
    rw [abs_of_nonneg (by positivity : 0 ≤ ε * T)] at hc
    have h4 : (ε * T) ^ 4 ≤ (ε * T) ^ 2 := pow_le_pow_of_le_one (by positivity) hT1 (by norm_num)
    have h6 : 0.44 * (ε * T) ^ 2 ≤ 1 - cos (ε * T) := by nlinarith [sq_nonneg (ε * T)]
    have h7 := mul_le_mul_of_nonneg_left h6 (by positivity : 0 ≤ V / ε)
    refine le_trans (le_of_eq ?_) h7
    field_simp

/-- the hypotheses are met: a run of the husky program that has processed three readings of a robot driving straight on at
0.158 m/s for two seconds -/
theorem straight_run : ∃ acts s l, BaseProg.husky.runs BaseProg.start acts = some s ∧ (∀ a ∈ acts, BaseProg.husky.Fine a) ∧
    (∀ r ∈ BaseProg.husky.readings acts, r.t ≠ 0) ∧ BaseProg.husky.readings acts = ⟨1, 0.158, 0⟩ :: l ∧ l.length = 2 ∧
    Straight 0.158 1 l ∧ lastTime 1 l - 1 = 2 ∧ s.core.cb = .idle ∧ s.core.run = .idle ∧ s.core.velQ = [] := by
  let m : ℕ → JointMsg := fun n => ⟨⟨n, 0⟩, [], [1, 1, 1, 1]⟩
  have e : ∀ n, BaseProg.husky.reading (m n) = some ⟨n, 0.158, 0⟩ := fun n => by
    simp only [BaseProg.reading, m, Option.some.injEq, Reading.mk.injEq]
    exact ⟨by simp [Stamp.toSec], by norm_num, by norm_num⟩
  have hm : ∀ n, BaseProg.husky.Fine (.joint (m n)) := fun n => by simp [BaseProg.Fine, m]
  have c : ∀ n : ℕ, BaseProg.husky.callback (m n) = some (some ((Reading.mk n 0.158 0).pair.1, (Reading.mk n 0.158 0).pair.2)) :=
    fun n => by rw [callback_reading (p := .husky) (m := m n) (hm n), e]; rfl
  obtain ⟨o1, p1, g1, k1, k2, -⟩ := Odo.process_good (Odo.ctor_good true (some 100)) (fun h => absurd rfl h)
    (Reading.mk (1 : ℕ) 0.158 0).pair.1 (Reading.mk (1 : ℕ) 0.158 0).pair.2
  obtain ⟨o2, p2, -⟩ := Odo.process_good g1 (fun _ => by rw [k2, k1]) (Reading.mk (2 : ℕ) 0.158 0).pair.1
    (Reading.mk (2 : ℕ) 0.158 0).pair.2
  let rest : List BAct := [.cb, .cb, .cb, .cb, .cb, .cb, .run, .run, .run, .run, .run, .run, .run, .run]
  have hrun : BaseProg.husky.runs BaseProg.start
      (.joint (m 1) :: rest ++ (.joint (m 2) :: rest ++ (.joint (m 3) :: rest))) =
      some ⟨⟨o2.process (Reading.mk (3 : ℕ) 0.158 0).pair.1 (Reading.mk (3 : ℕ) 0.158 0).pair.2, [], [], none, none, .idle, .idle⟩, []⟩ := by
    refine (runs_one _ (c 1) _ _ _).trans ?_
    rw [p1]
    refine (runs_one _ (c 2) _ _ _).trans ?_
    rw [p2]
    exact runs_one _ (c 3) _ _ _
  refine ⟨_, _, [⟨2, 0.158, 0⟩, ⟨3, 0.158, 0⟩], hrun, ?_, ?_, ?_, rfl, ?_, ?_, rfl, rfl, rfl⟩
  · simp only [List.cons_append, List.nil_append, rest, List.forall_mem_cons, hm, List.not_mem_nil]
    simp [BaseProg.Fine]
  · simp [BaseProg.readings, e, rest]
  · simp [BaseProg.readings, e, rest]
  · norm_num [Straight]
  · norm_num [lastTime]

example : ∃ (p : BaseProg) (acts : List BAct) (s : BSys) (r : Reading) (l : List Reading) (V : ℝ),
    p.runs BaseProg.start acts = some s ∧ (∀ a ∈ acts, p.Fine a) ∧ (∀ r ∈ p.readings acts, r.t ≠ 0) ∧
    p.readings acts = r :: l ∧ Straight V r.t l ∧ 0 < V ∧ 0 < lastTime r.t l - r.t ∧ 0.5 * (lastTime r.t l - r.t) ≤ 1 ∧
    s.core.cb = .idle ∧ s.core.run = .idle ∧ s.core.velQ = [] := by
  obtain ⟨acts, s, l, h1, h2, h3, h4, -, h6, h7, h8⟩ := straight_run
  exact ⟨.husky, acts, s, _, l, 0.158, h1, h2, h3, h4, h6, by norm_num, by rw [h7]; norm_num, by rw [h7]; norm_num, h8⟩

end Drift
