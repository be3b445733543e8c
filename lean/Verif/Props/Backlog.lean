import Verif.Spec.Backlog
import Verif.Props.Perfect
import Verif.Lemmas.DiffDrive

/-!
# C140: the measurements that were queued before the start
-/
set_option linter.unusedSimpArgs false
namespace Drift
open Mat Matrix RobotState

theorem getLast?_newest {α} (l : List α) : l.getLast?.toList.getLast? = l.getLast? := by
  cases l.getLast? <;> rfl

theorem setInitial_newest {c : Corr} (hq : 0 < c.queued) (s : RobotState) : c.newestOnly.setInitial s = c.setInitial s := by
  cases c with
  | vel c =>
    have : ∃ m, c.buffer.getLast? = some m := ⟨_, List.getLast?_eq_some_getLast (List.ne_nil_of_length_pos hq)⟩
    obtain ⟨m, hm⟩ := this
    simp [Corr.newestOnly, Corr.setInitial, VelCorr.setInitial, getLast?_newest, hm]
  | leg c =>
    have : ∃ m, c.buffer.getLast? = some m := ⟨_, List.getLast?_eq_some_getLast (List.ne_nil_of_length_pos hq)⟩
    obtain ⟨m, hm⟩ := this
    simp [Corr.newestOnly, Corr.setInitial, LegCorr.setInitial, getLast?_newest, hm]

theorem setInitial_true {c : Corr} (hq : 0 < c.queued) {s : RobotState} {r} (h : c.setInitial s = some r) : r.1 = true := by
  cases c with
  | vel c =>
    have : ∃ m, c.buffer.getLast? = some m := ⟨_, List.getLast?_eq_some_getLast (List.ne_nil_of_length_pos hq)⟩
    obtain ⟨m, hm⟩ := this
    simp only [Corr.setInitial, VelCorr.setInitial, hm, Option.bind_eq_bind, Option.map_eq_some_iff, Option.bind_eq_some_iff] at h
    obtain ⟨a, ⟨_, _, _, _, h3⟩, h4⟩ := h
    rw [← h4, ← Option.some.inj h3]
  | leg c =>
    have : ∃ m, c.buffer.getLast? = some m := ⟨_, List.getLast?_eq_some_getLast (List.ne_nil_of_length_pos hq)⟩
    obtain ⟨m, hm⟩ := this
    simp only [Corr.setInitial, LegCorr.setInitial, hm, Option.bind_eq_bind, Option.map_eq_some_iff, Option.bind_eq_some_iff] at h
    obtain ⟨a, ⟨_, _, _, _, _, _, h3⟩, h4⟩ := h
    rw [← h4, ← Option.some.inj h3]

theorem initCorrs_newest (l : List Corr) : ∀ (done : List Corr) (s : RobotState), (∀ c ∈ l, 0 < c.queued) →
    Estimator.initCorrs done (l.map Corr.newestOnly) s = Estimator.initCorrs done l s := by
  induction l with
  | nil => intros; rfl
  | cons c l ih =>
    intro done s h
    simp only [List.map_cons, Estimator.initCorrs, setInitial_newest (h c (by simp)), Option.bind_eq_bind]
    cases hc : c.setInitial s with
    | none => rfl
    | some r =>
      have hr := setInitial_true (h c (by simp)) hc
      obtain ⟨b, c', s'⟩ := r
      obtain rfl : b = true := hr
      simp only [Option.bind_some, if_true]
      exact ih _ _ fun d hd => h d (by simp [hd])

/-- **C140**, what holds: if the IMU queue is not empty and every correction has data, `InitState` leaves the estimator as it would if each queue had held
the newest measurement only.  So whatever happens later is the same too: nothing depends on the other measurements that were queued, however many there
were and whatever their time stamps. -/
theorem C140_only_newest_partial (e : Estimator) (hi : e.prop.buffer ≠ []) (hq : ∀ c ∈ e.corrs, 0 < c.queued) (evs : List EstEv) :
    e.initState = Estimator.initState { e with corrs := e.corrs.map Corr.newestOnly } ∧
    e.initState.bind (fun x => x.run evs) = (Estimator.initState { e with corrs := e.corrs.map Corr.newestOnly }).bind fun x => x.run evs := by
  have h : e.initState = Estimator.initState { e with corrs := e.corrs.map Corr.newestOnly } := by
    unfold Estimator.initState
    dsimp only
    obtain ⟨r, hr⟩ : ∃ r, e.prop.setInitialState e.state = r := ⟨_, rfl⟩
    rw [hr]
    cases r with
    | none => rfl
    | some r =>
      obtain ⟨b, p, s⟩ := r
      simp only [Option.bind_eq_bind, Option.bind_some]
      have hb : b = true := by
        unfold ImuProp.setInitialState at hr
        obtain ⟨m, rest, hm⟩ := List.exists_cons_of_ne_nil hi
        rw [hm] at hr
        simp only [Option.bind_eq_bind, Option.bind_eq_some_iff, Option.some.injEq, Prod.mk.injEq] at hr
        obtain ⟨_, _, _, _, _, _, _, _, _, _, _, _, h1, -⟩ := hr
        exact h1.symm
      subst hb
      simp only [if_true]
      unfold Estimator.initFrom
      simp only [List.take_zero, List.drop_zero, initCorrs_newest e.corrs [] s hq]
  exact ⟨h, by rw [h]⟩

/-! ### the property is false -/

/-- IMU readings at 0 and 1, a velocity `u` measured in between and one at time 1, all queued before the first turns of the main loop; the second
initialises the filter -/
noncomputable def backlog (u : V3) : List EstEv :=
  [.imu (fwdImu 0 0), .imu (fwdImu 0 1), .vel 0 ⟨0.5, u⟩, .vel 0 ⟨1, 0⟩, .tick, .tick]

/-- **C140** is false: a velocity that was measured between two IMU readings and queued, as they were, before the start has no effect on anything
that the estimator does afterwards, although it is newer than the reading that the filter starts from.  (The same velocity arriving after the start
is used: C48.) -/
theorem C140_false : ∃ e0, Estimator.ctor .rightInvariant ⟨fun _ => 0, 0⟩ {} fwdConfig [.vel {}] = some e0 ∧
    (∀ u : V3, ∃ e, e0.run (backlog u) = some e ∧ e.enabled = true) ∧
    ∀ (u u' : V3) (evs : List EstEv), e0.run (backlog u ++ evs) = e0.run (backlog u' ++ evs) := by
  obtain ⟨e0, h0⟩ : ∃ e0, Estimator.ctor .rightInvariant ⟨fun _ => 0, 0⟩ {} fwdConfig [.vel {}] = some e0 := ⟨_, rfl⟩
  have us : ∀ u : V3, Usable fwdConfig [.vel {}] (imuArrivals [.imu (fwdImu 0 0), .imu (fwdImu 0 1), .vel 0 ⟨0.5, u⟩, .vel 0 ⟨1, 0⟩, .tick]) := fun u =>
    ⟨by norm_num, by simp, .inl rfl, .inl rfl, by simp [imuArrivals, fwdImu]⟩
  have hE : ∀ u u' : V3, ∃ e1 e1', e0.run [.imu (fwdImu 0 0), .imu (fwdImu 0 1), .vel 0 ⟨0.5, u⟩, .vel 0 ⟨1, 0⟩, .tick] = some e1 ∧
      e0.run [.imu (fwdImu 0 0), .imu (fwdImu 0 1), .vel 0 ⟨0.5, u'⟩, .vel 0 ⟨1, 0⟩, .tick] = some e1' ∧
      ({ e1 with corrs := e1.corrs.map Corr.newestOnly } : Estimator) = { e1' with corrs := e1'.corrs.map Corr.newestOnly } ∧
      e1.tick = e1.initState ∧ e1'.tick = e1'.initState ∧ e1.prop.buffer ≠ [] ∧ e1'.prop.buffer ≠ [] ∧ (∀ c ∈ e1.corrs, 0 < c.queued) ∧
      (∀ c ∈ e1'.corrs, 0 < c.queued) ∧ e1.enabled = false ∧ e1.pending = none := by
    intro u u'
    rw [← Option.some.inj h0]
    simp only [Estimator.run, Estimator.step, Estimator.tick, Estimator.initBias, ImuProp.initImuBias, Option.getD_some, if_true,
      Option.map_some, Option.bind_some, if_false, Bool.false_eq_true, fwdConfig]
    refine ⟨_, _, rfl, rfl, rfl, rfl, rfl, by simp, by simp, ?_, ?_, rfl, rfl⟩
    · intro c hc
      simp [Corr.pushVel, List.modify] at hc
      rw [hc]
      simp [Corr.queued]
    · intro c hc
      simp [Corr.pushVel] at hc
      rw [hc]
      simp [Corr.queued]
  have split : ∀ (u : V3) (evs : List EstEv) (e1 : Estimator), e0.run [.imu (fwdImu 0 0), .imu (fwdImu 0 1), .vel 0 ⟨0.5, u⟩, .vel 0 ⟨1, 0⟩, .tick] = some e1 →
      e0.run (backlog u ++ evs) = e1.tick.bind fun x => x.run evs := by
    intro u evs e1 h1
    rw [show backlog u ++ evs = [.imu (fwdImu 0 0), .imu (fwdImu 0 1), .vel 0 ⟨0.5, u⟩, .vel 0 ⟨1, 0⟩, .tick] ++ (.tick :: evs) from rfl, est_run_append, h1]
    rfl
  refine ⟨e0, h0, fun u => ?_, fun u u' evs => ?_⟩
  · obtain ⟨e1, -, h1, -, -, ht, -, hb, -, hq, -, hen, hp⟩ := hE u u
    have hu : InUse e1 := exInUse h0 (us u) h1
    obtain ⟨m, rest, hm⟩ := List.exists_cons_of_ne_nil hb
    obtain ⟨s', k1, -⟩ := C45_all_data hu hen hp hm hq
    have := split u [] e1 h1
    rw [List.append_nil, ht, k1, Option.bind_some, Estimator.run] at this
    exact ⟨_, this, rfl⟩
  · obtain ⟨e1, e1', h1, h1', he, ht, ht', hb, hb', hq, hq', -⟩ := hE u u'
    rw [split u evs e1 h1, split u' evs e1' h1', ht, ht', (C140_only_newest_partial e1 hb hq evs).2, (C140_only_newest_partial e1' hb' hq' evs).2, he]

/-! ### the repository's own test

`tests/velocitycorrection_test/velocitycorrection_test.cpp` queues all its measurements before `InitState`.  The model passes it, and, as C140 says, no
velocity correction happens in it. -/

/-- an enabled estimator with one velocity correction, whose queue is empty, and an IMU in the body frame without bias -/
structure DeadReck (e : Estimator) (l : List ImuMeas) (tp : ℝ) (m : ImuMeas) (R : M3) (v q : V3) : Prop where
  corr : ∃ c : VelCorr, e.corrs = [.vel c] ∧ c.buffer = []
  en : e.enabled = true
  pend : e.pending = none
  good : Good 2 e.heap e.state
  noise : ImuNoisePSD e.prop
  prev : e.prop.prev = some m
  buf : e.prop.buffer = l
  time : e.state.tProp = some tp
  mount : e.prop.R_imu2body = 1
  arm : e.prop.t_imu2body = 0
  bg : e.state.get_gyroscope_bias = some 0
  ba : e.state.get_accelerometer_bias = some 0
  rot : e.state.get_rotation = some R
  vel : e.state.get_velocity = some v
  pos : e.state.get_position = some q

theorem DeadReck.step {e l tp m f R v q R0 v0 q0} (d : DeadReck e (f :: l) tp m R0 v0 q0) (e1 : R 0 = R0) (e2 : v 0 = v0) (e3 : q 0 = q0) (hle : tp ≤ m.time)
    (hdt : (1e-10 : ℝ) ≤ norm3 ((m.time - tp) • m.angVel) ∨ (m.time - tp) • m.angVel = 0)
    (hs : Strapdown m.angVel m.linAcc ![0, 0, -9.8] R v q) :
    ∃ e', e.tick = some e' ∧ DeadReck e' l m.time f (R (m.time - tp)) (v (m.time - tp)) (q (m.time - tp)) := by
  subst e1 e2 e3
  have hsq := d.good.q.psd.sq
  have hr : PropReady 2 e.prop e.state m f l tp :=
    ⟨d.good.shape, d.good.world, d.good.q.r, by rw [← hsq]; exact d.good.q.r, d.buf, d.prev, d.time⟩
  obtain ⟨p', s', k1, k2, k3, k4⟩ := C32_strapdown hr d.bg d.ba (w := m.angVel) (a := m.linAcc) (by
    unfold RatesOf; rw [d.mount, d.arm]; simp) hdt hs d.rot d.vel d.pos
  obtain ⟨b, p2, s2, j1, j2, -, j3⟩ := prop_good d.good d.noise d.prev d.time hle
  rw [k1] at j1
  simp only [Option.some.injEq, Prod.mk.injEq] at j1
  obtain ⟨rfl, rfl, rfl⟩ := j1
  obtain ⟨-, hp', -, ht, -⟩ := j3 f l d.buf
  obtain ⟨c, hc, hb⟩ := d.corr
  have hth := (C34_frame hr k1).2.1
  have htick : e.tick = some { e with prop := p', state := s', outQ := e.outQ ++ [s'], log := e.log.push s' } := by
    unfold Estimator.tick
    rw [d.pend]
    simp only [d.en, if_true]
    unfold Estimator.runOnce
    rw [k1]
    simp only [Option.bind_eq_bind, Option.bind_some, hc, Estimator.correctAll, Corr.correct, VelCorr.correct, hb, Option.map_some]
    simp [d.pend, hc, d.en]
  refine ⟨_, htick, ⟨⟨c, hc, hb⟩, d.en, d.pend, j2, ?_, ?_, ?_, ht, ?_, ?_, ?_, ?_, k2, k3, k4⟩⟩
  · rw [hp']; exact d.noise
  · rw [hp']
  · rw [hp']
  · rw [hp']; exact d.mount
  · rw [hp']; exact d.arm
  · have := d.bg
    unfold get_gyroscope_bias at this ⊢
    rw [show s'.Theta = e.state.Theta from hth]; exact this
  · have := d.ba
    unfold get_accelerometer_bias at this ⊢
    rw [show s'.Theta = e.state.Theta from hth]; exact this

/-- config/test/imu_propagation.yaml -/
noncomputable def testImuConfig : ImuPropConfig :=
  { static_bias_initialization := some true, init_bias_size := some 0, use_imu_ori_to_init := some false, rotation_imu2body := some [1, 0, 0, 0],
    gyroscope_std := some 0.1, accelerometer_std := some 0.1, gyroscope_bias_std := some 0.1, accelerometer_bias_std := some 0.1,
    gyroscope_bias := some [0, 0, 0], accelerometer_bias := some [0, 0, 0], enable_imu_bias_update := some true }

/-- config/test/velocity_correction.yaml -/
noncomputable def testVelConfig : VelConfig :=
  { velocity_std := some 0.1, correction_time_threshold := some 0.3, rotation_vel2body := some [1, 0, 0, 0] }

/-- config/test/inekf_estimator.yaml -/
noncomputable def testEstConfig : EstConfig :=
  { rotation_std_value := some 0.1, velocity_std_value := some 0.1, position_std_value := some 0.001 }

/-- velocitycorrection_test.cpp:59-120: the measurements of the test, with other velocities `u1`, `u2`, `u3` in place of `0`, `0` and `(1, 0, 0)` -/
noncomputable def testData (u0 u1 u2 u3 : V3) : List EstEv :=
  [.imu ⟨0, 0, ![0, 0, 9.8], Quat.id⟩, .vel 0 ⟨0, u0⟩,
   .imu ⟨1, 0, ![-1, 0, 9.8], Quat.id⟩, .vel 0 ⟨1, u1⟩,
   .imu ⟨2, ![0, 0, Real.pi / 2], ![0, 0, 9.8], Quat.id⟩, .vel 0 ⟨2, u2⟩,
   .imu ⟨3, 0, ![1, 0, 9.8], Quat.id⟩, .vel 0 ⟨3, u3⟩,
   .imu ⟨3, 0, ![1, 0, 9.8], Quat.id⟩, .vel 0 ⟨3, ![1, 0, 0]⟩]

/-- the pose of the estimate -/
def PoseIs (e : Estimator) (R : M3) (v q : V3) : Prop := e.state.get_rotation = some R ∧ e.state.get_velocity = some v ∧ e.state.get_position = some q

theorem DeadReck.pose {e l tp m R v q} (d : DeadReck e l tp m R v q) : PoseIs e R v q := ⟨d.rot, d.vel, d.pos⟩

theorem initOK_init (h : Heap) : InitOK h RobotState.init := by
  exact ⟨init_good h, blockDiag3_one 15⟩

theorem start_one {e : Estimator} (g : InitOK e.heap e.state) (hN : ImuNoisePSD e.prop) (rc : 0 ≤ e.rotCov) (vc : 0 ≤ e.velCov) (pc : 0 ≤ e.posCov)
    {m rest} (hb : e.prop.buffer = m :: rest) (ho : e.prop.useImuOri = false) {c : VelCorr} {x} (hc : e.corrs = [.vel c]) (hx : c.buffer.getLast? = some x) :
    ∃ s', e.initState = some { e with
        prop := { e.prop with buffer := rest, prev := some m }
        corrs := [.vel { c with buffer := [] }]
        state := s'
        outQ := e.outQ ++ [s']
        enabled := true
        pending := none } ∧ Good 2 e.heap s' ∧ s'.tProp = some m.time ∧ s'.get_rotation = some 1 ∧ s'.get_velocity = some x.vel ∧ s'.get_position = some 0 ∧
      s'.get_gyroscope_bias = some e.prop.bg0 ∧ s'.get_accelerometer_bias = some e.prop.ba0 := by
  obtain ⟨s1, e1, g1, p1⟩ := propInit_ok g hN hb (by rw [ho]; exact ⟨by simp, by simp, by simp⟩)
  have hR : s1.get_rotation = some 1 := by rw [p1.rot, ho]; rfl
  obtain ⟨s', g', f', r', p', t', pre, post, q1, q2, q3, q4, q5⟩ := initCorrs_ok [Corr.vel c] [] g1 p1.w hR
  have hpost : post = [] := by
    cases post with
    | nil => rfl
    | cons d ds =>
      have h1 := q3 d (by simp)
      have hd : d ∈ [Corr.vel c] := by rw [q1]; simp
      rw [List.mem_singleton.mp hd] at h1
      rw [List.length_eq_zero_iff.mp h1] at hx
      simp at hx
  subst hpost
  rw [List.append_nil] at q1
  subst q1
  obtain ⟨s2, s3, s4, c1, c2, c3, g3, fr, k1, k2, k3, -⟩ := finishInit_ok g' rc vc pc
  have hq5 : s'.get_velocity = (Corr.vel c).newestVel 1 m.angVel := q5.1
  refine ⟨s4, ?_, g3.good, ?_, ?_, ?_, ?_, ?_, ?_⟩
  · unfold Estimator.initState
    rw [e1]
    simp only [Option.bind_eq_bind, Option.bind_some, if_true]
    unfold Estimator.initFrom
    simp only [hc, List.take_zero, List.drop_zero]
    rw [q4]
    simp only [Option.bind_eq_bind, Option.bind_some, Estimator.finishInit]
    rw [c1]
    simp only [Option.bind_some]
    rw [c2]
    simp only [Option.bind_some]
    rw [c3]
    simp [Corr.drained]
  · rw [fr]; show s'.tProp = _; rw [f']; exact p1.tp
  · rw [fr]; exact r'
  · have e0 : s4.get_velocity = s'.get_velocity := by rw [fr]; rfl
    rw [e0, hq5]
    simp [Corr.newestVel, hx]
  · have e0 : s4.get_position = s'.get_position := by rw [fr]; rfl
    rw [e0, p']; exact p1.pos
  · have : s4.Theta = s1.Theta := by rw [fr]; show s'.Theta = _; rw [f']
    have hh := p1.bg
    unfold get_gyroscope_bias at hh ⊢
    rw [this]; exact hh
  · have : s4.Theta = s1.Theta := by rw [fr]; show s'.Theta = _; rw [f']
    have hh := p1.ba
    unfold get_accelerometer_bias at hh ⊢
    rw [this]; exact hh

theorem test_start (u0 u1 u2 u3 : V3) : ∃ e0 e e1, Estimator.ctor .leftInvariant ⟨fun _ => 0, 0⟩ testEstConfig testImuConfig [.vel testVelConfig] = some e0 ∧
    e0.run (testData u0 u1 u2 u3) = some e ∧ e.initState = some e1 ∧
    DeadReck e1 [⟨1, 0, ![-1, 0, 9.8], Quat.id⟩, ⟨2, ![0, 0, Real.pi / 2], ![0, 0, 9.8], Quat.id⟩, ⟨3, 0, ![1, 0, 9.8], Quat.id⟩, ⟨3, 0, ![1, 0, 9.8], Quat.id⟩] 0
      ⟨0, 0, ![0, 0, 9.8], Quat.id⟩ 1 ![1, 0, 0] 0 := by
  obtain ⟨e0, h0⟩ : ∃ e0, Estimator.ctor .leftInvariant ⟨fun _ => 0, 0⟩ testEstConfig testImuConfig [.vel testVelConfig] = some e0 := ⟨_, rfl⟩
  obtain ⟨e, h1⟩ : ∃ e, e0.run (testData u0 u1 u2 u3) = some e := ⟨_, rfl⟩
  have hr := h1
  have hp0 : ∃ p0, ImuProp.ctor [] .leftInvariant testImuConfig = some p0 := ⟨_, rfl⟩
  obtain ⟨p0, hp0⟩ := hp0
  have hz : ![(0 : ℝ), 0, 0] = (0 : V3) := by funext i; fin_cases i <;> rfl
  have hone : Quat.toRot ⟨1, 0, 0, 0⟩ = 1 := by
    ext i j; fin_cases i <;> fin_cases j <;> simp [Quat.toRot]
  rw [← Option.some.inj h0] at h1
  simp only [testData, Estimator.run, Estimator.step, Option.bind_some] at h1
  have he := (Option.some.inj h1).symm
  have hN := C35_ctor_noise hp0
  have hN' : ImuNoisePSD e.prop := by
    rw [he]
    rw [← Option.some.inj hp0] at hN
    exact hN
  obtain ⟨s', k1, k2, k3, k4, k5, k6, k7, k8⟩ := start_one (e := e) (by rw [he]; exact initOK_init _) hN' (by rw [he]; simp [testEstConfig]; norm_num)
    (by rw [he]; simp [testEstConfig]; norm_num) (by rw [he]; simp [testEstConfig]; norm_num) (by rw [he]; rfl) (by rw [he]; rfl) (by rw [he]; rfl) (by rfl)
  refine ⟨e0, e, _, h0, hr, k1, ⟨⟨_, rfl, rfl⟩, rfl, rfl, k2, hN', rfl, rfl, k3, ?_, ?_, ?_, ?_, k4, k5, k6⟩⟩
  · rw [he]; exact hone
  · rw [he]; exact hz
  · rw [k7, he]; exact congrArg some hz
  · rw [k8, he]; exact congrArg some hz

/-- a straight motion -/
theorem strap_straight (R : M3) (a v q : V3) : Strapdown 0 a ![0, 0, -9.8] (fun _ => R) (fun t => v + t • (R.mulVec a + ![0, 0, -9.8]))
    (fun t => q + t • v + (t ^ 2 / 2) • (R.mulVec a + ![0, 0, -9.8])) := by
  set b := R.mulVec a + ![0, 0, -9.8] with hb
  refine ⟨fun t i j => ?_, fun t i => ?_, fun t i => ?_⟩
  · have : (R * skew 0) i j = 0 := by rw [skew_zero]; simp
    rw [this]
    exact hasDerivAt_const _ _
  · show HasDerivAt (fun t => v i + t * b i) (b i) t
    simpa using ((hasDerivAt_id t).mul_const (b i)).const_add (v i)
  · show HasDerivAt (fun t => q i + t * v i + t ^ 2 / 2 * b i) (v i + t * b i) t
    have h1 := (((hasDerivAt_id t).mul_const (v i)).const_add (q i)).add ((((hasDerivAt_id t).pow 2).div_const 2).mul_const (b i))
    refine HasDerivAt.congr_deriv h1 ?_
    simp

/-- turning on the spot -/
theorem strap_turn (ω : ℝ) (q : V3) : Strapdown ![0, 0, ω] ![0, 0, 9.8] ![0, 0, -9.8] (fun t => Rz (ω * t)) (fun _ => 0) (fun _ => q) := by
  refine ⟨fun t i j => ?_, fun t i => ?_, fun t i => hasDerivAt_const _ _⟩
  · have hs : HasDerivAt (fun t => Real.sin (ω * t)) (ω * Real.cos (ω * t)) t := by
      have := ((hasDerivAt_id t).const_mul ω).sin
      simpa [mul_comm] using this
    have hc : HasDerivAt (fun t => Real.cos (ω * t)) (-(ω * Real.sin (ω * t))) t := by
      have := ((hasDerivAt_id t).const_mul ω).cos
      simpa [mul_comm] using this
    have e : Rz (ω * t) * skew ![0, 0, ω] = !![-(ω * Real.sin (ω * t)), -(ω * Real.cos (ω * t)), 0; ω * Real.cos (ω * t), -(ω * Real.sin (ω * t)), 0; 0, 0, 0] := by
      ext i j
      fin_cases i <;> fin_cases j <;> simp [Rz, skew, Matrix.mul_apply, Fin.sum_univ_three] <;> ring
    rw [e]
    fin_cases i <;> fin_cases j
    · exact hc
    · exact hs.neg
    · exact hasDerivAt_const _ _
    · exact hs
    · exact hc
    · exact hasDerivAt_const _ _
    · exact hasDerivAt_const _ _
    · exact hasDerivAt_const _ _
    · exact hasDerivAt_const _ _
  · have : ((Rz (ω * t)).mulVec ![0, 0, 9.8] + ![0, 0, -9.8] : V3) i = 0 := by
      fin_cases i <;> simp [Rz, Matrix.mulVec, dotProduct, Fin.sum_univ_three]
    rw [this]
    exact hasDerivAt_const _ _

/-- The model passes the repository's test (velocitycorrection_test.cpp:128-170: `InitState`, four times `RunOnce`, the pose after each), whatever the
velocities are that it queues at the times 0, 1, 2 and 3: only the last one queued is ever used. -/
theorem C140_repository_test (u0 u1 u2 u3 : V3) :
    ∃ e0 e e1 e2 e3 e4 e5, Estimator.ctor .leftInvariant ⟨fun _ => 0, 0⟩ testEstConfig testImuConfig [.vel testVelConfig] = some e0 ∧
      e0.run (testData u0 u1 u2 u3) = some e ∧
      e.initState = some e1 ∧ PoseIs e1 1 ![1, 0, 0] 0 ∧
      e1.tick = some e2 ∧ PoseIs e2 1 ![1, 0, 0] 0 ∧
      e2.tick = some e3 ∧ PoseIs e3 1 0 ![0.5, 0, 0] ∧
      e3.tick = some e4 ∧ PoseIs e4 !![0, -1, 0; 1, 0, 0; 0, 0, 1] 0 ![0.5, 0, 0] ∧
      e4.tick = some e5 ∧ PoseIs e5 !![0, -1, 0; 1, 0, 0; 0, 0, 1] ![0, 1, 0] ![0.5, 0.5, 0] := by
  obtain ⟨e0, e, e1, h0, h1, h2, d1⟩ := test_start u0 u1 u2 u3
  have hpi : Rz (Real.pi / 2 * 1) = !![0, -1, 0; 1, 0, 0; 0, 0, 1] := by
    rw [mul_one]; unfold Rz; rw [Real.cos_pi_div_two, Real.sin_pi_div_two]
  -- no time passes
  have s1 := strap_straight 1 ![0, 0, 9.8] ![1, 0, 0] 0
  obtain ⟨e2, h3, d2⟩ := DeadReck.step (R := fun _ => 1) (v := fun t => ![1, 0, 0] + t • ((1 : M3).mulVec ![0, 0, 9.8] + ![0, 0, -9.8]))
    (q := fun t => 0 + t • ![1, 0, 0] + (t ^ 2 / 2) • ((1 : M3).mulVec ![0, 0, 9.8] + ![0, 0, -9.8])) d1 rfl (by simp) (by simp) (le_refl _) (.inr (by simp)) s1
  have ev : ![1, 0, 0] + ((0 : ℝ) - 0) • ((1 : M3).mulVec ![0, 0, 9.8] + ![0, 0, -9.8]) = (![1, 0, 0] : V3) := by simp
  have eq : (0 : V3) + ((0 : ℝ) - 0) • ![1, 0, 0] + (((0 : ℝ) - 0) ^ 2 / 2) • ((1 : M3).mulVec ![0, 0, 9.8] + ![0, 0, -9.8]) = 0 := by simp
  simp only [ev, eq] at d2
  -- braking for a second
  have s2 := strap_straight 1 ![-1, 0, 9.8] ![1, 0, 0] 0
  obtain ⟨e3, h4, d3⟩ := DeadReck.step (R := fun _ => 1) (v := fun t => ![1, 0, 0] + t • ((1 : M3).mulVec ![-1, 0, 9.8] + ![0, 0, -9.8]))
    (q := fun t => 0 + t • ![1, 0, 0] + (t ^ 2 / 2) • ((1 : M3).mulVec ![-1, 0, 9.8] + ![0, 0, -9.8])) d2 rfl (by simp) (by simp) (by norm_num) (.inr (by simp)) s2
  have ev : ![1, 0, 0] + ((1 : ℝ) - 0) • ((1 : M3).mulVec ![-1, 0, 9.8] + ![0, 0, -9.8]) = (0 : V3) := by
    funext i; fin_cases i <;> simp
  have eq : (0 : V3) + ((1 : ℝ) - 0) • ![1, 0, 0] + (((1 : ℝ) - 0) ^ 2 / 2) • ((1 : M3).mulVec ![-1, 0, 9.8] + ![0, 0, -9.8]) = ![0.5, 0, 0] := by
    funext i; fin_cases i <;> simp <;> norm_num
  simp only [ev, eq] at d3
  -- a quarter turn
  have s3 := strap_turn (Real.pi / 2) ![0.5, 0, 0]
  obtain ⟨e4, h5, d4⟩ := DeadReck.step (R := fun t => Rz (Real.pi / 2 * t)) (v := fun _ => 0) (q := fun _ => ![0.5, 0, 0]) d3
    (by simp [Rz_zero]) rfl rfl (by norm_num) (.inl (by
      have : ((2 : ℝ) - 1) • ![0, 0, Real.pi / 2] = (![0, 0, Real.pi / 2] : V3) := by rw [show (2 : ℝ) - 1 = 1 by norm_num, one_smul]
      show _ ≤ norm3 (((2 : ℝ) - 1) • ![0, 0, Real.pi / 2])
      rw [this]
      have hn : norm3 ![0, 0, Real.pi / 2] = |Real.pi / 2| := by simp [norm3, Real.sqrt_sq_eq_abs]
      rw [hn, abs_of_pos (by positivity)]
      have := Real.two_le_pi
      norm_num
      linarith)) s3
  simp only [show (2 : ℝ) - 1 = 1 by norm_num, hpi] at d4
  -- speeding up for a second
  have s4 := strap_straight !![0, -1, 0; 1, 0, 0; 0, 0, 1] ![1, 0, 9.8] 0 ![0.5, 0, 0]
  obtain ⟨e5, h6, d5⟩ := DeadReck.step (R := fun _ => !![0, -1, 0; 1, 0, 0; 0, 0, 1])
    (v := fun t => 0 + t • ((!![0, -1, 0; 1, 0, 0; 0, 0, 1] : M3).mulVec ![1, 0, 9.8] + ![0, 0, -9.8]))
    (q := fun t => ![0.5, 0, 0] + t • 0 + (t ^ 2 / 2) • ((!![0, -1, 0; 1, 0, 0; 0, 0, 1] : M3).mulVec ![1, 0, 9.8] + ![0, 0, -9.8])) d4 rfl (by simp) (by simp)
    (by norm_num) (.inr (by simp)) s4
  have hacc : (!![0, -1, 0; 1, 0, 0; 0, 0, 1] : M3).mulVec ![1, 0, 9.8] + ![0, 0, -9.8] = ![0, 1, 0] := by
    funext i; fin_cases i <;> simp [Matrix.mulVec, dotProduct, Fin.sum_univ_three]
  have ev : (0 : V3) + ((3 : ℝ) - 2) • ((!![0, -1, 0; 1, 0, 0; 0, 0, 1] : M3).mulVec ![1, 0, 9.8] + ![0, 0, -9.8]) = ![0, 1, 0] := by
    rw [hacc, show (3 : ℝ) - 2 = 1 by norm_num]
    funext i; fin_cases i <;> norm_num
  have eq : ![0.5, 0, 0] + ((3 : ℝ) - 2) • (0 : V3) + (((3 : ℝ) - 2) ^ 2 / 2) • ((!![0, -1, 0; 1, 0, 0; 0, 0, 1] : M3).mulVec ![1, 0, 9.8] + ![0, 0, -9.8]) =
      ![0.5, 0.5, 0] := by
    rw [hacc, show (3 : ℝ) - 2 = 1 by norm_num]
    funext i; fin_cases i <;> norm_num
  simp only [ev, eq] at d5
  exact ⟨e0, e, e1, e2, e3, e4, e5, h0, h1, h2, d1.pose, h3, d2.pose, h4, d3.pose, h5, d4.pose, h6, d5.pose⟩

end Drift
