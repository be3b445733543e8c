import Verif.Lemmas.Est4

/-!
# Properties of the estimator (`inekf_estimator.cpp`) and of the documented main loop
-/
set_option linter.unusedSimpArgs false
namespace Drift
open Mat Matrix RobotState

/-! ### C58 -/

/-- **C58**: whatever the schedule of sensor messages, main-loop turns, `clear()` calls, logging and
publishing, the program never reads a null or uninitialised value nor goes out of bounds, and in the state it
reaches the estimate, everything published and everything queued for logging is valid: `X ∈ SE_K(3)`, `P`
symmetric PSD, of matching sizes. -/
theorem C58_safe {et h c ic cs e0} (hc : Estimator.ctor et h c ic cs = some e0) (evs : List EstEv)
    (u : Usable ic cs (imuArrivals evs)) :
    ∃ e, e0.run evs = some e ∧ ValidEstimate e.state ∧ (∀ s ∈ e.outQ, ValidEstimate s) ∧ ∀ s ∈ e.log.queue, ValidEstimate s := by
  obtain ⟨e, h1, i⟩ := run_estInv evs (fut := []) (e := e0) (by rw [List.append_nil]; exact (ctor_inv u hc).1)
  obtain ⟨K, g⟩ := i.good
  exact ⟨e, h1, g.valid, i.outs, fun s hs => (i.logs s hs).2.2⟩

/-- **C58**: the loop never gets stuck: an estimator in use always has a next state. -/
theorem C58_progress {e : Estimator} (hu : InUse e) :
    (∃ e', e.step .tick = some e') ∧ (∃ e', e.step .clear = some e') ∧ (∃ e', e.step .log = some e') ∧ ∃ e', e.step .consume = some e' := by
  have i := inUse_inv hu
  refine ⟨?_, ?_, ?_, ?_⟩ <;> exact (step_inv (fut := []) _ (by simpa [imuArrivals] using i)).imp fun _ h => h.1

/-- **C58**, the other side: outside the documented loop this fails.  `EnableFilter()` followed by `RunOnce()`
without a successful `InitState()` dereferences the null `prev_imu_measurement_` as soon as a measurement is
queued. -/
theorem C58_enable_before_init {et h c ic cs e0} (hc : Estimator.ctor et h c ic cs = some e0) (m : ImuMeas) :
    ((e0.step (.imu m)).bind fun e => e.enableFilter.runOnce) = none := by
  unfold Estimator.ctor at hc
  simp only [Option.bind_eq_bind, Option.bind_eq_some_iff] at hc
  obtain ⟨p, hp, corrs, -, hc⟩ := hc
  have hpf : p.prev = none ∧ p.buffer = [] := by
    unfold ImuProp.ctor at hp
    simp only [Option.bind_eq_bind, Option.bind_eq_some_iff] at hp
    obtain ⟨q, -, bg, -, ba, -, t, -, hp⟩ := hp
    rw [← Option.some.inj hp]
    exact ⟨rfl, rfl⟩
  rw [← Option.some.inj hc]
  simp only [Estimator.step, Option.bind_some, Estimator.enableFilter, Estimator.runOnce, Option.bind_eq_bind]
  have : ImuProp.propagate { p with buffer := p.buffer ++ [m] } RobotState.init = none := by
    unfold ImuProp.propagate
    simp [hpf.1, hpf.2]
  rw [this]; rfl

/-- a usable configuration: the defaults with bias averaging switched off, one velocity and one legged
correction -/
theorem exUsable (imu : List ImuMeas) (h : imu.Pairwise fun a b => a.time ≤ b.time) :
    Usable { static_bias_initialization := some false } [.vel {}, .leg {}] imu where
  vel := by
    intro c hc
    simp at hc; subst hc; norm_num
  leg := by
    intro c hc
    simp at hc; subst hc; norm_num
  bias := .inl rfl
  ori := .inl rfl
  sorted := h

/-- the hypotheses of `C58_safe` are met: two IMU measurements, a velocity, a kinematic measurement, main-loop
turns and a `clear()` -/
example (et : ErrorType) (m1 m2 : ImuMeas) (v : VelMeas) (l : LegMeas) (h : m1.time ≤ m2.time) :
    ∃ e0, Estimator.ctor et ⟨fun _ => 0, 0⟩ {} { static_bias_initialization := some false } [.vel {}, .leg {}] = some e0 ∧
      Usable { static_bias_initialization := some false } [.vel {}, .leg {}]
        (imuArrivals [.imu m1, .tick, .vel 0 v, .leg 1 l, .tick, .imu m2, .tick, .consume, .clear, .tick]) := by
  refine ⟨_, rfl, exUsable _ ?_⟩
  simp [imuArrivals, h]

/-! ### C45 -/

theorem firstEmpty_eq {pre post : List Corr} (h1 : ∀ c ∈ pre, 0 < c.queued) (h2 : ∀ c ∈ post.head?, c.queued = 0) :
    firstEmpty (pre ++ post) = pre.length := by
  induction pre with
  | nil =>
    cases post with
    | nil => rfl
    | cons c cs =>
      have := h2 c (by simp)
      simp [firstEmpty, List.findIdx_cons, this]
  | cons c cs ih =>
    have hc := h1 c (by simp)
    have := ih fun c hc => h1 c (by simp [hc])
    unfold firstEmpty at this ⊢
    rw [List.cons_append, List.findIdx_cons, this]
    have : (c.queued == 0) = false := by simp; omega
    simp [this]

/-- the estimate after a successful initialisation from orientation `R`, body rate `w` and corrections `cs`,
where `v0` is the velocity if there is no correction -/
structure Initialised (e : Estimator) (R : M3) (w : V3) (cs : List Corr) (v0 : Option V3) (s' : RobotState) : Prop where
  rot : s'.get_rotation = some R
  vel : s'.get_velocity = match cs.getLast? with
    | none => v0
    | some c => c.newestVel R w
  rotCov : s'.get_rotation_covariance = some (e.rotCov • (1 : M3))
  velCov : s'.get_velocity_covariance = some (e.velCov • (1 : M3))
  posCov : s'.get_position_covariance = some (e.posCov • (1 : M3))

theorem initFrom_done {e : Estimator} {K : Heap} (g : InitOK K e.state) (i : EstInv [] e) {w : V3} (hw : e.state.bodyAngVel = some w)
    {R : M3} (hR : e.state.get_rotation = some R) (k : ℕ) (hc : ∀ c ∈ e.corrs.drop k, 0 < c.queued) :
    ∃ s', e.initFrom k = some { e with
        corrs := e.corrs.take k ++ (e.corrs.drop k).map Corr.drained
        state := s'
        outQ := e.outQ ++ [s']
        enabled := true
        pending := none } ∧ Initialised e R w (e.corrs.drop k) e.state.get_velocity s' ∧ s'.get_position = e.state.get_position ∧
      s'.colMap = e.state.colMap ∧ s'.Theta = e.state.Theta ∧ s'.tProp = e.state.tProp ∧ InitOK K s' := by
  obtain ⟨s', g', f', r', p', t', pre, post, q1, q2, q3, q4, q5⟩ := initCorrs_ok (e.corrs.drop k) (e.corrs.take k) g hw hR
  have hpost : post = [] := by
    cases post with
    | nil => rfl
    | cons c cs =>
      have h1 := q3 c (by simp)
      have h2 := hc c (by rw [q1]; simp)
      omega
  subst hpost
  rw [List.append_nil] at q1
  obtain ⟨s1, s2, s3, c1, c2, c3, g3, fr, k1, k2, k3, -⟩ := finishInit_ok g' i.rc i.vc i.pc
  refine ⟨s3, ?_, ⟨?_, ?_, k1, k2, k3⟩, ?_, ?_, ?_, ?_, g3⟩
  · unfold Estimator.initFrom
    rw [q4]
    simp only [Option.bind_eq_bind, Option.bind_some, Estimator.finishInit]
    rw [c1]
    simp only [Option.bind_some]
    rw [c2]
    simp only [Option.bind_some]
    rw [c3, q1]
    simp
  · rw [fr]; exact r'
  · have e0 : s3.get_velocity = s'.get_velocity := by rw [fr]; rfl
    rw [e0, q1]
    cases hl : pre.getLast? with
    | none => rw [hl] at q5; simp only at q5; rw [q5]
    | some c => rw [hl] at q5; exact q5.1
  · have e0 : s3.get_position = s'.get_position := by rw [fr]; rfl
    rw [e0, p']
  · rw [fr]; show s'.colMap = _; rw [f']
  · rw [fr]; show s'.Theta = _; rw [f']
  · rw [fr]; show s'.tProp = _; rw [f']

/-- **C45**: without an IMU measurement `InitState` does nothing. -/
theorem C45_no_imu (e : Estimator) (hb : e.prop.buffer = []) : e.initState = some e := by
  unfold Estimator.initState ImuProp.setInitialState
  rw [hb]; simp

/-- **C45**: with an IMU measurement and data for every correction, `InitState` consumes exactly that
measurement, drains every correction queue, puts the body at the origin with the velocity given by the newest
measurement of the last correction, sets the configured covariances and biases, publishes the state and enables
the filter. -/
theorem C45_all_data {e : Estimator} (hu : InUse e) (hen : e.enabled = false) (hp : e.pending = none) {m rest} (hb : e.prop.buffer = m :: rest)
    (hc : ∀ c ∈ e.corrs, 0 < c.queued) :
    ∃ s', e.initState = some { e with
        prop := { e.prop with buffer := rest, prev := some m }
        corrs := e.corrs.map Corr.drained
        state := s'
        outQ := e.outQ ++ [s']
        enabled := true
        pending := none } ∧
      Initialised e (if e.prop.useImuOri then m.quat.toRot else 1) m.angVel e.corrs e.state.get_velocity s' ∧
      s'.get_position = some 0 ∧ s'.get_gyroscope_bias = some e.prop.bg0 ∧ s'.get_accelerometer_bias = some e.prop.ba0 ∧
      s'.tProp = some m.time ∧ s'.colMap = e.state.colMap ∧ InitOK e.heap s' := by
  have i := inUse_inv hu
  obtain ⟨g, hrefs⟩ := i.idle hen
  obtain ⟨s1, e1, g1, p1⟩ := propInit_ok g i.noise hb (i.ori m (by rw [hb]; simp))
  have hs := i.sorted
  rw [hb] at hs
  have hs' := (List.pairwise_append.mp hs).2.1
  have i' : EstInv [] { e with prop := { e.prop with buffer := rest, prev := some m }, state := s1 } := by
    refine ⟨⟨2, g1.good⟩, corrsOK_of_none (fun c hc => (i.corrs.each c hc).param) hrefs, i.noise, i.rc, i.vc, i.pc, i.bias, ?_, ?_, i.outs, i.logs,
      fun _ => ⟨g1, hrefs⟩, (fun k hk => by rw [show e.pending = some k from hk] at hp; cases hp), ?_⟩
    · intro x hx
      exact i.ori x (by rw [hb]; simp at hx ⊢; tauto)
    · simpa using hs'
    · intro h; rw [show e.enabled = true from h] at hen; cases hen
  have key := initFrom_done (e := { e with prop := { e.prop with buffer := rest, prev := some m }, state := s1 }) g1 i' p1.w p1.rot 0
    (by simpa using hc)
  obtain ⟨s', k1, k2, k3, k4, k5, k6, k7⟩ := key
  refine ⟨s', ?_, ⟨k2.rot, ?_, k2.rotCov, k2.velCov, k2.posCov⟩, by rw [k3]; exact p1.pos, ?_, ?_, by rw [k6]; exact p1.tp, by rw [k4]; exact p1.map, k7⟩
  · unfold Estimator.initState
    rw [e1]
    simp only [Option.bind_eq_bind, Option.bind_some, if_true]
    simpa [Estimator.initFrom] using k1
  · have := k2.vel
    simp only [List.drop_zero] at this
    rw [this, p1.vel]
  · have := p1.bg
    unfold get_gyroscope_bias at this ⊢
    rw [k5]; exact this
  · have := p1.ba
    unfold get_accelerometer_bias at this ⊢
    rw [k5]; exact this

/-- **C45**: if a correction has no data, `InitState` still consumes the IMU measurement and sets orientation,
position and biases, drains the corrections before the first one without data, and waits for that one; the
filter stays disabled. -/
theorem C45_waits {e : Estimator} (hu : InUse e) (hen : e.enabled = false) {m rest} (hb : e.prop.buffer = m :: rest)
    (hc : ∃ c ∈ e.corrs, c.queued = 0) :
    ∃ s', e.initState = some { e with
        prop := { e.prop with buffer := rest, prev := some m }
        corrs := (e.corrs.take (firstEmpty e.corrs)).map Corr.drained ++ e.corrs.drop (firstEmpty e.corrs)
        state := s'
        pending := some (firstEmpty e.corrs) } ∧
      s'.get_rotation = some (if e.prop.useImuOri then m.quat.toRot else 1) ∧ s'.get_position = some 0 ∧
      s'.bodyAngVel = some m.angVel ∧ s'.tProp = some m.time := by
  have i := inUse_inv hu
  obtain ⟨g, hrefs⟩ := i.idle hen
  obtain ⟨s1, e1, g1, p1⟩ := propInit_ok g i.noise hb (i.ori m (by rw [hb]; simp))
  obtain ⟨s', g', f', r', p', t', pre, post, q1, q2, q3, q4, q5⟩ := initCorrs_ok e.corrs [] g1 p1.w p1.rot
  have hne : post ≠ [] := by
    rintro rfl
    obtain ⟨c, h1, h2⟩ := hc
    have := q2 c (by rw [q1] at h1; simpa using h1)
    omega
  have hf : firstEmpty e.corrs = pre.length := by rw [q1]; exact firstEmpty_eq q2 q3
  refine ⟨s', ?_, r', by rw [p']; exact p1.pos, by rw [f']; exact p1.w, by rw [f']; exact p1.tp⟩
  unfold Estimator.initState
  rw [e1]
  simp only [Option.bind_eq_bind, Option.bind_some, if_true, Estimator.initFrom, List.take_zero, List.drop_zero]
  rw [q4, hf]
  cases post with
  | nil => exact absurd rfl hne
  | cons c cs =>
    have h1 : e.corrs.take pre.length = pre := by rw [q1]; simp
    have h2 : e.corrs.drop pre.length = c :: cs := by rw [q1]; simp
    simp [h1, h2]

/-- **C45**: while the correction it waits for has no data, nothing changes. -/
theorem C45_keeps_waiting {e : Estimator} (hu : InUse e) {k : ℕ} (hp : e.pending = some k)
    {c cs} (hk : e.corrs.drop k = c :: cs) (hc : c.queued = 0) : e.step .tick = some e := by
  have i := inUse_inv hu
  obtain ⟨hen, -, w, hw⟩ := i.pend k hp
  obtain ⟨g, -⟩ := i.idle hen
  show e.tick = some e
  have hl : (e.corrs.take k).length = k := by
    have : (e.corrs.drop k).length ≠ 0 := by rw [hk]; simp
    rw [List.length_drop] at this
    rw [List.length_take]; omega
  unfold Estimator.tick
  rw [hp]
  show e.initFrom k = some e
  unfold Estimator.initFrom
  rw [hk]
  rcases corrInit_ok g hw c with ⟨-, h⟩ | ⟨h, -⟩
  · rw [Estimator.initCorrs, h]
    simp only [Option.bind_eq_bind, Option.bind_some, Bool.false_eq_true, if_false, hl]
    rw [← hk, List.take_append_drop, ← hp]
  · omega

/-- **C45**: once the remaining corrections all have data, the initialisation finishes: the queues are drained,
orientation and position are those set from the IMU measurement, the velocity comes from the last correction. -/
theorem C45_resumes {e : Estimator} (hu : InUse e) {k : ℕ} (hp : e.pending = some k) (hk : e.corrs.drop k ≠ [])
    (hc : ∀ c ∈ e.corrs.drop k, 0 < c.queued) :
    ∃ R w s', e.state.get_rotation = some R ∧ e.state.bodyAngVel = some w ∧ e.step .tick = some { e with
        corrs := e.corrs.take k ++ (e.corrs.drop k).map Corr.drained
        state := s'
        outQ := e.outQ ++ [s']
        enabled := true
        pending := none } ∧
      Initialised e R w e.corrs e.state.get_velocity s' ∧ s'.get_position = e.state.get_position := by
  have i := inUse_inv hu
  obtain ⟨hen, -, w, hw⟩ := i.pend k hp
  obtain ⟨g, -⟩ := i.idle hen
  have x1 := g.good.shape.x.rows; have x2 := g.good.shape.x.cols
  have e0 : e.state.get_rotation = some (e.state.X.blk3 0 0) := blk3?_eq (by omega) (by omega)
  obtain ⟨s', k1, k2, k3, -⟩ := initFrom_done g i hw e0 k hc
  refine ⟨_, w, s', e0, hw, ?_, ⟨k2.rot, ?_, k2.rotCov, k2.velCov, k2.posCov⟩, k3⟩
  · show e.tick = _
    unfold Estimator.tick
    rw [hp]; exact k1
  · rw [k2.vel]
    have : e.corrs.getLast? = (e.corrs.drop k).getLast? := by
      conv_lhs => rw [← List.take_append_drop k e.corrs]
      rw [List.getLast?_append_of_ne_nil _ hk]
    rw [this]

/-! ### C47 -/

/-- **C47**, what holds: the initial orientation is the IMU orientation itself; it equals the IMU orientation
composed with the inverse mounting rotation exactly when the IMU is mounted without rotation.  (Missing: any
other mounting; see `C47_false`.) -/
theorem C47_identity_mount_partial {e : Estimator} (hu : InUse e) (hen : e.enabled = false) (hp : e.pending = none) (hori : e.prop.useImuOri = true)
    {m rest} (hb : e.prop.buffer = m :: rest) (hm : IsRot e.prop.R_imu2body) {e'} (he : e.initState = some e') :
    e'.state.get_rotation = some m.quat.toRot ∧
      (e'.state.get_rotation = some (m.quat.toRot * e.prop.R_imu2bodyᵀ) ↔ e.prop.R_imu2body = 1) := by
  have h1 : e'.state.get_rotation = some m.quat.toRot := by
    by_cases hc : ∃ c ∈ e.corrs, c.queued = 0
    · obtain ⟨s', q, hr, -⟩ := C45_waits hu hen hb hc
      rw [he] at q
      rw [Option.some.inj q]
      show s'.get_rotation = _
      rw [hr, hori]; rfl
    · push Not at hc
      obtain ⟨s', q, hr, -⟩ := C45_all_data hu hen hp hb (fun c h => Nat.pos_of_ne_zero (hc c h))
      rw [he] at q
      rw [Option.some.inj q]
      show s'.get_rotation = _
      rw [hr.rot, hori]; rfl
  refine ⟨h1, ?_⟩
  have i := inUse_inv hu
  have hq : IsRot m.quat.toRot := by
    have := i.ori m (by rw [hb]; simp)
    rwa [hori] at this
  rw [h1]
  constructor
  · intro h
    have h := Option.some.inj h
    have h2 : m.quat.toRotᵀ * m.quat.toRot = m.quat.toRotᵀ * (m.quat.toRot * e.prop.R_imu2bodyᵀ) := by rw [← h]
    rw [← Matrix.mul_assoc, hq.1, Matrix.one_mul] at h2
    have := congrArg Matrix.transpose h2
    simpa using this.symm
  · intro h
    rw [h]; simp

/-! ### C56 -/

/-- **C56**: `RunOnce` calls `Propagate` once and `Correct` of each correction once, in order.  It publishes
one copy of the resulting state if one of these calls processed a measurement, and otherwise publishes nothing
and leaves the estimate as it was.  The same copy is queued for logging if logging is on. -/
theorem C56_publishes {e : Estimator} (hu : InUse e) (hen : e.enabled = true) :
    ∃ b p s1 bs cs h s2 e', e.prop.propagate e.state = some (b, p, s1) ∧ CorrRun e.corrs e.heap s1 bs cs h s2 ∧
      e.runOnce = some e' ∧ e'.state = s2 ∧ e'.prop = p ∧ e'.corrs = cs ∧ e'.enabled = true ∧
      (b = true ↔ e.prop.buffer ≠ []) ∧
      (true ∈ b :: bs → e'.outQ = e.outQ ++ [s2] ∧ e'.log.queue = if e.log.enabled then e.log.queue ++ [s2] else e.log.queue) ∧
      (true ∉ b :: bs → e'.outQ = e.outQ ∧ e'.log = e.log ∧ s2 = e.state) := by
  have i := inUse_inv hu
  obtain ⟨K, g⟩ := i.good
  obtain ⟨hpend, tp, m, htp, hm, hle, ht⟩ := i.run hen
  obtain ⟨b, p', s1, e1, g1, q1, q2⟩ := prop_good g i.noise hm htp hle
  have hb : b = true ↔ e.prop.buffer ≠ [] := by
    cases hbuf : e.prop.buffer with
    | nil => simp [(q1 hbuf).1]
    | cons f rest => simp [(q2 f rest hbuf).1]
  have hst : s1.colMap = e.state.colMap ∧ (∃ tp', s1.tProp = some tp') ∧ (b = false → s1 = e.state) := by
    cases hbuf : e.prop.buffer with
    | nil => obtain ⟨-, -, rfl⟩ := q1 hbuf; exact ⟨rfl, ⟨tp, htp⟩, fun _ => rfl⟩
    | cons f rest => obtain ⟨h1, -, -, h2, h3⟩ := q2 f rest hbuf; exact ⟨h3, ⟨_, h2⟩, by simp [h1]⟩
  obtain ⟨hcm, ⟨tp', htp'⟩, hsame⟩ := hst
  have hc1 : CorrsOK s1 e.corrs := ⟨fun c hc => (i.corrs.each c hc).keep (by rw [hcm]; exact (i.corrs.each c hc).ids.mem), i.corrs.disj⟩
  obtain ⟨b', bs, cs', h', s2, K', e2, cr, hbs, -, -, -, -, -, -, -, hnone⟩ := correctAll_spec e.corrs g1 hc1 htp'
  by_cases hbb : (b || b') = true
  · refine ⟨b, p', s1, bs, cs', h', s2, { e with prop := p', corrs := cs', heap := h', state := s2, outQ := e.outQ ++ [s2], log := e.log.push s2 },
      e1, cr, ?_, rfl, rfl, rfl, hen, hb, fun _ => ⟨rfl, ?_⟩, ?_⟩
    · simp only [Estimator.runOnce, e1, e2, Option.bind_eq_bind, Option.bind_some, hbb, if_true]
    · show (e.log.push s2).queue = _
      unfold Logger.push
      split_ifs <;> rfl
    · intro h
      rw [List.mem_cons] at h
      push Not at h
      rw [Bool.or_eq_true] at hbb
      rcases hbb with hbb | hbb
      · exact absurd hbb.symm h.1
      · exact absurd (hbs.mp hbb) h.2
  · have hf : b = false ∧ b' = false := by cases b <;> cases b' <;> simp_all
    refine ⟨b, p', s1, bs, cs', h', s2, { e with prop := p', corrs := cs', heap := h', state := s2 }, e1, cr, ?_, rfl, rfl, rfl, hen, hb, ?_, ?_⟩
    · have : (b || b') = false := by simpa using hbb
      simp only [Estimator.runOnce, e1, e2, Option.bind_eq_bind, Option.bind_some, this, if_false, Bool.false_eq_true]
    · intro h
      rw [List.mem_cons] at h
      rcases h with h | h
      · rw [hf.1] at h; cases h
      · rw [hbs.mpr h] at hf; cases hf.2
    · intro _
      exact ⟨rfl, rfl, by rw [(hnone hf.2).1, hsame hf.1]⟩

end Drift
