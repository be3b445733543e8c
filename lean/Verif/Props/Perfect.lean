import Verif.Lemmas.Perf2
import Verif.Props.Startup

/-!
# C138: with perfect sensors the estimate is the truth
-/
set_option linter.unusedSimpArgs false
namespace Drift
open Mat Matrix RobotState

theorem perfect_run {T : Truth} {Rm : M3} {tm bg ba : V3} {vs : List VelCorr} (hs : vs = [] ∨ T.Steady) (hrot : ∀ t, IsRot (T.R t)) (evs : List EstEv) :
    ∀ {e : Estimator}, ExactInv T Rm tm bg ba vs (imuArrivals evs) e → NoClear evs →
      (∀ k m, EstEv.vel k m ∈ evs → ∀ c, vs[k]? = some c → T.Vel c m) →
      ∀ s ∈ published e evs, ∃ t, s.tProp = some t ∧ T.At t s ∧ (vs = [] → s.t = some t) := by
  induction evs with
  | nil => intro e _ _ _ s hs; simp [published] at hs
  | cons ev evs ih =>
    intro e i hn hv s hsm
    have i' : ExactInv T Rm tm bg ba vs (imuArrivals [ev] ++ imuArrivals evs) e := by
      rw [← imuArrivals_cons]; exact i
    obtain ⟨e1, h1, -⟩ := step_inv ev i'.inv
    obtain ⟨i1, hp⟩ := ExactInv.step hs hrot i' (fun h => hn (by simp [h])) (fun k m h => hv k m (by simp [h])) h1
    rw [published_cons h1] at hsm
    rcases List.mem_append.mp hsm with h | h
    · obtain ⟨⟨t, hx⟩, h3⟩ := hp s h
      exact ⟨t, hx.time, hx.at_, fun h0 => by rw [h3 h0]; exact hx.time⟩
    · exact ih i1 (fun h => hn (by simp [h])) (fun k m h => hv k m (by simp [h])) s h

/-- **C138**, what holds (1): once the estimate is the truth it stays the truth.  Take an estimator in use that runs, has velocity corrections
only, and whose pose, velocity and biases are true at its propagation time; from there on let the IMU readings and the velocity measurements,
waiting or arriving, be without error, and let the velocity in the body frame be constant, or let there be no corrections.  Then in every
history without `clear()` every published state is the true pose and velocity at its propagation time; without corrections, at its stamp. -/
theorem C138_stays_partial {et h g ic cs} {e0 e : Estimator} {evs0 evs : List EstEv} (hc : Estimator.ctor et h g ic cs = some e0)
    (u : Usable ic cs (imuArrivals (evs0 ++ evs))) (hr : e0.run evs0 = some e) (hen : e.enabled = true)
    {T : Truth} {vs : List VelCorr} {bg ba : V3} {tp : ℝ} {m : ImuMeas} (hcs : e.corrs = velOnly vs) (hrot : ∀ t, IsRot (T.R t))
    (hs : vs = [] ∨ T.Steady)
    (htp : e.state.tProp = some tp) (hat : T.At tp e.state) (hbg : e.state.get_gyroscope_bias = some bg) (hba : e.state.get_accelerometer_bias = some ba)
    (hm : e.prop.prev = some m) (hI : T.Imus e.prop.R_imu2body e.prop.t_imu2body bg ba tp (m :: (e.prop.buffer ++ imuArrivals evs)))
    (hq : ∀ c ∈ vs, ∀ x ∈ c.buffer, T.Vel c x) (hv : ∀ k x, EstEv.vel k x ∈ evs → ∀ c, vs[k]? = some c → T.Vel c x) (hn : NoClear evs) :
    ∀ s ∈ published e evs, ∃ t, s.tProp = some t ∧ T.At t s ∧ (vs = [] → s.t = some t) := by
  have himu : imuArrivals (evs0 ++ evs) = imuArrivals evs0 ++ imuArrivals evs := by
    clear * -
    induction evs0 with
    | nil => rfl
    | cons ev l ih => cases ev <;> simp [imuArrivals, ih]
  obtain ⟨e', h1, inv⟩ := run_estInv evs0 (fut := imuArrivals evs) (e := e0) (by rw [← himu]; exact (ctor_inv u hc).1)
  rw [hr] at h1
  obtain rfl := Option.some.inj h1
  obtain ⟨K, g⟩ := inv.good
  refine perfect_run hs hrot evs ⟨inv, hen, rfl, rfl, ⟨tp, m, ⟨⟨K, g.shape⟩, g.world, htp, hat, hbg, hba⟩, hm, hI⟩, ⟨vs, hcs, ?_, hq⟩⟩ hn hv
  exact List.forall₂_same.mpr fun c _ => ⟨c.buffer, rfl⟩

/-- **C138**, what holds (2): the initialisation makes the estimate the truth at the stamp of the IMU measurement it uses, if the body is then at
the origin, with the orientation that the estimator takes (the one of the IMU, or the identity), and with the velocity of the newest measurement
of the last correction, which is not scaled or rotated (C46), or at rest if there are none. -/
theorem C138_start_partial {e : Estimator} (hu : InUse e) (hen : e.enabled = false) (hp : e.pending = none) (hbi : e.prop.biasInitialized = true)
    {m rest} (hb : e.prop.buffer = m :: rest) {vs : List VelCorr} (hcs : e.corrs = velOnly vs) (hdata : ∀ c ∈ vs, c.buffer ≠ [])
    {T : Truth} (hR : T.R m.time = if e.prop.useImuOri then m.quat.toRot else 1) (hq : T.q m.time = 0)
    (h0 : vs = [] → e.state.get_velocity = some (T.v m.time))
    (hv : ∀ c x, vs.getLast? = some c → c.buffer.getLast? = some x → (T.R m.time).mulVec x.vel = T.v m.time) :
    ∃ s', e.step .tick = some { e with
        prop := { e.prop with buffer := rest, prev := some m }
        corrs := velOnly (vs.map fun c => { c with buffer := [] })
        state := s'
        outQ := e.outQ ++ [s']
        enabled := true
        pending := none } ∧
      T.At m.time s' ∧ s'.tProp = some m.time ∧ s'.get_gyroscope_bias = some e.prop.bg0 ∧ s'.get_accelerometer_bias = some e.prop.ba0 ∧
      InitOK e.heap s' ∧ s'.get_velocity_covariance = some (e.velCov • (1 : M3)) := by
  obtain ⟨s', q1, q2, q3, q4, q5, q6, -, q8⟩ := C45_all_data hu hen hp hb (by
    intro c hc
    rw [hcs] at hc
    obtain ⟨d, hd, rfl⟩ := List.mem_map.mp hc
    exact List.length_pos_of_ne_nil (hdata d hd))
  have hdr : e.corrs.map Corr.drained = velOnly (vs.map fun c => { c with buffer := [] }) := by
    rw [hcs]; unfold velOnly; simp only [List.map_map]; rfl
  refine ⟨s', ?_, ⟨by rw [hR]; exact q2.rot, ?_, by rw [hq]; exact q3⟩, q6, q4, q5, q8, q2.velCov⟩
  · rw [← hdr, ← q1]
    show e.tick = _
    unfold Estimator.tick
    rw [hp, hen, hbi]; rfl
  · rw [q2.vel, hcs]
    unfold velOnly
    rw [List.getLast?_map]
    obtain ⟨l, hl⟩ : ∃ l, vs.getLast? = l := ⟨_, rfl⟩
    rw [hl]
    cases l with
    | none => exact h0 (List.getLast?_eq_none_iff.mp hl)
    | some c =>
      have hcm : c ∈ vs := List.mem_of_getLast? hl
      obtain ⟨x, hx⟩ : ∃ x, c.buffer.getLast? = some x := ⟨_, List.getLast?_eq_some_getLast (hdata c hcm)⟩
      show (c.buffer.getLast?.map fun m => _) = _
      rw [hx, Option.map_some, ← hR]
      exact congrArg some (hv c x hl hx)

/-! ### a concrete case: a level robot that drives forward with speed `v` and acceleration `a` -/

/-- the motion: along the first axis, with speed `v` and position zero at time 0, and constant acceleration `a` -/
noncomputable def fwdTruth (v a : ℝ) : Truth := ⟨fun _ => 1, fun t => ![v + a * t, 0, 0], fun t => ![v * t + a * t ^ 2 / 2, 0, 0]⟩

/-- the readings of its IMU and of its velocity sensor at time `t` -/
noncomputable def fwdImu (a t : ℝ) : ImuMeas := ⟨t, 0, ![a, 0, 9.8], ⟨1, 0, 0, 0⟩⟩
noncomputable def fwdVel (v a t : ℝ) : VelMeas := ⟨t, ![v + a * t, 0, 0]⟩

def fwdConfig : ImuPropConfig := { static_bias_initialization := some false }

theorem fwd_imu (v a t0 t : ℝ) (h : t0 ≤ t) : (fwdTruth v a).Imu 1 0 0 0 t0 (fwdImu a t) := by
  refine ⟨h, 0, ![a, 0, 9.8], fun _ => 1, fun s => ![v + a * (t0 + s), 0, 0], fun s => ![v * (t0 + s) + a * (t0 + s) ^ 2 / 2, 0, 0], by simp [fwdImu],
    by simp [fwdImu], ⟨?_, ?_, ?_⟩, .inr (by simp), ?_⟩
  · intro s i j
    have : ((1 : M3) * skew 0) i j = 0 := by rw [skew_zero]; simp
    rw [this]
    exact hasDerivAt_const _ _
  · intro s i
    have e : ((1 : M3).mulVec ![a, 0, 9.8] + ![0, 0, -9.8] : V3) i = (![a, 0, 0] : V3) i := by fin_cases i <;> simp
    rw [e]
    fin_cases i
    · show HasDerivAt (fun s => v + a * (t0 + s)) a s
      simpa using (((hasDerivAt_id s).const_add t0).const_mul a).const_add v
    · exact hasDerivAt_const _ _
    · exact hasDerivAt_const _ _
  · intro s i
    fin_cases i
    · show HasDerivAt (fun s => v * (t0 + s) + a * (t0 + s) ^ 2 / 2) (v + a * (t0 + s)) s
      have h1 := (hasDerivAt_id s).const_add t0
      have h2 := (h1.const_mul v).add (((h1.pow 2).const_mul a).div_const 2)
      refine HasDerivAt.congr_deriv h2 ?_
      simp
      ring
    · exact hasDerivAt_const _ _
    · exact hasDerivAt_const _ _
  · intro τ h1 h2
    have : t0 + (τ - t0) = τ := by ring
    simp only [this]
    exact ⟨rfl, rfl, rfl⟩

theorem fwd_imus (v a : ℝ) (l : List ℝ) : ∀ t0, (t0 :: l).Pairwise (· ≤ ·) → (fwdTruth v a).Imus 1 0 0 0 t0 (l.map (fwdImu a)) := by
  induction l with
  | nil => intro _ _; trivial
  | cons t l ih =>
    intro t0 h
    have h' := List.pairwise_cons.mp h
    exact ⟨fwd_imu v a t0 t (h'.1 t (by simp)), ih t h'.2⟩

theorem fwd_rot (v a t : ℝ) : IsRot ((fwdTruth v a).R t) := ⟨by simp [fwdTruth], by simp [fwdTruth], by simp [fwdTruth]⟩

/-- the estimator is constructed, gets an IMU reading and a velocity at time 0 and is initialised from them: the estimate is the truth -/
theorem fwd_start (v a : ℝ) : ∃ e0 e c, Estimator.ctor .rightInvariant ⟨fun _ => 0, 0⟩ {} fwdConfig [.vel {}] = some e0 ∧
    e0.run [.tick, .imu (fwdImu a 0), .vel 0 (fwdVel v a 0), .tick] = some e ∧ e.enabled = true ∧ e.pending = none ∧ e.corrs = velOnly [c] ∧
    c.buffer = [] ∧ c.scale = 1 ∧ c.R_vel2body = 1 ∧ c.cov = (0.01 : ℝ) • 1 ∧ c.errorType = .rightInvariant ∧ c.tDiffThres = 0.3 ∧
    e.state.tProp = some 0 ∧ (fwdTruth v a).At 0 e.state ∧ e.state.get_gyroscope_bias = some 0 ∧ e.state.get_accelerometer_bias = some 0 ∧
    e.prop.prev = some (fwdImu a 0) ∧ e.prop.buffer = [] ∧ e.prop.R_imu2body = 1 ∧ e.prop.t_imu2body = 0 ∧ InitOK e.heap e.state ∧
    e.state.get_velocity_covariance = some ((0.01 : ℝ) • (1 : M3)) := by
  obtain ⟨e0, h0⟩ : ∃ e0, Estimator.ctor .rightInvariant ⟨fun _ => 0, 0⟩ {} fwdConfig [.vel {}] = some e0 := ⟨_, rfl⟩
  have u : Usable fwdConfig [.vel {}] (imuArrivals [.tick, .imu (fwdImu a 0), .vel 0 (fwdVel v a 0)]) :=
    ⟨by norm_num, by simp, .inl rfl, .inl rfl, by simp [imuArrivals]⟩
  obtain ⟨e1, h1⟩ : ∃ e1, e0.run [.tick, .imu (fwdImu a 0), .vel 0 (fwdVel v a 0)] = some e1 := (C58_safe h0 _ u).imp fun _ h => h.1
  have hu : InUse e1 := exInUse h0 u h1
  have hrun := h1
  rw [← Option.some.inj h0] at h1
  simp only [Estimator.run, Estimator.step, Estimator.tick, Estimator.initBias, ImuProp.initImuBias, Option.getD_some, if_true,
    Option.map_some, Option.bind_some, if_false, Bool.false_eq_true, fwdConfig] at h1
  have he := (Option.some.inj h1).symm
  have hone : Quat.toRot ⟨1, 0, 0, 0⟩ = 1 := by
    ext i j; fin_cases i <;> fin_cases j <;> simp [Quat.toRot]
  obtain ⟨c, hc, c1, c2, c3, c4, c5, c6⟩ : ∃ c, e1.corrs = velOnly [c] ∧ c.buffer = [fwdVel v a 0] ∧ c.scale = 1 ∧ c.R_vel2body = 1 ∧
      c.cov = (0.01 : ℝ) • 1 ∧ c.errorType = .rightInvariant ∧ c.tDiffThres = 0.3 := by
    refine ⟨_, by rw [he]; rfl, rfl, by norm_num, hone, ?_, rfl, rfl⟩
    norm_num
  obtain ⟨s', k1, k2, k3, k4, k5, k6, k7⟩ := C138_start_partial (T := fwdTruth v a) hu (by rw [he]) (by rw [he]) (by rw [he])
    (m := fwdImu a 0) (rest := []) (by rw [he]; rfl) hc (by simp [c1]) (by rw [he]; simp [fwdTruth]) (by simp [fwdTruth, fwdImu])
    (by simp) (by
      intro d x hd hx
      obtain rfl : c = d := by simpa using hd
      rw [c1] at hx
      obtain rfl : fwdVel v a 0 = x := by simpa using hx
      simp [fwdTruth, fwdVel, fwdImu])
  have hfin : ∀ E, e1.step .tick = some E → e0.run [.tick, .imu (fwdImu a 0), .vel 0 (fwdVel v a 0), .tick] = some E := fun E hE => by
    rw [show ([.tick, .imu (fwdImu a 0), .vel 0 (fwdVel v a 0), .tick] : List EstEv) = [.tick, .imu (fwdImu a 0), .vel 0 (fwdVel v a 0)] ++ [.tick] from rfl,
      run_append_one, hrun]
    exact hE
  refine ⟨e0, _, { c with buffer := [] }, h0, hfin _ k1, rfl, rfl, rfl, rfl, c2, c3,
    c4, c5, c6, k3, k2, ?_, ?_, rfl, rfl, ?_, ?_, k6, ?_⟩
  · rw [k4, he]
    exact congrArg some (by funext i; fin_cases i <;> rfl)
  · rw [k5, he]
    exact congrArg some (by funext i; fin_cases i <;> rfl)
  · rw [he]; exact hone
  · rw [he]
    funext i; fin_cases i <;> rfl
  · rw [k7, he]
    rfl

/-- the steady drive -/
theorem fwd_steady (v : ℝ) : (fwdTruth v 0).Steady := ⟨![v, 0, 0], fun t => by simp [fwdTruth]⟩

/-- one more velocity arrives, of a tenth of a second before the initialisation -/
theorem fwd_late (v a : ℝ) : ∃ e0 e s, Estimator.ctor .rightInvariant ⟨fun _ => 0, 0⟩ {} fwdConfig [.vel {}] = some e0 ∧
    e0.run [.tick, .imu (fwdImu a 0), .vel 0 (fwdVel v a 0), .tick] = some e ∧ e.enabled = true ∧ (fwdTruth v a).At 0 e.state ∧
    published e [.vel 0 (fwdVel v a (-0.1)), .tick] = [s] ∧ s.t = some (-0.1) ∧ s.tProp = some 0 ∧ s.get_rotation = some 1 ∧
    s.get_velocity = some ![v - a / 20, 0, 0] ∧ s.get_position = some 0 := by
  obtain ⟨e0, e, c, h0, h1, hen, hp, hc, c1, c2, c3, c4, c5, c6, k1, k2, -, -, k5, k6, -, -, k9, k10⟩ := fwd_start v a
  obtain ⟨g1, g2, g3⟩ := k2
  have gp : e.state.get_position = some 0 := by rw [g3]; simp [fwdTruth]
  obtain ⟨s, hs, s1, s2, s3, s4, s5⟩ := first_vel (c := { c with buffer := [fwdVel v a (-0.1)] }) (m := fwdVel v a (-0.1)) (by norm_num) k9.good.shape k9.good.world k9.bd k10 c4 c5 g1 g2 gp
  refine ⟨e0, e, s, h0, h1, hen, ⟨g1, g2, g3⟩, ?_, s1, by rw [s2, k1], s3, ?_, s5⟩
  · set e1 : Estimator := { e with corrs := velOnly [{ c with buffer := [fwdVel v a (-0.1)] }] } with he1
    have st1 : e.step (.vel 0 (fwdVel v a (-0.1))) = some e1 := by
      show some { e with corrs := e.corrs.modify 0 (Corr.pushVel (fwdVel v a (-0.1))) } = _
      rw [hc]
      simp [velOnly, Corr.pushVel, c1, he1]
    have hcor : VelCorr.correct { c with buffer := [fwdVel v a (-0.1)] } e.state = some (true, { c with buffer := [] }, s) := by
      have hpf : popFresh VelMeas.time c.tDiffThres 0 (fwdVel v a (-0.1)) [] = some (fwdVel v a (-0.1), []) :=
        popFresh_some.mpr ⟨[], rfl, by simp, by rw [c6]; simp [Stale, fwdVel]; norm_num⟩
      unfold VelCorr.correct
      simp only [k1, Option.bind_eq_bind, Option.bind_some]
      rw [if_neg (by simp [fwdVel]; norm_num), hpf]
      simp only [hs, Option.bind_some]
    have st2 : e1.step .tick = some { e with corrs := velOnly [{ c with buffer := [] }], state := s, outQ := e.outQ ++ [s], log := e.log.push s } := by
      show e1.tick = _
      unfold Estimator.tick
      rw [show e1.pending = none from hp]
      simp only [show e1.enabled = true from hen, if_true]
      unfold Estimator.runOnce
      rw [C36_empty e1.prop e1.state k6]
      simp only [Option.bind_eq_bind, Option.bind_some, he1, velOnly, List.map_cons, List.map_nil, Estimator.correctAll, Corr.correct, hcor, Option.map_some]
      simp [hp]
    rw [published_cons st1, published_cons st2]
    unfold publishedBy
    rw [st2]
    simp [published, he1]
  · rw [s4]
    simp only [c2, c3, one_smul, one_mulVec]
    congr 1
    funext i
    fin_cases i <;> simp [fwdTruth, fwdVel] <;> ring

/-- **C138** is false (1): a robot that drives straight ahead at a constant speed, with perfect sensors.  After the initialisation, at time 0, the
estimate is the truth.  A velocity measurement made a tenth of a second earlier arrives, and is also perfect: the next published state carries
its stamp and still the pose of time 0, so it is not the true pose at its stamp. -/
theorem C138_stamp_false : ∃ T : Truth, T.Steady ∧ (∀ t, IsRot (T.R t)) ∧
    (∀ t0 t, t0 ≤ t → T.Imu 1 0 0 0 t0 (fwdImu 0 t)) ∧ (∀ c : VelCorr, c.scale = 1 → c.R_vel2body = 1 → ∀ t, T.Vel c (fwdVel 1 0 t)) ∧
    ∃ e0 e s, Estimator.ctor .rightInvariant ⟨fun _ => 0, 0⟩ {} fwdConfig [.vel {}] = some e0 ∧
      e0.run [.tick, .imu (fwdImu 0 0), .vel 0 (fwdVel 1 0 0), .tick] = some e ∧ e.enabled = true ∧ T.At 0 e.state ∧
      published e [.vel 0 (fwdVel 1 0 (-0.1)), .tick] = [s] ∧ s.t = some (-0.1) ∧ T.At 0 s ∧ ¬ T.At (-0.1) s := by
  obtain ⟨e0, e, s, h1, h2, h3, h4, h5, h6, h7, h8, h9, h10⟩ := fwd_late 1 0
  refine ⟨fwdTruth 1 0, fwd_steady 1, fwd_rot 1 0, fun t0 t h => fwd_imu 1 0 t0 t h, ?_, e0, e, s, h1, h2, h3, h4, h5, h6, ⟨h8, ?_, ?_⟩, ?_⟩
  · intro c hc hR t
    simp [Truth.Vel, fwdTruth, fwdVel, hc, hR]
  · rw [h9]; simp [fwdTruth]
  · rw [h10]; exact congrArg some (by funext i; fin_cases i <;> simp [fwdTruth])
  · rintro ⟨-, -, h⟩
    rw [h10] at h
    have := congrFun (Option.some.inj h) 0
    simp [fwdTruth] at this
    norm_num at this

/-- **C138** is false (2): the robot accelerates, again with perfect sensors, and the same happens.  The measurement is compared with the estimate
of the propagation time, not with that of the time it was made: the estimate, which was the truth, is changed to a state that is the truth at no
time. -/
theorem C138_lag_false : ∃ T : Truth, (∀ t, IsRot (T.R t)) ∧
    (∀ t0 t, t0 ≤ t → T.Imu 1 0 0 0 t0 (fwdImu 1 t)) ∧ (∀ c : VelCorr, c.scale = 1 → c.R_vel2body = 1 → ∀ t, T.Vel c (fwdVel 0 1 t)) ∧
    ∃ e0 e s, Estimator.ctor .rightInvariant ⟨fun _ => 0, 0⟩ {} fwdConfig [.vel {}] = some e0 ∧
      e0.run [.tick, .imu (fwdImu 1 0), .vel 0 (fwdVel 0 1 0), .tick] = some e ∧ e.enabled = true ∧ T.At 0 e.state ∧
      published e [.vel 0 (fwdVel 0 1 (-0.1)), .tick] = [s] ∧ ∀ t, ¬ T.At t s := by
  obtain ⟨e0, e, s, h1, h2, h3, h4, h5, h6, h7, h8, h9, h10⟩ := fwd_late 0 1
  refine ⟨fwdTruth 0 1, fwd_rot 0 1, fun t0 t h => fwd_imu 0 1 t0 t h, ?_, e0, e, s, h1, h2, h3, h4, h5, ?_⟩
  · intro c hc hR t
    simp [Truth.Vel, fwdTruth, fwdVel, hc, hR]
  · rintro t ⟨-, h, h'⟩
    rw [h10] at h'
    rw [h9] at h
    have a1 := congrFun (Option.some.inj h) 0
    have a2 := congrFun (Option.some.inj h') 0
    simp [fwdTruth] at a1 a2
    rw [← a1] at a2
    norm_num at a2

/-- the hypotheses of `C138_stays_partial` are met: the robot drives on at the speed `v`, and IMU readings and velocities keep arriving -/
example (v : ℝ) (ts : List ℝ) (hts : (0 :: ts).Pairwise (· ≤ ·)) (t : ℝ) : ∃ e0 e : Estimator, e0.run [.tick, .imu (fwdImu 0 0), .vel 0 (fwdVel v 0 0), .tick] = some e ∧
    ∀ s ∈ published e ((ts.flatMap fun x => [EstEv.imu (fwdImu 0 x), .tick]) ++ [.vel 0 (fwdVel v 0 t), .tick]),
      ∃ t, s.tProp = some t ∧ (fwdTruth v 0).At t s := by
  obtain ⟨e0, e, c, h0, h1, hen, hp, hc, c1, c2, c3, c4, c5, c6, k1, k2, k3, k4, k5, k6, k7, k8, k9, k10⟩ := fwd_start v 0
  have himu : imuArrivals ((ts.flatMap fun x => [EstEv.imu (fwdImu 0 x), .tick]) ++ [.vel 0 (fwdVel v 0 t), .tick]) = ts.map (fwdImu 0) := by
    clear * -
    induction ts with
    | nil => rfl
    | cons x l ih => simpa [imuArrivals] using ih
  have hst := C138_stays_partial (evs := (ts.flatMap fun x => [EstEv.imu (fwdImu 0 x), .tick]) ++ [.vel 0 (fwdVel v 0 t), .tick]) h0 ?_ h1 hen hc (fwd_rot v 0)
    (.inr (fwd_steady v)) k1 k2 k3 k4 k5 (by
      rw [k6, k7, k8, himu, List.nil_append]
      exact fwd_imus v 0 (0 :: ts) 0 (List.pairwise_cons.mpr ⟨by simpa using (List.pairwise_cons.mp hts).1, hts⟩)) ?_ ?_ ?_
  · exact ⟨e0, e, h1, fun s hs => (hst s hs).imp fun _ h => ⟨h.1, h.2.1⟩⟩
  · refine ⟨by norm_num, by simp, .inl rfl, .inl rfl, ?_⟩
    have : imuArrivals ([.tick, .imu (fwdImu 0 0), .vel 0 (fwdVel v 0 0), .tick] ++ ((ts.flatMap fun x => [EstEv.imu (fwdImu 0 x), .tick]) ++
        [.vel 0 (fwdVel v 0 t), .tick])) = (0 :: ts).map (fwdImu 0) := by
      simp only [List.cons_append, List.nil_append, imuArrivals, himu, List.map_cons]
    rw [this, List.pairwise_map]
    exact hts
  · intro d hd x hx
    obtain rfl : d = c := by simpa using hd
    rw [c1] at hx
    simp at hx
  · intro k x hx d hd
    have : x = fwdVel v 0 t ∧ k = 0 := by simpa [and_comm] using hx
    obtain ⟨rfl, rfl⟩ := this
    obtain rfl : c = d := by simpa using hd
    simp [Truth.Vel, fwdTruth, fwdVel, c2, c3]
  · simp [NoClear]

end Drift
