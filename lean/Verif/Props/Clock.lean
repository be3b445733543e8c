import Verif.Props.Heading
import Verif.Props.Logging
import Verif.Lemmas.Clock4

/-!
# Properties C101, C102: the origin of time, and where time stamps come from
-/
set_option linter.unusedSimpArgs false
namespace Drift
open Mat Matrix RobotState

theorem build_later {et : ErrorType} (c : ℝ) {k : CorrConfig} {d : Corr} (h : k.build et = some d) : d.later c = d ∧ d.stamps = [] := by
  cases k with
  | vel k =>
    simp only [CorrConfig.build, VelCorr.ctor, Option.bind_eq_bind, Option.map_eq_some_iff, Option.bind_eq_some_iff] at h
    obtain ⟨v, ⟨q, -, hv⟩, rfl⟩ := h
    rw [← Option.some.inj hv]; exact ⟨rfl, rfl⟩
  | leg k => rw [← Option.some.inj h]; exact ⟨rfl, rfl⟩

theorem mapM_later {et : ErrorType} (c : ℝ) (cs : List CorrConfig) {a : List Corr} (h : cs.mapM (CorrConfig.build et) = some a) :
    ∀ d ∈ a, d.later c = d ∧ d.stamps = [] := by
  induction cs generalizing a with
  | nil => simp at h; subst h; simp
  | cons k cs ih =>
    rw [List.mapM_cons] at h
    simp only [Option.bind_eq_bind, Option.bind_eq_some_iff] at h
    obtain ⟨b, hb, bs, hbs, h⟩ := h
    rw [← Option.some.inj h]
    intro d hd
    rcases List.mem_cons.mp hd with rfl | hd
    · exact build_later c hb
    · exact ih hbs d hd

/-- a new estimator holds no time stamps but the time of the last log row, which is zero -/
theorem ctor_later {et h g ic cs e} (he : Estimator.ctor et h g ic cs = some e) (c : ℝ) (T : ℝ → Prop) :
    e = (e.later c).relog 0 [] ∧ (e.later c).log.written = [] ∧ (e.later c).log.lastPub = c ∧ e.log.rate = g.pose_log_rate.getD 10 ∧ StampInv T e := by
  obtain ⟨-, -, h3, h4, h5, h6, h7, h8, -⟩ := ctor_facts he
  have h9 : (∀ d ∈ e.corrs, d.later c = d ∧ d.stamps = []) ∧ e.log.lastPub = 0 ∧ e.log.rate = g.pose_log_rate.getD 10 := by
    unfold Estimator.ctor at he
    simp only [Option.bind_eq_bind, Option.bind_eq_some_iff] at he
    obtain ⟨p, hp, corrs, hc, he⟩ := he
    rw [← Option.some.inj he]
    exact ⟨mapM_later c cs hc, rfl, rfl⟩
  obtain ⟨h9, h10, h11⟩ := h9
  refine ⟨?_, ?_, ?_, h11, ?_⟩
  · obtain ⟨f1, p, co, st, f5, f6, oq, f8, f9, f10, lg, f12⟩ := e
    simp only at h3 h4 h5 h6 h7 h8 h9 h10
    have e1 : co.map (Corr.later c) = co := by
      conv_rhs => rw [← List.map_id co]
      exact List.map_congr_left fun d hd => (h9 d hd).1
    simp only [Estimator.relog, Estimator.later, Estimator.mk.injEq, true_and, and_true]
    refine ⟨?_, e1.symm, ?_, ?_, ?_⟩
    · simp [ImuProp.later, h3, h4]
      rw [← h3, ← h4]
    · rw [h5]; rfl
    · rw [h8]; rfl
    · simp [Logger.relog, Logger.later, h6]
      rw [← h6, ← h7, ← h10]
  · show e.log.written.map _ = []
    rw [h7]; rfl
  · show e.log.lastPub + c = c
    rw [h10, zero_add]
  · refine ⟨by rw [h3]; simp, by rw [h4]; simp, fun d hd => by rw [(h9 d hd).2]; simp, ?_, by rw [h8]; simp, by rw [h6]; simp⟩
    rw [h5]
    intro t ht
    cases ht

theorem arrivals_later (c : ℝ) (evs : List EstEv) : imuArrivals (evs.map (EstEv.later c)) = (imuArrivals evs).map (ImuMeas.later c) := by
  induction evs with
  | nil => rfl
  | cons ev evs ih => cases ev <;> simp [imuArrivals, EstEv.later, ih]

theorem usable_later {ic cs} (c : ℝ) {imu : List ImuMeas} (u : Usable ic cs imu) : Usable ic cs (imu.map (ImuMeas.later c)) := by
  refine ⟨u.vel, u.leg, u.bias, u.ori.imp id fun h m hm => ?_, ?_⟩
  · obtain ⟨m', h', rfl⟩ := List.mem_map.mp hm
    exact h m' h'
  · rw [List.pairwise_map]
    exact u.sorted.imp fun {a b} h => by show a.time + c ≤ b.time + c; linarith

theorem published_cons {e e1 : Estimator} {ev : EstEv} {evs : List EstEv} (h : e.step ev = some e1) :
    published e (ev :: evs) = publishedBy e ev ++ published e1 evs := by
  rw [published, h]

theorem published_later (c : ℝ) (evs : List EstEv) : ∀ {e a : Estimator}, e.run evs = some a →
    published (e.later c) (evs.map (EstEv.later c)) = (published e evs).map (RobotState.later c) := by
  induction evs with
  | nil => intro e a _; rfl
  | cons ev evs ih =>
    intro e a h
    simp only [Estimator.run, Option.bind_eq_some_iff] at h
    obtain ⟨e1, h1, h⟩ := h
    have h2 : (e.later c).step (ev.later c) = some (e1.later c) := by rw [step_later, h1]; rfl
    rw [List.map_cons, published_cons h1, published_cons h2, List.map_append, ih h]
    congr 1
    unfold publishedBy
    rw [h1, h2]
    cases ev with
    | tick =>
      simp only [EstEv.later]
      show (e1.outQ.map _).drop (e.outQ.map _).length = _
      rw [List.length_map, List.map_drop]
    | _ => rfl

theorem published_sim (evs : List EstEv) : ∀ {e e' a a' : Estimator}, LogSim e e' → e.run evs = some a → e'.run evs = some a' →
    published e' evs = published e evs := by
  induction evs with
  | nil => intro e e' a a' _ _ _; rfl
  | cons ev evs ih =>
    intro e e' a a' s h h'
    simp only [Estimator.run, Option.bind_eq_some_iff] at h h'
    obtain ⟨b, hb, h⟩ := h
    obtain ⟨b', hb', h'⟩ := h'
    have s' := logSim_step s hb hb'
    rw [published_cons hb, published_cons hb', ih s' h h']
    congr 1
    unfold publishedBy
    rw [hb, hb']
    obtain ⟨_, _, rfl⟩ := s
    obtain ⟨_, _, rfl⟩ := s'
    cases ev <;> rfl

/-- **C101**: the estimate does not depend on the origin of time.  Whatever arrives and however the main loop,
`clear()`, the logger and the publisher are scheduled: if every time stamp is moved by the same amount `c`, the
same configuration processes the history the same way, and every estimate and every published state is the same
apart from its time stamps, which are moved by `c`. -/
theorem C101_time_origin {et h g ic cs e} (he : Estimator.ctor et h g ic cs = some e) (c : ℝ) {evs : List EstEv}
    (u : Usable ic cs (imuArrivals evs)) :
    ∃ a a', e.run evs = some a ∧ e.run (evs.map (EstEv.later c)) = some a' ∧ a'.enabled = a.enabled ∧ a'.pending = a.pending ∧
      a'.state = a.state.later c ∧ a'.outQ = a.outQ.map (RobotState.later c) ∧
      published e (evs.map (EstEv.later c)) = (published e evs).map (RobotState.later c) := by
  obtain ⟨a, k1, -⟩ := C58_safe he evs u
  obtain ⟨a', k2, -⟩ := C58_safe he (evs.map (EstEv.later c)) (by rw [arrivals_later]; exact usable_later c u)
  obtain ⟨h1, -⟩ := ctor_later he c (fun _ => True)
  have h2 : (e.later c).run (evs.map (EstEv.later c)) = some (a.later c) := by rw [run_later, k1]; rfl
  have s0 : LogSim (e.later c) e := ⟨0, [], h1⟩
  obtain ⟨lp, w, rfl⟩ := logSim_run _ s0 h2 k2
  exact ⟨a, _, k1, k2, rfl, rfl, rfl, rfl, (published_sim _ s0 h2 k2).trans (published_later c evs k1)⟩

/-- **C101** for the log, restricted to clocks that do not start within the first logging period: if no stamp is
earlier than `1/pose_log_rate` on either clock, the log rows are the same apart from their times, which are moved
by `c`. -/
theorem C101_log_partial {et h g ic cs e} (he : Estimator.ctor et h g ic cs = some e) (c : ℝ) {evs : List EstEv}
    (u : Usable ic cs (imuArrivals evs))
    (ht : ∀ ev ∈ evs, ∀ t, ev.stamp = some t → 1 / g.pose_log_rate.getD 10 ≤ t ∧ 1 / g.pose_log_rate.getD 10 ≤ t + c) :
    ∃ a a', e.run evs = some a ∧ e.run (evs.map (EstEv.later c)) = some a' ∧ a'.log.written = a.log.written.map (LogRow.later c) := by
  obtain ⟨a, k1, -⟩ := C58_safe he evs u
  obtain ⟨a', k2, -⟩ := C58_safe he (evs.map (EstEv.later c)) (by rw [arrivals_later]; exact usable_later c u)
  set rate := g.pose_log_rate.getD 10 with hrate
  obtain ⟨h1, h3, h4, h5, -⟩ := ctor_later he c (fun _ => True)
  have h2 : (e.later c).run (evs.map (EstEv.later c)) = some (a.later c) := by rw [run_later, k1]; rfl
  have s0 : RowSim rate c (e.later c) e := ⟨0, by rw [h3]; exact h1, h5, .inr ⟨h3, h4, rfl⟩⟩
  have st : StampInv (fun t => 1 / rate ≤ t - c ∧ 1 / rate ≤ t) (e.later c) := by
    obtain ⟨-, -, -, -, i⟩ := ctor_later he c (fun t => 1 / rate ≤ t - c ∧ 1 / rate ≤ t)
    rw [h1] at i
    exact ⟨i.buf, i.prev, i.corrs, i.st, i.out, i.logs⟩
  obtain ⟨lp, hs, -⟩ := rowSim_run _ s0 st (by
    intro ev hev t hst
    obtain ⟨ev', hev', rfl⟩ := List.mem_map.mp hev
    have key : ∃ t', ev'.stamp = some t' ∧ t = t' + c := by
      cases ev' <;> simp [EstEv.later, EstEv.stamp, ImuMeas.later, VelMeas.later, LegMeas.later] at hst ⊢ <;> exact hst.symm
    obtain ⟨t', h6, rfl⟩ := key
    have := ht ev' hev' t' h6
    exact ⟨by rw [add_sub_cancel_right]; exact this.1, this.2⟩) h2 k2
  exact ⟨a, a', k1, k2, by rw [hs]; rfl⟩

/-! ### C102 -/

/-- **C102**: no time stamp is invented.  Every published state carries a time, and that time is the stamp of a
measurement that arrived; so is the time of every row of the log. -/
theorem C102_stamps {et h g ic cs e} (he : Estimator.ctor et h g ic cs = some e) {evs : List EstEv} (u : Usable ic cs (imuArrivals evs)) :
    ∃ a, e.run evs = some a ∧ (∀ s ∈ published e evs, ∃ t, s.t = some t ∧ ∃ ev ∈ evs, ev.stamp = some t) ∧
      ∀ r ∈ a.log.written, ∃ ev ∈ evs, ev.stamp = some r.time := by
  obtain ⟨a, k1, -⟩ := C58_safe he evs u
  set T : ℝ → Prop := fun t => ∃ ev ∈ evs, ev.stamp = some t with hT
  obtain ⟨-, -, -, -, st⟩ := ctor_later he 0 T
  have key : ∀ (l : List EstEv) {fut : List ImuMeas} {e : Estimator}, StampInv T e → EstInv (imuArrivals l ++ fut) e → (∀ ev ∈ l, ev ∈ evs) →
      ∀ s ∈ published e l, ∃ t, s.t = some t ∧ T t := by
    intro l
    induction l with
    | nil => intro fut e _ _ _ s hs; simp [published] at hs
    | cons ev l ih =>
      intro fut e st i hl s hs
      rw [imuArrivals_cons, List.append_assoc] at i
      obtain ⟨e1, h1, i1⟩ := step_inv ev i
      have st1 : StampInv T e1 := step_stamp st (fun t ht => ⟨ev, hl ev (by simp), ht⟩) h1
      rw [published_cons h1] at hs
      rcases List.mem_append.mp hs with hs | hs
      · have hon : ∀ s, s = e1.state → e1.enabled = true → ∃ t, s.t = some t ∧ T t := by
          rintro s rfl hen
          obtain ⟨-, tp, m, -, -, -, ht⟩ := i1.run hen
          obtain ⟨t, ht⟩ := Option.isSome_iff_exists.mp ht
          exact ⟨t, ht, st1.st t ht⟩
        cases ev with
        | tick =>
          have hp : publishedBy e .tick = e1.outQ.drop e.outQ.length := by unfold publishedBy; rw [h1]
          rw [hp] at hs
          have ht : e.tick = some e1 := h1
          cases tick_out ht with
          | quiet o l en => rw [o] at hs; simp at hs
          | init o l en how =>
            have hne : e1.outQ ≠ e.outQ := by rw [o]; simp
            have hen : e1.enabled = true := by
              rcases how with ⟨-, -, hi⟩ | ⟨k, -, hi⟩
              · rcases initState_out hi with ⟨h1, -⟩ | ⟨-, -, h3⟩
                · exact absurd h1 hne
                · exact h3
              · rcases initFrom_out hi with ⟨h1, -⟩ | ⟨-, -, h3⟩
                · exact absurd h1 hne
                · exact h3
            rw [o] at hs; simp at hs; exact hon s hs hen
          | run o l en => rw [o] at hs; simp at hs; exact hon s hs en.2
        | _ => simp [publishedBy, h1] at hs
      · exact ih st1 i1 (fun x hx => hl x (by simp [hx])) s hs
  have hpub := key evs (fut := []) st (by rw [List.append_nil]; exact (ctor_inv u he).1) (fun _ h => h)
  refine ⟨a, k1, hpub, fun r hr => ?_⟩
  obtain ⟨⟨l, hl, hrow⟩, -⟩ := C62_rate he k1
  obtain ⟨s, hs, hsr⟩ : ∃ s ∈ l, IsRow s r := by
    clear hl
    generalize a.log.written = w at hr hrow
    induction hrow with
    | nil => simp at hr
    | cons hm _ ih =>
      rcases List.mem_cons.mp hr with rfl | hr
      · exact ⟨_, by simp, hm⟩
      · obtain ⟨s, h1, h2⟩ := ih hr
        exact ⟨s, by simp [h1], h2⟩
  obtain ⟨t, h1, h2⟩ := hpub s (hl.subset hs)
  rw [hsr.1] at h1
  obtain rfl := Option.some.inj h1
  exact h2

/-! ### witnesses -/

/-- bias averaging off, no corrections, logging on at the default 10 Hz; two IMU measurements at time `t` -/
theorem exLogged (t : ℝ) : ∃ e a s, Estimator.ctor .rightInvariant ⟨fun _ => 0, 0⟩ { enable_pose_logger := true } { static_bias_initialization := some false } [] = some e ∧
    Usable { static_bias_initialization := some false } [] (imuArrivals [.tick, .imu ⟨t, 0, 0, Quat.id⟩, .tick, .imu ⟨t, 0, 0, Quat.id⟩, .tick]) ∧
    e.run [.tick, .imu ⟨t, 0, 0, Quat.id⟩, .tick, .imu ⟨t, 0, 0, Quat.id⟩, .tick] = some a ∧ a.log.queue = [s] ∧ s.t = some t ∧ a.log.enabled = true ∧
    a.log.rate = 10 ∧ a.log.lastPub = 0 ∧ a.log.written = [] := by
  obtain ⟨e, he⟩ : ∃ e, Estimator.ctor .rightInvariant ⟨fun _ => 0, 0⟩ { enable_pose_logger := true } { static_bias_initialization := some false } [] = some e :=
    ⟨_, rfl⟩
  have u : ∀ l : List ImuMeas, (∀ m ∈ l, m = ⟨t, 0, 0, Quat.id⟩) → Usable { static_bias_initialization := some false } [] l := by
    intro l hl
    refine ⟨by simp, by simp, .inl rfl, .inl rfl, ?_⟩
    refine List.pairwise_of_forall_mem_list ?_
    intro a ha b hb
    rw [hl a ha, hl b hb]
  obtain ⟨e2, h2, hen, hp, hbu, hbi, hco, hlog⟩ : ∃ e2, e.run [.tick, .imu ⟨t, 0, 0, Quat.id⟩] = some e2 ∧ e2.enabled = false ∧ e2.pending = none ∧
      e2.prop.buffer = [⟨t, 0, 0, Quat.id⟩] ∧ e2.prop.biasInitialized = true ∧ e2.corrs = [] ∧ e2.log = Logger.ctor true none none none := by
    rw [← Option.some.inj he]
    simp only [Estimator.run, Estimator.step, Estimator.tick, Estimator.initBias, ImuProp.initImuBias, Option.getD_some, if_true,
      Option.map_some, Option.bind_some, if_false, Bool.false_eq_true]
    exact ⟨_, rfl, rfl, rfl, rfl, rfl, rfl, rfl⟩
  have hu2 : InUse e2 := ⟨_, _, _, _, _, e, _, u _ (by simp [imuArrivals]), he, h2⟩
  obtain ⟨s3, k1, -⟩ := C45_all_data hu2 hen hp hbu (by rw [hco]; simp)
  obtain ⟨e4, h4, hen4, hbu4, hlog4, hp4⟩ : ∃ e4, e.run [.tick, .imu ⟨t, 0, 0, Quat.id⟩, .tick, .imu ⟨t, 0, 0, Quat.id⟩] = some e4 ∧ e4.enabled = true ∧
      e4.prop.buffer ≠ [] ∧ e4.log = Logger.ctor true none none none ∧ e4.pending = none := by
    have htick : e2.step .tick = e2.initState := by
      show e2.tick = _
      unfold Estimator.tick
      rw [hp]
      simp only [hen, hbi, if_true, if_false, Bool.false_eq_true]
    rw [show [EstEv.tick, .imu ⟨t, 0, 0, Quat.id⟩, .tick, .imu ⟨t, 0, 0, Quat.id⟩] = [EstEv.tick, .imu ⟨t, 0, 0, Quat.id⟩] ++ [.tick] ++ [.imu ⟨t, 0, 0, Quat.id⟩] from rfl,
      run_append_one, run_append_one, h2, Option.bind_some, htick, k1, Option.bind_some]
    exact ⟨_, rfl, rfl, by simp, hlog, rfl⟩
  have hu4 : InUse e4 := ⟨_, _, _, _, _, e, _, u _ (by simp [imuArrivals]), he, h4⟩
  obtain ⟨b, p, s1, bs, cs, hh, s2, a, -, -, h5, hs2, -, -, -, hb, hout, -⟩ := C56_publishes hu4 hen4
  obtain ⟨ho, hq⟩ := hout (by simp [hb.mpr hbu4])
  have htick : e4.tick = some a := by
    unfold Estimator.tick
    rw [hp4]
    simp only [hen4, if_true]
    exact h5
  have hrun : e.run [.tick, .imu ⟨t, 0, 0, Quat.id⟩, .tick, .imu ⟨t, 0, 0, Quat.id⟩, .tick] = some a := by
    rw [show [EstEv.tick, .imu ⟨t, 0, 0, Quat.id⟩, .tick, .imu ⟨t, 0, 0, Quat.id⟩, .tick] = [EstEv.tick, .imu ⟨t, 0, 0, Quat.id⟩, .tick, .imu ⟨t, 0, 0, Quat.id⟩] ++ [.tick] from rfl,
      run_append_one, h4]
    exact htick
  have hql : a.log.queue = [s2] := by
    rw [hq, hlog4]; rfl
  have hl : a.log = (Logger.ctor true none none none).push a.state := by
    cases tick_out htick with
    | quiet o l en => rw [o] at ho; simp at ho
    | init o l en how =>
      rcases en with en | en
      · rw [hen4] at en; cases en
      · exact absurd hp4 en
    | run o l en => rw [l, hlog4]
  have st : s2.t = some t := by
    have i := inUse_inv (e := a) ⟨_, _, _, _, _, e, _, u _ (by simp [imuArrivals]), he, hrun⟩
    obtain ⟨t', ht'⟩ := Option.isSome_iff_exists.mp (i.logs s2 (by rw [hql]; simp)).1
    obtain ⟨-, -, -, -, st⟩ := ctor_later he 0 (fun x => x = t)
    have := (run_stamp _ st (by
      intro ev hev x hx
      simp only [List.mem_cons, List.not_mem_nil, or_false] at hev
      rcases hev with rfl | rfl | rfl | rfl | rfl <;> simp [EstEv.stamp] at hx <;> exact hx.symm) hrun).logs s2 (by rw [hql]; simp) t' ht'
    rw [ht', this]
  refine ⟨e, a, s2, he, u _ (by simp [imuArrivals]), hrun, hql, st, ?_, ?_, ?_, ?_⟩ <;> rw [hl] <;> rfl

/-- **C101 is false of the log**: the time of the last row starts at 0, so a state is logged only if its stamp is
at least `1/pose_log_rate`.  The same measurements, stamped 5 on one clock and 0 on the other: one row in the first
case, none in the second. -/
theorem C101_log_false : ∃ (g : EstConfig) (ic : ImuPropConfig) (evs : List EstEv) (c : ℝ) (e a a' : Estimator),
    Estimator.ctor .rightInvariant ⟨fun _ => 0, 0⟩ g ic [] = some e ∧ Usable ic [] (imuArrivals evs) ∧ e.run evs = some a ∧
    e.run (evs.map (EstEv.later c)) = some a' ∧ a.log.written.length = 1 ∧ a'.log.written.length = 0 := by
  have key : ∀ t : ℝ, ∃ e a, Estimator.ctor .rightInvariant ⟨fun _ => 0, 0⟩ { enable_pose_logger := true } { static_bias_initialization := some false } [] = some e ∧
      Usable { static_bias_initialization := some false } []
        (imuArrivals [.tick, .imu ⟨t, 0, 0, Quat.id⟩, .tick, .imu ⟨t, 0, 0, Quat.id⟩, .tick, .log]) ∧
      e.run [.tick, .imu ⟨t, 0, 0, Quat.id⟩, .tick, .imu ⟨t, 0, 0, Quat.id⟩, .tick, .log] = some a ∧
      a.log.written.length = if 1 / 10 ≤ t then 1 else 0 := by
    intro t
    obtain ⟨e, b, s, he, u, hr, hq, hs, h1, h2, h3, h4⟩ := exLogged t
    obtain ⟨a, ha, -⟩ := C58_safe he [.tick, .imu ⟨t, 0, 0, Quat.id⟩, .tick, .imu ⟨t, 0, 0, Quat.id⟩, .tick, .log] u
    refine ⟨e, a, he, u, ha, ?_⟩
    rw [show [EstEv.tick, .imu ⟨t, 0, 0, Quat.id⟩, .tick, .imu ⟨t, 0, 0, Quat.id⟩, .tick, .log] =
      [EstEv.tick, .imu ⟨t, 0, 0, Quat.id⟩, .tick, .imu ⟨t, 0, 0, Quat.id⟩, .tick] ++ [.log] from rfl, run_append_one, hr, Option.bind_some] at ha
    simp only [Estimator.step, Option.map_eq_some_iff] at ha
    obtain ⟨l, hl, rfl⟩ := ha
    have hdue : b.log.due t ↔ 1 / 10 ≤ t := by
      unfold Logger.due
      rw [h2, h3]
      norm_num
    rcases iter_cases hl with ⟨q, -⟩ | ⟨s', rest, t', q, ht', hc⟩
    · rw [hq] at q; cases q
    · rw [hq] at q
      cases q
      rw [hs] at ht'
      obtain rfl := Option.some.inj ht'
      rw [hdue, h4] at hc
      rcases hc with ⟨hn, rfl⟩ | ⟨hy, r, -, -, rfl⟩
      · rw [if_neg (fun q => hn ⟨h1, q⟩)]
        rfl
      · rw [if_pos hy.2]; rfl
  obtain ⟨e, a, he, u, hr, hw⟩ := key 5
  obtain ⟨e', a', he', -, hr', hw'⟩ := key 0
  rw [he] at he'
  obtain rfl := Option.some.inj he'
  refine ⟨_, _, _, -5, e, a, a', he, u, hr, ?_, by rw [hw]; norm_num, by rw [hw']; norm_num⟩
  rw [← hr']
  simp [EstEv.later, ImuMeas.later]

/-- the hypotheses of `C101_log_partial` are met: stamps 5 on one clock and 5.5 on the other -/
example : ∃ e, Estimator.ctor .rightInvariant ⟨fun _ => 0, 0⟩ { enable_pose_logger := true } { static_bias_initialization := some false } [] = some e ∧
    Usable { static_bias_initialization := some false } []
      (imuArrivals [.tick, .imu ⟨5, 0, 0, Quat.id⟩, .tick, .imu ⟨5, 0, 0, Quat.id⟩, .tick, .log]) ∧
    ∀ ev ∈ [EstEv.tick, .imu ⟨5, 0, 0, Quat.id⟩, .tick, .imu ⟨5, 0, 0, Quat.id⟩, .tick, .log], ∀ t, ev.stamp = some t →
      1 / (none : Option ℝ).getD 10 ≤ t ∧ 1 / (none : Option ℝ).getD 10 ≤ t + 0.5 := by
  obtain ⟨e, a, s, he, u, -⟩ := exLogged 5
  refine ⟨e, he, u, ?_⟩
  intro ev hev t ht
  simp only [List.mem_cons, List.not_mem_nil, or_false] at hev
  rcases hev with rfl | rfl | rfl | rfl | rfl | rfl <;> simp [EstEv.stamp] at ht <;> subst ht <;> norm_num

/-- the hypotheses of `C101_time_origin` and `C102_stamps` are met by a history in which a state is published -/
example : ∃ e a, Estimator.ctor .rightInvariant ⟨fun _ => 0, 0⟩ { enable_pose_logger := true } { static_bias_initialization := some false } [] = some e ∧
    Usable { static_bias_initialization := some false } [] (imuArrivals [.tick, .imu ⟨5, 0, 0, Quat.id⟩, .tick, .imu ⟨5, 0, 0, Quat.id⟩, .tick]) ∧
    e.run [.tick, .imu ⟨5, 0, 0, Quat.id⟩, .tick, .imu ⟨5, 0, 0, Quat.id⟩, .tick] = some a ∧ a.log.queue ≠ [] := by
  obtain ⟨e, a, s, he, u, hr, hq, -⟩ := exLogged 5
  exact ⟨e, a, he, u, hr, by rw [hq]; simp⟩

end Drift
