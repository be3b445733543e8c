import Verif.Lemmas.Sys2

/-! # Lemmas: no history of a sound program is undefined -/
set_option linter.unusedSimpArgs false
namespace Drift
open Mat Matrix RobotState

/-- estimator and filter of the running program: `τ` bounds the IMU data still to come from below, `σ` is the latest stamp
received at a topic that times the propagation -/
structure Core (τ σ : ℝ) (s : System) : Prop where
  ready : Ready τ s.est
  dated : Dated s.est
  le : τ ≤ σ
  filter : ∀ f, s.filter = some f → f.Safe ∧ FOrd τ σ f

theorem Core.mono {τ σ σ' : ℝ} {s : System} (h : Core τ σ s) (hs : σ ≤ σ') : Core τ σ' s :=
  ⟨h.ready, h.dated, h.le.trans hs, fun f hf => ⟨(h.filter f hf).1, (h.filter f hf).2.mono hs⟩⟩

theorem core_est {τ σ : ℝ} {s : System} (h : Core τ σ s) (ev : EstEv) (hv : imuArrivals [ev] = []) (ht : ev ≠ .tick) (hc : ev ≠ .consume)
    (hcl : ev ≠ .clear) : ∃ s', (s.est.step ev).map (fun e => { s with est := e }) = some s' ∧ s'.filter = s.filter ∧ Core τ σ s' := by
  obtain ⟨e', h1, h2⟩ := ready_step h.ready ev hv
  rw [h1]
  refine ⟨_, rfl, rfl, h2, ?_, h.le, h.filter⟩
  intro st hst
  rw [show ({ s with est := e' } : System).est.outQ = s.est.outQ from (quiet_step ht hc hcl h1).1] at hst
  exact h.dated st hst

theorem core_imu {τ σ : ℝ} {s : System} (h : Core τ σ s) (m : ImuMeas) (h1 : τ ≤ m.time) (h2 : m.time ≤ σ)
    (hf : ∀ f, s.filter = some f → f.Safe ∧ FOrd m.time σ f) :
    ∃ s', s.feed .imu (.imu m) = some s' ∧ s'.filter = s.filter ∧ Core m.time σ s' := by
  obtain ⟨e', k1, k2⟩ := ready_imu h.ready m h1
  simp only [System.feed, k1, Option.map_some]
  refine ⟨_, rfl, rfl, k2, ?_, h2, hf⟩
  intro st hst
  rw [show ({ s with est := e' } : System).est.outQ = s.est.outQ from (quiet_step (by simp) (by simp) (by simp) k1).1] at hst
  exact h.dated st hst

/-- an element reaches its consumer -/
theorem feed_core {τ σ : ℝ} {s : System} (h : Core τ σ s) (p : Port) (m : RosMeas) (hc : p.clocked = true → m.time = σ)
    (hi : p = .imu → s.filter = none) :
    ∃ s', s.feed p m = some s' ∧ (s.filter = none → s'.filter = none) ∧ ∃ τ', Core τ' σ s' := by
  have idle : ∃ s', some s = some s' ∧ (s.filter = none → s'.filter = none) ∧ ∃ τ', Core τ' σ s' := ⟨s, rfl, id, τ, h⟩
  cases p with
  | imu =>
    cases m with
    | imu m =>
      have e : m.time = σ := hc rfl
      have hn := hi rfl
      obtain ⟨s', k1, k2, k3⟩ := core_imu h m (by rw [e]; exact h.le) e.le (fun f hf => by rw [hn] at hf; cases hf)
      exact ⟨s', k1, fun _ => k2.trans hn, _, k3⟩
    | vel m => exact idle
    | ang m => exact idle
    | kin m => exact idle
  | corr i =>
    cases m with
    | imu m => exact idle
    | ang m => exact idle
    | vel m =>
      obtain ⟨s', k1, k2, k3⟩ := core_est h (.vel i m) rfl (by simp) (by simp) (by simp)
      exact ⟨s', k1, fun e => k2.trans e, _, k3⟩
    | kin k =>
      obtain ⟨l, hl⟩ : ∃ l, legOf k = some l := by
        obtain ⟨_, l, h⟩ := legOf_some k
        exact ⟨l, h.2.2.2.2.1⟩
      obtain ⟨s', k1, k2, k3⟩ := core_est h (.leg i l) rfl (by simp) (by simp) (by simp)
      exact ⟨s', by simp only [System.feed, hl, Option.bind_eq_bind, Option.bind_some]; exact k1, fun e => k2.trans e, _, k3⟩
  | unused => exact idle
  | fgyro =>
    cases m with
    | imu m =>
      refine ⟨_, rfl, fun e => by simp [e], τ, h.ready, h.dated, h.le, ?_⟩
      intro f hf
      simp only [Option.map_eq_some_iff] at hf
      obtain ⟨f0, h0, rfl⟩ := hf
      obtain ⟨a, b⟩ := h.filter f0 h0
      obtain ⟨f', e1, e2⟩ := a.step (.gyroData m) (by simp [GyroFilter.Op.running])
      refine ⟨?_, b.imu, b.enc, b.out, b.num, b.meth, b.mode⟩
      rw [← Option.some.inj e1] at e2
      exact e2
    | vel m => exact idle
    | ang m => exact idle
    | kin m => exact idle
  | fimu =>
    cases m with
    | imu m =>
      have e : m.time = σ := hc rfl
      refine ⟨_, rfl, fun e => by simp [e], τ, h.ready, h.dated, h.le, ?_⟩
      intro f hf
      simp only [Option.map_eq_some_iff] at hf
      obtain ⟨f0, h0, rfl⟩ := hf
      obtain ⟨a, b⟩ := h.filter f0 h0
      obtain ⟨f', e1, e2⟩ := a.step (.imuData m) (by simp [GyroFilter.Op.running])
      refine ⟨?_, push_order b.imu h.le e, b.enc, b.out, b.num, b.meth, ?_⟩
      · rw [← Option.some.inj e1] at e2
        exact e2
      · rcases b.mode with k | k | k
        · exact .inl (by simp [k])
        · exact .inr (.inl k)
        · exact .inr (.inr k)
    | vel m => exact idle
    | ang m => exact idle
    | kin m => exact idle
  | fenc =>
    cases m with
    | ang m =>
      have e : m.time = σ := hc rfl
      refine ⟨_, rfl, fun e => by simp [e], τ, h.ready, h.dated, h.le, ?_⟩
      intro f hf
      simp only [Option.map_eq_some_iff] at hf
      obtain ⟨f0, h0, rfl⟩ := hf
      obtain ⟨a, b⟩ := h.filter f0 h0
      obtain ⟨f', e1, e2⟩ := a.step (.encData m) (by simp [GyroFilter.Op.running])
      refine ⟨?_, b.imu, push_order b.enc h.le e, b.out, b.num, b.meth, ?_⟩
      · rw [← Option.some.inj e1] at e2
        exact e2
      · rcases b.mode with k | k | k
        · exact .inl k
        · exact .inr (.inl (by simp [k]))
        · exact .inr (.inr k)
    | vel m => exact idle
    | imu m => exact idle
    | kin m => exact idle

theorem feedAll_core {σ : ℝ} (l : List (Port × RosMeas)) : ∀ {τ : ℝ} {s : System}, Core τ σ s →
    (∀ x ∈ l, x.1.clocked = true → x.2.time = σ) → ((∃ x ∈ l, x.1 = .imu) → s.filter = none) →
    ∃ s', s.feedAll l = some s' ∧ ∃ τ', Core τ' σ s' := by
  induction l with
  | nil => intro τ s h _ _; exact ⟨s, rfl, τ, h⟩
  | cons x l ih =>
    intro τ s h hc hi
    obtain ⟨s1, k1, k2, τ1, k3⟩ := feed_core h x.1 x.2 (hc x (by simp)) (fun e => hi ⟨x, by simp, e⟩)
    obtain ⟨s2, j1, j2⟩ := ih k3 (fun y hy => hc y (by simp [hy])) (fun ⟨y, hy, e⟩ => k2 (hi ⟨y, by simp [hy], e⟩))
    exact ⟨s2, by simp only [System.feedAll, k1, Option.bind_some]; exact j1, j2⟩

/-- one iteration of the filter -/
theorem core_filter {τ σ : ℝ} {mlog : M4 → M4} {s : System} (h : Core τ σ s) : ∃ s', s.step mlog .filter = some s' ∧ ∃ τ', Core τ' σ s' := by
  obtain ⟨fo, hf⟩ : ∃ fo, s.filter = fo := ⟨_, rfl⟩
  simp only [System.step]
  rw [hf]
  cases fo with
  | none => exact ⟨s, rfl, τ, h⟩
  | some f =>
    obtain ⟨a, b⟩ := h.filter f hf
    obtain ⟨f', h1, h2⟩ := a.run
    have a' : ({ f' with out := [] } : GyroFilter).Safe := ⟨h2.psd, h2.noisy, h2.static, h2.choose, h2.method⟩
    simp only [h1, Option.bind_eq_bind, Option.bind_some]
    rcases GyroFilter.runOnce_next b h1 with ⟨o, n⟩ | ⟨x, o, t1, t2, n⟩
    · rw [o]
      refine ⟨_, rfl, τ, h.ready, h.dated, h.le, ?_⟩
      intro g hg
      rw [← Option.some.inj hg]
      exact ⟨a', n⟩
    · rw [o]
      obtain ⟨s', k1, -, k3⟩ := core_imu (s := { s with filter := some { f' with out := [] } }) (τ := τ) (σ := σ)
        ⟨h.ready, h.dated, h.le, fun g hg => by
          rw [← Option.some.inj hg]
          exact ⟨a', ⟨fun q hq => ⟨(n.imu q hq).1, fun m hm => ⟨t1.trans ((n.imu q hq).2 m hm).1, ((n.imu q hq).2 m hm).2⟩⟩,
            fun q hq => ⟨(n.enc q hq).1, fun m hm => ⟨t1.trans ((n.enc q hq).2 m hm).1, ((n.enc q hq).2 m hm).2⟩⟩,
            n.out, n.num, n.meth, n.mode⟩⟩⟩ x t1 t2 (fun g hg => by
          rw [← Option.some.inj hg]
          exact ⟨a', n⟩)
      refine ⟨s', ?_, _, k3⟩
      simp only [List.map_cons, List.map_nil, System.feedAll, k1, Option.bind_some]

/-- the publisher can publish what the estimator hands over -/
structure PubOK (s : System) : Prop where
  rate : ∃ k, 1 ≤ k ∧ RosPub.poseSkip s.pub.poseRate s.pub.pathRate = some k

theorem publishable {e : Estimator} (i : EstInv [] e) (d : Dated e) {st : RobotState} (h : st ∈ e.outQ) : Publishable st := by
  obtain ⟨K, sh, -⟩ := i.outs st h
  refine ⟨d st h, ?_⟩
  have := sh.x.rows
  have := sh.x.cols
  have := sh.k
  have := sh.pr
  have := sh.pc
  omega

theorem core_pose {τ σ : ℝ} {mlog : M4 → M4} {s : System} (h : Core τ σ s) (p : PubOK s) :
    ∃ s', s.step mlog .pose = some s' ∧ Core τ σ s' ∧ PubOK s' ∧ s'.sub = s.sub ∧ s'.wires = s.wires ∧ s'.filter = s.filter := by
  obtain ⟨k, hk, hp⟩ := p.rate
  have H : ∃ p', ({ s.pub with queue := s.est.outQ } : RosPub).posePublish = some p' := by
    unfold RosPub.posePublish
    simp only
    cases hq : s.est.outQ with
    | nil => exact ⟨_, rfl⟩
    | cons st q =>
      obtain ⟨m, hm⟩ := C89_defined (publishable h.ready.inv h.dated (st := st) (by rw [hq]; simp)) s.pub.poseSeq
      simp only [hm, hp, Option.bind_eq_bind, Option.bind_some, RosPub.cmod]
      rw [if_neg (by omega)]
      exact ⟨_, rfl⟩
  obtain ⟨p', hp'⟩ := H
  have hq : p'.queue = s.est.outQ.tail := posePublish_queue hp'
  have hr : p'.poseRate = s.pub.poseRate ∧ p'.pathRate = s.pub.pathRate := by
    rcases posePublish_some hp' with ⟨-, e⟩ | ⟨_, _, _, _, _, -, -, -, -, e⟩ <;> rw [e] <;> exact ⟨rfl, rfl⟩
  refine ⟨{ s with pub := p', est := { s.est with outQ := p'.queue } }, Option.map_eq_some_iff.mpr ⟨p', hp', rfl⟩, ⟨?_, ?_, h.le, h.filter⟩, ⟨k, hk, ?_⟩, rfl, rfl, rfl⟩
  · obtain ⟨e', h1, h2⟩ := ready_step h.ready .consume rfl
    rw [← Option.some.inj h1] at h2
    simp only [hq]
    exact h2
  · intro st hst
    simp only [hq] at hst
    exact h.dated st (List.mem_of_mem_tail hst)
  · simp only [hr]
    exact hp

theorem core_tick {τ σ : ℝ} {mlog : M4 → M4} {s : System} (h : Core τ σ s) :
    ∃ e', s.step mlog .tick = some { s with est := e' } ∧ Core τ σ { s with est := e' } := by
  obtain ⟨e', h1, h2⟩ := ready_step h.ready .tick rfl
  exact ⟨e', by simp [System.step, h1], h2, tick_dated h.dated h2.inv h1, h.le, h.filter⟩

theorem core_log {τ σ : ℝ} {mlog : M4 → M4} {s : System} (h : Core τ σ s) :
    ∃ e', s.step mlog .log = some { s with est := e' } ∧ Core τ σ { s with est := e' } := by
  obtain ⟨e', h1, h2⟩ := ready_step h.ready .log rfl
  refine ⟨e', by simp [System.step, h1], h2, ?_, h.le, h.filter⟩
  intro st hst
  rw [show ({ s with est := e' } : System).est.outQ = s.est.outQ from (quiet_step (by simp) (by simp) (by simp) h1).1] at hst
  exact h.dated st hst

end Drift
