import Verif.Lemmas.Sys4

/-! # Lemmas: sound programs -/
set_option linter.unusedSimpArgs false
namespace Drift
open Mat Matrix RobotState

/-- a program whose configuration can be used -/
structure Program.Sound (P : Program) : Prop where
  kinds : ∀ x ∈ P.topics, KindOK x.1
  ctor : ∀ h, ∃ e, Estimator.ctor P.et h P.est P.imu P.corrs = some e
  vel : ∀ c, CorrConfig.vel c ∈ P.corrs → c.velocity_std.getD 0.1 ≠ 0
  leg : ∀ c, CorrConfig.leg c ∈ P.corrs → c.kinematics_additive_std.getD 0.05 ≠ 0
  bias : P.imu.static_bias_initialization.getD true = false ∨ (1 ≤ P.imu.init_bias_size.getD 0 ∧ P.imu.init_bias_size.getD 0 < 2 ^ 31)
  ori : P.imu.use_imu_ori_to_init.getD false = false
  rate : ∃ k, 1 ≤ k ∧ RosPub.poseSkip P.poseRate P.pathRate = some k
  fresh : P.FilterFresh
  safe : ∀ f, P.filter = some f → f.Safe ∧ f.numImu ≤ 1 ∧ f.method ≠ .multiImu ∧
    (f.imu = none ∨ f.enc = none ∨ (f.method = .imuPlusAngVel ∧ f.chooseMethod = .imuPlusAngVel))
  own : (∃ x ∈ P.topics, Port.imu ∈ topicPorts x) → P.filter = none

/-- the invariant of a running program; `fut` are the events still to come -/
structure SysInv (P : Program) (fut : List SysEv) (s : System) : Prop where
  sub : SubInv P fut s.sub s.wires
  pub : PubOK s
  core : ∃ τ σ, Core τ σ s ∧ ∀ t ∈ propStamps P fut, σ ≤ t
  sorted : PropSorted P fut
  own : (∃ x ∈ P.topics, Port.imu ∈ topicPorts x) → s.filter = none

theorem propStamps_msg (P : Program) (i : ℕ) (m : RosMsg) (fut : List SysEv) : propStamps P (.msg i m :: fut) =
    if (P.topics[i]?.map clockedTopic).getD false then m.sec :: propStamps P fut else propStamps P fut := by
  unfold propStamps
  rw [List.filterMap_cons]
  split_ifs with h
  · simp [h]
  · simp [h]

theorem propStamps_quiet (P : Program) {ev : SysEv} (h : ∀ i m, ev ≠ .msg i m) (fut : List SysEv) :
    propStamps P (ev :: fut) = propStamps P fut := by
  cases ev with
  | msg j m => exact absurd rfl (h j m)
  | _ => rfl

theorem sys_step_ok {P : Program} (hP : P.Sound) {mlog : M4 → M4} {ev : SysEv} {fut : List SysEv} {s : System}
    (h : SysInv P (ev :: fut) s) (hm : ∀ i m, ev = .msg i m → ∀ x, P.topics[i]? = some x → MsgOK x.1 m) :
    ∃ s', s.step mlog ev = some s' ∧ SysInv P fut s' := by
  obtain ⟨τ, σ, hc, hσ⟩ := h.core
  have quiet : (∀ i m, ev ≠ .msg i m) → SubInv P fut s.sub s.wires ∧ (∀ t ∈ propStamps P fut, σ ≤ t) ∧ PropSorted P fut := by
    intro hv
    refine ⟨h.sub.quiet hv, ?_, ?_⟩
    · rw [← propStamps_quiet P hv]; exact hσ
    · unfold PropSorted; rw [← propStamps_quiet P hv]; exact h.sorted
  cases ev with
  | msg i m =>
    obtain ⟨sub', h1, h2, h3⟩ := deliver_ok (mlog := mlog) h.sub hP.kinds (hm i m rfl)
    have ht := fresh_time (w := s.wires) (deliver_time h1 h.sub.queues)
    have hsort : PropSorted P fut := by
      have := h.sorted
      unfold PropSorted at this ⊢
      rw [propStamps_msg] at this
      split_ifs at this
      · exact (List.pairwise_cons.mp this).2
      · exact this
    -- the new bound
    have hb : ∃ σ', σ ≤ σ' ∧ (∀ t ∈ propStamps P fut, σ' ≤ t) ∧ ∀ x ∈ System.fresh s.wires sub', x.1.clocked = true → x.2.time = σ' := by
      have hs := h.sorted
      unfold PropSorted at hs
      rw [propStamps_msg] at hs hσ
      split_ifs at hs hσ with hcl
      · exact ⟨m.sec, hσ _ (by simp), (List.pairwise_cons.mp hs).1, fun x hx _ => ht x hx⟩
      · refine ⟨σ, le_rfl, hσ, fun x hx hxc => ?_⟩
        exfalso
        obtain ⟨y, hy, hxy⟩ := h3 x hx
        refine hcl ?_
        rw [hy]
        simp only [Option.map_some, Option.getD_some, clockedTopic]
        unfold topicPorts at hxy
        split_ifs at hxy with h2
        · rcases List.mem_cons.mp hxy with e | e
          · rw [← e, hxc]; rfl
          · rw [← List.mem_singleton.mp e, hxc, h2]; simp
        · rw [← List.mem_singleton.mp hxy, hxc]; rfl
    obtain ⟨σ', hb1, hb2, hb3⟩ := hb
    have hc1 := hc.mono hb1
    obtain ⟨s', k1, τ', k2⟩ := feedAll_core (σ := σ') (System.fresh s.wires sub') (τ := τ)
      (s := { s with sub := { sub' with queues := sub'.queues.map fun _ => [] } }) ⟨hc1.ready, hc1.dated, hc1.le, hc1.filter⟩ hb3
      (fun ⟨x, hx, e⟩ => by
        obtain ⟨y, hy, hxy⟩ := h3 x hx
        exact h.own ⟨y, List.mem_of_getElem? hy, e ▸ hxy⟩)
    obtain ⟨a1, a2, a3, a4⟩ := feedAll_sub _ k1
    refine ⟨s', by simp only [System.step, h1, Option.bind_eq_bind, Option.bind_some]; exact k1, ?_, ?_, ⟨τ', σ', k2, hb2⟩, hsort, ?_⟩
    · rw [a1, a2]; exact h2
    · exact ⟨by rw [a3]; exact h.pub.rate⟩
    · intro hx
      have := h.own hx
      rw [show ({ s with sub := { sub' with queues := sub'.queues.map fun _ => [] } } : System).filter = none from this] at a4
      simpa using a4
  | filter =>
    obtain ⟨q1, q2, q3⟩ := quiet (by simp)
    obtain ⟨s', k1, τ', k2⟩ := core_filter (mlog := mlog) hc
    have keep : s'.sub = s.sub ∧ s'.wires = s.wires ∧ s'.pub = s.pub ∧ s'.filter.isSome = s.filter.isSome := by
      simp only [System.step] at k1
      obtain ⟨fo, hf⟩ : ∃ fo, s.filter = fo := ⟨_, rfl⟩
      rw [hf] at k1
      cases fo with
      | none => rw [← Option.some.inj k1]; exact ⟨rfl, rfl, rfl, rfl⟩
      | some f =>
        simp only [Option.bind_eq_bind, Option.bind_eq_some_iff] at k1
        obtain ⟨f1, -, k1⟩ := k1
        obtain ⟨a1, a2, a3, a4⟩ := feedAll_sub _ k1
        exact ⟨a1, a2, a3, by rw [a4, hf]; rfl⟩
    obtain ⟨a1, a2, a3, a4⟩ := keep
    refine ⟨s', k1, by rw [a1, a2]; exact q1, ⟨by rw [a3]; exact h.pub.rate⟩, ⟨τ', σ, k2, q2⟩, q3, fun hx => ?_⟩
    rw [h.own hx] at a4
    simpa using a4
  | tick =>
    obtain ⟨q1, q2, q3⟩ := quiet (by simp)
    obtain ⟨e', k1, k2⟩ := core_tick (mlog := mlog) hc
    exact ⟨_, k1, q1, ⟨h.pub.rate⟩, ⟨τ, σ, k2, q2⟩, q3, h.own⟩
  | log =>
    obtain ⟨q1, q2, q3⟩ := quiet (by simp)
    obtain ⟨e', k1, k2⟩ := core_log (mlog := mlog) hc
    exact ⟨_, k1, q1, ⟨h.pub.rate⟩, ⟨τ, σ, k2, q2⟩, q3, h.own⟩
  | pose =>
    obtain ⟨q1, q2, q3⟩ := quiet (by simp)
    obtain ⟨s', k1, k2, k3, k4, k5, k6⟩ := core_pose (mlog := mlog) hc h.pub
    exact ⟨s', k1, by rw [k4, k5]; exact q1, k3, ⟨τ, σ, k2, q2⟩, q3, fun hx => k6.trans (h.own hx)⟩
  | path =>
    obtain ⟨q1, q2, q3⟩ := quiet (by simp)
    refine ⟨_, rfl, q1, ⟨?_⟩, ⟨τ, σ, ⟨hc.ready, hc.dated, hc.le, hc.filter⟩, q2⟩, q3, h.own⟩
    have : s.pub.pathPublish.poseRate = s.pub.poseRate ∧ s.pub.pathPublish.pathRate = s.pub.pathRate := by
      unfold RosPub.pathPublish
      cases s.pub.poses.getLast? <;> exact ⟨rfl, rfl⟩
    simp only [this]
    exact h.pub.rate

theorem sys_run_ok {P : Program} (hP : P.Sound) {mlog : M4 → M4} (evs : List SysEv) : ∀ {s : System}, SysInv P evs s → WellFormed P evs →
    ∃ s', s.run mlog evs = some s' ∧ SysInv P [] s' := by
  induction evs with
  | nil => intro s h _; exact ⟨s, rfl, h⟩
  | cons ev evs ih =>
    intro s h hw
    obtain ⟨s1, h1, h2⟩ := sys_step_ok hP (mlog := mlog) h (fun i m e x hx => hw i m x (by simp [e]) hx)
    obtain ⟨s2, h3, h4⟩ := ih h2 (fun i m x e hx => hw i m x (by simp [e]) hx)
    exact ⟨s2, by simp only [System.run, h1, Option.bind_some]; exact h3, h4⟩

theorem start_ok {P : Program} (hP : P.Sound) (h : Heap) {evs : List SysEv} (ho : OdomDistinct P evs) (hs : PropSorted P evs) :
    ∃ s, P.start h = some s ∧ SysInv P evs s := by
  obtain ⟨sub, w, hw, W⟩ := wire_ok P.topics wires_init hP.kinds
  rw [List.nil_append] at W
  obtain ⟨e, he⟩ := hP.ctor h
  have hq := wire_queues _ hw (by simp [RosSub.init])
  refine ⟨⟨sub, w, P.filter, e, RosPub.init P.poseRate P.pathRate⟩, by simp only [Program.start, hw, he, Option.bind_eq_bind, Option.bind_some], ?_, ⟨hP.rate⟩, ?_, hs, hP.own⟩
  · refine ⟨W.wired, W.kinds, hq, W.ports, W.mount, fun i b hb hod => ?_, fun i b p hb hod hp => ?_⟩
    · have := congrArg (·[i]?) W.kinds
      simp only [List.getElem?_map, hb, Option.map_some] at this
      rw [eq_comm, Option.map_eq_some_iff] at this
      obtain ⟨x, hx, hxk⟩ := this
      exact ho i x hx (by rw [hxk]; exact hod)
    · have := W.prev b.src
      simp only at hp
      rw [this] at hp
      cases hp
  · obtain ⟨σ, hσ⟩ : ∃ σ, ∀ t ∈ propStamps P evs, σ ≤ t := by
      unfold PropSorted at hs
      cases hp : propStamps P evs with
      | nil => exact ⟨0, by simp⟩
      | cons t l =>
        rw [hp] at hs
        refine ⟨t, fun x hx => ?_⟩
        rcases List.mem_cons.mp hx with rfl | hx
        · exact le_rfl
        · exact (List.pairwise_cons.mp hs).1 x hx
    have inv : ∀ fut : List ImuMeas, fut.Pairwise (fun a b => a.time ≤ b.time) → EstInv fut e ∧ e.enabled = false ∧ e.pending = none ∧ e.outQ = [] :=
      fun fut hf => ctor_inv ⟨hP.vel, hP.leg, hP.bias, .inl hP.ori, hf⟩ he
    refine ⟨σ, σ, ⟨fun fut h1 _ => (inv fut h1).1, ?_, le_rfl, ?_⟩, hσ⟩
    · intro st hst
      rw [show ({ sub := sub, wires := w, filter := P.filter, est := e, pub := RosPub.init P.poseRate P.pathRate } : System).est.outQ = []
        from (inv [] .nil).2.2.2] at hst
      simp at hst
    · intro f hf
      obtain ⟨a1, a2, a3, a4, a5, a6⟩ := hP.fresh f hf
      obtain ⟨b1, b2, b3, b4⟩ := hP.safe f hf
      exact ⟨b1, fun q hq => by rw [a2 q hq]; simp, fun q hq => by rw [a4 q hq]; simp, a6, b2, b3, b4⟩

end Drift
