import Verif.Lemmas.Sys9

/-! # Lemmas: routing of the data, whole histories -/
set_option linter.unusedSimpArgs false
namespace Drift
open Mat Matrix RobotState

/-! ### estimator and publisher, with the estimator's events given -/

/-- from `s` to `s'` the estimator processes `eevs`, and the publisher gets the states that are published -/
def CompAs (eevs : List EstEv) (s s' : System) : Prop :=
  s.est.run eevs = some s'.est ∧ ∃ ops, RosPub.run ops s.publisher = some s'.publisher ∧ pushed ops = published s.est eevs

theorem CompAs.refl (s : System) : CompAs [] s s := ⟨rfl, [], rfl, rfl⟩

theorem CompAs.trans {l1 l2 : List EstEv} {s s1 s2 : System} (a : CompAs l1 s s1) (b : CompAs l2 s1 s2) : CompAs (l1 ++ l2) s s2 := by
  obtain ⟨a1, o1, a2, a3⟩ := a
  obtain ⟨b1, o2, b2, b3⟩ := b
  refine ⟨by rw [est_run_append, a1]; exact b1, o1 ++ o2, by rw [pub_run_append, a2]; exact b2, ?_⟩
  rw [pushed_append', published_append _ _ a1, a3, b3]

theorem quiet_run (l : List EstEv) : ∀ {e e' : Estimator}, (∀ ev ∈ l, ev ≠ .tick ∧ ev ≠ .consume ∧ ev ≠ .clear) → e.run l = some e' →
    e'.outQ = e.outQ ∧ published e l = [] := by
  induction l with
  | nil => intro e e' _ h; rw [← Option.some.inj h]; exact ⟨rfl, rfl⟩
  | cons ev l ih =>
    intro e e' hl h
    simp only [Estimator.run, Option.bind_eq_some_iff] at h
    obtain ⟨e1, h1, h⟩ := h
    obtain ⟨a1, a2, a3⟩ := hl ev (by simp)
    obtain ⟨b1, b2⟩ := quiet_step a1 a2 a3 h1
    obtain ⟨c1, c2⟩ := ih (fun x hx => hl x (by simp [hx])) h
    exact ⟨c1.trans b1, by rw [published_cons h1, b2, c2]; rfl⟩

theorem portEv_quiet (p : Port) (m : RosMeas) : ∀ ev ∈ portEv p m, ev ≠ .tick ∧ ev ≠ .consume ∧ ev ≠ .clear := by
  intro ev hev
  cases p <;> cases m <;> simp only [portEv, List.mem_cons, List.not_mem_nil, or_false, List.mem_map] at hev <;> first
    | (subst hev; simp)
    | (obtain ⟨l, -, rfl⟩ := hev; simp)

theorem feedAll_compAs {l : List (Port × RosMeas)} {s s' : System} (h : s.feedAll l = some s') :
    CompAs (l.flatMap fun x => portEv x.1 x.2) s s' ∧ published s.est (l.flatMap fun x => portEv x.1 x.2) = [] := by
  have h1 := feedAll_est l h
  obtain ⟨a, b⟩ := quiet_run (l.flatMap fun x => portEv x.1 x.2) (fun ev hev => by
    obtain ⟨x, -, hx⟩ := List.mem_flatMap.mp hev
    exact portEv_quiet _ _ ev hx) h1
  refine ⟨⟨h1, [], ?_, ?_⟩, b⟩
  · obtain ⟨-, -, h3, -⟩ := feedAll_sub l h
    simp only [RosPub.run, System.publisher, h3, a]
  · rw [b]; rfl

/-! ### the filter with outputs taken away -/

namespace GyroFilter

/-- operations that do not take away outputs -/
def Op.plain : Op → Prop
  | .gyroData _ => True
  | .imuData _ => True
  | .encData _ => True
  | .run => True
  | _ => False

theorem step_pre (acc : List ImuMeas) (f : GyroFilter) (o : Op) (ho : o.plain) : (pre acc f).step o = (f.step o).map (pre acc) := by
  cases o <;> first
    | (simp [Op.plain] at ho; done)
    | rfl
    | exact runOnce_pre acc f

theorem runOps_pre (acc : List ImuMeas) (l : List Op) : ∀ (f : GyroFilter), (∀ o ∈ l, o.plain) →
    runOps l (pre acc f) = (runOps l f).map (pre acc) := by
  induction l with
  | nil => intro f _; rfl
  | cons o l ih =>
    intro f hl
    simp only [runOps, step_pre acc f o (hl o (by simp))]
    cases f.step o with
    | none => rfl
    | some f1 => exact ih f1 (fun x hx => hl x (by simp [hx]))

end GyroFilter

theorem portOp_plain (p : Port) (m : RosMeas) : ∀ o ∈ portOp p m, o.plain := by
  intro o ho
  cases p <;> cases m <;> simp [portOp] at ho <;> subst ho <;> trivial

theorem filterHear_plain (mlog : M4 → M4) (P : Program) (past : List SysEv) (ev : SysEv) : ∀ o ∈ filterHear mlog P past ev, o.plain := by
  intro o ho
  cases ev with
  | msg i m =>
    obtain ⟨x, -, hx⟩ := List.mem_flatMap.mp ho
    exact portOp_plain _ _ o hx
  | filter => rw [List.mem_singleton.mp ho]; trivial
  | _ => simp [filterHear] at ho

theorem eachEvent_plain (mlog : M4 → M4) (P : Program) (evs : List SysEv) : ∀ past, ∀ o ∈ eachEvent (filterHear mlog P) past evs, o.plain := by
  induction evs with
  | nil => intro past o ho; simp [eachEvent] at ho
  | cons ev evs ih =>
    intro past o ho
    rcases List.mem_append.mp ho with ho | ho
    · exact filterHear_plain _ _ _ _ o ho
    · exact ih _ o ho

theorem portOp_out (p : Port) (m : RosMeas) {f f' : GyroFilter} (h : GyroFilter.runOps (portOp p m) f = some f') : f'.out = f.out := by
  cases p <;> cases m <;> (simp only [portOp, GyroFilter.runOps, GyroFilter.step, Option.bind_some] at h; rw [← Option.some.inj h])

theorem portOps_out (l : List (Port × RosMeas)) : ∀ {f f' : GyroFilter}, GyroFilter.runOps (l.flatMap fun x => portOp x.1 x.2) f = some f' →
    f'.out = f.out := by
  induction l with
  | nil => intro f f' h; rw [← Option.some.inj h]
  | cons x l ih =>
    intro f f' h
    rw [List.flatMap_cons, GyroFilter.runOps_append, Option.bind_eq_some_iff] at h
    obtain ⟨f1, h1, h⟩ := h
    exact (ih h).trans (portOp_out _ _ h1)

theorem imuArrivals_append (l1 l2 : List EstEv) : imuArrivals (l1 ++ l2) = imuArrivals l1 ++ imuArrivals l2 := by
  induction l1 with
  | nil => rfl
  | cons ev l ih => cases ev <;> simp [imuArrivals, ih]

theorem besidesImu_append (l1 l2 : List EstEv) : besidesImu (l1 ++ l2) = besidesImu l1 ++ besidesImu l2 := by
  unfold besidesImu; rw [List.filter_append]

theorem portEv_imu {p : Port} (h : p ≠ .imu) (m : RosMeas) : imuArrivals (portEv p m) = [] := by
  cases p <;> cases m <;> first
    | exact absurd rfl h
    | rfl
    | skip
  rename_i i k
  simp only [portEv]
  cases legOf k <;> rfl

theorem portEvs_imu (l : List (Port × RosMeas)) (h : ∀ x ∈ l, x.1 ≠ .imu) : imuArrivals (l.flatMap fun x => portEv x.1 x.2) = [] := by
  induction l with
  | nil => rfl
  | cons x l ih =>
    rw [List.flatMap_cons, imuArrivals_append, portEv_imu (h x (by simp)), ih (fun y hy => h y (by simp [hy]))]
    rfl

theorem imuOut_evs (l : List ImuMeas) : ((l.map fun m => (Port.imu, RosMeas.imu m)).flatMap fun x => portEv x.1 x.2) = l.map EstEv.imu := by
  induction l with
  | nil => rfl
  | cons m l ih => simp only [List.map_cons, List.flatMap_cons, ih]; rfl

theorem imuOut_ops (l : List ImuMeas) : ((l.map fun m => (Port.imu, RosMeas.imu m)).flatMap fun x => portOp x.1 x.2) = [] := by
  induction l with
  | nil => rfl
  | cons m l ih => simp only [List.map_cons, List.flatMap_cons, ih]; rfl

theorem imuArrivals_map (l : List ImuMeas) : imuArrivals (l.map EstEv.imu) = l := by
  induction l with
  | nil => rfl
  | cons m l ih => simp only [List.map_cons, imuArrivals, ih]

theorem besidesImu_map (l : List ImuMeas) : besidesImu (l.map EstEv.imu) = [] := by
  induction l with
  | nil => rfl
  | cons m l ih => exact ih

theorem feedAll_filter_none (l : List (Port × RosMeas)) {s s' : System} (h : s.feedAll l = some s') (hf : s.filter = none) : s'.filter = none := by
  have := (feedAll_sub l h).2.2.2
  rw [hf] at this
  simpa using this

/-- the invariant holds whenever the main loop takes a turn -/
def TicksOK : Estimator → List EstEv → Prop
  | _, [] => True
  | e, ev :: l => (ev = .tick → EstInv [] e) ∧ ∀ e1, e.step ev = some e1 → TicksOK e1 l

theorem ticksOK_append (a : List EstEv) : ∀ {b : List EstEv} {e : Estimator}, TicksOK e a → (∀ e1, e.run a = some e1 → TicksOK e1 b) → TicksOK e (a ++ b) := by
  induction a with
  | nil => intro b e _ h; exact h e rfl
  | cons ev a ih =>
    intro b e ha h
    refine ⟨ha.1, fun e1 h1 => ih (ha.2 e1 h1) fun e2 h2 => h e2 ?_⟩
    simp only [Estimator.run, h1, Option.bind_some, h2]

theorem ticksOK_quiet (a : List EstEv) : ∀ {e : Estimator}, (∀ ev ∈ a, ev ≠ .tick) → TicksOK e a := by
  induction a with
  | nil => intro e _; trivial
  | cons ev a ih => intro e h; exact ⟨fun h1 => absurd h1 (h ev (by simp)), fun e1 _ => ih fun x hx => h x (by simp [hx])⟩

/-- what one event contributes -/
structure Part (mlog : M4 → M4) (P : Program) (past : List SysEv) (ev : SysEv) (s s' : System) (part : List EstEv) : Prop where
  comp : CompAs part s s'
  route : Route P (past ++ [ev]) s'.sub s'.wires
  rest : besidesImu part = besidesImu (hear mlog P past ev)
  plain : s.filter = none → s'.filter = none ∧ part = hear mlog P past ev
  filt : ∀ f, s.filter = some f → ∃ f', s'.filter = some { f' with out := [] } ∧ GyroFilter.runOps (filterHear mlog P past ev) f = some f' ∧
    f'.out = imuArrivals part
  pub : ∀ st ∈ published s.est part, st ∈ s'.est.outQ
  ticks : TicksOK s.est part

theorem Route.quiet {P : Program} {past : List SysEv} {s : RosSub} {w : List (ℕ × Port)} (r : Route P past s w) {ev : SysEv}
    (h : ∀ i m, ev ≠ .msg i m) : Route P (past ++ [ev]) s w :=
  ⟨r.wires, fun i b hb ho => by rw [lastOdom_quiet _ (fun m => h i _)]; exact r.prev i b hb ho, r.mount⟩

theorem sys_step_part {P : Program} (hP : P.Sound) {mlog : M4 → M4} {ev : SysEv} {past fut : List SysEv} {s s' : System}
    (h : SysInv P (ev :: fut) s) (r : Route P past s.sub s.wires) (hm : ∀ i m, ev = .msg i m → ∀ x, P.topics[i]? = some x → MsgOK x.1 m)
    (hs : s.step mlog ev = some s') : ∃ part, Part mlog P past ev s s' part := by
  have fout : ∀ f, s.filter = some f → f.out = [] := by
    intro f hf
    obtain ⟨τ, σ, c, -⟩ := h.core
    exact (c.filter f hf).2.out
  -- an event that does not concern the filter
  have same : ∀ {s1 : System}, s1.filter = s.filter → ∀ f, s.filter = some f → ∃ f', s1.filter = some { f' with out := [] } ∧
      GyroFilter.runOps [] f = some f' ∧ f'.out = [] := by
    intro s1 e f hf
    have ho := fout f hf
    refine ⟨f, ?_, rfl, ho⟩
    rw [e, hf]
    congr 1
    cases f
    simp only at ho
    rw [ho]
  cases ev with
  | msg i m =>
    simp only [System.step, Option.bind_eq_bind, Option.bind_eq_some_iff] at hs
    obtain ⟨sub, h1, hs⟩ := hs
    obtain ⟨k1, k2⟩ := deliver_route h.sub r (hm i m rfl) h1
    rw [k1] at hs
    obtain ⟨a1, a2, a3, a4⟩ := feedAll_sub _ hs
    obtain ⟨c, cp⟩ := feedAll_compAs hs
    have hq : ∀ ev ∈ hear mlog P past (.msg i m), ev ≠ .tick := fun ev hev => by
      obtain ⟨x, -, hx⟩ := List.mem_flatMap.mp hev
      exact (portEv_quiet _ _ ev hx).1
    refine ⟨hear mlog P past (.msg i m), c, by rw [a1, a2]; exact k2, rfl, fun hf => ⟨feedAll_filter_none _ hs hf, rfl⟩, fun f hf => ?_, ?_, ticksOK_quiet _ hq⟩
    · obtain ⟨f', b1, b2⟩ := feedAll_filter _ hs f hf
      have ho : f'.out = [] := (portOps_out _ b2).trans (fout f hf)
      refine ⟨f', ?_, b2, ?_⟩
      · rw [b1]
        congr 1
        cases f'
        simp only at ho
        rw [ho]
      · rw [ho]
        refine (portEvs_imu _ fun x hx e => ?_).symm
        obtain ⟨sub', d1, -, d3⟩ := deliver_ok (mlog := mlog) h.sub hP.kinds (hm i m rfl)
        rw [h1] at d1
        obtain rfl := Option.some.inj d1
        rw [← k1] at hx
        obtain ⟨y, hy, hxy⟩ := d3 x hx
        have := h.own ⟨y, List.mem_of_getElem? hy, e ▸ hxy⟩
        rw [hf] at this
        cases this
    · intro st hst
      simp only [hear] at hst
      rw [show published s.est _ = [] from cp] at hst
      simp at hst
  | filter =>
    simp only [System.step] at hs
    obtain ⟨fo, hf⟩ : ∃ fo, s.filter = fo := ⟨_, rfl⟩
    rw [hf] at hs
    cases fo with
    | none =>
      obtain rfl := Option.some.inj hs
      exact ⟨[], .refl _, r.quiet (by simp), rfl, fun _ => ⟨hf, rfl⟩, fun f hf' => by (rw [hf] at hf'; cases hf'), by simp [published], trivial⟩
    | some f =>
      simp only [Option.bind_eq_bind, Option.bind_eq_some_iff] at hs
      obtain ⟨f1, h1, hs⟩ := hs
      obtain ⟨a1, a2, a3, a4⟩ := feedAll_sub _ hs
      obtain ⟨c, cp⟩ := feedAll_compAs hs
      rw [imuOut_evs] at c cp
      refine ⟨f1.out.map EstEv.imu, c, by rw [a1, a2]; exact r.quiet (by simp), besidesImu_map _, fun hf' => by (rw [hf] at hf'; cases hf'), fun g hg => ?_, ?_, ticksOK_quiet _ (by simp)⟩
      · rw [hf] at hg
        obtain rfl := Option.some.inj hg
        obtain ⟨f', b1, b2⟩ := feedAll_filter _ hs { f1 with out := [] } rfl
        rw [imuOut_ops] at b2
        obtain rfl := Option.some.inj b2
        exact ⟨f1, b1, by simp [filterHear, GyroFilter.runOps, GyroFilter.step, h1], (imuArrivals_map _).symm⟩
      · intro st hst
        rw [show published s.est _ = [] from cp] at hst
        simp at hst
  | tick =>
    simp only [System.step, Option.map_eq_some_iff] at hs
    obtain ⟨e, h1, rfl⟩ := hs
    refine ⟨[.tick], ?_, r.quiet (by simp), rfl, fun hf => ⟨hf, rfl⟩, same rfl, ?_, ⟨fun _ => ?_, fun _ _ => trivial⟩⟩
    · obtain ⟨l, o, c1, c2, c3, -⟩ := comp_tick (T := fun _ => True) h1
      have hp : publishedBy s.est .tick = e.outQ.drop s.est.outQ.length := by unfold publishedBy; rw [h1]
      have hrun : s.est.run [.tick] = some e := by simp [Estimator.run, h1]
      rcases tick_out h1 with ⟨o, -, -⟩ | ⟨o, -, -, -⟩ | ⟨o, -, -⟩
      · refine ⟨hrun, [], ?_, ?_⟩
        · simp only [RosPub.run, System.publisher, o]
        · rw [published_cons h1, hp, o]; simp [published, pushed]
      · refine ⟨hrun, [.push e.state], ?_, ?_⟩
        · simp only [RosPub.run, RosPub.step, System.publisher, o, Option.bind_some]
        · rw [published_cons h1, hp, o]; simp [published, pushed]
      · refine ⟨hrun, [.push e.state], ?_, ?_⟩
        · simp only [RosPub.run, RosPub.step, System.publisher, o, Option.bind_some]
        · rw [published_cons h1, hp, o]; simp [published, pushed]
    · intro st hst
      rw [published_cons h1] at hst
      simp only [published, List.append_nil, publishedBy, h1] at hst
      exact List.mem_of_mem_drop hst
    · obtain ⟨τ, σ, c, -⟩ := h.core
      exact c.ready.inv
  | log =>
    simp only [System.step, Option.map_eq_some_iff] at hs
    obtain ⟨e, h1, rfl⟩ := hs
    have hrun : s.est.run [.log] = some e := by simp [Estimator.run, h1]
    obtain ⟨q1, q2⟩ := quiet_run [.log] (by simp) hrun
    refine ⟨[.log], ⟨hrun, [], ?_, by rw [q2]; rfl⟩, r.quiet (by simp), rfl, fun hf => ⟨hf, rfl⟩, same rfl, by rw [q2]; simp, ticksOK_quiet _ (by simp)⟩
    simp only [RosPub.run, System.publisher, q1]
  | pose =>
    simp only [System.step, Option.map_eq_some_iff] at hs
    obtain ⟨p, h1, rfl⟩ := hs
    have hq : p.queue = s.est.outQ.tail := posePublish_queue h1
    have hp : published s.est [.consume] = [] := by
      rw [published_cons (e1 := { s.est with outQ := s.est.outQ.tail }) rfl]; rfl
    refine ⟨[.consume], ⟨?_, [.pose], ?_, by rw [hp]; rfl⟩, r.quiet (by simp), rfl, fun hf => ⟨hf, rfl⟩, same rfl, by rw [hp]; simp, ticksOK_quiet _ (by simp)⟩
    · simp only [Estimator.run, Estimator.step, Option.bind_some, hq]
    · simp only [RosPub.run, RosPub.step, System.publisher, Option.bind_some]
      rw [h1]
      rfl
  | path =>
    simp only [System.step] at hs
    obtain rfl := Option.some.inj hs
    refine ⟨[], ⟨rfl, [.path], ?_, rfl⟩, r.quiet (by simp), rfl, fun hf => ⟨hf, rfl⟩, same rfl, by simp [published], trivial⟩
    simp only [RosPub.run, RosPub.step, System.publisher, Option.bind_some]
    rw [pathPublish_queue]

theorem besidesImu_flatten_cons (a : List EstEv) (l : List (List EstEv)) : besidesImu (a :: l).flatten = besidesImu a ++ besidesImu l.flatten := by
  rw [List.flatten_cons, besidesImu_append]

/-- the parts of a history -/
structure Parts (mlog : M4 → M4) (P : Program) (past evs : List SysEv) (s s' : System) (parts : List (List EstEv)) : Prop where
  len : parts.length = evs.length
  comp : CompAs parts.flatten s s'
  rest : ∀ k, besidesImu (parts.take k).flatten = besidesImu (eachEvent (hear mlog P) past (evs.take k))
  plain : s.filter = none → ∀ k, (parts.take k).flatten = eachEvent (hear mlog P) past (evs.take k)
  filt : ∀ f, s.filter = some f → ∀ k, ∃ f', GyroFilter.runOps (eachEvent (filterHear mlog P) past (evs.take k)) f = some f' ∧
    f'.out = imuArrivals (parts.take k).flatten
  valid : ∀ st ∈ published s.est parts.flatten, ValidEstimate st
  ticks : TicksOK s.est parts.flatten

theorem sys_run_parts {P : Program} (hP : P.Sound) {mlog : M4 → M4} (evs : List SysEv) : ∀ {past : List SysEv} {s s' : System}, SysInv P evs s →
    Route P past s.sub s.wires → WellFormed P evs → s.run mlog evs = some s' → ∃ parts, Parts mlog P past evs s s' parts := by
  induction evs with
  | nil =>
    intro past s s' i r hw h
    obtain rfl := Option.some.inj h
    refine ⟨[], rfl, .refl _, by simp [eachEvent], by simp [eachEvent], fun f hf k => ⟨f, by simp [eachEvent, GyroFilter.runOps], ?_⟩, by simp [published], trivial⟩
    obtain ⟨τ, σ, c, -⟩ := i.core
    rw [(c.filter f hf).2.out]
    simp [imuArrivals]
  | cons ev evs ih =>
    intro past s s' i r hw h
    have hm : ∀ i m, ev = .msg i m → ∀ x, P.topics[i]? = some x → MsgOK x.1 m := fun i m e x hx => hw i m x (by simp [e]) hx
    obtain ⟨s1, h1, i1⟩ := sys_step_ok hP (mlog := mlog) i hm
    simp only [System.run, h1, Option.bind_some] at h
    obtain ⟨part, p⟩ := sys_step_part hP i r hm h1
    obtain ⟨parts, q⟩ := ih i1 p.route (fun i m x e hx => hw i m x (by simp [e]) hx) h
    refine ⟨part :: parts, by simp [q.len], ?_, ?_, ?_, ?_, ?_, ?_⟩
    · rw [List.flatten_cons]; exact p.comp.trans q.comp
    · intro k
      cases k with
      | zero => simp [eachEvent]
      | succ k =>
        simp only [List.take_succ_cons, eachEvent]
        rw [besidesImu_flatten_cons, besidesImu_append, p.rest, q.rest k]
    · intro hf k
      cases k with
      | zero => simp [eachEvent]
      | succ k =>
        obtain ⟨hf1, e⟩ := p.plain hf
        simp only [List.take_succ_cons, eachEvent, List.flatten_cons]
        rw [e, q.plain hf1 k]
    · intro f hf k
      cases k with
      | zero =>
        refine ⟨f, by simp [eachEvent, GyroFilter.runOps], ?_⟩
        obtain ⟨τ, σ, c, -⟩ := i.core
        rw [(c.filter f hf).2.out]
        simp [imuArrivals]
      | succ k =>
        obtain ⟨f1, a1, a2, a3⟩ := p.filt f hf
        obtain ⟨f2, b1, b2⟩ := q.filt _ a1 k
        simp only [List.take_succ_cons, eachEvent, List.flatten_cons]
        refine ⟨GyroFilter.pre f1.out f2, ?_, ?_⟩
        · rw [GyroFilter.runOps_append, a2, Option.bind_some]
          have e : f1 = GyroFilter.pre f1.out { f1 with out := [] } := by simp [GyroFilter.pre]
          conv_lhs => rw [e]
          rw [GyroFilter.runOps_pre _ _ _ (eachEvent_plain _ _ _ _), b1]
          rfl
        · rw [imuArrivals_append, ← a3, ← b2]
          rfl
    · intro st hst
      rw [List.flatten_cons, published_append _ _ p.comp.1] at hst
      rcases List.mem_append.mp hst with hst | hst
      · obtain ⟨τ, σ, c, -⟩ := i1.core
        exact c.ready.inv.outs st (p.pub st hst)
      · exact q.valid st hst
    · rw [List.flatten_cons]
      refine ticksOK_append _ p.ticks fun e1 h1 => ?_
      rw [p.comp.1] at h1
      obtain rfl := Option.some.inj h1
      exact q.ticks

/-- all odometry topics have the same mount -/
def Program.OneMount (P : Program) : Prop := ∀ x ∈ P.topics, ∀ y ∈ P.topics, x.1.isOdom = true → y.1.isOdom = true → x.1 = y.1

theorem wire_mount (ts : List (SubKind × Port × Port)) : ∀ {k : SubKind} {s s' : RosSub} {w w' : List (ℕ × Port)},
    Program.wire ts s w = some (s', w') → (∀ x ∈ ts, x.1.isOdom = true → x.1 = k) →
    ∀ tr rot, k = .odom tr rot → (s.srcToBody = Ros.mount tr rot ∨ ∃ x ∈ ts, x.1.isOdom = true) → s'.srcToBody = Ros.mount tr rot := by
  induction ts with
  | nil =>
    intro k s s' w w' h _ tr rot _ hc
    obtain ⟨rfl, rfl⟩ := Prod.mk.inj (Option.some.inj h)
    rcases hc with hc | ⟨x, hx, -⟩
    · exact hc
    · simp at hx
  | cons x ts ih =>
    intro k s s' w w' h hk tr rot hkk hc
    obtain ⟨k1, p, p2⟩ := x
    simp only [Program.wire, Option.bind_eq_bind, Option.bind_eq_some_iff] at h
    obtain ⟨⟨s1, hd⟩, h1, h⟩ := h
    refine ih h (fun y hy => hk y (by simp [hy])) tr rot hkk ?_
    by_cases ho : k1.isOdom = true
    · left
      have := hk (k1, p, p2) (by simp) ho
      simp only at this
      subst this
      subst hkk
      simp only [RosSub.add, SubKind.two, Bool.false_eq_true, if_false, Option.bind_eq_bind, Option.bind_eq_some_iff] at h1
      obtain ⟨T, hT, h1⟩ := h1
      obtain ⟨rfl, rfl⟩ := Prod.mk.inj (Option.some.inj h1)
      exact hT.symm
    · rcases hc with hc | ⟨x, hx, hxo⟩
      · left
        rw [← hc]
        unfold RosSub.add at h1
        cases k1 <;> simp [SubKind.two, SubKind.isOdom] at h1 ho <;> (obtain ⟨rfl, rfl⟩ := h1; rfl)
      · right
        rcases List.mem_cons.mp hx with rfl | hx
        · exact absurd hxo ho
        · exact ⟨x, hx, hxo⟩

theorem start_route {P : Program} (hP : P.Sound) (ho : P.OneMount) {h : Heap} {s : System} (hs : P.start h = some s) :
    Route P [] s.sub s.wires ∧ s.filter = P.filter ∧ s.pub = RosPub.init P.poseRate P.pathRate ∧ s.est.outQ = [] := by
  obtain ⟨sub0, w0, hw0, W⟩ := wire_ok P.topics wires_init hP.kinds
  simp only [Program.start, Option.bind_eq_bind, Option.bind_eq_some_iff] at hs
  obtain ⟨⟨sub, w⟩, h1, e, he, hs⟩ := hs
  rw [hw0] at h1
  obtain ⟨rfl, rfl⟩ := Prod.mk.inj (Option.some.inj h1)
  rw [← Option.some.inj hs]
  refine ⟨⟨?_, fun i b hb hod => ?_, fun x hx tr rot hk => ?_⟩, rfl, rfl, ?_⟩
  · have := wire_wires P.topics (done := []) hw0 rfl rfl
    simpa using this
  · simp only
    rw [W.prev b.src]
    rfl
  · exact wire_mount P.topics hw0 (k := x.1) (fun y hy hyo => ho y hy x hx hyo (by rw [hk]; rfl)) tr rot hk (.inr ⟨x, hx, by rw [hk]; rfl⟩)
  · exact (ctor_inv (imu := []) ⟨hP.vel, hP.leg, hP.bias, .inl hP.ori, .nil⟩ he).2.2.2

theorem oneMount_shipped : ∀ P ∈ Program.shipped, P.OneMount := by
  intro P hP
  simp only [Program.shipped, List.mem_cons, List.not_mem_nil, or_false] at hP
  rcases hP with rfl | rfl | rfl | rfl | rfl | rfl | rfl | rfl | rfl | rfl <;>
    (intro x hx y hy h1 h2
     simp only [Program.miniCheetah, Program.fetch, Program.girona500, Program.husky, Program.huskyOdom, Program.neya, Program.fetchGyro,
       Program.huskyDouble, Program.huskyGyro, Program.neyaGyro, Program.plain, List.mem_cons, List.not_mem_nil, or_false] at hx hy
     rcases hx with rfl | rfl | rfl <;> rcases hy with rfl | rfl | rfl <;> first
       | rfl
       | (simp [SubKind.isOdom] at h1 h2; done)
       | skip)

end Drift
