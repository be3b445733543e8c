import Verif.Spec.System
import Verif.Props.Clock
import Verif.Props.RosPub
import Verif.Props.RosSub
import Verif.Lemmas.Filter8

/-! # Lemmas: a program's run is a run of its estimator and of its publisher -/
set_option linter.unusedSimpArgs false
namespace Drift
open Mat Matrix RobotState

theorem est_run_append (l1 l2 : List EstEv) : ∀ e : Estimator, e.run (l1 ++ l2) = (e.run l1).bind fun e1 => e1.run l2 := by
  induction l1 with
  | nil => intro e; rfl
  | cons ev l ih =>
    intro e
    simp only [List.cons_append, Estimator.run]
    cases e.step ev with
    | none => rfl
    | some e1 => exact ih e1

theorem published_append (l1 l2 : List EstEv) : ∀ {e e1 : Estimator}, e.run l1 = some e1 →
    published e (l1 ++ l2) = published e l1 ++ published e1 l2 := by
  induction l1 with
  | nil => intro e e1 h; rw [← Option.some.inj h]; rfl
  | cons ev l ih =>
    intro e e1 h
    simp only [Estimator.run, Option.bind_eq_some_iff] at h
    obtain ⟨e2, h2, h⟩ := h
    rw [List.cons_append, published_cons h2, published_cons h2, ih h, List.append_assoc]

theorem pub_run_append (l1 l2 : List RosPub.Op) : ∀ s : RosPub, RosPub.run (l1 ++ l2) s = (RosPub.run l1 s).bind (RosPub.run l2) := by
  induction l1 with
  | nil => intro e; rfl
  | cons ev l ih =>
    intro e
    simp only [List.cons_append, RosPub.run]
    cases e.step ev with
    | none => rfl
    | some e1 => exact ih e1

theorem pushed_append' (l1 l2 : List RosPub.Op) : pushed (l1 ++ l2) = pushed l1 ++ pushed l2 := by
  induction l1 with
  | nil => rfl
  | cons o l ih => cases o <;> simp [pushed, ih]

/-- the publisher with its queue, which is the output queue of the estimator -/
def System.publisher (s : System) : RosPub := { s.pub with queue := s.est.outQ }

/-- from `s` to `s'` the estimator and the publisher made the same steps as they make separately; the stamps of the
measurements satisfy `T` -/
def Comp (T : ℝ → Prop) (s s' : System) : Prop :=
  ∃ eevs ops, s.est.run eevs = some s'.est ∧ RosPub.run ops s.publisher = some s'.publisher ∧
    pushed ops = published s.est eevs ∧ ∀ ev ∈ eevs, ∀ t, ev.stamp = some t → T t

theorem Comp.refl (T : ℝ → Prop) (s : System) : Comp T s s := ⟨[], [], rfl, rfl, rfl, by simp⟩

theorem Comp.trans {T : ℝ → Prop} {s s1 s2 : System} (a : Comp T s s1) (b : Comp T s1 s2) : Comp T s s2 := by
  obtain ⟨l1, o1, a1, a2, a3, a4⟩ := a
  obtain ⟨l2, o2, b1, b2, b3, b4⟩ := b
  refine ⟨l1 ++ l2, o1 ++ o2, ?_, ?_, ?_, ?_⟩
  · rw [est_run_append, a1]; exact b1
  · rw [pub_run_append, a2]; exact b2
  · rw [pushed_append', published_append _ _ a1, a3, b3]
  · intro ev hev
    rcases List.mem_append.mp hev with h | h
    · exact a4 ev h
    · exact b4 ev h

theorem Comp.mono {T T' : ℝ → Prop} {s s1 : System} (a : Comp T s s1) (h : ∀ t, T t → T' t) : Comp T' s s1 := by
  obtain ⟨l1, o1, a1, a2, a3, a4⟩ := a
  exact ⟨l1, o1, a1, a2, a3, fun ev he t ht => h t (a4 ev he t ht)⟩

/-- same estimator, same publisher -/
theorem Comp.of_eq {T : ℝ → Prop} {s s' : System} (h1 : s'.est = s.est) (h2 : s'.pub = s.pub) : Comp T s s' := by
  refine ⟨[], [], by rw [h1]; rfl, ?_, rfl, by simp⟩
  unfold System.publisher
  rw [h1, h2]; rfl

theorem quiet_step {e e' : Estimator} {ev : EstEv} (hv : ev ≠ .tick) (hc : ev ≠ .consume) (hcl : ev ≠ .clear) (h : e.step ev = some e') :
    e'.outQ = e.outQ ∧ publishedBy e ev = [] := by
  refine ⟨?_, ?_⟩
  · cases ev with
    | imu m => rw [← Option.some.inj h]
    | vel i m => rw [← Option.some.inj h]
    | leg i m => rw [← Option.some.inj h]
    | tick => exact absurd rfl hv
    | clear => exact absurd rfl hcl
    | consume => exact absurd rfl hc
    | log =>
      simp only [Estimator.step, Option.map_eq_some_iff] at h
      obtain ⟨l, -, rfl⟩ := h
      rfl
  · unfold publishedBy
    cases ev <;> simp at hv ⊢

/-- an estimator event other than a turn of the main loop -/
theorem comp_quiet {T : ℝ → Prop} {s : System} {e' : Estimator} {ev : EstEv} (hv : ev ≠ .tick) (hc : ev ≠ .consume) (hcl : ev ≠ .clear)
    (h : s.est.step ev = some e') (ht : ∀ t, ev.stamp = some t → T t) : Comp T s { s with est := e' } := by
  obtain ⟨h1, h2⟩ := quiet_step hv hc hcl h
  refine ⟨[ev], [], by simp [Estimator.run, h], ?_, ?_, by simpa using ht⟩
  · simp only [RosPub.run, System.publisher, h1]
  · rw [published_cons h, h2]; rfl

theorem comp_tick {T : ℝ → Prop} {s : System} {e' : Estimator} (h : s.est.step .tick = some e') : Comp T s { s with est := e' } := by
  have hp : publishedBy s.est .tick = e'.outQ.drop s.est.outQ.length := by unfold publishedBy; rw [h]
  have hrun : s.est.run [.tick] = some e' := by simp [Estimator.run, h]
  have hst : ∀ ev ∈ [EstEv.tick], ∀ t, ev.stamp = some t → T t := by simp [EstEv.stamp]
  rcases tick_out h with ⟨o, -, -⟩ | ⟨o, -, -, -⟩ | ⟨o, -, -⟩
  · refine ⟨[.tick], [], hrun, ?_, ?_, hst⟩
    · simp only [RosPub.run, System.publisher, o]
    · rw [published_cons h, hp, o]; simp [published, pushed]
  · refine ⟨[.tick], [.push e'.state], hrun, ?_, ?_, hst⟩
    · simp only [RosPub.run, RosPub.step, System.publisher, o, Option.bind_some]
    · rw [published_cons h, hp, o]; simp [published, pushed]
  · refine ⟨[.tick], [.push e'.state], hrun, ?_, ?_, hst⟩
    · simp only [RosPub.run, RosPub.step, System.publisher, o, Option.bind_some]
    · rw [published_cons h, hp, o]; simp [published, pushed]

theorem posePublish_queue {p p' : RosPub} (h : p.posePublish = some p') : p'.queue = p.queue.tail := by
  unfold RosPub.posePublish at h
  obtain ⟨q, hq⟩ : ∃ q, p.queue = q := ⟨_, rfl⟩
  cases q with
  | nil => rw [hq] at h; simp only at h; rw [← Option.some.inj h, hq]; rfl
  | cons st q =>
    rw [hq] at h
    simp only [Option.bind_eq_bind, Option.bind_eq_some_iff] at h
    obtain ⟨m, -, k, -, r, -, h⟩ := h
    rw [← Option.some.inj h, hq]; rfl

theorem comp_pose {T : ℝ → Prop} {s : System} {p : RosPub} (h : s.publisher.posePublish = some p) :
    Comp T s { s with pub := p, est := { s.est with outQ := p.queue } } := by
  have hq : p.queue = s.est.outQ.tail := posePublish_queue h
  refine ⟨[.consume], [.pose], ?_, ?_, ?_, by simp [EstEv.stamp]⟩
  · simp only [Estimator.run, Estimator.step, Option.bind_some, hq]
  · simp only [RosPub.run, RosPub.step, h, Option.bind_some]
    rfl
  · rw [published_cons (e1 := { s.est with outQ := s.est.outQ.tail }) rfl]; rfl

theorem pathPublish_queue (p : RosPub) (q : List RobotState) :
    ({ p with queue := q } : RosPub).pathPublish = { p.pathPublish with queue := q } := by
  unfold RosPub.pathPublish
  simp only
  cases p.poses.getLast? <;> rfl

theorem comp_path {T : ℝ → Prop} (s : System) : Comp T s { s with pub := s.pub.pathPublish } := by
  refine ⟨[], [.path], rfl, ?_, rfl, by simp⟩
  simp only [RosPub.run, RosPub.step, System.publisher, Option.bind_some]
  rw [pathPublish_queue]

/-- time of a queued element -/
def RosMeas.time : RosMeas → ℝ
  | .imu m => m.time
  | .vel m => m.time
  | .ang m => m.time
  | .kin m => m.time

theorem legOf_time {k : KinMeas} {l : LegMeas} (h : legOf k = some l) : l.time = k.time := by
  unfold legOf at h
  simp only [Option.bind_eq_bind, Option.bind_eq_some_iff] at h
  obtain ⟨m, -, ls, -, h⟩ := h
  rw [← Option.some.inj h]

/-- all stamps in the filter satisfy `T` -/
abbrev FStamp (T : ℝ → Prop) (f : GyroFilter) : Prop :=
  GyroFilter.Holds (fun m => T m.time) (fun m => T m.time) (fun a => T a.time) (fun m => T m.time) f

theorem runOnce_fstamp {T : ℝ → Prop} {f f' : GyroFilter} (hf : FStamp T f) (h : f.runOnce = some f') : FStamp T f' :=
  (GyroFilter.step_holds (I := fun _ => True) (o := .run) (fun _ h => h) (fun _ _ _ _ _ _ _ _ => trivial) (fun _ _ _ _ _ => trivial)
    (fun _ _ _ h => h) (fun _ _ _ _ _ h => h) (fun _ _ _ => trivial) (fun _ _ _ _ _ => trivial) trivial trivial hf h).2

theorem feed_comp {T : ℝ → Prop} {s s' : System} {p : Port} {m : RosMeas} (h : s.feed p m = some s') (ht : T m.time)
    (hf : ∀ f, s.filter = some f → FStamp T f) :
    Comp T s s' ∧ ∀ f, s'.filter = some f → FStamp T f := by
  have est : ∀ {ev : EstEv} (hv : ev ≠ .tick) (hc : ev ≠ .consume) (hcl : ev ≠ .clear) (hs : ∀ t, ev.stamp = some t → T t),
      (s.est.step ev).map (fun e => { s with est := e }) = some s' → Comp T s s' ∧ ∀ f, s'.filter = some f → FStamp T f := by
    intro ev hv hc hcl hs h
    rw [Option.map_eq_some_iff] at h
    obtain ⟨e', h1, rfl⟩ := h
    exact ⟨comp_quiet hv hc hcl h1 hs, hf⟩
  have idle : some s = some s' → Comp T s s' ∧ ∀ f, s'.filter = some f → FStamp T f := by
    intro h; rw [← Option.some.inj h]; exact ⟨.refl _ _, hf⟩
  have app : ∀ {α : Type} (g : α → ℝ) (o : Option (List α)) (m : α), (∀ q, o = some q → ∀ x ∈ q, T (g x)) → T (g m) →
      ∀ q, o.map (· ++ [m]) = some q → ∀ x ∈ q, T (g x) := by
    intro α g o m h1 h2 q hq x hx
    rw [Option.map_eq_some_iff] at hq
    obtain ⟨q', e, rfl⟩ := hq
    rcases List.mem_append.mp hx with hx | hx
    · exact h1 q' e x hx
    · rw [List.mem_singleton.mp hx]; exact h2
  unfold System.feed at h
  cases p with
  | imu =>
    cases m with
    | imu m => exact est (by simp) (by simp) (by simp) (by simpa [EstEv.stamp, RosMeas.time] using ht) h
    | vel m => exact idle h
    | ang m => exact idle h
    | kin m => exact idle h
  | corr i =>
    cases m with
    | vel m => exact est (by simp) (by simp) (by simp) (by simpa [EstEv.stamp, RosMeas.time] using ht) h
    | kin k =>
      simp only [Option.bind_eq_bind, Option.bind_eq_some_iff] at h
      obtain ⟨l, hl, h⟩ := h
      refine est (ev := .leg i l) (by simp) (by simp) (by simp) ?_ h
      have := legOf_time hl
      have ht' : T k.time := ht
      simpa [EstEv.stamp, this] using ht'
    | ang m => exact idle h
    | imu m => exact idle h
  | fgyro =>
    cases m with
    | imu m =>
      rw [← Option.some.inj h]
      refine ⟨.of_eq rfl rfl, ?_⟩
      intro f e
      rw [Option.map_eq_some_iff] at e
      obtain ⟨f0, e, rfl⟩ := e
      have F := hf f0 e
      exact ⟨app ImuMeas.time _ m F.gyro ht, F.imu, F.imus, F.enc, F.latest, F.out⟩
    | vel m => exact idle h
    | ang m => exact idle h
    | kin m => exact idle h
  | fimu =>
    cases m with
    | imu m =>
      rw [← Option.some.inj h]
      refine ⟨.of_eq rfl rfl, ?_⟩
      intro f e
      rw [Option.map_eq_some_iff] at e
      obtain ⟨f0, e, rfl⟩ := e
      have F := hf f0 e
      exact ⟨F.gyro, app ImuMeas.time _ m F.imu ht, F.imus, F.enc, F.latest, F.out⟩
    | vel m => exact idle h
    | ang m => exact idle h
    | kin m => exact idle h
  | fenc =>
    cases m with
    | ang m =>
      rw [← Option.some.inj h]
      refine ⟨.of_eq rfl rfl, ?_⟩
      intro f e
      rw [Option.map_eq_some_iff] at e
      obtain ⟨f0, e, rfl⟩ := e
      have F := hf f0 e
      exact ⟨F.gyro, F.imu, F.imus, app AngVelMeas.time _ m F.enc ht, F.latest, F.out⟩
    | vel m => exact idle h
    | imu m => exact idle h
    | kin m => exact idle h
  | unused => exact idle h

theorem feedAll_comp {T : ℝ → Prop} (l : List (Port × RosMeas)) : ∀ {s s' : System}, s.feedAll l = some s' →
    (∀ x ∈ l, T x.2.time) → (∀ f, s.filter = some f → FStamp T f) → Comp T s s' ∧ ∀ f, s'.filter = some f → FStamp T f := by
  induction l with
  | nil => intro s s' h _ hf; rw [← Option.some.inj h]; exact ⟨.refl _ _, hf⟩
  | cons x l ih =>
    intro s s' h ht hf
    simp only [System.feedAll, Option.bind_eq_some_iff] at h
    obtain ⟨s1, h1, h⟩ := h
    obtain ⟨c1, f1⟩ := feed_comp h1 (ht x (by simp)) hf
    obtain ⟨c2, f2⟩ := ih h (fun y hy => ht y (by simp [hy])) f1
    exact ⟨c1.trans c2, f2⟩

/-! ### stamps of what the callbacks push -/

theorem convert_time {k : SubKind} {m : RosMsg} {a c : List RosMeas} (h : Ros.convert k m = some (a, c)) :
    (∀ x ∈ a, x.time = m.sec) ∧ ∀ x ∈ c, x.time = m.sec := by
  have imu : ∀ (m : ImuMsg) (r : ImuMeas), Ros.imuCb m = some r → r.time = m.stamp.toSec := by
    intro m r h
    unfold Ros.imuCb ImuMeas.set_quaternion at h
    simp only at h
    split_ifs at h <;> rw [← Option.some.inj h]
  unfold Ros.convert at h
  split at h
  · rw [Option.map_eq_some_iff] at h
    obtain ⟨r, h1, h⟩ := h
    obtain ⟨rfl, rfl⟩ := Prod.mk.inj h
    simpa [RosMeas.time, RosMsg.sec] using imu _ _ h1
  · rw [Option.map_eq_some_iff] at h
    obtain ⟨r, h1, h⟩ := h
    obtain ⟨rfl, rfl⟩ := Prod.mk.inj h
    simpa [RosMeas.time, RosMsg.sec] using imu _ _ h1
  · obtain ⟨rfl, rfl⟩ := Prod.mk.inj (Option.some.inj h)
    simp [RosMeas.time, RosMsg.sec, Ros.velCb]
  · obtain ⟨rfl, rfl⟩ := Prod.mk.inj (Option.some.inj h)
    simp [RosMeas.time, RosMsg.sec, Ros.velCb]
  · rw [Option.map_eq_some_iff] at h
    obtain ⟨r, h1, h⟩ := h
    obtain ⟨rfl, rfl⟩ := Prod.mk.inj h
    simp only [Ros.diff1Cb, Option.bind_eq_bind, Option.bind_eq_some_iff] at h1
    obtain ⟨w, -, h1⟩ := h1
    rw [← Option.some.inj h1]
    simp [RosMeas.time, RosMsg.sec]
  · rw [Option.map_eq_some_iff] at h
    obtain ⟨r, h1, h⟩ := h
    obtain ⟨rfl, rfl⟩ := Prod.mk.inj h
    simp only [Ros.diff2Cb, Option.bind_eq_bind, Option.bind_eq_some_iff] at h1
    obtain ⟨w, -, h1⟩ := h1
    split_ifs at h1
    rw [← Option.some.inj h1]
    simp [RosMeas.time, RosMsg.sec]
  · rw [Option.map_eq_some_iff] at h
    obtain ⟨r, h1, h⟩ := h
    unfold Ros.fetch1Cb at h1
    split_ifs at h1
    · rw [← Option.some.inj h1] at h
      obtain ⟨rfl, rfl⟩ := Prod.mk.inj h
      simp
    · simp only [Option.bind_eq_bind, Option.bind_eq_some_iff] at h1
      obtain ⟨w, -, h1⟩ := h1
      rw [← Option.some.inj h1] at h
      obtain ⟨rfl, rfl⟩ := Prod.mk.inj h
      simp [RosMeas.time, RosMsg.sec]
  · rw [Option.map_eq_some_iff] at h
    obtain ⟨r, h1, h⟩ := h
    unfold Ros.fetch2Cb at h1
    split_ifs at h1
    · rw [← Option.some.inj h1] at h
      obtain ⟨rfl, rfl⟩ := Prod.mk.inj h
      simp
    · simp only [Option.bind_eq_bind, Option.bind_eq_some_iff] at h1
      obtain ⟨w, -, h1⟩ := h1
      simp at h1
    · simp only [Option.bind_eq_bind, Option.bind_eq_some_iff] at h1
      obtain ⟨w, -, h1⟩ := h1
      rw [← Option.some.inj h1] at h
      obtain ⟨rfl, rfl⟩ := Prod.mk.inj h
      simp [RosMeas.time, RosMsg.sec]
  · rw [Option.map_eq_some_iff] at h
    obtain ⟨r, h1, h⟩ := h
    obtain ⟨rfl, rfl⟩ := Prod.mk.inj h
    simp only [Ros.kinCb, Option.bind_eq_bind, Option.bind_eq_some_iff] at h1
    obtain ⟨_, -, _, -, _, -, h1⟩ := h1
    rw [← Option.some.inj h1]
    simp [RosMeas.time, RosMsg.sec]
  · obtain ⟨rfl, rfl⟩ := Prod.mk.inj (Option.some.inj h)
    simp

theorem mem_modify {α : Type} {l : List (List α)} {n : ℕ} {ms : List α} {q : List α} (h : q ∈ l.modify n (· ++ ms)) :
    q ∈ l ∨ ∃ q0 ∈ l, q = q0 ++ ms := by
  obtain ⟨j, hj, hq⟩ := List.mem_iff_getElem.mp h
  rw [List.getElem_modify] at hq
  have hj' : j < l.length := by simpa using hj
  split_ifs at hq with hk
  · exact .inr ⟨_, List.getElem_mem hj', hq.symm⟩
  · exact .inl (hq ▸ List.getElem_mem hj')

/-- a callback pushes only elements with the stamp of its message -/
theorem deliver_time {mlog : M4 → M4} {s s' : RosSub} {i : ℕ} {m : RosMsg} (h : s.step mlog (.deliver i m) = some s')
    (he : ∀ q ∈ s.queues, q = []) : ∀ q ∈ s'.queues, ∀ x ∈ q, x.time = m.sec := by
  have base : ∀ (q n : ℕ) (a c : List RosMeas), (∀ x ∈ a, x.time = m.sec) → (∀ x ∈ c, x.time = m.sec) →
      ∀ y ∈ (s.queues.modify q (· ++ a)).modify n (· ++ c), ∀ x ∈ y, x.time = m.sec := by
    intro q n a c ha hc y hy x hx
    have one : ∀ y ∈ s.queues.modify q (· ++ a), ∀ x ∈ y, x.time = m.sec := by
      intro y hy x hx
      rcases mem_modify hy with hy | ⟨z, hz, rfl⟩
      · rw [he y hy] at hx; simp at hx
      · rw [he z hz] at hx; exact ha x (by simpa using hx)
    rcases mem_modify hy with hy | ⟨z, hz, rfl⟩
    · exact one y hy x hx
    · rcases List.mem_append.mp hx with hx | hx
      · exact one z hz x hx
      · exact hc x hx
  simp only [RosSub.step] at h
  cases hb : s.subs[i]? with
  | none =>
    rw [hb] at h
    rw [← Option.some.inj h]
    intro q hq x hx
    rw [he q hq] at hx; simp at hx
  | some b =>
    rw [hb] at h
    simp only [RosSub.callback] at h
    split at h
    · rename_i om _
      cases hp : s.prevOdom b.src with
      | none =>
        rw [hp] at h
        rw [← Option.some.inj h]
        intro q hq x hx
        rw [he q hq] at hx; simp at hx
      | some prev =>
        rw [hp] at h
        simp only [Option.bind_eq_bind, Option.bind_eq_some_iff] at h
        obtain ⟨T, -, v, hv, h⟩ := h
        rw [← Option.some.inj h]
        intro q hq x hx
        have ht : v.time = om.stamp.toSec := by
          simp only [Ros.odomVel, Option.bind_eq_bind, Option.bind_eq_some_iff] at hv
          obtain ⟨_, -, _, -, hv⟩ := hv
          split_ifs at hv
          rw [← Option.some.inj hv]
          rfl
        rcases mem_modify hq with hq | ⟨z, hz, rfl⟩
        · rw [he q hq] at hx; simp at hx
        · rw [he z hz] at hx
          simp only [List.nil_append, List.mem_singleton] at hx
          rw [hx]; exact ht
    · simp only [Option.bind_eq_bind, Option.bind_eq_some_iff] at h
      obtain ⟨⟨a, c⟩, hc, h⟩ := h
      rw [← Option.some.inj h]
      obtain ⟨h1, h2⟩ := convert_time hc
      exact base _ _ a c h1 h2

/-! ### the composition -/

theorem feed_sub {s s' : System} {p : Port} {m : RosMeas} (h : s.feed p m = some s') :
    s'.sub = s.sub ∧ s'.wires = s.wires ∧ s'.pub = s.pub ∧ (s'.filter.isSome = s.filter.isSome) := by
  unfold System.feed at h
  split at h
  all_goals first
    | (rw [← Option.some.inj h]; exact ⟨rfl, rfl, rfl, by simp⟩)
    | (simp only [Option.bind_eq_bind, Option.bind_eq_some_iff, Option.map_eq_some_iff] at h
       obtain ⟨_, -, rfl⟩ := h
       exact ⟨rfl, rfl, rfl, rfl⟩)
    | (simp only [Option.bind_eq_bind, Option.bind_eq_some_iff, Option.map_eq_some_iff] at h
       obtain ⟨_, -, _, -, rfl⟩ := h
       exact ⟨rfl, rfl, rfl, rfl⟩)

theorem feedAll_sub (l : List (Port × RosMeas)) : ∀ {s s' : System}, s.feedAll l = some s' →
    s'.sub = s.sub ∧ s'.wires = s.wires ∧ s'.pub = s.pub ∧ (s'.filter.isSome = s.filter.isSome) := by
  induction l with
  | nil => intro s s' h; rw [← Option.some.inj h]; exact ⟨rfl, rfl, rfl, rfl⟩
  | cons x l ih =>
    intro s s' h
    simp only [System.feedAll, Option.bind_eq_some_iff] at h
    obtain ⟨s1, h1, h⟩ := h
    obtain ⟨a1, a2, a3, a4⟩ := feed_sub h1
    obtain ⟨b1, b2, b3, b4⟩ := ih h
    exact ⟨b1.trans a1, b2.trans a2, b3.trans a3, b4.trans a4⟩

/-- what holds of every running program: the subscriber's queues are empty (the elements are with their consumers), all
stamps in the filter satisfy `T` -/
structure SysStamp (T : ℝ → Prop) (s : System) : Prop where
  queues : ∀ q ∈ s.sub.queues, q = []
  filter : ∀ f, s.filter = some f → FStamp T f

theorem fresh_time {w : List (ℕ × Port)} {sub : RosSub} {t : ℝ} (h : ∀ q ∈ sub.queues, ∀ x ∈ q, x.time = t) :
    ∀ x ∈ System.fresh w sub, x.2.time = t := by
  intro x hx
  simp only [System.fresh, List.mem_flatMap, List.mem_map] at hx
  obtain ⟨y, -, m, hm, rfl⟩ := hx
  cases hq : sub.queues[y.1]? with
  | none => rw [hq] at hm; simp at hm
  | some q =>
    rw [hq] at hm
    exact h q (List.mem_of_getElem? hq) m hm

theorem sys_step_comp {T : ℝ → Prop} {mlog : M4 → M4} {s s' : System} {ev : SysEv} (i : SysStamp T s)
    (ht : ∀ k m, ev = .msg k m → T m.sec) (h : s.step mlog ev = some s') : Comp T s s' ∧ SysStamp T s' := by
  cases ev with
  | msg k m =>
    simp only [System.step, Option.bind_eq_bind, Option.bind_eq_some_iff] at h
    obtain ⟨sub, h1, h⟩ := h
    have hd := deliver_time h1 i.queues
    obtain ⟨c, f⟩ := feedAll_comp (T := T) _ h (fun x hx => by rw [fresh_time hd x hx]; exact ht k m rfl) i.filter
    obtain ⟨a1, -, -, -⟩ := feedAll_sub _ h
    refine ⟨(Comp.of_eq rfl rfl).trans c, ?_, f⟩
    rw [a1]
    simp
  | filter =>
    simp only [System.step] at h
    cases hf : s.filter with
    | none => rw [hf] at h; rw [← Option.some.inj h]; exact ⟨.refl _ _, i⟩
    | some f =>
      rw [hf] at h
      simp only [Option.bind_eq_bind, Option.bind_eq_some_iff] at h
      obtain ⟨f1, h1, h⟩ := h
      have F := runOnce_fstamp (i.filter f hf) h1
      obtain ⟨c, f⟩ := feedAll_comp (T := T) _ h (fun x hx => by
        obtain ⟨m, hm, rfl⟩ := List.mem_map.mp hx
        exact F.out m hm) (fun g hg => by
          rw [← Option.some.inj hg]
          exact ⟨F.gyro, F.imu, F.imus, F.enc, F.latest, by simp⟩)
      obtain ⟨a1, -, -, -⟩ := feedAll_sub _ h
      exact ⟨(Comp.of_eq rfl rfl).trans c, by rw [a1]; exact i.queues, f⟩
  | tick =>
    simp only [System.step, Option.map_eq_some_iff] at h
    obtain ⟨e, h1, rfl⟩ := h
    exact ⟨comp_tick h1, i.queues, i.filter⟩
  | log =>
    simp only [System.step, Option.map_eq_some_iff] at h
    obtain ⟨e, h1, rfl⟩ := h
    exact ⟨comp_quiet (by simp) (by simp) (by simp) h1 (by simp [EstEv.stamp]), i.queues, i.filter⟩
  | pose =>
    simp only [System.step, Option.map_eq_some_iff] at h
    obtain ⟨e, h1, rfl⟩ := h
    exact ⟨comp_pose h1, i.queues, i.filter⟩
  | path =>
    simp only [System.step] at h
    rw [← Option.some.inj h]
    exact ⟨comp_path s, i.queues, i.filter⟩

theorem sys_run_comp {T : ℝ → Prop} {mlog : M4 → M4} (evs : List SysEv) : ∀ {s s' : System}, SysStamp T s →
    (∀ k m, SysEv.msg k m ∈ evs → T m.sec) → s.run mlog evs = some s' → Comp T s s' ∧ SysStamp T s' := by
  induction evs with
  | nil => intro s s' i _ h; rw [← Option.some.inj h]; exact ⟨.refl _ _, i⟩
  | cons ev evs ih =>
    intro s s' i ht h
    simp only [System.run, Option.bind_eq_some_iff] at h
    obtain ⟨s1, h1, h⟩ := h
    obtain ⟨c1, i1⟩ := sys_step_comp i (fun k m e => ht k m (by simp [e])) h1
    obtain ⟨c2, i2⟩ := ih i1 (fun k m e => ht k m (by simp [e])) h
    exact ⟨c1.trans c2, i2⟩

theorem wire_queues (ts : List (SubKind × Port × Port)) : ∀ {s s' : RosSub} {w w' : List (ℕ × Port)},
    Program.wire ts s w = some (s', w') → (∀ q ∈ s.queues, q = []) → ∀ q ∈ s'.queues, q = [] := by
  induction ts with
  | nil =>
    intro s s' w w' h i
    obtain ⟨rfl, rfl⟩ := Prod.mk.inj (Option.some.inj h)
    exact i
  | cons x ts ih =>
    intro s s' w w' h i
    obtain ⟨k, p, p2⟩ := x
    simp only [Program.wire, Option.bind_eq_bind, Option.bind_eq_some_iff] at h
    obtain ⟨⟨s1, hd⟩, h1, h⟩ := h
    refine ih h ?_
    obtain ⟨b, n, -, -, hq, -⟩ := RosSub.add_spec h1
    rw [hq]
    intro q hm
    rcases List.mem_append.mp hm with hm | hm
    · exact i q hm
    · exact (List.mem_replicate.mp hm).2

/-- a filter as constructed holds no data -/
def Program.FilterFresh (P : Program) : Prop := ∀ f, P.filter = some f →
  (∀ q, f.gyro = some q → q = []) ∧ (∀ q, f.imu = some q → q = []) ∧ (∀ q ∈ f.imus, q = []) ∧ (∀ q, f.enc = some q → q = []) ∧
    f.latest = none ∧ f.out = []

theorem start_stamp {T : ℝ → Prop} {P : Program} (hP : P.FilterFresh) {h : Heap} {s : System} (hs : P.start h = some s) :
    SysStamp T s := by
  simp only [Program.start, Option.bind_eq_bind, Option.bind_eq_some_iff] at hs
  obtain ⟨⟨sub, w⟩, h1, e, -, hs⟩ := hs
  rw [← Option.some.inj hs]
  refine ⟨wire_queues _ h1 (by simp [RosSub.init]), fun f hf => ?_⟩
  obtain ⟨a1, a2, a3, a4, a5, a6⟩ := hP f hf
  refine ⟨fun q hq m hm => ?_, fun q hq m hm => ?_, fun q hq m hm => ?_, fun q hq m hm => ?_, fun m hm => ?_, fun m hm => ?_⟩
  · rw [a1 q hq] at hm; simp at hm
  · rw [a2 q hq] at hm; simp at hm
  · rw [a3 q hq] at hm; simp at hm
  · rw [a4 q hq] at hm; simp at hm
  · rw [a5] at hm; simp at hm
  · rw [a6] at hm; simp at hm

end Drift
