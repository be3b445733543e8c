import Verif.Lemmas.Clock2

namespace Drift
open Mat Matrix RobotState

/-- the stamps of the queued measurements -/
def Corr.stamps : Corr → List ℝ
  | .vel c => c.buffer.map VelMeas.time
  | .leg c => c.buffer.map LegMeas.time

/-- every time stamp in the system satisfies `T` -/
structure StampInv (T : ℝ → Prop) (e : Estimator) : Prop where
  buf : ∀ m ∈ e.prop.buffer, T m.time
  prev : ∀ m, e.prop.prev = some m → T m.time
  corrs : ∀ d ∈ e.corrs, ∀ t ∈ d.stamps, T t
  st : ∀ t, e.state.t = some t → T t
  out : ∀ s ∈ e.outQ, ∀ t, s.t = some t → T t
  logs : ∀ s ∈ e.log.queue, ∀ t, s.t = some t → T t

variable {T : ℝ → Prop}

theorem propagate_stamp {p p' : ImuProp} {s s' : RobotState} {b : Bool} (h : p.propagate s = some (b, p', s'))
    (h1 : ∀ m ∈ p.buffer, T m.time) (h2 : ∀ m, p.prev = some m → T m.time) (h3 : ∀ t, s.t = some t → T t) :
    (∀ m ∈ p'.buffer, T m.time) ∧ (∀ m, p'.prev = some m → T m.time) ∧ ∀ t, s'.t = some t → T t := by
  unfold ImuProp.propagate at h
  obtain ⟨bu, hb⟩ : ∃ bu, p.buffer = bu := ⟨_, rfl⟩
  rw [hb] at h
  cases bu with
  | nil =>
    obtain ⟨rfl, rfl, rfl⟩ := Option.some.inj h
    exact ⟨h1, h2, h3⟩
  | cons front rest =>
    simp only [Option.bind_eq_bind, Option.bind_eq_some_iff] at h
    obtain ⟨m, hm, tp, -, bg, -, ba, -, X, -, P, -, X', -, h⟩ := h
    obtain ⟨rfl, rfl, rfl⟩ := Option.some.inj h
    rw [hb] at h1
    refine ⟨fun x hx => h1 x (by simp [hx]), ?_, ?_⟩
    · intro x hx
      obtain rfl := Option.some.inj hx
      exact h1 _ (by simp)
    · intro t ht
      obtain rfl := Option.some.inj ht
      exact h2 m hm

theorem initImuBias_stamp {p p' : ImuProp} (h : p.initImuBias = some p') (h1 : ∀ m ∈ p.buffer, T m.time) (h2 : ∀ m, p.prev = some m → T m.time) :
    (∀ m ∈ p'.buffer, T m.time) ∧ (∀ m, p'.prev = some m → T m.time) := by
  unfold ImuProp.initImuBias at h
  obtain ⟨bu, hb⟩ : ∃ bu, p.buffer = bu := ⟨_, rfl⟩
  split_ifs at h
  · rw [← Option.some.inj h]; exact ⟨h1, h2⟩
  · rw [hb] at h
    cases bu with
    | nil => rw [← Option.some.inj h]; exact ⟨h1, h2⟩
    | cons m rest =>
      rw [← Option.some.inj h]
      rw [hb] at h1
      refine ⟨fun x hx => h1 x (by simp [show x ∈ rest from hx]), fun x hx => ?_⟩
      obtain rfl := Option.some.inj hx
      exact h1 _ (by simp)
  · rw [← Option.some.inj h]; exact ⟨h1, h2⟩

theorem setInitialState_stamp {p p' : ImuProp} {s s' : RobotState} {b : Bool} (h : p.setInitialState s = some (b, p', s'))
    (h1 : ∀ m ∈ p.buffer, T m.time) (h2 : ∀ m, p.prev = some m → T m.time) (h3 : ∀ t, s.t = some t → T t) :
    (∀ m ∈ p'.buffer, T m.time) ∧ (∀ m, p'.prev = some m → T m.time) ∧ ∀ t, s'.t = some t → T t := by
  unfold ImuProp.setInitialState at h
  obtain ⟨bu, hb⟩ : ∃ bu, p.buffer = bu := ⟨_, rfl⟩
  rw [hb] at h
  cases bu with
  | nil =>
    obtain ⟨rfl, rfl, rfl⟩ := Option.some.inj h
    exact ⟨h1, h2, h3⟩
  | cons m rest =>
    simp only [Option.bind_eq_bind, Option.bind_eq_some_iff] at h
    obtain ⟨s1, -, s2, -, s3, -, s4, -, s5, e5, s6, e6, h⟩ := h
    obtain ⟨rfl, rfl, rfl⟩ := Option.some.inj h
    rw [hb] at h1
    refine ⟨fun x hx => h1 x (by simp [hx]), ?_, ?_⟩
    · intro x hx
      obtain rfl := Option.some.inj hx
      exact h1 _ (by simp)
    · intro t ht
      unfold set_gyroscope_bias_covariance at e5
      unfold set_accelerometer_bias_covariance at e6
      simp only [Option.bind_eq_bind, Option.bind_eq_some_iff, Option.map_eq_some_iff] at e5 e6
      obtain ⟨P5, -, rfl⟩ := e5
      obtain ⟨P6, -, rfl⟩ := e6
      obtain rfl := Option.some.inj ht
      exact h1 m (by simp)

theorem popFresh_mem {α : Type} {time : α → ℝ} {th tp : ℝ} (l : List α) : ∀ {x m : α} {r : List α}, popFresh time th tp x l = some (m, r) →
    (m = x ∨ m ∈ l) ∧ ∀ y ∈ r, y ∈ l := by
  induction l with
  | nil =>
    intro x m r h
    simp only [popFresh] at h
    split_ifs at h
    obtain ⟨rfl, rfl⟩ := Option.some.inj h
    simp
  | cons a l ih =>
    intro x m r h
    simp only [popFresh] at h
    split_ifs at h
    · obtain ⟨k1, k2⟩ := ih h
      refine ⟨.inr ?_, fun y hy => by simp [k2 y hy]⟩
      rcases k1 with rfl | k1
      · simp
      · simp [k1]
    · obtain ⟨rfl, rfl⟩ := Option.some.inj h
      exact ⟨.inl rfl, fun y hy => hy⟩

theorem vel_correct_stamp {v v' : VelCorr} {s s' : RobotState} {b : Bool} (h : v.correct s = some (b, v', s'))
    (h1 : ∀ m ∈ v.buffer, T m.time) (h3 : ∀ t, s.t = some t → T t) : (∀ m ∈ v'.buffer, T m.time) ∧ ∀ t, s'.t = some t → T t := by
  unfold VelCorr.correct at h
  obtain ⟨bu, hb⟩ : ∃ bu, v.buffer = bu := ⟨_, rfl⟩
  rw [hb] at h
  cases bu with
  | nil =>
    obtain ⟨rfl, rfl, rfl⟩ := Option.some.inj h
    exact ⟨h1, h3⟩
  | cons front rest =>
    simp only [Option.bind_eq_bind, Option.bind_eq_some_iff] at h
    obtain ⟨tp, -, h⟩ := h
    split_ifs at h
    · obtain ⟨rfl, rfl, rfl⟩ := Option.some.inj h
      exact ⟨h1, h3⟩
    · rw [hb] at h1
      cases hp : popFresh VelMeas.time v.tDiffThres tp front rest with
      | none =>
        rw [hp] at h
        obtain ⟨rfl, rfl, rfl⟩ := Option.some.inj h
        exact ⟨by simp, h3⟩
      | some q =>
        obtain ⟨m, r⟩ := q
        rw [hp] at h
        simp only [Option.bind_eq_some_iff] at h
        obtain ⟨s1, e1, h⟩ := h
        obtain ⟨rfl, rfl, rfl⟩ := Option.some.inj h
        obtain ⟨k1, k2⟩ := popFresh_mem rest hp
        refine ⟨fun x hx => h1 x (by simp [k2 x hx]), fun t ht => ?_⟩
        have : s'.t = some m.time := t_of_clk' (f := velCore v m) (fun a b s => clk_velCore v m a b s) (s := { s with t := some m.time }) e1
        rw [this] at ht
        obtain rfl := Option.some.inj ht
        exact h1 m (List.mem_cons.mpr k1)

theorem leg_correct_stamp {v v' : LegCorr} {hp hp' : Heap} {s s' : RobotState} {b : Bool} (h : v.correct hp s = some (b, v', hp', s'))
    (h1 : ∀ m ∈ v.buffer, T m.time) (h3 : ∀ t, s.t = some t → T t) : (∀ m ∈ v'.buffer, T m.time) ∧ ∀ t, s'.t = some t → T t := by
  unfold LegCorr.correct at h
  obtain ⟨bu, hb⟩ : ∃ bu, v.buffer = bu := ⟨_, rfl⟩
  rw [hb] at h
  cases bu with
  | nil =>
    obtain ⟨rfl, rfl, rfl, rfl⟩ := Option.some.inj h
    exact ⟨h1, h3⟩
  | cons front rest =>
    simp only [Option.bind_eq_bind, Option.bind_eq_some_iff] at h
    obtain ⟨tp, -, h⟩ := h
    rw [hb] at h1
    cases hp : popFresh LegMeas.time v.tDiffThres tp front rest with
    | none =>
      rw [hp] at h
      obtain ⟨rfl, rfl, rfl, rfl⟩ := Option.some.inj h
      exact ⟨by simp, h3⟩
    | some q =>
      obtain ⟨m, r⟩ := q
      rw [hp] at h
      simp only [Option.bind_eq_some_iff] at h
      obtain ⟨⟨ids, h2, s1⟩, e1, h⟩ := h
      obtain ⟨rfl, rfl, rfl, rfl⟩ := Option.some.inj h
      obtain ⟨k1, k2⟩ := popFresh_mem rest hp
      refine ⟨fun x hx => h1 x (by simp [k2 x hx]), fun t ht => ?_⟩
      rw [apply_legCore, Option.map_eq_some_iff] at e1
      obtain ⟨r1, e1, e2⟩ := e1
      have : r1.2.t = some m.time := t_of_clk (fun a b s => clk_legCore v m _ a b s) e1
      obtain ⟨-, -, rfl⟩ := e2
      rw [this] at ht
      obtain rfl := Option.some.inj ht
      exact h1 m (List.mem_cons.mpr k1)

theorem corr_correct_stamp {d d' : Corr} {hp hp' : Heap} {s s' : RobotState} {b : Bool} (h : d.correct hp s = some (b, d', hp', s'))
    (h1 : ∀ t ∈ d.stamps, T t) (h3 : ∀ t, s.t = some t → T t) : (∀ t ∈ d'.stamps, T t) ∧ ∀ t, s'.t = some t → T t := by
  cases d with
  | vel v =>
    simp only [Corr.correct, Option.map_eq_some_iff] at h
    obtain ⟨⟨b1, v1, s1⟩, e1, e2⟩ := h
    obtain ⟨rfl, rfl, rfl, rfl⟩ := e2
    obtain ⟨k1, k2⟩ := vel_correct_stamp e1 (by simpa [Corr.stamps] using h1) h3
    exact ⟨by simpa [Corr.stamps] using k1, k2⟩
  | leg v =>
    simp only [Corr.correct, Option.map_eq_some_iff] at h
    obtain ⟨⟨b1, v1, h2, s1⟩, e1, e2⟩ := h
    obtain ⟨rfl, rfl, rfl, rfl⟩ := e2
    obtain ⟨k1, k2⟩ := leg_correct_stamp e1 (by simpa [Corr.stamps] using h1) h3
    exact ⟨by simpa [Corr.stamps] using k1, k2⟩

theorem corr_init_stamp {d d' : Corr} {s s' : RobotState} {b : Bool} (h : d.setInitial s = some (b, d', s'))
    (h1 : ∀ t ∈ d.stamps, T t) (h3 : ∀ t, s.t = some t → T t) : (∀ t ∈ d'.stamps, T t) ∧ ∀ t, s'.t = some t → T t := by
  cases d with
  | vel v =>
    simp only [Corr.setInitial, Option.map_eq_some_iff] at h
    obtain ⟨⟨b1, v1, s1⟩, e1, e2⟩ := h
    obtain ⟨rfl, rfl, rfl⟩ := e2
    unfold VelCorr.setInitial at e1
    cases hl : v.buffer.getLast? with
    | none =>
      rw [hl] at e1
      obtain ⟨rfl, rfl, rfl⟩ := Option.some.inj e1
      exact ⟨h1, h3⟩
    | some m =>
      rw [hl] at e1
      simp only [Option.bind_eq_bind, Option.bind_eq_some_iff] at e1
      obtain ⟨R, -, s2, -, e1⟩ := e1
      obtain ⟨rfl, rfl, rfl⟩ := Option.some.inj e1
      refine ⟨by simp [Corr.stamps], fun t ht => ?_⟩
      obtain rfl := Option.some.inj ht
      exact h1 _ (List.mem_map_of_mem (List.mem_of_getLast? hl))
  | leg v =>
    simp only [Corr.setInitial, Option.map_eq_some_iff] at h
    obtain ⟨⟨b1, v1, s1⟩, e1, e2⟩ := h
    obtain ⟨rfl, rfl, rfl⟩ := e2
    unfold LegCorr.setInitial at e1
    cases hl : v.buffer.getLast? with
    | none =>
      rw [hl] at e1
      obtain ⟨rfl, rfl, rfl⟩ := Option.some.inj e1
      exact ⟨h1, h3⟩
    | some m =>
      rw [hl] at e1
      simp only [Option.bind_eq_bind, Option.bind_eq_some_iff] at e1
      obtain ⟨w, -, R, -, s2, -, e1⟩ := e1
      obtain ⟨rfl, rfl, rfl⟩ := Option.some.inj e1
      refine ⟨by simp [Corr.stamps], fun t ht => ?_⟩
      obtain rfl := Option.some.inj ht
      exact h1 _ (List.mem_map_of_mem (List.mem_of_getLast? hl))

theorem correctAll_stamp (l : List Corr) : ∀ {h h' : Heap} {s s' : RobotState} {b : Bool} {l' : List Corr},
    Estimator.correctAll l h s = some (b, l', h', s') → (∀ d ∈ l, ∀ t ∈ d.stamps, T t) → (∀ t, s.t = some t → T t) →
    (∀ d ∈ l', ∀ t ∈ d.stamps, T t) ∧ ∀ t, s'.t = some t → T t := by
  induction l with
  | nil =>
    intro h h' s s' b l' e h1 h3
    obtain ⟨rfl, rfl, rfl, rfl⟩ := Option.some.inj e
    exact ⟨by simp, h3⟩
  | cons d l ih =>
    intro h h' s s' b l' e h1 h3
    simp only [Estimator.correctAll, Option.bind_eq_bind, Option.bind_eq_some_iff] at e
    obtain ⟨⟨b1, d1, h2, s1⟩, e1, ⟨b2, l2, h3', s2⟩, e2, e⟩ := e
    obtain ⟨rfl, rfl, rfl, rfl⟩ := Option.some.inj e
    obtain ⟨k1, k2⟩ := corr_correct_stamp e1 (h1 d (by simp)) h3
    obtain ⟨k3, k4⟩ := ih e2 (fun x hx => h1 x (by simp [hx])) k2
    refine ⟨fun x hx => ?_, k4⟩
    rcases List.mem_cons.mp hx with rfl | hx
    · exact k1
    · exact k3 x hx

theorem initCorrs_stamp (l : List Corr) : ∀ {done done' l' : List Corr} {s s' : RobotState},
    Estimator.initCorrs done l s = some (done', l', s') → (∀ d ∈ done ++ l, ∀ t ∈ d.stamps, T t) → (∀ t, s.t = some t → T t) →
    (∀ d ∈ done' ++ l', ∀ t ∈ d.stamps, T t) ∧ ∀ t, s'.t = some t → T t := by
  induction l with
  | nil =>
    intro done done' l' s s' e h1 h3
    obtain ⟨rfl, rfl, rfl⟩ := Option.some.inj e
    exact ⟨h1, h3⟩
  | cons d l ih =>
    intro done done' l' s s' e h1 h3
    simp only [Estimator.initCorrs, Option.bind_eq_bind, Option.bind_eq_some_iff] at e
    obtain ⟨⟨b1, d1, s1⟩, e1, e⟩ := e
    obtain ⟨k1, k2⟩ := corr_init_stamp e1 (h1 d (by simp)) h3
    have k : ∀ x ∈ done ++ d1 :: l, ∀ t ∈ x.stamps, T t := by
      intro x hx
      rcases List.mem_append.mp hx with hx | hx
      · exact h1 x (by simp [hx])
      · rcases List.mem_cons.mp hx with rfl | hx
        · exact k1
        · exact h1 x (by simp [hx])
    cases b1 with
    | true => exact ih e (by simpa using k) k2
    | false =>
      obtain ⟨rfl, rfl, rfl⟩ := Option.some.inj e
      exact ⟨k, k2⟩

theorem mem_push {l : Logger} {s x : RobotState} (h : x ∈ (l.push s).queue) : x ∈ l.queue ∨ x = s := logPush_mem h

theorem initFrom_stamp {e e' : Estimator} {k : ℕ} (i : StampInv T e) (h : e.initFrom k = some e') : StampInv T e' := by
  unfold Estimator.initFrom at h
  simp only [Option.bind_eq_bind, Option.bind_eq_some_iff] at h
  obtain ⟨⟨done, todo, s⟩, e1, h⟩ := h
  obtain ⟨k1, k2⟩ := initCorrs_stamp _ e1 (by rw [List.take_append_drop]; exact i.corrs) i.st
  cases todo with
  | nil =>
    simp only [Estimator.finishInit, set_rotation_covariance, set_velocity_covariance, set_position_covariance, Option.bind_eq_bind,
      Option.bind_eq_some_iff, Option.map_eq_some_iff] at h
    obtain ⟨s1, ⟨P1, -, rfl⟩, s2, ⟨P2, -, rfl⟩, s3, ⟨P3, -, rfl⟩, h⟩ := h
    rw [← Option.some.inj h]
    refine ⟨i.buf, i.prev, k1, k2, fun x hx => ?_, i.logs⟩
    rcases List.mem_append.mp hx with hx | hx
    · exact i.out x hx
    · rw [List.mem_singleton.mp hx]; exact k2
  | cons d ds =>
    rw [← Option.some.inj h]
    exact ⟨i.buf, i.prev, k1, k2, i.out, i.logs⟩

theorem step_stamp {e e' : Estimator} {ev : EstEv} (i : StampInv T e) (ht : ∀ t, ev.stamp = some t → T t) (h : e.step ev = some e') :
    StampInv T e' := by
  cases ev with
  | imu m =>
    rw [← Option.some.inj h]
    refine ⟨fun x hx => ?_, i.prev, i.corrs, i.st, i.out, i.logs⟩
    rcases List.mem_append.mp hx with hx | hx
    · exact i.buf x hx
    · rw [List.mem_singleton.mp hx]; exact ht _ rfl
  | vel k m =>
    rw [← Option.some.inj h]
    refine ⟨i.buf, i.prev, fun x hx => ?_, i.st, i.out, i.logs⟩
    obtain ⟨y, hy, hxy⟩ : ∃ y ∈ e.corrs, x = y ∨ x = y.pushVel m := by
      obtain ⟨j, hj, hx⟩ := List.mem_iff_getElem.mp hx
      rw [List.getElem_modify] at hx
      have hj' : j < e.corrs.length := by simpa using hj
      refine ⟨e.corrs[j], List.getElem_mem hj', ?_⟩
      split_ifs at hx
      · exact .inr hx.symm
      · exact .inl hx.symm
    rcases hxy with rfl | rfl
    · exact i.corrs x hy
    · have := i.corrs y hy
      cases y with
      | vel v =>
        intro t htm
        simp only [Corr.pushVel, Corr.stamps, List.map_append, List.mem_append, List.map_cons, List.map_nil, List.mem_singleton] at htm
        rcases htm with htm | rfl
        · exact this t htm
        · exact ht _ rfl
      | leg v => exact this
  | leg k m =>
    rw [← Option.some.inj h]
    refine ⟨i.buf, i.prev, fun x hx => ?_, i.st, i.out, i.logs⟩
    obtain ⟨y, hy, hxy⟩ : ∃ y ∈ e.corrs, x = y ∨ x = y.pushLeg m := by
      obtain ⟨j, hj, hx⟩ := List.mem_iff_getElem.mp hx
      rw [List.getElem_modify] at hx
      have hj' : j < e.corrs.length := by simpa using hj
      refine ⟨e.corrs[j], List.getElem_mem hj', ?_⟩
      split_ifs at hx
      · exact .inr hx.symm
      · exact .inl hx.symm
    rcases hxy with rfl | rfl
    · exact i.corrs x hy
    · have := i.corrs y hy
      cases y with
      | leg v =>
        intro t htm
        simp only [Corr.pushLeg, Corr.stamps, List.map_append, List.mem_append, List.map_cons, List.map_nil, List.mem_singleton] at htm
        rcases htm with htm | rfl
        · exact this t htm
        · exact ht _ rfl
      | vel v => exact this
  | tick =>
    simp only [Estimator.step] at h
    unfold Estimator.tick at h
    cases hp : e.pending with
    | some k => rw [hp] at h; exact initFrom_stamp i h
    | none =>
      rw [hp] at h
      simp only at h
      split_ifs at h
      · unfold Estimator.runOnce at h
        simp only [Option.bind_eq_bind, Option.bind_eq_some_iff] at h
        obtain ⟨⟨b, p', s1⟩, e1, ⟨b', cs, h2, s2⟩, e2, h⟩ := h
        obtain ⟨k1, k2, k3⟩ := propagate_stamp e1 i.buf i.prev i.st
        obtain ⟨k4, k5⟩ := correctAll_stamp _ e2 i.corrs k3
        simp only at h
        split_ifs at h
        · rw [← Option.some.inj h]
          refine ⟨k1, k2, k4, k5, fun x hx => ?_, fun x hx => ?_⟩
          · rcases List.mem_append.mp hx with hx | hx
            · exact i.out x hx
            · rw [List.mem_singleton.mp hx]; exact k5
          · rcases mem_push hx with hx | rfl
            · exact i.logs x hx
            · exact k5
        · rw [← Option.some.inj h]
          exact ⟨k1, k2, k4, k5, i.out, i.logs⟩
      · unfold Estimator.initState at h
        simp only [Option.bind_eq_bind, Option.bind_eq_some_iff] at h
        obtain ⟨⟨b, p', s1⟩, e1, h⟩ := h
        obtain ⟨k1, k2, k3⟩ := setInitialState_stamp e1 i.buf i.prev i.st
        have i' : StampInv T { e with prop := p', state := s1 } := ⟨k1, k2, i.corrs, k3, i.out, i.logs⟩
        simp only at h
        split_ifs at h
        · exact initFrom_stamp i' h
        · rw [← Option.some.inj h]; exact i'
      · unfold Estimator.initBias at h
        rw [Option.map_eq_some_iff] at h
        obtain ⟨p', e1, rfl⟩ := h
        obtain ⟨k1, k2⟩ := initImuBias_stamp e1 i.buf i.prev
        exact ⟨k1, k2, i.corrs, i.st, i.out, i.logs⟩
  | clear =>
    simp only [Estimator.step] at h
    cases hp : e.pending with
    | some k => rw [hp] at h; rw [← Option.some.inj h]; exact i
    | none =>
      rw [hp] at h
      rw [← Option.some.inj h]
      refine ⟨by simp [Estimator.clear, ImuProp.clear], i.prev, ?_, ?_, by simp [Estimator.clear], ?_⟩
      · intro d hd
        simp only [Estimator.clear, List.mem_map] at hd
        obtain ⟨d', -, rfl⟩ := hd
        cases d' <;> simp [Corr.clear, VelCorr.clear, LegCorr.clear, Corr.stamps]
      · intro t ht
        exact i.st t ht
      · have : e.clear.log.queue = [] := by
          simp only [Estimator.clear, Logger.clear]
          split_ifs <;> rfl
        rw [this]; simp
  | log =>
    simp only [Estimator.step, Option.map_eq_some_iff] at h
    obtain ⟨l, hl, rfl⟩ := h
    refine ⟨i.buf, i.prev, i.corrs, i.st, i.out, ?_⟩
    unfold Logger.iter at hl
    obtain ⟨bu, hb⟩ : ∃ bu, e.log.queue = bu := ⟨_, rfl⟩
    rw [hb] at hl
    have h0 := i.logs
    rw [hb] at h0
    cases bu with
    | nil => rw [← Option.some.inj hl]; exact i.logs
    | cons s rest =>
      simp only [Option.bind_eq_bind, Option.bind_eq_some_iff] at hl
      obtain ⟨t, -, hl⟩ := hl
      split_ifs at hl
      · simp only [Option.bind_eq_some_iff] at hl
        obtain ⟨_, -, _, -, _, -, _, -, hl⟩ := hl
        rw [← Option.some.inj hl]
        exact fun x hx => h0 x (by simp [show x ∈ rest from hx])
      · rw [← Option.some.inj hl]
        exact fun x hx => h0 x (by simp [show x ∈ rest from hx])
  | consume =>
    rw [← Option.some.inj h]
    exact ⟨i.buf, i.prev, i.corrs, i.st, fun x hx => i.out x (List.mem_of_mem_tail hx), i.logs⟩

theorem run_stamp (evs : List EstEv) : ∀ {e e' : Estimator}, StampInv T e → (∀ ev ∈ evs, ∀ t, ev.stamp = some t → T t) → e.run evs = some e' →
    StampInv T e' := by
  induction evs with
  | nil => intro e e' i _ h; rw [← Option.some.inj h]; exact i
  | cons ev evs ih =>
    intro e e' i ht h
    simp only [Estimator.run, Option.bind_eq_some_iff] at h
    obtain ⟨e1, h1, h⟩ := h
    exact ih (step_stamp i (ht ev (by simp)) h1) (fun x hx => ht x (by simp [hx])) h

end Drift
