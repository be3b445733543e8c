import Verif.Spec.Threads

/-!
# Steps of the main thread and accesses of other threads to other queues commute
-/
namespace Drift
open RobotState
namespace Thr

theorem initBias_imu {e : Estimator} (h : ¬(e.prop.staticInit = true ∧ e.prop.biasInitVec.length < ImuProp.toSizeT e.prop.initBiasSize))
    (b : List ImuMeas) :
    ({ e with prop := { e.prop with buffer := b } } : Estimator).initBias =
      e.initBias.map fun x => { x with prop := { x.prop with buffer := b } } := by
  obtain ⟨et, p, cs, s, hp, en, o, rc, vc, pc, lg, pe⟩ := e
  unfold Estimator.initBias ImuProp.initImuBias
  simp only at h ⊢
  by_cases h1 : p.staticInit = false
  · simp [h1]
  · have h2 : ¬ p.biasInitVec.length < ImuProp.toSizeT p.initBiasSize := fun h2 => h ⟨by simpa using h1, h2⟩
    simp only [h1, h2, if_false]
    split_ifs <;> simp

theorem finishInit_frame (e : Estimator) (p : ImuProp) (cs : List Corr) (lg : Logger) :
    ({ e with prop := p, corrs := cs, log := lg } : Estimator).finishInit =
      e.finishInit.map fun x => { x with prop := p, corrs := cs, log := lg } := by
  unfold Estimator.finishInit
  simp only [Option.bind_eq_bind]
  cases e.state.set_rotation_covariance (e.rotCov • (1 : M3)) with
  | none => rfl
  | some s =>
    simp only [Option.bind_some]
    cases s.set_velocity_covariance (e.velCov • (1 : M3)) with
    | none => rfl
    | some s =>
      simp only [Option.bind_some]
      cases s.set_position_covariance (e.posCov • (1 : M3)) with
      | none => rfl
      | some s => rfl

theorem iter_enabled {l l' : Logger} (h : l.iter = some l') : l'.enabled = l.enabled ∧ l'.initCount = l.initCount ∧
    l'.opened = l.opened ∧ l'.poseBase = l.poseBase ∧ l'.velBase = l.velBase := by
  obtain ⟨en, pb, vb, rt, lp, ic, q, op, wr⟩ := l
  unfold Logger.iter at h
  cases q with
  | nil => obtain rfl := Option.some.inj h; simp
  | cons s rest =>
    simp only [Option.bind_eq_bind, Option.bind_eq_some_iff] at h
    obtain ⟨t, -, h⟩ := h
    split_ifs at h
    · simp only [Option.bind_eq_some_iff] at h
      obtain ⟨_, -, _, -, _, -, _, -, h⟩ := h
      obtain rfl := Option.some.inj h; simp
    · obtain rfl := Option.some.inj h; simp

theorem mstep_imu {e : Estimator} {pc : PC} (hl : lockOf e pc ≠ some .imu) (hp : ¬ Peeks pc .imu) (m : ImuMeas) :
    mstep { e with prop := { e.prop with buffer := e.prop.buffer ++ [m] } } pc =
      (mstep e pc).map fun q => ({ q.1 with prop := { q.1.prop with buffer := q.1.prop.buffer ++ [m] } }, q.2) := by
  cases pc with
  | idle => rfl
  | prop => exact absurd rfl hl
  | corr i b again =>
    simp only [mstep]
    cases e.corrs[i]? with
    | none => rfl
    | some c =>
      simp only
      cases corrSect again c e.heap e.state with
      | none => rfl
      | some r => cases r <;> rfl
  | out => rfl
  | log => rfl
  | bias =>
    have h : ¬(e.prop.staticInit = true ∧ e.prop.biasInitVec.length < ImuProp.toSizeT e.prop.initBiasSize) := by
      intro h; apply hl; simp [lockOf, h]
    simp only [mstep]
    rw [show ({ e with prop := { e.prop with buffer := e.prop.buffer ++ [m] } } : Estimator).initBias = _ from
      initBias_imu h _]
    have hb : ∀ x, e.initBias = some x → x.prop.buffer = e.prop.buffer := by
      intro x hx
      unfold Estimator.initBias ImuProp.initImuBias at hx
      by_cases h1 : e.prop.staticInit = false
      · simp [h1] at hx; rw [← hx]
      · have h2 : ¬ e.prop.biasInitVec.length < ImuProp.toSizeT e.prop.initBiasSize := fun h2 => h ⟨by simpa using h1, h2⟩
        rw [if_neg h1, if_neg h2] at hx
        dsimp only at hx
        split_ifs at hx
        · simp at hx
        · simp at hx; rw [← hx]
    cases hx : e.initBias with
    | none => rfl
    | some x => simp [hb x hx]
  | initPeek => exact absurd trivial hp
  | initPop => exact absurd rfl hl
  | initCorrPeek i =>
    simp only [mstep]
    cases e.corrs[i]? with
    | none => rfl
    | some c => simp only; split_ifs <;> rfl
  | initCorr i =>
    simp only [mstep]
    cases e.corrs[i]? with
    | none => rfl
    | some c =>
      simp only
      split_ifs
      · rfl
      · cases c.setInitial e.state <;> rfl
  | finish =>
    simp only [mstep]
    have := finishInit_frame e { e.prop with buffer := e.prop.buffer ++ [m] } e.corrs e.log
    rw [show ({ e with prop := { e.prop with buffer := e.prop.buffer ++ [m] } } : Estimator).finishInit = _ from this]
    have hb : ∀ x, e.finishInit = some x → x.prop = e.prop ∧ x.corrs = e.corrs ∧ x.log = e.log := by
      intro x hx
      have h2 := finishInit_frame e e.prop e.corrs e.log
      rw [show ({ e with prop := e.prop, corrs := e.corrs, log := e.log } : Estimator) = e from rfl, hx] at h2
      have h3 := Option.some.inj h2
      rw [h3]; simp
    cases hx : e.finishInit with
    | none => rfl
    | some x => obtain ⟨h1, h2, h3⟩ := hb x hx; simp [h1, ← h2, ← h3]
  | clearProp => exact absurd rfl hl
  | clearCorr i =>
    simp only [mstep]
    cases e.corrs[i]? with
    | none => rfl
    | some c => rfl
  | clearOut => rfl
  | clearLog => rfl

theorem finishInit_keeps {e x : Estimator} (hx : e.finishInit = some x) :
    x.prop = e.prop ∧ x.corrs = e.corrs ∧ x.log = e.log := by
  have h2 := finishInit_frame e e.prop e.corrs e.log
  rw [show ({ e with prop := e.prop, corrs := e.corrs, log := e.log } : Estimator) = e from rfl, hx] at h2
  have h3 := Option.some.inj h2
  rw [h3]; simp

theorem set_modify {α : Type} (l : List α) {i j : ℕ} (h : i ≠ j) (a : α) (f : α → α) :
    (l.modify j f).set i a = (l.set i a).modify j f := by
  apply List.ext_getElem? ; intro k
  simp only [List.getElem?_set, List.getElem?_modify, List.length_modify]
  by_cases h1 : i = k
  · subst h1
    simp [Ne.symm h]
  · simp [h1]

theorem mstep_corr {e : Estimator} {pc : PC} {j : ℕ} (hl : lockOf e pc ≠ some (.corr j)) (hp : ¬ Peeks pc (.corr j))
    (f : Corr → Corr) :
    mstep { e with corrs := e.corrs.modify j f } pc =
      (mstep e pc).map fun q => ({ q.1 with corrs := q.1.corrs.modify j f }, q.2) := by
  have hget : ∀ i, i ≠ j → (e.corrs.modify j f)[i]? = e.corrs[i]? := by
    intro i h; simp [List.getElem?_modify, Ne.symm h]
  have hout : ∀ i, e.corrs.length ≤ i → (e.corrs.modify j f)[i]? = none ∧ e.corrs[i]? = none := by
    intro i h
    refine ⟨?_, ?_⟩ <;> rw [List.getElem?_eq_none_iff] <;> simp [h]
  cases pc with
  | idle => rfl
  | prop =>
    simp only [mstep]
    cases e.prop.propagate e.state <;> rfl
  | corr i b again =>
    by_cases hi : i < e.corrs.length
    · have hij : i ≠ j := by intro h; subst h; apply hl; simp [lockOf, hi]
      simp only [mstep, hget i hij]
      cases e.corrs[i]? with
      | none => rfl
      | some c =>
        simp only
        cases corrSect again c e.heap e.state with
        | none => rfl
        | some r => cases r <;> simp [set_modify _ hij]
    · obtain ⟨h1, h2⟩ := hout i (by omega)
      simp only [mstep, h1, h2]; rfl
  | out => rfl
  | log => rfl
  | bias =>
    simp only [mstep, Estimator.initBias]
    cases e.prop.initImuBias <;> rfl
  | initPeek => simp only [mstep]; rfl
  | initPop =>
    simp only [mstep]
    cases e.prop.buffer with
    | nil => rfl
    | cons a l => simp only; cases e.prop.setInitialState e.state <;> rfl
  | initCorrPeek i =>
    have hij : i ≠ j := fun h => hp h
    simp only [mstep, hget i hij]
    cases e.corrs[i]? with
    | none => rfl
    | some c => simp only; split_ifs <;> rfl
  | initCorr i =>
    have hij : i ≠ j := by intro h; apply hl; simp [lockOf, h]
    simp only [mstep, hget i hij]
    cases e.corrs[i]? with
    | none => rfl
    | some c =>
      simp only
      split_ifs
      · rfl
      · cases c.setInitial e.state with
        | none => rfl
        | some r => simp [set_modify _ hij]
  | finish =>
    simp only [mstep]
    have := finishInit_frame e e.prop (e.corrs.modify j f) e.log
    rw [show ({ e with corrs := e.corrs.modify j f } : Estimator).finishInit = _ from this]
    cases hx : e.finishInit with
    | none => rfl
    | some x => obtain ⟨h1, h2, h3⟩ := finishInit_keeps hx; simp [← h1, h2, ← h3]
  | clearProp => rfl
  | clearCorr i =>
    by_cases hi : i < e.corrs.length
    · have hij : i ≠ j := by intro h; subst h; apply hl; simp [lockOf, hi]
      simp only [mstep, hget i hij]
      cases e.corrs[i]? with
      | none => rfl
      | some c => simp [set_modify _ hij]
    · obtain ⟨h1, h2⟩ := hout i (by omega)
      simp only [mstep, h1, h2]; rfl
  | clearOut => rfl
  | clearLog => rfl

theorem mstep_out {e : Estimator} {pc : PC} (hl : lockOf e pc ≠ some .out) (q' : List RobotState) :
    mstep { e with outQ := q' } pc = (mstep e pc).map fun q => ({ q.1 with outQ := q' }, q.2) := by
  cases pc with
  | idle => rfl
  | prop =>
    simp only [mstep]
    cases e.prop.propagate e.state <;> rfl
  | corr i b again =>
    simp only [mstep]
    cases e.corrs[i]? with
    | none => rfl
    | some c =>
      simp only
      cases corrSect again c e.heap e.state with
      | none => rfl
      | some r => cases r <;> rfl
  | out => exact absurd rfl hl
  | log => rfl
  | bias =>
    simp only [mstep, Estimator.initBias]
    cases e.prop.initImuBias <;> rfl
  | initPeek => simp only [mstep]; rfl
  | initPop =>
    simp only [mstep]
    cases e.prop.buffer with
    | nil => rfl
    | cons a l => simp only; cases e.prop.setInitialState e.state <;> rfl
  | initCorrPeek i =>
    simp only [mstep]
    cases e.corrs[i]? with
    | none => rfl
    | some c => simp only; split_ifs <;> rfl
  | initCorr i =>
    simp only [mstep]
    cases e.corrs[i]? with
    | none => rfl
    | some c =>
      simp only
      split_ifs
      · rfl
      · cases c.setInitial e.state <;> rfl
  | finish => exact absurd rfl hl
  | clearProp => rfl
  | clearCorr i =>
    simp only [mstep]
    cases e.corrs[i]? <;> rfl
  | clearOut => exact absurd rfl hl
  | clearLog => rfl

/-- an own step that does not use the output queue leaves it as it is -/
theorem mstep_outQ {e : Estimator} {pc : PC} (hl : lockOf e pc ≠ some .out) {q : Estimator × PC} (h : mstep e pc = some q) :
    q.1.outQ = e.outQ := by
  have := mstep_out hl e.outQ
  rw [show ({ e with outQ := e.outQ } : Estimator) = e from rfl, h] at this
  have h3 := Option.some.inj this
  rw [h3]

theorem mstep_log {e : Estimator} {pc : PC} (hl : lockOf e pc ≠ some .log) (lg : Logger) (hen : lg.enabled = e.log.enabled) :
    mstep { e with log := lg } pc = (mstep e pc).map fun q => ({ q.1 with log := lg }, q.2) := by
  cases pc with
  | idle => rfl
  | prop =>
    simp only [mstep]
    cases e.prop.propagate e.state <;> rfl
  | corr i b again =>
    simp only [mstep]
    cases e.corrs[i]? with
    | none => rfl
    | some c =>
      simp only
      cases corrSect again c e.heap e.state with
      | none => rfl
      | some r => cases r <;> rfl
  | out => rfl
  | log =>
    have h1 : e.log.enabled = false := by
      by_contra h; apply hl; simp [lockOf, h]
    simp [mstep, Logger.push, h1, hen]
  | bias =>
    simp only [mstep, Estimator.initBias]
    cases e.prop.initImuBias <;> rfl
  | initPeek => simp only [mstep]; rfl
  | initPop =>
    simp only [mstep]
    cases e.prop.buffer with
    | nil => rfl
    | cons a l => simp only; cases e.prop.setInitialState e.state <;> rfl
  | initCorrPeek i =>
    simp only [mstep]
    cases e.corrs[i]? with
    | none => rfl
    | some c => simp only; split_ifs <;> rfl
  | initCorr i =>
    simp only [mstep]
    cases e.corrs[i]? with
    | none => rfl
    | some c =>
      simp only
      split_ifs
      · rfl
      · cases c.setInitial e.state <;> rfl
  | finish =>
    simp only [mstep]
    have := finishInit_frame e e.prop e.corrs lg
    rw [show ({ e with log := lg } : Estimator).finishInit = _ from this]
    cases hx : e.finishInit with
    | none => rfl
    | some x => obtain ⟨h1, h2, h3⟩ := finishInit_keeps hx; simp [← h1, ← h2]
  | clearProp => rfl
  | clearCorr i =>
    simp only [mstep]
    cases e.corrs[i]? <;> rfl
  | clearOut => rfl
  | clearLog => exact absurd rfl hl

theorem mstep_logger {e : Estimator} {pc : PC} (hl : lockOf e pc ≠ some .log) {q : Estimator × PC} (h : mstep e pc = some q) :
    q.1.log = e.log := by
  have := mstep_log hl e.log rfl
  rw [show ({ e with log := e.log } : Estimator) = e from rfl, h] at this
  have h3 := Option.some.inj this
  rw [h3]

/-- A step of the main thread commutes with an access of another thread to a queue that the step does not use. -/
theorem mstep_comm {e : Estimator} {pc : PC} {ev : EstEv} {r : Res} (hr : res ev = some r) (hl : lockOf e pc ≠ some r)
    (hp : ¬ Peeks pc r) :
    ((e.step ev).bind fun x => mstep x pc) = (mstep e pc).bind fun q => (q.1.step ev).map fun x => (x, q.2) := by
  cases ev with
  | imu m =>
    obtain rfl := Option.some.inj hr
    simp only [Estimator.step, Option.bind_some, Option.map_some]
    rw [mstep_imu hl hp m]; cases mstep e pc <;> rfl
  | vel i m =>
    obtain rfl := Option.some.inj hr
    simp only [Estimator.step, Option.bind_some, Option.map_some]
    rw [mstep_corr hl hp]; cases mstep e pc <;> rfl
  | leg i m =>
    obtain rfl := Option.some.inj hr
    simp only [Estimator.step, Option.bind_some, Option.map_some]
    rw [mstep_corr hl hp]; cases mstep e pc <;> rfl
  | tick => cases hr
  | clear => cases hr
  | log =>
    obtain rfl := Option.some.inj hr
    simp only [Estimator.step]
    cases hi : e.log.iter with
    | none =>
      cases hq : mstep e pc with
      | none => rfl
      | some q => simp [mstep_logger hl hq, hi]
    | some l' =>
      simp only [Option.map_some, Option.bind_some]
      rw [mstep_log hl l' (iter_enabled hi).1]
      cases hq : mstep e pc with
      | none => rfl
      | some q => simp [mstep_logger hl hq, hi]
  | consume =>
    obtain rfl := Option.some.inj hr
    simp only [Estimator.step, Option.bind_some, Option.map_some]
    rw [mstep_out hl]
    cases hq : mstep e pc with
    | none => rfl
    | some q => simp [mstep_outQ hl hq]

/-- accesses to different queues commute -/
theorem step_comm (e : Estimator) {ev ev' : EstEv} {r r' : Res} (hr : res ev = some r) (hr' : res ev' = some r') (h : r ≠ r') :
    ((e.step ev).bind fun x => x.step ev') = (e.step ev').bind fun x => x.step ev := by
  have hmm : ∀ (l : List Corr) (i j : ℕ) (f g : Corr → Corr), i ≠ j → (l.modify i f).modify j g = (l.modify j g).modify i f := by
    intro l i j f g hij
    apply List.ext_getElem?; intro k
    simp only [List.getElem?_modify]
    by_cases h1 : i = k
    · subst h1; simp [Ne.symm hij]
    · simp [h1]
  cases ev <;> cases ev' <;> simp only [res, Option.some.injEq, reduceCtorEq] at hr hr' <;> subst hr <;> subst hr' <;>
    simp only [ne_eq, not_true_eq_false, Res.corr.injEq] at h <;>
    simp only [Estimator.step, Option.bind_some] <;>
    first
    | rfl
    | (rw [hmm _ _ _ _ _ h])
    | (cases e.log.iter <;> rfl)

end Thr
end Drift
