import Verif.Lemmas.Clock1
import Verif.Lemmas.Est4

namespace Drift
open Mat Matrix RobotState

/-! ### IMU propagation -/

def ImuProp.later (c : ℝ) (p : ImuProp) : ImuProp := { p with buffer := p.buffer.map (ImuMeas.later c), prev := p.prev.map (ImuMeas.later c) }

theorem propagate_later (c : ℝ) (p : ImuProp) (s : RobotState) :
    (p.later c).propagate (s.later c) = (p.propagate s).map fun r => (r.1, r.2.1.later c, r.2.2.later c) := by
  unfold ImuProp.propagate
  obtain ⟨bu, hb⟩ : ∃ bu, p.buffer = bu := ⟨_, rfl⟩
  have hb' : (p.later c).buffer = bu.map (ImuMeas.later c) := by rw [← hb]; rfl
  rw [hb, hb']
  cases bu with
  | nil => rfl
  | cons front rest =>
    obtain ⟨tp, ht⟩ : ∃ tp, s.tProp = tp := ⟨_, rfl⟩
    have ht' : (s.later c).tProp = tp.map (· + c) := by rw [← ht]; rfl
    obtain ⟨pr, hp⟩ : ∃ pr, p.prev = pr := ⟨_, rfl⟩
    have hp' : (p.later c).prev = pr.map (ImuMeas.later c) := by rw [← hp]; rfl
    simp only [List.map_cons, ht, ht', hp, hp']
    cases pr with
    | none => rfl
    | some m =>
      cases tp with
      | none => rfl
      | some tp =>
        simp only [Option.map_some, Option.bind_eq_bind, Option.bind_some]
        have e : (m.later c).time - (tp + c) = m.time - tp := by show m.time + c - (tp + c) = _; ring
        rw [e]
        simp only [Option.map_bind, Function.comp_def]
        rfl

theorem initImuBias_later (c : ℝ) (p : ImuProp) : (p.later c).initImuBias = p.initImuBias.map (ImuProp.later c) := by
  unfold ImuProp.initImuBias
  have e1 : (p.later c).staticInit = p.staticInit := rfl
  have e2 : (p.later c).biasInitVec = p.biasInitVec := rfl
  have e3 : (p.later c).initBiasSize = p.initBiasSize := rfl
  rw [e1, e2, e3]
  obtain ⟨bu, hb⟩ : ∃ bu, p.buffer = bu := ⟨_, rfl⟩
  have hb' : (p.later c).buffer = bu.map (ImuMeas.later c) := by rw [← hb]; rfl
  rw [hb, hb']
  split_ifs
  · rfl
  · cases bu with
    | nil => rfl
    | cons m rest => rfl
  · rfl
  · rfl

theorem setInitialState_later (c : ℝ) (p : ImuProp) (s : RobotState) :
    (p.later c).setInitialState (s.later c) = (p.setInitialState s).map fun r => (r.1, r.2.1.later c, r.2.2.later c) := by
  unfold ImuProp.setInitialState
  obtain ⟨bu, hb⟩ : ∃ bu, p.buffer = bu := ⟨_, rfl⟩
  have hb' : (p.later c).buffer = bu.map (ImuMeas.later c) := by rw [← hb]; rfl
  rw [hb, hb']
  cases bu with
  | nil => rfl
  | cons m rest =>
    simp only [List.map_cons, Option.bind_eq_bind, Option.map_bind, Function.comp_def]
    unfold set_rotation set_position set_gyroscope_bias set_accelerometer_bias set_gyroscope_bias_covariance set_accelerometer_bias_covariance
    simp only [Option.bind_map, Function.comp_def, Option.bind_eq_bind, Option.map_bind]
    rfl

/-! ### corrections -/

def Corr.later (c : ℝ) : Corr → Corr
  | .vel v => .vel (v.later c)
  | .leg v => .leg (v.later c)

theorem corr_correct_later (c : ℝ) (d : Corr) (h : Heap) (s : RobotState) :
    (d.later c).correct h (s.later c) = (d.correct h s).map fun r => (r.1, r.2.1.later c, r.2.2.1, r.2.2.2.later c) := by
  cases d with
  | vel v => simp only [Corr.later, Corr.correct, vel_correct_later, Option.map_map]; rfl
  | leg v => simp only [Corr.later, Corr.correct, leg_correct_later, Option.map_map]; rfl

theorem corr_init_later (c : ℝ) (d : Corr) (s : RobotState) :
    (d.later c).setInitial (s.later c) = (d.setInitial s).map fun r => (r.1, r.2.1.later c, r.2.2.later c) := by
  cases d with
  | vel v => simp only [Corr.later, Corr.setInitial, vel_init_later, Option.map_map]; rfl
  | leg v => simp only [Corr.later, Corr.setInitial, leg_init_later, Option.map_map]; rfl

theorem correctAll_later (c : ℝ) (l : List Corr) : ∀ (h : Heap) (s : RobotState),
    Estimator.correctAll (l.map (Corr.later c)) h (s.later c) =
      (Estimator.correctAll l h s).map fun r => (r.1, r.2.1.map (Corr.later c), r.2.2.1, r.2.2.2.later c) := by
  induction l with
  | nil => intro h s; rfl
  | cons d l ih =>
    intro h s
    simp only [List.map_cons, Estimator.correctAll, corr_correct_later, Option.bind_eq_bind]
    cases d.correct h s with
    | none => rfl
    | some r =>
      simp only [Option.map_some, Option.bind_some, ih]
      cases Estimator.correctAll l r.2.2.1 r.2.2.2 with
      | none => rfl
      | some q => rfl

theorem initCorrs_later (c : ℝ) (l : List Corr) : ∀ (done : List Corr) (s : RobotState),
    Estimator.initCorrs (done.map (Corr.later c)) (l.map (Corr.later c)) (s.later c) =
      (Estimator.initCorrs done l s).map fun r => (r.1.map (Corr.later c), r.2.1.map (Corr.later c), r.2.2.later c) := by
  induction l with
  | nil => intro done s; rfl
  | cons d l ih =>
    intro done s
    simp only [List.map_cons, Estimator.initCorrs, corr_init_later, Option.bind_eq_bind]
    cases d.setInitial s with
    | none => rfl
    | some r =>
      simp only [Option.map_some, Option.bind_some]
      cases r.1 with
      | true =>
        simp only [if_true]
        have := ih (done ++ [r.2.1]) r.2.2
        rw [List.map_append] at this
        exact this
      | false => rfl

/-! ### logger and estimator -/

def Logger.later (c : ℝ) (l : Logger) : Logger :=
  { l with lastPub := l.lastPub + c, queue := l.queue.map (RobotState.later c), written := l.written.map (LogRow.later c) }

def Estimator.later (c : ℝ) (e : Estimator) : Estimator :=
  { e with
    prop := e.prop.later c
    corrs := e.corrs.map (Corr.later c)
    state := e.state.later c
    outQ := e.outQ.map (RobotState.later c)
    log := e.log.later c }

theorem push_later (c : ℝ) (l : Logger) (s : RobotState) : (l.later c).push (s.later c) = (l.push s).later c := by
  unfold Logger.push
  have e : (l.later c).enabled = l.enabled := rfl
  rw [e]
  split_ifs
  · simp [Logger.later]
  · rfl

theorem due_later (c : ℝ) (l : Logger) (t : ℝ) : (l.later c).due (t + c) ↔ l.due t := by
  unfold Logger.due
  have e1 : (l.later c).rate = l.rate := rfl
  have e2 : (l.later c).lastPub = l.lastPub + c := rfl
  rw [e1, e2, add_sub_add_right_eq_sub]

theorem iter_later (c : ℝ) (l : Logger) : (l.later c).iter = l.iter.map (Logger.later c) := by
  unfold Logger.iter
  obtain ⟨bu, hb⟩ : ∃ bu, l.queue = bu := ⟨_, rfl⟩
  have hb' : (l.later c).queue = bu.map (RobotState.later c) := by rw [← hb]; rfl
  rw [hb, hb']
  cases bu with
  | nil => rfl
  | cons s rest =>
    obtain ⟨t, ht⟩ : ∃ t, s.t = t := ⟨_, rfl⟩
    have ht' : (s.later c).t = t.map (· + c) := by rw [← ht]; rfl
    simp only [List.map_cons, ht, ht']
    cases t with
    | none => rfl
    | some t =>
      simp only [Option.map_some, Option.bind_eq_bind, Option.bind_some]
      have hd : (Logger.due { l.later c with queue := rest.map (RobotState.later c) } (t + c)) ↔ Logger.due { l with queue := rest } t :=
        due_later c { l with queue := rest } t
      have he : (l.later c).enabled = l.enabled := rfl
      by_cases hq : l.enabled = true ∧ Logger.due { l with queue := rest } t
      · rw [if_pos (c := _ ∧ _) hq]
        refine (if_pos ⟨hq.1, hd.mpr hq.2⟩).trans ?_
        simp only [Option.map_bind, Function.comp_def]
        show (s.get_world_position.bind fun p => s.get_world_rotation.bind fun R => s.get_world_velocity.bind fun v => s.get_body_velocity.bind fun b => _) = _
        refine congrArg _ (funext fun p => congrArg _ (funext fun R => congrArg _ (funext fun v => congrArg _ (funext fun b => ?_))))
        simp [Logger.later, LogRow.later]
      · rw [if_neg (c := _ ∧ _) hq]
        refine (if_neg (fun q => hq ⟨q.1, hd.mp q.2⟩)).trans ?_
        rfl

theorem finishInit_later (c : ℝ) (e : Estimator) : (e.later c).finishInit = e.finishInit.map (Estimator.later c) := by
  unfold Estimator.finishInit set_rotation_covariance set_velocity_covariance set_position_covariance
  simp only [Option.bind_map, Function.comp_def, Option.bind_eq_bind, Option.map_bind]
  refine congrArg _ (funext fun p => congrArg _ (funext fun R => congrArg _ (funext fun v => ?_)))
  simp [Estimator.later]
  rfl

theorem initFrom_later (c : ℝ) (e : Estimator) (i : ℕ) : (e.later c).initFrom i = (e.initFrom i).map (Estimator.later c) := by
  unfold Estimator.initFrom
  have h := initCorrs_later c (e.corrs.drop i) (e.corrs.take i) e.state
  rw [List.map_take, List.map_drop] at h
  have h' : Estimator.initCorrs ((e.later c).corrs.take i) ((e.later c).corrs.drop i) (e.later c).state = _ := h
  rw [h']
  cases Estimator.initCorrs (e.corrs.take i) (e.corrs.drop i) e.state with
  | none => rfl
  | some r =>
    obtain ⟨done, todo, s⟩ := r
    simp only [Option.map_some, Option.bind_eq_bind, Option.bind_some]
    cases todo with
    | nil =>
      have := finishInit_later c { e with corrs := done ++ [], state := s }
      simp only [List.map_nil]
      rw [← this]
      congr 1
      simp [Estimator.later]
    | cons d ds => simp [Estimator.later]

theorem runOnce_later (c : ℝ) (e : Estimator) : (e.later c).runOnce = e.runOnce.map (Estimator.later c) := by
  unfold Estimator.runOnce
  have h : (e.later c).prop.propagate (e.later c).state = _ := propagate_later c e.prop e.state
  rw [h]
  cases e.prop.propagate e.state with
  | none => rfl
  | some r =>
    obtain ⟨b, p, s⟩ := r
    simp only [Option.map_some, Option.bind_eq_bind, Option.bind_some]
    have h : Estimator.correctAll (e.later c).corrs (e.later c).heap (s.later c) = _ := correctAll_later c e.corrs e.heap s
    rw [h]
    cases Estimator.correctAll e.corrs e.heap s with
    | none => rfl
    | some r =>
      obtain ⟨b', cs, h, s'⟩ := r
      simp only [Option.map_some, Option.bind_some]
      split_ifs
      · simp only [Option.map_some, Option.some.injEq]
        have := push_later c e.log s'
        simp only [Estimator.later]
        rw [push_later]
        simp
      · rfl

theorem initState_later (c : ℝ) (e : Estimator) : (e.later c).initState = e.initState.map (Estimator.later c) := by
  unfold Estimator.initState
  have h : (e.later c).prop.setInitialState (e.later c).state = _ := setInitialState_later c e.prop e.state
  rw [h]
  cases e.prop.setInitialState e.state with
  | none => rfl
  | some r =>
    obtain ⟨b, p, s⟩ := r
    simp only [Option.map_some, Option.bind_eq_bind, Option.bind_some]
    split_ifs
    · exact initFrom_later c { e with prop := p, state := s } 0
    · rfl

theorem initBias_later (c : ℝ) (e : Estimator) : (e.later c).initBias = e.initBias.map (Estimator.later c) := by
  unfold Estimator.initBias
  have h : (e.later c).prop.initImuBias = _ := initImuBias_later c e.prop
  rw [h]
  cases e.prop.initImuBias <;> rfl

theorem tick_later (c : ℝ) (e : Estimator) : (e.later c).tick = e.tick.map (Estimator.later c) := by
  unfold Estimator.tick
  have h1 : (e.later c).pending = e.pending := rfl
  have h2 : (e.later c).enabled = e.enabled := rfl
  have h3 : (e.later c).prop.biasInitialized = e.prop.biasInitialized := rfl
  rw [h1, h2, h3]
  cases e.pending with
  | some i => exact initFrom_later c e i
  | none =>
    dsimp only
    split_ifs
    · exact runOnce_later c e
    · exact initState_later c e
    · exact initBias_later c e

theorem logClear_later (c : ℝ) (l : Logger) : (l.later c).clear = l.clear.later c := by
  unfold Logger.clear
  have e : (l.later c).enabled = l.enabled := rfl
  by_cases h : l.enabled = true
  · simp [h, Logger.later]
  · simp [h, Logger.later]

theorem corrClear_later (c : ℝ) (d : Corr) : (d.later c).clear = d.clear.later c := by cases d <;> rfl
theorem pushVel_later (c : ℝ) (m : VelMeas) (d : Corr) : (d.later c).pushVel (m.later c) = (d.pushVel m).later c := by
  cases d <;> simp [Corr.pushVel, Corr.later, VelCorr.later]
theorem pushLeg_later (c : ℝ) (m : LegMeas) (d : Corr) : (d.later c).pushLeg (m.later c) = (d.pushLeg m).later c := by
  cases d <;> simp [Corr.pushLeg, Corr.later, LegCorr.later]

theorem modify_map {α β : Type} (f : α → β) (g : α → α) (k : β → β) (h : ∀ x, k (f x) = f (g x)) (l : List α) : ∀ i, (l.map f).modify i k = (l.modify i g).map f := by
  induction l with
  | nil => intro i; simp
  | cons a l ih =>
    intro i
    cases i with
    | zero => simp [h]
    | succ i => simp [ih]

theorem clear_later (c : ℝ) (e : Estimator) : (e.later c).clear = (e.clear).later c := by
  unfold Estimator.clear
  simp only [Estimator.later, logClear_later, List.map_map, List.map_nil]
  have : (Corr.clear ∘ Corr.later c) = (Corr.later c ∘ Corr.clear) := funext fun d => corrClear_later c d
  rw [this]
  rfl

theorem step_later (c : ℝ) (e : Estimator) (ev : EstEv) : (e.later c).step (ev.later c) = (e.step ev).map (Estimator.later c) := by
  cases ev with
  | imu m => simp [EstEv.later, Estimator.step, Estimator.later, ImuProp.later]
  | vel i m =>
    simp only [EstEv.later, Estimator.step, Option.map_some, Option.some.injEq, Estimator.later]
    rw [modify_map _ _ _ (pushVel_later c m)]
  | leg i m =>
    simp only [EstEv.later, Estimator.step, Option.map_some, Option.some.injEq, Estimator.later]
    rw [modify_map _ _ _ (pushLeg_later c m)]
  | tick => exact tick_later c e
  | clear =>
    simp only [EstEv.later, Estimator.step]
    have h1 : (e.later c).pending = e.pending := rfl
    rw [h1]
    cases e.pending with
    | none => exact congrArg some (clear_later c e)
    | some i => rfl
  | log =>
    simp only [EstEv.later, Estimator.step]
    have h : (e.later c).log.iter = _ := iter_later c e.log
    rw [h]
    cases e.log.iter <;> rfl
  | consume => simp [EstEv.later, Estimator.step, Estimator.later]

/-- the whole estimator commutes with a change of the origin of time (with the time of the last log row moved too) -/
theorem run_later (c : ℝ) (evs : List EstEv) : ∀ e : Estimator, (e.later c).run (evs.map (EstEv.later c)) = (e.run evs).map (Estimator.later c) := by
  induction evs with
  | nil => intro e; rfl
  | cons ev evs ih =>
    intro e
    simp only [List.map_cons, Estimator.run, step_later]
    cases e.step ev with
    | none => rfl
    | some e' => exact ih e'

end Drift
