import Verif.Lemmas.Clock3

namespace Drift
open Mat Matrix RobotState

/-- the same estimator with another time of the last log row and other rows -/
def Logger.relog (lp : ℝ) (w : List LogRow) (l : Logger) : Logger := { l with lastPub := lp, written := w }
def Estimator.relog (lp : ℝ) (w : List LogRow) (e : Estimator) : Estimator := { e with log := e.log.relog lp w }

variable (lp : ℝ) (w : List LogRow)

theorem push_relog (l : Logger) (s : RobotState) : (l.relog lp w).push s = (l.push s).relog lp w := by
  unfold Logger.push
  have e : (l.relog lp w).enabled = l.enabled := rfl
  rw [e]
  split_ifs <;> rfl

theorem logClear_relog (l : Logger) : (l.relog lp w).clear = l.clear.relog lp w := by
  unfold Logger.clear
  by_cases h : l.enabled = true
  · simp [h, Logger.relog]
  · simp [h, Logger.relog]

theorem initFrom_relog (e : Estimator) (i : ℕ) : (e.relog lp w).initFrom i = (e.initFrom i).map (Estimator.relog lp w) := by
  unfold Estimator.initFrom
  have h' : Estimator.initCorrs ((e.relog lp w).corrs.take i) ((e.relog lp w).corrs.drop i) (e.relog lp w).state =
    Estimator.initCorrs (e.corrs.take i) (e.corrs.drop i) e.state := rfl
  rw [h']
  cases Estimator.initCorrs (e.corrs.take i) (e.corrs.drop i) e.state with
  | none => rfl
  | some r =>
    obtain ⟨done, todo, s⟩ := r
    simp only [Option.bind_eq_bind, Option.bind_some]
    cases todo with
    | nil =>
      unfold Estimator.finishInit
      simp only [Option.bind_eq_bind, Option.map_bind, Function.comp_def]
      rfl
    | cons d ds => rfl

theorem runOnce_relog (e : Estimator) : (e.relog lp w).runOnce = e.runOnce.map (Estimator.relog lp w) := by
  unfold Estimator.runOnce
  have h : (e.relog lp w).prop.propagate (e.relog lp w).state = e.prop.propagate e.state := rfl
  rw [h]
  cases e.prop.propagate e.state with
  | none => rfl
  | some r =>
    obtain ⟨b, p, s⟩ := r
    simp only [Option.bind_eq_bind, Option.bind_some]
    have h : Estimator.correctAll (e.relog lp w).corrs (e.relog lp w).heap s = Estimator.correctAll e.corrs e.heap s := rfl
    rw [h]
    cases Estimator.correctAll e.corrs e.heap s with
    | none => rfl
    | some r =>
      obtain ⟨b', cs, h, s'⟩ := r
      simp only [Option.bind_some]
      split_ifs
      · simp only [Option.map_some, Option.some.injEq, Estimator.relog, push_relog]
      · rfl

theorem tick_relog (e : Estimator) : (e.relog lp w).tick = e.tick.map (Estimator.relog lp w) := by
  unfold Estimator.tick
  have h1 : (e.relog lp w).pending = e.pending := rfl
  have h2 : (e.relog lp w).enabled = e.enabled := rfl
  have h3 : (e.relog lp w).prop.biasInitialized = e.prop.biasInitialized := rfl
  rw [h1, h2, h3]
  cases e.pending with
  | some i => exact initFrom_relog lp w e i
  | none =>
    dsimp only
    split_ifs
    · exact runOnce_relog lp w e
    · unfold Estimator.initState
      have h : (e.relog lp w).prop.setInitialState (e.relog lp w).state = e.prop.setInitialState e.state := rfl
      rw [h]
      cases e.prop.setInitialState e.state with
      | none => rfl
      | some r =>
        obtain ⟨b, p, s⟩ := r
        simp only [Option.bind_eq_bind, Option.bind_some]
        split_ifs
        · exact initFrom_relog lp w { e with prop := p, state := s } 0
        · rfl
    · unfold Estimator.initBias
      have h : (e.relog lp w).prop.initImuBias = e.prop.initImuBias := rfl
      rw [h]
      cases e.prop.initImuBias <;> rfl

/-- what the estimator does, apart from writing log rows, does not depend on the rows written so far -/
theorem step_relog (e : Estimator) (ev : EstEv) (hev : ev ≠ .log) : (e.relog lp w).step ev = (e.step ev).map (Estimator.relog lp w) := by
  cases ev with
  | tick => exact tick_relog lp w e
  | log => exact absurd rfl hev
  | clear =>
    simp only [Estimator.step]
    have h1 : (e.relog lp w).pending = e.pending := rfl
    rw [h1]
    cases e.pending with
    | none =>
      simp only [Option.map_some, Option.some.injEq]
      unfold Estimator.clear
      simp only [Estimator.relog, logClear_relog]
    | some i => rfl
  | _ => rfl

/-- the two ways an iteration of the logging thread can go -/
theorem iter_cases {l l' : Logger} (h : l.iter = some l') :
    (l.queue = [] ∧ l' = l) ∨ ∃ s rest t, l.queue = s :: rest ∧ s.t = some t ∧
      ((¬(l.enabled = true ∧ l.due t) ∧ l' = { l with queue := rest }) ∨
       ((l.enabled = true ∧ l.due t) ∧ ∃ r, IsRow s r ∧ r.time = t ∧ l' = { l with queue := rest, written := l.written ++ [r], lastPub := t })) := by
  unfold Logger.iter at h
  obtain ⟨bu, hb⟩ : ∃ bu, l.queue = bu := ⟨_, rfl⟩
  rw [hb] at h
  cases bu with
  | nil => exact .inl ⟨hb, (Option.some.inj h).symm⟩
  | cons s rest =>
    simp only [Option.bind_eq_bind, Option.bind_eq_some_iff] at h
    obtain ⟨t, ht, h⟩ := h
    refine .inr ⟨s, rest, t, hb, ht, ?_⟩
    split_ifs at h with hd
    · simp only [Option.bind_eq_some_iff] at h
      obtain ⟨p, h1, R, h2, v, h3, b, h4, h⟩ := h
      exact .inr ⟨hd, _, ⟨ht, h1, h2, h3, h4⟩, rfl, (Option.some.inj h).symm⟩
    · exact .inl ⟨hd, (Option.some.inj h).symm⟩

theorem isRow_inj {s : RobotState} {r r' : LogRow} (h : IsRow s r) (h' : IsRow s r') : r = r' := by
  obtain ⟨t, p, R, v, b⟩ := r
  obtain ⟨t', p', R', v', b'⟩ := r'
  obtain ⟨a1, a2, a3, a4, a5⟩ := h
  obtain ⟨b1, b2, b3, b4, b5⟩ := h'
  rw [a1] at b1; rw [a2] at b2; rw [a3] at b3; rw [a4] at b4; rw [a5] at b5
  simp only [Option.some.injEq] at b1 b2 b3 b4 b5
  simp only at *
  subst b1 b2 b3 b4 b5
  rfl

/-- equal apart from the rows written -/
def LogSim (e e' : Estimator) : Prop := ∃ lp w, e' = e.relog lp w

theorem logSim_step {e e' a a' : Estimator} {ev : EstEv} (s : LogSim e e') (h : e.step ev = some a) (h' : e'.step ev = some a') : LogSim a a' := by
  obtain ⟨lp, w, rfl⟩ := s
  by_cases hev : ev = .log
  · subst hev
    simp only [Estimator.step, Option.map_eq_some_iff] at h h'
    obtain ⟨l, hl, rfl⟩ := h
    obtain ⟨l', hl', rfl⟩ := h'
    rcases iter_cases hl with ⟨q, rfl⟩ | ⟨s, rest, t, q, -, ⟨-, rfl⟩ | ⟨-, r, -, -, rfl⟩⟩
    · rcases iter_cases hl' with ⟨q', rfl⟩ | ⟨s', rest', t', q', -⟩
      · exact ⟨_, _, rfl⟩
      · rw [show (e.relog lp w).log.queue = e.log.queue from rfl, q] at q'; cases q'
    all_goals
      rcases iter_cases hl' with ⟨q', rfl⟩ | ⟨s', rest', t', q', -, ⟨-, rfl⟩ | ⟨-, r', -, -, rfl⟩⟩
      · rw [show (e.relog lp w).log.queue = e.log.queue from rfl, q] at q'; cases q'
      all_goals
        rw [show (e.relog lp w).log.queue = e.log.queue from rfl, q] at q'
        cases q'
        exact ⟨_, _, rfl⟩
  · rw [step_relog lp w e ev hev, h] at h'
    exact ⟨lp, w, (Option.some.inj h').symm⟩

theorem logSim_run (evs : List EstEv) : ∀ {e e' a a' : Estimator}, LogSim e e' → e.run evs = some a → e'.run evs = some a' → LogSim a a' := by
  induction evs with
  | nil => intro e e' a a' s h h'; rw [← Option.some.inj h, ← Option.some.inj h']; exact s
  | cons ev evs ih =>
    intro e e' a a' s h h'
    simp only [Estimator.run, Option.bind_eq_some_iff] at h h'
    obtain ⟨b, hb, h⟩ := h
    obtain ⟨b', hb', h'⟩ := h'
    exact ih (logSim_step s hb hb') h h'

/-- the log as well, if the first row is not delayed by the initial `last_pub_t_` -/
def RowSim (rate c : ℝ) (e e' : Estimator) : Prop :=
  ∃ lp, e' = e.relog lp e.log.written ∧ e.log.rate = rate ∧ (lp = e.log.lastPub ∨ (e.log.written = [] ∧ e.log.lastPub = c ∧ lp = 0))

theorem rate_step {e a : Estimator} {ev : EstEv} (h : e.step ev = some a) : a.log.rate = e.log.rate ∧ (ev ≠ .log → a.log.lastPub = e.log.lastPub ∧ a.log.written = e.log.written) := by
  have key : ev ≠ .log → a.log.lastPub = e.log.lastPub ∧ a.log.written = e.log.written := by
    intro hev
    have k := step_relog e.log.lastPub e.log.written e ev hev
    rw [show e.relog e.log.lastPub e.log.written = e from rfl, h] at k
    have := Option.some.inj k
    exact ⟨by rw [this]; rfl, by rw [this]; rfl⟩
  refine ⟨?_, key⟩
  cases ev with
  | tick =>
    simp only [Estimator.step] at h
    have hpush : ∀ (l : Logger) s, (l.push s).rate = l.rate := fun l s => by unfold Logger.push; split_ifs <;> rfl
    have hinit : ∀ {e a : Estimator} {i : ℕ}, e.initFrom i = some a → a.log = e.log := by
      intro e a i h
      unfold Estimator.initFrom at h
      simp only [Option.bind_eq_bind, Option.bind_eq_some_iff] at h
      obtain ⟨⟨done, todo, s⟩, -, h⟩ := h
      cases todo with
      | nil =>
        simp only [Estimator.finishInit, Option.bind_eq_bind, Option.bind_eq_some_iff] at h
        obtain ⟨s1, -, s2, -, s3, -, h⟩ := h
        rw [← Option.some.inj h]
      | cons d ds => rw [← Option.some.inj h]
    unfold Estimator.tick at h
    cases hp : e.pending with
    | some k => rw [hp] at h; rw [hinit h]
    | none =>
      rw [hp] at h
      simp only at h
      split_ifs at h
      · unfold Estimator.runOnce at h
        simp only [Option.bind_eq_bind, Option.bind_eq_some_iff] at h
        obtain ⟨⟨b, p', s1⟩, e1, ⟨b', cs, h2, s2⟩, e2, h⟩ := h
        simp only at h
        split_ifs at h
        · rw [← Option.some.inj h]; exact hpush _ _
        · rw [← Option.some.inj h]
      · unfold Estimator.initState at h
        simp only [Option.bind_eq_bind, Option.bind_eq_some_iff] at h
        obtain ⟨⟨b, p', s1⟩, e1, h⟩ := h
        simp only at h
        split_ifs at h
        · rw [hinit h]
        · rw [← Option.some.inj h]
      · unfold Estimator.initBias at h
        rw [Option.map_eq_some_iff] at h
        obtain ⟨p', e1, rfl⟩ := h
        rfl
  | clear =>
    simp only [Estimator.step] at h
    cases hp : e.pending with
    | some k => rw [hp] at h; rw [← Option.some.inj h]
    | none =>
      rw [hp] at h
      rw [← Option.some.inj h]
      simp only [Estimator.clear, Logger.clear]
      split_ifs <;> rfl
  | log =>
    simp only [Estimator.step, Option.map_eq_some_iff] at h
    obtain ⟨l, hl, rfl⟩ := h
    rcases iter_cases hl with ⟨q, rfl⟩ | ⟨s, rest, t, q, -, ⟨-, rfl⟩ | ⟨-, r, -, -, rfl⟩⟩ <;> rfl
  | _ => rw [← Option.some.inj h]

theorem rowSim_step {rate c : ℝ} {e e' a a' : Estimator} {ev : EstEv} (s : RowSim rate c e e') (st : StampInv (fun t => 1 / rate ≤ t - c ∧ 1 / rate ≤ t) e)
    (h : e.step ev = some a) (h' : e'.step ev = some a') : RowSim rate c a a' := by
  obtain ⟨lp, rfl, hr, s⟩ := s
  by_cases hev : ev = .log
  · subst hev
    simp only [Estimator.step, Option.map_eq_some_iff] at h h'
    obtain ⟨l, hl, rfl⟩ := h
    obtain ⟨l', hl', rfl⟩ := h'
    rcases iter_cases hl with ⟨q, rfl⟩ | ⟨s1, rest, t, q, ht, hl2⟩
    · rcases iter_cases hl' with ⟨q', rfl⟩ | ⟨s', rest', t', q', -⟩
      · exact ⟨lp, rfl, hr, s⟩
      · rw [show (e.relog lp e.log.written).log.queue = e.log.queue from rfl, q] at q'; cases q'
    · rcases iter_cases hl' with ⟨q', rfl⟩ | ⟨s', rest', t', q', ht', hl2'⟩
      · rw [show (e.relog lp e.log.written).log.queue = e.log.queue from rfl, q] at q'; cases q'
      rw [show (e.relog lp e.log.written).log.queue = e.log.queue from rfl, q] at q'
      cases q'
      rw [ht] at ht'
      obtain rfl := Option.some.inj ht'
      have hT := st.logs s1 (by rw [q]; simp) t ht
      have hdue : (e.relog lp e.log.written).log.due t ↔ e.log.due t := by
        rcases s with rfl | ⟨-, h1, rfl⟩
        · exact Iff.rfl
        · unfold Logger.due
          rw [show (e.relog 0 e.log.written).log.rate = e.log.rate from rfl, show (e.relog 0 e.log.written).log.lastPub = 0 from rfl, h1, hr]
          constructor
          · exact fun q => ⟨q.1, hT.1⟩
          · exact fun q => ⟨q.1, by linarith [hT.2]⟩
      have hen : (e.relog lp e.log.written).log.enabled = e.log.enabled := rfl
      rw [hen, hdue] at hl2'
      rcases hl2 with ⟨hn, rfl⟩ | ⟨hy, r, hr1, -, rfl⟩
      · rcases hl2' with ⟨-, rfl⟩ | ⟨hy, -⟩
        · exact ⟨lp, rfl, hr, s⟩
        · exact absurd hy hn
      · rcases hl2' with ⟨hn, -⟩ | ⟨-, r', hr2, -, rfl⟩
        · exact absurd hy hn
        · obtain rfl := isRow_inj hr1 hr2
          exact ⟨t, rfl, hr, .inl rfl⟩
  · obtain ⟨k1, k2⟩ := rate_step h
    obtain ⟨k3, k4⟩ := k2 hev
    rw [step_relog lp e.log.written e ev hev, h] at h'
    refine ⟨lp, ?_, k1.trans hr, by rw [k3, k4]; exact s⟩
    rw [← Option.some.inj h', k4]

theorem rowSim_run {rate c : ℝ} (evs : List EstEv) : ∀ {e e' a a' : Estimator}, RowSim rate c e e' →
    StampInv (fun t => 1 / rate ≤ t - c ∧ 1 / rate ≤ t) e → (∀ ev ∈ evs, ∀ t, ev.stamp = some t → 1 / rate ≤ t - c ∧ 1 / rate ≤ t) →
    e.run evs = some a → e'.run evs = some a' → RowSim rate c a a' := by
  induction evs with
  | nil => intro e e' a a' s _ _ h h'; rw [← Option.some.inj h, ← Option.some.inj h']; exact s
  | cons ev evs ih =>
    intro e e' a a' s st ht h h'
    simp only [Estimator.run, Option.bind_eq_some_iff] at h h'
    obtain ⟨b, hb, h⟩ := h
    obtain ⟨b', hb', h'⟩ := h'
    exact ih (rowSim_step s st hb hb') (step_stamp st (ht ev (by simp)) hb) (fun x hx => ht x (by simp [hx])) h h'

end Drift
