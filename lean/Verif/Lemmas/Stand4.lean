import Verif.Lemmas.Stand3
import Verif.Spec.Stand
import Verif.Lemmas.Clock3

/-! # Lemmas: an estimator whose only correction is the legged kinematics (C160) -/
set_option linter.unusedSimpArgs false
namespace Drift
open Mat Matrix Finset RobotState ImuProp

/-- the configuration of the correction -/
structure LegIs (sc enc kin : ℝ) (c : LegCorr) : Prop where
  ty : c.errorType = .rightInvariant
  enc : c.encStd = enc
  kin : c.kinStd = kin
  noise : c.contactNoise = sc ^ 2 • (1 : M3)

theorem footL_zero (q : ℕ) (x y : V3) : footL q x y 0 = lin x y := by
  funext i
  have : ∀ k, spread k (0 : V3) i = 0 := fun k => by
    rw [at3_e (spread k 0) i, spread_at3]; split_ifs <;> rfl
  simp [footL, lin, this]

theorem legCorrect_foot {sc enc kin : ℝ} {K : ℕ} {h h' : Heap} {s s' : RobotState} (g : Good K h s) (hl : QcLe (sc ^ 2) s.Qc) {c c' : LegCorr}
    (hc : CorrOK s (.leg c)) (hi : LegIs sc enc kin c) {tp : ℝ} (ht : s.tProp = some tp) {b : Bool} (e : c.correct h s = some (b, c', h', s')) :
    LegIs sc enc kin c' ∧ QcLe (sc ^ 2) s'.Qc ∧ (∀ m ∈ c'.buffer, m ∈ c.buffer) ∧
    ∀ (id : ℕ) (σ : ℝ), (∀ m ∈ c.buffer, StandsOn id σ enc kin m) →
      (∀ a, c.ids id = some a → c'.ids id = some a ∧ ∀ x y w : V3,
        quad s'.P (footL (blkOf h' a) x y w) ≤ quad s.P (footL (blkOf h a) x y w) ∧
        (b = true → ∀ z : V3, quad s'.P (footL (blkOf h' a) x y w) ≤ quad s.P (footL (blkOf h a) x y (w + z)) + σ ^ 2 * nsq z)) ∧
      (b = true → ∃ a, c'.ids id = some a ∧ ∀ x y w : V3, quad s'.P (footL (blkOf h' a) x y w) ≤ quad s.P (lin x y) + σ ^ 2 * nsq w) := by
  unfold LegCorr.correct at e
  split at e
  · obtain ⟨rfl, rfl, rfl, rfl⟩ := Option.some.inj e
    exact ⟨hi, hl, fun _ hm => hm, fun id σ _ => ⟨fun a ha => ⟨ha, fun x y w => ⟨le_refl _, by simp⟩⟩, by simp⟩⟩
  · rename_i front rest hb
    simp only [Option.bind_eq_bind, Option.bind_eq_some_iff] at e
    obtain ⟨tp', -, e⟩ := e
    split at e
    · obtain ⟨rfl, rfl, rfl, rfl⟩ := Option.some.inj e
      exact ⟨⟨hi.ty, hi.enc, hi.kin, hi.noise⟩, hl, by simp, fun id σ _ => ⟨fun a ha => ⟨ha, fun x y w => ⟨le_refl _, by simp⟩⟩, by simp⟩⟩
    · rename_i m rest' hp
      simp only [Option.bind_eq_some_iff] at e
      obtain ⟨⟨ids', h1, s1⟩, e1, e⟩ := e
      obtain ⟨rfl, rfl, rfl, rfl⟩ := Option.some.inj e
      obtain ⟨pm1, pm2⟩ := popFresh_mem rest hp
      have hpar : c.kinStd ≠ 0 ∧ PSD (of3 c.contactNoise) := hc.param
      have hids : IdsOK s c.ids := hc.ids
      obtain ⟨K', ids2, h2, s2, k1, g2, l2, f2, w2⟩ := legApply_foot (le_refl _) g hl c hi.ty hids hpar.1 hpar.2 hi.noise m
      rw [e1] at k1
      obtain ⟨rfl, rfl, rfl⟩ := Option.some.inj k1
      obtain ⟨K3, s3, ids3, h3, s4, k3, -, ls⟩ := legApply_spec g c hids hpar.1 hpar.2 m
      rw [e1] at k3
      obtain ⟨rfl, rfl, rfl⟩ := Option.some.inj k3
      refine ⟨⟨hi.ty, hi.enc, hi.kin, hi.noise⟩, l2, fun x hx => by rw [hb]; exact List.mem_cons_of_mem _ (pm2 x hx), fun id σ hst => ?_⟩
      obtain ⟨o, ho, hoc, hσ⟩ := hst m (by rw [hb]; rcases pm1 with rfl | h <;> simp [*])
      have hσ' : ∀ u : V3, u ⬝ᵥ (footCovSpec c.encStd c.kinStd o).mulVec u ≤ σ ^ 2 * (u ⬝ᵥ u) := by rw [hi.enc, hi.kin]; exact hσ
      have tr : ∀ a, c.ids id = some a → ids' id = some a ∧ ∀ x y w : V3,
        quad s1.P (footL (blkOf h1 a) x y w) ≤ quad s.P (footL (blkOf h a) x y w) ∧
        ∀ z : V3, quad s1.P (footL (blkOf h1 a) x y w) ≤ quad s.P (footL (blkOf h a) x y (w + z)) + σ ^ 2 * nsq z := by
        intro a ha
        obtain ⟨-, q⟩ := f2 a (hids.mem id a ha) (by
          intro id' o' ho' hoc' hid'
          obtain rfl := hids.inj _ _ _ hid' ha
          rw [ho] at ho'
          obtain rfl := Option.some.inj ho'
          rw [hoc] at hoc'; cases hoc')
        exact ⟨ls.stay id o a ho hoc ha, fun x y w => ⟨(q x y w).1, (q x y w).2 id o ho hoc ha σ hσ'⟩⟩
      refine ⟨fun a ha => ⟨(tr a ha).1, fun x y w => ⟨((tr a ha).2 x y w).1, fun _ => ((tr a ha).2 x y w).2⟩⟩, fun _ => ?_⟩
      cases hid : c.ids id with
      | none =>
        obtain ⟨a, q1, -, q3⟩ := w2 id o ho hoc hid
        exact ⟨a, q1, q3 σ hσ'⟩
      | some a =>
        refine ⟨a, (tr a hid).1, fun x y w => ?_⟩
        have := ((tr a hid).2 x y w).2 (-w)
        rw [add_neg_cancel, footL_zero] at this
        have hn : nsq (-w) = nsq w := by simp [nsq]
        rw [hn] at this
        exact this

/-! ### the configuration through a history -/

/-- the only correction is the legged kinematics, and the noise of the contacts is the configured one -/
structure LegOnly (sc enc kin : ℝ) (e : Estimator) : Prop where
  corr : ∃ c, e.corrs = [.leg c] ∧ LegIs sc enc kin c
  qc : QcLe (sc ^ 2) e.state.Qc

theorem qcLe_zero {c2 : ℝ} (h : 0 ≤ c2) (n : ℕ) : QcLe c2 (zero n n) := ⟨fun _ _ _ => by simp, fun _ _ => by simp, fun _ => by simpa using h⟩

theorem prop_qc {K : ℕ} {h : Heap} {s s' : RobotState} (g : Good K h s) {p p' : ImuProp} {m : ImuMeas} {tp : ℝ}
    (hm : p.prev = some m) (ht : s.tProp = some tp) {b : Bool} (e : p.propagate s = some (b, p', s')) : s'.Qc = s.Qc := by
  obtain ⟨bu, hb⟩ : ∃ bu, p.buffer = bu := ⟨_, rfl⟩
  cases bu with
  | nil =>
    rw [C36_empty p s hb] at e
    obtain ⟨-, -, rfl⟩ := Option.some.inj e
    rfl
  | cons f rest =>
    have hsq := g.q.psd.sq
    have hr : PropReady K p s m f rest tp := ⟨g.shape, g.world, g.q.r, by rw [← hsq]; exact g.q.r, hb, hm, ht⟩
    obtain ⟨X, P, e'⟩ := C36_step hr
    rw [e] at e'
    obtain ⟨-, -, rfl⟩ := Option.some.inj e'
    rfl

theorem setInitial_leg {sc enc kin : ℝ} {c c' : LegCorr} {s s' : RobotState} {b : Bool} (hi : LegIs sc enc kin c) (e : c.setInitial s = some (b, c', s')) :
    LegIs sc enc kin c' ∧ s'.Qc = s.Qc := by
  unfold LegCorr.setInitial at e
  split at e
  · obtain ⟨-, rfl, rfl⟩ := Option.some.inj e; exact ⟨hi, rfl⟩
  · simp only [Option.bind_eq_bind, Option.bind_eq_some_iff] at e
    obtain ⟨w, -, R, -, s1, e1, e⟩ := e
    obtain ⟨-, rfl, rfl⟩ := Option.some.inj e
    unfold set_velocity at e1
    simp only [Option.map_eq_some_iff] at e1
    obtain ⟨X, -, rfl⟩ := e1
    exact ⟨⟨hi.ty, hi.enc, hi.kin, hi.noise⟩, rfl⟩

theorem finishInit_qc {e e' : Estimator} (h : e.finishInit = some e') : e'.corrs = e.corrs ∧ e'.state.Qc = e.state.Qc := by
  simp only [Estimator.finishInit, Option.bind_eq_bind, Option.bind_eq_some_iff, set_rotation_covariance, set_velocity_covariance, set_position_covariance,
    Option.map_eq_some_iff] at h
  obtain ⟨_, ⟨P1, -, rfl⟩, _, ⟨P2, -, rfl⟩, _, ⟨P3, -, rfl⟩, h⟩ := h
  rw [← Option.some.inj h]
  exact ⟨rfl, rfl⟩

theorem initFrom_leg {sc enc kin : ℝ} {e e' : Estimator} {k : ℕ} (l : LegOnly sc enc kin e) (h : e.initFrom k = some e') : LegOnly sc enc kin e' := by
  obtain ⟨c, hc, hi⟩ := l.corr
  have fin : ∀ (c' : LegCorr) (s' : RobotState), LegIs sc enc kin c' → s'.Qc = e.state.Qc →
      Estimator.finishInit { e with corrs := [.leg c'] ++ [], state := s' } = some e' → LegOnly sc enc kin e' := by
    intro c' s' hi' hq hf
    obtain ⟨f1, f2⟩ := finishInit_qc hf
    exact ⟨⟨c', f1, hi'⟩, by rw [f2]; show QcLe _ s'.Qc; rw [hq]; exact l.qc⟩
  unfold Estimator.initFrom at h
  rw [hc] at h
  cases k with
  | zero =>
    simp only [List.take_zero, List.drop_zero, Estimator.initCorrs, Corr.setInitial, Option.bind_eq_bind, Option.bind_eq_some_iff, Option.map_eq_some_iff] at h
    obtain ⟨⟨d, t, s⟩, ⟨⟨b, c1, s1⟩, ⟨⟨b', c2, s2⟩, e1, e2⟩, e3⟩, h⟩ := h
    obtain ⟨rfl, rfl, rfl⟩ := e2
    obtain ⟨hi', hq⟩ := setInitial_leg hi e1
    simp only at e3
    split_ifs at e3
    · obtain ⟨rfl, rfl, rfl⟩ := Option.some.inj e3
      exact fin c2 _ hi' hq h
    · obtain ⟨rfl, rfl, rfl⟩ := Option.some.inj e3
      rw [← Option.some.inj h]
      exact ⟨⟨c2, rfl, hi'⟩, by show QcLe _ _; rw [hq]; exact l.qc⟩
  | succ k =>
    simp only [List.take_succ_cons, List.take_nil, List.drop_succ_cons, List.drop_nil, Estimator.initCorrs, Option.bind_eq_bind, Option.bind_some] at h
    exact fin c _ hi rfl h

theorem setInitialState_qc {p p' : ImuProp} {s s' : RobotState} {b : Bool} (e : p.setInitialState s = some (b, p', s')) : s'.Qc = s.Qc := by
  unfold ImuProp.setInitialState at e
  split at e
  · obtain ⟨-, -, rfl⟩ := Option.some.inj e; rfl
  · simp only [Option.bind_eq_bind, Option.bind_eq_some_iff, set_rotation, set_position, set_gyroscope_bias, set_accelerometer_bias,
      set_gyroscope_bias_covariance, set_accelerometer_bias_covariance, Option.map_eq_some_iff] at e
    obtain ⟨_, ⟨_, -, rfl⟩, _, ⟨_, -, rfl⟩, _, ⟨_, -, rfl⟩, _, ⟨_, -, rfl⟩, _, ⟨_, -, rfl⟩, _, ⟨_, -, rfl⟩, e⟩ := e
    obtain ⟨-, -, rfl⟩ := Option.some.inj e
    rfl

/-- one turn, with what it does to the covariance -/
theorem runOnce_leg {sc enc kin : ℝ} {fut : List ImuMeas} {e e' : Estimator} (i : EstInv fut e) (l : LegOnly sc enc kin e) (hen : e.enabled = true)
    (h : e.runOnce = some e') : ∃ b p s1 b' c c' h' s2, e.prop.propagate e.state = some (b, p, s1) ∧ e.corrs = [.leg c] ∧ LegIs sc enc kin c ∧
      c.correct e.heap s1 = some (b', c', h', s2) ∧ e'.corrs = [.leg c'] ∧ e'.heap = h' ∧ e'.state = s2 ∧ e'.enabled = true ∧ s1.Qc = e.state.Qc := by
  obtain ⟨c, hc, hi⟩ := l.corr
  obtain ⟨K, g⟩ := i.good
  obtain ⟨-, tp, m, htp, hm, -, -⟩ := i.run hen
  unfold Estimator.runOnce at h
  rw [hc] at h
  simp only [Estimator.correctAll, Corr.correct, Option.bind_eq_bind, Option.bind_eq_some_iff, Option.map_eq_some_iff] at h
  obtain ⟨⟨b, p, s1⟩, e1, ⟨b2, cs, hh, s2⟩, ⟨⟨b3, c3, h3, s3⟩, ⟨⟨b4, c4, h4, s4⟩, e4, e5⟩, ⟨b6, cs6, h6, s6⟩, e6, e7⟩, h⟩ := h
  obtain ⟨rfl, rfl, rfl, rfl⟩ := e5
  obtain ⟨rfl, rfl, rfl, rfl⟩ := Option.some.inj e6
  obtain ⟨rfl, rfl, rfl, rfl⟩ := Option.some.inj e7
  refine ⟨b, p, s1, b4, c, c4, h4, s4, e1, hc, hi, e4, ?_⟩
  have hq := prop_qc g hm htp e1
  simp only at h
  split_ifs at h
  · rw [← Option.some.inj h]; exact ⟨rfl, rfl, rfl, hen, hq⟩
  · rw [← Option.some.inj h]; exact ⟨rfl, rfl, rfl, hen, hq⟩

theorem LegOnly.step {sc enc kin : ℝ} {fut : List ImuMeas} {e e' : Estimator} {ev : EstEv} (i : EstInv (imuArrivals [ev] ++ fut) e)
    (l : LegOnly sc enc kin e) (h : e.step ev = some e') : LegOnly sc enc kin e' := by
  obtain ⟨c, hc, hi⟩ := l.corr
  cases ev with
  | imu m => rw [← Option.some.inj h]; exact ⟨l.corr, l.qc⟩
  | vel k m =>
    rw [← Option.some.inj h]
    refine ⟨⟨c, ?_, hi⟩, l.qc⟩
    show e.corrs.modify k _ = _
    rw [hc]
    cases k <;> simp [Corr.pushVel]
  | leg k m =>
    rw [← Option.some.inj h]
    cases k with
    | zero =>
      refine ⟨⟨{ c with buffer := c.buffer ++ [m] }, ?_, ⟨hi.ty, hi.enc, hi.kin, hi.noise⟩⟩, l.qc⟩
      show e.corrs.modify 0 _ = _
      rw [hc]; rfl
    | succ k =>
      refine ⟨⟨c, ?_, hi⟩, l.qc⟩
      show e.corrs.modify (k + 1) _ = _
      rw [hc]; simp
  | clear =>
    have h : (match e.pending with | none => some e.clear | some _ => some e) = some e' := h
    split at h
    · rw [← Option.some.inj h]
      refine ⟨⟨c.clear, ?_, ⟨hi.ty, hi.enc, hi.kin, hi.noise⟩⟩, qcLe_zero (sq_nonneg _) 15⟩
      show e.corrs.map Corr.clear = _
      rw [hc]; rfl
    · rw [← Option.some.inj h]; exact l
  | log =>
    have h : e.log.iter.map _ = some e' := h
    simp only [Option.map_eq_some_iff] at h
    obtain ⟨a, -, rfl⟩ := h
    exact ⟨l.corr, l.qc⟩
  | consume => rw [← Option.some.inj h]; exact ⟨l.corr, l.qc⟩
  | tick =>
    have i : EstInv fut e := i
    have h : e.tick = some e' := h
    unfold Estimator.tick at h
    split at h
    · exact initFrom_leg l h
    · cases hen : e.enabled with
      | true =>
        rw [hen, if_pos rfl] at h
        obtain ⟨K, g⟩ := i.good
        obtain ⟨-, tp, m, htp, hm, hle, -⟩ := i.run hen
        obtain ⟨b, p, s1, b', c, c', h', s2, e1, hc, hi, e4, e5, e6, e7, -, hq⟩ := runOnce_leg i l hen h
        obtain ⟨b0, p', s1', e1', g1, q1, q2⟩ := prop_good g i.noise hm htp hle
        rw [e1] at e1'
        obtain ⟨rfl, rfl, rfl⟩ := Option.some.inj e1'
        have hs1 : s1.colMap = e.state.colMap ∧ ∃ tp', s1.tProp = some tp' := by
          obtain ⟨bu, hb⟩ : ∃ bu, e.prop.buffer = bu := ⟨_, rfl⟩
          cases bu with
          | nil => obtain ⟨-, -, rfl⟩ := q1 hb; exact ⟨rfl, tp, htp⟩
          | cons f rest => obtain ⟨-, -, -, h2, h3⟩ := q2 f rest hb; exact ⟨h3, _, h2⟩
        obtain ⟨hcm, tp', htp'⟩ := hs1
        have hok := i.corrs.each (.leg c) (by rw [hc]; simp)
        obtain ⟨k1, k2, -⟩ := legCorrect_foot g1 (by rw [hq]; exact l.qc) (hok.keep (by rw [hcm]; exact hok.ids.mem)) hi htp' e4
        exact ⟨⟨c', e5, k1⟩, by rw [e7]; exact k2⟩
      | false =>
        rw [hen, if_neg (by simp)] at h
        split at h
        · unfold Estimator.initState at h
          simp only [Option.bind_eq_bind, Option.bind_eq_some_iff] at h
          obtain ⟨⟨b, p, s⟩, e1, h⟩ := h
          have hq := setInitialState_qc e1
          have l' : LegOnly sc enc kin { e with prop := p, state := s } := ⟨l.corr, by show QcLe _ s.Qc; rw [hq]; exact l.qc⟩
          simp only at h
          split at h
          · exact initFrom_leg l' h
          · rw [← Option.some.inj h]; exact l'
        · unfold Estimator.initBias at h
          simp only [Option.map_eq_some_iff] at h
          obtain ⟨q, hq, rfl⟩ := h
          exact ⟨l.corr, l.qc⟩

end Drift
