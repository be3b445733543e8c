import Verif.Lemmas.Abs1
import Verif.Spec.Anchor

/-! # Lemmas: the position of a standing foot in the world through turns and histories (C163) -/
set_option linter.unusedSimpArgs false
namespace Drift
open Mat Matrix Finset RobotState ImuProp

theorem legCorrect_abs {sc enc kin : ℝ} {K : ℕ} {h h' : Heap} {s s' : RobotState} (g : Good K h s) {c c' : LegCorr}
    (hc : CorrOK s (.leg c)) (hi : LegIs sc enc kin c) {b : Bool} (e : c.correct h s = some (b, c', h', s')) {id a : ℕ} {σ : ℝ}
    (hst : ∀ m ∈ c.buffer, StandsOn id σ enc kin m) (ha : c.ids id = some a) (w : V3) :
    quad s'.P (spread (blkOf h' a) w) ≤ quad s.P (spread (blkOf h a) w) := by
  unfold LegCorr.correct at e
  split at e
  · obtain ⟨rfl, rfl, rfl, rfl⟩ := Option.some.inj e
    exact le_refl _
  · rename_i front rest hb
    simp only [Option.bind_eq_bind, Option.bind_eq_some_iff] at e
    obtain ⟨tp', -, e⟩ := e
    split at e
    · obtain ⟨rfl, rfl, rfl, rfl⟩ := Option.some.inj e
      exact le_refl _
    · rename_i m rest' hp
      simp only [Option.bind_eq_some_iff] at e
      obtain ⟨⟨ids', h1, s1⟩, e1, e⟩ := e
      obtain ⟨rfl, rfl, rfl, rfl⟩ := Option.some.inj e
      obtain ⟨pm1, -⟩ := popFresh_mem rest hp
      have hpar : c.kinStd ≠ 0 ∧ PSD (of3 c.contactNoise) := hc.param
      have hids : IdsOK s c.ids := hc.ids
      obtain ⟨K', ids2, h2, s2, k1, -, f2⟩ := legApply_abs g c hi.ty hids hpar.1 hpar.2 hi.noise m
      rw [e1] at k1
      obtain ⟨rfl, rfl, rfl⟩ := Option.some.inj k1
      obtain ⟨o, ho, hoc, -⟩ := hst m (by rw [hb]; rcases pm1 with rfl | h <;> simp [*])
      exact (f2 a (hids.mem id a ha) (by
          intro id' o' ho' hoc' hid'
          obtain rfl := hids.inj _ _ _ hid' ha
          rw [ho] at ho'
          obtain rfl := Option.some.inj ho'
          rw [hoc] at hoc'; cases hoc')).2 w

/-- the variance of the position of the foot of reference `a` in the world -/
noncomputable def footAbs (e : Estimator) (a : ℕ) (w : V3) : ℝ := quad e.state.P (spread (blkOf e.heap a) w)

/-- one turn of the main loop -/
theorem tick_abs {sg sa sc enc kin σ : ℝ} {id : ℕ} {fut : List ImuMeas} {e e' : Estimator} (i : StandInv sg sa sc enc kin fut e)
    (hen : e.enabled = true) (hst : ∀ c, Corr.leg c ∈ e.corrs → ∀ m ∈ c.buffer, StandsOn id σ enc kin m) (h : e.step .tick = some e')
    {a : ℕ} {D : ℝ} (hta : TracksLeg id a e) (hD : FootLe id D e) :
    ∃ tp tp', e.state.tProp = some tp ∧ e'.state.tProp = some tp' ∧
      ∀ w : V3, footAbs e' a w ≤ footAbs e a w + (tp' - tp) * ((sg ^ 2 * D ^ 2 + sc ^ 2) * nsq w) := by
  obtain ⟨K, g⟩ := i.inv.good
  obtain ⟨hpend, tp, m, htp, hm, hle, -⟩ := i.inv.run hen
  have h : e.tick = some e' := h
  unfold Estimator.tick at h
  rw [hpend, hen] at h
  have h : e.runOnce = some e' := h
  obtain ⟨b, p, s1, b', c, c', h', s2, e1, hc, hi, e4, e5, e6, e7, e8, hq⟩ := runOnce_leg i.inv i.leg hen h
  obtain ⟨b0, p', s1', e1', g1, q1, q2⟩ := prop_good g i.inv.noise hm htp hle
  rw [e1] at e1'
  obtain ⟨rfl, rfl, rfl⟩ := Option.some.inj e1'
  obtain ⟨c1, hc1, ha⟩ := hta
  have hcc : c1 = c := by rw [hc] at hc1; simpa using hc1.symm
  rw [hcc] at hc1 ha
  have hok := i.inv.corrs.each (.leg c) (by rw [hc]; simp)
  have hmem : some a ∈ e.state.colMap := hok.ids.mem id a ha
  obtain ⟨t1, t2, t3, t4⟩ := g.blkOf hmem
  have hs1 : s1.colMap = e.state.colMap ∧ ∃ tp', s1.tProp = some tp' ∧ 
      ∀ w : V3, quad s1.P (spread (blkOf e.heap a) w) ≤ footAbs e a w + (tp' - tp) * ((sg ^ 2 * D ^ 2 + sc ^ 2) * nsq w) := by
    obtain ⟨bu, hb⟩ : ∃ bu, e.prop.buffer = bu := ⟨_, rfl⟩
    cases bu with
    | nil =>
      obtain ⟨-, -, rfl⟩ := q1 hb
      refine ⟨rfl, tp, htp, fun w => ?_⟩
      rw [sub_self, zero_mul, add_zero]
      exact le_refl _
    | cons f rest =>
      obtain ⟨-, -, -, h2, h3⟩ := q2 f rest hb
      refine ⟨h3, m.time, h2, fun w => ?_⟩
      have x1 := g.shape.x.rows; have x2 := g.shape.x.cols; have hK := g.shape.k
      have hD' : norm3 (e.state.X.blkV 0 (blkOf e.heap a + 2)) ≤ D := by
        refine hD c a _ (by rw [hc]; simp) ha ?_
        obtain ⟨j, j1, j2, -, j4, -⟩ := g.col hmem
        have : j = blkOf e.heap a + 2 := by rw [← t3, j4]; simp
        rw [j4, get_vector_eq g j2, this]
      exact prop_abs g i.ty i.en i.g i.leg.qc t1 t2 hD' hb hm htp hle e1 w
  obtain ⟨hcm, tp', htp', hst1⟩ := hs1
  have hok1 : CorrOK s1 (.leg c) := hok.keep (by rw [hcm]; exact hok.ids.mem)
  have k5 := fun w => legCorrect_abs g1 hok1 hi e4 (hst c (by rw [hc]; simp)) ha w
  have htp2 : s2.tProp = s1.tProp := by
    obtain ⟨b3, c3, h3, s3, K3, r1, -, r3⟩ := corr_correct g1 hok1 htp'
    simp only [Corr.correct, e4, Option.map_some] at r1
    obtain ⟨-, -, -, rfl⟩ := Option.some.inj r1
    exact r3.tp
  refine ⟨tp, tp', htp, by rw [e7, htp2, htp'], fun w => ?_⟩
  unfold footAbs at *
  rw [e6, e7]
  exact le_trans (k5 w) (hst1 w)

/-- a history without `clear` -/
theorem run_abs {sg sa sc enc kin σ D : ℝ} {id a : ℕ} (evs : List EstEv) : ∀ {fut : List ImuMeas} {e e' : Estimator},
    StandInv sg sa sc enc kin (imuArrivals evs ++ fut) e → e.enabled = true → NoClear evs → FootBound id D e evs →
    Standing id σ enc kin e evs → TracksLeg id a e → e.run evs = some e' →
    e'.enabled = true ∧ (∀ c, Corr.leg c ∈ e'.corrs → ∀ m ∈ c.buffer, StandsOn id σ enc kin m) ∧ TracksLeg id a e' ∧
    ∃ tp tp', e.state.tProp = some tp ∧ e'.state.tProp = some tp' ∧ tp ≤ tp' ∧
      ∀ w : V3, footAbs e' a w ≤ footAbs e a w + (tp' - tp) * ((sg ^ 2 * D ^ 2 + sc ^ 2) * nsq w) := by
  induction evs with
  | nil =>
    intro fut e e' i hen hn hr hst hta h
    obtain rfl := Option.some.inj h
    obtain ⟨-, tp, m, htp, -⟩ := i.inv.run hen
    exact ⟨hen, hst.1, hta, tp, tp, htp, htp, le_refl _, fun w => by simp⟩
  | cons ev evs ih =>
    intro fut e e' i hen hn hr hst hta h
    simp only [Estimator.run, Option.bind_eq_some_iff] at h
    obtain ⟨e1, h1, h2⟩ := h
    rw [imuArrivals_cons, List.append_assoc] at i
    have i1 := i.step h1
    have hr1 : FootBound id D e1 evs := by
      intro pre e2 hp hrr
      refine hr (ev :: pre) e2 ?_ ?_
      · obtain ⟨t, ht⟩ := hp
        exact ⟨t, by simp [ht]⟩
      · simp [Estimator.run, h1, hrr]
    have hr0 : FootLe id D e := hr [] e (List.nil_prefix) rfl
    have hn1 : NoClear evs := fun hh => hn (by simp [hh])
    have st : e1.enabled = true ∧ (∀ c, Corr.leg c ∈ e1.corrs → ∀ m ∈ c.buffer, StandsOn id σ enc kin m) ∧ TracksLeg id a e1 ∧
        ∃ tp tp1, e.state.tProp = some tp ∧ e1.state.tProp = some tp1 ∧ tp ≤ tp1 ∧
          ∀ w : V3, footAbs e1 a w ≤ footAbs e a w + (tp1 - tp) * ((sg ^ 2 * D ^ 2 + sc ^ 2) * nsq w) := by
      obtain ⟨-, tp, m, htp, -⟩ := i.inv.run hen
      obtain ⟨c, hc, ha⟩ := hta
      have same : e1.enabled = true → e1.state = e.state → e1.heap = e.heap →
          (∃ c', e1.corrs = [.leg c'] ∧ c'.ids id = some a ∧ ∀ m ∈ c'.buffer, StandsOn id σ enc kin m) →
          e1.enabled = true ∧ (∀ c, Corr.leg c ∈ e1.corrs → ∀ m ∈ c.buffer, StandsOn id σ enc kin m) ∧ TracksLeg id a e1 ∧
          ∃ tp tp1, e.state.tProp = some tp ∧ e1.state.tProp = some tp1 ∧ tp ≤ tp1 ∧
          ∀ w : V3, footAbs e1 a w ≤ footAbs e a w + (tp1 - tp) * ((sg ^ 2 * D ^ 2 + sc ^ 2) * nsq w) := by
        rintro q1 q2 q3 ⟨c', q4, q5, q6⟩
        refine ⟨q1, fun d hd m hm => ?_, ⟨c', q4, q5⟩, tp, tp, htp, by rw [q2, htp], le_refl _, fun w => ?_⟩
        · rw [q4] at hd
          have : d = c' := by simpa using hd
          subst this
          exact q6 m hm
        · unfold footAbs
          rw [q2, q3]; simp
      have hbuf : ∀ m ∈ c.buffer, StandsOn id σ enc kin m := hst.1 c (by rw [hc]; simp)
      cases ev with
      | imu m => rw [← Option.some.inj h1] at same ⊢; exact same hen rfl rfl ⟨c, hc, ha, hbuf⟩
      | vel k m =>
        rw [← Option.some.inj h1] at same ⊢
        refine same hen rfl rfl ⟨c, ?_, ha, hbuf⟩
        show e.corrs.modify k _ = _
        rw [hc]
        cases k <;> simp [Corr.pushVel]
      | leg k m =>
        rw [← Option.some.inj h1] at same ⊢
        cases k with
        | zero =>
          refine same hen rfl rfl ⟨{ c with buffer := c.buffer ++ [m] }, ?_, ha, fun x hx => ?_⟩
          · show e.corrs.modify 0 _ = _
            rw [hc]; rfl
          · have hx : x ∈ c.buffer ++ [m] := hx
            rcases List.mem_append.mp hx with hx | hx
            · exact hbuf x hx
            · rw [List.mem_singleton] at hx
              subst hx
              exact hst.2 0 x (by simp)
        | succ k =>
          refine same hen rfl rfl ⟨c, ?_, ha, hbuf⟩
          show e.corrs.modify (k + 1) _ = _
          rw [hc]; simp
      | clear => exact absurd (by simp) hn
      | log =>
        have h1 : e.log.iter.map _ = some e1 := h1
        simp only [Option.map_eq_some_iff] at h1
        obtain ⟨l, -, hl⟩ := h1
        rw [← hl] at same ⊢
        exact same hen rfl rfl ⟨c, hc, ha, hbuf⟩
      | consume => rw [← Option.some.inj h1] at same ⊢; exact same hen rfl rfl ⟨c, hc, ha, hbuf⟩
      | tick =>
        have i' : StandInv sg sa sc enc kin (imuArrivals evs ++ fut) e := by simpa [imuArrivals] using i
        obtain ⟨q1, q2, tp0, tp1, q3, q4, q5, q6, -⟩ := tick_foot (id := id) (σ := σ) i' hen hst.1 h1
        have q7 : TracksLeg id a e1 := by
          obtain ⟨K, gd⟩ := i'.inv.good
          have x1 := gd.shape.x.rows; have x2 := gd.shape.x.cols; have hK := gd.shape.k
          refine (q6 a (norm3 (e.state.X.blkV 0 3)) (norm3 (e.state.X.blkV 0 4 - e.state.X.blkV 0 (blkOf e.heap a + 2))) ⟨c, hc, ha⟩
            ⟨_, blkV?_eq (by omega) (by omega), le_refl _⟩ ?_).1
          intro c2 a2 p2 d2 hc2 ha2 hp2 hd2
          have hcc : c2 = c := by rw [hc] at hc2; simpa using hc2
          rw [hcc, ha] at ha2
          obtain rfl := Option.some.inj ha2
          have hok := i'.inv.corrs.each (.leg c) (by rw [hc]; simp)
          have hmem : some a ∈ e.state.colMap := hok.ids.mem id a ha
          obtain ⟨j, j1, j2, -, j4, -⟩ := gd.col hmem
          obtain ⟨-, -, t3, -⟩ := gd.blkOf hmem
          have hj : j = blkOf e.heap a + 2 := by rw [← t3, j4]; simp
          rw [j4, get_vector_eq gd j2, hj] at hd2
          have hp3 : e.state.get_position = some (e.state.X.blkV 0 4) := blkV?_eq (by omega) (by omega)
          rw [hp3] at hp2
          rw [← Option.some.inj hd2, ← Option.some.inj hp2]
        obtain ⟨tpa, tpb, r1, r2, r3⟩ := tick_abs i' hen hst.1 h1 ⟨c, hc, ha⟩ hr0
        rw [q3] at r1; rw [q4] at r2
        obtain rfl := Option.some.inj r1
        obtain rfl := Option.some.inj r2
        exact ⟨q1, q2, q7, _, _, q3, q4, q5, r3⟩
    obtain ⟨hen1, hq1, hta1, tp, tp1, htp, htp1, hle, hst1⟩ := st
    obtain ⟨hen', hq', hta', tp1', tp', htp1', htp', hle', hrr⟩ := ih i1 hen1 hn1 hr1 ⟨hq1, fun k m hm => hst.2 k m (by simp [hm])⟩ hta1 h2
    rw [htp1] at htp1'
    obtain rfl := Option.some.inj htp1'
    refine ⟨hen', hq', hta', tp, tp', htp, htp', le_trans hle hle', fun w => ?_⟩
    have k1 := hrr w
    have k2 := hst1 w
    have : (tp' - tp) * ((sg ^ 2 * D ^ 2 + sc ^ 2) * nsq w) =
      (tp1 - tp) * ((sg ^ 2 * D ^ 2 + sc ^ 2) * nsq w) + (tp' - tp1) * ((sg ^ 2 * D ^ 2 + sc ^ 2) * nsq w) := by ring
    linarith

end Drift
