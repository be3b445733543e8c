import Verif.Lemmas.Stand4
import Verif.Props.Tilt

/-! # Lemmas: turns and histories of an estimator with a foot that stays (C160) -/
set_option linter.unusedSimpArgs false
namespace Drift
open Mat Matrix Finset RobotState ImuProp

/-- the variance of a function of rotation, velocity and the position relative to the foot of reference `a` -/
noncomputable def footVar (e : Estimator) (a : ℕ) (x y w : V3) : ℝ := quad e.state.P (footL (blkOf e.heap a) x y w)

/-- what a function of rotation, velocity and relative position read of the rotation a time `τ` before -/
noncomputable def back (τ : ℝ) (x y w : V3) : V3 := x + τ • (skew gravity)ᵀ.mulVec y + (τ ^ 2 / 2) • (skew gravity)ᵀ.mulVec w

theorem back_add (σ τ : ℝ) (x y w : V3) : back τ (back σ x y w) (y + σ • w) w = back (σ + τ) x y w := by
  unfold back
  rw [mulVec_add, mulVec_smul]
  funext j
  simp only [Pi.add_apply, Pi.smul_apply, smul_eq_mul]
  ring

theorem back_zero (x y w : V3) : back 0 x y w = x := by unfold back; simp

theorem footRate_mono {sg sa sc V D A A' B B' C : ℝ} (hA : 0 ≤ A) (hV : 0 ≤ V) (hD : 0 ≤ D) (hB : 0 ≤ B) (hC : 0 ≤ C) (h : A ≤ A') (h' : B ≤ B') :
    footRate sg sa sc V D A B C ≤ footRate sg sa sc V D A' B' C := by
  unfold footRate
  refine add_le_add (add_le_add (mul_le_mul_of_nonneg_left ?_ (sq_nonneg _)) (mul_le_mul_of_nonneg_left ?_ (sq_nonneg _))) le_rfl
  · exact pow_le_pow_left₀ (by positivity) (by have := mul_le_mul_of_nonneg_left h' hV; linarith) 2
  · exact pow_le_pow_left₀ hB h' 2

/-- the invariants of a history together -/
structure StandInv (sg sa sc enc kin : ℝ) (fut : List ImuMeas) (e : Estimator) : Prop where
  inv : EstInv fut e
  ginv : ∃ rc pc, GInv rc pc e
  ty : e.prop.errorType = .rightInvariant
  en : e.prop.enableBias = false
  g : e.prop.gyroCov = sg ^ 2 • (1 : M3)
  a : e.prop.accelCov = sa ^ 2 • (1 : M3)
  leg : LegOnly sc enc kin e

theorem StandInv.step {sg sa sc enc kin : ℝ} {fut : List ImuMeas} {e e' : Estimator} {ev : EstEv} (i : StandInv sg sa sc enc kin (imuArrivals [ev] ++ fut) e)
    (h : e.step ev = some e') : StandInv sg sa sc enc kin fut e' := by
  obtain ⟨e2, h2, inv⟩ := step_inv ev i.inv
  rw [h] at h2
  obtain rfl := Option.some.inj h2
  obtain ⟨rc, pc, l⟩ := i.ginv
  have l' := step_ginv i.inv l h
  have n := noise_step h
  exact ⟨inv, ⟨rc, pc, l'⟩, l'.prop, by rw [n.en]; exact i.en, by rw [n.g]; exact i.g, by rw [n.a]; exact i.a, i.leg.step i.inv h⟩

theorem run_standInv {sg sa sc enc kin : ℝ} (evs : List EstEv) : ∀ {fut : List ImuMeas} {e e' : Estimator},
    StandInv sg sa sc enc kin (imuArrivals evs ++ fut) e → e.run evs = some e' → StandInv sg sa sc enc kin fut e' := by
  induction evs with
  | nil => intro fut e e' i h; cases h; exact i
  | cons ev evs ih =>
    intro fut e e' i h
    simp only [Estimator.run, Option.bind_eq_some_iff] at h
    obtain ⟨e1, h1, h2⟩ := h
    rw [imuArrivals_cons, List.append_assoc] at i
    exact ih (i.step h1) h2

/-- leg `id` is tracked under reference `a` -/
def TracksLeg (id a : ℕ) (e : Estimator) : Prop := ∃ c, e.corrs = [.leg c] ∧ c.ids id = some a

/-- one turn of the main loop -/
theorem tick_foot {sg sa sc enc kin σ : ℝ} {id : ℕ} {fut : List ImuMeas} {e e' : Estimator} (i : StandInv sg sa sc enc kin fut e)
    (hen : e.enabled = true) (hst : ∀ c, Corr.leg c ∈ e.corrs → ∀ m ∈ c.buffer, StandsOn id σ enc kin m) (h : e.step .tick = some e') :
    e'.enabled = true ∧ (∀ c, Corr.leg c ∈ e'.corrs → ∀ m ∈ c.buffer, StandsOn id σ enc kin m) ∧
    ∃ tp tp', e.state.tProp = some tp ∧ e'.state.tProp = some tp' ∧ tp ≤ tp' ∧
      (∀ a V D, TracksLeg id a e → SpeedLe V e.state → ReachLe id D e → TracksLeg id a e' ∧ ∀ x y w : V3,
        footVar e' a x y w ≤ footVar e a (back (tp' - tp) x y w) (y + (tp' - tp) • w) w +
          (tp' - tp) * footRate sg sa sc V D (norm3 (back (tp' - tp) x y w)) (norm3 (y + (tp' - tp) • w)) (norm3 w) ∧
        (Measures e → ∀ z : V3, footVar e' a x y w ≤ footVar e a (back (tp' - tp) x y (w + z)) (y + (tp' - tp) • (w + z)) (w + z) +
          (tp' - tp) * footRate sg sa sc V D (norm3 (back (tp' - tp) x y (w + z))) (norm3 (y + (tp' - tp) • (w + z))) (norm3 (w + z)) + σ ^ 2 * nsq z)) ∧
      (Measures e → ∃ a, TracksLeg id a e' ∧ ∀ w : V3, footVar e' a 0 0 w ≤ σ ^ 2 * nsq w) := by
  obtain ⟨K, g⟩ := i.inv.good
  obtain ⟨hpend, tp, m, htp, hm, hle, -⟩ := i.inv.run hen
  have h : e.tick = some e' := h
  unfold Estimator.tick at h
  rw [hpend, hen] at h
  have h : e.runOnce = some e' := h
  obtain ⟨b, p, s1, b', c, c', h', s2, e1, hc, hi, e4, e5, e6, e7, e8, hq⟩ := runOnce_leg i.inv i.leg hen h
  obtain ⟨b0, p', s1', e1', g1, q1, q2⟩ := prop_good g i.inv.noise hm htp hle
  rw [e1] at e1'
  obtain ⟨rfl, rfl, rfl⟩ := Option.some.inj e1'
  have hs1 : s1.colMap = e.state.colMap ∧ ∃ tp', s1.tProp = some tp' ∧ tp ≤ tp' ∧ ∀ a V D, TracksLeg id a e → SpeedLe V e.state → ReachLe id D e →
      ∀ x y w : V3, quad s1.P (footL (blkOf e.heap a) x y w) ≤ footVar e a (back (tp' - tp) x y w) (y + (tp' - tp) • w) w +
          (tp' - tp) * footRate sg sa sc V D (norm3 (back (tp' - tp) x y w)) (norm3 (y + (tp' - tp) • w)) (norm3 w) := by
    obtain ⟨bu, hb⟩ : ∃ bu, e.prop.buffer = bu := ⟨_, rfl⟩
    cases bu with
    | nil =>
      obtain ⟨-, -, rfl⟩ := q1 hb
      refine ⟨rfl, tp, htp, le_refl _, fun a V D _ _ _ x y w => ?_⟩
      rw [sub_self, back_zero, zero_smul, add_zero, zero_mul, add_zero]
      exact le_refl _
    | cons f rest =>
      obtain ⟨-, -, -, h2, h3⟩ := q2 f rest hb
      refine ⟨h3, m.time, h2, hle, fun a V D hta hV hD x y w => ?_⟩
      obtain ⟨c1, hc1, ha⟩ := hta
      have hcc : c1 = c := by rw [hc] at hc1; simpa using hc1.symm
      rw [hcc] at hc1 ha
      have hok := i.inv.corrs.each (.leg c) (by rw [hc]; simp)
      have hmem : some a ∈ e.state.colMap := hok.ids.mem id a ha
      obtain ⟨t1, t2, t3, t4⟩ := g.blkOf hmem
      have x1 := g.shape.x.rows; have x2 := g.shape.x.cols; have hK := g.shape.k
      have hV' : norm3 (e.state.X.blkV 0 3) ≤ V := by
        obtain ⟨v, hv, hn⟩ := hV
        have : e.state.get_velocity = some (e.state.X.blkV 0 3) := blkV?_eq (by omega) (by omega)
        rw [this] at hv
        rw [Option.some.inj hv]; exact hn
      have hD' : norm3 (e.state.X.blkV 0 4 - e.state.X.blkV 0 (blkOf e.heap a + 2)) ≤ D := by
        refine hD c a _ _ (by rw [hc]; simp) ha (blkV?_eq (by omega) (by omega)) ?_
        obtain ⟨j, j1, j2, -, j4, -⟩ := g.col hmem
        have : j = blkOf e.heap a + 2 := by rw [← t3, j4]; simp
        rw [j4, get_vector_eq g j2, this]
      exact prop_foot g i.ty i.en i.g i.a i.leg.qc t1 t2 hV' hD' hb hm htp hle e1 x y w rfl rfl
  obtain ⟨hcm, tp', htp', hle', hst1⟩ := hs1
  have hok := i.inv.corrs.each (.leg c) (by rw [hc]; simp)
  have hok1 : CorrOK s1 (.leg c) := hok.keep (by rw [hcm]; exact hok.ids.mem)
  obtain ⟨k1, k2, k3, k4⟩ := legCorrect_foot g1 (by rw [hq]; exact i.leg.qc) hok1 hi htp' e4
  obtain ⟨k5, k6⟩ := k4 id σ (hst c (by rw [hc]; simp))
  have htp2 : s2.tProp = s1.tProp := by
    obtain ⟨b3, c3, h3, s3, K3, r1, -, r3⟩ := corr_correct g1 hok1 htp'
    simp only [Corr.correct, e4, Option.map_some] at r1
    obtain ⟨-, -, -, rfl⟩ := Option.some.inj r1
    exact r3.tp
  have hM : Measures e → b' = true := by
    rintro ⟨b3, p3, s3, bs3, cs3, h3, s4, r1, r2, r3⟩
    rw [e1] at r1
    obtain ⟨-, -, rfl⟩ := Option.some.inj r1
    obtain ⟨b4, r4, r5⟩ := corrRun_iff _ r2
    rw [hc] at r4
    simp only [Estimator.correctAll, Corr.correct, e4, Option.map_some, Option.bind_eq_bind, Option.bind_some] at r4
    obtain ⟨rfl, -⟩ := Option.some.inj r4
    simpa using r5.mpr r3
  refine ⟨e8, ?_, tp, tp', htp, by rw [e7, htp2, htp'], hle', ?_, ?_⟩
  · intro c1 hc1 m hm
    rw [e5] at hc1
    have : c1 = c' := by simpa using hc1
    subst this
    exact hst c (by rw [hc]; simp) m (k3 m hm)
  · intro a V D hta hV hD
    have hta' := hta
    obtain ⟨c1, hc1, ha⟩ := hta'
    have hcc : c1 = c := by rw [hc] at hc1; simpa using hc1.symm
    rw [hcc] at ha
    obtain ⟨k7, k8⟩ := k5 a ha
    refine ⟨⟨c', e5, k7⟩, fun x y w => ?_⟩
    unfold footVar at *
    rw [e6, e7]
    refine ⟨le_trans (k8 x y w).1 (hst1 a V D hta hV hD x y w), fun hM' z => ?_⟩
    exact le_trans ((k8 x y w).2 (hM hM') z) (add_le_add (hst1 a V D hta hV hD x y (w + z)) le_rfl)
  · intro hM'
    obtain ⟨a, k7, k8⟩ := k6 (hM hM')
    refine ⟨a, ⟨c', e5, k7⟩, fun w => ?_⟩
    unfold footVar
    rw [e6, e7]
    have := k8 0 0 w
    rw [lin_zero, quad_zero_fun, zero_add] at this
    exact this

/-- a history without `clear` -/
theorem run_foot {sg sa sc enc kin σ V D : ℝ} {id a : ℕ} (hV0 : 0 ≤ V) (hD0 : 0 ≤ D) (evs : List EstEv) : ∀ {fut : List ImuMeas} {e e' : Estimator},
    StandInv sg sa sc enc kin (imuArrivals evs ++ fut) e → e.enabled = true → NoClear evs → SpeedBound V e evs → ReachBound id D e evs →
    Standing id σ enc kin e evs → TracksLeg id a e → e.run evs = some e' →
    e'.enabled = true ∧ (∀ c, Corr.leg c ∈ e'.corrs → ∀ m ∈ c.buffer, StandsOn id σ enc kin m) ∧ TracksLeg id a e' ∧
    ∃ tp tp', e.state.tProp = some tp ∧ e'.state.tProp = some tp' ∧ tp ≤ tp' ∧ ∀ (x y w : V3) (A B : ℝ),
      (∀ τ, 0 ≤ τ → τ ≤ tp' - tp → norm3 (back τ x y w) ≤ A) → (∀ τ, 0 ≤ τ → τ ≤ tp' - tp → norm3 (y + τ • w) ≤ B) →
      footVar e' a x y w ≤ footVar e a (back (tp' - tp) x y w) (y + (tp' - tp) • w) w + (tp' - tp) * footRate sg sa sc V D A B (norm3 w) := by
  induction evs with
  | nil =>
    intro fut e e' i hen hn hs hr hst hta h
    obtain rfl := Option.some.inj h
    obtain ⟨-, tp, m, htp, -⟩ := i.inv.run hen
    exact ⟨hen, hst.1, hta, tp, tp, htp, htp, le_refl _, fun x y w A B _ _ => by simp [back_zero]⟩
  | cons ev evs ih =>
    intro fut e e' i hen hn hs hr hst hta h
    simp only [Estimator.run, Option.bind_eq_some_iff] at h
    obtain ⟨e1, h1, h2⟩ := h
    rw [imuArrivals_cons, List.append_assoc] at i
    have i1 := i.step h1
    have hs1 : SpeedBound V e1 evs := by
      intro pre e2 hp hr
      refine hs (ev :: pre) e2 ?_ ?_
      · obtain ⟨t, ht⟩ := hp
        exact ⟨t, by simp [ht]⟩
      · simp [Estimator.run, h1, hr]
    have hr1 : ReachBound id D e1 evs := by
      intro pre e2 hp hrr
      refine hr (ev :: pre) e2 ?_ ?_
      · obtain ⟨t, ht⟩ := hp
        exact ⟨t, by simp [ht]⟩
      · simp [Estimator.run, h1, hrr]
    have hs0 : SpeedLe V e.state := hs [] e (List.nil_prefix) rfl
    have hr0 : ReachLe id D e := hr [] e (List.nil_prefix) rfl
    have hn1 : NoClear evs := fun hh => hn (by simp [hh])
    have st : e1.enabled = true ∧ (∀ c, Corr.leg c ∈ e1.corrs → ∀ m ∈ c.buffer, StandsOn id σ enc kin m) ∧ TracksLeg id a e1 ∧
        ∃ tp tp1, e.state.tProp = some tp ∧ e1.state.tProp = some tp1 ∧ tp ≤ tp1 ∧ ∀ x y w : V3,
        footVar e1 a x y w ≤ footVar e a (back (tp1 - tp) x y w) (y + (tp1 - tp) • w) w +
          (tp1 - tp) * footRate sg sa sc V D (norm3 (back (tp1 - tp) x y w)) (norm3 (y + (tp1 - tp) • w)) (norm3 w) := by
      obtain ⟨-, tp, m, htp, -⟩ := i.inv.run hen
      obtain ⟨c, hc, ha⟩ := hta
      have same : e1.enabled = true → e1.state = e.state → e1.heap = e.heap →
          (∃ c', e1.corrs = [.leg c'] ∧ c'.ids id = some a ∧ ∀ m ∈ c'.buffer, StandsOn id σ enc kin m) →
          e1.enabled = true ∧ (∀ c, Corr.leg c ∈ e1.corrs → ∀ m ∈ c.buffer, StandsOn id σ enc kin m) ∧ TracksLeg id a e1 ∧
          ∃ tp tp1, e.state.tProp = some tp ∧ e1.state.tProp = some tp1 ∧ tp ≤ tp1 ∧ ∀ x y w : V3,
          footVar e1 a x y w ≤ footVar e a (back (tp1 - tp) x y w) (y + (tp1 - tp) • w) w +
          (tp1 - tp) * footRate sg sa sc V D (norm3 (back (tp1 - tp) x y w)) (norm3 (y + (tp1 - tp) • w)) (norm3 w) := by
        rintro q1 q2 q3 ⟨c', q4, q5, q6⟩
        refine ⟨q1, fun d hd m hm => ?_, ⟨c', q4, q5⟩, tp, tp, htp, by rw [q2, htp], le_refl _, fun x y w => ?_⟩
        · rw [q4] at hd
          have : d = c' := by simpa using hd
          subst this
          exact q6 m hm
        · unfold footVar
          rw [q2, q3]; simp [back_zero]
      have hbuf : ∀ m ∈ c.buffer, StandsOn id σ enc kin m := hst.1 c (by rw [hc]; simp)
      cases ev with
      | imu m => rw [← Option.some.inj h1] at same ⊢; exact same hen rfl rfl ⟨c, hc, ha, hbuf⟩
      | vel k m =>
        rw [← Option.some.inj h1] at same ⊢
        refine same hen rfl rfl ⟨c, ?_, ha, hbuf⟩
        show e.corrs.modify k _ = _
        rw [hc]
        cases k <;> simp [Corr.pushVel]
      | leg k m =>
        rw [← Option.some.inj h1] at same ⊢
        cases k with
        | zero =>
          refine same hen rfl rfl ⟨{ c with buffer := c.buffer ++ [m] }, ?_, ha, fun x hx => ?_⟩
          · show e.corrs.modify 0 _ = _
            rw [hc]; rfl
          · have hx : x ∈ c.buffer ++ [m] := hx
            rcases List.mem_append.mp hx with hx | hx
            · exact hbuf x hx
            · rw [List.mem_singleton] at hx
              subst hx
              exact hst.2 0 x (by simp)
        | succ k =>
          refine same hen rfl rfl ⟨c, ?_, ha, hbuf⟩
          show e.corrs.modify (k + 1) _ = _
          rw [hc]; simp
      | clear => exact absurd (by simp) hn
      | log =>
        have h1 : e.log.iter.map _ = some e1 := h1
        simp only [Option.map_eq_some_iff] at h1
        obtain ⟨l, -, hl⟩ := h1
        rw [← hl] at same ⊢
        exact same hen rfl rfl ⟨c, hc, ha, hbuf⟩
      | consume => rw [← Option.some.inj h1] at same ⊢; exact same hen rfl rfl ⟨c, hc, ha, hbuf⟩
      | tick =>
        have i' : StandInv sg sa sc enc kin (imuArrivals evs ++ fut) e := by simpa [imuArrivals] using i
        obtain ⟨q1, q2, tp, tp1, q3, q4, q5, q6, -⟩ := tick_foot (id := id) (σ := σ) i' hen hst.1 h1
        obtain ⟨q7, q8⟩ := q6 a V D ⟨c, hc, ha⟩ hs0 hr0
        exact ⟨q1, q2, q7, tp, tp1, q3, q4, q5, fun x y w => (q8 x y w).1⟩
    obtain ⟨hen1, hq1, hta1, tp, tp1, htp, htp1, hle, hst1⟩ := st
    obtain ⟨hen', hq', hta', tp1', tp', htp1', htp', hle', hrr⟩ := ih i1 hen1 hn1 hs1 hr1 ⟨hq1, fun k m hm => hst.2 k m (by simp [hm])⟩ hta1 h2
    rw [htp1] at htp1'
    obtain rfl := Option.some.inj htp1'
    refine ⟨hen', hq', hta', tp, tp', htp, htp', le_trans hle hle', fun x y w A B hA hB => ?_⟩
    have k1 := hrr x y w A B (fun τ h0 h1 => hA τ h0 (by linarith)) fun τ h0 h1 => hB τ h0 (by linarith)
    have k2 := hst1 (back (tp' - tp1) x y w) (y + (tp' - tp1) • w) w
    rw [back_add, add_assoc y, ← add_smul, show tp' - tp1 + (tp1 - tp) = tp' - tp by ring] at k2
    have k3 := footRate_mono (sg := sg) (sa := sa) (sc := sc) (norm3_nonneg _) hV0 hD0 (norm3_nonneg _) (norm3_nonneg w) (hA (tp' - tp) (by linarith) le_rfl)
      (hB (tp' - tp) (by linarith) le_rfl)
    have k4 := mul_le_mul_of_nonneg_left k3 (show 0 ≤ tp1 - tp by linarith)
    have : (tp' - tp) * footRate sg sa sc V D A B (norm3 w) =
      (tp1 - tp) * footRate sg sa sc V D A B (norm3 w) + (tp' - tp1) * footRate sg sa sc V D A B (norm3 w) := by ring
    linarith

end Drift
