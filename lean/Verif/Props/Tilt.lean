import Verif.Spec.Tilt
import Verif.Lemmas.Tilt2
import Verif.Spec.Startup
import Verif.Props.Perfect

/-!
# C151: two velocity measurements make the tilt known
-/
set_option linter.unusedSimpArgs false
namespace Drift
open Mat Matrix Finset RobotState ImuProp

theorem corrRun_iff (cs : List Corr) : ∀ {h : Heap} {s : RobotState} {bs : List Bool} {cs' : List Corr} {h' : Heap} {s' : RobotState},
    CorrRun cs h s bs cs' h' s' → ∃ b, Estimator.correctAll cs h s = some (b, cs', h', s') ∧ (b = true ↔ true ∈ bs) := by
  induction cs with
  | nil => intro h s bs cs' h' s' r; cases r; exact ⟨false, rfl, by simp⟩
  | cons c cs ih =>
    intro h s bs cs' h' s' r
    cases r with
    | @cons _ _ _ _ b c' h1 s1 bs cs' h2 s2 e r =>
      obtain ⟨b2, e2, hb⟩ := ih r
      refine ⟨b || b2, by simp [Estimator.correctAll, e, e2], ?_⟩
      rw [Bool.or_eq_true, hb, List.mem_cons]
      exact or_congr (by tauto) Iff.rfl

theorem TiltCfg.step {σ sg sa : ℝ} {e e' : Estimator} {ev : EstEv} (cfg : TiltCfg σ sg sa e) {rc pc : ℝ} (l : GInv rc pc e')
    (h : e.step ev = some e') : TiltCfg σ sg sa e' := by
  have n := noise_step h
  have v := vcov_step h
  refine ⟨l.prop, by rw [n.en]; exact cfg.en, by rw [n.g]; exact cfg.g, by rw [n.a]; exact cfg.a, l.corrs, fun c hc => ?_⟩
  have : c.vcov ∈ e.corrs.map Corr.vcov := by rw [← v]; exact List.mem_map_of_mem hc
  obtain ⟨d, hd, hd'⟩ := List.mem_map.mp this
  obtain ⟨r, h1, h2⟩ := cfg.cov d hd
  exact ⟨r, by rw [← hd']; exact h1, h2⟩

/-- one turn of the main loop -/
theorem tick_tilt {σ sg sa V : ℝ} {fut : List ImuMeas} {e e' : Estimator} (i : EstInv fut e) (cfg : TiltCfg σ sg sa e) (hen : e.enabled = true)
    (hV : SpeedLe V e.state) (h : e.step .tick = some e') :
    e'.enabled = true ∧ ∃ tp tp', e.state.tProp = some tp ∧ e'.state.tProp = some tp' ∧ tp ≤ tp' ∧ ∀ a b : V3,
      quad e'.state.P (lin a b) ≤ quad e.state.P (lin (a + (tp' - tp) • (skew gravity)ᵀ.mulVec b) b) +
        (tp' - tp) * rate sg sa V (norm3 (a + (tp' - tp) • (skew gravity)ᵀ.mulVec b)) (norm3 b) ∧
      (Measures e → ∀ z : V3, quad e'.state.P (lin a b) ≤
        quad e.state.P (lin (a + (tp' - tp) • (skew gravity)ᵀ.mulVec (b - z)) (b - z)) +
        (tp' - tp) * rate sg sa V (norm3 (a + (tp' - tp) • (skew gravity)ᵀ.mulVec (b - z))) (norm3 (b - z)) + σ ^ 2 * nsq z) := by
  obtain ⟨K, g⟩ := i.good
  obtain ⟨hpend, tp, m, htp, hm, hle, ht⟩ := i.run hen
  have h : e.tick = some e' := h
  unfold Estimator.tick at h
  rw [hpend, hen] at h
  have h : e.runOnce = some e' := h
  obtain ⟨b0, p', s1, e1, g1, q1, q2⟩ := prop_good g i.noise hm htp hle
  have hV' : norm3 (e.state.X.blkV 0 3) ≤ V := by
    obtain ⟨v, hv, hn⟩ := hV
    have x1 := g.shape.x.rows; have x2 := g.shape.x.cols; have hK := g.shape.k
    have : e.state.get_velocity = some (e.state.X.blkV 0 3) := blkV?_eq (by omega) (by omega)
    rw [this] at hv
    rw [Option.some.inj hv]; exact hn
  have hs1 : s1.colMap = e.state.colMap ∧ ∃ tp', s1.tProp = some tp' ∧ tp ≤ tp' ∧ ∀ a b : V3,
      quad s1.P (lin a b) ≤ quad e.state.P (lin (a + (tp' - tp) • (skew gravity)ᵀ.mulVec b) b) +
        (tp' - tp) * rate sg sa V (norm3 (a + (tp' - tp) • (skew gravity)ᵀ.mulVec b)) (norm3 b) := by
    obtain ⟨bu, hb⟩ : ∃ bu, e.prop.buffer = bu := ⟨_, rfl⟩
    cases bu with
    | nil =>
      obtain ⟨-, rfl, rfl⟩ := q1 hb
      exact ⟨rfl, tp, htp, le_refl _, fun a b => by simp⟩
    | cons f rest =>
      obtain ⟨-, -, -, h2, h3⟩ := q2 f rest hb
      exact ⟨h3, m.time, h2, hle, fun a b => prop_tilt g cfg.ty cfg.en cfg.g cfg.a hV' hb hm htp hle e1 a b⟩
  obtain ⟨hcm, tp', htp', hle', hq⟩ := hs1
  have hc1 : CorrsOK s1 e.corrs := ⟨fun c hc => (i.corrs.each c hc).keep (by rw [hcm]; exact (i.corrs.each c hc).ids.mem), i.corrs.disj⟩
  obtain ⟨b', bs, cs', h', s2, K', e2, cr, hbs, -, -, htp2, -⟩ := correctAll_spec e.corrs g1 hc1 htp'
  have he' : e'.state = s2 ∧ e'.enabled = true := by
    simp only [Estimator.runOnce, e1, e2, Option.bind_eq_bind, Option.bind_some] at h
    split at h
    · rw [← Option.some.inj h]; exact ⟨rfl, hen⟩
    · rw [← Option.some.inj h]; exact ⟨rfl, hen⟩
  refine ⟨he'.2, tp, tp', htp, by rw [he'.1, htp2, htp'], hle', fun a b => ?_⟩
  have k := correctAll_tilt (σ := σ) e.corrs g1 hc1 htp' cfg.cty cfg.cov e2 a b
  rw [he'.1]
  refine ⟨le_trans k.1 (hq a b), fun hM z => ?_⟩
  obtain ⟨b3, p3, s3, bs3, cs3, h3, s4, r1, r2, r3⟩ := hM
  rw [e1] at r1
  obtain ⟨-, -, rfl⟩ := Option.some.inj r1
  obtain ⟨b4, r4, r5⟩ := corrRun_iff _ r2
  rw [e2] at r4
  obtain ⟨rfl, -, -, -⟩ := Option.some.inj r4
  exact le_trans (k.2 (r5.mpr r3) z) (add_le_add (hq a (b - z)) le_rfl)

theorem rate_mono {sg sa V A A' B : ℝ} (hA : 0 ≤ A) (hV : 0 ≤ V) (hB : 0 ≤ B) (h : A ≤ A') : rate sg sa V A B ≤ rate sg sa V A' B := by
  unfold rate
  refine add_le_add (mul_le_mul_of_nonneg_left ?_ (sq_nonneg _)) le_rfl
  exact pow_le_pow_left₀ (by positivity) (by linarith) 2

/-- the invariants of a history together -/
structure TiltInv (σ sg sa : ℝ) (fut : List ImuMeas) (e : Estimator) : Prop where
  inv : EstInv fut e
  ginv : ∃ rc pc, GInv rc pc e
  cfg : TiltCfg σ sg sa e

theorem TiltInv.step {σ sg sa : ℝ} {fut : List ImuMeas} {e e' : Estimator} {ev : EstEv} (i : TiltInv σ sg sa (imuArrivals [ev] ++ fut) e)
    (h : e.step ev = some e') : TiltInv σ sg sa fut e' := by
  obtain ⟨e2, h2, inv⟩ := step_inv ev i.inv
  rw [h] at h2
  obtain rfl := Option.some.inj h2
  obtain ⟨rc, pc, l⟩ := i.ginv
  have l' := step_ginv i.inv l h
  exact ⟨inv, ⟨rc, pc, l'⟩, i.cfg.step l' h⟩

theorem run_tiltInv {σ sg sa : ℝ} (evs : List EstEv) : ∀ {fut : List ImuMeas} {e e' : Estimator}, TiltInv σ sg sa (imuArrivals evs ++ fut) e →
    e.run evs = some e' → TiltInv σ sg sa fut e' := by
  induction evs with
  | nil => intro fut e e' i h; cases h; exact i
  | cons ev evs ih =>
    intro fut e e' i h
    simp only [Estimator.run, Option.bind_eq_some_iff] at h
    obtain ⟨e1, h1, h2⟩ := h
    rw [imuArrivals_cons, List.append_assoc] at i
    exact ih (i.step h1) h2

/-- a history without `clear` -/
theorem run_tilt {σ sg sa V : ℝ} (hV0 : 0 ≤ V) (evs : List EstEv) : ∀ {fut : List ImuMeas} {e e' : Estimator}, TiltInv σ sg sa (imuArrivals evs ++ fut) e →
    e.enabled = true → NoClear evs → SpeedBound V e evs → e.run evs = some e' →
    e'.enabled = true ∧ ∃ tp tp', e.state.tProp = some tp ∧ e'.state.tProp = some tp' ∧ tp ≤ tp' ∧ ∀ (a b : V3) (A : ℝ),
      (∀ τ, 0 ≤ τ → τ ≤ tp' - tp → norm3 (a + τ • (skew gravity)ᵀ.mulVec b) ≤ A) →
      quad e'.state.P (lin a b) ≤ quad e.state.P (lin (a + (tp' - tp) • (skew gravity)ᵀ.mulVec b) b) + (tp' - tp) * rate sg sa V A (norm3 b) := by
  induction evs with
  | nil =>
    intro fut e e' i hen hn hs h
    obtain rfl := Option.some.inj h
    obtain ⟨-, tp, m, htp, -⟩ := i.inv.run hen
    exact ⟨hen, tp, tp, htp, htp, le_refl _, fun a b A _ => by simp⟩
  | cons ev evs ih =>
    intro fut e e' i hen hn hs h
    simp only [Estimator.run, Option.bind_eq_some_iff] at h
    obtain ⟨e1, h1, h2⟩ := h
    rw [imuArrivals_cons, List.append_assoc] at i
    have i1 := i.step h1
    have hs1 : SpeedBound V e1 evs := by
      intro pre e2 hp hr
      refine hs (ev :: pre) e2 ?_ ?_
      · obtain ⟨t, ht⟩ := hp
        exact ⟨t, by simp [ht]⟩
      · simp [Estimator.run, h1, hr]
    have hs0 : SpeedLe V e.state := hs [] e (List.nil_prefix) rfl
    have hn1 : NoClear evs := fun hh => hn (by simp [hh])
    have st : e1.enabled = true ∧ ∃ tp tp1, e.state.tProp = some tp ∧ e1.state.tProp = some tp1 ∧ tp ≤ tp1 ∧ ∀ a b : V3,
        quad e1.state.P (lin a b) ≤ quad e.state.P (lin (a + (tp1 - tp) • (skew gravity)ᵀ.mulVec b) b) +
          (tp1 - tp) * rate sg sa V (norm3 (a + (tp1 - tp) • (skew gravity)ᵀ.mulVec b)) (norm3 b) := by
      obtain ⟨-, tp, m, htp, -⟩ := i.inv.run hen
      have same : e1.enabled = true → e1.state = e.state → e1.enabled = true ∧ ∃ tp tp1, e.state.tProp = some tp ∧ e1.state.tProp = some tp1 ∧ tp ≤ tp1 ∧
          ∀ a b : V3, quad e1.state.P (lin a b) ≤ quad e.state.P (lin (a + (tp1 - tp) • (skew gravity)ᵀ.mulVec b) b) +
          (tp1 - tp) * rate sg sa V (norm3 (a + (tp1 - tp) • (skew gravity)ᵀ.mulVec b)) (norm3 b) := by
        intro q1 q2
        exact ⟨q1, tp, tp, htp, by rw [q2, htp], le_refl _, fun a b => by rw [q2]; simp⟩
      cases ev with
      | imu m => rw [← Option.some.inj h1] at same ⊢; exact same hen rfl
      | vel k m => rw [← Option.some.inj h1] at same ⊢; exact same hen rfl
      | leg k m => rw [← Option.some.inj h1] at same ⊢; exact same hen rfl
      | clear => exact absurd (by simp) hn
      | log =>
        have h1 : e.log.iter.map _ = some e1 := h1
        simp only [Option.map_eq_some_iff] at h1
        obtain ⟨l, -, hl⟩ := h1
        rw [← hl] at same ⊢
        exact same hen rfl
      | consume => rw [← Option.some.inj h1] at same ⊢; exact same hen rfl
      | tick =>
        obtain ⟨q1, tp, tp1, q2, q3, q4, q5⟩ := tick_tilt i.inv i.cfg hen hs0 h1
        exact ⟨q1, tp, tp1, q2, q3, q4, fun a b => (q5 a b).1⟩
    obtain ⟨hen1, tp, tp1, htp, htp1, hle, hst⟩ := st
    obtain ⟨hen', tp1', tp', htp1', htp', hle', hr⟩ := ih i1 hen1 hn1 hs1 h2
    rw [htp1] at htp1'
    obtain rfl := Option.some.inj htp1'
    refine ⟨hen', tp, tp', htp, htp', le_trans hle hle', fun a b A hA => ?_⟩
    have k1 := hr a b A fun τ h0 h1 => hA τ h0 (by linarith)
    have k2 := hst (a + (tp' - tp1) • (skew gravity)ᵀ.mulVec b) b
    rw [add_assoc a, ← add_smul, show tp' - tp1 + (tp1 - tp) = tp' - tp by ring] at k2
    have k3 : rate sg sa V (norm3 (a + (tp' - tp) • (skew gravity)ᵀ.mulVec b)) (norm3 b) ≤ rate sg sa V A (norm3 b) :=
      rate_mono (norm3_nonneg _) hV0 (norm3_nonneg _) (hA _ (by linarith) le_rfl)
    have k4 := mul_le_mul_of_nonneg_left k3 (show 0 ≤ tp1 - tp by linarith)
    have : (tp' - tp) * rate sg sa V A (norm3 b) = (tp1 - tp) * rate sg sa V A (norm3 b) + (tp' - tp1) * rate sg sa V A (norm3 b) := by ring
    linarith

theorem ctor_tilt {σ : ℝ} {h : Heap} {g : EstConfig} {ic : ImuPropConfig} {cs : List CorrConfig} {imu : List ImuMeas} {e0 : Estimator} (u : Usable ic cs imu)
    (hc : Estimator.ctor .rightInvariant h g ic cs = some e0) (hb : ic.enable_imu_bias_update.getD false = false)
    (hcs : ∀ c ∈ cs, ∃ v : VelConfig, c = .vel v ∧ |v.velocity_std.getD 0.1| ≤ σ) :
    TiltInv σ (ic.gyroscope_std.getD 0.1) (ic.accelerometer_std.getD 0.1) imu e0 := by
  have l := ctor_ginv hc
  obtain ⟨n1, n2, -, -, n5⟩ := C96_configured (evs := []) hc rfl
  refine ⟨(ctor_inv u hc).1, ⟨_, _, l⟩, l.prop, by rw [n5, hb], n1, n2, l.corrs, ?_⟩
  unfold Estimator.ctor at hc
  simp only [Option.bind_eq_bind, Option.bind_eq_some_iff] at hc
  obtain ⟨p, -, corrs, hm, he⟩ := hc
  rw [← Option.some.inj he]
  show ∀ c ∈ corrs, _
  clear he u l n1 n2 n5
  induction cs generalizing corrs with
  | nil => simp at hm; subst hm; simp
  | cons c cs ih =>
    rw [List.mapM_cons] at hm
    simp only [Option.bind_eq_bind, Option.bind_eq_some_iff] at hm
    obtain ⟨b, hbb, bs, hbs, hm⟩ := hm
    rw [← Option.some.inj hm]
    intro d hd
    rcases List.mem_cons.mp hd with rfl | hd
    · obtain ⟨w, rfl, hw⟩ := hcs c (by simp)
      simp only [CorrConfig.build, VelCorr.ctor, Option.bind_eq_bind, Option.map_eq_some_iff, Option.bind_eq_some_iff] at hbb
      obtain ⟨v, ⟨q, -, hv⟩, rfl⟩ := hbb
      rw [← Option.some.inj hv]
      refine ⟨w.velocity_std.getD 0.1, ?_, sq_le_sq' (by linarith [(abs_le.mp hw).1]) (abs_le.mp hw).2⟩
      simp [Corr.vcov, pow_two]
    · exact ih (fun c hc => hcs c (by simp [hc])) _ hbs d hd

theorem skew_gravity (b : V3) : (skew gravity)ᵀ.mulVec b = ![-(9.8 * b 1), 9.8 * b 0, 0] := by
  funext i
  fin_cases i <;> simp [gravity, skew, mulVec, dotProduct, Fin.sum_univ_three] <;> norm_num

theorem lin_zero : lin 0 0 = fun _ => 0 := by
  funext i
  rw [at3_e (lin 0 0) i, lin_at3]
  split_ifs <;> rfl

theorem quad_zero_fun (A : Mat) : quad A (fun _ => 0) = 0 := by simp [quad]

/-- **C151**: two velocity measurements make the tilt known. -/
theorem C151_tilt {σ V t1 t3 : ℝ} {h : Heap} {g : EstConfig} {ic : ImuPropConfig} {cs : List CorrConfig} {evs0 evs : List EstEv} {e0 e e1 e2 e3 : Estimator}
    (hc : Estimator.ctor .rightInvariant h g ic cs = some e0) (u : Usable ic cs (imuArrivals (evs0 ++ .tick :: (evs ++ [.tick]))))
    (hb : ic.enable_imu_bias_update.getD false = false) (hcs : ∀ c ∈ cs, ∃ v : VelConfig, c = .vel v ∧ |v.velocity_std.getD 0.1| ≤ σ)
    (h0 : e0.run evs0 = some e) (hen : e.enabled = true) (hM : Measures e) (h1 : e.step .tick = some e1) (hn : NoClear evs) (hs : SpeedBound V e1 evs)
    (h2 : e1.run evs = some e2) (hM2 : Measures e2) (h3 : e2.step .tick = some e3) (ht1 : e1.state.tProp = some t1) (ht3 : e3.state.tProp = some t3)
    (ht : t1 < t3) (w : V3) (hw : w 2 = 0) :
    ∃ C, e3.state.get_rotation_covariance = some C ∧
      w ⬝ᵥ C.mulVec w ≤ (w ⬝ᵥ w) * (2 * (σ / (9.8 * (t3 - t1))) ^ 2 +
        (t3 - t1) * ((ic.gyroscope_std.getD 0.1) ^ 2 * (1 + V / (9.8 * (t3 - t1))) ^ 2 + (ic.accelerometer_std.getD 0.1 / (9.8 * (t3 - t1))) ^ 2)) := by
  have i0 := ctor_tilt u hc hb hcs
  obtain ⟨sg, hsg⟩ : ∃ x, ic.gyroscope_std.getD 0.1 = x := ⟨_, rfl⟩
  obtain ⟨sa, hsa⟩ : ∃ x, ic.accelerometer_std.getD 0.1 = x := ⟨_, rfl⟩
  rw [hsg, hsa] at i0 ⊢
  rw [imuArrivals_append] at i0
  have i := run_tiltInv evs0 i0 h0
  rw [imuArrivals_cons] at i
  have i1 := i.step h1
  rw [imuArrivals_append] at i1
  have i2 := run_tiltInv evs i1 h2
  have i3 : TiltInv σ sg sa [] e3 := TiltInv.step (ev := .tick) (by simpa using i2) h3
  have hV0 : SpeedLe V e1.state := hs [] e1 List.nil_prefix rfl
  have hV2 : SpeedLe V e2.state := hs evs e2 (List.prefix_refl _) h2
  have hVn : 0 ≤ V := by obtain ⟨v, -, hv⟩ := hV0; exact le_trans (norm3_nonneg _) hv
  have hVe : ∃ V', SpeedLe V' e.state := by
    obtain ⟨K, gd⟩ := i.inv.good
    have x1 := gd.shape.x.rows; have x2 := gd.shape.x.cols; have hK := gd.shape.k
    exact ⟨_, _, blkV?_eq (by omega) (by omega), le_refl _⟩
  obtain ⟨V', hVe⟩ := hVe
  obtain ⟨en1, tp, tp1, -, q2, -, q4⟩ := tick_tilt i.inv i.cfg hen hVe h1
  rw [ht1] at q2
  obtain rfl := Option.some.inj q2
  obtain ⟨en2, tp1', tp2, q5, q6, q7, q8⟩ := run_tilt hVn evs i1 en1 hn hs h2
  rw [ht1] at q5
  obtain rfl := Option.some.inj q5
  obtain ⟨-, tp2', tp3, r1, r2, r3, r4⟩ := tick_tilt i2.inv i2.cfg en2 hV2 h3
  rw [q6] at r1
  obtain rfl := Option.some.inj r1
  rw [ht3] at r2
  obtain rfl := Option.some.inj r2
  obtain ⟨T, hT⟩ : ∃ T, t3 - t1 = T := ⟨_, rfl⟩
  rw [hT]
  have hT0 : 0 < T := by linarith
  have hk : 0 < 9.8 * T := by positivity
  obtain ⟨k, hkk⟩ : ∃ k, (9.8 * T)⁻¹ = k := ⟨_, rfl⟩
  have hk0 : 0 < k := by rw [← hkk]; positivity
  have hk1 : 9.8 * T * k = 1 := by rw [← hkk]; exact mul_inv_cancel₀ hk.ne'
  obtain ⟨b, hbv⟩ : ∃ b : V3, b = k • ![-w 1, w 0, 0] := ⟨_, rfl⟩
  have hG : (skew gravity)ᵀ.mulVec b = (-(9.8 * k)) • w := by
    rw [skew_gravity, hbv]
    funext j
    fin_cases j <;> simp [hw] <;> ring
  have hwn : w ⬝ᵥ w = nsq w := nsq_dot w
  have hbn : nsq b = k ^ 2 * nsq w := by rw [hbv]; simp [nsq, hw]; ring
  have hbN : norm3 b = k * norm3 w := by
    have : norm3 b ^ 2 = (k * norm3 w) ^ 2 := by rw [norm3_sq, mul_pow, norm3_sq, hbn]
    exact (sq_eq_sq₀ (norm3_nonneg _) (mul_nonneg hk0.le (norm3_nonneg _))).mp this
  have hpath : ∀ τ : ℝ, w + τ • (skew gravity)ᵀ.mulVec b = (1 - 9.8 * k * τ) • w := by
    intro τ
    rw [hG, smul_smul, sub_smul, one_smul, sub_eq_add_neg, ← neg_smul]
    congr 2
    ring
  have hlen : ∀ τ : ℝ, 0 ≤ τ → τ ≤ T → norm3 (w + τ • (skew gravity)ᵀ.mulVec b) ≤ norm3 w := by
    intro τ h0 hτ
    have hx : 9.8 * k * τ ≤ 1 := by nlinarith
    have hy : 0 ≤ 9.8 * k * τ := by positivity
    rw [hpath, norm3_smul, abs_of_nonneg (by linarith)]
    nlinarith [norm3_nonneg w]
  -- the last turn
  have s1 := (r4 w 0).2 hM2 (-b)
  rw [zero_sub, neg_neg] at s1
  have s1' : nsq (-b) = nsq b := by simp [nsq]
  rw [s1'] at s1
  have s2 := rate_mono (sg := sg) (sa := sa) (norm3_nonneg _) hVn (norm3_nonneg b) (hlen (t3 - tp2) (by linarith) (by linarith))
  have s3 := mul_le_mul_of_nonneg_left s2 (show 0 ≤ t3 - tp2 by linarith)
  -- the turns between
  have s4 := q8 (w + (t3 - tp2) • (skew gravity)ᵀ.mulVec b) b (norm3 w) fun τ p0 p1 => by
    rw [add_assoc, ← add_smul]
    exact hlen _ (by linarith) (by linarith)
  rw [add_assoc w, ← add_smul, show t3 - tp2 + (tp2 - t1) = T by linarith, hpath T, show 1 - 9.8 * k * T = 0 by linarith, zero_smul] at s4
  -- the first turn
  have s5 := (q4 0 b).2 hM b
  rw [sub_self, mulVec_zero, smul_zero, add_zero, lin_zero, quad_zero_fun, norm3_zero] at s5
  have s6 : rate sg sa V' 0 0 = 0 := by simp [rate]
  rw [s6, mul_zero, zero_add, zero_add] at s5
  obtain ⟨K, gd⟩ := i3.inv.good
  have p1 := gd.shape.pr
  have p2 := gd.shape.pc
  have hq : quad e3.state.P (lin w 0) = w ⬝ᵥ (e3.state.P.blk3 0 0).mulVec w := by
    rw [← quad_spread (k := 0) (by omega) (by omega)]
    congr 1
    funext j
    rw [at3_e (lin w 0) j, at3_e (spread 0 w) j, lin_at3, spread_at3]
    split_ifs <;> rfl
  refine ⟨e3.state.P.blk3 0 0, Mat.blk3?_eq (by omega) (by omega), ?_⟩
  rw [← hq, hwn]
  have hdiv : ∀ x : ℝ, x / (9.8 * T) = x * k := fun x => by rw [← hkk]; rfl
  rw [hdiv, hdiv, hdiv]
  have hr : rate sg sa V (norm3 w) (norm3 b) = nsq w * (sg ^ 2 * (1 + V * k) ^ 2 + (sa * k) ^ 2) := by
    rw [← norm3_sq w, hbN, rate]; ring
  have e1 : (t3 - tp2) * rate sg sa V (norm3 w) (norm3 b) + (tp2 - t1) * rate sg sa V (norm3 w) (norm3 b) =
      T * (nsq w * (sg ^ 2 * (1 + V * k) ^ 2 + (sa * k) ^ 2)) := by rw [hr, ← hT]; ring
  have e2 : σ ^ 2 * nsq b = nsq w * (σ * k) ^ 2 := by rw [hbn]; ring
  have : nsq w * (2 * (σ * k) ^ 2 + T * (sg ^ 2 * (1 + V * k) ^ 2 + (sa * k) ^ 2)) =
      2 * (nsq w * (σ * k) ^ 2) + T * (nsq w * (sg ^ 2 * (1 + V * k) ^ 2 + (sa * k) ^ 2)) := by ring
  rw [this]
  linarith

theorem speedBound_exists (evs : List EstEv) : ∀ {fut : List ImuMeas} {e : Estimator}, EstInv (imuArrivals evs ++ fut) e → ∃ V, SpeedBound V e evs := by
  have speed : ∀ {fut : List ImuMeas} {e : Estimator}, EstInv fut e → ∃ V, SpeedLe V e.state := by
    intro fut e i
    obtain ⟨K, gd⟩ := i.good
    have x1 := gd.shape.x.rows; have x2 := gd.shape.x.cols; have hK := gd.shape.k
    exact ⟨_, _, blkV?_eq (by omega) (by omega), le_refl _⟩
  induction evs with
  | nil =>
    intro fut e i
    obtain ⟨V, hV⟩ := speed i
    refine ⟨V, fun pre e' hp hr => ?_⟩
    rw [List.prefix_nil] at hp
    subst hp
    obtain rfl := Option.some.inj hr
    exact hV
  | cons ev evs ih =>
    intro fut e i
    obtain ⟨V, v, hv, hV⟩ := speed i
    rw [imuArrivals_cons, List.append_assoc] at i
    obtain ⟨e1, h1, i1⟩ := step_inv ev i
    obtain ⟨V', hV'⟩ := ih i1
    refine ⟨max V V', fun pre e' hp hr => ?_⟩
    cases pre with
    | nil =>
      obtain rfl := Option.some.inj hr
      exact ⟨v, hv, le_trans hV (le_max_left _ _)⟩
    | cons ev' pre =>
      rw [List.cons_prefix_cons] at hp
      obtain ⟨rfl, hp⟩ := hp
      simp only [Estimator.run, h1, Option.bind_some] at hr
      obtain ⟨w, hw, hw'⟩ := hV' pre e' hp hr
      exact ⟨w, hw, le_trans hw' (le_max_right _ _)⟩

/-- **C151**: later, without `clear()`, the tilt becomes less well known by the gyroscope noise only, whether or not there are further
measurements: the variance grows at most at the rate of the squared gyroscope noise, at any speed. -/
theorem C151_later {σ t t' : ℝ} {h : Heap} {g : EstConfig} {ic : ImuPropConfig} {cs : List CorrConfig} {evs0 evs : List EstEv} {e0 e e' : Estimator}
    (hc : Estimator.ctor .rightInvariant h g ic cs = some e0) (u : Usable ic cs (imuArrivals (evs0 ++ evs)))
    (hb : ic.enable_imu_bias_update.getD false = false) (hcs : ∀ c ∈ cs, ∃ v : VelConfig, c = .vel v ∧ |v.velocity_std.getD 0.1| ≤ σ)
    (h0 : e0.run evs0 = some e) (hen : e.enabled = true) (hn : NoClear evs) (h1 : e.run evs = some e') (ht : e.state.tProp = some t)
    (ht' : e'.state.tProp = some t') (w : V3) :
    t ≤ t' ∧ ∃ C C', e.state.get_rotation_covariance = some C ∧ e'.state.get_rotation_covariance = some C' ∧
      w ⬝ᵥ C'.mulVec w ≤ w ⬝ᵥ C.mulVec w + (w ⬝ᵥ w) * ((t' - t) * (ic.gyroscope_std.getD 0.1) ^ 2) := by
  have i0 := ctor_tilt u hc hb hcs
  rw [imuArrivals_append] at i0
  have i := run_tiltInv evs0 i0 h0
  obtain ⟨V, hs⟩ := speedBound_exists (fut := []) evs (by simpa using i.inv)
  have hs' : SpeedBound (max V 0) e evs := fun pre e2 hp hr => by
    obtain ⟨v, hv, hV⟩ := hs pre e2 hp hr
    exact ⟨v, hv, le_trans hV (le_max_left _ _)⟩
  have i' : TiltInv σ (ic.gyroscope_std.getD 0.1) (ic.accelerometer_std.getD 0.1) (imuArrivals evs ++ []) e := by simpa using i
  have j := run_tiltInv evs i' h1
  obtain ⟨-, tp, tp', q1, q2, q3, q4⟩ := run_tilt (le_max_right V 0) evs i' hen hn hs' h1
  rw [ht] at q1
  rw [ht'] at q2
  obtain rfl := Option.some.inj q1
  obtain rfl := Option.some.inj q2
  have q := q4 w 0 (norm3 w) fun τ _ _ => by rw [mulVec_zero, smul_zero, add_zero]
  rw [mulVec_zero, smul_zero, add_zero] at q
  have hq : ∀ {K : ℕ} {hh : Heap} {s : RobotState}, Good K hh s → s.get_rotation_covariance = some (s.P.blk3 0 0) ∧
      quad s.P (lin w 0) = w ⬝ᵥ (s.P.blk3 0 0).mulVec w := by
    intro K hh s gd
    have p1 := gd.shape.pr
    have p2 := gd.shape.pc
    refine ⟨Mat.blk3?_eq (by omega) (by omega), ?_⟩
    rw [← quad_spread (k := 0) (by omega) (by omega)]
    congr 1
    funext j
    rw [at3_e (lin w 0) j, at3_e (spread 0 w) j, lin_at3, spread_at3]
    split_ifs <;> rfl
  obtain ⟨K, gd⟩ := i.inv.good
  obtain ⟨K', gd'⟩ := j.inv.good
  refine ⟨q3, _, _, (hq gd).1, (hq gd').1, ?_⟩
  rw [← (hq gd).2, ← (hq gd').2, nsq_dot]
  have hr : rate (ic.gyroscope_std.getD 0.1) (ic.accelerometer_std.getD 0.1) (max V 0) (norm3 w) (norm3 0) = nsq w * (ic.gyroscope_std.getD 0.1) ^ 2 := by
    rw [norm3_zero, rate, ← norm3_sq w]; ring
  rw [hr] at q
  have : nsq w * ((t' - t) * (ic.gyroscope_std.getD 0.1) ^ 2) = (t' - t) * (nsq w * (ic.gyroscope_std.getD 0.1) ^ 2) := by ring
  rw [this]
  exact q

/-- a turn of the main loop with an IMU measurement and a usable velocity at the front of the queues -/
theorem tick_uses {fut : List ImuMeas} {e : Estimator} (i : EstInv fut e) (hen : e.enabled = true) {c : VelCorr} (hc : e.corrs = velOnly [c]) {x : VelMeas}
    {xs : List VelMeas} (hx : c.buffer = x :: xs) {m f : ImuMeas} {fs : List ImuMeas} (hb : e.prop.buffer = f :: fs) (hm : e.prop.prev = some m)
    (h1 : x.time < m.time) (h2 : ¬ Stale c.tDiffThres m.time x.time) :
    Measures e ∧ ∃ e', e.step .tick = some e' ∧ EstInv fut e' ∧ e'.enabled = true ∧ e'.corrs = velOnly [{ c with buffer := xs }] ∧
      e'.prop.prev = some f ∧ e'.prop.buffer = fs ∧ e'.state.tProp = some m.time := by
  obtain ⟨K, g⟩ := i.good
  obtain ⟨hpend, tp, m', htp, hm', hle, ht⟩ := i.run hen
  rw [hm] at hm'
  obtain rfl := Option.some.inj hm'
  obtain ⟨b0, p', s1, e1, g1, -, q2⟩ := prop_good g i.noise hm htp hle
  obtain ⟨-, rfl, -, q3, -⟩ := q2 f fs hb
  have hcp : PD (of3 c.cov) := (i.corrs.each (.vel c) (by rw [hc]; simp [velOnly])).param
  obtain ⟨s2, e2, -⟩ := C48_first_fresh (pre := []) (rest := xs) (m := x) c s1 g1.shape g1.world g1.psd hcp hx q3 (by rw [hx]; simpa using h1) (by simp) h2
  have e2' : (Corr.vel c).correct e.heap s1 = some (true, .vel { c with buffer := xs }, e.heap, s2) := by simp [Corr.correct, e2]
  have hM : Measures e := ⟨_, _, _, [true], _, _, _, e1, by rw [hc]; exact .cons e2' (.nil _ _), by simp⟩
  obtain ⟨e', h', inv⟩ := step_inv (fut := fut) .tick (by simpa [imuArrivals] using i)
  have hca : Estimator.correctAll e.corrs e.heap s1 = some (true, velOnly [{ c with buffer := xs }], e.heap, s2) := by
    rw [hc]
    simp [velOnly, Estimator.correctAll, e2']
  have hk : e'.enabled = true ∧ e'.corrs = velOnly [{ c with buffer := xs }] ∧ e'.prop = { e.prop with prev := some f, buffer := fs } ∧ e'.state = s2 := by
    have h : e.tick = some e' := h'
    unfold Estimator.tick at h
    rw [hpend, hen] at h
    have h : e.runOnce = some e' := h
    simp only [Estimator.runOnce, e1, hca, Option.bind_eq_bind, Option.bind_some] at h
    split at h
    · rw [← Option.some.inj h]; exact ⟨hen, rfl, rfl, rfl⟩
    · rw [← Option.some.inj h]; exact ⟨hen, rfl, rfl, rfl⟩
  have hc1 : CorrsOK s1 e.corrs := by
    obtain ⟨-, -, -, -, hcm⟩ := q2 f fs hb
    exact ⟨fun c hc => (i.corrs.each c hc).keep (by rw [hcm]; exact (i.corrs.each c hc).ids.mem), i.corrs.disj⟩
  obtain ⟨b', bs, cs', h'', s2', K', e2'', -, -, -, -, htp2, -⟩ := correctAll_spec e.corrs g1 hc1 q3
  rw [hca] at e2''
  obtain ⟨-, -, -, rfl⟩ := Option.some.inj e2''
  refine ⟨hM, e', h', inv, hk.1, hk.2.1, by rw [hk.2.2.1], by rw [hk.2.2.1], by rw [hk.2.2.2, htp2, q3]⟩

/-- the hypotheses of `C151_tilt` are met: a robot drives at 1 m/s; two velocities and two more IMU measurements, of 0.1 s and 0.2 s, arrive after
the initialisation, and the next two turns of the main loop each use a velocity; between them 0.1 s of motion is integrated -/
example : ∃ (evs0 : List EstEv) (e0 e e1 e3 : Estimator) (V : ℝ), Estimator.ctor .rightInvariant ⟨fun _ => 0, 0⟩ {} fwdConfig [.vel {}] = some e0 ∧
    Usable fwdConfig [.vel {}] (imuArrivals (evs0 ++ .tick :: ([] ++ [.tick]))) ∧ fwdConfig.enable_imu_bias_update.getD false = false ∧
    (∀ c ∈ [CorrConfig.vel {}], ∃ v : VelConfig, c = .vel v ∧ |v.velocity_std.getD 0.1| ≤ 0.1) ∧ e0.run evs0 = some e ∧ e.enabled = true ∧ Measures e ∧
    e.step .tick = some e1 ∧ NoClear [] ∧ SpeedBound V e1 [] ∧ e1.run [] = some e1 ∧ Measures e1 ∧ e1.step .tick = some e3 ∧
    e1.state.tProp = some 0 ∧ e3.state.tProp = some 0.1 := by
  obtain ⟨e0, e, c, h0, h1, hen, hp, hc, c1, c2, c3, c4, c5, c6, k1, k2, k3, k4, k5, k6, k7, k8, k9, k10⟩ := fwd_start 1 0
  have u : Usable fwdConfig [.vel {}] (imuArrivals ([.tick, .imu (fwdImu 0 0), .vel 0 (fwdVel 1 0 0), .tick] ++
      [.imu (fwdImu 0 0.1), .imu (fwdImu 0 0.2), .vel 0 (fwdVel 1 0 (-0.1)), .vel 0 (fwdVel 1 0 (-0.05))])) :=
    ⟨by norm_num, by simp, .inl rfl, .inl rfl, by simp [imuArrivals, fwdImu]; norm_num⟩
  obtain ⟨ea, ha⟩ : ∃ ea, e0.run ([.tick, .imu (fwdImu 0 0), .vel 0 (fwdVel 1 0 0), .tick] ++
      [.imu (fwdImu 0 0.1), .imu (fwdImu 0 0.2), .vel 0 (fwdVel 1 0 (-0.1)), .vel 0 (fwdVel 1 0 (-0.05))]) = some ea :=
    (C58_safe h0 _ u).imp fun _ h => h.1
  have hi : EstInv [] ea := inUse_inv (exInUse h0 u ha)
  have ha' := ha
  rw [est_run_append, h1] at ha'
  simp only [Option.bind_some, Estimator.run, Estimator.step, hc, velOnly, List.map_cons, List.map_nil, List.modify_zero_cons, Corr.pushVel] at ha'
  have hea := Option.some.inj ha'
  have x1 : ea.corrs = velOnly [{ c with buffer := [fwdVel 1 0 (-0.1), fwdVel 1 0 (-0.05)] }] := by rw [← hea]; simp [velOnly, c1]
  have x2 : ea.prop.buffer = [fwdImu 0 0.1, fwdImu 0 0.2] := by rw [← hea]; simp [k6]
  have x3 : ea.prop.prev = some (fwdImu 0 0) := by rw [← hea]; simp [k5]
  have x4 : ea.enabled = true := by rw [← hea]; exact hen
  obtain ⟨M1, e1, s1, i1, n1, y1, y2, y3, y4⟩ := tick_uses hi x4 x1 rfl x2 x3 (by simp [fwdImu, fwdVel]; norm_num) (by
    show ¬ Stale c.tDiffThres _ _
    rw [c6]; simp [Stale, fwdImu, fwdVel]; norm_num)
  obtain ⟨M2, e3, s3, i3, n3, -, -, -, z4⟩ := tick_uses i1 n1 y1 rfl y3 y2 (by simp [fwdImu, fwdVel]; norm_num) (by
    show ¬ Stale c.tDiffThres _ _
    rw [c6]; simp [Stale, fwdImu, fwdVel]; norm_num)
  obtain ⟨K, gd⟩ := i1.good
  have w1 := gd.shape.x.rows; have w2 := gd.shape.x.cols; have hK := gd.shape.k
  refine ⟨_, e0, ea, e1, e3, norm3 (e1.state.X.blkV 0 3), h0, ?_, rfl, ?_, ha, x4, M1, s1, by simp [NoClear], ?_, rfl, M2, s3, y4, z4⟩
  · rw [imuArrivals_append]
    simpa [imuArrivals] using u
  · intro d hd
    rw [List.mem_singleton] at hd
    exact ⟨{}, hd, by norm_num [abs_of_pos]⟩
  · intro pre e' hpre hr
    rw [List.prefix_nil] at hpre
    subst hpre
    obtain rfl := Option.some.inj hr
    exact ⟨_, blkV?_eq (by omega) (by omega), le_refl _⟩

end Drift
