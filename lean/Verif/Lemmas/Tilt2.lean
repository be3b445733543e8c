import Verif.Lemmas.Tilt1
import Verif.Props.Gauge

/-! # Lemmas: a linear function of the rotation and velocity error through the turns of the main loop -/
set_option linter.unusedSimpArgs false
namespace Drift
open Mat Matrix Finset RobotState ImuProp

/-! ### what the corrections are configured with does not change -/

/-- the covariance of a velocity correction -/
def Corr.vcov : Corr → Option M3
  | .vel v => some v.cov
  | .leg _ => none

theorem vcov_correct {c c' : Corr} {h h' : Heap} {s s' : RobotState} {b : Bool} (e : c.correct h s = some (b, c', h', s')) : c'.vcov = c.vcov := by
  cases c with
  | vel v =>
    simp only [Corr.correct, Option.map_eq_some_iff] at e
    obtain ⟨⟨b1, v1, s1⟩, e1, e2⟩ := e
    obtain ⟨-, rfl, -, -⟩ := e2
    show some v1.cov = some v.cov
    unfold VelCorr.correct at e1
    split at e1
    · obtain ⟨-, rfl, -⟩ := Option.some.inj e1; rfl
    · simp only [Option.bind_eq_bind, Option.bind_eq_some_iff] at e1
      obtain ⟨tp, -, e1⟩ := e1
      split_ifs at e1
      · obtain ⟨-, rfl, -⟩ := Option.some.inj e1; rfl
      · split at e1
        · obtain ⟨-, rfl, -⟩ := Option.some.inj e1; rfl
        · simp only [Option.bind_eq_some_iff] at e1
          obtain ⟨s2, -, e1⟩ := e1
          obtain ⟨-, rfl, -⟩ := Option.some.inj e1; rfl
  | leg l =>
    simp only [Corr.correct, Option.map_eq_some_iff] at e
    obtain ⟨⟨b1, v1, h1, s1⟩, e1, e2⟩ := e
    obtain ⟨-, rfl, -, -⟩ := e2
    rfl

theorem vcov_correctAll (cs : List Corr) : ∀ {cs' : List Corr} {h h' : Heap} {s s' : RobotState} {b : Bool},
    Estimator.correctAll cs h s = some (b, cs', h', s') → cs'.map Corr.vcov = cs.map Corr.vcov := by
  induction cs with
  | nil =>
    intro cs' h h' s s' b e
    obtain ⟨-, rfl, -⟩ := Option.some.inj e
    rfl
  | cons c cs ih =>
    intro cs' h h' s s' b e
    simp only [Estimator.correctAll, Option.bind_eq_bind, Option.bind_eq_some_iff] at e
    obtain ⟨⟨b1, c1, h1, s1⟩, e1, ⟨b2, cs2, h2, s2⟩, e2, e⟩ := e
    obtain ⟨-, rfl, -⟩ := Option.some.inj e
    rw [List.map_cons, List.map_cons, vcov_correct e1, ih e2]

theorem vcov_setInitial {c c' : Corr} {s s' : RobotState} {b : Bool} (e : c.setInitial s = some (b, c', s')) : c'.vcov = c.vcov := by
  cases c with
  | vel v =>
    simp only [Corr.setInitial, Option.map_eq_some_iff] at e
    obtain ⟨⟨b1, v1, s1⟩, e1, e2⟩ := e
    obtain ⟨-, rfl, -⟩ := e2
    show some v1.cov = some v.cov
    unfold VelCorr.setInitial at e1
    split at e1
    · obtain ⟨-, rfl, -⟩ := Option.some.inj e1; rfl
    · simp only [Option.bind_eq_bind, Option.bind_eq_some_iff] at e1
      obtain ⟨_, -, _, -, e1⟩ := e1
      obtain ⟨-, rfl, -⟩ := Option.some.inj e1; rfl
  | leg l =>
    simp only [Corr.setInitial, Option.map_eq_some_iff] at e
    obtain ⟨⟨b1, v1, s1⟩, e1, e2⟩ := e
    obtain ⟨-, rfl, -⟩ := e2
    rfl

theorem vcov_initCorrs (todo : List Corr) : ∀ {done d t : List Corr} {s s' : RobotState}, Estimator.initCorrs done todo s = some (d, t, s') →
    (d ++ t).map Corr.vcov = (done ++ todo).map Corr.vcov := by
  induction todo with
  | nil =>
    intro done d t s s' e
    obtain ⟨rfl, rfl, -⟩ := Option.some.inj e
    rfl
  | cons c cs ih =>
    intro done d t s s' e
    simp only [Estimator.initCorrs, Option.bind_eq_bind, Option.bind_eq_some_iff] at e
    obtain ⟨⟨b, c1, s1⟩, e1, e⟩ := e
    have hc := vcov_setInitial e1
    simp only at e
    split_ifs at e
    · rw [ih e]; simp [hc]
    · obtain ⟨rfl, rfl, -⟩ := Option.some.inj e
      simp [hc]

theorem vcov_initFrom {e e' : Estimator} {k : ℕ} (h : e.initFrom k = some e') : e'.corrs.map Corr.vcov = e.corrs.map Corr.vcov := by
  unfold Estimator.initFrom at h
  simp only [Option.bind_eq_bind, Option.bind_eq_some_iff] at h
  obtain ⟨⟨d, t, s⟩, e1, h⟩ := h
  have hv := vcov_initCorrs _ e1
  rw [List.take_append_drop] at hv
  cases t with
  | nil =>
    simp only [Estimator.finishInit, Option.bind_eq_bind, Option.bind_eq_some_iff] at h
    obtain ⟨_, -, _, -, _, -, h⟩ := h
    rw [← Option.some.inj h]
    exact hv
  | cons c cs =>
    simp only at h
    rw [← Option.some.inj h]
    exact hv

theorem vcov_modify {f : Corr → Corr} (hf : ∀ c, (f c).vcov = c.vcov) (cs : List Corr) : ∀ i, (cs.modify i f).map Corr.vcov = cs.map Corr.vcov := by
  induction cs with
  | nil => intro i; cases i <;> rfl
  | cons c cs ih =>
    intro i
    cases i with
    | zero => simp [hf]
    | succ i => simp [ih]

theorem vcov_step {e e' : Estimator} {ev : EstEv} (h : e.step ev = some e') : e'.corrs.map Corr.vcov = e.corrs.map Corr.vcov := by
  cases ev with
  | imu m => rw [← Option.some.inj h]
  | vel i m => rw [← Option.some.inj h]; exact vcov_modify (fun c => by cases c <;> rfl) _ _
  | leg i m => rw [← Option.some.inj h]; exact vcov_modify (fun c => by cases c <;> rfl) _ _
  | clear =>
    have h : (match e.pending with | none => some e.clear | some _ => some e) = some e' := h
    split at h
    · rw [← Option.some.inj h]
      show (e.corrs.map Corr.clear).map Corr.vcov = _
      rw [List.map_map]
      exact List.map_congr_left fun c _ => by cases c <;> rfl
    · rw [← Option.some.inj h]
  | log =>
    have h : e.log.iter.map _ = some e' := h
    simp only [Option.map_eq_some_iff] at h
    obtain ⟨a, -, rfl⟩ := h
    rfl
  | consume => rw [← Option.some.inj h]
  | tick =>
    have h : e.tick = some e' := h
    unfold Estimator.tick at h
    split at h
    · exact vcov_initFrom h
    · split at h
      · unfold Estimator.runOnce at h
        simp only [Option.bind_eq_bind, Option.bind_eq_some_iff] at h
        obtain ⟨⟨b, p, s⟩, e1, ⟨b', cs, hh, s'⟩, e2, h⟩ := h
        have := vcov_correctAll _ e2
        simp only at h
        split at h
        · rw [← Option.some.inj h]; exact this
        · rw [← Option.some.inj h]; exact this
      · split at h
        · unfold Estimator.initState at h
          simp only [Option.bind_eq_bind, Option.bind_eq_some_iff] at h
          obtain ⟨⟨b, p, s⟩, e1, h⟩ := h
          simp only at h
          split at h
          · have := vcov_initFrom h
            exact this
          · rw [← Option.some.inj h]
        · unfold Estimator.initBias at h
          simp only [Option.map_eq_some_iff] at h
          obtain ⟨q, hq, rfl⟩ := h
          rfl

theorem vcov_run (evs : List EstEv) : ∀ {e e' : Estimator}, e.run evs = some e' → e'.corrs.map Corr.vcov = e.corrs.map Corr.vcov := by
  induction evs with
  | nil => intro e e' h; cases h; rfl
  | cons ev evs ih =>
    intro e e' h
    simp only [Estimator.run, Option.bind_eq_some_iff] at h
    obtain ⟨e1, h1, h2⟩ := h
    rw [ih h2, vcov_step h1]

/-! ### norms -/

theorem nsq_dot (u : V3) : u ⬝ᵥ u = nsq u := by simp [nsq, dotProduct, Fin.sum_univ_three]; ring

theorem norm3_add_le (u v : V3) : norm3 (u + v) ≤ norm3 u + norm3 v := by
  have hu := norm3_nonneg u; have hv := norm3_nonneg v
  refine Real.sqrt_le_iff.mpr ⟨by positivity, ?_⟩
  have h1 := norm3_sq u; have h2 := norm3_sq v
  have h3 : (u 0 * v 0 + u 1 * v 1 + u 2 * v 2) ≤ norm3 u * norm3 v := by
    refine le_trans (le_abs_self _) (abs_le_of_sq_le_sq ?_ (by positivity)) |>.trans (le_refl _)
    rw [mul_pow, h1, h2]
    unfold nsq
    nlinarith [sq_nonneg (u 0 * v 1 - u 1 * v 0), sq_nonneg (u 0 * v 2 - u 2 * v 0), sq_nonneg (u 1 * v 2 - u 2 * v 1)]
  unfold nsq at h1 h2
  simp only [Pi.add_apply]
  nlinarith

theorem norm3_skew_le (v b : V3) : norm3 ((skew v)ᵀ.mulVec b) ≤ norm3 v * norm3 b := by
  have hu := norm3_nonneg v; have hv := norm3_nonneg b
  refine Real.sqrt_le_iff.mpr ⟨by positivity, ?_⟩
  rw [mul_pow, norm3_sq, norm3_sq]
  simp only [nsq, skew, mulVec, dotProduct, Fin.sum_univ_three, transpose_apply]
  simp
  nlinarith [sq_nonneg (v 0 * b 0 + v 1 * b 1 + v 2 * b 2)]

/-! ### the turns of the main loop -/

/-- the variance that the IMU noise adds per unit of time, at most, to a function that reads rotation with norm `A` and velocity with norm `B` -/
noncomputable def rate (sg sa V A B : ℝ) : ℝ := sg ^ 2 * (A + V * B) ^ 2 + sa ^ 2 * B ^ 2

/-- what is fixed during a history -/
structure TiltCfg (σ sg sa : ℝ) (e : Estimator) : Prop where
  ty : e.prop.errorType = .rightInvariant
  en : e.prop.enableBias = false
  g : e.prop.gyroCov = sg ^ 2 • (1 : M3)
  a : e.prop.accelCov = sa ^ 2 • (1 : M3)
  cty : ∀ c ∈ e.corrs, c.type = .rightInvariant
  cov : ∀ c ∈ e.corrs, ∃ r : ℝ, c.vcov = some (r ^ 2 • (1 : M3)) ∧ r ^ 2 ≤ σ ^ 2

theorem prop_tilt {K : ℕ} {h : Heap} {s s' : RobotState} (g : Good K h s) {p p' : ImuProp} {sg sa V : ℝ} (het : p.errorType = .rightInvariant)
    (hen : p.enableBias = false) (hg : p.gyroCov = sg ^ 2 • (1 : M3)) (ha : p.accelCov = sa ^ 2 • (1 : M3)) (hV : norm3 (s.X.blkV 0 3) ≤ V)
    {m f : ImuMeas} {rest : List ImuMeas} {tp : ℝ} (hb : p.buffer = f :: rest) (hm : p.prev = some m) (ht : s.tProp = some tp) (hle : tp ≤ m.time)
    {bb : Bool} (e : p.propagate s = some (bb, p', s')) (a b : V3) :
    quad s'.P (lin a b) ≤ quad s.P (lin (a + (m.time - tp) • (skew gravity)ᵀ.mulVec b) b) +
      (m.time - tp) * rate sg sa V (norm3 (a + (m.time - tp) • (skew gravity)ᵀ.mulVec b)) (norm3 b) := by
  have hsq := g.q.psd.sq
  have hr : PropReady K p s m f rest tp := ⟨g.shape, g.world, g.q.r, by rw [← hsq]; exact g.q.r, hb, hm, ht⟩
  rw [tilt_prop hr g.q het hen e a b, hg, ha]
  have hR : IsRot (s.X.blk3 0 0)ᵀ := by
    obtain ⟨h1, h2, h3⟩ := g.shape.x.rot
    exact ⟨by rw [transpose_transpose]; exact h2, by rw [transpose_transpose]; exact h1, by rw [det_transpose]; exact h3⟩
  refine add_le_add le_rfl (mul_le_mul_of_nonneg_left ?_ (by linarith))
  simp only [smul_mulVec, one_mulVec, dotProduct_smul, nsq_dot, smul_eq_mul, nsq_rot hR]
  unfold rate
  refine add_le_add (mul_le_mul_of_nonneg_left ?_ (sq_nonneg _)) (by rw [norm3_sq])
  rw [← norm3_sq]
  refine pow_le_pow_left₀ (norm3_nonneg _) (le_trans (norm3_add_le _ _) (add_le_add le_rfl ?_)) 2
  exact le_trans (norm3_skew_le _ _) (mul_le_mul_of_nonneg_right hV (norm3_nonneg _))

theorem correct_tilt {K : ℕ} {h h' : Heap} {s s' : RobotState} (g : Good K h s) {c c' : Corr} (hc : CorrOK s c) (hty : c.type = .rightInvariant) {r : ℝ}
    (hv : c.vcov = some (r ^ 2 • (1 : M3))) {b : Bool} (e : c.correct h s = some (b, c', h', s')) (x y : V3) :
    quad s'.P (lin x y) ≤ quad s.P (lin x y) ∧ (b = true → ∀ z : V3, quad s'.P (lin x y) ≤ quad s.P (lin x (y - z)) + r ^ 2 * nsq z) := by
  cases c with
  | leg l => simp [Corr.vcov] at hv
  | vel v =>
    have hv : v.cov = r ^ 2 • (1 : M3) := Option.some.inj hv
    have hpd : PD (of3 v.cov) := hc.param
    simp only [Corr.correct, Option.map_eq_some_iff] at e
    obtain ⟨⟨b1, v1, s1⟩, e1, e2⟩ := e
    obtain ⟨rfl, rfl, rfl, rfl⟩ := e2
    have key : ∀ {m s2}, v.apply m s = some s2 → ∀ z : V3, quad s2.P (lin x y) ≤ quad s.P (lin x (y - z)) + r ^ 2 * nsq z := by
      intro m s2 h2 z
      have := tilt_vel g.shape g.world g.psd hpd hty h2 x y z
      rw [hv, Matrix.mul_smul, Matrix.mul_one, Matrix.smul_mul, g.shape.x.rot.2.1, smul_mulVec, one_mulVec, dotProduct_smul, nsq_dot] at this
      exact this
    unfold VelCorr.correct at e1
    split at e1
    · obtain ⟨rfl, -, rfl⟩ := Option.some.inj e1; exact ⟨le_refl _, by simp⟩
    · simp only [Option.bind_eq_bind, Option.bind_eq_some_iff] at e1
      obtain ⟨tp, -, e1⟩ := e1
      split_ifs at e1
      · obtain ⟨rfl, -, rfl⟩ := Option.some.inj e1; exact ⟨le_refl _, by simp⟩
      · split at e1
        · obtain ⟨rfl, -, rfl⟩ := Option.some.inj e1; exact ⟨le_refl _, by simp⟩
        · simp only [Option.bind_eq_some_iff] at e1
          obtain ⟨s2, h2, e1⟩ := e1
          obtain ⟨-, -, rfl⟩ := Option.some.inj e1
          refine ⟨?_, fun _ => key h2⟩
          have := key h2 0
          simpa [nsq] using this

theorem correctAll_tilt {σ : ℝ} (cs : List Corr) : ∀ {K : ℕ} {h h' : Heap} {s s' : RobotState} (_ : Good K h s) (_ : CorrsOK s cs) {tp : ℝ}
    (_ : s.tProp = some tp) (_ : ∀ c ∈ cs, c.type = .rightInvariant) (_ : ∀ c ∈ cs, ∃ r : ℝ, c.vcov = some (r ^ 2 • (1 : M3)) ∧ r ^ 2 ≤ σ ^ 2)
    {b : Bool} {cs' : List Corr} (_ : Estimator.correctAll cs h s = some (b, cs', h', s')) (x y : V3),
    quad s'.P (lin x y) ≤ quad s.P (lin x y) ∧ (b = true → ∀ z : V3, quad s'.P (lin x y) ≤ quad s.P (lin x (y - z)) + σ ^ 2 * nsq z) := by
  induction cs with
  | nil =>
    intro K h h' s s' g hc tp ht hty hcv b cs' e x y
    obtain ⟨rfl, -, -, rfl⟩ := Option.some.inj e
    exact ⟨le_refl _, by simp⟩
  | cons c cs ih =>
    intro K h h' s s' g hc tp ht hty hcv b cs' e x y
    have hcd := List.pairwise_cons.mp hc.disj
    obtain ⟨b1, c1, h1, s1, K1, e1, g1, st⟩ := corr_correct g (hc.each c (by simp)) ht
    have hok1 : CorrsOK s1 cs := by
      refine ⟨fun d hd => (hc.each d (by simp [hd])).keep fun id a ha => ?_, hcd.2⟩
      exact st.keep a ((hc.each d (by simp [hd])).ids.mem id a ha) fun id' q => hcd.1 d hd id' id a q ha
    simp only [Estimator.correctAll, Option.bind_eq_bind, e1, Option.bind_some, Option.bind_eq_some_iff] at e
    obtain ⟨⟨b2, cs2, h2, s2⟩, e2, e⟩ := e
    obtain ⟨rfl, -, -, rfl⟩ := Option.some.inj e
    obtain ⟨r, hr, hrs⟩ := hcv c (by simp)
    have k1 := fun x y => correct_tilt g (hc.each c (by simp)) (hty c (by simp)) hr e1 x y
    have k2 := fun x y => ih g1 hok1 (st.tp.trans ht) (fun d hd => hty d (by simp [hd])) (fun d hd => hcv d (by simp [hd])) e2 x y
    refine ⟨le_trans (k2 x y).1 (k1 x y).1, fun hb z => ?_⟩
    cases b2 with
    | true => exact le_trans ((k2 x y).2 rfl z) (add_le_add (k1 x (y - z)).1 le_rfl)
    | false =>
      have hb1 : b1 = true := by simpa using hb
      refine le_trans (k2 x y).1 (le_trans ((k1 x y).2 hb1 z) (add_le_add le_rfl (mul_le_mul_of_nonneg_right hrs (nsq_nonneg z))))

end Drift
