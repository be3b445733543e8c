import Verif.Spec.Noise
import Verif.Lemmas.Legged4
import Verif.Props.Equiv

/-!
# Property C96: the process noise of an IMU step
-/
set_option linter.unusedSimpArgs false
namespace Drift
open Mat Matrix Finset RobotState ImuProp

theorem quad_put {A : Mat} {b : ℕ} {M : M3} (hr : 3 * b + 3 ≤ A.rows) (hsq : A.rows = A.cols)
    (hz : ∀ i j, (3 * b ≤ i ∧ i < 3 * b + 3) → (3 * b ≤ j ∧ j < 3 * b + 3) → A.e i j = 0) (x : ℕ → ℝ) :
    quad (A.setBlockP (3 * b) (3 * b) (of3 M)) x = quad A x + at3 x b ⬝ᵥ M.mulVec (at3 x b) := by
  have e : A.setBlockP (3 * b) (3 * b) (of3 M) = A + inj A.rows (3 * b) * of3 M * (inj A.rows (3 * b)).T := by
    refine ext' rfl rfl fun i j hi hj => ?_
    simp only [setBlockP_rows, setBlockP_cols] at hi hj
    rw [setBlockP_of3_e hr (by omega), add_e' (by simp) (by simp [hsq]), inj_conj_e M hr]
    by_cases h : (3 * b ≤ i ∧ i < 3 * b + 3) ∧ (3 * b ≤ j ∧ j < 3 * b + 3)
    · rw [dif_pos h, dif_pos h, hz i j h.1 h.2, zero_add]
    · rw [dif_neg h, dif_neg h, add_zero]
  rw [e, quad_add (by simp) (by simp [hsq]), quad_congr_mul rfl rfl]
  have hk : ∀ k : Fin 3, (∑ i ∈ range (inj A.rows (3 * b)).rows, x i * (inj A.rows (3 * b)).e i k) = at3 x b k := by
    intro k
    have := k.2
    rw [sum_eq_single (3 * b + k)]
    · rw [inj_e hr, if_pos ⟨by omega, rfl⟩]; simp [at3]
    · intro i _ hi; rw [inj_e hr, if_neg (by tauto)]; ring
    · intro h; exact absurd (mem_range.mpr (by simp; omega)) h
  rw [quad_of3]
  simp only [hk]
  congr 1
  simp only [dotProduct, Matrix.mulVec, Fin.sum_univ_three]
  ring

theorem quad_qcK {K : ℕ} (hK : 2 ≤ K) (p : ImuProp) {Q : Mat} (hQ : QcOK K Q) (n : ℕ → ℝ) :
    quad (qcK K p Q) n = noiseRate K p Q n := by
  have hr := hQ.r
  have hsq := hQ.psd.sq
  have hc : Q.cols = 3 * K + 9 := by omega
  have q1 := fun x => quad_put (A := Q) (b := 0) (M := p.gyroCov) (by omega) hsq (fun i j hi _ => hQ.zero i j (by omega)) x
  have q2 := fun x => quad_put (A := Q.setBlockP (3 * 0) (3 * 0) (of3 p.gyroCov)) (b := 1) (M := p.accelCov) (by simp; omega) hsq (fun i j hi _ => by
    rw [setBlockP_of3_e (by omega) (by omega), dif_neg (by omega)]
    exact hQ.zero i j (by omega)) x
  unfold qcK noiseRate
  dsimp only
  split_ifs
  · have q3 := fun x => quad_put (A := (Q.setBlockP (3 * 0) (3 * 0) (of3 p.gyroCov)).setBlockP (3 * 1) (3 * 1) (of3 p.accelCov)) (b := K + 1)
      (M := p.gyroBiasCov) (by simp; omega) hsq (fun i j hi hj => by
        rw [setBlockP_of3_e (by simp; omega) (by simp; omega), dif_neg (by omega), setBlockP_of3_e (by omega) (by omega), dif_neg (by omega)]
        exact hQ.zero i j (by omega)) x
    have q4 := fun x => quad_put (A := ((Q.setBlockP (3 * 0) (3 * 0) (of3 p.gyroCov)).setBlockP (3 * 1) (3 * 1) (of3 p.accelCov)).setBlockP
        (3 * (K + 1)) (3 * (K + 1)) (of3 p.gyroBiasCov)) (b := K + 2)
      (M := p.accelBiasCov) (by simp; omega) hsq (fun i j hi hj => by
        rw [setBlockP_of3_e (by simp; omega) (by simp; omega), dif_neg (by omega), setBlockP_of3_e (by simp; omega) (by simp; omega), dif_neg (by omega),
          setBlockP_of3_e (by omega) (by omega), dif_neg (by omega)]
        exact hQ.zero i j (by omega)) x
    have := q4 n
    rw [q3, q2, q1] at this
    rw [show 3 * K + 3 = 3 * (K + 1) by ring, show 3 * K + 6 = 3 * (K + 2) by ring]
    refine Eq.trans this ?_
    ring
  · have := q2 n
    rw [q1] at this
    refine Eq.trans this ?_
    ring

theorem pull_mul {A B : Mat} (h : A.cols = B.rows) (x : ℕ → ℝ) (k : ℕ) : pull (A * B) x k = pull B (pull A x) k := by
  unfold pull
  simp only [mul_rows, mul_e, mul_sum, sum_mul, ← h]
  rw [sum_comm]
  exact sum_congr rfl fun j _ => sum_congr rfl fun i _ => by ring

theorem pull_one {n : ℕ} (x : ℕ → ℝ) {k : ℕ} (hk : k < n) : pull (one n) x k = x k := by
  unfold pull
  rw [sum_eq_single k]
  · rw [one_e, if_pos ⟨hk, rfl⟩, mul_one]
  · intro i _ hi; rw [one_e, if_neg (by tauto), mul_zero]
  · intro h; exact absurd (mem_range.mpr hk) h

theorem quad_ext {A : Mat} {n : ℕ} (hr : A.rows = n) (hc : A.cols = n) {x y : ℕ → ℝ} (h : ∀ i, i < n → x i = y i) : quad A x = quad A y := by
  unfold quad
  rw [hr, hc]
  exact sum_congr rfl fun i hi => sum_congr rfl fun j hj => by rw [h i (mem_range.mp hi), h j (mem_range.mp hj)]

/-- **C96**: the variance of any linear function `x` of the error after an IMU step is the variance of the same
function of the propagated error, plus the time step times the configured noise variances through the channels
reached by `x`: gyroscope, accelerometer, contacts, and (when biases are estimated) bias random walks.  (Without
bias estimation `x` reads no bias.) -/
theorem C96_process_noise {K p s m f rest tp} (h : PropReady K p s m f rest tp) (hQ : QcOK K s.Qc)
    {b p' s'} (hp : p.propagate s = some (b, p', s')) :
    ∃ bg ba w a Φ, s.get_gyroscope_bias = some bg ∧ s.get_accelerometer_bias = some ba ∧ RatesOf p m bg ba w a ∧
      p.stateTransitionMatrix w a (m.time - tp) s = some Φ ∧
      ∀ x n, (p.enableBias = false → ∀ i, 3 * K + 3 ≤ i → x i = 0) → Channels K p.errorType s.X (pull Φ x) n →
        quad s'.P x = quad s.P (pull Φ x) + (m.time - tp) * noiseRate K p s.Qc n := by
  obtain ⟨bg, ba, w, a, h1, h2, h3, e⟩ := h.run
  rw [e] at hp
  cases hp
  refine ⟨bg, ba, w, a, _, h1, h2, h3, stateTransitionMatrix_eq h.shape h.world w a _, fun x n hx hn => ?_⟩
  have hpr := h.shape.pr; have hpc := h.shape.pc
  have hqr := h.qr; have hqc := h.qc
  set Φ := phiK K p w a (m.time - tp) s.X with hΦ
  have q0 : quad (fin K p.enableBias (covK K p w a (m.time - tp) s.X s.P s.Qc)) x = quad (covK K p w a (m.time - tp) s.X s.P s.Qc) x := by
    unfold fin
    split_ifs with hb
    · rfl
    · exact quad_mask x fun i hi => hx (by simpa using hb) i (by omega)
  show quad (fin K p.enableBias (covK K p w a (m.time - tp) s.X s.P s.Qc)) x = _
  rw [q0]
  unfold covK
  dsimp only
  rw [quad_add (by simp) (by simp), quad_smul, quad_congr_mul (by simp [hpr]) (by omega), quad_congr_mul (by simp [hqr]) (by simp [hqr, hqc])]
  congr 2
  rw [← quad_qcK h.shape.k p hQ]
  have hG : ∀ k, k < 3 * K + 9 → pull (gK K p s.X) (pull Φ x) k = n k := by
    intro k hk
    unfold gK
    unfold Channels at hn
    cases he : p.errorType with
    | leftInvariant => rw [he] at hn; simp only at hn ⊢; rw [pull_one _ hk, hn]
    | rightInvariant =>
      rw [he] at hn
      simp only at hn ⊢
      obtain ⟨A, hA, hn⟩ := hn
      rw [adjoint_AdM h.shape.x.rows h.shape.x.cols] at hA
      cases hA
      rw [hn]; rfl
  refine quad_ext (n := 3 * K + 9) (by simp [hqr]) (by simp [hqc]) fun k hk => ?_
  rw [← hG k hk, ← pull_mul (by simp [hΦ])]
  rfl

/-- the fixed parameters of the propagation -/
structure SameNoise (p p' : ImuProp) : Prop where
  g : p'.gyroCov = p.gyroCov
  a : p'.accelCov = p.accelCov
  bg : p'.gyroBiasCov = p.gyroBiasCov
  ba : p'.accelBiasCov = p.accelBiasCov
  en : p'.enableBias = p.enableBias
  et : p'.errorType = p.errorType

theorem SameNoise.refl (p : ImuProp) : SameNoise p p := ⟨rfl, rfl, rfl, rfl, rfl, rfl⟩
theorem SameNoise.trans {p q r : ImuProp} (h : SameNoise p q) (k : SameNoise q r) : SameNoise p r :=
  ⟨k.g.trans h.g, k.a.trans h.a, k.bg.trans h.bg, k.ba.trans h.ba, k.en.trans h.en, k.et.trans h.et⟩

theorem noise_initFrom {e e' : Estimator} {k : ℕ} (h : e.initFrom k = some e') : e'.prop = e.prop := by
  unfold Estimator.initFrom at h
  simp only [Option.bind_eq_bind, Option.bind_eq_some_iff] at h
  obtain ⟨⟨d, t, s⟩, e1, h⟩ := h
  cases t with
  | nil =>
    simp only [Estimator.finishInit, Option.bind_eq_bind, Option.bind_eq_some_iff] at h
    obtain ⟨_, -, _, -, _, -, h⟩ := h
    rw [← Option.some.inj h]
  | cons c cs =>
    simp only at h
    rw [← Option.some.inj h]

theorem noise_step {e e' : Estimator} {ev : EstEv} (h : e.step ev = some e') : SameNoise e.prop e'.prop := by
  cases ev with
  | imu m => rw [← Option.some.inj h]; exact ⟨rfl, rfl, rfl, rfl, rfl, rfl⟩
  | vel i m => rw [← Option.some.inj h]; exact ⟨rfl, rfl, rfl, rfl, rfl, rfl⟩
  | leg i m => rw [← Option.some.inj h]; exact ⟨rfl, rfl, rfl, rfl, rfl, rfl⟩
  | clear =>
    have h : (match e.pending with | none => some e.clear | some _ => some e) = some e' := h
    split at h
    · rw [← Option.some.inj h]; exact ⟨rfl, rfl, rfl, rfl, rfl, rfl⟩
    · rw [← Option.some.inj h]; exact ⟨rfl, rfl, rfl, rfl, rfl, rfl⟩
  | log =>
    have h : e.log.iter.map _ = some e' := h
    simp only [Option.map_eq_some_iff] at h
    obtain ⟨a, -, rfl⟩ := h
    exact ⟨rfl, rfl, rfl, rfl, rfl, rfl⟩
  | consume => rw [← Option.some.inj h]; exact ⟨rfl, rfl, rfl, rfl, rfl, rfl⟩
  | tick =>
    have h : e.tick = some e' := h
    unfold Estimator.tick at h
    split at h
    · rw [noise_initFrom h]; exact ⟨rfl, rfl, rfl, rfl, rfl, rfl⟩
    · split at h
      · unfold Estimator.runOnce at h
        simp only [Option.bind_eq_bind, Option.bind_eq_some_iff] at h
        obtain ⟨⟨b, p, s⟩, e1, ⟨b', cs, hh, s'⟩, e2, h⟩ := h
        have k1 : SameNoise e.prop p := by
          unfold ImuProp.propagate at e1
          split at e1
          · simp only [Option.some.injEq, Prod.mk.injEq] at e1; rw [← e1.2.1]; exact ⟨rfl, rfl, rfl, rfl, rfl, rfl⟩
          · simp only [Option.bind_eq_bind, Option.bind_eq_some_iff] at e1
            obtain ⟨_, -, _, -, _, -, _, -, _, -, _, -, _, -, e1⟩ := e1
            simp only [Option.some.injEq, Prod.mk.injEq] at e1
            rw [← e1.2.1]; exact ⟨rfl, rfl, rfl, rfl, rfl, rfl⟩
        simp only at h
        split at h
        · rw [← Option.some.inj h]; exact k1
        · rw [← Option.some.inj h]; exact k1
      · split at h
        · unfold Estimator.initState at h
          simp only [Option.bind_eq_bind, Option.bind_eq_some_iff] at h
          obtain ⟨⟨b, p, s⟩, e1, h⟩ := h
          have k1 : SameNoise e.prop p := by
            unfold ImuProp.setInitialState at e1
            split at e1
            · simp only [Option.some.injEq, Prod.mk.injEq] at e1; rw [← e1.2.1]; exact ⟨rfl, rfl, rfl, rfl, rfl, rfl⟩
            · simp only [Option.bind_eq_bind, Option.bind_eq_some_iff] at e1
              obtain ⟨_, -, _, -, _, -, _, -, _, -, _, -, e1⟩ := e1
              simp only [Option.some.injEq, Prod.mk.injEq] at e1
              rw [← e1.2.1]; exact ⟨rfl, rfl, rfl, rfl, rfl, rfl⟩
          simp only at h
          split at h
          · rw [noise_initFrom h]; exact k1
          · rw [← Option.some.inj h]; exact k1
        · unfold Estimator.initBias at h
          simp only [Option.map_eq_some_iff] at h
          obtain ⟨q, hq, rfl⟩ := h
          show SameNoise e.prop q
          unfold ImuProp.initImuBias at hq
          split_ifs at hq
          · rw [← Option.some.inj hq]; exact ⟨rfl, rfl, rfl, rfl, rfl, rfl⟩
          · split at hq
            · rw [← Option.some.inj hq]; exact ⟨rfl, rfl, rfl, rfl, rfl, rfl⟩
            · rw [← Option.some.inj hq]; exact ⟨rfl, rfl, rfl, rfl, rfl, rfl⟩
          · rw [← Option.some.inj hq]; exact ⟨rfl, rfl, rfl, rfl, rfl, rfl⟩

theorem noise_run (evs : List EstEv) : ∀ {e e' : Estimator}, e.run evs = some e' → SameNoise e.prop e'.prop := by
  induction evs with
  | nil => intro e e' h; cases h; exact ⟨rfl, rfl, rfl, rfl, rfl, rfl⟩
  | cons ev evs ih =>
    intro e e' h
    simp only [Estimator.run, Option.bind_eq_some_iff] at h
    obtain ⟨e1, h1, h2⟩ := h
    exact (noise_step h1).trans (ih h2)

/-- **C96**: in every history the variances used are the squares of the configured standard deviations (default
`0.1`), and biases are estimated iff configured (default: not). -/
theorem C96_configured {et h c ic cs e0 evs e} (hc : Estimator.ctor et h c ic cs = some e0) (hr : e0.run evs = some e) :
    e.prop.gyroCov = (ic.gyroscope_std.getD 0.1) ^ 2 • (1 : M3) ∧ e.prop.accelCov = (ic.accelerometer_std.getD 0.1) ^ 2 • (1 : M3) ∧
      e.prop.gyroBiasCov = (ic.gyroscope_bias_std.getD 0.1) ^ 2 • (1 : M3) ∧
      e.prop.accelBiasCov = (ic.accelerometer_bias_std.getD 0.1) ^ 2 • (1 : M3) ∧
      e.prop.enableBias = ic.enable_imu_bias_update.getD false := by
  have n := noise_run evs hr
  unfold Estimator.ctor ImuProp.ctor at hc
  simp only [Option.bind_eq_bind, Option.bind_eq_some_iff] at hc
  obtain ⟨p, ⟨q, -, bg, -, ba, -, t, -, hp⟩, corrs, -, he⟩ := hc
  rw [← Option.some.inj he, ← Option.some.inj hp] at n
  exact ⟨n.g.trans (by rw [pow_two]), n.a.trans (by rw [pow_two]), n.bg.trans (by rw [pow_two]), n.ba.trans (by rw [pow_two]), n.en⟩

/-- the hypotheses are met -/
example (et en) : PropReady 2 (exProp et en) { RobotState.init with tProp := some 0 } (exImu 1) (exImu 2) [] 0 ∧
    QcOK 2 ({ RobotState.init with tProp := some 0 } : RobotState).Qc ∧
    ∀ y, ∃ n, Channels 2 et RobotState.init.X y n := by
  refine ⟨exReady et en, qcOK_zero (K := 2), fun y => ?_⟩
  cases et with
  | leftInvariant => exact ⟨y, rfl⟩
  | rightInvariant => exact ⟨_, _, adjoint_AdM init_shape.x.rows init_shape.x.cols, rfl⟩

end Drift
