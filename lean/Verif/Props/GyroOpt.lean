import Verif.Lemmas.Filter10
import Verif.Props.ImuFilter

/-!
# C153, C154: what the gyro filter makes of its measurements
-/
namespace Drift
open Matrix
open GyroFilter

/-- the covariance of a reachable filter is a covariance -/
theorem reach_psd {c : FCfg} {f₀ f : GyroFilter} (h0 : Fresh0 c f₀) {l : List Op} (h : runOps l f₀ = some f) :
    f.P.PosSemidef ∧ f.cfg = c := by
  have h1 : f₀.cfg = c := by rcases h0 with rfl | rfl <;> rfl
  have hP : f₀.P.PosSemidef := by rcases h0 with rfl | rfl <;> exact diag6_psd _ _
  have := runOps_varLe (z := 0) l _ f₀ f ⟨h1, hP, le_refl _⟩ h
  exact ⟨this.2.1, this.1⟩

/-- **C153**: a run that uses an IMU measurement replaces its prediction `(x, P)` by the estimate `x + K (y - H x)` with
the minimum-variance gain `K`, where `y` is the measured rate, `H` what the filter takes an IMU to measure and `R` the
configured variance; the new covariance is the covariance of the error of that estimate, and the output carries the new
rate, with the stamp, the acceleration and the orientation of the measurement. -/
theorem C153_imu (c : FCfg) (f₀ f f' : GyroFilter) (h0 : Fresh0 c f₀) (l : List Op) (h : runOps l f₀ = some f)
    (hu : UsesImu f f') :
    ∃ m q x P H K, f.imu = some (m :: q) ∧ Predicted f x P ∧ ImuSees c.flatGround H ∧
      BestGain P H (c.imuStd ^ 2 • 1) K ∧ f'.x = x + K *ᵥ (m.angVel - H *ᵥ x) ∧
      f'.P = afterGain P H (c.imuStd ^ 2 • 1) K ∧
      f'.out = f.out ++ [{ m with angVel := ![f'.x 0, f'.x 1, f'.x 2] }] := by
  obtain ⟨hP, hc⟩ := reach_psd h0 h
  obtain ⟨m, q, K, h1, h2, h3, h4, -, h6⟩ := usesImu_spec hP hu
  rw [hc, noise3, ← pow_two] at h2 h4
  rw [hc] at h3
  exact ⟨m, q, _, _, _, K, h1, propagate_predicted f, himu_sees _, h2, h3, h4, h6⟩

/-- **C153**: the same for a run that uses an encoder measurement, turned into the frame of the IMU; the output is
stamped with the time of the measurement. -/
theorem C153_enc (c : FCfg) (f₀ f f' : GyroFilter) (h0 : Fresh0 c f₀) (l : List Op) (h : runOps l f₀ = some f)
    (hu : UsesEnc f f') :
    ∃ a q x P H K o, f.enc = some (a :: q) ∧ Predicted f x P ∧ EncSees c.flatGround H ∧
      BestGain P H (c.encStd ^ 2 • 1) K ∧ f'.x = x + K *ᵥ (c.rotImu2body.toRotᵀ *ᵥ a.angVel - H *ᵥ x) ∧
      f'.P = afterGain P H (c.encStd ^ 2 • 1) K ∧
      f'.out = f.out ++ [o] ∧ o.angVel = ![f'.x 0, f'.x 1, f'.x 2] ∧ o.time = a.time := by
  obtain ⟨hP, hc⟩ := reach_psd h0 h
  obtain ⟨a, q, K, o, h1, h2, h3, h4, -, h6, h7, h8⟩ := usesEnc_spec hP hu
  rw [hc, noise3, ← pow_two] at h2 h4
  rw [hc, rotInv] at h3
  exact ⟨a, q, _, _, _, K, o, h1, propagate_predicted f, henc_sees _, h2, h3, h4, h6, h7, h8⟩

/-! ### Variances -/

theorem varIn_noise (s : ℝ) (u : V3) : varIn (noise3 s) u = s ^ 2 * (u ⬝ᵥ u) := by
  unfold varIn noise3
  rw [Matrix.smul_mulVec, Matrix.one_mulVec, dotProduct_smul, smul_eq_mul, pow_two]

theorem varIn_diag6 (a b : ℝ) (u v : V3) :
    varIn (diag6 a b) (rateDir u + biasDir v) = a ^ 2 * (u ⬝ᵥ u) + b ^ 2 * (v ⬝ᵥ v) := by
  unfold varIn diag6 rateDir biasDir
  simp [Matrix.mulVec_diagonal, dotProduct, Fin.sum_univ_succ]
  ring

theorem Himu_T {flat : Bool} {u : V3} (h : Measured flat u) : (Himu flat)ᵀ *ᵥ u = rateDir u + biasDir u := by
  rcases h with rfl | ⟨h0, h1⟩
  · ext i
    fin_cases i <;> simp [Himu, rateDir, biasDir, Matrix.mulVec, dotProduct, Fin.sum_univ_succ]
  · ext i
    cases flat <;> fin_cases i <;>
      simp [Himu, rateDir, biasDir, Matrix.mulVec, dotProduct, Fin.sum_univ_succ, h0, h1]

theorem Henc_T {flat : Bool} {u : V3} (h : Measured flat u) : (Henc flat)ᵀ *ᵥ u = rateDir u := by
  rcases h with rfl | ⟨h0, h1⟩
  · ext i
    fin_cases i <;> simp [Henc, rateDir, Matrix.mulVec, dotProduct, Fin.sum_univ_succ]
  · ext i
    cases flat <;> fin_cases i <;>
      simp [Henc, rateDir, Matrix.mulVec, dotProduct, Fin.sum_univ_succ, h0, h1]

/-- the best gain is not worse than the gain `G` with `Gᵀ z = w` -/
theorem best_le {P : M66} {H : M36} {R : M3} {K : Matrix (Fin 6) (Fin 3) ℝ} (hK : BestGain P H R K) (z : V6)
    (G : Matrix (Fin 6) (Fin 3) ℝ) (w : V3) (hw : Gᵀ *ᵥ z = w) :
    varIn (afterGain P H R K) z ≤ varIn P (z - Hᵀ *ᵥ w) + varIn R w := by
  refine (hK G z).trans (le_of_eq ?_)
  rw [afterGain, varIn_add, varIn_congr, varIn_congr, hw, transpose_sub, transpose_one, transpose_mul,
    Matrix.sub_mulVec, Matrix.one_mulVec, ← Matrix.mulVec_mulVec, hw]

/-- the gain that moves the rate -/
def toRate : Matrix (Fin 6) (Fin 3) ℝ := Matrix.of fun i j => if i.val = j.val then 1 else 0
/-- the gain that moves the bias -/
def toBias : Matrix (Fin 6) (Fin 3) ℝ := Matrix.of fun i j => if i.val = j.val + 3 then 1 else 0

theorem toRate_T (u v : V3) : toRateᵀ *ᵥ (rateDir u + biasDir v) = u := by
  ext i
  fin_cases i <;> simp [toRate, rateDir, biasDir, Matrix.mulVec, dotProduct, Fin.sum_univ_succ]

theorem toBias_T (u v : V3) : toBiasᵀ *ᵥ (rateDir u + biasDir v) = v := by
  ext i
  fin_cases i <;> simp [toBias, rateDir, biasDir, Matrix.mulVec, dotProduct, Fin.sum_univ_succ]

theorem rateDir_zero : rateDir 0 = 0 := by ext i; fin_cases i <;> rfl
theorem biasDir_zero : biasDir 0 = 0 := by ext i; fin_cases i <;> rfl

theorem varIn_zero {n : Type*} [Fintype n] (P : Matrix n n ℝ) : varIn P 0 = 0 := by
  unfold varIn; rw [zero_dotProduct]

theorem varIn_neg {n : Type*} [Fintype n] (P : Matrix n n ℝ) (z : n → ℝ) : varIn P (-z) = varIn P z := by
  unfold varIn; rw [Matrix.mulVec_neg, neg_dotProduct_neg]

/-- **C153**: after using an IMU measurement the filter knows rate plus bias at least as well as the IMU. -/
theorem C153_imu_variance (c : FCfg) (f₀ f f' : GyroFilter) (h0 : Fresh0 c f₀) (l : List Op)
    (h : runOps l f₀ = some f) (hu : UsesImu f f') (u : V3) (hm : Measured c.flatGround u) :
    varIn f'.P (rateDir u + biasDir u) ≤ c.imuStd ^ 2 * (u ⬝ᵥ u) := by
  obtain ⟨hP, hc⟩ := reach_psd h0 h
  obtain ⟨m, q, K, h1, h2, h3, h4, -, h6⟩ := usesImu_spec hP hu
  rw [hc] at h2 h4
  rw [h4]
  refine (best_le h2 _ toRate u (toRate_T u u)).trans ?_
  rw [Himu_T hm, sub_self, varIn_zero, varIn_noise, zero_add]

/-- **C153**: after using an encoder measurement the filter knows the rate at least as well as the encoders. -/
theorem C153_enc_variance (c : FCfg) (f₀ f f' : GyroFilter) (h0 : Fresh0 c f₀) (l : List Op)
    (h : runOps l f₀ = some f) (hu : UsesEnc f f') (u : V3) (hm : Measured c.flatGround u) :
    varIn f'.P (rateDir u) ≤ c.encStd ^ 2 * (u ⬝ᵥ u) := by
  obtain ⟨hP, hc⟩ := reach_psd h0 h
  obtain ⟨m, q, K, o, h1, h2, h3, h4, -, h6⟩ := usesEnc_spec hP hu
  rw [hc] at h2 h4
  rw [h4]
  have := best_le h2 (rateDir u) toRate u (by have := toRate_T u 0; rwa [biasDir_zero, add_zero] at this)
  refine this.trans ?_
  rw [Henc_T hm, sub_self, varIn_zero, varIn_noise, zero_add]

theorem uses_varLe {c : FCfg} {z : V6} {v : ℝ} {f : GyroFilter} (h : VarLe c z v f) :
    varIn f.propagate.P z ≤ v + varIn (diag6 c.filterStd c.filterBiasStd) z := (propagate_varLe h).2.2

theorem varIn_Q_sum (c : FCfg) (u : V3) : varIn (diag6 c.filterStd c.filterBiasStd) (rateDir u + biasDir u) =
    (c.filterStd ^ 2 + c.filterBiasStd ^ 2) * (u ⬝ᵥ u) := by rw [varIn_diag6]; ring

theorem varIn_Q_rate (c : FCfg) (u : V3) : varIn (diag6 c.filterStd c.filterBiasStd) (rateDir u) =
    c.filterStd ^ 2 * (u ⬝ᵥ u) := by
  have := varIn_diag6 c.filterStd c.filterBiasStd u 0
  rw [biasDir_zero, add_zero] at this
  rw [this, dotProduct_zero, mul_zero, add_zero]

theorem varIn_Q_bias (c : FCfg) (u : V3) : varIn (diag6 c.filterStd c.filterBiasStd) (biasDir u) =
    c.filterBiasStd ^ 2 * (u ⬝ᵥ u) := by
  have := varIn_diag6 c.filterStd c.filterBiasStd 0 u
  rw [rateDir_zero, zero_add] at this
  rw [this, dotProduct_zero, mul_zero, zero_add]

/-- **C154**: once an IMU measurement and, any number `runs l` of runs later, an encoder measurement have been used, the
filter knows the bias, whatever it started from: its variance is at most the variance of the two sensors plus the process
noise of the runs in between, and from then on grows by at most the configured bias noise per run. -/
theorem C154_imu_then_enc (c : FCfg) (f₀ f1 f2 f3 f4 f5 : GyroFilter) (h0 : Fresh0 c f₀) (l₀ l l' : List Op)
    (h1 : runOps l₀ f₀ = some f1) (h2 : UsesImu f1 f2) (h3 : runOps l f2 = some f3) (h4 : UsesEnc f3 f4)
    (h5 : runOps l' f4 = some f5) (u : V3) (hm : Measured c.flatGround u) :
    varIn f5.P (biasDir u) ≤ (c.imuStd ^ 2 + c.encStd ^ 2 + (runs l + 1) * (c.filterStd ^ 2 + c.filterBiasStd ^ 2) +
      runs l' * c.filterBiasStd ^ 2) * (u ⬝ᵥ u) := by
  have a1 := C153_imu_variance c f₀ f1 f2 h0 l₀ h1 h2 u hm
  obtain ⟨hP1, hc1⟩ := reach_psd h0 h1
  have hr2 : runOps (l₀ ++ [.run]) f₀ = some f2 := by
    rw [runOps_append, h1]; simp only [Option.bind_some, runOps, step]; rw [h2.1]; rfl
  obtain ⟨hP2, hc2⟩ := reach_psd h0 hr2
  have a3 := runOps_varLe l _ f2 f3 ⟨hc2, hP2, a1⟩ h3
  obtain ⟨m, q, K, o, -, b2, -, b4, b5, -⟩ := usesEnc_spec a3.2.1 h4
  have a4 := uses_varLe a3
  rw [a3.1] at b2 b4
  have hneg : (-toBias)ᵀ *ᵥ (biasDir u) = -u := by
    have := toBias_T 0 u
    rw [rateDir_zero, zero_add] at this
    rw [transpose_neg, Matrix.neg_mulVec, this]
  have a5 : varIn f4.P (biasDir u) ≤ varIn f3.propagate.P (rateDir u + biasDir u) + c.encStd ^ 2 * (u ⬝ᵥ u) := by
    rw [b4]
    refine (best_le b2 _ (-toBias) (-u) hneg).trans ?_
    rw [Matrix.mulVec_neg, Henc_T hm, varIn_neg, varIn_noise, sub_neg_eq_add, add_comm (biasDir u)]
  have hP4 : f4.P.PosSemidef := (run_varLe a3 h4.1).2.1
  have a6 := (runOps_varLe l' _ f4 f5 ⟨b5.trans a3.1, hP4, a5⟩ h5).2.2
  rw [varIn_Q_bias] at a6
  rw [varIn_Q_sum] at a4
  linarith

/-- **C154**: the same when the encoder measurement comes first. -/
theorem C154_enc_then_imu (c : FCfg) (f₀ f1 f2 f3 f4 f5 : GyroFilter) (h0 : Fresh0 c f₀) (l₀ l l' : List Op)
    (h1 : runOps l₀ f₀ = some f1) (h2 : UsesEnc f1 f2) (h3 : runOps l f2 = some f3) (h4 : UsesImu f3 f4)
    (h5 : runOps l' f4 = some f5) (u : V3) (hm : Measured c.flatGround u) :
    varIn f5.P (biasDir u) ≤ (c.imuStd ^ 2 + c.encStd ^ 2 + (runs l + 1) * c.filterStd ^ 2 +
      runs l' * c.filterBiasStd ^ 2) * (u ⬝ᵥ u) := by
  have a1 := C153_enc_variance c f₀ f1 f2 h0 l₀ h1 h2 u hm
  have hr2 : runOps (l₀ ++ [.run]) f₀ = some f2 := by
    rw [runOps_append, h1]; simp only [Option.bind_some, runOps, step]; rw [h2.1]; rfl
  obtain ⟨hP2, hc2⟩ := reach_psd h0 hr2
  have a3 := runOps_varLe l _ f2 f3 ⟨hc2, hP2, a1⟩ h3
  obtain ⟨m, q, K, -, b2, -, b4, b5, -⟩ := usesImu_spec a3.2.1 h4
  have a4 := uses_varLe a3
  rw [a3.1] at b2 b4
  have hT : toBiasᵀ *ᵥ (biasDir u) = u := by
    have := toBias_T 0 u
    rwa [rateDir_zero, zero_add] at this
  have a5 : varIn f4.P (biasDir u) ≤ varIn f3.propagate.P (rateDir u) + c.imuStd ^ 2 * (u ⬝ᵥ u) := by
    rw [b4]
    refine (best_le b2 _ toBias u hT).trans ?_
    rw [Himu_T hm, varIn_noise, show biasDir u - (rateDir u + biasDir u) = -rateDir u by abel, varIn_neg]
  have hP4 : f4.P.PosSemidef := (run_varLe a3 h4.1).2.1
  have a6 := (runOps_varLe l' _ f4 f5 ⟨b5.trans a3.1, hP4, a5⟩ h5).2.2
  rw [varIn_Q_bias] at a6
  rw [varIn_Q_rate] at a4
  linarith

/-! ### One kind of sensor is not enough -/

/-- `P` is at least `N` -/
def AtLeast (N : M66) (f : GyroFilter) : Prop := f.P.PosSemidef ∧ (f.P - N).PosSemidef

theorem atLeast_core (N : M66) : CoreOnly (AtLeast N) := fun f g _ _ h3 _ _ h => ⟨h3 ▸ h.1, h3 ▸ h.2⟩

theorem atLeast_kalman {N : M66} {f f' : GyroFilter} {H : M36} {s : ℝ} {y : V3} (hN : H * N = 0) (h : AtLeast N f)
    (hk : f.kalman H (noise3 s) y = some f') : AtLeast N f' := by
  obtain ⟨hd, hf'⟩ := kalman_some hk
  obtain ⟨K, -, -, hP'⟩ := kalman_spec h.1 (noise3_psd s) hk
  have hps : f'.P.PosSemidef := by rw [hf']; exact (kalman_cov h.1 (noise3_psd _) hd).1
  refine ⟨hps, ?_⟩
  have hNs : (1 - K * H) * N = N := by rw [Matrix.sub_mul, Matrix.one_mul, Matrix.mul_assoc, hN, Matrix.mul_zero, sub_zero]
  have hNT : Nᵀ = N := by
    have h1 := posSemidef_T h.2
    rw [transpose_sub, posSemidef_T h.1] at h1
    exact sub_right_injective h1
  have hN2 : (1 - K * H) * N * (1 - K * H)ᵀ = N := by
    rw [hNs]
    have := congrArg Matrix.transpose hNs
    rwa [transpose_mul, hNT] at this
  have e : f'.P - N = (1 - K * H) * (f.P - N) * (1 - K * H)ᵀ + K * noise3 s * Kᵀ := by
    rw [hP', afterGain, Matrix.mul_sub (1 - K * H) f.P N, Matrix.sub_mul ((1 - K * H) * f.P), hN2]; abel
  rw [e]
  exact (congr_psd h.2 _).add (congr_psd (noise3_psd s) _)

theorem atLeast_propagate {N : M66} {f : GyroFilter} (h : AtLeast N f) : AtLeast N f.propagate := by
  refine ⟨propagate_psd h.1, ?_⟩
  obtain ⟨_, _, _, h4 | h4, _⟩ := propagate_core f
  · rw [h4]; exact h.2
  · rw [h4, add_sub_right_comm]; exact h.2.add (diag6_psd _ _)

theorem fed_fresh {c : FCfg} {f₀ : GyroFilter} (h0 : Fresh0 c f₀) (G M : ImuMeas → Prop) (A : AngVelMeas → Prop)
    (Q B : V3 → Prop) : Fed G M A Q B f₀ := by
  rcases h0 with rfl | rfl <;> constructor <;> simp [mk1, mk5, base]

/-- the part of the covariance an IMU cannot reduce: equal and opposite errors of rate and bias -/
def opposite (k : ℝ) : M66 := Matrix.of fun i j => if i = j then k else if i.val = j.val + 3 ∨ j.val = i.val + 3 then -k else 0

theorem Himu_opposite (flat : Bool) (k : ℝ) : Himu flat * opposite k = 0 := by
  ext i j
  rw [Matrix.mul_apply]
  cases flat <;> fin_cases i <;> fin_cases j <;> simp [Himu, opposite, Fin.sum_univ_succ]

theorem varIn_opposite (k : ℝ) (u : V3) : varIn (opposite k) (biasDir u) = k * (u ⬝ᵥ u) := by
  simp [varIn, opposite, biasDir, Matrix.mulVec, dotProduct, Fin.sum_univ_succ]
  ring

/-- what the encoders say nothing about -/
def biasPart (k : ℝ) : M66 := Matrix.diagonal ![0, 0, 0, k, k, k]

theorem Henc_biasPart (flat : Bool) (k : ℝ) : Henc flat * biasPart k = 0 := by
  ext i j
  rw [Matrix.mul_apply]
  cases flat <;> fin_cases i <;> fin_cases j <;> simp [Henc, biasPart, Fin.sum_univ_succ, Matrix.diagonal]

theorem varIn_biasPart (k : ℝ) (u : V3) : varIn (biasPart k) (biasDir u) = k * (u ⬝ᵥ u) := by
  simp [varIn, biasPart, biasDir, Matrix.mulVec, dotProduct, Fin.sum_univ_succ, Matrix.diagonal]
  ring

theorem diag_ge_opposite (a b : ℝ) : (diag6 a b - opposite (a ^ 2 * b ^ 2 / (a ^ 2 + b ^ 2))).PosSemidef := by
  set k := a ^ 2 * b ^ 2 / (a ^ 2 + b ^ 2) with hk
  have hkk : k * (a ^ 2 + b ^ 2) = a ^ 2 * b ^ 2 := by
    by_cases h : a ^ 2 + b ^ 2 = 0
    · have ha : a ^ 2 = 0 := by nlinarith [sq_nonneg a, sq_nonneg b]
      rw [h, ha]; ring
    · rw [hk]; field_simp
  have hpair : ∀ x y : ℝ, 0 ≤ (a ^ 2 - k) * x ^ 2 + 2 * k * (x * y) + (b ^ 2 - k) * y ^ 2 := by
    intro x y
    by_cases h : a ^ 2 + b ^ 2 = 0
    · have ha : a ^ 2 = 0 := by nlinarith [sq_nonneg a, sq_nonneg b]
      have hb : b ^ 2 = 0 := by nlinarith [sq_nonneg a, sq_nonneg b]
      rw [hk, h, ha, hb]; simp
    · have hp : 0 < a ^ 2 + b ^ 2 := lt_of_le_of_ne (by positivity) (Ne.symm h)
      have e : (a ^ 2 + b ^ 2) * ((a ^ 2 - k) * x ^ 2 + 2 * k * (x * y) + (b ^ 2 - k) * y ^ 2) =
          (a ^ 2 * x + b ^ 2 * y) ^ 2 := by linear_combination (2 * x * y - x ^ 2 - y ^ 2) * hkk
      by_contra hn
      push Not at hn
      have := mul_neg_of_pos_of_neg hp hn
      rw [e] at this
      nlinarith [sq_nonneg (a ^ 2 * x + b ^ 2 * y)]
  clear_value k
  refine Matrix.PosSemidef.of_dotProduct_mulVec_nonneg ?_ fun z => ?_
  · ext i j
    fin_cases i <;> fin_cases j <;> simp [diag6, opposite, Matrix.diagonal, Matrix.conjTranspose]
  · have e : star z ⬝ᵥ (diag6 a b - opposite k) *ᵥ z =
        ((a ^ 2 - k) * z 0 ^ 2 + 2 * k * (z 0 * z 3) + (b ^ 2 - k) * z 3 ^ 2) +
        ((a ^ 2 - k) * z 1 ^ 2 + 2 * k * (z 1 * z 4) + (b ^ 2 - k) * z 4 ^ 2) +
        ((a ^ 2 - k) * z 2 ^ 2 + 2 * k * (z 2 * z 5) + (b ^ 2 - k) * z 5 ^ 2) := by
      simp [diag6, opposite, Matrix.diagonal, Matrix.mulVec, dotProduct, Fin.sum_univ_succ]
      ring
    rw [e]
    have := hpair (z 0) (z 3)
    have := hpair (z 1) (z 4)
    have := hpair (z 2) (z 5)
    linarith

theorem diag_ge_bias (a b : ℝ) : (diag6 a b - biasPart (b ^ 2)).PosSemidef := by
  have : diag6 a b - biasPart (b ^ 2) = diag6 a 0 := by
    ext i j
    fin_cases i <;> fin_cases j <;> simp [diag6, biasPart, Matrix.diagonal, pow_two]
  rw [this]
  exact diag6_psd _ _

theorem atLeast_run {c : FCfg} {f₀ f : GyroFilter} (h0 : Fresh0 c f₀) {N : M66} {l : List Op} {M : ImuMeas → Prop}
    {A : AngVelMeas → Prop} (hN : (diag6 c.angVelStd c.biasStd - N).PosSemidef)
    (hk : KeptOn M A (AtLeast N)) (hl : ∀ o ∈ l, OpOK (fun _ => True) M A o) (h : runOps l f₀ = some f) :
    (f.P - N).PosSemidef := by
  have hs : AtLeast N f₀ := by
    rcases h0 with rfl | rfl <;> exact ⟨diag6_psd _ _, hN⟩
  refine (runOps_fed (G := fun _ => True) (M := M) (A := A) (Q := fun _ => True) (B := fun _ => True)
    (fun _ _ => trivial) (atLeast_core N) (up_kept hk) (fun _ _ _ => trivial)
    (fun f hI _ => atLeast_propagate hI) (fun f f' hI _ _ hr => ?_) l f₀ f hl hs (fed_fresh h0 _ _ _ _ _) h).1.2
  have hb : f'.P = f.P := by
    unfold initializeFilter at hr
    split_ifs at hr
    · rw [Option.bind_eq_some_iff] at hr
      obtain ⟨n, _, hr⟩ := hr
      split_ifs at hr
      · exact (collectBias_core hr).2.2.1
      · exact (finishInit_core hr).2.2.2.1
    · obtain rfl := Option.some.inj hr; rfl
  exact ⟨hb ▸ hI.1, hb ▸ hI.2⟩

/-- **C154**: without encoder measurements the filter never knows the bias better than rate and bias could be told apart
at the start, however many IMU measurements it uses. -/
theorem C154_needs_encoder (c : FCfg) (f₀ f : GyroFilter) (h0 : Fresh0 c f₀) (l : List Op) (h : runOps l f₀ = some f)
    (hl : ∀ a, ¬ EncIn l a) (u : V3) :
    c.angVelStd ^ 2 * c.biasStd ^ 2 / (c.angVelStd ^ 2 + c.biasStd ^ 2) * (u ⬝ᵥ u) ≤ varIn f.P (biasDir u) := by
  rw [← varIn_opposite]
  refine varIn_mono (atLeast_run h0 (M := fun _ => True) (A := fun _ => False) (diag_ge_opposite _ _) ?_ ?_ h) _
  · intro f f' hI
    exact ⟨fun m _ hk => atLeast_kalman (Himu_opposite _ _) hI hk, fun a ha => ha.elim⟩
  · intro o ho
    cases o <;> try trivial
    rename_i a
    exact hl a ho

/-- **C154**: without IMU measurements the variance of the bias never goes below the one it started from. -/
theorem C154_needs_imu (c : FCfg) (f₀ f : GyroFilter) (h0 : Fresh0 c f₀) (l : List Op) (h : runOps l f₀ = some f)
    (hl : ∀ m, .imuData m ∉ l ∧ ∀ i, .imuDataN i m ∉ l) (u : V3) :
    c.biasStd ^ 2 * (u ⬝ᵥ u) ≤ varIn f.P (biasDir u) := by
  rw [← varIn_biasPart]
  refine varIn_mono (atLeast_run h0 (M := fun _ => False) (A := fun _ => True) (diag_ge_bias _ _) ?_ ?_ h) _
  · intro f f' hI
    exact ⟨fun m hm => hm.elim, fun a _ hk => atLeast_kalman (Henc_biasPart _ _) hI hk⟩
  · intro o ho
    cases o <;> try trivial
    · rename_i m; exact (hl m).1 ho
    · rename_i i m; exact (hl m).2 i ho

/-- A filter with an IMU and encoders that has used one measurement of each: registering the sensors, initialising, and
running twice on a measurement of the IMU at 1 s and of the encoders at 2 s. -/
theorem uses_both : ∃ f1 f2 f3 l₀, runOps l₀ (mk1 (exFCfg false)) = some f1 ∧ UsesImu f1 f2 ∧ UsesEnc f2 f3 := by
  obtain ⟨f, h1, h2, h3, h4, h5, h6⟩ := ex_reaches_plus (exFCfg false) rfl (exFCfg_noisy _) [⟨1, 0, 0, Quat.id⟩] [⟨2, 0⟩]
  have hfr : ∀ g : GyroFilter, g.gyro = none → g.lastProp = -1 → ∀ t, g.propagate.Fresh t := fun g g1 g2 t => by
    have := (propagate_gyro g).2
    rw [g1, g2] at this
    exact Or.inl this
  have hm : mergeByTime [⟨1, 0, 0, Quat.id⟩] [⟨2, 0⟩] = [Sum.inl ⟨1, 0, 0, Quat.id⟩, Sum.inr ⟨2, 0⟩] := by
    simp [mergeByTime]
  obtain ⟨p1, p2, p3, p4, -⟩ := propagate_frame f
  have e1 : f.propagate.imuPlusAngVel = f.propagate.fuseImu ⟨1, 0, 0, Quat.id⟩ [] := by
    unfold imuPlusAngVel
    rw [p2, p4, h2.imu, h2.enc]
    dsimp only
    rw [if_pos (by norm_num)]
  obtain ⟨f2, r1, k1, c1, g1, l1, -⟩ := plus_imu h2 rfl e1
  obtain ⟨w, hw⟩ := c1.2.1 (hfr f h3 h4 _)
  have g1' : f2.gyro = none := by rw [g1, (propagate_gyro f).1, h3]; rfl
  have l1' : f2.lastProp = -1 := by
    have := (propagate_gyro f).2
    rw [h3, h4] at this
    rw [l1]; exact this
  obtain ⟨-, q2, -, q4, -⟩ := propagate_frame f2
  have e2 : f2.propagate.imuPlusAngVel = f2.propagate.fuseEnc ⟨2, 0⟩ [] := by
    unfold imuPlusAngVel
    rw [q2, q4, k1.imu, k1.enc]
  obtain ⟨f3, r2, k2, c2, -⟩ := plus_enc k1 rfl e2
  obtain ⟨w', hw'⟩ := c2.2.1 _ c1.1 (hfr f2 g1' l1' _)
  exact ⟨f, f2, f3, _, h1, ⟨r1, ⟨_, _, h2.imu, k1.imu⟩, by rw [hw]; simp⟩, ⟨r2, ⟨_, _, k1.enc, k2.enc⟩, by rw [hw']; simp⟩⟩

/-- the hypotheses of C153 and C154 are met: with the example settings (all standard deviations 0.1, yaw only) one
measurement of each sensor makes the standard deviation of the yaw bias at most 0.2 -/
example : ∃ f l, runOps l (mk1 (exFCfg false)) = some f ∧ varIn f.P (biasDir ![0, 0, 1]) ≤ 0.2 ^ 2 := by
  obtain ⟨f1, f2, f3, l₀, h1, h2, h3⟩ := uses_both
  have h := C154_imu_then_enc (exFCfg false) _ f1 f2 f2 f3 f3 (Or.inl rfl) l₀ [] [] h1 h2 rfl h3 rfl ![0, 0, 1]
    (Or.inr ⟨rfl, rfl⟩)
  refine ⟨f3, l₀ ++ [.run, .run], ?_, h.trans ?_⟩
  · rw [runOps_append, h1]
    simp only [Option.bind_some, runOps, step, h2.1, h3.1]
  · simp [exFCfg, runs, dotProduct, Fin.sum_univ_succ]; norm_num

end Drift
