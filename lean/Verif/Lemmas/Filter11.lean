import Verif.Lemmas.Filter9
import Verif.Spec.GyroHonest

/-! Helper lemmas for the gyro filter: errors measured in claimed standard deviations. -/
set_option linter.unusedSimpArgs false
namespace Drift
open Matrix
namespace GyroFilter

/-! ### sums of errors -/

theorem sds_iff {n : Type*} [Fintype n] {P : Matrix n n ℝ} {e : n → ℝ} {s : ℝ} (hs : 0 ≤ s) (hP : P.PosSemidef) :
    Sds s P e ↔ ∀ z, (z ⬝ᵥ e) ^ 2 ≤ s ^ 2 * varIn P z := by
  refine forall_congr' fun z => ?_
  have hv := varIn_nonneg hP z
  rw [← abs_of_nonneg (mul_nonneg hs (Real.sqrt_nonneg (varIn P z))), ← sq_le_sq, mul_pow, Real.sq_sqrt hv]

/-- independent errors: the squares add up -/
theorem rss {a b c d A B : ℝ} (hc : 0 ≤ c) (hd : 0 ≤ d) (hA : 0 ≤ A) (hB : 0 ≤ B) (ha : a ^ 2 ≤ c * A) (hb : b ^ 2 ≤ d * B) :
    (a + b) ^ 2 ≤ (c + d) * (A + B) := by
  have h1 : (a * b) ^ 2 ≤ (c * B) * (d * A) := by
    rw [mul_pow]
    calc a ^ 2 * b ^ 2 ≤ (c * A) * (d * B) := mul_le_mul ha hb (sq_nonneg _) (by positivity)
      _ = _ := by ring
  have h2 : 2 * (a * b) ≤ c * B + d * A := by
    have h3 : (2 * (a * b)) ^ 2 ≤ (c * B + d * A) ^ 2 := by nlinarith [sq_nonneg (c * B - d * A)]
    exact (abs_le_of_sq_le_sq' h3 (by positivity)).2
  nlinarith

theorem sds_add {n : Type*} [Fintype n] {P Q : Matrix n n ℝ} {e d : n → ℝ} {s t : ℝ} (hs : 0 ≤ s) (ht : 0 ≤ t)
    (hP : P.PosSemidef) (hQ : Q.PosSemidef) (h1 : Sds s P e) (h2 : Sds t Q d) :
    Sds (√(s ^ 2 + t ^ 2)) (P + Q) (e + d) := by
  rw [sds_iff (Real.sqrt_nonneg _) (hP.add hQ)]
  intro z
  rw [Real.sq_sqrt (by positivity), dotProduct_add, varIn_add]
  exact rss (by positivity) (by positivity) (varIn_nonneg hP z) (varIn_nonneg hQ z) ((sds_iff hs hP).mp h1 z)
    ((sds_iff ht hQ).mp h2 z)

theorem Sds.neg {n : Type*} [Fintype n] {P : Matrix n n ℝ} {e : n → ℝ} {s : ℝ} (h : Sds s P e) : Sds s P (-e) := fun z => by
  rw [dotProduct_neg, abs_neg]; exact h z

theorem Sds.mono {n : Type*} [Fintype n] {P : Matrix n n ℝ} {e : n → ℝ} {s t : ℝ} (h : Sds s P e) (hst : s ≤ t) : Sds t P e :=
  fun z => (h z).trans (mul_le_mul_of_nonneg_right hst (Real.sqrt_nonneg _))

theorem Sds.congr {m n : Type*} [Fintype m] [Fintype n] {P : Matrix n n ℝ} {e : n → ℝ} {s : ℝ} (h : Sds s P e)
    (B : Matrix m n ℝ) : Sds s (B * P * Bᵀ) (B *ᵥ e) := fun z => by
  rw [varIn_congr, Matrix.dotProduct_mulVec, ← Matrix.mulVec_transpose]
  exact h _

/-- the error of a corrected estimate -/
theorem sds_afterGain {P : M66} {H : M36} {R : M3} {K : Matrix (Fin 6) (Fin 3) ℝ} {e : V6} {n : V3} {s t : ℝ} (hs : 0 ≤ s)
    (ht : 0 ≤ t) (hP : P.PosSemidef) (hR : R.PosSemidef) (h1 : Sds s P e) (h2 : Sds t R n) :
    Sds (√(s ^ 2 + t ^ 2)) (afterGain P H R K) ((1 - K * H) *ᵥ e + K *ᵥ n) :=
  sds_add hs ht (congr_psd hP _) (congr_psd hR _) (h1.congr _) (h2.congr _)

/-- a Kalman correction; `D` picks the measured axes -/
theorem sds_kalman {f f' : GyroFilter} {H : M36} {σ : ℝ} {y n : V3} {τ : V6} {D : M3} {s t : ℝ} (hs : 0 ≤ s) (ht : 0 ≤ t)
    (hD : Dᵀ = D) (hH : D * H = H) (hy : D *ᵥ y = H *ᵥ τ + n) (hP : f.P.PosSemidef) (h1 : Sds s f.P (f.x - τ))
    (h2 : Sds t (noise3 σ) n) (h : f.kalman H (noise3 σ) y = some f') :
    Sds (√(s ^ 2 + t ^ 2)) f'.P (f'.x - τ) ∧ f'.P.PosSemidef := by
  obtain ⟨hd, rfl⟩ := kalman_some h
  have hc := kalman_cov hP (noise3_psd σ) hd
  refine ⟨?_, hc.1⟩
  dsimp only
  rw [← afterGain_kalman hP (noise3_psd _) hd]
  set S := H * f.P * Hᵀ + noise3 σ with hS
  have hHT : Hᵀ * D = Hᵀ := by rw [← hD, ← transpose_mul, hH]
  have hcm : D * S = S * D := by
    rw [hS, Matrix.mul_add, Matrix.add_mul, ← Matrix.mul_assoc, ← Matrix.mul_assoc, hH, Matrix.mul_assoc _ Hᵀ, hHT]
    congr 1
    rw [noise3, Matrix.mul_smul, Matrix.smul_mul, Matrix.mul_one, Matrix.one_mul]
  have hu : IsUnit S.det := isUnit_iff_ne_zero.mpr hd
  have hc' : D * S⁻¹ = S⁻¹ * D := by
    have : S⁻¹ * (D * S) * S⁻¹ = S⁻¹ * (S * D) * S⁻¹ := by rw [hcm]
    rw [← Matrix.mul_assoc, Matrix.mul_assoc, Matrix.mul_nonsing_inv _ hu, Matrix.mul_one, ← Matrix.mul_assoc,
      Matrix.nonsing_inv_mul _ hu, Matrix.one_mul] at this
    exact this.symm
  obtain ⟨K, hK⟩ : ∃ K, f.P * Hᵀ * S⁻¹ = K := ⟨_, rfl⟩
  rw [hK]
  have hKD : K * D = K := by
    rw [← hK, Matrix.mul_assoc, ← hc', ← Matrix.mul_assoc, Matrix.mul_assoc f.P, hHT]
  have hz : K *ᵥ (y - H *ᵥ f.x) = K *ᵥ (H *ᵥ τ + n - H *ᵥ f.x) := by
    have : K *ᵥ (y - H *ᵥ f.x) = (K * D) *ᵥ (y - H *ᵥ f.x) := by rw [hKD]
    rw [this, ← Matrix.mulVec_mulVec, Matrix.mulVec_sub, hy, Matrix.mulVec_mulVec (M := D), hH]
  rw [hz]
  have e : f.x + K *ᵥ (H *ᵥ τ + n - H *ᵥ f.x) - τ = (1 - K * H) *ᵥ (f.x - τ) + K *ᵥ n := by
    rw [Matrix.sub_mulVec, Matrix.one_mulVec, ← Matrix.mulVec_mulVec, Matrix.mulVec_sub H, Matrix.mulVec_sub K, Matrix.mulVec_sub K,
      Matrix.mulVec_add]
    abel
  rw [e]
  exact sds_afterGain hs ht hP (noise3_psd _) h1 h2

/-! ### what a run does -/

theorem correctImu_k {g : GyroFilter} {m : ImuMeas} {r : ImuMeas × GyroFilter} (h : g.correctImu m = some r) :
    g.kalman (Himu g.cfg.flatGround) (noise3 g.cfg.imuStd) m.angVel = some r.2 := by
  unfold correctImu at h
  rw [Option.map_eq_some_iff] at h
  obtain ⟨k, h, rfl⟩ := h
  exact h

theorem correctEnc_k {g : GyroFilter} {m : ImuMeas} {a : AngVelMeas} {r : ImuMeas × GyroFilter} (h : g.correctEnc m a = some r) :
    g.kalman (Henc g.cfg.flatGround) (noise3 g.cfg.encStd) (rotInv g.cfg *ᵥ a.angVel) = some r.2 := by
  unfold correctEnc at h
  rw [Option.map_eq_some_iff] at h
  obtain ⟨k, h, rfl⟩ := h
  exact h

/-- everything but the queues, the estimate and the covariance -/
def CoreFrame (f f' : GyroFilter) : Prop := f'.cfg = f.cfg ∧ f'.initialized = f.initialized ∧ f'.method = f.method

/-- the correction of a run with one IMU: nothing, the front of the IMU queue, or the front of the encoder queue -/
def Once (f f' : GyroFilter) : Prop :=
  (f'.x = f.x ∧ f'.P = f.P) ∨
  (∃ (m : ImuMeas) (q : List ImuMeas) (g k : GyroFilter), f.imu = some (m :: q) ∧ f'.imu = some q ∧ g.x = f.x ∧ g.P = f.P ∧
    g.kalman (Himu f.cfg.flatGround) (noise3 f.cfg.imuStd) m.angVel = some k ∧ f'.x = k.x ∧ f'.P = k.P) ∨
  (∃ (a : AngVelMeas) (q : List AngVelMeas) (g k : GyroFilter), f.enc = some (a :: q) ∧ f'.enc = some q ∧ g.x = f.x ∧ g.P = f.P ∧
    g.kalman (Henc f.cfg.flatGround) (noise3 f.cfg.encStd) (rotInv f.cfg *ᵥ a.angVel) = some k ∧ f'.x = k.x ∧ f'.P = k.P)

theorem frame_kalman {g k : GyroFilter} {H : M36} {R : M3} {y : V3} (h : g.kalman H R y = some k) : CoreFrame g k := by
  obtain ⟨-, rfl⟩ := kalman_some h
  exact ⟨rfl, rfl, rfl⟩

theorem fuseImu_once {f f' : GyroFilter} {m : ImuMeas} {q : List ImuMeas} (hq : f.imu = some (m :: q))
    (h : f.fuseImu m q = some f') : CoreFrame f f' ∧ Once f f' := by
  unfold fuseImu at h
  dsimp only at h
  rw [Option.map_eq_some_iff] at h
  obtain ⟨k, h, rfl⟩ := h
  split_ifs at h with hf
  · rw [Option.map_eq_some_iff] at h
    obtain ⟨r, h, rfl⟩ := h
    have hk := correctImu_k h
    have hfr := frame_kalman hk
    exact ⟨hfr, Or.inr (Or.inl ⟨m, q, { f with latest := some m }, r.2, hq, rfl, rfl, rfl, hk, rfl, rfl⟩)⟩
  · obtain rfl := Option.some.inj h
    exact ⟨⟨rfl, rfl, rfl⟩, Or.inl ⟨rfl, rfl⟩⟩

theorem fuseEnc_once {f f' : GyroFilter} {a : AngVelMeas} {q : List AngVelMeas} (hq : f.enc = some (a :: q))
    (h : f.fuseEnc a q = some f') : CoreFrame f f' ∧ Once f f' := by
  unfold fuseEnc at h
  split at h
  · obtain rfl := Option.some.inj h
    exact ⟨⟨rfl, rfl, rfl⟩, Or.inl ⟨rfl, rfl⟩⟩
  · rename_i m _
    rw [Option.map_eq_some_iff] at h
    obtain ⟨k, h, rfl⟩ := h
    split_ifs at h with hf
    · rw [Option.map_eq_some_iff] at h
      obtain ⟨r, h, rfl⟩ := h
      have hk := correctEnc_k h
      have hfr := frame_kalman hk
      exact ⟨hfr, Or.inr (Or.inr ⟨a, q, f, r.2, hq, rfl, rfl, rfl, hk, rfl, rfl⟩)⟩
    · obtain rfl := Option.some.inj h
      exact ⟨⟨rfl, rfl, rfl⟩, Or.inl ⟨rfl, rfl⟩⟩

theorem correctStep_once {f f' : GyroFilter} (hm : f.method ≠ .multiImu) (h : f.correctStep = some f') :
    CoreFrame f f' ∧ Once f f' := by
  unfold correctStep at h
  split at h
  · unfold imuPlusAngVel at h
    split at h
    · obtain rfl := Option.some.inj h; exact ⟨⟨rfl, rfl, rfl⟩, Or.inl ⟨rfl, rfl⟩⟩
    · rename_i e _; exact fuseImu_once e h
    · rename_i e; exact fuseEnc_once e h
    · rename_i e e'
      split_ifs at h
      · exact fuseImu_once e h
      · exact fuseEnc_once e' h
    · simp at h
  · unfold singleImu at h
    split at h
    · simp at h
    · obtain rfl := Option.some.inj h; exact ⟨⟨rfl, rfl, rfl⟩, Or.inl ⟨rfl, rfl⟩⟩
    · rename_i m q e
      split_ifs at h
      · rw [Option.map_eq_some_iff] at h
        obtain ⟨r, h, rfl⟩ := h
        have hk := correctImu_k h
        have hfr := frame_kalman hk
        have hi : r.2.imu = some q := by
          obtain ⟨-, e⟩ := kalman_some hk
          rw [e]
        exact ⟨hfr, Or.inr (Or.inl ⟨m, q, { f with imu := some q }, r.2, e, hi, rfl, rfl, hk, rfl, rfl⟩)⟩
      · obtain rfl := Option.some.inj h; exact ⟨⟨rfl, rfl, rfl⟩, Or.inl ⟨rfl, rfl⟩⟩
  · rename_i e; exact absurd e hm
  · unfold angVelCorr at h
    split at h
    · simp at h
    · obtain rfl := Option.some.inj h; exact ⟨⟨rfl, rfl, rfl⟩, Or.inl ⟨rfl, rfl⟩⟩
    · rename_i a q e
      split at h
      · obtain rfl := Option.some.inj h; exact ⟨⟨rfl, rfl, rfl⟩, Or.inl ⟨rfl, rfl⟩⟩
      · rename_i m _
        rw [Option.map_eq_some_iff] at h
        obtain ⟨r, h, rfl⟩ := h
        have hk := correctEnc_k h
        have hfr := frame_kalman hk
        exact ⟨hfr, Or.inr (Or.inr ⟨a, q, f, r.2, e, rfl, rfl, rfl, hk, rfl, rfl⟩)⟩
  · obtain rfl := Option.some.inj h; exact ⟨⟨rfl, rfl, rfl⟩, Or.inl ⟨rfl, rfl⟩⟩

/-! ### measured axes -/

/-- picks the measured axes -/
def seen (flat : Bool) : M3 := if flat then 1 else Matrix.diagonal ![0, 0, 1]

theorem seen_T (flat : Bool) : (seen flat)ᵀ = seen flat := by cases flat <;> simp [seen]

theorem seen_Himu (flat : Bool) : seen flat * Himu flat = Himu flat := by
  cases flat
  · ext i j
    simp only [seen, Bool.false_eq_true, if_false, Matrix.diagonal_mul]
    fin_cases i <;> fin_cases j <;> simp [Himu]
  · simp [seen]

theorem seen_Henc (flat : Bool) : seen flat * Henc flat = Henc flat := by
  cases flat
  · ext i j
    simp only [seen, Bool.false_eq_true, if_false, Matrix.diagonal_mul]
    fin_cases i <;> fin_cases j <;> simp [Henc]
  · simp [seen]

theorem seen_imu (flat : Bool) (τ : V6) (y : V3) : seen flat *ᵥ y = Himu flat *ᵥ τ + imuNoise flat τ y := by
  rw [himu_sees]
  cases flat <;> ext i <;> fin_cases i <;> simp [seen, imuNoise, Matrix.mulVec_diagonal]

theorem seen_enc (flat : Bool) (τ : V6) (y : V3) : seen flat *ᵥ y = Henc flat *ᵥ τ + encNoise flat τ y := by
  rw [henc_sees]
  cases flat <;> ext i <;> fin_cases i <;> simp [seen, encNoise, Matrix.mulVec_diagonal]

theorem noise3_sq (s : ℝ) : noise3 s = s ^ 2 • (1 : M3) := by rw [noise3, pow_two]

/-- the correction of a run -/
theorem once_sds {f f' : GyroFilter} {τ : V6} {s ν : ℝ} (hs : 0 ≤ s) (hν : 0 ≤ ν) (hP : f.P.PosSemidef)
    (h1 : Sds s f.P (f.x - τ)) (h : Once f f')
    (hm : ∀ m q, f.imu = some (m :: q) → f'.imu = some q →
      Sds ν (f.cfg.imuStd ^ 2 • (1 : M3)) (imuNoise f.cfg.flatGround τ m.angVel))
    (ha : ∀ a q, f.enc = some (a :: q) → f'.enc = some q →
      Sds ν (f.cfg.encStd ^ 2 • (1 : M3)) (encNoise f.cfg.flatGround τ (f.cfg.rotImu2body.toRotᵀ *ᵥ a.angVel))) :
    Sds (√(s ^ 2 + ν ^ 2)) f'.P (f'.x - τ) ∧ f'.P.PosSemidef := by
  rcases h with ⟨e1, e2⟩ | ⟨m, q, g, k, e1, e2, e3, e4, e5, e6, e7⟩ | ⟨a, q, g, k, e1, e2, e3, e4, e5, e6, e7⟩
  · rw [e1, e2]
    refine ⟨h1.mono ?_, hP⟩
    exact Real.le_sqrt_of_sq_le (by nlinarith [sq_nonneg ν])
  · rw [e6, e7]
    exact sds_kalman hs hν (seen_T _) (seen_Himu _) (seen_imu _ τ m.angVel) (by rw [e4]; exact hP) (by rw [e3, e4]; exact h1)
      (by rw [noise3_sq]; exact hm m q e1 e2) e5
  · rw [e6, e7]
    exact sds_kalman hs hν (seen_T _) (seen_Henc _) (seen_enc _ τ _) (by rw [e4]; exact hP) (by rw [e3, e4]; exact h1)
      (by rw [noise3_sq]; exact ha a q e1 e2) e5

theorem process_psd {c : FCfg} {Q : M66} (h : ProcessNoise c Q) : Q.PosSemidef := by
  have : Q = diag6 c.filterStd c.filterBiasStd := h.trans (diag6_process c).symm
  rw [this]
  exact diag6_psd _ _

theorem process_unique {c : FCfg} {Q Q' : M66} (h : ProcessNoise c Q) (h' : ProcessNoise c Q') : Q = Q' := h.trans h'.symm

/-- the prediction of a run -/
theorem predicted_sds {f : GyroFilter} {x : V6} {P : M66} {τ τ' : V6} {s κ : ℝ} (hs : 0 ≤ s) (hκ : 0 ≤ κ)
    (hP : f.P.PosSemidef) (h1 : Sds s f.P (f.x - τ)) (hp : Predicted f x P) (hm : Moves κ f τ τ') :
    Sds (√(s ^ 2 + κ ^ 2)) P (x - τ') := by
  obtain ⟨Q, hQ, hp⟩ := hp
  obtain ⟨Q', hQ', hm⟩ := hm
  obtain rfl := process_unique hQ hQ'
  have hk : s ≤ √(s ^ 2 + κ ^ 2) := Real.le_sqrt_of_sq_le (by nlinarith [sq_nonneg κ])
  rcases hp with ⟨g1, rfl, rfl⟩ | ⟨g1, rfl, rfl⟩ | ⟨g, q, g1, rfl, rfl⟩ <;>
    rcases hm with ⟨g2, k⟩ | ⟨g2, k⟩ | ⟨g', q', g2, k⟩ <;> rw [g1] at g2 <;> try (simp at g2; done)
  · have := sds_add hs hκ hP (process_psd hQ) h1 k.neg
    rwa [show f.x - τ + -(τ' - τ) = f.x - τ' by abel] at this
  · rw [k]; exact h1.mono hk
  · obtain ⟨rfl, rfl⟩ := List.cons.inj (Option.some.inj g2)
    have := sds_add hs hκ hP (process_psd hQ) h1 k.neg
    refine (congrArg (Sds _ _) ?_).mp this
    abel

theorem predicted_psd {f : GyroFilter} {x : V6} {P : M66} (hP : f.P.PosSemidef) (hp : Predicted f x P) : P.PosSemidef := by
  obtain ⟨Q, hQ, hp⟩ := hp
  rcases hp with ⟨-, -, rfl⟩ | ⟨-, -, rfl⟩ | ⟨g, q, -, rfl, -⟩
  · exact hP.add (process_psd hQ)
  · exact hP
  · exact hP.add (process_psd hQ)

end GyroFilter
end Drift
