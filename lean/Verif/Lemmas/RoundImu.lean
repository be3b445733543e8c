import Verif.Lemmas.RoundOdo
import Verif.Lemmas.RoundGam
import Verif.Spec.RoundedImu

/-!
# Rounding errors of the propagated mean
-/
namespace Drift
namespace F64
open Matrix

theorem coef1_le {θ : ℝ} (hθ : 0 < θ) (h2 : θ ≤ 1) : |(1 - Real.cos θ) / (θ * θ)| * θ ≤ 1 / 2 := by
  have cl := Real.one_sub_sq_div_two_le_cos (x := θ)
  have cu := Real.cos_le_one θ
  rw [abs_of_nonneg (div_nonneg (by linarith) (by positivity)), div_mul_eq_mul_div, div_le_iff₀ (by positivity)]
  nlinarith [mul_pos hθ hθ]

theorem coef2_le {θ : ℝ} (hθ : 0 < θ) : |(θ - Real.sin θ) / (θ * θ * θ)| ≤ 1 / 6 := by
  have sl := Real.sin_gt_sub_cube hθ
  have sle := Real.sin_le hθ.le
  rw [abs_of_nonneg (div_nonneg (by linarith) (by positivity)), div_le_iff₀ (by positivity)]
  linarith [show θ ^ 3 = θ * θ * θ by ring]

theorem coef3_le {θ : ℝ} (hθ : 0 < θ) : |(θ * θ + 2 * Real.cos θ - 2) / (2 * (θ * θ) * (θ * θ))| * (θ * θ) ≤ 1 / 2 := by
  have cl := Real.one_sub_sq_div_two_le_cos (x := θ)
  have cu := Real.cos_le_one θ
  rw [abs_of_nonneg (div_nonneg (by nlinarith) (by positivity)), div_mul_eq_mul_div, div_le_iff₀ (by positivity)]
  nlinarith [mul_pos hθ hθ]

theorem lin3_entry {A : M3} {θ k c d : ℝ} (hA : ∀ i j, |A i j| ≤ θ) (hA2 : ∀ i j, |(A * A) i j| ≤ θ * θ) (hk : 0 ≤ k ∧ k ≤ 1)
    (hc : |c| * θ ≤ 1 / 2) (hd : |d| * (θ * θ) ≤ 1 / 2) (i j : Fin 3) : |(k • (1 : M3) + c • A + d • (A * A)) i j| ≤ 2 := by
  have e : (k • (1 : M3) + c • A + d • (A * A)) i j = (k • (1 : M3)) i j + c * A i j + d * (A * A) i j := rfl
  have hI : |(k • (1 : M3)) i j| ≤ 1 := by
    rw [Matrix.smul_apply, Matrix.one_apply]; split <;> simp [abs_of_nonneg hk.1, hk.2]
  have h1 : |c * A i j| ≤ 1 / 2 := by
    rw [abs_mul]; exact (mul_le_mul_of_nonneg_left (hA i j) (abs_nonneg _)).trans hc
  have h2 : |d * (A * A) i j| ≤ 1 / 2 := by
    rw [abs_mul]; exact (mul_le_mul_of_nonneg_left (hA2 i j) (abs_nonneg _)).trans hd
  rw [e]
  have := abs_add_le ((k • (1 : M3)) i j + c * A i j) (d * (A * A) i j)
  have := abs_add_le ((k • (1 : M3)) i j) (c * A i j)
  linarith

theorem gam_entry {φ : V3} (h : φ = 0 ∨ 1 / 10 ^ 6 ≤ Drift.norm3 φ ∧ Drift.norm3 φ ≤ 1) (i j : Fin 3) :
    |Gam1 φ i j| ≤ 2 ∧ |Gam2 φ i j| ≤ 2 := by
  rcases h with rfl | ⟨h1, h2⟩
  · have h4 : Gam1 (0 : V3) = 1 := by unfold Gam1; rw [if_pos norm3_zero_lt]
    have h5 : Gam2 (0 : V3) = (1 / 2 : ℝ) • 1 := by unfold Gam2; rw [if_pos norm3_zero_lt]
    rw [h4, h5, Matrix.smul_apply, Matrix.one_apply]
    split <;> norm_num [abs_le]
  have hθ : 0 < Drift.norm3 φ := lt_of_lt_of_le (by norm_num) h1
  have hT : ¬ Drift.norm3 φ < TOLERANCE := not_lt.mpr ((show TOLERANCE ≤ 1 / 10 ^ 6 by unfold TOLERANCE; norm_num).trans h1)
  have eG1 : Gam1 φ = (1 : ℝ) • (1 : M3) + ((1 - Real.cos (Drift.norm3 φ)) / (Drift.norm3 φ * Drift.norm3 φ)) • skew φ +
      ((Drift.norm3 φ - Real.sin (Drift.norm3 φ)) / (Drift.norm3 φ * Drift.norm3 φ * Drift.norm3 φ)) • (skew φ * skew φ) := by
    unfold Gam1; rw [if_neg hT]; unfold gammaCase1; rw [Matrix.smul_mul, one_smul]
  have eG2 : Gam2 φ = (1 / 2 : ℝ) • (1 : M3) + ((Drift.norm3 φ - Real.sin (Drift.norm3 φ)) / (Drift.norm3 φ * Drift.norm3 φ * Drift.norm3 φ)) • skew φ +
      ((Drift.norm3 φ * Drift.norm3 φ + 2 * Real.cos (Drift.norm3 φ) - 2) / (2 * (Drift.norm3 φ * Drift.norm3 φ) * (Drift.norm3 φ * Drift.norm3 φ))) • (skew φ * skew φ) := by
    unfold Gam2; rw [if_neg hT]; unfold gammaCase2; rw [Matrix.smul_mul]; norm_num
  have hA := Drift.skew_entry_le φ
  have hA2 : ∀ i j, |(skew φ * skew φ) i j| ≤ Drift.norm3 φ * Drift.norm3 φ := fun i j => (skew_sq_entry_le φ i j).trans (le_of_eq (by ring))
  rw [eG1, eG2]
  have c2 := coef2_le hθ
  refine ⟨lin3_entry hA hA2 (by norm_num) (coef1_le hθ h2) ?_ i j, lin3_entry hA hA2 (by norm_num) ?_ (coef3_le hθ) i j⟩
  · have : Drift.norm3 φ * Drift.norm3 φ ≤ 1 := by nlinarith
    exact (mul_le_mul c2 this (by positivity) (by norm_num)).trans (by norm_num)
  · exact (mul_le_mul c2 h2 (by positivity) (by norm_num)).trans (by norm_num)

theorem rot_entry_one {X : M3} (hX : IsRot X) (i j : Fin 3) : |X i j| ≤ 1 := by
  have h := rot_entry_le hX (Pi.single j 1) i
  rw [Matrix.mulVec_single_one] at h
  refine h.trans (le_of_eq ?_)
  have : Drift.norm3 (Pi.single j (1 : ℝ)) ^ 2 = 1 ^ 2 := by rw [norm3_sq]; fin_cases j <;> simp [nsq, Pi.single_apply]
  exact (sq_eq_sq₀ (norm3_nonneg _) (by norm_num)).mp this

/-- the computed `R * G * a` -/
theorem thrust_err (F : Fpu) {Y X G H : M3} {a : V3} {k ε : ℝ} (hk : 0 ≤ k) (hk1 : k ≤ 10 ^ 12) (hε : 500 * uu ≤ ε) (hε1 : ε ≤ 1 / 10)
    (hY : ∀ i j, |Y i j| ≤ 111 / 100) (hX : IsRot X) (hD : ∀ i j, |Y i j - X i j| ≤ k * (1 / 2 ^ 40)) (hG : ∀ i j, |G i j| ≤ 2)
    (hH : ∀ i j, |H i j - G i j| ≤ ε) (i : Fin 3) :
    |mulMV F (mulM F Y H) a i - ((X * G) *ᵥ a) i| ≤ (19 * k * (1 / 2 ^ 40) + 10 * ε) * (Drift.norm3 a + 1 / 10 ^ 70) ∧
      |((X * G) *ᵥ a) i| ≤ 18 * Drift.norm3 a := by
  have hu := uu_pos
  have hA := norm3_nonneg a
  have hX1 := rot_entry_one hX
  have hkk : k * (1 / 2 ^ 40) ≤ 91 / 100 := by
    have := mul_le_mul_of_nonneg_right hk1 (show (0 : ℝ) ≤ 1 / 2 ^ 40 by positivity)
    exact this.trans (by norm_num)
  obtain ⟨κ, hκ⟩ : ∃ κ, k * (1 / 2 ^ 40) = κ := ⟨_, rfl⟩
  have hκ0 : 0 ≤ κ := by rw [← hκ]; positivity
  rw [show 19 * k * (1 / 2 ^ 40 : ℝ) = 19 * (k * (1 / 2 ^ 40)) by ring]
  rw [hκ] at hD hkk ⊢
  have hε0 : 0 < ε := lt_of_lt_of_le (by linarith) hε
  have hH2 : ∀ i j, |H i j| ≤ 21 / 10 := fun i j => by
    have := abs_sub_abs_le_abs_sub (H i j) (G i j)
    linarith [hG i j, hH i j]
  -- the matrix
  have hXG : ∀ i j, |(X * G) i j| ≤ 6 := fun i j => by
    have t : ∀ l, |X i l * G l j| ≤ 2 := fun l => by
      rw [abs_mul]; exact (mul_le_mul (hX1 i l) (hG l j) (abs_nonneg _) (by norm_num)).trans (by norm_num)
    rw [Matrix.mul_apply]
    refine (Finset.abs_sum_le_sum_abs _ _).trans ?_
    rw [Fin.sum_univ_three]; linarith [t 0, t 1, t 2]
  have hM : ∀ i j, |mulM F Y H i j - (X * G) i j| ≤ 63 / 10 * κ + 31 / 10 * ε := fun i j => by
    have p := dot_err F (A := Y) (B := H) (i := i) (j := j) (M := 24 / 10) (tiny_le.trans (by norm_num)) (fun l => by
      rw [abs_mul]; exact (mul_le_mul (hY i l) (hH2 l j) (abs_nonneg _) (by norm_num)).trans (by norm_num))
    have q : |(Y * H) i j - (X * G) i j| ≤ 63 / 10 * κ + 3 * ε := by
      have e : (Y * H) i j - (X * G) i j = ∑ l, ((Y i l - X i l) * H l j + X i l * (H l j - G l j)) := by
        rw [Matrix.mul_apply, Matrix.mul_apply, ← Finset.sum_sub_distrib]
        exact Finset.sum_congr rfl fun l _ => by ring
      have t : ∀ l, |(Y i l - X i l) * H l j + X i l * (H l j - G l j)| ≤ κ * (21 / 10) + 1 * ε := fun l => by
        refine (abs_add_le _ _).trans ?_
        rw [abs_mul, abs_mul]
        exact add_le_add (mul_le_mul (hD i l) (hH2 l j) (abs_nonneg _) hκ0) (mul_le_mul (hX1 i l) (hH l j) (abs_nonneg _) (by norm_num))
      rw [e]
      refine (Finset.abs_sum_le_sum_abs _ _).trans ?_
      rw [Fin.sum_univ_three]; linarith [t 0, t 1, t 2]
    have := abs_add_le (mulM F Y H i j - (Y * H) i j) ((Y * H) i j - (X * G) i j)
    rw [sub_add_sub_cancel] at this
    linarith
  have hM2 : ∀ i j, |mulM F Y H i j| ≤ 13 := fun i j => by
    have := abs_sub_abs_le_abs_sub (mulM F Y H i j) ((X * G) i j)
    linarith [hM i j, hXG i j]
  -- times the vector
  generalize mulM F Y H = N at *
  generalize X * G = K at *
  have ha := entry_le_norm a
  generalize Drift.norm3 a = A at *
  have hB : 0 < A + 1 / 10 ^ 70 := by positivity
  obtain ⟨B, hBe⟩ : ∃ B, A + 1 / 10 ^ 70 = B := ⟨_, rfl⟩
  have hAB : A ≤ B := by rw [← hBe]; norm_num
  have ht : tiny ≤ 13 * B := tiny_le.trans (by rw [← hBe]; norm_num; linarith)
  rw [hBe] at hB ⊢
  have h := dot_err F (A := N) (B := fun k _ => a k) (i := i) (j := 0) (M := 13 * B) ht (fun l => by
    rw [abs_mul]; exact mul_le_mul (hM2 i l) ((ha l).trans hAB) (abs_nonneg _) (by norm_num))
  have e1 : mulM F N (fun k _ => a k) i 0 = mulMV F N a i := rfl
  have e2 : (N * (show M3 from fun k _ => a k)) i 0 = (N *ᵥ a) i := rfl
  rw [e1, e2] at h
  refine ⟨?_, ?_⟩
  · have e : (N *ᵥ a) i - (K *ᵥ a) i = (N i 0 - K i 0) * a 0 + (N i 1 - K i 1) * a 1 + (N i 2 - K i 2) * a 2 := by
      simp only [mulVec, dotProduct, Fin.sum_univ_three]; ring
    have t : ∀ j, |(N i j - K i j) * a j| ≤ (63 / 10 * κ + 31 / 10 * ε) * B := fun j => by
      rw [abs_mul]; exact mul_le_mul (hM i j) ((ha j).trans hAB) (abs_nonneg _) (by positivity)
    have d : |(N *ᵥ a) i - (K *ᵥ a) i| ≤ 3 * ((63 / 10 * κ + 31 / 10 * ε) * B) := by
      rw [e]
      have := abs_add_le ((N i 0 - K i 0) * a 0 + (N i 1 - K i 1) * a 1) ((N i 2 - K i 2) * a 2)
      have := abs_add_le ((N i 0 - K i 0) * a 0) ((N i 1 - K i 1) * a 1)
      linarith [t 0, t 1, t 2]
    have := abs_add_le (mulMV F N a i - (N *ᵥ a) i) ((N *ᵥ a) i - (K *ᵥ a) i)
    rw [sub_add_sub_cancel] at this
    have hb : uu * B ≤ ε / 500 * B := mul_le_mul_of_nonneg_right (by linarith) hB.le
    have hκB : 0 ≤ κ * B := by positivity
    have hεB : 0 ≤ ε * B := by positivity
    nlinarith
  · have t : ∀ j, |K i j * a j| ≤ 6 * A := fun j => by
      rw [abs_mul]; exact mul_le_mul (hXG i j) (ha j) (abs_nonneg _) (by norm_num)
    have e : (K *ᵥ a) i = K i 0 * a 0 + K i 1 * a 1 + K i 2 * a 2 := by simp only [mulVec, dotProduct, Fin.sum_univ_three]
    rw [e]
    have := abs_add_le (K i 0 * a 0 + K i 1 * a 1) (K i 2 * a 2)
    have := abs_add_le (K i 0 * a 0) (K i 1 * a 1)
    linarith [t 0, t 1, t 2]

/-- thrust and gravity -/
theorem force_err (F : Fpu) {N c g' g k ε A : ℝ} (hA : 0 ≤ A) (hk : 0 ≤ k) (hk1 : k ≤ 10 ^ 12) (hε : 500 * uu ≤ ε) (hε1 : ε ≤ 1 / 10)
    (hN : |N - c| ≤ (19 * k * (1 / 2 ^ 40) + 10 * ε) * (A + 1 / 10 ^ 70)) (hc : |c| ≤ 18 * A) (hg : |g| ≤ 10) (hg' : |g' - g| ≤ 20 * uu) :
    |F.rn (N + g') - (c + g)| ≤ (19 * k * (1 / 2 ^ 40) + 11 * ε) * (A + 1) ∧ |c + g| ≤ 18 * (A + 1) := by
  have hu := uu_pos
  have hu' := uu_le
  norm_num at hu'
  have hkk : k * (1 / 2 ^ 40) ≤ 91 / 100 := by
    have := mul_le_mul_of_nonneg_right hk1 (show (0 : ℝ) ≤ 1 / 2 ^ 40 by positivity)
    exact this.trans (by norm_num)
  obtain ⟨κ, hκ⟩ : ∃ κ, k * (1 / 2 ^ 40) = κ := ⟨_, rfl⟩
  have hκ0 : 0 ≤ κ := by rw [← hκ]; positivity
  rw [show 19 * k * (1 / 2 ^ 40 : ℝ) = 19 * (k * (1 / 2 ^ 40)) by ring] at hN ⊢
  rw [hκ] at hkk hN ⊢
  have hε0 : 0 < ε := lt_of_lt_of_le (by linarith) hε
  have hN2 : |N - c| ≤ (19 * κ + 10 * ε) * (A + 1) := hN.trans (mul_le_mul_of_nonneg_left (by norm_num) (by positivity))
  have hN3 : (19 * κ + 10 * ε) * (A + 1) ≤ 19 * (A + 1) := mul_le_mul_of_nonneg_right (by linarith) (by linarith)
  have hs : |N + g'| ≤ 40 * (A + 1) := by
    rw [abs_le] at *; constructor <;> linarith [hN2.1, hN2.2, hc.1, hc.2, hg.1, hg.2, hg'.1, hg'.2]
  have hr := rnb F.toRound (tiny_le.trans (by norm_num; linarith)) hs
  have hb : uu * (A + 1) ≤ ε / 500 * (A + 1) := mul_le_mul_of_nonneg_right (by linarith) (by linarith)
  have hb1 : uu * 1 ≤ uu * (A + 1) := mul_le_mul_of_nonneg_left (by linarith) hu.le
  have hεA : 0 ≤ ε * (A + 1) := mul_nonneg hε0.le (by linarith)
  refine ⟨?_, ?_⟩
  · generalize F.rn (N + g') = z at *
    rw [abs_le] at *
    constructor <;> linarith [hr.1, hr.2, hN2.1, hN2.2, hg'.1, hg'.2]
  · rw [abs_le] at *; constructor <;> linarith [hc.1, hc.2, hg.1, hg.2]

/-- times the duration -/
theorem times_dt (F : Fpu) {z c κ S dt : ℝ} (hS : 0 ≤ S) (hκ1 : κ ≤ 4) (hdt : |dt| ≤ 1) (hz : |z - c| ≤ κ * S) (hc : |c| ≤ S) :
    |F.rn (dt * z) - dt * c| ≤ κ * (|dt| * S) + 6 * uu * (|dt| * S + 1 / 10 ^ 70) ∧ |dt * c| ≤ |dt| * S := by
  have hu := uu_pos
  have hd0 := abs_nonneg dt
  have h1 : |dt * z - dt * c| ≤ κ * (|dt| * S) := by
    rw [← mul_sub, abs_mul]
    refine (mul_le_mul_of_nonneg_left hz hd0).trans (le_of_eq (by ring))
  have h2 : |dt * c| ≤ |dt| * S := by rw [abs_mul]; exact mul_le_mul_of_nonneg_left hc hd0
  have hs0 : 0 ≤ |dt| * S := by positivity
  generalize |dt| * S = s at *
  generalize dt * z = y at *
  generalize dt * c = x at *
  refine ⟨?_, h2⟩
  have h3 : κ * s ≤ 4 * s := mul_le_mul_of_nonneg_right hκ1 hs0
  have h4 : |y| ≤ 5 * (s + 1 / 10 ^ 70) := by
    have := abs_sub_abs_le_abs_sub y x
    norm_num
    linarith
  have h5 := rnb F.toRound (tiny_le.trans (by norm_num; linarith)) h4
  have h6 : 0 ≤ uu * (s + 1 / 10 ^ 70) := by positivity
  have := abs_add_le (F.rn y - y) (y - x)
  rw [sub_add_sub_cancel] at this
  linarith

/-- adding an increment -/
theorem add_err (F : Fpu) {x y x' y' S s e E : ℝ} (hS : 0 ≤ S) (hs : 0 ≤ s)
    (hE : E ≤ 4 * S + 1 / 10 ^ 61) (he : e ≤ 4 * s + 1 / 10 ^ 60) (hx : |x' - x| ≤ E) (hy : |y' - y| ≤ e) (hX : |x| ≤ S) (hY : |y| ≤ s) :
    |F.rn (x' + y') - (x + y)| ≤ E + e + 8 * uu * (S + s + 1 / 10 ^ 60) := by
  have hu := uu_pos
  have h1 : |x' + y'| ≤ 5 * (S + s + 1 / 10 ^ 60) := by
    rw [abs_le] at *
    norm_num at he ⊢
    constructor <;> linarith [hx.1, hx.2, hy.1, hy.2, hX.1, hX.2, hY.1, hY.2]
  have h2 := rnb F.toRound (tiny_le.trans (by norm_num; linarith)) h1
  have h3 : 0 ≤ uu * (S + s + 1 / 10 ^ 60) := by positivity
  rw [abs_le] at *
  constructor <;> linarith [h2.1, h2.2, hx.1, hx.2, hy.1, hy.2]

/-- one step of the velocity -/
theorem vel_step (F : Fpu) {vh v z c k ε V S dt : ℝ} (hV : 0 ≤ V) (hS : 0 ≤ S) (hk : 0 ≤ k) (hk1 : k ≤ 10 ^ 12) (hε0 : 0 ≤ ε) (hε1 : ε ≤ 1 / 10)
    (hdt : |dt| ≤ 1) (hv : |vh - v| ≤ (k * (1 / 2 ^ 38) + ε) * V) (hvV : |v| ≤ V) (hz : |z - c| ≤ (k * (1 / 2 ^ 39) + ε) * S) (hc : |c| ≤ S) :
    |F.rn (vh + F.rn (dt * z)) - (v + dt * c)| ≤ ((k + 1) * (1 / 2 ^ 38) + ε) * (V + (|dt| * S + 1 / 10 ^ 60)) ∧
      |v + dt * c| ≤ V + (|dt| * S + 1 / 10 ^ 60) := by
  have hkk : k * (1 / 2 ^ 38) ≤ 37 / 10 := by
    have := mul_le_mul_of_nonneg_right hk1 (show (0 : ℝ) ≤ 1 / 2 ^ 38 by positivity)
    exact this.trans (by norm_num)
  rw [show k * (1 / 2 ^ 39) = k * (1 / 2 ^ 38) / 2 by ring] at hz
  rw [show (k + 1) * (1 / 2 ^ 38) + ε = k * (1 / 2 ^ 38) + ε + 1 / 2 ^ 38 by ring]
  obtain ⟨κ, hκ⟩ : ∃ κ, k * (1 / 2 ^ 38) = κ := ⟨_, rfl⟩
  have hκ0 : 0 ≤ κ := by rw [← hκ]; positivity
  rw [hκ] at hkk hv hz ⊢
  obtain ⟨t1, t2⟩ := times_dt F hS (κ := κ / 2 + ε) (by linarith) hdt hz hc
  have hs0 : 0 ≤ |dt| * S := by positivity
  generalize |dt| * S = s at *
  have hu := uu_pos
  have uv : uu = 1 / 2 ^ 53 := rfl
  have b1 : (κ + ε) * V ≤ 39 / 10 * V := mul_le_mul_of_nonneg_right (by linarith) hV
  have b2 : (κ / 2 + ε) * s ≤ 39 / 10 * s := mul_le_mul_of_nonneg_right (by linarith) hs0
  have a := add_err F hV hs0 (E := (κ + ε) * V) (e := (κ / 2 + ε) * s + 6 * uu * (s + 1 / 10 ^ 70)) (by norm_num; linarith)
    (by rw [uv]; norm_num; linarith) hv t1 hvV t2
  refine ⟨a.trans ?_, ?_⟩
  · have e1 : 0 ≤ κ * s := by positivity
    have e2 : 0 ≤ κ * (1 / 10 ^ 60) := by positivity
    have e3 : 0 ≤ ε * (1 / 10 ^ 60) := by positivity
    rw [uv]
    norm_num at e2 e3 ⊢
    nlinarith
  · have := abs_add_le v (dt * c)
    norm_num
    linarith

/-- one step of the position -/
theorem pos_step2 (F : Fpu) {ph p vh v z c k ε δ V L D S dt : ℝ} (hV : 0 ≤ V) (hL : 0 ≤ L) (hS : 0 ≤ S) (hD : 0 ≤ D) (hDL : D ≤ L) (hk : 0 ≤ k)
    (hk1 : k ≤ 10 ^ 12) (hε0 : 0 ≤ ε) (hε1 : ε ≤ 1 / 100) (hδ0 : 0 ≤ δ) (hδ1 : δ ≤ 1 / 10) (hdt : |dt| ≤ 1)
    (hv : |vh - v| ≤ (k * (1 / 2 ^ 38) + ε) * V) (hvV : |v| ≤ V) (hp : |ph - p| ≤ (k * (1 / 2 ^ 38) + ε) * L + δ * D) (hpL : |p| ≤ L)
    (hz : |z - c| ≤ (k * (1 / 2 ^ 39) + δ) * S) (hc : |c| ≤ S) :
    |F.rn (F.rn (ph + F.rn (dt * vh)) + F.rn (dt * F.rn (dt * z))) - (p + dt * v + dt * (dt * c))| ≤
        ((k + 1) * (1 / 2 ^ 38) + ε) * (L + (|dt| * V + |dt| * (|dt| * S) + 1 / 10 ^ 59)) + δ * (D + (|dt| * (|dt| * S) + 1 / 10 ^ 70)) ∧
      |p + dt * v + dt * (dt * c)| ≤ L + (|dt| * V + |dt| * (|dt| * S) + 1 / 10 ^ 59) := by
  have hkk : k * (1 / 2 ^ 38) ≤ 37 / 10 := by
    have := mul_le_mul_of_nonneg_right hk1 (show (0 : ℝ) ≤ 1 / 2 ^ 38 by positivity)
    exact this.trans (by norm_num)
  rw [show k * (1 / 2 ^ 39) = k * (1 / 2 ^ 38) / 2 by ring] at hz
  rw [show (k + 1) * (1 / 2 ^ 38) + ε = k * (1 / 2 ^ 38) + ε + 1 / 2 ^ 38 by ring]
  obtain ⟨κ, hκ⟩ : ∃ κ, k * (1 / 2 ^ 38) = κ := ⟨_, rfl⟩
  have hκ0 : 0 ≤ κ := by rw [← hκ]; positivity
  rw [hκ] at hkk hv hp hz ⊢
  have hd0 := abs_nonneg dt
  have hu := uu_pos
  have uv : uu = 1 / 2 ^ 53 := rfl
  have hu' := uu_le
  norm_num at hu'
  obtain ⟨t1, t2⟩ := times_dt F hV (κ := κ + ε) (by linarith) hdt hv hvV
  obtain ⟨w1, w2⟩ := times_dt F hS (κ := κ / 2 + δ) (by linarith) hdt hz hc
  have hsS : 0 ≤ |dt| * S := by positivity
  have w3 : |F.rn (dt * z) - dt * c| ≤ (κ / 2 + δ + 6 * uu) * (|dt| * S + 1 / 10 ^ 70) := by
    refine w1.trans ?_
    have : 0 ≤ (κ / 2 + δ) * (1 / 10 ^ 70) := by positivity
    linarith
  obtain ⟨x1, x2⟩ := times_dt F (S := |dt| * S + 1 / 10 ^ 70) (by positivity) (κ := κ / 2 + δ + 6 * uu) (by linarith) hdt w3
    (w2.trans (by norm_num))
  have hw : |dt * (dt * c)| ≤ |dt| * (|dt| * S) := by rw [abs_mul]; exact mul_le_mul_of_nonneg_left w2 hd0
  have hs1 : 0 ≤ |dt| * V := by positivity
  have hs2 : 0 ≤ |dt| * (|dt| * S) := by positivity
  have hs3 : |dt| * (|dt| * S + 1 / 10 ^ 70) ≤ |dt| * (|dt| * S) + 1 / 10 ^ 70 := by
    rw [mul_add]; norm_num; linarith
  have hs4 : 0 ≤ |dt| * (|dt| * S + 1 / 10 ^ 70) := by positivity
  have x3 : |F.rn (dt * F.rn (dt * z)) - dt * (dt * c)| ≤ (κ / 2 + δ + 6 * uu) * (|dt| * (|dt| * S) + 1 / 10 ^ 70) +
      6 * uu * (|dt| * (|dt| * S) + 2 / 10 ^ 70) := by
    refine x1.trans (add_le_add (mul_le_mul_of_nonneg_left hs3 (by positivity)) (mul_le_mul_of_nonneg_left ?_ (by positivity)))
    linarith
  clear x1 x2 w1 w2 w3 hs3 hs4 hsS
  generalize F.rn (dt * F.rn (dt * z)) = y2 at *
  generalize dt * (dt * c) = x2 at *
  generalize |dt| * (|dt| * S) = s2 at *
  generalize F.rn (dt * vh) = y1 at *
  generalize dt * v = x1 at *
  generalize |dt| * V = s1 at *
  have b0 : δ * D ≤ 1 / 10 * L := (mul_le_mul hδ1 hDL hD (by norm_num))
  have b1 : (κ + ε) * L ≤ 38 / 10 * L := mul_le_mul_of_nonneg_right (by linarith) hL
  have b2 : (κ + ε) * s1 ≤ 38 / 10 * s1 := mul_le_mul_of_nonneg_right (by linarith) hs1
  have b3 : (κ / 2 + δ + 6 * uu) * (s2 + 1 / 10 ^ 70) ≤ 38 / 10 * (s2 + 1 / 10 ^ 70) :=
    mul_le_mul_of_nonneg_right (by linarith) (by positivity)
  have a := add_err F hL hs1 (E := (κ + ε) * L + δ * D) (e := (κ + ε) * s1 + 6 * uu * (s1 + 1 / 10 ^ 70)) (by norm_num; linarith)
    (by rw [uv]; norm_num; linarith) hp t1 hpL t2
  have q1 : |p + x1| ≤ L + s1 := (abs_add_le _ _).trans (by linarith)
  have a2 := add_err F (S := L + s1) (by linarith) hs2
    (E := (κ + ε) * L + δ * D + ((κ + ε) * s1 + 6 * uu * (s1 + 1 / 10 ^ 70)) + 8 * uu * (L + s1 + 1 / 10 ^ 60))
    (e := (κ / 2 + δ + 6 * uu) * (s2 + 1 / 10 ^ 70) + 6 * uu * (s2 + 2 / 10 ^ 70)) (by rw [uv]; norm_num; linarith)
    (by rw [uv] at b3 ⊢; norm_num at b3 ⊢; linarith) a x3 q1 hw
  refine ⟨a2.trans ?_, ?_⟩
  · have e1 : 0 ≤ κ * s2 := by positivity
    have e2 : 0 ≤ κ * (1 / 10 ^ 70) := by positivity
    have e3 : 0 ≤ ε * (1 / 10 ^ 70) := by positivity
    have e4 : 0 ≤ ε * s2 := by positivity
    rw [uv]
    norm_num at e2 e3 ⊢
    nlinarith
  · have := abs_add_le (p + x1) x2
    norm_num
    linarith

end F64
end Drift
