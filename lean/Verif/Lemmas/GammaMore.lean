import Verif.Lemmas.GammaSeries
import Verif.Lemmas.SEK3

/-! More identities between `Gam0`, `Gam1`, `Gam2`, and the exponential of SE_K(3). -/
set_option linter.unusedSimpArgs false
namespace Drift
open Matrix Mat Nat Finset

/-- the inputs on which the closed forms are exact -/
def Exact (w : V3) : Prop := ¬ norm3 w < TOLERANCE ∨ w = 0

theorem norm3_zero_lt : norm3 0 < TOLERANCE := by rw [norm3_zero]; exact TOLERANCE_pos

theorem series_zero (m : ℕ) : HasSum (fun n : ℕ => (1 / ((n + m)! : ℝ)) • skew 0 ^ n)
    ((1 / (m ! : ℝ)) • (1 : M3)) := by
  have h : ∀ n : ℕ, n ∉ ({0} : Finset ℕ) → (1 / ((n + m)! : ℝ)) • skew 0 ^ n = 0 := by
    intro n hn
    have : n ≠ 0 := by simpa using hn
    rw [skew_zero, zero_pow this, smul_zero]
  have : HasSum (fun n : ℕ => (1 / ((n + m)! : ℝ)) • skew 0 ^ n) _ := hasSum_sum_of_ne_finset_zero h
  simpa using this

theorem Gam0_series {w : V3} (h : Exact w) :
    HasSum (fun n : ℕ => (1 / (n ! : ℝ)) • skew w ^ n) (Gam0 w) := by
  rcases h with h | rfl
  · have h1 := gamma_series (norm3_pos_of_not_lt h).ne' 0
    have h2 := gamma_SO3_closed h 0 (by norm_num)
    rw [Nat.cast_zero, gamma_SO3_zero, Option.some.injEq] at h2
    rw [h2]; simpa using h1
  · have := series_zero 0
    have e : Gam0 0 = 1 := by unfold Gam0; rw [if_pos norm3_zero_lt]
    rw [e]; simpa using this

theorem Gam1_series {w : V3} (h : Exact w) :
    HasSum (fun n : ℕ => (1 / ((n + 1)! : ℝ)) • skew w ^ n) (Gam1 w) := by
  rcases h with h | rfl
  · have h1 := gamma_series (norm3_pos_of_not_lt h).ne' 1
    have h2 := gamma_SO3_closed h 1 (by norm_num)
    rw [Nat.cast_one, gamma_SO3_one, Option.some.injEq] at h2
    rw [h2]; simpa using h1
  · have := series_zero 1
    have e : Gam1 0 = 1 := by unfold Gam1; rw [if_pos norm3_zero_lt]
    rw [e]; simpa using this

theorem Gam0_neg (w : V3) : Gam0 (-w) = (Gam0 w)ᵀ := by
  unfold Gam0
  rw [norm3_neg]
  split_ifs
  · simp
  · unfold gammaCase0; rw [skew_neg]
    simp [transpose_add, transpose_smul, transpose_mul, skew_transpose]

theorem Gam1_neg (w : V3) : Gam1 (-w) = (Gam1 w)ᵀ := by
  unfold Gam1
  rw [norm3_neg]
  split_ifs
  · simp
  · unfold gammaCase1; rw [skew_neg]
    simp [transpose_add, transpose_smul, transpose_mul, skew_transpose]

/-- `Exp(w) = I + skew(w) Jl(w)` -/
theorem Gam0_eq_one_add {w : V3} (h : Exact w) : Gam0 w = 1 + skew w * Gam1 w := by
  rcases h with h | rfl
  · have hpos := norm3_pos_of_not_lt h
    unfold Gam0 Gam1
    rw [if_neg h, if_neg h, gammaCase0_eq, gammaCase1_eq, Matrix.mul_add, Matrix.mul_add,
      Matrix.mul_smul, Matrix.mul_smul, ← Matrix.mul_assoc, skew_cube, smul_smul, Matrix.mul_one, ← norm3_sq]
    have : (norm3 w - Real.sin (norm3 w)) / (norm3 w ^ 2 * norm3 w) * -norm3 w ^ 2
        = Real.sin (norm3 w) / norm3 w - 1 := by field_simp; ring
    rw [this, sub_smul, one_smul]; abel
  · unfold Gam0; rw [if_pos norm3_zero_lt, skew_zero, Matrix.zero_mul, add_zero]

theorem Gam1_comm_skew (w : V3) : Gam1 w * skew w = skew w * Gam1 w := by
  unfold Gam1
  split_ifs
  · simp
  · unfold gammaCase1; noncomm_ring

/-- `Jl(w) = Exp(w) Jr(w)` -/
theorem Gam1_eq_mul (w : V3) : Gam1 w = Gam0 w * Gam1 (-w) := by
  by_cases h : norm3 w < TOLERANCE
  · unfold Gam0 Gam1; rw [norm3_neg, if_pos h, if_pos h, if_pos h, mul_one]
  · have hpos := norm3_pos_of_not_lt h
    have hid := coeff_id hpos.ne'
    unfold Gam0 Gam1
    rw [norm3_neg, if_neg h, if_neg h, if_neg h]
    have e1 := gammaCase1_eq (-w)
    rw [norm3_neg, nsq_neg] at e1
    rw [e1, gammaCase0_eq, gammaCase1_eq, skew_neg]
    have hc := skew_cube w
    set A := skew w
    set a := Real.sin (norm3 w) / norm3 w with ha
    set b := (1 - Real.cos (norm3 w)) / nsq w with hb
    set c := (norm3 w - Real.sin (norm3 w)) / (nsq w * norm3 w) with hcd
    have hac : a + nsq w * c = 1 := by
      rw [ha, hcd, ← norm3_sq]; field_simp; ring
    have e4 : A * A * (A * A) = (-nsq w) • (A * A) := by
      rw [← Matrix.mul_assoc, hc, Matrix.smul_mul]
    have e3 : A * (A * A) = (-nsq w) • A := by rw [← Matrix.mul_assoc, hc]
    simp only [neg_mul_neg, smul_neg, Matrix.add_mul, Matrix.mul_add, Matrix.one_mul, Matrix.mul_one,
      Matrix.smul_mul, Matrix.mul_smul, Matrix.mul_neg, e3, e4, hc, smul_smul]
    have k1 : b = a - b - (a * c - b ^ 2) * nsq w := by
      linear_combination (-1 : ℝ) * hid + a * hac
    have k2 : c = b - a * b + c - nsq w * (b * c) := by linear_combination b * hac
    have : 1 + b • A + c • (A * A) = 1 + (a - b - (a * c - b ^ 2) * nsq w) • A
        + (b - a * b + c - nsq w * (b * c)) • (A * A) := by rw [← k1, ← k2]
    rw [this]
    module

theorem Gam0_rot {R : M3} (hR : IsRot R) (w : V3) : Gam0 (R.mulVec w) = R * Gam0 w * Rᵀ := by
  unfold Gam0
  rw [norm3_rot hR]
  split_ifs
  · simp [hR.2.1]
  · unfold gammaCase0
    rw [skew_rot hR]
    simp only [Matrix.add_mul, Matrix.mul_add, Matrix.mul_one, hR.2.1, Matrix.smul_mul, Matrix.mul_smul]
    have : R * skew w * Rᵀ * (R * skew w * Rᵀ) = R * (skew w * skew w) * Rᵀ := by
      rw [show R * skew w * Rᵀ * (R * skew w * Rᵀ) = R * skew w * (Rᵀ * R) * skew w * Rᵀ by
        simp only [Matrix.mul_assoc], hR.1]
      simp only [Matrix.mul_assoc, Matrix.mul_one, Matrix.one_mul]
    rw [this]

theorem Gam1_rot {R : M3} (hR : IsRot R) (w : V3) : Gam1 (R.mulVec w) = R * Gam1 w * Rᵀ := by
  unfold Gam1
  rw [norm3_rot hR]
  split_ifs
  · simp [hR.2.1]
  · unfold gammaCase1
    rw [skew_rot hR]
    simp only [Matrix.add_mul, Matrix.mul_add, Matrix.mul_one, hR.2.1, Matrix.smul_mul, Matrix.mul_smul]
    have : R * skew w * Rᵀ * (R * skew w * Rᵀ) = R * (skew w * skew w) * Rᵀ := by
      rw [show R * skew w * Rᵀ * (R * skew w * Rᵀ) = R * skew w * (Rᵀ * R) * skew w * Rᵀ by
        simp only [Matrix.mul_assoc], hR.1]
      simp only [Matrix.mul_assoc, Matrix.mul_one, Matrix.one_mul]
    rw [this]

/-! ### small-angle error -/

theorem skew_entry_le (w : V3) (i j : Fin 3) : |skew w i j| ≤ norm3 w := by
  have h : ∀ k : Fin 3, |w k| ≤ norm3 w := by
    intro k
    apply abs_le_of_sq_le_sq _ (norm3_nonneg w)
    rw [norm3_sq]; unfold nsq
    fin_cases k <;> simp <;> nlinarith [sq_nonneg (w 0), sq_nonneg (w 1), sq_nonneg (w 2)]
  have h0 := norm3_nonneg w
  fin_cases i <;> fin_cases j <;> simp [skew, h, h0]

theorem skew_sq_entry_le (w : V3) (i j : Fin 3) : |(skew w * skew w) i j| ≤ norm3 w ^ 2 := by
  rw [norm3_sq]
  unfold nsq
  rw [abs_le]
  fin_cases i <;> fin_cases j <;>
    simp [skew, Matrix.mul_apply, Fin.sum_univ_three] <;>
    constructor <;>
    nlinarith [sq_nonneg (w 0), sq_nonneg (w 1), sq_nonneg (w 2), sq_nonneg (w 0 + w 1),
      sq_nonneg (w 0 - w 1), sq_nonneg (w 0 + w 2), sq_nonneg (w 0 - w 2), sq_nonneg (w 1 + w 2),
      sq_nonneg (w 1 - w 2)]

theorem acoef_abs_le {θ : ℝ} (h0 : 0 < θ) (h1 : θ < TOLERANCE) (m : ℕ) :
    |acoef θ m| ≤ (3 / 2) / ((m + 1)! : ℝ) := by
  have hsum := acoef_hasSum h0.ne' m
  have hθ : θ ^ 2 ≤ 1 / 3 := by
    have : θ ≤ 1 / 3 := by unfold TOLERANCE at h1; linarith
    nlinarith
  have hb : ∀ k : ℕ, ‖(-θ ^ 2) ^ k / ((2 * k + m + 1)! : ℝ)‖ ≤ (1 / ((m + 1)! : ℝ)) * (1 / 3) ^ k := by
    intro k
    rw [norm_div, norm_pow, norm_neg, Real.norm_of_nonneg (sq_nonneg θ),
      Real.norm_of_nonneg (Nat.cast_nonneg _)]
    have hf : ((m + 1)! : ℝ) ≤ ((2 * k + m + 1)! : ℝ) := by
      exact_mod_cast Nat.factorial_le (by omega)
    have hf0 : (0 : ℝ) < ((m + 1)! : ℝ) := by exact_mod_cast Nat.factorial_pos _
    calc (θ ^ 2) ^ k / ((2 * k + m + 1)! : ℝ) ≤ (1 / 3) ^ k / ((m + 1)! : ℝ) := by
          apply div_le_div₀ (by positivity) (pow_le_pow_left₀ (sq_nonneg _) hθ k) hf0 hf
      _ = _ := by ring
  have hg : HasSum (fun k : ℕ => (1 / ((m + 1)! : ℝ)) * (1 / 3 : ℝ) ^ k)
      ((1 / ((m + 1)! : ℝ)) * (1 - 1 / 3)⁻¹) :=
    (hasSum_geometric_of_lt_one (by norm_num) (by norm_num)).mul_left _
  have := tsum_of_norm_bounded hg hb
  rw [hsum.tsum_eq, Real.norm_eq_abs] at this
  refine this.trans (le_of_eq ?_)
  norm_num; ring

/-! ### the exponential of SE_K(3) -/

/-- The hat matrix of a twist `(w, u_0, ..., u_{K-1})`. -/
def hat (K : ℕ) (w : V3) (u : ℕ → V3) : Matrix (Fin (3 + K)) (Fin (3 + K)) ℝ := fun i j =>
  if hi : (i : ℕ) < 3 then
    (if hj : (j : ℕ) < 3 then skew w ⟨i, hi⟩ ⟨j, hj⟩ else u (j - 3) ⟨i, hi⟩)
  else 0

theorem hat_pow (K : ℕ) (w : V3) (u : ℕ → V3) (n : ℕ) (i j : Fin (3 + K)) :
    (hat K w u ^ (n + 1)) i j =
      if hi : (i : ℕ) < 3 then
        (if hj : (j : ℕ) < 3 then (skew w ^ (n + 1)) ⟨i, hi⟩ ⟨j, hj⟩
          else ((skew w ^ n).mulVec (u (j - 3))) ⟨i, hi⟩)
      else 0 := by
  induction n generalizing i j with
  | zero => simp [hat]
  | succ n ih =>
    rw [_root_.pow_succ', Matrix.mul_apply]
    have hs : ∀ f : Fin (3 + K) → ℝ, (∀ k : Fin (3 + K), ¬ (k : ℕ) < 3 → f k = 0) →
        ∑ k, f k = ∑ k : Fin 3, f (Fin.castAdd K k) := by
      intro f hf
      rw [Fin.sum_univ_add]
      have : ∑ k : Fin K, f (Fin.natAdd 3 k) = 0 :=
        sum_eq_zero fun k _ => hf _ (by simp)
      rw [this, add_zero]
    rw [hs _ (fun k hk => by rw [ih, dif_neg hk, mul_zero])]
    by_cases hi : (i : ℕ) < 3
    · rw [dif_pos hi]
      have hh : ∀ k : Fin 3, hat K w u i (Fin.castAdd K k) = skew w ⟨i, hi⟩ k := by
        intro k; unfold hat; rw [dif_pos hi, dif_pos (by simp)]; rfl
      by_cases hj : (j : ℕ) < 3
      · rw [dif_pos hj, _root_.pow_succ' (skew w), Matrix.mul_apply]
        refine sum_congr rfl fun k _ => ?_
        rw [hh, ih, dif_pos (by simp), dif_pos hj]; rfl
      · rw [dif_neg hj, _root_.pow_succ' (skew w), ← mulVec_mulVec]
        simp only [Matrix.mulVec, dotProduct]
        refine sum_congr rfl fun k _ => ?_
        rw [hh, ih, dif_pos (by simp), dif_neg hj]; rfl
    · rw [dif_neg hi]
      refine sum_eq_zero fun k _ => ?_
      unfold hat; rw [dif_neg hi, zero_mul]

theorem hat_exp (K : ℕ) {w : V3} (h : Exact w) (u : ℕ → V3) :
    HasSum (fun n : ℕ => (1 / (n ! : ℝ)) • hat K w u ^ n)
      ((mkSE K (Gam0 w) (fun k => (Gam1 w).mulVec (u k))).toMn (3 + K) (3 + K)) := by
  refine Pi.hasSum.mpr fun i => Pi.hasSum.mpr fun j => ?_
  have hij := i.2
  have hjj := j.2
  by_cases hi : (i : ℕ) < 3
  · by_cases hj : (j : ℕ) < 3
    · have h0 := Pi.hasSum.mp (Pi.hasSum.mp (Gam0_series h) ⟨i, hi⟩) ⟨j, hj⟩
      refine hasSum_of_eq h0 (fun n => ?_) ?_
      · match n with
        | 0 => simp [Matrix.one_apply, Fin.ext_iff]
        | n + 1 =>
          rw [Matrix.smul_apply, Matrix.smul_apply, hat_pow, dif_pos hi, dif_pos hj]
      · exact mkSE_e_rot K _ _ ⟨i, hi⟩ ⟨j, hj⟩
    · -- column: shift the series by one
      have h1 := Gam1_series h
      have h2 : HasSum (fun n : ℕ => (1 / ((n + 1)! : ℝ)) * ((skew w ^ n).mulVec (u (j - 3))) ⟨i, hi⟩)
          (((Gam1 w).mulVec (u (j - 3))) ⟨i, hi⟩) := by
        have h3 : ∀ k : Fin 3, HasSum (fun n : ℕ => ((1 / ((n + 1)! : ℝ)) • skew w ^ n) ⟨i, hi⟩ k * u (j - 3) k)
            (Gam1 w ⟨i, hi⟩ k * u (j - 3) k) := fun k =>
          (Pi.hasSum.mp (Pi.hasSum.mp h1 ⟨i, hi⟩) k).mul_right _
        have h4 := hasSum_sum (s := (Finset.univ : Finset (Fin 3))) fun k _ => h3 k
        refine hasSum_of_eq h4 (fun n => ?_) rfl
        simp only [Matrix.mulVec, dotProduct, mul_sum, Matrix.smul_apply, smul_eq_mul]
        exact sum_congr rfl fun k _ => by ring
      refine (hasSum_nat_add_iff' 1).mp ?_
      refine hasSum_of_eq h2 (fun n => ?_) ?_
      · rw [Matrix.smul_apply, hat_pow, dif_pos hi, dif_neg hj, smul_eq_mul]
      · have e := mkSE_e_col K (Gam0 w) (fun k => (Gam1 w).mulVec (u k)) ⟨i, hi⟩ (k := j - 3) (by omega)
        rw [show 3 + ((j : ℕ) - 3) = j by omega] at e
        have e1 : (mkSE K (Gam0 w) (fun k => (Gam1 w).mulVec (u k))).toMn (3 + K) (3 + K) i j
            = (Gam1 w).mulVec (u (j - 3)) ⟨i, hi⟩ := e
        rw [e1]
        simp [Matrix.one_apply, Fin.ext_iff, show ¬ (i : ℕ) = j by omega]
  · have e : (mkSE K (Gam0 w) (fun k => (Gam1 w).mulVec (u k))).toMn (3 + K) (3 + K) i j
        = if (i : ℕ) = j then 1 else 0 := mkSE_e_bot K _ _ (by omega) hij hjj
    rw [e]
    have hz : ∀ n : ℕ, n ∉ ({0} : Finset ℕ) → ((1 / (n ! : ℝ)) • hat K w u ^ n) i j = 0 := by
      intro n hn
      have hn' : n ≠ 0 := by simpa using hn
      obtain ⟨k, rfl⟩ : ∃ k, n = k + 1 := ⟨n - 1, by omega⟩
      rw [Matrix.smul_apply, hat_pow, dif_neg hi, smul_zero]
    have : HasSum (fun n : ℕ => ((1 / (n ! : ℝ)) • hat K w u ^ n) i j) _ :=
      hasSum_sum_of_ne_finset_zero hz
    refine hasSum_of_eq this (fun _ => rfl) ?_
    simp [Matrix.one_apply, Fin.ext_iff]

end Drift
