import Verif.Model.LieGroup
import Verif.Spec.Group
import Mathlib.Tactic.LinearCombination
import Mathlib.Tactic.NoncommRing
import Mathlib.Tactic.FinCases

/-! Helper lemmas on `skew` and the closed forms of `Gamma_SO3` of order 0, 1, 2. -/
set_option linter.unusedSimpArgs false
namespace Drift
open Matrix Mat

theorem norm3_sq (w : V3) : norm3 w ^ 2 = nsq w := by
  unfold norm3 nsq; rw [Real.sq_sqrt]; positivity
theorem norm3_mul_self (w : V3) : norm3 w * norm3 w = nsq w := by rw [← norm3_sq]; ring
theorem norm3_nonneg (w : V3) : 0 ≤ norm3 w := Real.sqrt_nonneg _
theorem nsq_nonneg (w : V3) : 0 ≤ nsq w := by unfold nsq; positivity
theorem TOLERANCE_pos : 0 < TOLERANCE := by unfold TOLERANCE; norm_num
theorem norm3_pos_of_not_lt {w : V3} (h : ¬ norm3 w < TOLERANCE) : 0 < norm3 w :=
  lt_of_lt_of_le TOLERANCE_pos (not_lt.mp h)
theorem norm3_eq_of_nsq {u v : V3} (h : nsq u = nsq v) : norm3 u = norm3 v := by
  have h' : u 0 ^ 2 + u 1 ^ 2 + u 2 ^ 2 = v 0 ^ 2 + v 1 ^ 2 + v 2 ^ 2 := h
  unfold norm3; rw [h']
theorem nsq_neg (w : V3) : nsq (-w) = nsq w := by unfold nsq; simp
theorem norm3_neg (w : V3) : norm3 (-w) = norm3 w := norm3_eq_of_nsq (nsq_neg w)
theorem nsq_smul (c : ℝ) (w : V3) : nsq (c • w) = c ^ 2 * nsq w := by
  unfold nsq; simp; ring
theorem norm3_smul (c : ℝ) (w : V3) : norm3 (c • w) = |c| * norm3 w := by
  have h : norm3 (c • w) = Real.sqrt (c ^ 2 * nsq w) := by
    rw [← nsq_smul]; rfl
  rw [h, Real.sqrt_mul (sq_nonneg c), Real.sqrt_sq_eq_abs]; rfl
@[simp] theorem norm3_zero : norm3 0 = 0 := by unfold norm3; simp
theorem norm3_eq_zero {w : V3} : norm3 w = 0 ↔ w = 0 := by
  constructor
  · intro h
    have h2 : nsq w = 0 := by rw [← norm3_sq, h]; ring
    unfold nsq at h2
    have h0 : w 0 ^ 2 = 0 := by nlinarith [sq_nonneg (w 0), sq_nonneg (w 1), sq_nonneg (w 2)]
    have h1 : w 1 ^ 2 = 0 := by nlinarith [sq_nonneg (w 0), sq_nonneg (w 1), sq_nonneg (w 2)]
    have h3 : w 2 ^ 2 = 0 := by nlinarith [sq_nonneg (w 0), sq_nonneg (w 1), sq_nonneg (w 2)]
    ext i; fin_cases i <;> simp_all
  · rintro rfl; exact norm3_zero

/-! ### skew -/

theorem skew_zero : skew 0 = 0 := by
  ext i j; fin_cases i <;> fin_cases j <;> simp [skew]
theorem skew_add (u v : V3) : skew (u + v) = skew u + skew v := by
  ext i j; fin_cases i <;> fin_cases j <;> simp [skew] <;> ring
theorem skew_neg (v : V3) : skew (-v) = -skew v := by
  ext i j; fin_cases i <;> fin_cases j <;> simp [skew]
theorem skew_sub (u v : V3) : skew (u - v) = skew u - skew v := by
  rw [sub_eq_add_neg, skew_add, skew_neg, sub_eq_add_neg]
theorem skew_smul (c : ℝ) (v : V3) : skew (c • v) = c • skew v := by
  ext i j; fin_cases i <;> fin_cases j <;> simp [skew]
theorem skew_transpose (v : V3) : (skew v)ᵀ = -skew v := by
  ext i j; fin_cases i <;> fin_cases j <;> simp [skew]
theorem skew_mulVec (v u : V3) : (skew v).mulVec u = crossProduct v u := by
  ext i; fin_cases i <;> simp [skew, Matrix.mulVec, dotProduct, Fin.sum_univ_three, crossProduct] <;> ring
theorem skew_mulVec_self (v : V3) : (skew v).mulVec v = 0 := by
  ext i; fin_cases i <;> simp [skew, Matrix.mulVec, dotProduct, Fin.sum_univ_three] <;> ring
theorem skew_mulVec_swap (v u : V3) : (skew v).mulVec u = -(skew u).mulVec v := by
  ext i; fin_cases i <;> simp [skew, Matrix.mulVec, dotProduct, Fin.sum_univ_three] <;> ring

/-- `A³ = -|w|² A` -/
theorem skew_cube (w : V3) : skew w * skew w * skew w = (-nsq w) • skew w := by
  ext i j; fin_cases i <;> fin_cases j <;>
    simp [skew, nsq, Matrix.mul_apply, Fin.sum_univ_three] <;> ring

/-- `R skew(v) Rᵀ = skew(R v)` when `R` is a proper rotation -/
theorem rot_cofactor {R : M3} (h : IsRot R) : R.adjugate = Rᵀ := by
  have h1 : R.adjugate * R = R.det • 1 := adjugate_mul R
  rw [h.2.2, one_smul] at h1
  calc R.adjugate = R.adjugate * (R * Rᵀ) := by rw [h.2.1, mul_one]
    _ = Rᵀ := by rw [← Matrix.mul_assoc, h1, Matrix.one_mul]

theorem skew_cofactor (R : M3) (v : V3) :
    R.adjugateᵀ * skew v = skew (R.mulVec v) * R := by
  rw [Matrix.adjugate_fin_three]
  ext i j; fin_cases i <;> fin_cases j <;>
    simp [skew, Matrix.mul_apply, Fin.sum_univ_three, Matrix.mulVec, dotProduct] <;> ring

theorem rot_skew {R : M3} (h : IsRot R) (v : V3) : R * skew v = skew (R.mulVec v) * R := by
  have := skew_cofactor R v
  rwa [rot_cofactor h, transpose_transpose] at this

theorem skew_rot {R : M3} (h : IsRot R) (v : V3) : skew (R.mulVec v) = R * skew v * Rᵀ := by
  rw [rot_skew h, Matrix.mul_assoc, h.2.1, mul_one]

theorem nsq_rot {R : M3} (h : IsRot R) (v : V3) : nsq (R.mulVec v) = nsq v := by
  have e : ∀ u : V3, nsq u = u ⬝ᵥ u := by
    intro u; simp [nsq, dotProduct, Fin.sum_univ_three]; ring
  rw [e, e, Matrix.dotProduct_mulVec, Matrix.vecMul_mulVec, h.1, Matrix.vecMul_one]

theorem norm3_rot {R : M3} (h : IsRot R) (v : V3) : norm3 (R.mulVec v) = norm3 v :=
  norm3_eq_of_nsq (nsq_rot h v)

/-! ### rotations form a group -/
theorem IsRot.one : IsRot 1 := by unfold IsRot; simp
theorem IsRot.mul {R S : M3} (hR : IsRot R) (hS : IsRot S) : IsRot (R * S) := by
  refine ⟨?_, ?_, ?_⟩
  · rw [transpose_mul, Matrix.mul_assoc, ← Matrix.mul_assoc Rᵀ, hR.1, Matrix.one_mul, hS.1]
  · rw [transpose_mul, Matrix.mul_assoc, ← Matrix.mul_assoc S, hS.2.1, Matrix.one_mul, hR.2.1]
  · rw [det_mul, hR.2.2, hS.2.2, mul_one]
theorem IsRot.transpose {R : M3} (hR : IsRot R) : IsRot Rᵀ :=
  ⟨by rw [transpose_transpose]; exact hR.2.1, by rw [transpose_transpose]; exact hR.1,
   by rw [det_transpose]; exact hR.2.2⟩

/-- `I + aA + bA²` is a rotation as soon as `a² + b²|w|² = 2b`. -/
theorem isRot_of_coeffs (w : V3) (a b : ℝ) (h : a ^ 2 + b ^ 2 * nsq w = 2 * b) :
    IsRot (1 + a • skew w + b • (skew w * skew w)) := by
  unfold nsq at h
  refine ⟨?_, ?_, ?_⟩
  · ext i j
    fin_cases i <;> fin_cases j <;>
      simp [skew, Matrix.mul_apply, Fin.sum_univ_three] <;>
      first
        | linear_combination (w 1 ^ 2 + w 2 ^ 2) * h
        | linear_combination (w 0 ^ 2 + w 2 ^ 2) * h
        | linear_combination (w 0 ^ 2 + w 1 ^ 2) * h
        | linear_combination (-w 0 * w 1) * h
        | linear_combination (-w 0 * w 2) * h
        | linear_combination (-w 1 * w 2) * h
  · ext i j
    fin_cases i <;> fin_cases j <;>
      simp [skew, Matrix.mul_apply, Fin.sum_univ_three] <;>
      first
        | linear_combination (w 1 ^ 2 + w 2 ^ 2) * h
        | linear_combination (w 0 ^ 2 + w 2 ^ 2) * h
        | linear_combination (w 0 ^ 2 + w 1 ^ 2) * h
        | linear_combination (-w 0 * w 1) * h
        | linear_combination (-w 0 * w 2) * h
        | linear_combination (-w 1 * w 2) * h
  · rw [det_fin_three]
    simp [skew, Matrix.mul_apply, Fin.sum_univ_three]
    linear_combination (w 0 ^ 2 + w 1 ^ 2 + w 2 ^ 2) * h

/-! ### pure closed forms -/

/-- value of `Gamma_SO3(w,0)` -/
noncomputable def Gam0 (w : V3) : M3 :=
  if norm3 w < TOLERANCE then 1 else gammaCase0 (norm3 w) (skew w)
/-- value of `Gamma_SO3(w,1)` -/
noncomputable def Gam1 (w : V3) : M3 :=
  if norm3 w < TOLERANCE then 1 else gammaCase1 (norm3 w) (skew w)
/-- value of `Gamma_SO3(w,2)` -/
noncomputable def Gam2 (w : V3) : M3 :=
  if norm3 w < TOLERANCE then (1 / 2 : ℝ) • 1 else gammaCase2 (norm3 w) (skew w)

theorem gamma_SO3_zero (w : V3) : gamma_SO3 w 0 = some (Gam0 w) := by
  unfold gamma_SO3 Gam0
  have : factorial? 0 = some 1 := by decide
  by_cases h : norm3 w < TOLERANCE <;> simp [this, h] <;> norm_num
theorem gamma_SO3_one (w : V3) : gamma_SO3 w 1 = some (Gam1 w) := by
  unfold gamma_SO3 Gam1
  have : factorial? 1 = some 1 := by decide
  by_cases h : norm3 w < TOLERANCE <;> simp [this, h] <;> norm_num
theorem gamma_SO3_two (w : V3) : gamma_SO3 w 2 = some (Gam2 w) := by
  unfold gamma_SO3 Gam2
  have : factorial? 2 = some 2 := by decide
  by_cases h : norm3 w < TOLERANCE <;> simp [this, h] <;> norm_num

theorem gammaCase0_eq (w : V3) : gammaCase0 (norm3 w) (skew w) =
    1 + (Real.sin (norm3 w) / norm3 w) • skew w
      + ((1 - Real.cos (norm3 w)) / nsq w) • (skew w * skew w) := by
  unfold gammaCase0; rw [norm3_mul_self, Matrix.smul_mul]
theorem gammaCase1_eq (w : V3) : gammaCase1 (norm3 w) (skew w) =
    1 + ((1 - Real.cos (norm3 w)) / nsq w) • skew w
      + ((norm3 w - Real.sin (norm3 w)) / (nsq w * norm3 w)) • (skew w * skew w) := by
  unfold gammaCase1; rw [norm3_mul_self, Matrix.smul_mul]

theorem coeff_id {w : V3} (h : norm3 w ≠ 0) :
    (Real.sin (norm3 w) / norm3 w) ^ 2 + ((1 - Real.cos (norm3 w)) / nsq w) ^ 2 * nsq w
      = 2 * ((1 - Real.cos (norm3 w)) / nsq w) := by
  have hs := Real.sin_sq_add_cos_sq (norm3 w)
  rw [← norm3_sq]
  field_simp
  linear_combination hs

theorem Gam0_isRot (w : V3) : IsRot (Gam0 w) := by
  unfold Gam0
  split_ifs with h
  · exact IsRot.one
  · rw [gammaCase0_eq]
    exact isRot_of_coeffs w _ _ (coeff_id (norm3_pos_of_not_lt h).ne')

end Drift
