import Verif.Lemmas.Mekf1
import Verif.Spec.Mekf
import Mathlib.Analysis.SpecialFunctions.Exponential
import Mathlib.Analysis.Matrix.Normed

/-! Helper lemmas for the multiplicative EKF: matrix exponentials. -/
namespace Drift
open Matrix NormedSpace
namespace Mekf

theorem exp_hasSum {n : Type} [Fintype n] [DecidableEq n] (A : Matrix n n ℝ) :
    HasSum (fun k : ℕ => ((k.factorial : ℝ)⁻¹) • A ^ k) (exp A) := by
  open scoped Norms.Operator in
  exact NormedSpace.exp_series_hasSum_exp' (𝕂 := ℝ) A

/-- intertwined matrices have intertwined exponentials -/
theorem exp_intertwine {m n : Type} [Fintype n] [DecidableEq n] [Fintype m] [DecidableEq m] {A : Matrix n n ℝ}
    {B : Matrix m m ℝ} {E : Matrix m n ℝ} (h : E * A = B * E) : E * exp A = exp B * E := by
  have hp : ∀ k : ℕ, E * A ^ k = B ^ k * E := fun k => by
    induction k with
    | zero => simp
    | succ k ih => rw [pow_succ, ← Matrix.mul_assoc, ih, Matrix.mul_assoc, h, ← Matrix.mul_assoc, ← pow_succ]
  have h1 : HasSum (fun k : ℕ => E * ((k.factorial : ℝ)⁻¹ • A ^ k)) (E * exp A) :=
    (exp_hasSum A).map (Matrix.addMonoidHomMulLeft E) (continuous_const.matrix_mul continuous_id)
  have h2 : HasSum (fun k : ℕ => ((k.factorial : ℝ)⁻¹ • B ^ k) * E) (exp B * E) :=
    (exp_hasSum B).map (Matrix.addMonoidHomMulRight E) (continuous_id.matrix_mul continuous_const)
  refine h1.unique ?_
  convert h2 using 2 with k
  rw [Matrix.mul_smul, hp, Matrix.smul_mul]

theorem exp_neg_mul (A : M3) : exp (-A) * exp A = 1 := by
  rw [← Matrix.exp_add_of_commute _ _ (Commute.neg_left (Commute.refl A)), neg_add_cancel, NormedSpace.exp_zero]

theorem skew_transpose (w : V3) : (skew w)ᵀ = -skew w := by
  ext i j
  fin_cases i <;> fin_cases j <;> simp [skew]

theorem exp_skew_transpose (w : V3) : (exp (skew w))ᵀ = exp (-skew w) := by
  rw [← Matrix.exp_transpose, skew_transpose]

theorem exp_skew_isRot (w : V3) : IsRot (exp (skew w)) := by
  have h1 : ∀ u : V3, (exp (skew u))ᵀ * exp (skew u) = 1 := fun u => by
    rw [exp_skew_transpose, exp_neg_mul]
  refine ⟨h1 w, mul_eq_one_comm.mp (h1 w), ?_⟩
  have h2 : exp (skew w) = exp (skew ((1 / 2 : ℝ) • w)) * exp (skew ((1 / 2 : ℝ) • w)) := by
    rw [← Matrix.exp_add_of_commute _ _ (Commute.refl _), skew_smul, ← add_smul]
    norm_num
  have h3 : (exp (skew ((1 / 2 : ℝ) • w))).det * (exp (skew ((1 / 2 : ℝ) • w))).det = 1 := by
    have := congrArg Matrix.det (h1 ((1 / 2 : ℝ) • w))
    rwa [det_mul, det_transpose, det_one] at this
  rw [h2, det_mul, h3]

theorem isRot_mul {R Q : M3} (hR : IsRot R) (hQ : IsRot Q) : IsRot (R * Q) := by
  refine ⟨?_, ?_, ?_⟩
  · rw [transpose_mul, Matrix.mul_assoc, ← Matrix.mul_assoc Rᵀ, hR.1, Matrix.one_mul, hQ.1]
  · rw [transpose_mul, Matrix.mul_assoc, ← Matrix.mul_assoc Q, hQ.2.1, Matrix.one_mul, hR.2.1]
  · rw [det_mul, hR.2.2, hQ.2.2, one_mul]

theorem turned_isRot {R : M3} (hR : IsRot R) (θ : V3) : IsRot (turned R θ) := isRot_mul hR (exp_skew_isRot θ)

theorem exp_deriv (A : M3) : MDeriv (fun τ : ℝ => exp (τ • A)) A 0 := by
  intro i j
  open scoped Norms.Operator in
  have h := hasDerivAt_exp_smul_const (𝕂 := ℝ) A (0 : ℝ)
  open scoped Norms.Operator in
  have h2 := (Matrix.entryLinearMap ℝ ℝ i j : M3 →ₗ[ℝ] ℝ).toContinuousLinearMap.hasFDerivAt.comp_hasDerivAt (0 : ℝ) h
  have e : (Matrix.entryLinearMap ℝ ℝ i j : M3 →ₗ[ℝ] ℝ).toContinuousLinearMap (exp ((0 : ℝ) • A) * A) = A i j := by
    rw [zero_smul, NormedSpace.exp_zero, Matrix.one_mul]; rfl
  exact h2.congr_deriv e

end Mekf
end Drift
