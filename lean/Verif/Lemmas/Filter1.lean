import Verif.Model.ImuFilter
import Mathlib.Analysis.Matrix.PosDef
import Mathlib.Data.Real.StarOrdered
import Mathlib.Tactic.NoncommRing
import Mathlib.Tactic.FinCases
import Mathlib.Tactic.Linarith

/-! Helper lemmas for the gyro filter: one Kalman correction, invariants along histories. -/
namespace Drift
open Matrix
namespace GyroFilter

theorem posSemidef_T {n : Type*} [Fintype n] {A : Matrix n n ℝ} (h : A.PosSemidef) : Aᵀ = A := by
  have := h.isHermitian
  rwa [Matrix.IsHermitian, conjTranspose_eq_transpose_of_trivial] at this

theorem congr_psd {m n : Type*} [Fintype m] [Fintype n] {A : Matrix n n ℝ} (h : A.PosSemidef)
    (B : Matrix m n ℝ) : (B * A * Bᵀ).PosSemidef := by
  have := h.mul_mul_conjTranspose_same B
  rwa [conjTranspose_eq_transpose_of_trivial] at this

/-- the corrected covariance in symmetric (Joseph) form, and the information gained -/
theorem kalman_cov {m n : Type*} [Fintype m] [Fintype n] [DecidableEq m] [DecidableEq n] {P : Matrix n n ℝ}
    {H : Matrix m n ℝ} {R : Matrix m m ℝ} (hP : P.PosSemidef) (hR : R.PosSemidef)
    (hS : (H * P * Hᵀ + R).det ≠ 0) :
    ((1 - P * Hᵀ * (H * P * Hᵀ + R)⁻¹ * H) * P).PosSemidef ∧
      (P - (1 - P * Hᵀ * (H * P * Hᵀ + R)⁻¹ * H) * P).PosSemidef := by
  set S := H * P * Hᵀ + R with hSd
  have hPT := posSemidef_T hP
  have hRT := posSemidef_T hR
  have hST : Sᵀ = S := by
    rw [hSd, transpose_add, transpose_mul, transpose_mul, transpose_transpose, hPT, hRT, Matrix.mul_assoc]
  have hWT : (S⁻¹)ᵀ = S⁻¹ := by rw [transpose_nonsing_inv, hST]
  have hW : S⁻¹ * S = 1 := nonsing_inv_mul _ (isUnit_iff_ne_zero.mpr hS)
  have hSpsd : S.PosSemidef := (congr_psd hP H).add hR
  have hT : (P * Hᵀ * S⁻¹)ᵀ = S⁻¹ * (H * P) := by
    rw [transpose_mul, transpose_mul, transpose_transpose, hWT, hPT]
  have e1 : P - (1 - P * Hᵀ * S⁻¹ * H) * P = (P * Hᵀ * S⁻¹) * S * (P * Hᵀ * S⁻¹)ᵀ := by
    rw [hT, Matrix.sub_mul, Matrix.one_mul, sub_sub_cancel]
    calc P * Hᵀ * S⁻¹ * H * P = P * Hᵀ * ((1 : Matrix m m ℝ) * (S⁻¹ * (H * P))) := by
          simp only [Matrix.one_mul, Matrix.mul_assoc]
      _ = P * Hᵀ * (S⁻¹ * S * (S⁻¹ * (H * P))) := by rw [hW]
      _ = _ := by simp only [Matrix.mul_assoc]
  have e2 : (1 - P * Hᵀ * S⁻¹ * H) * P = (1 - P * Hᵀ * S⁻¹ * H) * P * (1 - P * Hᵀ * S⁻¹ * H)ᵀ
      + (P * Hᵀ * S⁻¹) * R * (P * Hᵀ * S⁻¹)ᵀ := by
    have hT2 : (1 - P * Hᵀ * S⁻¹ * H)ᵀ = 1 - Hᵀ * (S⁻¹ * (H * P)) := by
      rw [transpose_sub, transpose_one, transpose_mul, hT]
    rw [hT2, hT]
    have hN : S⁻¹ * R = 1 - S⁻¹ * (H * (P * Hᵀ)) := by
      rw [← hW, hSd, Matrix.mul_add, Matrix.mul_assoc H P]; abel
    have e3 : P * Hᵀ * S⁻¹ * R * (S⁻¹ * (H * P)) =
        P * Hᵀ * (S⁻¹ * (H * P)) - P * Hᵀ * (S⁻¹ * (H * (P * Hᵀ))) * (S⁻¹ * (H * P)) := by
      rw [Matrix.mul_assoc (P * Hᵀ) S⁻¹ R, hN, Matrix.mul_sub, Matrix.sub_mul, Matrix.mul_one]
    rw [e3]
    simp only [Matrix.sub_mul, Matrix.mul_sub, Matrix.one_mul, Matrix.mul_one, Matrix.mul_assoc]
    abel
  refine ⟨?_, ?_⟩
  · rw [e2]
    exact (congr_psd hP _).add (congr_psd hR _)
  · rw [e1]
    exact congr_psd hSpsd _

theorem noise3_psd (s : ℝ) : (noise3 s).PosSemidef :=
  (Matrix.PosSemidef.one (n := Fin 3) (R := ℝ)).smul (mul_self_nonneg s)

theorem diag6_psd (a b : ℝ) : (diag6 a b).PosSemidef := by
  refine Matrix.PosSemidef.diagonal fun i => ?_
  dsimp only [Pi.zero_apply]
  split_ifs <;> nlinarith [mul_self_nonneg a, mul_self_nonneg b]

theorem noise3_pd {s : ℝ} (h : s ≠ 0) : (noise3 s).PosDef :=
  (Matrix.PosDef.one (n := Fin 3) (R := ℝ)).smul (mul_self_pos.mpr h)

/-- with a nonzero measurement noise the innovation covariance is invertible -/
theorem innov_det {P : M66} (hP : P.PosSemidef) (H : M36) {s : ℝ} (hs : s ≠ 0) :
    (H * P * Hᵀ + noise3 s).det ≠ 0 :=
  (Matrix.PosDef.posSemidef_add (congr_psd hP H) (noise3_pd hs)).det_pos.ne'

theorem kalman_some {f f' : GyroFilter} {H : M36} {R : M3} {y : V3} (h : f.kalman H R y = some f') :
    (H * f.P * Hᵀ + R).det ≠ 0 ∧
      f' = { f with x := f.x + (f.P * Hᵀ * (H * f.P * Hᵀ + R)⁻¹) *ᵥ (y - H *ᵥ f.x),
                    P := (1 - f.P * Hᵀ * (H * f.P * Hᵀ + R)⁻¹ * H) * f.P } := by
  unfold kalman at h
  dsimp only at h
  split_ifs at h with hd
  exact ⟨hd, (Option.some.inj h).symm⟩

end GyroFilter
end Drift
