import Verif.Lemmas.Kin2
import Verif.Lemmas.Kin3
import Mathlib.Analysis.SpecialFunctions.Trigonometric.Deriv
import Mathlib.Analysis.Calculus.FDeriv.Pi
import Mathlib.Analysis.Calculus.FDeriv.Mul
import Mathlib.Analysis.Calculus.Deriv.Prod
import Mathlib.Topology.Algebra.Module.FiniteDimension

/-!
# Derivatives of the leg kinematics
-/
namespace Drift
open Matrix Real

theorem Leg.joint_ne (l : Leg) : l.joint 0 ≠ l.joint 1 ∧ l.joint 0 ≠ l.joint 2 ∧ l.joint 1 ≠ l.joint 2 := by
  cases l <;> decide

theorem Cols.mulVec {n : ℕ} {l : Leg} {J : Matrix (Fin n) (Fin 12) ℝ} {A : Matrix (Fin n) (Fin 3) ℝ} (h : Cols l J A)
    (v : Fin 12 → ℝ) (i : Fin n) :
    J.mulVec v i = A i 0 * v (l.joint 0) + A i 1 * v (l.joint 1) + A i 2 * v (l.joint 2) := by
  have e : ∀ j, J i j * v j = (if j = l.joint 0 then A i 0 * v (l.joint 0) else 0) +
      (if j = l.joint 1 then A i 1 * v (l.joint 1) else 0) + (if j = l.joint 2 then A i 2 * v (l.joint 2) else 0) := by
    intro j
    obtain ⟨h1, h2, h3⟩ := l.joint_ne
    rw [h i j]
    by_cases e0 : j = l.joint 0
    · subst e0; simp [h1, h2]
    · by_cases e1 : j = l.joint 1
      · subst e1; simp [h1.symm, h3]
      · by_cases e2 : j = l.joint 2
        · subst e2; simp [h2.symm, h3.symm]
        · simp [e0, e1, e2]
  simp only [Matrix.mulVec, dotProduct, e, Finset.sum_add_distrib, Finset.sum_ite_eq', Finset.mem_univ, if_true]

section curve
variable {a b c : ℝ → ℝ} {a' b' c' t : ℝ}

theorem hasDerivAt_posF (f l : ℝ) (ha : HasDerivAt a a' t) (hb : HasDerivAt b b' t) (hc : HasDerivAt c c' t) (i : Fin 3) :
    HasDerivAt (fun s => posF f l (a s) (b s) (c s) i)
      (jacF l (a t) (b t) (c t) i 0 * a' + jacF l (a t) (b t) (c t) i 1 * b' + jacF l (a t) (b t) (c t) i 2 * c') t := by
  have hL := (hb.cos.const_mul (0.209 : ℝ)).add ((hb.add hc).cos.const_mul (0.2075 : ℝ))
  fin_cases i
  · refine (((hasDerivAt_const t (0.19 * f)).add (hb.sin.const_mul (0.209 : ℝ))).add
      ((hb.add hc).sin.const_mul (0.2075 : ℝ))).congr_deriv ?_
    simp [jacF]; ring
  · refine (((hasDerivAt_const t (0.049 * l)).add (ha.cos.const_mul (0.062 * l))).add (ha.sin.mul hL)).congr_deriv ?_
    simp [jacF]; ring
  · refine ((ha.sin.const_mul (0.062 * l)).sub (ha.cos.mul hL)).congr_deriv ?_
    simp [jacF]; ring

theorem hasDerivAt_rotF_body (ha : HasDerivAt a a' t) (hb : HasDerivAt b b' t) (hc : HasDerivAt c c' t) (i j : Fin 3) :
    HasDerivAt (fun s => rotF (a s) (b s) (c s) i j)
      ((rotF (a t) (b t) (c t) * skew (fun m => wbF (b t) (c t) m 0 * a' + wbF (b t) (c t) m 1 * b' +
        wbF (b t) (c t) m 2 * c')) i j) t := by
  have hs := sin_sq_add_cos_sq (b t + c t)
  fin_cases i <;> fin_cases j
  · refine (hb.add hc).cos.congr_deriv ?_
    simp [rotF, wbF, skew, Matrix.mul_apply, Fin.sum_univ_three, -mul_eq_mul_left_iff, -mul_eq_mul_right_iff]; ring
  · refine (hasDerivAt_const t (0 : ℝ)).congr_deriv ?_
    simp [rotF, wbF, skew, Matrix.mul_apply, Fin.sum_univ_three]; ring
  · refine (hb.add hc).sin.neg.congr_deriv ?_
    simp [rotF, wbF, skew, Matrix.mul_apply, Fin.sum_univ_three]; ring
  · refine (ha.sin.mul (hb.add hc).sin).neg.congr_deriv ?_
    simp [rotF, wbF, skew, Matrix.mul_apply, Fin.sum_univ_three]; ring
  · refine ha.cos.congr_deriv ?_
    simp [rotF, wbF, skew, Matrix.mul_apply, Fin.sum_univ_three]; linear_combination (sin (a t) * a') * hs
  · refine (ha.sin.mul (hb.add hc).cos).neg.congr_deriv ?_
    simp [rotF, wbF, skew, Matrix.mul_apply, Fin.sum_univ_three]; ring
  · refine (ha.cos.mul (hb.add hc).sin).congr_deriv ?_
    simp [rotF, wbF, skew, Matrix.mul_apply, Fin.sum_univ_three]; ring
  · refine ha.sin.congr_deriv ?_
    simp [rotF, wbF, skew, Matrix.mul_apply, Fin.sum_univ_three]; linear_combination (-cos (a t) * a') * hs
  · refine (ha.cos.mul (hb.add hc).cos).congr_deriv ?_
    simp [rotF, wbF, skew, Matrix.mul_apply, Fin.sum_univ_three]; ring
end curve

/-- spatial = body rotated -/
theorem rotF_wb (a b c : ℝ) : rotF a b c * wbF b c = wsF a := by
  have hs := sin_sq_add_cos_sq (b + c)
  ext i j
  fin_cases i <;> fin_cases j <;> simp [rotF, wbF, wsF, Matrix.mul_apply, Fin.sum_univ_three]
  · linear_combination hs
  · ring
  · ring

theorem rotF_vb (l a b c : ℝ) : rotF a b c * vbF l b c = jacF l a b c := by
  have hs := sin_sq_add_cos_sq (b + c)
  have ec : cos c = cos (b + c) * cos b + sin (b + c) * sin b := by
    rw [← cos_sub]; ring_nf
  have es : sin c = sin (b + c) * cos b - cos (b + c) * sin b := by
    rw [← sin_sub]; ring_nf
  ext i j
  fin_cases i <;> fin_cases j <;> simp [rotF, vbF, jacF, Matrix.mul_apply, Fin.sum_univ_three, ec, es]
  all_goals first
    | ring1
    | linear_combination (0.209 * cos b) * hs
    | linear_combination (-sin a * 0.209 * sin b) * hs
    | linear_combination (cos a * 0.209 * sin b) * hs
    | linear_combination (0.062 * l * sin a) * hs
    | linear_combination (-0.062 * l * sin a) * hs
    | linear_combination (0.062 * l * cos a) * hs

/-- `v_s = ṗ - ω_s × p` -/
theorem vsF_eq (f l a b c : ℝ) (v : V3) :
    (fun i => jacF l a b c i 0 * v 0 + jacF l a b c i 1 * v 1 + jacF l a b c i 2 * v 2) -
      (skew fun i => wsF a i 0 * v 0 + wsF a i 1 * v 1 + wsF a i 2 * v 2).mulVec (posF f l a b c) =
    fun i => vsF f l a b i 0 * v 0 + vsF f l a b i 1 * v 1 + vsF f l a b i 2 * v 2 := by
  have hs := sin_sq_add_cos_sq a
  funext i
  fin_cases i <;> simp [jacF, wsF, vsF, posF, skew, Matrix.mulVec, dotProduct, Fin.sum_univ_three]
  all_goals first
    | ring1
    | linear_combination (-(v 1 + v 2) * (0.209 * cos b + 0.2075 * cos (b + c))) * hs

theorem rotF_isRot (a b c : ℝ) : (rotF a b c)ᵀ * rotF a b c = 1 ∧ rotF a b c * (rotF a b c)ᵀ = 1 := by
  have h1 := sin_sq_add_cos_sq (b + c)
  have h2 := sin_sq_add_cos_sq a
  have : rotF a b c * (rotF a b c)ᵀ = 1 := by
    ext i j
    fin_cases i <;> fin_cases j <;> simp [rotF, Matrix.mul_apply, Fin.sum_univ_three] <;>
    first
    | ring1
    | linear_combination h1
    | linear_combination (sin a ^ 2) * h1 + h2
    | linear_combination (cos a ^ 2) * h1 + h2
    | linear_combination (-sin a * cos a) * h1
  exact ⟨mul_eq_one_comm.1 this, this⟩

end Drift
