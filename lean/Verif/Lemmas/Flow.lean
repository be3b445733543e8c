import Verif.Spec.Flow
import Verif.Lemmas.Imu2
import Mathlib.Analysis.Calculus.MeanValue
import Mathlib.Analysis.SpecialFunctions.Trigonometric.Deriv

/-! Helper lemmas: the exact flow of the strapdown equations. -/
set_option linter.unusedSimpArgs false
set_option linter.unnecessarySeqFocus false
namespace Drift
open Mat Matrix Finset RobotState ImuProp

/-- exact `Γ₀(w t)` -/
noncomputable def E0 (w : V3) (t : ℝ) : M3 :=
  1 + (Real.sin (norm3 w * t) / norm3 w) • skew w
    + ((1 - Real.cos (norm3 w * t)) / norm3 w ^ 2) • (skew w * skew w)
/-- exact `t Γ₁(w t)` -/
noncomputable def E1 (w : V3) (t : ℝ) : M3 :=
  t • (1 : M3) + ((1 - Real.cos (norm3 w * t)) / norm3 w ^ 2) • skew w
    + ((norm3 w * t - Real.sin (norm3 w * t)) / norm3 w ^ 3) • (skew w * skew w)
/-- exact `t² Γ₂(w t)` -/
noncomputable def E2 (w : V3) (t : ℝ) : M3 :=
  (t ^ 2 / 2) • (1 : M3) + ((norm3 w * t - Real.sin (norm3 w * t)) / norm3 w ^ 3) • skew w
    + (((norm3 w * t) ^ 2 / 2 + Real.cos (norm3 w * t) - 1) / norm3 w ^ 4) • (skew w * skew w)

theorem skew_of_norm_zero {w : V3} (h : norm3 w = 0) : skew w = 0 := by
  rw [norm3_eq_zero.mp h, skew_zero]

/-- coefficient derivatives -/
theorem hd_sin (θ t : ℝ) : HasDerivAt (fun τ => Real.sin (θ * τ)) (θ * Real.cos (θ * t)) t := by
  have h1 : HasDerivAt (fun τ : ℝ => θ * τ) θ t := by simpa using (hasDerivAt_id t).const_mul θ
  have := h1.sin
  rwa [mul_comm] at this
theorem hd_cos (θ t : ℝ) : HasDerivAt (fun τ => Real.cos (θ * τ)) (-(θ * Real.sin (θ * t))) t := by
  have h1 : HasDerivAt (fun τ : ℝ => θ * τ) θ t := by simpa using (hasDerivAt_id t).const_mul θ
  have := h1.cos
  convert this using 1; ring
theorem hd_lin (θ t : ℝ) : HasDerivAt (fun τ : ℝ => θ * τ) θ t := by
  simpa using (hasDerivAt_id t).const_mul θ

theorem E0_deriv (w : V3) (t : ℝ) : MDeriv (E0 w) (E0 w t * skew w) t := by
  intro i j
  by_cases h : norm3 w = 0
  · have hs := skew_of_norm_zero h
    have : (fun τ => E0 w τ i j) = fun _ => (1 : M3) i j := by
      funext τ; simp [E0, hs]
    rw [this, hs, Matrix.mul_zero]
    exact hasDerivAt_const _ _
  · have hd : HasDerivAt (fun τ => E0 w τ i j)
        (0 + norm3 w * Real.cos (norm3 w * t) / norm3 w * skew w i j
          + (0 - -(norm3 w * Real.sin (norm3 w * t))) / norm3 w ^ 2 * (skew w * skew w) i j) t := by
      unfold E0
      simp only [Matrix.add_apply, Matrix.smul_apply, smul_eq_mul]
      exact (((hasDerivAt_const t _).add (((hd_sin _ _).div_const _).mul_const _)).add
        ((((hasDerivAt_const t _).sub (hd_cos _ _)).div_const _).mul_const _))
    convert hd using 1
    have hc := skew_cube' w
    unfold E0
    rw [Matrix.add_mul, Matrix.add_mul, Matrix.smul_mul, Matrix.smul_mul, hc, Matrix.one_mul, smul_smul]
    simp only [Matrix.add_apply, Matrix.smul_apply, smul_eq_mul]
    field_simp
    ring

theorem E1_deriv (w : V3) (t : ℝ) : MDeriv (E1 w) (E0 w t) t := by
  intro i j
  by_cases h : norm3 w = 0
  · have hs := skew_of_norm_zero h
    have e : (fun τ => E1 w τ i j) = fun τ => τ * (1 : M3) i j := by
      funext τ; simp [E1, hs]
    rw [e]
    have : E0 w t i j = 1 * (1 : M3) i j := by simp [E0, hs]
    rw [this]
    exact (hasDerivAt_id t).mul_const _
  · have hd : HasDerivAt (fun τ => E1 w τ i j)
        (1 * (1 : M3) i j + (0 - -(norm3 w * Real.sin (norm3 w * t))) / norm3 w ^ 2 * skew w i j
          + (norm3 w - norm3 w * Real.cos (norm3 w * t)) / norm3 w ^ 3 * (skew w * skew w) i j) t := by
      unfold E1
      simp only [Matrix.add_apply, Matrix.smul_apply, smul_eq_mul]
      exact ((((hasDerivAt_id t).mul_const _).add
        ((((hasDerivAt_const t _).sub (hd_cos _ _)).div_const _).mul_const _)).add
        ((((hd_lin _ _).sub (hd_sin _ _)).div_const _).mul_const _))
    convert hd using 1
    unfold E0
    simp only [Matrix.add_apply, Matrix.smul_apply, smul_eq_mul]
    field_simp
    ring

theorem E2_deriv (w : V3) (t : ℝ) : MDeriv (E2 w) (E1 w t) t := by
  intro i j
  have hsq : ∀ c : ℝ, HasDerivAt (fun τ : ℝ => (c * τ) ^ 2 / 2) (c * (c * t)) t := by
    intro c
    have h1 := hd_lin c t
    have h2 : HasDerivAt (fun τ : ℝ => (c * τ) * (c * τ) / 2) ((c * (c * t) + (c * t) * c) / 2) t :=
      (h1.mul h1).div_const 2
    have e : (fun τ : ℝ => (c * τ) ^ 2 / 2) = fun τ : ℝ => (c * τ) * (c * τ) / 2 := by
      funext τ; ring
    rw [e, show c * (c * t) = (c * (c * t) + (c * t) * c) / 2 by ring]
    exact h2
  have hsq1 : HasDerivAt (fun τ : ℝ => τ ^ 2 / 2) t t := by
    have := hsq 1; simpa using this
  by_cases h : norm3 w = 0
  · have hs := skew_of_norm_zero h
    have e : (fun τ => E2 w τ i j) = fun τ => τ ^ 2 / 2 * (1 : M3) i j := by
      funext τ; simp [E2, hs]
    rw [e]
    have : E1 w t i j = t * (1 : M3) i j := by simp [E1, hs]
    rw [this]
    exact hsq1.mul_const _
  · have hd : HasDerivAt (fun τ => E2 w τ i j)
        (t * (1 : M3) i j + (norm3 w - norm3 w * Real.cos (norm3 w * t)) / norm3 w ^ 3 * skew w i j
          + (norm3 w * (norm3 w * t) + -(norm3 w * Real.sin (norm3 w * t))) / norm3 w ^ 4
              * (skew w * skew w) i j) t := by
      unfold E2
      simp only [Matrix.add_apply, Matrix.smul_apply, smul_eq_mul]
      exact ((hsq1.mul_const _).add ((((hd_lin _ _).sub (hd_sin _ _)).div_const _).mul_const _)).add
        (((((hsq _).add (hd_cos _ _)).sub_const _).div_const _).mul_const _)
    convert hd using 1
    unfold E1
    simp only [Matrix.add_apply, Matrix.smul_apply, smul_eq_mul]
    field_simp
    ring

@[simp] theorem E0_zero (w : V3) : E0 w 0 = 1 := by simp [E0]
@[simp] theorem E1_zero (w : V3) : E1 w 0 = 0 := by simp [E1]
@[simp] theorem E2_zero (w : V3) : E2 w 0 = 0 := by simp [E2]

theorem lin3 {a b c a' b' c' : ℝ} {A B : M3} (h1 : a = a') (h2 : b = b') (h3 : c = c') :
    a • (1 : M3) + b • A + c • B = a' • (1 : M3) + b' • A + c' • B := by rw [h1, h2, h3]

theorem lin2 {b c b' c' : ℝ} {A B : M3} (h2 : b = b') (h3 : c = c') :
    (1 : M3) + b • A + c • B = (1 : M3) + b' • A + c' • B := by rw [h2, h3]

theorem exactAt_cases {w : V3} {t : ℝ} (h : ExactAt (t • w)) :
    (norm3 (t • w) < TOLERANCE ∧ (t = 0 ∨ w = 0)) ∨
    (¬ norm3 (t • w) < TOLERANCE ∧ t ≠ 0 ∧ norm3 w ≠ 0 ∧
      (norm3 (t • w) = norm3 w * t ∨ norm3 (t • w) = -(norm3 w * t))) := by
  rcases h with h | h
  · refine Or.inr ?_
    have hpos := norm3_pos_of_not_lt h
    rw [norm3_smul] at hpos
    refine ⟨h, ?_, ?_, ?_⟩
    · rintro rfl; simp at hpos
    · intro h0; rw [h0] at hpos; simp at hpos
    · rw [norm3_smul]
      rcases abs_cases t with ⟨h1, _⟩ | ⟨h1, _⟩
      · left; rw [h1]; ring
      · right; rw [h1]; ring
  · refine Or.inl ⟨?_, smul_eq_zero.mp h⟩
    rw [h, norm3_zero]; unfold TOLERANCE; norm_num

theorem Gam0_smul {w : V3} {t : ℝ} (h : ExactAt (t • w)) : Gam0 (t • w) = E0 w t := by
  rcases exactAt_cases h with ⟨h1, h2⟩ | ⟨h1, ht, hθ, h2⟩
  · unfold Gam0
    rw [if_pos h1]
    rcases h2 with rfl | rfl
    · simp
    · simp [E0, skew_zero]
  · unfold Gam0 E0 gammaCase0
    rw [if_neg h1, skew_smul]
    rcases h2 with h2 | h2
    all_goals
      rw [h2]
      simp only [Real.sin_neg, Real.cos_neg, Matrix.smul_mul, Matrix.mul_smul, smul_smul]
      exact lin2 (by field_simp) (by field_simp)

theorem Gam1_smul {w : V3} {t : ℝ} (h : ExactAt (t • w)) : t • Gam1 (t • w) = E1 w t := by
  rcases exactAt_cases h with ⟨h1, h2⟩ | ⟨h1, ht, hθ, h2⟩
  · unfold Gam1
    rw [if_pos h1]
    rcases h2 with rfl | rfl
    · simp
    · simp [E1, skew_zero]
  · unfold Gam1 E1 gammaCase1
    rw [if_neg h1, skew_smul]
    rcases h2 with h2 | h2
    all_goals
      rw [h2]
      simp only [Real.sin_neg, Real.cos_neg, Matrix.smul_mul, Matrix.mul_smul, smul_smul, smul_add]
      exact lin3 rfl (by field_simp) (by field_simp <;> ring)

theorem Gam2_smul {w : V3} {t : ℝ} (h : ExactAt (t • w)) : t • t • Gam2 (t • w) = E2 w t := by
  rcases exactAt_cases h with ⟨h1, h2⟩ | ⟨h1, ht, hθ, h2⟩
  · unfold Gam2
    rw [if_pos h1]
    rcases h2 with rfl | rfl
    · simp
    · simp only [E2, skew_zero, smul_smul, smul_zero, Matrix.mul_zero, add_zero]
      congr 1; ring
  · unfold Gam2 E2 gammaCase2
    rw [if_neg h1, skew_smul]
    rcases h2 with h2 | h2
    all_goals
      rw [h2]
      simp only [Real.sin_neg, Real.cos_neg, Matrix.smul_mul, Matrix.mul_smul, smul_smul, smul_add]
      exact lin3 (by norm_num; ring) (by field_simp <;> ring) (by field_simp <;> ring)

/-! ### uniqueness of the strapdown solution -/

theorem const_of_deriv_zero {f : ℝ → ℝ} (h : ∀ t, HasDerivAt f 0 t) (t : ℝ) : f t = f 0 :=
  is_const_of_deriv_eq_zero (fun x => (h x).differentiableAt) (fun x => (h x).deriv) t 0

theorem eq_of_deriv_eq {f g f' : ℝ → ℝ} (hf : ∀ t, HasDerivAt f (f' t) t) (hg : ∀ t, HasDerivAt g (f' t) t)
    (h0 : f 0 = g 0) (t : ℝ) : f t = g t := by
  have h : ∀ t, HasDerivAt (fun t => f t - g t) 0 t := fun t => by
    have h1 := (hf t).sub (hg t)
    rw [sub_self] at h1
    exact h1
  have := const_of_deriv_zero h t
  simp only [h0, sub_self] at this
  linarith

theorem MDeriv.mul_const {R : ℝ → M3} {R' : M3} {t : ℝ} (h : MDeriv R R' t) (A : M3) :
    MDeriv (fun τ => R τ * A) (R' * A) t := by
  intro i j
  simp only [Matrix.mul_apply]
  exact HasDerivAt.fun_sum fun k _ => (h i k).mul_const _

theorem MDeriv.const_mul {R : ℝ → M3} {R' : M3} {t : ℝ} (h : MDeriv R R' t) (A : M3) :
    MDeriv (fun τ => A * R τ) (A * R') t := by
  intro i j
  simp only [Matrix.mul_apply]
  exact HasDerivAt.fun_sum fun k _ => (h k j).const_mul _

theorem MDeriv.mulVec {R : ℝ → M3} {R' : M3} {t : ℝ} (h : MDeriv R R' t) (a : V3) :
    VDeriv (fun τ => (R τ).mulVec a) (R'.mulVec a) t := by
  intro i
  simp only [Matrix.mulVec, dotProduct]
  exact HasDerivAt.fun_sum fun k _ => (h i k).mul_const _

theorem MDeriv.mul {R S : ℝ → M3} {R' S' : M3} {t : ℝ} (h : MDeriv R R' t) (h' : MDeriv S S' t) :
    MDeriv (fun τ => R τ * S τ) (R' * S t + R t * S') t := by
  intro i j
  simp only [Matrix.mul_apply, Matrix.add_apply, ← Finset.sum_add_distrib]
  exact HasDerivAt.fun_sum fun k _ => (h i k).mul (h' k j)

theorem MDeriv.transpose {R : ℝ → M3} {R' : M3} {t : ℝ} (h : MDeriv R R' t) :
    MDeriv (fun τ => (R τ)ᵀ) R'ᵀ t := fun i j => h j i

theorem E0_mul_T (w : V3) (t : ℝ) : E0 w t * (E0 w t)ᵀ = 1 := by
  have h : ∀ τ, MDeriv (fun τ => E0 w τ * (E0 w τ)ᵀ) 0 τ := by
    intro τ
    have := (E0_deriv w τ).mul (E0_deriv w τ).transpose
    convert this using 1
    rw [Matrix.transpose_mul, skew_transpose, Matrix.mul_assoc]
    simp
  ext i j
  have := const_of_deriv_zero (f := fun τ => (E0 w τ * (E0 w τ)ᵀ) i j) (fun τ => h τ i j) t
  simpa using this

theorem E0_T_mul (w : V3) (t : ℝ) : (E0 w t)ᵀ * E0 w t = 1 := by
  exact mul_eq_one_comm.mp (E0_mul_T w t)

/-- the strapdown solution is given by `E0, E1, E2` -/
theorem Strapdown.unique {w a g : V3} {R : ℝ → M3} {v q : ℝ → V3} (h : Strapdown w a g R v q) (t : ℝ) :
    R t = R 0 * E0 w t ∧ v t = v 0 + (R 0 * E1 w t).mulVec a + t • g ∧
      q t = q 0 + t • v 0 + (R 0 * E2 w t).mulVec a + (t ^ 2 / 2) • g := by
  have hR : ∀ t, R t = R 0 * E0 w t := by
    intro t
    have hd : ∀ τ, MDeriv (fun τ => R τ * (E0 w τ)ᵀ) 0 τ := by
      intro τ
      have := (h.rot τ).mul (E0_deriv w τ).transpose
      convert this using 1
      rw [Matrix.transpose_mul, skew_transpose, Matrix.mul_assoc]
      simp
    have hc : R t * (E0 w t)ᵀ = R 0 := by
      ext i j
      have := const_of_deriv_zero (f := fun τ => (R τ * (E0 w τ)ᵀ) i j) (fun τ => hd τ i j) t
      simpa using this
    rw [← hc, Matrix.mul_assoc, E0_T_mul, Matrix.mul_one]
  have hlin : ∀ (c : V3) t, VDeriv (fun τ : ℝ => τ • c) c t := by
    intro c t i
    simpa using (hasDerivAt_id t).mul_const (c i)
  have hsq : ∀ (c : V3) (t : ℝ), VDeriv (fun τ : ℝ => (τ ^ 2 / 2) • c) (t • c) t := by
    intro c t i
    have h1 := hasDerivAt_id t
    have h2 : HasDerivAt (fun τ : ℝ => τ * τ / 2) ((1 * t + t * 1) / 2) t := (h1.mul h1).div_const 2
    have e : (fun τ : ℝ => ((τ ^ 2 / 2) • c) i) = fun τ : ℝ => τ * τ / 2 * c i := by
      funext τ; simp only [Pi.smul_apply, smul_eq_mul]; ring
    rw [e, show (t • c) i = (1 * t + t * 1) / 2 * c i by simp only [Pi.smul_apply, smul_eq_mul]; ring]
    exact h2.mul_const _
  have hv : ∀ t, v t = v 0 + (R 0 * E1 w t).mulVec a + t • g := by
    intro t
    ext i
    refine eq_of_deriv_eq (f := fun τ => v τ i) (g := fun τ => (v 0 + (R 0 * E1 w τ).mulVec a + τ • g) i)
      (f' := fun τ => ((R τ).mulVec a + g) i) (fun τ => h.vel τ i) (fun τ => ?_) (by simp) t
    have h1 := ((E1_deriv w τ).const_mul (R 0)).mulVec a i
    have h2 := hlin g τ i
    have h3 := (h1.const_add (v 0 i)).add h2
    rw [hR τ]
    exact h3
  refine ⟨hR t, hv t, ?_⟩
  ext i
  refine eq_of_deriv_eq (f := fun τ => q τ i)
    (g := fun τ => (q 0 + τ • v 0 + (R 0 * E2 w τ).mulVec a + (τ ^ 2 / 2) • g) i)
    (f' := fun τ => v τ i) (fun τ => h.pos τ i) (fun τ => ?_) (by simp) t
  have h1 := ((E2_deriv w τ).const_mul (R 0)).mulVec a i
  have h2 := hlin (v 0) τ i
  have h3 := hsq g τ i
  rw [hv τ]
  have h4 := ((h2.const_add (q 0 i)).add h1).add h3
  exact h4

/-- a strapdown solution exists for every initial value -/
theorem Strapdown.exists (w a g : V3) (R0 : M3) (v0 q0 : V3) :
    ∃ R v q, Strapdown w a g R v q ∧ R 0 = R0 ∧ v 0 = v0 ∧ q 0 = q0 := by
  refine ⟨fun t => R0 * E0 w t, fun t => v0 + (R0 * E1 w t).mulVec a + t • g,
    fun t => q0 + t • v0 + (R0 * E2 w t).mulVec a + (t ^ 2 / 2) • g, ⟨?_, ?_, ?_⟩, by simp, by simp, by simp⟩
  · intro t
    have := (E0_deriv w t).const_mul R0
    rw [← Matrix.mul_assoc] at this
    exact this
  · intro t i
    have h1 := ((E1_deriv w t).const_mul R0).mulVec a i
    have h2 : HasDerivAt (fun τ : ℝ => (τ • g) i) (g i) t := by
      simpa using (hasDerivAt_id t).mul_const (g i)
    exact (h1.const_add (v0 i)).add h2
  · intro t i
    have h1 := ((E2_deriv w t).const_mul R0).mulVec a i
    have h2 : HasDerivAt (fun τ : ℝ => (τ • v0) i) (v0 i) t := by
      simpa using (hasDerivAt_id t).mul_const (v0 i)
    have h3 : HasDerivAt (fun τ : ℝ => ((τ ^ 2 / 2) • g) i) ((t • g) i) t := by
      have h1 := hasDerivAt_id t
      have h2 : HasDerivAt (fun τ : ℝ => τ * τ / 2) ((1 * t + t * 1) / 2) t := (h1.mul h1).div_const 2
      have e : (fun τ : ℝ => ((τ ^ 2 / 2) • g) i) = fun τ : ℝ => τ * τ / 2 * g i := by
        funext τ; simp only [Pi.smul_apply, smul_eq_mul]; ring
      rw [e, show (t • g) i = (1 * t + t * 1) / 2 * g i by simp only [Pi.smul_apply, smul_eq_mul]; ring]
      exact h2.mul_const _
    exact ((h2.const_add (q0 i)).add h1).add h3

/-- Shifting the time origin of a solution. -/
theorem Strapdown.shift {w a g : V3} {R : ℝ → M3} {v q : ℝ → V3} (h : Strapdown w a g R v q) (t0 : ℝ) :
    Strapdown w a g (fun t => R (t0 + t)) (fun t => v (t0 + t)) (fun t => q (t0 + t)) :=
  ⟨fun t i j => (h.rot (t0 + t) i j).comp_const_add t0 t, fun t i => (h.vel (t0 + t) i).comp_const_add t0 t,
    fun t i => (h.pos (t0 + t) i).comp_const_add t0 t⟩

/-- the predicted mean is the exact flow -/
theorem meanK_flow {K : ℕ} {w a : V3} {dt : ℝ} {X : Mat} (hx : ExactAt (dt • w)) {R : ℝ → M3} {v q : ℝ → V3}
    (h : Strapdown w a gravity R v q) (hR : R 0 = X.blk3 0 0) (hv : v 0 = X.blkV 0 3) (hq : q 0 = X.blkV 0 4) :
    meanK K w a dt X = mkSE K (R dt) fun k => if k = 0 then v dt else if k = 1 then q dt else X.blkV 0 (3 + k) := by
  obtain ⟨e1, e2, e3⟩ := h.unique dt
  unfold meanK
  refine mkSE_congr ?_ fun k _ => ?_
  · rw [e1, hR, Gam0_smul hx]
  · by_cases h0 : k = 0
    · rw [if_pos h0, if_pos h0, e2, hv, hR, ← Gam1_smul hx, Matrix.mul_smul, smul_mulVec, smul_add, add_assoc]
    · rw [if_neg h0, if_neg h0]
      by_cases h1 : k = 1
      · rw [if_pos h1, if_pos h1, e3, hv, hR, hq, ← Gam2_smul hx, Matrix.mul_smul, Matrix.mul_smul, smul_mulVec,
          smul_mulVec, smul_add, smul_add, smul_smul dt dt (_ • gravity), smul_smul (dt * dt) _ gravity,
          add_assoc _ _ (_ • gravity), show dt * dt * 0.5 = dt ^ 2 / 2 by ring]
      · rw [if_neg h1, if_neg h1]

end Drift
