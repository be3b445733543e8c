import Verif.Lemmas.Flow

/-! Helper lemmas: the exact flow of the linear error equations. -/
set_option linter.unusedSimpArgs false
set_option linter.unnecessarySeqFocus false
namespace Drift
open Mat Matrix Finset RobotState ImuProp Nat

theorem hd_comp {F : ℝ → ℝ} {F' θ t : ℝ} (h : HasDerivAt F F' (θ * t)) :
    HasDerivAt (fun τ => F (θ * τ)) (F' * θ) t := h.comp t (hd_lin θ t)

theorem hs (x : ℝ) : HasDerivAt (fun y => Real.sin y) (Real.cos x) x := Real.hasDerivAt_sin x
theorem hc (x : ℝ) : HasDerivAt (fun y => Real.cos y) (-Real.sin x) x := Real.hasDerivAt_cos x
theorem hi (x : ℝ) : HasDerivAt (fun y : ℝ => y) 1 x := hasDerivAt_id x
theorem h2 (x : ℝ) : HasDerivAt (fun y : ℝ => 2 * y) 2 x := by simpa using (hi x).const_mul 2
theorem hs2 (x : ℝ) : HasDerivAt (fun y => Real.sin (2 * y)) (Real.cos (2 * x) * 2) x := (h2 x).sin
theorem hc2 (x : ℝ) : HasDerivAt (fun y => Real.cos (2 * y)) (-Real.sin (2 * x) * 2) x := (h2 x).cos
theorem hxs (x : ℝ) : HasDerivAt (fun y => y * Real.sin y) (1 * Real.sin x + x * Real.cos x) x := (hi x).mul (hs x)
theorem hxc (x : ℝ) : HasDerivAt (fun y => y * Real.cos y) (1 * Real.cos x + x * -Real.sin x) x := (hi x).mul (hc x)
theorem hx2 (x : ℝ) : HasDerivAt (fun y : ℝ => y ^ 2) (2 * x) x := by
  simpa using hasDerivAt_pow 2 x
theorem hx3 (x : ℝ) : HasDerivAt (fun y : ℝ => y ^ 3) (3 * x ^ 2) x := by
  simpa using hasDerivAt_pow 3 x

section coef
variable {θ : ℝ} (hθ : θ ≠ 0) (t : ℝ)
include hθ

/-! coefficients of the gyro-bias integrals, as in the code -/

theorem c1_deriv : HasDerivAt (fun τ => (Real.sin (θ * τ) - θ * τ * Real.cos (θ * τ)) / θ ^ 3)
    (Real.sin (θ * t) / θ * t) t := by
  have h := ((hd_comp ((hs (θ * t)).sub (hxc (θ * t))))).div_const (θ ^ 3)
  refine h.congr_deriv ?_
  field_simp; ring

theorem c2_deriv : HasDerivAt (fun τ => (Real.cos (2 * (θ * τ)) - 4 * Real.cos (θ * τ) + 3) / (4 * θ ^ 4))
    (Real.sin (θ * t) / θ * ((1 - Real.cos (θ * t)) / θ ^ 2)) t := by
  have h := ((hd_comp (((hc2 (θ * t)).sub ((hc (θ * t)).const_mul 4)).add_const 3))).div_const (4 * θ ^ 4)
  refine h.congr_deriv ?_
  rw [Real.sin_two_mul]
  field_simp; ring

theorem c3_deriv : HasDerivAt (fun τ => (4 * Real.sin (θ * τ) + Real.sin (2 * (θ * τ))
      - 4 * (θ * τ * Real.cos (θ * τ)) - 2 * (θ * τ)) / (4 * θ ^ 5))
    (Real.sin (θ * t) / θ * ((θ * t - Real.sin (θ * t)) / θ ^ 3)) t := by
  have h := ((hd_comp (((((hs (θ * t)).const_mul 4).add (hs2 (θ * t))).sub ((hxc (θ * t)).const_mul 4)).sub
    (h2 (θ * t))))).div_const (4 * θ ^ 5)
  refine h.congr_deriv ?_
  have := Real.sin_sq_add_cos_sq (θ * t)
  have e : Real.cos (2 * (θ * t)) = 1 - 2 * Real.sin (θ * t) ^ 2 := by rw [Real.cos_two_mul]; linarith
  rw [e]
  field_simp; ring

theorem c4_deriv : HasDerivAt (fun τ => ((θ * τ) ^ 2 - 2 * (θ * τ * Real.sin (θ * τ)) - 2 * Real.cos (θ * τ) + 2)
      / (2 * θ ^ 4)) ((1 - Real.cos (θ * t)) / θ ^ 2 * t) t := by
  have h := ((hd_comp ((((hx2 (θ * t)).sub ((hxs (θ * t)).const_mul 2)).sub ((hc (θ * t)).const_mul 2)).add_const
    2))).div_const (2 * θ ^ 4)
  refine h.congr_deriv ?_
  field_simp; ring

theorem c5_deriv : HasDerivAt (fun τ => (6 * (θ * τ) - 8 * Real.sin (θ * τ) + Real.sin (2 * (θ * τ)))
      / (4 * θ ^ 5)) ((1 - Real.cos (θ * t)) / θ ^ 2 * ((1 - Real.cos (θ * t)) / θ ^ 2)) t := by
  have h := ((hd_comp ((((hi (θ * t)).const_mul 6).sub ((hs (θ * t)).const_mul 8)).add
    (hs2 (θ * t))))).div_const (4 * θ ^ 5)
  refine h.congr_deriv ?_
  rw [Real.cos_two_mul]
  field_simp; ring

theorem c6_deriv : HasDerivAt (fun τ => (2 * (θ * τ) ^ 2 - 4 * (θ * τ * Real.sin (θ * τ)) - Real.cos (2 * (θ * τ))
      + 1) / (4 * θ ^ 6)) ((1 - Real.cos (θ * t)) / θ ^ 2 * ((θ * t - Real.sin (θ * t)) / θ ^ 3)) t := by
  have h := ((hd_comp (((((hx2 (θ * t)).const_mul 2).sub ((hxs (θ * t)).const_mul 4)).sub (hc2 (θ * t))).add_const
    1))).div_const (4 * θ ^ 6)
  refine h.congr_deriv ?_
  rw [Real.sin_two_mul]
  field_simp; ring

theorem d1_deriv : HasDerivAt (fun τ => (θ * τ * Real.sin (θ * τ) + 2 * Real.cos (θ * τ) - 2) / θ ^ 4)
    (-((Real.sin (θ * t) - θ * t * Real.cos (θ * t)) / θ ^ 3)) t := by
  have h := ((hd_comp (((hxs (θ * t)).add ((hc (θ * t)).const_mul 2)).sub_const 2))).div_const (θ ^ 4)
  refine h.congr_deriv ?_
  field_simp; ring

theorem d2_deriv : HasDerivAt (fun τ => (6 * (θ * τ) - 8 * Real.sin (θ * τ) + Real.sin (2 * (θ * τ)))
      / (8 * θ ^ 5)) ((Real.cos (2 * (θ * t)) - 4 * Real.cos (θ * t) + 3) / (4 * θ ^ 4)) t := by
  have h := ((hd_comp ((((hi (θ * t)).const_mul 6).sub ((hs (θ * t)).const_mul 8)).add
    (hs2 (θ * t))))).div_const (8 * θ ^ 5)
  refine h.congr_deriv ?_
  field_simp; ring

theorem d3_deriv : HasDerivAt (fun τ => (2 * (θ * τ) ^ 2 + 8 * (θ * τ * Real.sin (θ * τ)) + 16 * Real.cos (θ * τ)
      + Real.cos (2 * (θ * τ)) - 17) / (8 * θ ^ 6))
    (-((4 * Real.sin (θ * t) + Real.sin (2 * (θ * t)) - 4 * (θ * t * Real.cos (θ * t)) - 2 * (θ * t))
      / (4 * θ ^ 5))) t := by
  have h := ((hd_comp ((((((hx2 (θ * t)).const_mul 2).add ((hxs (θ * t)).const_mul 8)).add
    ((hc (θ * t)).const_mul 16)).add (hc2 (θ * t))).sub_const 17))).div_const (8 * θ ^ 6)
  refine h.congr_deriv ?_
  field_simp; ring

theorem d4_deriv : HasDerivAt (fun τ => ((θ * τ) ^ 3 + 6 * (θ * τ) - 12 * Real.sin (θ * τ)
      + 6 * (θ * τ * Real.cos (θ * τ))) / (6 * θ ^ 5))
    (((θ * t) ^ 2 - 2 * (θ * t * Real.sin (θ * t)) - 2 * Real.cos (θ * t) + 2) / (2 * θ ^ 4)) t := by
  have h := ((hd_comp ((((hx3 (θ * t)).add ((hi (θ * t)).const_mul 6)).sub ((hs (θ * t)).const_mul 12)).add
    ((hxc (θ * t)).const_mul 6)))).div_const (6 * θ ^ 5)
  refine h.congr_deriv ?_
  field_simp; ring

theorem d5_deriv : HasDerivAt (fun τ => (6 * (θ * τ) ^ 2 + 16 * Real.cos (θ * τ) - Real.cos (2 * (θ * τ)) - 15)
      / (8 * θ ^ 6)) ((6 * (θ * t) - 8 * Real.sin (θ * t) + Real.sin (2 * (θ * t))) / (4 * θ ^ 5)) t := by
  have h := ((hd_comp (((((hx2 (θ * t)).const_mul 6).add ((hc (θ * t)).const_mul 16)).sub (hc2 (θ * t))).sub_const
    15))).div_const (8 * θ ^ 6)
  refine h.congr_deriv ?_
  field_simp; ring

theorem d6_deriv : HasDerivAt (fun τ => (4 * (θ * τ) ^ 3 + 6 * (θ * τ) - 24 * Real.sin (θ * τ)
      - 3 * Real.sin (2 * (θ * τ)) + 24 * (θ * τ * Real.cos (θ * τ))) / (24 * θ ^ 7))
    ((2 * (θ * t) ^ 2 - 4 * (θ * t * Real.sin (θ * t)) - Real.cos (2 * (θ * t)) + 1) / (4 * θ ^ 6)) t := by
  have h := ((hd_comp ((((((hx3 (θ * t)).const_mul 4).add ((hi (θ * t)).const_mul 6)).sub
    ((hs (θ * t)).const_mul 24)).sub ((hs2 (θ * t)).const_mul 3)).add ((hxc (θ * t)).const_mul 24)))).div_const
    (24 * θ ^ 7)
  refine h.congr_deriv ?_
  field_simp; ring

theorem e1_deriv : HasDerivAt (fun τ => ((θ * τ) ^ 2 / 2 + Real.cos (θ * τ) - 1) / θ ^ 4)
    ((θ * t - Real.sin (θ * t)) / θ ^ 3) t := by
  have h := ((hd_comp ((((hx2 (θ * t)).div_const 2).add (hc (θ * t))).sub_const 1))).div_const (θ ^ 4)
  refine h.congr_deriv ?_
  field_simp; ring

theorem e2_deriv : HasDerivAt (fun τ => ((θ * τ) ^ 3 / 6 - θ * τ + Real.sin (θ * τ)) / θ ^ 5)
    (((θ * t) ^ 2 / 2 + Real.cos (θ * t) - 1) / θ ^ 4) t := by
  have h := ((hd_comp ((((hx3 (θ * t)).div_const 6).sub (hi (θ * t))).add (hs (θ * t))))).div_const (θ ^ 5)
  refine h.congr_deriv ?_
  field_simp; ring

end coef


/-- exact `t³ Γ₃(w t)` -/
noncomputable def E3 (w : V3) (t : ℝ) : M3 :=
  (t ^ 3 / 6) • (1 : M3) + (((norm3 w * t) ^ 2 / 2 + Real.cos (norm3 w * t) - 1) / norm3 w ^ 4) • skew w
    + (((norm3 w * t) ^ 3 / 6 - norm3 w * t + Real.sin (norm3 w * t)) / norm3 w ^ 5) • (skew w * skew w)

/-- the parenthesis of `phi25Gen` -/
noncomputable def I25 (w a : V3) (t : ℝ) : M3 :=
  let ax := skew a
  let wx := skew w
  let wx2 := wx * wx
  let θ := norm3 w
  ax * (E2 w t)ᵀ
    + ((Real.sin (θ * t) - θ * t * Real.cos (θ * t)) / θ ^ 3) • (wx * ax)
    - ((Real.cos (2 * (θ * t)) - 4 * Real.cos (θ * t) + 3) / (4 * θ ^ 4)) • (wx * ax * wx)
    + ((4 * Real.sin (θ * t) + Real.sin (2 * (θ * t)) - 4 * (θ * t * Real.cos (θ * t)) - 2 * (θ * t)) / (4 * θ ^ 5))
        • (wx * ax * wx2)
    + (((θ * t) ^ 2 - 2 * (θ * t * Real.sin (θ * t)) - 2 * Real.cos (θ * t) + 2) / (2 * θ ^ 4)) • (wx2 * ax)
    - ((6 * (θ * t) - 8 * Real.sin (θ * t) + Real.sin (2 * (θ * t))) / (4 * θ ^ 5)) • (wx2 * ax * wx)
    + ((2 * (θ * t) ^ 2 - 4 * (θ * t * Real.sin (θ * t)) - Real.cos (2 * (θ * t)) + 1) / (4 * θ ^ 6))
        • (wx2 * ax * wx2)

/-- the parenthesis of `phi35Gen` -/
noncomputable def I35 (w a : V3) (t : ℝ) : M3 :=
  let ax := skew a
  let wx := skew w
  let wx2 := wx * wx
  let θ := norm3 w
  ax * (E3 w t)ᵀ
    - ((θ * t * Real.sin (θ * t) + 2 * Real.cos (θ * t) - 2) / θ ^ 4) • (wx * ax)
    - ((6 * (θ * t) - 8 * Real.sin (θ * t) + Real.sin (2 * (θ * t))) / (8 * θ ^ 5)) • (wx * ax * wx)
    - ((2 * (θ * t) ^ 2 + 8 * (θ * t * Real.sin (θ * t)) + 16 * Real.cos (θ * t) + Real.cos (2 * (θ * t)) - 17)
        / (8 * θ ^ 6)) • (wx * ax * wx2)
    + (((θ * t) ^ 3 + 6 * (θ * t) - 12 * Real.sin (θ * t) + 6 * (θ * t * Real.cos (θ * t))) / (6 * θ ^ 5))
        • (wx2 * ax)
    - ((6 * (θ * t) ^ 2 + 16 * Real.cos (θ * t) - Real.cos (2 * (θ * t)) - 15) / (8 * θ ^ 6)) • (wx2 * ax * wx)
    + ((4 * (θ * t) ^ 3 + 6 * (θ * t) - 24 * Real.sin (θ * t) - 3 * Real.sin (2 * (θ * t))
        + 24 * (θ * t * Real.cos (θ * t))) / (24 * θ ^ 7)) • (wx2 * ax * wx2)

theorem MDeriv.add {R S : ℝ → M3} {R' S' : M3} {t : ℝ} (h : MDeriv R R' t) (h' : MDeriv S S' t) :
    MDeriv (fun τ => R τ + S τ) (R' + S') t := fun i j => (h i j).add (h' i j)
theorem MDeriv.sub {R S : ℝ → M3} {R' S' : M3} {t : ℝ} (h : MDeriv R R' t) (h' : MDeriv S S' t) :
    MDeriv (fun τ => R τ - S τ) (R' - S') t := fun i j => (h i j).sub (h' i j)
theorem MDeriv.of_coef {c : ℝ → ℝ} {c' t : ℝ} (h : HasDerivAt c c' t) (A : M3) :
    MDeriv (fun τ => c τ • A) (c' • A) t := fun i j => by
  simpa using h.mul_const (A i j)
theorem MDeriv.const (A : M3) (t : ℝ) : MDeriv (fun _ => A) 0 t := fun i j => hasDerivAt_const _ _
theorem MDeriv.congr {R : ℝ → M3} {R' S' : M3} {t : ℝ} (h : MDeriv R R' t) (e : R' = S') : MDeriv R S' t := e ▸ h

theorem MDeriv.eq_of {F G : ℝ → M3} {F' : ℝ → M3} (hF : ∀ t, MDeriv F (F' t) t) (hG : ∀ t, MDeriv G (F' t) t)
    (h0 : F 0 = G 0) (t : ℝ) : F t = G t := by
  ext i j
  exact eq_of_deriv_eq (f := fun t => F t i j) (g := fun t => G t i j) (f' := fun t => F' t i j)
    (fun t => hF t i j) (fun t => hG t i j) (congrFun (congrFun h0 i) j) t

theorem hd_cube (t : ℝ) : HasDerivAt (fun τ : ℝ => τ ^ 3 / 6) (t ^ 2 / 2) t := by
  refine ((hx3 t).div_const 6).congr_deriv ?_
  ring

theorem E3_deriv (w : V3) (t : ℝ) : MDeriv (E3 w) (E2 w t) t := by
  by_cases h : norm3 w = 0
  · have hs := skew_of_norm_zero h
    have e : E3 w = fun τ => (τ ^ 3 / 6) • (1 : M3) := by funext τ; simp [E3, hs]
    rw [e]
    refine (MDeriv.of_coef (hd_cube t) _).congr ?_
    simp [E2, hs]
  · exact ((MDeriv.of_coef (hd_cube t) _).add (MDeriv.of_coef (e1_deriv h t) _)).add
      (MDeriv.of_coef (e2_deriv h t) _)

@[simp] theorem E3_zero (w : V3) : E3 w 0 = 0 := by simp [E3]

theorem skew_sq_T (w : V3) : (skew w * skew w)ᵀ = skew w * skew w := by
  rw [transpose_mul, skew_transpose]; simp

theorem I25_deriv {w : V3} (hw : norm3 w ≠ 0) (a : V3) (t : ℝ) :
    MDeriv (I25 w a) (E0 w t * skew a * (E1 w t)ᵀ) t := by
  have h := ((((((((E2_deriv w t).transpose).const_mul (skew a)).add
    (MDeriv.of_coef (c1_deriv hw t) (skew w * skew a))).sub
    (MDeriv.of_coef (c2_deriv hw t) (skew w * skew a * skew w))).add
    (MDeriv.of_coef (c3_deriv hw t) (skew w * skew a * (skew w * skew w)))).add
    (MDeriv.of_coef (c4_deriv hw t) (skew w * skew w * skew a))).sub
    (MDeriv.of_coef (c5_deriv hw t) (skew w * skew w * skew a * skew w))).add
    (MDeriv.of_coef (c6_deriv hw t) (skew w * skew w * skew a * (skew w * skew w)))
  refine MDeriv.congr h ?_
  unfold E0 E1
  simp only [transpose_add, transpose_smul, transpose_one, skew_transpose, skew_sq_T, Matrix.add_mul, Matrix.mul_add,
    Matrix.smul_mul, Matrix.mul_smul, Matrix.one_mul, Matrix.mul_one, smul_neg, Matrix.mul_neg, Matrix.neg_mul,
    smul_smul]
  module

theorem I35_deriv {w : V3} (hw : norm3 w ≠ 0) (a : V3) (t : ℝ) : MDeriv (I35 w a) (I25 w a t) t := by
  have h := ((((((((E3_deriv w t).transpose).const_mul (skew a)).sub
    (MDeriv.of_coef (d1_deriv hw t) (skew w * skew a))).sub
    (MDeriv.of_coef (d2_deriv hw t) (skew w * skew a * skew w))).sub
    (MDeriv.of_coef (d3_deriv hw t) (skew w * skew a * (skew w * skew w)))).add
    (MDeriv.of_coef (d4_deriv hw t) (skew w * skew w * skew a))).sub
    (MDeriv.of_coef (d5_deriv hw t) (skew w * skew w * skew a * skew w))).add
    (MDeriv.of_coef (d6_deriv hw t) (skew w * skew w * skew a * (skew w * skew w)))
  refine MDeriv.congr h ?_
  unfold I25
  dsimp only
  module

@[simp] theorem I25_zero (w a : V3) : I25 w a 0 = 0 := by
  unfold I25; simp; norm_num
@[simp] theorem I35_zero (w a : V3) : I35 w a 0 = 0 := by
  unfold I35; simp; norm_num

/-- `E0ᵀ E1 = E1ᵀ` -/
theorem E0T_E1 (w : V3) (t : ℝ) : (E0 w t)ᵀ * E1 w t = (E1 w t)ᵀ := by
  have key : ∀ t, E1 w t = E0 w t * (E1 w t)ᵀ := by
    intro t
    have hc : ∀ t, E0 w t * (E0 w t)ᵀ = 1 := E0_mul_T w
    have h1 : ∀ t, E0 w t = 1 + skew w * E1 w t := by
      intro t
      refine MDeriv.eq_of (F := E0 w) (G := fun t => 1 + skew w * E1 w t) (F' := fun t => skew w * E0 w t) ?_ ?_ ?_ t
      · intro t
        refine (E0_deriv w t).congr ?_
        unfold E0
        simp only [Matrix.add_mul, Matrix.mul_add, Matrix.smul_mul, Matrix.mul_smul, Matrix.one_mul, Matrix.mul_one,
          Matrix.mul_assoc]
      · intro t
        exact (((MDeriv.const 1 t).add ((E1_deriv w t).const_mul _))).congr (by simp)
      · simp
    refine MDeriv.eq_of (F := E1 w) (G := fun t => E0 w t * (E1 w t)ᵀ) (F' := fun t => E0 w t) (E1_deriv w) ?_ ?_ t
    · intro t
      refine ((E0_deriv w t).mul (E1_deriv w t).transpose).congr ?_
      have h2 : (E0 w t)ᵀ = 1 - skew w * (E1 w t)ᵀ := by
        rw [h1 t, transpose_add, transpose_mul, skew_transpose, transpose_one]
        unfold E1
        simp only [transpose_add, transpose_smul, transpose_one, skew_transpose, skew_sq_T, Matrix.add_mul,
          Matrix.mul_add, Matrix.smul_mul, Matrix.mul_smul, Matrix.one_mul, Matrix.mul_one, Matrix.mul_assoc,
          smul_neg, Matrix.mul_neg, Matrix.neg_mul]
        module
      rw [h2, Matrix.mul_sub, Matrix.mul_one, Matrix.mul_assoc]; abel
    · simp
  conv_lhs => rw [key t]
  rw [← Matrix.mul_assoc, E0_T_mul, Matrix.one_mul]

theorem gamma3_smul {w : V3} {t : ℝ} (h : ExactAt (t • w)) :
    t ^ 3 • ((gamma_SO3 (-(t • w)) 3).getD 0) = (E3 w t)ᵀ := by
  rcases exactAt_cases h with ⟨h1, h2⟩ | ⟨h1, ht, hθ, h2⟩
  · have h1' : norm3 (-(t • w)) < TOLERANCE := by rwa [norm3_neg]
    have e : gamma_SO3 (-(t • w)) 3 = some ((1.0 / ((3 ! : ℕ) : ℝ)) • (1 : M3)) := by
      unfold gamma_SO3
      rw [if_neg (by omega)]
      simp only [h1', if_true]
      rw [show (3 : ℤ) = ((3 : ℕ) : ℤ) from rfl, factorial?_eq 3 (by omega)]
      simp
    rw [e, Option.getD_some]
    rcases h2 with rfl | rfl
    · simp
    · simp only [E3, skew_zero, smul_smul, smul_zero, Matrix.mul_zero, add_zero, transpose_smul, transpose_one]
      congr 1
      norm_num [Nat.factorial]
      ring
  · have h1' : ¬ norm3 (-(t • w)) < TOLERANCE := by rwa [norm3_neg]
    have hg := gamma_SO3_closed h1' 3 (by omega)
    rw [Nat.cast_ofNat] at hg
    rw [hg, Option.getD_some]
    unfold E3
    simp only [acoef, norm3_neg, skew_neg, skew_smul, transpose_add, transpose_smul, transpose_one, skew_transpose,
      skew_sq_T, Matrix.smul_mul, Matrix.mul_smul, smul_smul, smul_add, smul_neg, neg_mul_neg]
    rcases h2 with h2 | h2
    all_goals
      rw [h2]
      simp only [Real.sin_neg, Real.cos_neg, smul_neg, Matrix.neg_mul, Matrix.mul_neg, neg_neg, ← neg_smul]
      refine lin3 ?_ ?_ ?_
      · norm_num [Nat.factorial]; ring
      · norm_num [Nat.factorial]; field_simp <;> ring
      · norm_num [Nat.factorial]; field_simp <;> ring

theorem phi25Gen_eq {w : V3} {t : ℝ} (h : ExactAt (t • w)) (a : V3) :
    phi25Gen w a t (Gam0 (t • w))ᵀ (Gam2 (t • w))ᵀ = (E0 w t)ᵀ * I25 w a t := by
  unfold phi25Gen I25
  dsimp only
  rw [Gam0_smul h, ← Gam2_smul h, transpose_smul, transpose_smul, smul_smul, Matrix.mul_smul, ← pow_two t]

theorem phi35Gen_eq {w : V3} {t : ℝ} (h : ExactAt (t • w)) (a : V3) :
    phi35Gen w a t (Gam0 (t • w))ᵀ ((gamma_SO3 (-(t • w)) 3).getD 0) = (E0 w t)ᵀ * I35 w a t := by
  unfold phi35Gen I35
  dsimp only
  rw [Gam0_smul h, ← gamma3_smul h, Matrix.mul_smul]

end Drift
