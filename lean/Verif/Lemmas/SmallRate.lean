import Verif.Lemmas.Imu2
import Mathlib.Analysis.Complex.Trigonometric
import Mathlib.Topology.Algebra.Order.Field
import Mathlib.Topology.Instances.Matrix
import Mathlib.Topology.MetricSpace.Pseudo.Pi

/-! Helper lemmas: limits of the general transition-matrix formula for small rates. -/
set_option linter.unusedSimpArgs false
set_option linter.unnecessarySeqFocus false
namespace Drift
open Mat Matrix Finset RobotState ImuProp Filter Topology

/-- a bound of the Taylor polynomials: `sin x = x - x³/6 + r`, `|r| ≤ x⁴/19`, etc. -/
theorem taylor {x : ℝ} (hx : |x| ≤ 1 / 2) : ∃ s c s2 c2 : ℝ,
    Real.sin x = x - x ^ 3 / 6 + s ∧ Real.cos x = 1 - x ^ 2 / 2 + c ∧
    Real.sin (2 * x) = 2 * x - (2 * x) ^ 3 / 6 + s2 ∧ Real.cos (2 * x) = 1 - (2 * x) ^ 2 / 2 + c2 ∧
    |s| ≤ x ^ 4 ∧ |c| ≤ x ^ 4 ∧ |s2| ≤ x ^ 4 ∧ |c2| ≤ x ^ 4 := by
  have h1 : |x| ≤ 1 := by linarith
  have h2 : |2 * x| ≤ 1 := by rw [abs_mul]; norm_num; linarith
  have b1 := Real.sin_bound h1
  have b2 := Real.cos_bound h1
  have b3 := Real.sin_bound h2
  have b4 := Real.cos_bound h2
  have e4 : |x| ^ 4 = x ^ 4 := by rw [← abs_pow, abs_of_nonneg (by positivity)]
  have e4' : |2 * x| ^ 4 = 16 * x ^ 4 := by rw [← abs_pow, abs_of_nonneg (by positivity)]; ring
  have p1 : |x| ^ 5 ≤ x ^ 4 := by
    rw [← e4, pow_succ]; exact mul_le_of_le_one_right (by positivity) h1
  have p2 : |2 * x| ^ 5 ≤ 16 * x ^ 4 := by
    rw [← e4', pow_succ]; exact mul_le_of_le_one_right (by positivity) h2
  rw [e4] at b2
  rw [e4'] at b4
  have hx4 : 0 ≤ x ^ 4 := by positivity
  exact ⟨_, _, _, _, (add_sub_cancel _ _).symm, (add_sub_cancel _ _).symm, (add_sub_cancel _ _).symm,
    (add_sub_cancel _ _).symm, by linarith, by linarith, by linarith, by linarith⟩

theorem entry_mul_le {A B : M3} {a b : ℝ} (hA : ∀ i j, |A i j| ≤ a) (hB : ∀ i j, |B i j| ≤ b) (i j : Fin 3) :
    |(A * B) i j| ≤ 3 * a * b := by
  have ha : 0 ≤ a := (abs_nonneg _).trans (hA 0 0)
  rw [Matrix.mul_apply, Fin.sum_univ_three]
  have t : ∀ k, |A i k * B k j| ≤ a * b := fun k => by
    rw [abs_mul]; exact mul_le_mul (hA i k) (hB k j) (abs_nonneg _) ha
  have h0 := t 0; have h1 := t 1; have h2 := t 2
  calc _ ≤ |A i 0 * B 0 j| + |A i 1 * B 1 j| + |A i 2 * B 2 j| := by
        refine (abs_add_le _ _).trans ?_
        gcongr
        exact abs_add_le _ _
    _ ≤ _ := by linarith

theorem norm3_continuous : Continuous norm3 := by
  unfold norm3; fun_prop

theorem norm3_tendsto : Tendsto norm3 (𝓝[≠] 0) (𝓝 0) := by
  have := norm3_continuous.tendsto (0 : V3)
  rw [norm3_zero] at this
  exact this.mono_left nhdsWithin_le_nhds

/-- the common shape of the correction terms -/
theorem term_tendsto {f : ℝ → ℝ} {C M c dt : ℝ} {n k : ℕ} {B : V3 → M3}
    (hf : ∀ x, |x| ≤ 1 / 2 → |f x| ≤ C * |x| ^ (n + 1))
    (hB : ∀ w i j, |B w i j| ≤ M * norm3 w ^ k) :
    Tendsto (fun w => (f (norm3 w * dt) / (c * norm3 w ^ (n + k))) • B w) (𝓝[≠] 0) (𝓝 0) := by
  refine tendsto_pi_nhds.mpr fun i => tendsto_pi_nhds.mpr fun j => ?_
  have hsq : Tendsto (fun w => C * |dt| ^ (n + 1) * |c|⁻¹ * M * norm3 w) (𝓝[≠] 0) (𝓝 0) := by
    simpa using norm3_tendsto.const_mul (C * |dt| ^ (n + 1) * |c|⁻¹ * M)
  refine squeeze_zero_norm' ?_ hsq
  have hsmall : ∀ᶠ w in 𝓝[≠] (0 : V3), |norm3 w * dt| < 1 / 2 := by
    have h1 : Tendsto (fun w : V3 => |norm3 w * dt|) (𝓝[≠] 0) (𝓝 0) := by
      have := (norm3_tendsto.mul_const dt).abs
      simpa using this
    exact h1.eventually (gt_mem_nhds (by norm_num))
  filter_upwards [hsmall, self_mem_nhdsWithin] with w hw hne
  have hpos : 0 < norm3 w := lt_of_le_of_ne (norm3_nonneg w) (fun h => hne (norm3_eq_zero.mp h.symm))
  rw [Matrix.smul_apply, Real.norm_eq_abs, smul_eq_mul, abs_mul, abs_div, abs_mul]
  have h1 := hf _ hw.le
  have h2 := hB w i j
  rw [abs_mul, abs_of_pos hpos, mul_pow] at h1
  have hk : |norm3 w ^ (n + k)| = norm3 w ^ (n + k) := abs_of_pos (by positivity)
  rw [hk]
  by_cases hc : c = 0
  · subst hc; simp
  have hc' : 0 < |c| := abs_pos.mpr hc
  calc |f (norm3 w * dt)| / (|c| * norm3 w ^ (n + k)) * |B w i j|
      ≤ (C * (norm3 w ^ (n + 1) * |dt| ^ (n + 1))) / (|c| * norm3 w ^ (n + k)) * (M * norm3 w ^ k) := by
        gcongr
        exact div_nonneg ((abs_nonneg _).trans h1) (by positivity)
    _ = _ := by
        field_simp
        ring

section coef
variable {x : ℝ}

theorem pow_aux (hx : |x| ≤ 1 / 2) : x ^ 4 ≤ |x| ^ 3 ∧ |x| ^ 5 ≤ x ^ 4 ∧ |x| ^ 3 ≤ |x| ^ 2 ∧ 0 ≤ |x| := by
  have e4 : x ^ 4 = |x| ^ 4 := by rw [← abs_pow, abs_of_nonneg (by positivity)]
  have h0 := abs_nonneg x
  rw [e4]
  refine ⟨pow_le_pow_of_le_one h0 (by linarith) (by omega), pow_le_pow_of_le_one h0 (by linarith) (by omega),
    pow_le_pow_of_le_one h0 (by linarith) (by omega), h0⟩

theorem mul_rem {x r : ℝ} (hx : |x| ≤ 1 / 2) (hr : |r| ≤ x ^ 4) : |x * r| ≤ x ^ 4 := by
  rw [abs_mul]
  have : 0 ≤ x ^ 4 := by positivity
  nlinarith [abs_nonneg r, abs_nonneg x]


theorem n25_1 (x : ℝ) (hx : |x| ≤ 1 / 2) : |Real.sin x - x * Real.cos x| ≤ 20 * |x| ^ (2 + 1) := by
  obtain ⟨s, c, s2, c2, e1, e2, e3, e4, h1, h2, h3, h4⟩ := taylor hx
  obtain ⟨p1, _, _, p0⟩ := pow_aux hx
  have q1 := mul_rem hx h1
  have q2 := mul_rem hx h2
  have e : Real.sin x - x * Real.cos x = x ^ 3 / 3 + s - x * c := by
    simp only [e1, e2, e3, e4]; ring
  have e5 : |x| ^ 4 = x ^ 4 := by rw [← abs_pow, abs_of_nonneg (by positivity)]
  have h5 : 0 ≤ x ^ 4 := by positivity
  have h6 : |x ^ 3| ≤ |x| ^ 3 := by rw [abs_pow]
  rw [e]
  norm_num only
  try rw [e5]
  rw [abs_le] at *
  constructor <;> linarith [h1.1, h1.2, h2.1, h2.2, h3.1, h3.2, h4.1, h4.2, q1.1, q1.2, q2.1, q2.2, h6.1, h6.2]

theorem n25_2 (x : ℝ) (hx : |x| ≤ 1 / 2) : |Real.cos (2 * x) - 4 * Real.cos x + 3| ≤ 20 * |x| ^ (2 + 1) := by
  obtain ⟨s, c, s2, c2, e1, e2, e3, e4, h1, h2, h3, h4⟩ := taylor hx
  obtain ⟨p1, _, _, p0⟩ := pow_aux hx
  have q1 := mul_rem hx h1
  have q2 := mul_rem hx h2
  have e : Real.cos (2 * x) - 4 * Real.cos x + 3 = c2 - 4 * c := by
    simp only [e1, e2, e3, e4]; ring
  have e5 : |x| ^ 4 = x ^ 4 := by rw [← abs_pow, abs_of_nonneg (by positivity)]
  have h5 : 0 ≤ x ^ 4 := by positivity
  have h6 : |x ^ 3| ≤ |x| ^ 3 := by rw [abs_pow]
  rw [e]
  norm_num only
  try rw [e5]
  rw [abs_le] at *
  constructor <;> linarith [h1.1, h1.2, h2.1, h2.2, h3.1, h3.2, h4.1, h4.2, q1.1, q1.2, q2.1, q2.2, h6.1, h6.2]

theorem n25_3 (x : ℝ) (hx : |x| ≤ 1 / 2) : |4 * Real.sin x + Real.sin (2 * x) - 4 * (x * Real.cos x) - 2 * x| ≤ 20 * |x| ^ (2 + 1) := by
  obtain ⟨s, c, s2, c2, e1, e2, e3, e4, h1, h2, h3, h4⟩ := taylor hx
  obtain ⟨p1, _, _, p0⟩ := pow_aux hx
  have q1 := mul_rem hx h1
  have q2 := mul_rem hx h2
  have e : 4 * Real.sin x + Real.sin (2 * x) - 4 * (x * Real.cos x) - 2 * x = 4 * s + s2 - 4 * (x * c) := by
    simp only [e1, e2, e3, e4]; ring
  have e5 : |x| ^ 4 = x ^ 4 := by rw [← abs_pow, abs_of_nonneg (by positivity)]
  have h5 : 0 ≤ x ^ 4 := by positivity
  have h6 : |x ^ 3| ≤ |x| ^ 3 := by rw [abs_pow]
  rw [e]
  norm_num only
  try rw [e5]
  rw [abs_le] at *
  constructor <;> linarith [h1.1, h1.2, h2.1, h2.2, h3.1, h3.2, h4.1, h4.2, q1.1, q1.2, q2.1, q2.2, h6.1, h6.2]

theorem n25_4 (x : ℝ) (hx : |x| ≤ 1 / 2) : |x ^ 2 - 2 * (x * Real.sin x) - 2 * Real.cos x + 2| ≤ 20 * |x| ^ (2 + 1) := by
  obtain ⟨s, c, s2, c2, e1, e2, e3, e4, h1, h2, h3, h4⟩ := taylor hx
  obtain ⟨p1, _, _, p0⟩ := pow_aux hx
  have q1 := mul_rem hx h1
  have q2 := mul_rem hx h2
  have e : x ^ 2 - 2 * (x * Real.sin x) - 2 * Real.cos x + 2 = x ^ 4 / 3 - 2 * (x * s) - 2 * c := by
    simp only [e1, e2, e3, e4]; ring
  have e5 : |x| ^ 4 = x ^ 4 := by rw [← abs_pow, abs_of_nonneg (by positivity)]
  have h5 : 0 ≤ x ^ 4 := by positivity
  have h6 : |x ^ 3| ≤ |x| ^ 3 := by rw [abs_pow]
  rw [e]
  norm_num only
  try rw [e5]
  rw [abs_le] at *
  constructor <;> linarith [h1.1, h1.2, h2.1, h2.2, h3.1, h3.2, h4.1, h4.2, q1.1, q1.2, q2.1, q2.2, h6.1, h6.2]

theorem n25_5 (x : ℝ) (hx : |x| ≤ 1 / 2) : |6 * x - 8 * Real.sin x + Real.sin (2 * x)| ≤ 20 * |x| ^ (2 + 1) := by
  obtain ⟨s, c, s2, c2, e1, e2, e3, e4, h1, h2, h3, h4⟩ := taylor hx
  obtain ⟨p1, _, _, p0⟩ := pow_aux hx
  have q1 := mul_rem hx h1
  have q2 := mul_rem hx h2
  have e : 6 * x - 8 * Real.sin x + Real.sin (2 * x) = -8 * s + s2 := by
    simp only [e1, e2, e3, e4]; ring
  have e5 : |x| ^ 4 = x ^ 4 := by rw [← abs_pow, abs_of_nonneg (by positivity)]
  have h5 : 0 ≤ x ^ 4 := by positivity
  have h6 : |x ^ 3| ≤ |x| ^ 3 := by rw [abs_pow]
  rw [e]
  norm_num only
  try rw [e5]
  rw [abs_le] at *
  constructor <;> linarith [h1.1, h1.2, h2.1, h2.2, h3.1, h3.2, h4.1, h4.2, q1.1, q1.2, q2.1, q2.2, h6.1, h6.2]

theorem n25_6 (x : ℝ) (hx : |x| ≤ 1 / 2) : |2 * x ^ 2 - 4 * (x * Real.sin x) - Real.cos (2 * x) + 1| ≤ 20 * |x| ^ (2 + 1) := by
  obtain ⟨s, c, s2, c2, e1, e2, e3, e4, h1, h2, h3, h4⟩ := taylor hx
  obtain ⟨p1, _, _, p0⟩ := pow_aux hx
  have q1 := mul_rem hx h1
  have q2 := mul_rem hx h2
  have e : 2 * x ^ 2 - 4 * (x * Real.sin x) - Real.cos (2 * x) + 1 = 2 / 3 * x ^ 4 - 4 * (x * s) - c2 := by
    simp only [e1, e2, e3, e4]; ring
  have e5 : |x| ^ 4 = x ^ 4 := by rw [← abs_pow, abs_of_nonneg (by positivity)]
  have h5 : 0 ≤ x ^ 4 := by positivity
  have h6 : |x ^ 3| ≤ |x| ^ 3 := by rw [abs_pow]
  rw [e]
  norm_num only
  try rw [e5]
  rw [abs_le] at *
  constructor <;> linarith [h1.1, h1.2, h2.1, h2.2, h3.1, h3.2, h4.1, h4.2, q1.1, q1.2, q2.1, q2.2, h6.1, h6.2]

theorem n35_1 (x : ℝ) (hx : |x| ≤ 1 / 2) : |x * Real.sin x + 2 * Real.cos x - 2| ≤ 60 * |x| ^ (3 + 1) := by
  obtain ⟨s, c, s2, c2, e1, e2, e3, e4, h1, h2, h3, h4⟩ := taylor hx
  obtain ⟨p1, _, _, p0⟩ := pow_aux hx
  have q1 := mul_rem hx h1
  have q2 := mul_rem hx h2
  have e : x * Real.sin x + 2 * Real.cos x - 2 = -(x ^ 4 / 6) + x * s + 2 * c := by
    simp only [e1, e2, e3, e4]; ring
  have e5 : |x| ^ 4 = x ^ 4 := by rw [← abs_pow, abs_of_nonneg (by positivity)]
  have h5 : 0 ≤ x ^ 4 := by positivity
  have h6 : |x ^ 3| ≤ |x| ^ 3 := by rw [abs_pow]
  rw [e]
  norm_num only
  try rw [e5]
  rw [abs_le] at *
  constructor <;> linarith [h1.1, h1.2, h2.1, h2.2, h3.1, h3.2, h4.1, h4.2, q1.1, q1.2, q2.1, q2.2, h6.1, h6.2]

theorem n35_2 (x : ℝ) (hx : |x| ≤ 1 / 2) : |6 * x - 8 * Real.sin x + Real.sin (2 * x)| ≤ 60 * |x| ^ (3 + 1) := by
  obtain ⟨s, c, s2, c2, e1, e2, e3, e4, h1, h2, h3, h4⟩ := taylor hx
  obtain ⟨p1, _, _, p0⟩ := pow_aux hx
  have q1 := mul_rem hx h1
  have q2 := mul_rem hx h2
  have e : 6 * x - 8 * Real.sin x + Real.sin (2 * x) = -8 * s + s2 := by
    simp only [e1, e2, e3, e4]; ring
  have e5 : |x| ^ 4 = x ^ 4 := by rw [← abs_pow, abs_of_nonneg (by positivity)]
  have h5 : 0 ≤ x ^ 4 := by positivity
  have h6 : |x ^ 3| ≤ |x| ^ 3 := by rw [abs_pow]
  rw [e]
  norm_num only
  try rw [e5]
  rw [abs_le] at *
  constructor <;> linarith [h1.1, h1.2, h2.1, h2.2, h3.1, h3.2, h4.1, h4.2, q1.1, q1.2, q2.1, q2.2, h6.1, h6.2]

theorem n35_3 (x : ℝ) (hx : |x| ≤ 1 / 2) : |2 * x ^ 2 + 8 * (x * Real.sin x) + 16 * Real.cos x + Real.cos (2 * x) - 17| ≤ 60 * |x| ^ (3 + 1) := by
  obtain ⟨s, c, s2, c2, e1, e2, e3, e4, h1, h2, h3, h4⟩ := taylor hx
  obtain ⟨p1, _, _, p0⟩ := pow_aux hx
  have q1 := mul_rem hx h1
  have q2 := mul_rem hx h2
  have e : 2 * x ^ 2 + 8 * (x * Real.sin x) + 16 * Real.cos x + Real.cos (2 * x) - 17 = -(4 / 3 * x ^ 4) + 8 * (x * s) + 16 * c + c2 := by
    simp only [e1, e2, e3, e4]; ring
  have e5 : |x| ^ 4 = x ^ 4 := by rw [← abs_pow, abs_of_nonneg (by positivity)]
  have h5 : 0 ≤ x ^ 4 := by positivity
  have h6 : |x ^ 3| ≤ |x| ^ 3 := by rw [abs_pow]
  rw [e]
  norm_num only
  try rw [e5]
  rw [abs_le] at *
  constructor <;> linarith [h1.1, h1.2, h2.1, h2.2, h3.1, h3.2, h4.1, h4.2, q1.1, q1.2, q2.1, q2.2, h6.1, h6.2]

theorem n35_4 (x : ℝ) (hx : |x| ≤ 1 / 2) : |x ^ 3 + 6 * x - 12 * Real.sin x + 6 * (x * Real.cos x)| ≤ 60 * |x| ^ (3 + 1) := by
  obtain ⟨s, c, s2, c2, e1, e2, e3, e4, h1, h2, h3, h4⟩ := taylor hx
  obtain ⟨p1, _, _, p0⟩ := pow_aux hx
  have q1 := mul_rem hx h1
  have q2 := mul_rem hx h2
  have e : x ^ 3 + 6 * x - 12 * Real.sin x + 6 * (x * Real.cos x) = -12 * s + 6 * (x * c) := by
    simp only [e1, e2, e3, e4]; ring
  have e5 : |x| ^ 4 = x ^ 4 := by rw [← abs_pow, abs_of_nonneg (by positivity)]
  have h5 : 0 ≤ x ^ 4 := by positivity
  have h6 : |x ^ 3| ≤ |x| ^ 3 := by rw [abs_pow]
  rw [e]
  norm_num only
  try rw [e5]
  rw [abs_le] at *
  constructor <;> linarith [h1.1, h1.2, h2.1, h2.2, h3.1, h3.2, h4.1, h4.2, q1.1, q1.2, q2.1, q2.2, h6.1, h6.2]

theorem n35_5 (x : ℝ) (hx : |x| ≤ 1 / 2) : |6 * x ^ 2 + 16 * Real.cos x - Real.cos (2 * x) - 15| ≤ 60 * |x| ^ (3 + 1) := by
  obtain ⟨s, c, s2, c2, e1, e2, e3, e4, h1, h2, h3, h4⟩ := taylor hx
  obtain ⟨p1, _, _, p0⟩ := pow_aux hx
  have q1 := mul_rem hx h1
  have q2 := mul_rem hx h2
  have e : 6 * x ^ 2 + 16 * Real.cos x - Real.cos (2 * x) - 15 = 16 * c - c2 := by
    simp only [e1, e2, e3, e4]; ring
  have e5 : |x| ^ 4 = x ^ 4 := by rw [← abs_pow, abs_of_nonneg (by positivity)]
  have h5 : 0 ≤ x ^ 4 := by positivity
  have h6 : |x ^ 3| ≤ |x| ^ 3 := by rw [abs_pow]
  rw [e]
  norm_num only
  try rw [e5]
  rw [abs_le] at *
  constructor <;> linarith [h1.1, h1.2, h2.1, h2.2, h3.1, h3.2, h4.1, h4.2, q1.1, q1.2, q2.1, q2.2, h6.1, h6.2]

theorem n35_6 (x : ℝ) (hx : |x| ≤ 1 / 2) : |4 * x ^ 3 + 6 * x - 24 * Real.sin x - 3 * Real.sin (2 * x) + 24 * (x * Real.cos x)| ≤ 60 * |x| ^ (3 + 1) := by
  obtain ⟨s, c, s2, c2, e1, e2, e3, e4, h1, h2, h3, h4⟩ := taylor hx
  obtain ⟨p1, _, _, p0⟩ := pow_aux hx
  have q1 := mul_rem hx h1
  have q2 := mul_rem hx h2
  have e : 4 * x ^ 3 + 6 * x - 24 * Real.sin x - 3 * Real.sin (2 * x) + 24 * (x * Real.cos x) = -24 * s - 3 * s2 + 24 * (x * c) := by
    simp only [e1, e2, e3, e4]; ring
  have e5 : |x| ^ 4 = x ^ 4 := by rw [← abs_pow, abs_of_nonneg (by positivity)]
  have h5 : 0 ≤ x ^ 4 := by positivity
  have h6 : |x ^ 3| ≤ |x| ^ 3 := by rw [abs_pow]
  rw [e]
  norm_num only
  try rw [e5]
  rw [abs_le] at *
  constructor <;> linarith [h1.1, h1.2, h2.1, h2.2, h3.1, h3.2, h4.1, h4.2, q1.1, q1.2, q2.1, q2.2, h6.1, h6.2]

end coef

/-- entry bounds of the products -/
theorem prod_bounds (a w : V3) :
    (∀ i j, |(skew w * skew a) i j| ≤ 3 * norm3 a * norm3 w ^ 1) ∧
    (∀ i j, |(skew w * skew a * skew w) i j| ≤ 9 * norm3 a * norm3 w ^ 2) ∧
    (∀ i j, |(skew w * skew a * (skew w * skew w)) i j| ≤ 9 * norm3 a * norm3 w ^ 3) ∧
    (∀ i j, |(skew w * skew w * skew a) i j| ≤ 3 * norm3 a * norm3 w ^ 2) ∧
    (∀ i j, |(skew w * skew w * skew a * skew w) i j| ≤ 9 * norm3 a * norm3 w ^ 3) ∧
    (∀ i j, |(skew w * skew w * skew a * (skew w * skew w)) i j| ≤ 9 * norm3 a * norm3 w ^ 4) := by
  have hw := skew_entry_le w
  have ha := skew_entry_le a
  have hww := skew_sq_entry_le w
  have h1 := entry_mul_le hw ha
  have h2 := entry_mul_le h1 hw
  have h3 := entry_mul_le h1 hww
  have h4 := entry_mul_le hww ha
  have h5 := entry_mul_le h4 hw
  have h6 := entry_mul_le h4 hww
  refine ⟨fun i j => (h1 i j).trans_eq ?_, fun i j => (h2 i j).trans_eq ?_, fun i j => (h3 i j).trans_eq ?_,
    fun i j => (h4 i j).trans_eq ?_, fun i j => (h5 i j).trans_eq ?_, fun i j => (h6 i j).trans_eq ?_⟩ <;> ring

theorem eventually_small (dt : ℝ) : ∀ᶠ w in 𝓝[≠] (0 : V3), norm3 (dt • w) < TOLERANCE := by
  have h1 : Tendsto (fun w : V3 => norm3 (dt • w)) (𝓝[≠] 0) (𝓝 0) := by
    have : Tendsto (fun w : V3 => |dt| * norm3 w) (𝓝[≠] 0) (𝓝 (|dt| * 0)) := norm3_tendsto.const_mul _
    rw [mul_zero] at this
    refine this.congr fun w => (norm3_smul dt w).symm
  exact h1.eventually (gt_mem_nhds (by unfold TOLERANCE; norm_num))

theorem phi25Gen_tendsto (a : V3) (dt : ℝ) :
    Tendsto (fun w => phi25Gen w a dt (Gam0 (dt • w))ᵀ (Gam2 (dt • w))ᵀ) (𝓝[≠] 0)
      (𝓝 ((dt ^ 2 / 2) • skew a)) := by
  have t1 := term_tendsto (c := 1) (dt := dt) n25_1 fun w => (prod_bounds a w).1
  have t2 := term_tendsto (c := 4) (dt := dt) n25_2 fun w => (prod_bounds a w).2.1
  have t3 := term_tendsto (c := 4) (dt := dt) n25_3 fun w => (prod_bounds a w).2.2.1
  have t4 := term_tendsto (c := 2) (dt := dt) n25_4 fun w => (prod_bounds a w).2.2.2.1
  have t5 := term_tendsto (c := 4) (dt := dt) n25_5 fun w => (prod_bounds a w).2.2.2.2.1
  have t6 := term_tendsto (c := 4) (dt := dt) n25_6 fun w => (prod_bounds a w).2.2.2.2.2
  have t0 : Tendsto (fun _ : V3 => (dt ^ 2 / 2) • skew a) (𝓝[≠] 0) (𝓝 ((dt ^ 2 / 2) • skew a)) :=
    tendsto_const_nhds
  have t := (((((t0.add t1).sub t2).add t3).add t4).sub t5).add t6
  simp only [add_zero, sub_zero] at t
  refine t.congr' ?_
  filter_upwards [eventually_small dt] with w hw
  unfold phi25Gen Gam0 Gam2
  rw [if_pos hw, if_pos hw]
  simp only [transpose_one, Matrix.one_mul, transpose_smul, Matrix.mul_smul, Matrix.mul_one, smul_smul, one_mul]
  congr 6
  ring

theorem gamma3_small {x : V3} (h : norm3 x < TOLERANCE) : gamma_SO3 x 3 = some ((1 / 6 : ℝ) • (1 : M3)) := by
  unfold gamma_SO3
  rw [if_neg (by omega)]
  simp only [h, if_true]
  rw [show (3 : ℤ) = ((3 : ℕ) : ℤ) from rfl, factorial?_eq 3 (by omega)]
  simp [Nat.factorial]
  norm_num

theorem phi35Gen_tendsto (a : V3) (dt : ℝ) :
    Tendsto (fun w => phi35Gen w a dt (Gam0 (dt • w))ᵀ ((gamma_SO3 (-(dt • w)) 3).getD 0)) (𝓝[≠] 0)
      (𝓝 ((dt ^ 3 / 6) • skew a)) := by
  have t1 := term_tendsto (c := 1) (dt := dt) n35_1 fun w => (prod_bounds a w).1
  have t2 := term_tendsto (c := 8) (dt := dt) n35_2 fun w => (prod_bounds a w).2.1
  have t3 := term_tendsto (c := 8) (dt := dt) n35_3 fun w => (prod_bounds a w).2.2.1
  have t4 := term_tendsto (c := 6) (dt := dt) n35_4 fun w => (prod_bounds a w).2.2.2.1
  have t5 := term_tendsto (c := 8) (dt := dt) n35_5 fun w => (prod_bounds a w).2.2.2.2.1
  have t6 := term_tendsto (c := 24) (dt := dt) n35_6 fun w => (prod_bounds a w).2.2.2.2.2
  have t0 : Tendsto (fun _ : V3 => (dt ^ 3 / 6) • skew a) (𝓝[≠] 0) (𝓝 ((dt ^ 3 / 6) • skew a)) :=
    tendsto_const_nhds
  have t := (((((t0.sub t1).sub t2).sub t3).add t4).sub t5).add t6
  simp only [add_zero, sub_zero] at t
  refine t.congr' ?_
  filter_upwards [eventually_small dt] with w hw
  unfold phi35Gen Gam0
  rw [if_pos hw, gamma3_small (by rw [norm3_neg]; exact hw)]
  simp only [transpose_one, Matrix.one_mul, transpose_smul, Matrix.mul_smul, Matrix.mul_one, smul_smul, one_mul,
    Option.getD_some]
  congr 6
  ring

end Drift
