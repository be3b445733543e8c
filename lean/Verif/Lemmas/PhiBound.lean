import Verif.Lemmas.ErrFlow
import Mathlib.Analysis.Calculus.MeanValue

/-!
# How large the bias blocks of the transition matrix are in exact arithmetic
-/
namespace Drift
open Mat Matrix RobotState ImuProp

theorem grow {f f' : ℝ → ℝ} (hf : ∀ t, HasDerivAt f (f' t) t) (h0 : f 0 = 0) {c : ℝ} (n : ℕ) {t : ℝ} (ht : 0 ≤ t)
    (hb : ∀ s, 0 ≤ s → |f' s| ≤ c * s ^ n) : |f t| ≤ c * t ^ (n + 1) / (n + 1) := by
  have hB : ∀ s, HasDerivAt (fun s : ℝ => c * s ^ (n + 1) / (n + 1)) (c * s ^ n) s := by
    intro s
    refine (((hasDerivAt_pow (n + 1) s).const_mul c).div_const ((n : ℝ) + 1)).congr_deriv ?_
    push_cast
    have : (n : ℝ) + 1 ≠ 0 := by positivity
    try rw [Nat.add_sub_cancel]
    field_simp
  have := image_norm_le_of_norm_deriv_right_le_deriv_boundary (f := f) (f' := f') (a := 0) (b := t)
    (fun x _ => (hf x).continuousAt.continuousWithinAt) (fun x _ => (hf x).hasDerivWithinAt)
    (B := fun s : ℝ => c * s ^ (n + 1) / (n + 1)) (B' := fun s => c * s ^ n) (by simp [h0]) hB
    (fun x hx => by simpa using hb x hx.1) (x := t) ⟨ht, le_rfl⟩
  simpa using this

theorem E0_entry (w : V3) (t : ℝ) (i j : Fin 3) : |E0 w t i j| ≤ 1 := by
  have h := congrFun (congrFun (E0_mul_T w t) i) i
  rw [Matrix.mul_apply] at h
  simp only [transpose_apply, Matrix.one_apply_eq, Fin.sum_univ_three] at h
  rw [abs_le]
  fin_cases j <;> constructor <;> simp only [Fin.zero_eta, Fin.mk_one, Fin.reduceFinMk] <;> nlinarith [sq_nonneg (E0 w t i 0), sq_nonneg (E0 w t i 1), sq_nonneg (E0 w t i 2)]

theorem E1_entry (w : V3) {t : ℝ} (ht : 0 ≤ t) (i j : Fin 3) : |E1 w t i j| ≤ t := by
  have := grow (f := fun t => E1 w t i j) (f' := fun t => E0 w t i j) (fun t => E1_deriv w t i j) (by simp) (c := 1) 0 ht
    (fun s _ => by simpa using E0_entry w s i j)
  simpa using this

theorem E0_skew_E1 (w : V3) {a : V3} {A : ℝ} (ha : ∀ k, |a k| ≤ A) {t : ℝ} (ht : 0 ≤ t) (i j : Fin 3) :
    |(E0 w t * skew a * (E1 w t)ᵀ) i j| ≤ 6 * A * t := by
  have hA : 0 ≤ A := (abs_nonneg _).trans (ha 0)
  have key : ∀ x y z : ℝ, |x| ≤ 1 → |y| ≤ A → |z| ≤ t → |x * y * z| ≤ A * t := by
    intro x y z hx hy hz
    rw [abs_mul, abs_mul]
    calc |x| * |y| * |z| ≤ 1 * A * t := by gcongr
      _ = A * t := by ring
  have e : (E0 w t * skew a * (E1 w t)ᵀ) i j = E0 w t i 1 * a 2 * E1 w t j 0 - E0 w t i 2 * a 1 * E1 w t j 0
      - E0 w t i 0 * a 2 * E1 w t j 1 + E0 w t i 2 * a 0 * E1 w t j 1 + E0 w t i 0 * a 1 * E1 w t j 2 - E0 w t i 1 * a 0 * E1 w t j 2 := by
    simp [Matrix.mul_apply, Fin.sum_univ_three, skew]; ring
  have h0 := fun k => E0_entry w t i k
  have h1 := fun k => E1_entry w ht j k
  have p1 := abs_le.mp (key _ _ _ (h0 1) (ha 2) (h1 0))
  have p2 := abs_le.mp (key _ _ _ (h0 2) (ha 1) (h1 0))
  have p3 := abs_le.mp (key _ _ _ (h0 0) (ha 2) (h1 1))
  have p4 := abs_le.mp (key _ _ _ (h0 2) (ha 0) (h1 1))
  have p5 := abs_le.mp (key _ _ _ (h0 0) (ha 1) (h1 2))
  have p6 := abs_le.mp (key _ _ _ (h0 1) (ha 0) (h1 2))
  rw [e, abs_le]
  constructor <;> linarith [p1.1, p1.2, p2.1, p2.2, p3.1, p3.2, p4.1, p4.2, p5.1, p5.2, p6.1, p6.2]

theorem I25_entry {w : V3} (hw : norm3 w ≠ 0) {a : V3} {A : ℝ} (ha : ∀ k, |a k| ≤ A) {t : ℝ} (ht : 0 ≤ t) (i j : Fin 3) :
    |I25 w a t i j| ≤ 3 * A * t ^ 2 := by
  have := grow (f := fun t => I25 w a t i j) (f' := fun t => (E0 w t * skew a * (E1 w t)ᵀ) i j) (fun t => I25_deriv hw a t i j) (by simp)
    (c := 6 * A) 1 ht (fun s hs => by simpa using E0_skew_E1 w ha hs i j)
  refine this.trans (le_of_eq ?_)
  norm_num; ring

theorem I35_entry {w : V3} (hw : norm3 w ≠ 0) {a : V3} {A : ℝ} (ha : ∀ k, |a k| ≤ A) {t : ℝ} (ht : 0 ≤ t) (i j : Fin 3) :
    |I35 w a t i j| ≤ A * t ^ 3 := by
  have := grow (f := fun t => I35 w a t i j) (f' := fun t => I25 w a t i j) (fun t => I35_deriv hw a t i j) (by simp)
    (c := 3 * A) 2 ht (fun s hs => I25_entry hw ha hs i j)
  refine this.trans (le_of_eq ?_)
  norm_num; ring

theorem E0T_entry (w : V3) (t : ℝ) {M : M3} {c : ℝ} (h : ∀ i j, |M i j| ≤ c) (i j : Fin 3) : |((E0 w t)ᵀ * M) i j| ≤ 3 * c := by
  have hc : 0 ≤ c := (abs_nonneg _).trans (h 0 0)
  rw [Matrix.mul_apply]
  refine (Finset.abs_sum_le_sum_abs _ _).trans ?_
  rw [Fin.sum_univ_three]
  have key : ∀ k, |(E0 w t)ᵀ i k * M k j| ≤ c := by
    intro k
    rw [abs_mul, transpose_apply]
    calc _ ≤ 1 * c := mul_le_mul (E0_entry w t k i) (h k j) (abs_nonneg _) (by norm_num)
      _ = c := one_mul c
  linarith [key 0, key 1, key 2]

theorem E2_entry (w : V3) {t : ℝ} (ht : 0 ≤ t) (i j : Fin 3) : |E2 w t i j| ≤ t ^ 2 / 2 := by
  have := grow (f := fun t => E2 w t i j) (f' := fun t => E1 w t i j) (fun t => E2_deriv w t i j) (by simp) (c := 1) 1 ht
    (fun s hs => by simpa using E1_entry w hs i j)
  refine this.trans (le_of_eq ?_)
  norm_num

theorem E3_entry (w : V3) {t : ℝ} (ht : 0 ≤ t) (i j : Fin 3) : |E3 w t i j| ≤ t ^ 3 / 6 := by
  have := grow (f := fun t => E3 w t i j) (f' := fun t => E2 w t i j) (fun t => E3_deriv w t i j) (by simp) (c := 1 / 2) 2 ht
    (fun s hs => (E2_entry w hs i j).trans (le_of_eq (by ring)))
  refine this.trans (le_of_eq ?_)
  norm_num; ring

theorem skew_entry {a : V3} {A : ℝ} (ha : ∀ k, |a k| ≤ A) (i j : Fin 3) : |skew a i j| ≤ A := by
  have hA : 0 ≤ A := (abs_nonneg _).trans (ha 0)
  fin_cases i <;> fin_cases j <;> simp [skew, ha, hA]

theorem skew_mul_entry {a : V3} {A : ℝ} (ha : ∀ k, |a k| ≤ A) {M : M3} {c : ℝ} (h : ∀ i j, |M i j| ≤ c) (i j : Fin 3) :
    |(skew a * M) i j| ≤ 2 * (A * c) := by
  have key : ∀ k l, |a k * M l j| ≤ A * c := by
    intro k l
    rw [abs_mul]
    exact mul_le_mul (ha k) (h l j) (abs_nonneg _) ((abs_nonneg _).trans (ha 0))
  have p := fun k l => abs_le.mp (key k l)
  rw [abs_le]
  fin_cases i <;> simp [Matrix.mul_apply, Fin.sum_univ_three, skew] <;> constructor <;>
    linarith [(p 0 1).1, (p 0 1).2, (p 0 2).1, (p 0 2).2, (p 1 0).1, (p 1 0).2, (p 1 2).1, (p 1 2).2, (p 2 0).1, (p 2 0).2, (p 2 1).1, (p 2 1).2]

/-- the parenthesis of `phi35Gen` with any `G3t` -/
theorem phi35Gen_split {w : V3} (a : V3) (t : ℝ) (G0t G3t : M3) :
    phi35Gen w a t G0t G3t = G0t * (t ^ 3 • (skew a * G3t) + (I35 w a t - skew a * (E3 w t)ᵀ)) := by
  unfold phi35Gen I35
  dsimp only
  congr 1
  abel

theorem phi35_small (w a : V3) {A : ℝ} (ha : ∀ k, |a k| ≤ A) {dt : ℝ} (hd : 0 ≤ dt) (i j : Fin 3) :
    |phi35 w a dt (Gam0 (dt • w))ᵀ ((gamma_SO3 (-(dt • w)) 3).getD 0) i j| ≤ 3 * (A * dt ^ 3) := by
  have hA : 0 ≤ A := (abs_nonneg _).trans (ha 0)
  have hp : 0 ≤ A * dt ^ 3 := by positivity
  unfold phi35
  split
  · norm_num; exact hp
  rename_i h
  have hw : norm3 w ≠ 0 := by intro e; rw [e] at h; norm_num at h
  by_cases hx : ExactAt (dt • w)
  · rw [phi35Gen_eq hx]
    exact E0T_entry w dt (fun i j => I35_entry hw ha hd i j) i j
  · have hn : norm3 (dt • w) < TOLERANCE := by
      by_contra hc
      exact hx (Or.inl hc)
    have e0 : Gam0 (dt • w) = 1 := by unfold Gam0; rw [if_pos hn]
    have e3 : (gamma_SO3 (-(dt • w)) 3).getD 0 = (1 / 6 : ℝ) • (1 : M3) := by
      have h1' : norm3 (-(dt • w)) < TOLERANCE := by rwa [norm3_neg]
      unfold gamma_SO3
      rw [if_neg (by omega)]
      simp only [h1', if_true]
      rw [show (3 : ℤ) = ((3 : ℕ) : ℤ) from rfl, factorial?_eq 3 (by omega)]
      norm_num [Nat.factorial]
    rw [phi35Gen_split, e0, e3, transpose_one, Matrix.one_mul]
    have p1 := abs_le.mp (I35_entry hw ha hd i j)
    have p2 := abs_le.mp (skew_mul_entry ha (M := (E3 w dt)ᵀ) (c := dt ^ 3 / 6) (fun i j => E3_entry w hd j i) i j)
    have p3 : |dt ^ 3 * (1 / 6 * skew a i j)| ≤ dt ^ 3 * (1 / 6 * A) := by
      rw [abs_mul, abs_mul, abs_of_nonneg (by positivity : 0 ≤ dt ^ 3), abs_of_pos (by norm_num : (0 : ℝ) < 1 / 6)]
      gcongr
      exact skew_entry ha i j
    have p3 := abs_le.mp p3
    rw [Matrix.mul_smul, Matrix.mul_one, Matrix.add_apply, Matrix.sub_apply, Matrix.smul_apply, Matrix.smul_apply, smul_eq_mul, smul_eq_mul, abs_le]
    constructor <;> nlinarith [p1.1, p1.2, p2.1, p2.2, p3.1, p3.2]

end Drift
