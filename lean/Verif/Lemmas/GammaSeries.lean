import Verif.Lemmas.SO3
import Verif.Lemmas.Factorial
import Mathlib.Analysis.SpecialFunctions.Trigonometric.Series
import Mathlib.Topology.Instances.Matrix
import Mathlib.Analysis.Normed.Algebra.MatrixExponential

/-! The power series of `Gamma_SO3`. -/
namespace Drift
open Matrix Mat Nat Finset

theorem hasSum_of_eq {α : Type*} [AddCommMonoid α] [TopologicalSpace α] {f g : ℕ → α} {a b : α}
    (h : HasSum f a) (hf : ∀ k, g k = f k) (ha : b = a) : HasSum g b := by
  rw [ha, funext hf]; exact h

/-- The scalar coefficients `a_m = Σ_k (-θ²)^k/(2k+m+1)!` in closed form. -/
noncomputable def acoef (θ : ℝ) : ℕ → ℝ
  | 0 => Real.sin θ / θ
  | 1 => (1 - Real.cos θ) / θ ^ 2
  | m + 2 => (1 / ((m + 1)! : ℝ) - acoef θ m) / θ ^ 2

theorem acoef_hasSum {θ : ℝ} (hθ : θ ≠ 0) (m : ℕ) :
    HasSum (fun k : ℕ => (-θ ^ 2) ^ k / ((2 * k + m + 1)! : ℝ)) (acoef θ m) := by
  -- two-step shift
  have shift : ∀ m : ℕ, ∀ a : ℝ, HasSum (fun k : ℕ => (-θ ^ 2) ^ k / ((2 * k + m + 1)! : ℝ)) a →
      HasSum (fun k : ℕ => (-θ ^ 2) ^ k / ((2 * k + (m + 2) + 1)! : ℝ))
        ((1 / ((m + 1)! : ℝ) - a) / θ ^ 2) := by
    intro m a h
    have h1 := (hasSum_nat_add_iff' 1).mpr h
    simp only [range_one, sum_singleton, mul_zero, zero_add, pow_zero] at h1
    have h2 := h1.mul_left (-1 / θ ^ 2)
    refine hasSum_of_eq h2 (fun k => ?_) ?_
    · rw [show 2 * (k + 1) + m + 1 = 2 * k + (m + 2) + 1 by ring, pow_succ]
      field_simp
      ring
    · field_simp; ring
  have h0 : HasSum (fun k : ℕ => (-θ ^ 2) ^ k / ((2 * k + 0 + 1)! : ℝ)) (acoef θ 0) := by
    have h := (Real.hasSum_sin θ).mul_left (1 / θ)
    refine hasSum_of_eq h (fun k => ?_) ?_
    · rw [show 2 * k + 0 + 1 = 2 * k + 1 by ring, pow_succ θ (2 * k), pow_mul, neg_pow]
      field_simp
    · simp only [acoef]; field_simp
  have h1 : HasSum (fun k : ℕ => (-θ ^ 2) ^ k / ((2 * k + 1 + 1)! : ℝ)) (acoef θ 1) := by
    have h := (hasSum_nat_add_iff' 1).mpr (Real.hasSum_cos θ)
    simp only [range_one, sum_singleton, mul_zero, pow_zero, Nat.factorial_zero, Nat.cast_one,
      mul_one, div_one] at h
    have h2 := h.mul_left (-1 / θ ^ 2)
    refine hasSum_of_eq h2 (fun k => ?_) ?_
    · rw [show 2 * k + 1 + 1 = 2 * (k + 1) by ring, pow_succ (-1 : ℝ) k, pow_mul θ 2 (k + 1),
        pow_succ (θ ^ 2) k, neg_pow]
      field_simp
    · simp only [acoef]; field_simp; ring
  induction m using Nat.strong_induction_on with
  | _ m ih =>
    match m with
    | 0 => exact h0
    | 1 => exact h1
    | m + 2 => exact shift m _ (ih m (by omega))

/-- odd and even powers of a matrix with `A³ = -tA` -/
theorem pow_odd {A : M3} {t : ℝ} (h : A * A * A = (-t) • A) (k : ℕ) :
    A ^ (2 * k + 1) = (-t) ^ k • A := by
  induction k with
  | zero => simp
  | succ k ih =>
    rw [show 2 * (k + 1) + 1 = (2 * k + 1) + 1 + 1 by ring, pow_succ, pow_succ, ih, Matrix.smul_mul,
      Matrix.smul_mul, h, smul_smul, pow_succ]

theorem pow_even {A : M3} {t : ℝ} (h : A * A * A = (-t) • A) (k : ℕ) :
    A ^ (2 * k + 2) = (-t) ^ k • (A * A) := by
  rw [show 2 * k + 2 = (2 * k + 1) + 1 by ring, pow_succ, pow_odd h, Matrix.smul_mul]

theorem skew_cube' (w : V3) : skew w * skew w * skew w = (-(norm3 w ^ 2)) • skew w := by
  rw [norm3_sq]; exact skew_cube w

/-- The documented series of order `m` sums to `I/m! + a_m A + a_{m+1} A²`. -/
theorem gamma_series {w : V3} (hw : norm3 w ≠ 0) (m : ℕ) :
    HasSum (fun n : ℕ => (1 / ((n + m)! : ℝ)) • skew w ^ n)
      ((1 / (m ! : ℝ)) • (1 : M3) + acoef (norm3 w) m • skew w
        + acoef (norm3 w) (m + 1) • (skew w * skew w)) := by
  set A := skew w with hA
  set θ := norm3 w with hθ
  have hc : A * A * A = (-(θ ^ 2)) • A := skew_cube' w
  -- tail from n = 1, split into odd and even
  have hodd : HasSum (fun k : ℕ => (1 / ((2 * k + 1 + m)! : ℝ)) • A ^ (2 * k + 1)) (acoef θ m • A) := by
    have h := (acoef_hasSum hw m).smul_const A
    refine hasSum_of_eq h (fun k => ?_) rfl
    rw [pow_odd hc, smul_smul, show 2 * k + m + 1 = 2 * k + 1 + m by ring]
    congr 1; ring
  have heven : HasSum (fun k : ℕ => (1 / ((2 * k + 2 + m)! : ℝ)) • A ^ (2 * k + 2))
      (acoef θ (m + 1) • (A * A)) := by
    have h := (acoef_hasSum hw (m + 1)).smul_const (A * A)
    refine hasSum_of_eq h (fun k => ?_) rfl
    rw [pow_even hc, smul_smul, show 2 * k + (m + 1) + 1 = 2 * k + 2 + m by ring]
    congr 1; ring
  have hnat : HasSum (fun n : ℕ => (1 / ((n + 1 + m)! : ℝ)) • A ^ (n + 1))
      (acoef θ m • A + acoef θ (m + 1) • (A * A)) := by
    refine HasSum.even_add_odd (f := fun n : ℕ => (1 / ((n + 1 + m)! : ℝ)) • A ^ (n + 1)) ?_ ?_
    · exact hodd
    · exact heven
  have := (hasSum_nat_add_iff (f := fun n : ℕ => (1 / ((n + m)! : ℝ)) • A ^ n) 1).mp hnat
  simp only [range_one, sum_singleton, zero_add, pow_zero] at this
  refine hasSum_of_eq this (fun _ => rfl) ?_
  abel

/-- The value accumulated by the loop of the general case. -/
theorem gammaLoop_eq (A : M3) (m : ℕ) (hm : m ≤ 20) :
    gammaLoop A m = some (((m ! : ℕ) : ℤ), A ^ m, ∑ k ∈ range (m + 1), (1 / (k ! : ℝ)) • A ^ k) := by
  unfold gammaLoop
  obtain ⟨t, ht, h1⟩ := forRange_inv
    (Inv := fun i (s : ℤ × M3 × M3) =>
      s = (((i ! : ℕ) : ℤ), A ^ i, ∑ k ∈ range (i + 1), (1 / (k ! : ℝ)) • A ^ k))
    (n := m) (s := ((1 : ℤ), (1 : M3), (1 : M3)))
    (f := fun k s => if inLong (s.1 * ((k : ℤ) + 1)) then
      some (s.1 * ((k : ℤ) + 1), s.2.1 * A,
        s.2.2 + (1 / ((s.1 * ((k : ℤ) + 1) : ℤ) : ℝ)) • (s.2.1 * A)) else none)
    (by simp) (by
      rintro i t hi rfl
      have e2 : ((i ! : ℕ) : ℤ) * ((i : ℤ) + 1) = ((i + 1)! : ℕ) := by
        rw [Nat.factorial_succ]; push_cast; ring
      have hle : (i + 1)! ≤ 20 ! := Nat.factorial_le (by omega)
      have h20 : 20 ! = 2432902008176640000 := by decide
      rw [h20] at hle
      simp only [e2]
      rw [if_pos (by constructor <;> omega)]
      refine ⟨_, rfl, ?_⟩
      rw [sum_range_succ _ (i + 1), pow_succ]
      simp)
  simp only at ht ⊢
  rw [ht, h1]

/-- `exp - partial sum` is `A^m` times the remaining coefficients. -/
theorem gamma_tail {A : M3} {θ : ℝ} (hθ : θ ≠ 0) (hc : A * A * A = (-(θ ^ 2)) • A) (m : ℕ) :
    (1 + acoef θ 0 • A + acoef θ 1 • (A * A)) - ∑ k ∈ range (m + 1), (1 / (k ! : ℝ)) • A ^ k
      = A ^ m * (acoef θ m • A + acoef θ (m + 1) • (A * A)) := by
  induction m with
  | zero => simp; abel
  | succ m ih =>
    rw [sum_range_succ, ← sub_sub, ih]
    have e : A ^ (m + 1) * (A * A) = (-(θ ^ 2)) • A ^ (m + 1) := by
      rw [pow_succ, Matrix.mul_assoc, ← Matrix.mul_assoc A A A, hc, Matrix.mul_smul]
    have ha : acoef θ (m + 2) = (1 / ((m + 1)! : ℝ) - acoef θ m) / θ ^ 2 := rfl
    rw [Matrix.mul_add, Matrix.mul_add, Matrix.mul_smul, Matrix.mul_smul, Matrix.mul_smul,
      Matrix.mul_smul, e, ← pow_succ, smul_smul]
    have e3 : A ^ m * (A * A) = A ^ (m + 1) * A := by rw [pow_succ, Matrix.mul_assoc]
    rw [e3, show m + 1 + 1 = m + 2 from rfl, ha]
    have e4 : (1 / ((m + 1)! : ℝ) - acoef θ m) / θ ^ 2 * -θ ^ 2 = acoef θ m - 1 / ((m + 1)! : ℝ) := by
      field_simp; ring
    rw [e4, sub_smul]
    abel

/-- For every order the code's value is `I/m! + a_m A + a_{m+1} A²`. -/
theorem gamma_SO3_closed {w : V3} (hw : ¬ norm3 w < TOLERANCE) (m : ℕ) (hm : m ≤ 20) :
    gamma_SO3 w m = some ((1 / (m ! : ℝ)) • (1 : M3) + acoef (norm3 w) m • skew w
        + acoef (norm3 w) (m + 1) • (skew w * skew w)) := by
  have hpos := norm3_pos_of_not_lt hw
  have hne := hpos.ne'
  have hR : gammaCase0 (norm3 w) (skew w) =
      1 + acoef (norm3 w) 0 • skew w + acoef (norm3 w) 1 • (skew w * skew w) := by
    unfold gammaCase0 acoef; rw [Matrix.smul_mul, pow_two]
  unfold gamma_SO3
  rw [if_neg (by omega)]
  simp only [hw, if_false]
  by_cases h0 : m = 0
  · subst h0; simp [hR]
  by_cases h1 : m = 1
  · subst h1
    simp only [Nat.cast_one, one_ne_zero, if_false, if_true]
    unfold gammaCase1 acoef acoef
    rw [Matrix.smul_mul]
    simp only [zero_add, Nat.factorial_one, Nat.cast_one, div_one, one_smul, pow_two]
    congr 3
    field_simp
  by_cases h2 : m = 2
  · subst h2
    rw [if_neg (by norm_num), if_neg (by norm_num), if_pos (by norm_num)]
    unfold gammaCase2
    rw [Matrix.smul_mul]
    have e3 : (0.5 : ℝ) = 1 / 2 := by norm_num
    have e4 : acoef (norm3 w) 2 = (norm3 w - Real.sin (norm3 w)) / (norm3 w * norm3 w * norm3 w) := by
      simp only [acoef, zero_add, Nat.factorial_one, Nat.cast_one]; field_simp
    have e5 : acoef (norm3 w) (2 + 1) = (norm3 w * norm3 w + 2 * Real.cos (norm3 w) - 2) /
        (2 * (norm3 w * norm3 w) * (norm3 w * norm3 w)) := by
      simp only [acoef, Nat.reduceAdd, Nat.factorial_two, Nat.cast_ofNat]; field_simp; ring
    rw [e3, e4, e5, Nat.factorial_two, Nat.cast_ofNat]
  rw [if_neg (by omega), if_neg (by omega), if_neg (by omega)]
  unfold gammaGeneral
  rw [Int.toNat_natCast, gammaLoop_eq _ _ hm]
  simp only [Option.bind_eq_bind, Option.bind_some, h0, if_false]
  have hc := skew_cube' w
  have ht := gamma_tail hne hc m
  rw [hR, ht, Int.cast_natCast]
  have hY : skew w * skew w * (acoef (norm3 w) m • skew w
      + acoef (norm3 w) (m + 1) • (skew w * skew w)) = (-(norm3 w ^ 2)) •
      (acoef (norm3 w) m • skew w + acoef (norm3 w) (m + 1) • (skew w * skew w)) := by
    rw [Matrix.mul_add, Matrix.mul_smul, Matrix.mul_smul, hc, ← Matrix.mul_assoc (skew w * skew w), hc,
      Matrix.smul_mul, smul_add, smul_comm, smul_comm (acoef (norm3 w) (m + 1))]
  rw [add_assoc]
  generalize hYd : acoef (norm3 w) m • skew w + acoef (norm3 w) (m + 1) • (skew w * skew w) = Y at hY ⊢
  have e : ∀ j : ℕ, (-1 : ℝ) ^ (j + 1) / norm3 w ^ (2 * j + 2) * (-norm3 w ^ 2) ^ j
        * (-norm3 w ^ 2) = 1 := by
    intro j
    rw [mul_assoc, ← pow_succ, neg_pow (norm3 w ^ 2), show 2 * j + 2 = 2 * (j + 1) by ring, pow_mul]
    have : ((-1 : ℝ) ^ (j + 1)) * (-1) ^ (j + 1) = 1 := by rw [← mul_pow]; norm_num
    field_simp
    linear_combination this
  split_ifs with hodd
  · obtain ⟨j, rfl⟩ : ∃ j, m = 2 * j + 1 := ⟨m / 2, by omega⟩
    rw [pow_odd hc, show (2 * j + 1 + 1) / 2 = j + 1 by omega]
    congr 2
    rw [Matrix.smul_mul, Matrix.smul_mul, Matrix.mul_smul, ← Matrix.mul_assoc, hY, smul_smul, smul_smul,
      e, one_smul]
  · obtain ⟨j, rfl⟩ : ∃ j, m = 2 * j + 2 := ⟨m / 2 - 1, by omega⟩
    rw [pow_even hc, show (2 * j + 2) / 2 = j + 1 by omega]
    congr 2
    rw [Matrix.smul_mul, hY, smul_smul, smul_smul, e, one_smul]

end Drift
