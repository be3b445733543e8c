import Mathlib.Data.Real.Archimedean
import Mathlib.Data.Set.Finite.Lemmas
import Mathlib.Algebra.Order.Round
import Mathlib.Algebra.Order.Floor.Ring
import Mathlib.Data.Set.Finite.Lattice
import Mathlib.Order.Interval.Finset.Defs
import Mathlib.Data.Int.Interval
import Mathlib.Tactic.Linarith
import Mathlib.Tactic.Positivity
import Mathlib.Tactic.NormNum
import Mathlib.Tactic.Ring
import Mathlib.Tactic.FieldSimp

/-!
# Binary64 numbers

The numbers that a C++ `double` can hold (IEEE 754 binary64), apart from infinities and NaN, and rounding to nearest.
Overflow is not modelled: there is no largest number.  Ties may be broken in any way, in particular to even.
-/
namespace Drift
namespace F64

/-- `x` is a binary64 number (normal or subnormal) -/
def IsF (x : ℝ) : Prop := ∃ m e : ℤ, |m| < 2 ^ 53 ∧ -1074 ≤ e ∧ x = m * (2 : ℝ) ^ e

/-- a rounding to nearest: `rn x` is a binary64 number, and none is nearer to `x` -/
structure Round where
  rn : ℝ → ℝ
  isF : ∀ x, IsF (rn x)
  near : ∀ x z, IsF z → |x - rn x| ≤ |x - z|

theorem IsF.zero : IsF 0 := ⟨0, 0, by norm_num, by norm_num, by norm_num⟩

theorem IsF.int {m : ℤ} (h : |m| < 2 ^ 53) : IsF m := ⟨m, 0, h, by norm_num, by norm_num⟩

theorem IsF.nat {n : ℕ} (h : n < 2 ^ 53) : IsF n := by
  have := IsF.int (m := (n : ℤ)) (by rw [abs_of_nonneg (by positivity)]; exact_mod_cast h)
  simpa using this

/-- every binary64 number is a multiple of the smallest one -/
theorem IsF.multiple {x : ℝ} (h : IsF x) : ∃ n : ℤ, x = n * (2 : ℝ) ^ (-1074 : ℤ) := by
  obtain ⟨m, e, -, he, rfl⟩ := h
  obtain ⟨k, hk⟩ := Int.eq_ofNat_of_zero_le (show 0 ≤ e + 1074 by omega)
  refine ⟨m * 2 ^ k, ?_⟩
  have : e = (k : ℤ) + (-1074) := by omega
  rw [this, zpow_add₀ (by norm_num), zpow_natCast]
  push_cast; ring

/-- there is a rounding to nearest -/
theorem exists_nearest (x : ℝ) : ∃ y, IsF y ∧ ∀ z, IsF z → |x - y| ≤ |x - z| := by
  have hg : (0 : ℝ) < (2 : ℝ) ^ (-1074 : ℤ) := zpow_pos (by norm_num) _
  set S : Set ℝ := {z | IsF z ∧ |x - z| ≤ |x|}
  have hfin : S.Finite := by
    apply Set.Finite.subset (((Set.finite_Icc (-⌈2 * |x| / (2 : ℝ) ^ (-1074 : ℤ)⌉) ⌈2 * |x| / (2 : ℝ) ^ (-1074 : ℤ)⌉).image
      fun n : ℤ => (n : ℝ) * (2 : ℝ) ^ (-1074 : ℤ)))
    rintro z ⟨hz, hb⟩
    obtain ⟨n, rfl⟩ := hz.multiple
    refine ⟨n, ?_, rfl⟩
    generalize (2 : ℝ) ^ (-1074 : ℤ) = g at *
    have h1 : |(n : ℝ) * g| ≤ 2 * |x| := by
      have := abs_sub_abs_le_abs_sub ((n : ℝ) * g) x
      rw [abs_sub_comm] at this; linarith
    have h2 : |(n : ℝ)| ≤ 2 * |x| / g := by
      rw [abs_mul, abs_of_pos hg] at h1
      rw [le_div_iff₀ hg]; exact h1
    have h3 := Int.le_ceil (2 * |x| / g)
    have h4 := abs_le.mp h2
    constructor
    · have : (-(⌈2 * |x| / g⌉ : ℝ)) ≤ n := by linarith
      exact_mod_cast this
    · have : (n : ℝ) ≤ ⌈2 * |x| / g⌉ := by linarith
      exact_mod_cast this
  obtain ⟨y, hy, hmin⟩ := Set.exists_min_image S (fun z => |x - z|) hfin ⟨0, IsF.zero, by simp⟩
  refine ⟨y, hy.1, fun z hz => ?_⟩
  by_cases h : |x - z| ≤ |x|
  · exact hmin z ⟨hz, h⟩
  · exact hy.2.trans (not_le.mp h).le

/-- a rounding to nearest -/
noncomputable def Round.some : Round where
  rn x := (exists_nearest x).choose
  isF x := (exists_nearest x).choose_spec.1
  near x := (exists_nearest x).choose_spec.2

end F64
end Drift
