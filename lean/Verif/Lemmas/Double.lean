import Verif.Spec.Double

/-!
# Facts about rounding to nearest
-/
namespace Drift
namespace F64

theorem rn_of_F (R : Round) {x : ℝ} (h : IsF x) : R.rn x = x := by
  have := R.near x x h
  simp only [sub_self, abs_zero] at this
  have := abs_nonpos_iff.mp this
  linarith

theorem rn_mono (R : Round) {x y : ℝ} (h : x ≤ y) : R.rn x ≤ R.rn y := by
  rcases h.lt_or_eq with h | rfl
  · by_contra hc
    push Not at hc
    have h1 := R.near x _ (R.isF y)
    have h2 := R.near y _ (R.isF x)
    generalize R.rn x = a at *
    generalize R.rn y = b at *
    rw [← sq_le_sq] at h1 h2
    nlinarith
  · exact le_rfl

theorem zpow_pos' (e : ℤ) : (0 : ℝ) < (2 : ℝ) ^ e := zpow_pos (by norm_num) _

/-- a multiple of `2^e` that is at most `2^53 * 2^e` is a binary64 number -/
theorem IsF.grid {m e : ℤ} (he : -1074 ≤ e) (hm : |m| ≤ 2 ^ 53) : IsF (m * (2 : ℝ) ^ e) := by
  rcases hm.lt_or_eq with h | h
  · exact ⟨m, e, h, he, rfl⟩
  · have key : ∀ s : ℤ, |s| = 1 → IsF ((s * 2 ^ 53 : ℤ) * (2 : ℝ) ^ e) := by
      intro s hs
      refine ⟨s * 2 ^ 52, e + 1, by rw [abs_mul, hs]; norm_num, by omega, ?_⟩
      rw [zpow_add₀ (by norm_num)]
      push_cast; norm_num; ring
    rcases abs_choice m with h' | h'
    · have := key 1 (by norm_num)
      rwa [show (1 : ℤ) * 2 ^ 53 = m by omega] at this
    · have := key (-1) (by norm_num)
      rwa [show (-1 : ℤ) * 2 ^ 53 = m by omega] at this

/-- the rounding error is at most half the grid -/
theorem rn_err (R : Round) {x : ℝ} {e : ℤ} (he : -1074 ≤ e) (hx : |x| ≤ 2 ^ 53 * (2 : ℝ) ^ e) : |x - R.rn x| ≤ (2 : ℝ) ^ e / 2 := by
  have hg := zpow_pos' e
  have h1 := abs_sub_round (x / (2 : ℝ) ^ e)
  have h2 : |round (x / (2 : ℝ) ^ e)| ≤ 2 ^ 53 := by
    have h3 : |x / (2 : ℝ) ^ e| ≤ 2 ^ 53 := by
      rw [abs_div, abs_of_pos hg, div_le_iff₀ hg]; exact hx
    have h4 := abs_le.mp h3
    have h5 := abs_le.mp h1
    rw [abs_le]
    constructor
    · have : (-(2 ^ 53 : ℤ) : ℝ) - 1 < round (x / (2 : ℝ) ^ e) := by push_cast; linarith
      have : (-(2 ^ 53 : ℤ)) - 1 < round (x / (2 : ℝ) ^ e) := by exact_mod_cast this
      omega
    · have : (round (x / (2 : ℝ) ^ e) : ℝ) < (2 ^ 53 : ℤ) + 1 := by push_cast; linarith
      have : round (x / (2 : ℝ) ^ e) < (2 ^ 53 : ℤ) + 1 := by exact_mod_cast this
      omega
  refine (R.near x _ (IsF.grid he h2)).trans ?_
  have : x - round (x / (2 : ℝ) ^ e) * (2 : ℝ) ^ e = (x / (2 : ℝ) ^ e - round (x / (2 : ℝ) ^ e)) * (2 : ℝ) ^ e := by
    field_simp
  rw [this, abs_mul, abs_of_pos hg]
  have := mul_le_mul_of_nonneg_right h1 hg.le
  linarith

/-- the nearest number among those with 53 significant bits -/
theorem rn_eq (R : Round) {x : ℝ} {n e : ℤ} (he : -1074 ≤ e) (h1 : 2 ^ 52 < |n|) (h2 : |n| ≤ 2 ^ 53)
    (h : |x - n * (2 : ℝ) ^ e| < (2 : ℝ) ^ e / 2) : R.rn x = n * (2 : ℝ) ^ e := by
  have hg := zpow_pos' e
  have h3 := (R.near x _ (IsF.grid he h2)).trans_lt h
  have h4 : |R.rn x - n * (2 : ℝ) ^ e| < (2 : ℝ) ^ e := by
    rw [abs_lt] at *; constructor <;> linarith [h.1, h.2, h3.1, h3.2]
  obtain ⟨m, k, hm, hk, ex⟩ := R.isF x
  rcases le_or_gt e k with hle | hlt
  · obtain ⟨j, hj⟩ := Int.eq_ofNat_of_zero_le (show 0 ≤ k - e by omega)
    have hk' : k = (j : ℤ) + e := by omega
    have e1 : R.rn x = ((m * 2 ^ j : ℤ) : ℝ) * (2 : ℝ) ^ e := by
      rw [ex, hk', zpow_add₀ (by norm_num), zpow_natCast]; push_cast; ring
    rw [e1] at h4 ⊢
    rw [← sub_mul, abs_mul, abs_of_pos hg] at h4
    have h5 : |((m * 2 ^ j : ℤ) : ℝ) - n| < 1 := by
      by_contra hc; push Not at hc; nlinarith
    have h6 : |m * 2 ^ j - n| < 1 := by exact_mod_cast h5
    have h7 : m * 2 ^ j = n := by have := Int.abs_lt_one_iff.mp h6; omega
    rw [h7]
  · exfalso
    have h5 : |R.rn x| < 2 ^ 52 * (2 : ℝ) ^ e := by
      rw [ex, abs_mul, abs_of_pos (zpow_pos' k)]
      have h6 : (2 : ℝ) ^ k ≤ (2 : ℝ) ^ (e - 1) := zpow_le_zpow_right₀ (by norm_num) (by omega)
      have h7 : (2 : ℝ) ^ e = 2 * (2 : ℝ) ^ (e - 1) := by
        rw [show e = 1 + (e - 1) by ring, zpow_add₀ (by norm_num)]; norm_num
      have h8 : |(m : ℝ)| < 2 ^ 53 := by exact_mod_cast hm
      have h9 := zpow_pos' k
      calc |(m : ℝ)| * (2 : ℝ) ^ k < 2 ^ 53 * (2 : ℝ) ^ k := mul_lt_mul_of_pos_right h8 h9
        _ ≤ 2 ^ 53 * (2 : ℝ) ^ (e - 1) := mul_le_mul_of_nonneg_left h6 (by norm_num)
        _ = _ := by rw [h7]; ring
    have h6 : (2 ^ 52 + 1 : ℝ) ≤ |(n : ℝ)| := by exact_mod_cast h1
    have h7 : |(n : ℝ) * (2 : ℝ) ^ e| ≤ |R.rn x| + |R.rn x - n * (2 : ℝ) ^ e| := by
      have := abs_sub_abs_le_abs_sub ((n : ℝ) * (2 : ℝ) ^ e) (R.rn x)
      rw [abs_sub_comm] at this; linarith
    rw [abs_mul, abs_of_pos hg] at h7
    nlinarith

/-- **Sterbenz**: the difference of two numbers that differ by a factor of at most two is a binary64 number -/
theorem IsF.sub {x y : ℝ} (hx : IsF x) (hy : IsF y) (h1 : x ≤ 2 * y) (h2 : y ≤ 2 * x) : IsF (x - y) := by
  have x0 : 0 ≤ x := by linarith
  have y0 : 0 ≤ y := by linarith
  have key : ∀ {a b : ℝ}, IsF a → ∀ m e k : ℤ, |m| < 2 ^ 53 → -1074 ≤ e → e ≤ k → ∀ n : ℤ, b = m * (2 : ℝ) ^ e → a = n * (2 : ℝ) ^ k →
      |a - b| ≤ b → IsF (a - b) := by
    rintro a b - m e k hm he hek n rfl rfl hab
    obtain ⟨j, hj⟩ := Int.eq_ofNat_of_zero_le (show 0 ≤ k - e by omega)
    have hk : k = (j : ℤ) + e := by omega
    have e1 : (n : ℝ) * (2 : ℝ) ^ k - m * (2 : ℝ) ^ e = ((n * 2 ^ j - m : ℤ) : ℝ) * (2 : ℝ) ^ e := by
      rw [hk, zpow_add₀ (by norm_num), zpow_natCast]; push_cast; ring
    rw [e1] at hab ⊢
    refine ⟨_, e, ?_, he, rfl⟩
    have hg := zpow_pos' e
    rw [abs_mul, abs_of_pos hg] at hab
    have h3 := le_of_mul_le_mul_right hab hg
    have h4 : |(n * 2 ^ j - m : ℤ)| ≤ m := by exact_mod_cast h3
    exact lt_of_le_of_lt (h4.trans (le_abs_self m)) hm
  obtain ⟨m, e, hm, he, ex⟩ := id hx
  obtain ⟨m', e', hm', he', ey⟩ := id hy
  rcases le_total e' e with h | h
  · exact key hx m' e' e hm' he' h m ey ex (abs_le.mpr ⟨by linarith, by linarith⟩)
  · have h5 := key hy m e e' hm he h m' ex ey (abs_le.mpr ⟨by linarith, by linarith⟩)
    obtain ⟨a, b, h6, h7, h8⟩ := h5
    exact ⟨-a, b, by rwa [abs_neg], h7, by push_cast; linarith⟩

/-- the fractional part of a binary64 number is one -/
theorem IsF.fract {t : ℝ} (ht : IsF t) (h0 : 0 ≤ t) : IsF (t - ⌊t⌋) := by
  obtain ⟨m, e, hm, he, et⟩ := ht
  rcases le_total 0 e with h | h
  · obtain ⟨j, hj⟩ := Int.eq_ofNat_of_zero_le h
    have : t = ((m * 2 ^ j : ℤ) : ℝ) := by rw [et, hj, zpow_natCast]; push_cast; ring
    rw [this, Int.floor_intCast, sub_self]; exact IsF.zero
  · obtain ⟨j, hj⟩ := Int.eq_ofNat_of_zero_le (show 0 ≤ -e by omega)
    have hg := zpow_pos' e
    have hge : (2 : ℝ) ^ e * 2 ^ j = 1 := by
      rw [← zpow_natCast (2 : ℝ) j, ← zpow_add₀ (by norm_num), show e + (j : ℤ) = 0 by omega, zpow_zero]
    have e1 : t - ⌊t⌋ = ((m - ⌊t⌋ * 2 ^ j : ℤ) : ℝ) * (2 : ℝ) ^ e := by
      push_cast
      rw [sub_mul, ← et, mul_assoc, mul_comm ((2 : ℝ) ^ j), hge, mul_one]
    have h1 : 0 ≤ t - ⌊t⌋ := by linarith [Int.floor_le t]
    have h2 : t - ⌊t⌋ ≤ t := by
      have : (0 : ℝ) ≤ ⌊t⌋ := by exact_mod_cast Int.floor_nonneg.mpr h0
      linarith
    have hm0 : (0 : ℤ) ≤ m := by
      have : 0 ≤ (m : ℝ) := by rw [et] at h0; exact nonneg_of_mul_nonneg_left h0 hg
      exact_mod_cast this
    rw [e1] at h1 h2 ⊢
    rw [et] at h2
    have h3 := le_of_mul_le_mul_right h2 hg
    have h4 := nonneg_of_mul_nonneg_left h1 hg
    have h5 : (m - ⌊t⌋ * 2 ^ j : ℤ) ≤ m := by rw [et]; exact_mod_cast h3
    have h6 : 0 ≤ (m - ⌊t⌋ * 2 ^ j : ℤ) := by exact_mod_cast h4
    refine ⟨_, e, ?_, he, rfl⟩
    rw [abs_of_nonneg h6]
    rw [abs_of_nonneg hm0] at hm
    exact lt_of_le_of_lt h5 hm

end F64
end Drift
