import Verif.Spec.RoundedWheel
import Verif.Lemmas.RoundRead
import Verif.Lemmas.Slip

/-!
# Rounding errors of the differential-drive callbacks
-/
namespace Drift
namespace F64

theorem tiny_scale {M c : ℝ} (hM : 1 / 10 ^ 70 ≤ M) (hc : 1 / 100 ≤ c) : tiny ≤ c * M := by
  have := tiny_le
  have h0 : (0 : ℝ) ≤ M := le_trans (by norm_num) hM
  have h1 : 1 / 100 * M ≤ c * M := mul_le_mul_of_nonneg_right hc h0
  norm_num at *
  linarith

theorem half_sum_err (R : Round) {a b A B e M : ℝ} (hM : 1 / 10 ^ 70 ≤ M) (hA : |A| ≤ M) (hB : |B| ≤ M) (ha : |a - A| ≤ e * (uu * M)) (hb : |b - B| ≤ e * (uu * M))
    (he : 0 ≤ e) (he1 : e ≤ 10) : |R.rn (R.rn (a + b) / 2) - (A + B) / 2| ≤ (e + 201 / 100) * (uu * M) := by
  have hu := uu_pos
  have hul := uu_le
  have h0 : (0 : ℝ) < M := lt_of_lt_of_le (by norm_num) hM
  have s : uu * M ≤ 1 / 10 ^ 15 * M := mul_le_mul_of_nonneg_right hul h0.le
  have s0 : 0 ≤ uu * M := by positivity
  have s1 : e * (uu * M) ≤ 10 * (uu * M) := mul_le_mul_of_nonneg_right he1 s0
  rw [abs_le] at *
  norm_num at s
  have h1 : |a + b| ≤ 2001 / 1000 * M := by rw [abs_le]; constructor <;> linarith [hA.1, hA.2, hB.1, hB.2, ha.1, ha.2, hb.1, hb.2]
  have r1 := abs_le.mp (rnb R (tiny_scale hM (by norm_num)) h1)
  have h2 : |R.rn (a + b) / 2| ≤ 1002 / 1000 * M := by
    have := abs_le.mp h1
    rw [abs_le]; constructor <;> linarith [r1.1, r1.2]
  have r2 := abs_le.mp (rnb R (tiny_scale hM (by norm_num)) h2)
  constructor <;> linarith [r1.1, r1.2, r2.1, r2.2, ha.1, ha.2, hb.1, hb.2]

theorem side_err (R : Round) {ρ a a' M : ℝ} (hM : 1 / 10 ^ 70 ≤ M) (hρ : 0 ≤ ρ) (hρ1 : ρ ≤ 158 / 1000) (ha : |a| ≤ M) (he : |a' - a| ≤ 201 / 100 * (uu * M)) :
    |R.rn (a' * R.rn ρ) - a * ρ| ≤ 7 / 10 * (uu * M) := by
  have hu := uu_pos
  have hul := uu_le
  have h0 : (0 : ℝ) < M := lt_of_lt_of_le (by norm_num) hM
  have s : uu * M ≤ 1 / 10 ^ 15 * M := mul_le_mul_of_nonneg_right hul h0.le
  have s0 : 0 ≤ uu * M := by positivity
  have hp : |ρ| ≤ 158 / 1000 := by rw [abs_of_nonneg hρ]; exact hρ1
  have q1 := rnb R (M := 158 / 1000) (tiny_le.trans (by norm_num)) hp
  have q2 : |R.rn ρ| ≤ 159 / 1000 := (rnb' R (M := 158 / 1000) (tiny_le.trans (by norm_num)) hp).trans (by norm_num)
  have p := prod_diff ha he q2 q1
  have e1 : 201 / 100 * (uu * M) * (159 / 1000) + M * (1001 / 1000 * uu * (158 / 1000)) = (201 / 100 * (159 / 1000) + 1001 / 1000 * (158 / 1000)) * (uu * M) := by
    ring
  rw [e1] at p
  have ha' : |a'| ≤ 101 / 100 * M := by
    norm_num at s
    rw [abs_le] at *; constructor <;> linarith [ha.1, ha.2, he.1, he.2]
  have h2 : |a' * R.rn ρ| ≤ 17 / 100 * M := by
    rw [abs_mul]
    have := mul_le_mul ha' q2 (abs_nonneg _) (by positivity)
    linarith
  have r := rnb R (tiny_scale hM (by norm_num)) h2
  rw [abs_le] at *
  constructor <;> linarith [p.1, p.2, r.1, r.2]

/-- the computed speed and turning rate, given the speeds of the two sides -/
theorem drive_err (R : Round) {vr vl r l τ M : ℝ} (hM : 1 / 10 ^ 70 ≤ M) (hτ : 37 / 100 ≤ τ) (hτ1 : τ ≤ 1) (hr : |r| ≤ 158 / 1000 * M) (hl : |l| ≤ 158 / 1000 * M)
    (er : |vr - r| ≤ 7 / 10 * (uu * M)) (el : |vl - l| ≤ 7 / 10 * (uu * M)) :
    |R.rn (R.rn (vr + vl) / 2) - (r + l) / 2| ≤ 8 * (uu * M) ∧ |R.rn (R.rn (vr - vl) / R.rn τ) - (r - l) / τ| ≤ 8 * (uu * M) := by
  have hu := uu_pos
  have hul := uu_le
  have h0 : (0 : ℝ) < M := lt_of_lt_of_le (by norm_num) hM
  have s : uu * M ≤ 1 / 10 ^ 15 * M := mul_le_mul_of_nonneg_right hul h0.le
  have s0 : 0 ≤ uu * M := by positivity
  refine ⟨(half_sum_err R hM (hr.trans (by linarith)) (hl.trans (by linarith)) er el (by norm_num) (by norm_num)).trans (by linarith), ?_⟩
  norm_num at s
  rw [abs_le] at hr hl er el
  have h1 : |vr - vl| ≤ 317 / 1000 * M := by rw [abs_le]; constructor <;> linarith [hr.1, hr.2, hl.1, hl.2, er.1, er.2, el.1, el.2]
  have r1 := abs_le.mp (rnb R (tiny_scale hM (by norm_num)) h1)
  have h1' := abs_le.mp h1
  have d1 : |R.rn (vr - vl) - (r - l)| ≤ 18 / 10 * (uu * M) := by rw [abs_le]; constructor <;> linarith [r1.1, r1.2, er.1, er.2, el.1, el.2]
  have d2 : |r - l| ≤ 316 / 1000 * M := by rw [abs_le]; constructor <;> linarith [hr.1, hr.2, hl.1, hl.2]
  have t0 : 0 < τ := by linarith
  have t1 := abs_le.mp (rnb R (x := τ) (M := τ) (tiny_le.trans (by norm_num; linarith)) (by rw [abs_of_pos t0]))
  have t2 : uu * τ ≤ 1 / 10 ^ 15 * τ := mul_le_mul_of_nonneg_right hul t0.le
  norm_num at t2
  generalize hq : R.rn τ = q at *
  have q0 : 36 / 100 ≤ q := by linarith [t1.1]
  have qp : 0 < q := by linarith
  have e1 : R.rn (vr - vl) / q - (r - l) / τ = (R.rn (vr - vl) - (r - l)) / q + (r - l) * (τ - q) / (q * τ) := by field_simp; ring
  have k1 : |(R.rn (vr - vl) - (r - l)) / q| ≤ 5 * (uu * M) := by
    rw [abs_div, abs_of_pos qp, div_le_iff₀ qp]
    have : 5 * (uu * M) * (36 / 100) ≤ 5 * (uu * M) * q := mul_le_mul_of_nonneg_left q0 (by positivity)
    linarith
  have k2 : |(r - l) * (τ - q) / (q * τ)| ≤ 9 / 10 * (uu * M) := by
    have hd : |τ - q| ≤ 1001 / 1000 * uu * τ := by rw [abs_le]; constructor <;> linarith [t1.1, t1.2]
    rw [abs_div, abs_mul, abs_of_pos (by positivity : 0 < q * τ), div_le_iff₀ (by positivity)]
    have a1 : |r - l| * |τ - q| ≤ 316 / 1000 * M * (1001 / 1000 * uu * τ) := mul_le_mul d2 hd (abs_nonneg _) (by positivity)
    have a2 : 9 / 10 * (uu * M) * (36 / 100 * τ) ≤ 9 / 10 * (uu * M) * (q * τ) :=
      mul_le_mul_of_nonneg_left (mul_le_mul_of_nonneg_right q0 t0.le) (by positivity)
    have a3 : 0 ≤ uu * M * τ := by positivity
    nlinarith
  have k : |R.rn (vr - vl) / q - (r - l) / τ| ≤ 59 / 10 * (uu * M) := by
    rw [e1]; exact (abs_add_le _ _).trans (by linarith)
  have k3 : |(r - l) / τ| ≤ 86 / 100 * M := by
    rw [abs_div, abs_of_pos t0, div_le_iff₀ t0]
    have : 86 / 100 * M * (37 / 100) ≤ 86 / 100 * M * τ := mul_le_mul_of_nonneg_left hτ (by positivity)
    linarith
  rw [abs_le] at k k3
  have k4 : |R.rn (vr - vl) / q| ≤ 9 / 10 * M := by rw [abs_le]; constructor <;> linarith [k.1, k.2, k3.1, k3.2]
  have r2 := abs_le.mp (rnb R (tiny_scale hM (by norm_num)) k4)
  rw [abs_le]
  constructor <;> linarith [r2.1, r2.2, k.1, k.2]

end F64
end Drift
