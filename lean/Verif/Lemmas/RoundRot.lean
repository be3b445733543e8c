import Verif.Lemmas.Double
import Verif.Lemmas.SO3
import Verif.Model.Rounded
import Mathlib.Analysis.SpecialFunctions.Trigonometric.Basic
import Mathlib.Algebra.Order.Archimedean.Basic

/-!
# Rounding errors of the computed rotations
-/
namespace Drift
namespace F64
open Matrix

/-- half a unit in the last place of 1 -/
noncomputable def uu : ℝ := 1 / 2 ^ 53

theorem uu_pos : 0 < uu := by unfold uu; positivity
theorem uu_le : uu ≤ 1 / 10 ^ 15 := by unfold uu; norm_num

theorem rn_rel (R : Round) (x : ℝ) : |R.rn x - x| ≤ uu * |x| + (2 : ℝ) ^ (-1075 : ℤ) := by
  have hη : (0 : ℝ) < (2 : ℝ) ^ (-1075 : ℤ) := zpow_pos' _
  rcases eq_or_ne x 0 with rfl | hx
  · rw [rn_of_F R IsF.zero]; simp
  obtain ⟨n, h1, h2⟩ := exists_mem_Ico_zpow (x := |x|) (y := 2) (abs_pos.mpr hx) (by norm_num)
  rw [abs_sub_comm]
  have p := fun a b : ℤ => (zpow_add₀ (two_ne_zero (α := ℝ)) a b)
  rcases le_or_gt (-1022) n with h | h
  · have h3 := rn_err R (x := x) (e := n - 52) (by omega) (by
      refine h2.le.trans (le_of_eq ?_)
      rw [show (n + 1 : ℤ) = 53 + (n - 52) by ring, p]; norm_num)
    refine h3.trans ?_
    have h4 : (2 : ℝ) ^ (n - 52) / 2 = uu * (2 : ℝ) ^ n := by
      rw [show (n - 52 : ℤ) = n + (-52) by ring, p]; unfold uu; norm_num; ring
    rw [h4]
    have := mul_le_mul_of_nonneg_left h1 uu_pos.le
    linarith
  · have h3 := rn_err R (x := x) (e := -1074) (by omega) (by
      refine h2.le.trans ?_
      calc (2 : ℝ) ^ (n + 1) ≤ (2 : ℝ) ^ (-1021 : ℤ) := zpow_le_zpow_right₀ (by norm_num) (by omega)
        _ = 2 ^ 53 * (2 : ℝ) ^ (-1074 : ℤ) := by rw [show (-1021 : ℤ) = 53 + (-1074) by ring, p]; norm_num)
    have h4 : (2 : ℝ) ^ (-1074 : ℤ) / 2 = (2 : ℝ) ^ (-1075 : ℤ) := by
      rw [show (-1074 : ℤ) = 1 + (-1075) by ring, p]; norm_num
    rw [h4] at h3
    have : 0 ≤ uu * |x| := mul_nonneg uu_pos.le (abs_nonneg _)
    linarith

/-- the smallest scale that matters -/
noncomputable def tiny : ℝ := 1 / 2 ^ 300
theorem tiny_le : tiny ≤ 1 / 10 ^ 80 := by
  unfold tiny
  apply one_div_le_one_div_of_le (by positivity)
  calc (10 : ℝ) ^ 80 ≤ (2 ^ 3) ^ 100 * 1 := by norm_num
    _ = 2 ^ 300 := by rw [mul_one, ← pow_mul]
theorem tiny_pos : 0 < tiny := by unfold tiny; positivity

theorem eta_le : (2 : ℝ) ^ (-1075 : ℤ) ≤ uu * tiny / 1000 := by
  unfold uu tiny
  have e : (2 : ℝ) ^ (-1075 : ℤ) = 1 / (2 ^ 53 * 2 ^ 300 * 2 ^ 722) := by
    rw [← pow_add, ← pow_add, one_div, ← zpow_natCast, ← _root_.zpow_neg]; rfl
  rw [e, show (1 : ℝ) / 2 ^ 53 * (1 / 2 ^ 300) / 1000 = 1 / (2 ^ 53 * 2 ^ 300 * 1000) by rw [div_mul_div_comm, div_div, one_mul]]
  apply one_div_le_one_div_of_le (by positivity)
  apply mul_le_mul_of_nonneg_left _ (by positivity)
  calc (1000 : ℝ) ≤ 2 ^ 10 := by norm_num
    _ ≤ 2 ^ 722 := pow_le_pow_right₀ (by norm_num) (by norm_num)

/-- the error of rounding a number of known size -/
theorem rnb (R : Round) {x M : ℝ} (hM : tiny ≤ M) (hx : |x| ≤ M) : |R.rn x - x| ≤ 1001 / 1000 * uu * M := by
  have h1 := rn_rel R x
  have h2 := eta_le
  have h3 : uu * |x| ≤ uu * M := mul_le_mul_of_nonneg_left hx uu_pos.le
  have h4 : uu * tiny ≤ uu * M := mul_le_mul_of_nonneg_left hM uu_pos.le
  linarith

theorem rnb' (R : Round) {x M : ℝ} (hM : tiny ≤ M) (hx : |x| ≤ M) : |R.rn x| ≤ 1001 / 1000 * M := by
  have h1 := rnb R hM hx
  have h2 : uu * M ≤ 1 / 10 ^ 15 * M := mul_le_mul_of_nonneg_right uu_le (tiny_pos.le.trans hM)
  have h3 := abs_sub_abs_le_abs_sub (R.rn x) x
  have h4 : 0 ≤ M := tiny_pos.le.trans hM
  norm_num at h2
  linarith

theorem sum3_err (R : Round) (r : Bool) {a b c M : ℝ} (hM : tiny ≤ M) (ha : |a| ≤ M) (hb : |b| ≤ M) (hc : |c| ≤ M) :
    |sum3 R r a b c - (a + b + c)| ≤ 6 * uu * M := by
  have h0 : 0 ≤ M := tiny_pos.le.trans hM
  have key : ∀ {a b c : ℝ}, |a| ≤ M → |b| ≤ M → |c| ≤ M → |R.rn (R.rn (a + b) + c) - (a + b + c)| ≤ 6 * uu * M := by
    intro a b c ha hb hc
    rw [abs_le] at ha hb hc
    have h1 : |a + b| ≤ 2 * M := by rw [abs_le]; constructor <;> linarith [ha.1, ha.2, hb.1, hb.2]
    have h2 := rnb R (by linarith) h1
    have h3 := abs_le.mp (rnb' R (by linarith) h1)
    have h4 : |R.rn (a + b) + c| ≤ 31 / 10 * M := by rw [abs_le]; constructor <;> linarith [hc.1, hc.2, h3.1, h3.2]
    have h5 := rnb R (by linarith) h4
    have h6 : 0 ≤ uu * M := mul_nonneg uu_pos.le h0
    rw [abs_le] at h2 h5 ⊢
    constructor <;> linarith [h2.1, h2.2, h5.1, h5.2]
  unfold sum3
  split
  · have := key hb hc ha
    rwa [add_comm _ a, show b + c + a = a + b + c by ring] at this
  · exact key ha hb hc

theorem dot_err (F : Fpu) {A B : M3} {i j : Fin 3} {M : ℝ} (hM : tiny ≤ M) (h : ∀ k, |A i k * B k j| ≤ M) :
    |mulM F A B i j - (A * B) i j| ≤ 10 * uu * M := by
  have h0 : 0 ≤ M := tiny_pos.le.trans hM
  have h6 : 0 ≤ uu * M := mul_nonneg uu_pos.le h0
  have e := fun k => abs_le.mp (rnb F.toRound hM (h k))
  have b := fun k => rnb' F.toRound hM (h k)
  have s := abs_le.mp (sum3_err F.toRound F.mulRight (M := 1001 / 1000 * M) (by linarith) (b 0) (b 1) (b 2))
  rw [Matrix.mul_apply, Fin.sum_univ_three]
  unfold mulM
  rw [abs_le]
  constructor <;> linarith [(e 0).1, (e 0).2, (e 1).1, (e 1).2, (e 2).1, (e 2).2, s.1, s.2]

theorem nsq_nonneg' (x : V3) : 0 ≤ nsq x := by unfold nsq; positivity

theorem sq_le_nsq (x : V3) (i : Fin 3) : x i * x i ≤ nsq x := by
  unfold nsq; fin_cases i <;> simp <;> nlinarith [sq_nonneg (x 0), sq_nonneg (x 1), sq_nonneg (x 2)]

/-- the computed norm -/
theorem norm_err (F : Fpu) {w : V3} (h : ¬ norm3 F w < F.rn TOLERANCE) :
    1 / 10 ^ 11 ≤ norm3 F w ∧ |nsq w - norm3 F w * norm3 F w| ≤ 13 * uu * (norm3 F w * norm3 F w) := by
  have hu := uu_pos
  have hu' := uu_le
  have ht : tiny ≤ 1 / 10 ^ 80 := tiny_le
  have ht0 := tiny_pos
  -- the threshold
  have h1 : (9 / 10 ^ 11 : ℝ) ≤ F.rn TOLERANCE := by
    have e : |TOLERANCE| ≤ 1 / 10 ^ 10 := by unfold TOLERANCE; norm_num
    have := (abs_le.mp (rnb F.toRound (M := 1 / 10 ^ 10) (by linarith [show (1 : ℝ) / 10 ^ 80 ≤ 1 / 10 ^ 10 by norm_num]) e)).1
    have e2 : TOLERANCE = 1 / 10 ^ 10 := by unfold TOLERANCE; norm_num
    rw [e2] at this ⊢
    norm_num at this hu' ⊢
    linarith
  have h2 := h1.trans (not_lt.mp h)
  -- the sum of squares
  have hdot : ∀ M, tiny ≤ M → nsq w ≤ M →
      |sum3 F.toRound F.normRight (F.rn (w 0 * w 0)) (F.rn (w 1 * w 1)) (F.rn (w 2 * w 2)) - nsq w| ≤ 10 * uu * M := by
    intro M hM hw
    have hb : ∀ k, |w k * w k| ≤ M := fun k => by
      rw [abs_of_nonneg (mul_self_nonneg _)]; exact (sq_le_nsq w k).trans hw
    have h6 : 0 ≤ uu * M := mul_nonneg uu_pos.le (ht0.le.trans hM)
    have e := fun k => abs_le.mp (rnb F.toRound hM (hb k))
    have b := fun k => rnb' F.toRound hM (hb k)
    have s := abs_le.mp (sum3_err F.toRound F.normRight (M := 1001 / 1000 * M) (by linarith) (b 0) (b 1) (b 2))
    have en : nsq w = w 0 * w 0 + w 1 * w 1 + w 2 * w 2 := by unfold nsq; ring
    rw [en, abs_le]
    constructor <;> linarith [(e 0).1, (e 0).2, (e 1).1, (e 1).2, (e 2).1, (e 2).2, s.1, s.2]
  unfold norm3 at h2 ⊢
  generalize sum3 F.toRound F.normRight (F.rn (w 0 * w 0)) (F.rn (w 1 * w 1)) (F.rn (w 2 * w 2)) = N' at *
  -- the root is not small
  have h3 : (8 / 10 ^ 11 : ℝ) ≤ Real.sqrt N' := by
    by_contra hc
    push Not at hc
    have := (abs_le.mp (rnb' F.toRound (x := Real.sqrt N') (M := 8 / 10 ^ 11) (by linarith [show (1 : ℝ) / 10 ^ 80 ≤ 8 / 10 ^ 11 by norm_num])
      (by rw [abs_of_nonneg (Real.sqrt_nonneg _)]; exact hc.le))).2
    norm_num at this h2
    linarith
  have hN0 : 0 < N' := by
    by_contra hc
    rw [Real.sqrt_eq_zero_of_nonpos (not_lt.mp hc)] at h3
    norm_num at h3
  have hq : Real.sqrt N' * Real.sqrt N' = N' := Real.mul_self_sqrt hN0.le
  have h4 : (64 / 10 ^ 22 : ℝ) ≤ N' := by
    rw [← hq]
    calc (64 / 10 ^ 22 : ℝ) = (8 / 10 ^ 11) * (8 / 10 ^ 11) := by norm_num
      _ ≤ _ := mul_le_mul h3 h3 (by norm_num) (Real.sqrt_nonneg _)
  have hN : tiny ≤ nsq w := by
    by_contra hc
    push Not at hc
    have := (abs_le.mp (hdot tiny le_rfl hc.le)).2
    have h5 : 10 * uu * tiny ≤ tiny := by nlinarith
    have : N' ≤ 2 * tiny := by linarith
    have : (64 / 10 ^ 22 : ℝ) ≤ 2 * (1 / 10 ^ 80) := by linarith
    norm_num at this
  have h5 := abs_le.mp (hdot _ hN le_rfl)
  generalize hr : Real.sqrt N' = r at *
  have hr0 : 0 < r := by linarith [show (0 : ℝ) < 8 / 10 ^ 11 by norm_num]
  have h6 := abs_le.mp (rnb F.toRound (x := r) (M := r) (by linarith [show (1 : ℝ) / 10 ^ 80 ≤ 8 / 10 ^ 11 by norm_num])
    (by rw [abs_of_pos hr0]))
  have h0 := nsq_nonneg' w
  generalize nsq w = N at *
  generalize F.rn r = t at *
  have ht1 : t ≤ r * (1 + 1001 / 1000 * uu) := by linarith [h6.2]
  have ht2 : r * (1 - 1001 / 1000 * uu) ≤ t := by linarith [h6.1]
  have ht3 : (1 : ℝ) / 10 ^ 11 ≤ t := by norm_num at h2 ⊢; linarith
  have ht4 : 0 < t := by linarith [show (0 : ℝ) < 1 / 10 ^ 11 by norm_num]
  have hb : 1 + 1001 / 1000 * uu ≤ 1001 / 1000 := by norm_num at hu'; linarith
  have hb' : 0 ≤ 1 - 1001 / 1000 * uu := by norm_num at hu'; linarith
  have q1 : t * t ≤ N' * (1 + 1001 / 1000 * uu) ^ 2 := by
    rw [← hq]; calc t * t ≤ (r * (1 + 1001 / 1000 * uu)) * (r * (1 + 1001 / 1000 * uu)) := by gcongr
      _ = _ := by ring
  have q2 : N' * (1 - 1001 / 1000 * uu) ^ 2 ≤ t * t := by
    rw [← hq]; calc r * r * (1 - 1001 / 1000 * uu) ^ 2 = (r * (1 - 1001 / 1000 * uu)) * (r * (1 - 1001 / 1000 * uu)) := by ring
      _ ≤ _ := by gcongr
  have q3 : (1 + 1001 / 1000 * uu) ^ 2 ≤ 1 + 2003 / 1000 * uu := by norm_num at hu'; nlinarith
  have q4 : 1 - 2003 / 1000 * uu ≤ (1 - 1001 / 1000 * uu) ^ 2 := by nlinarith
  have q5 : t * t ≤ N' * (1 + 2003 / 1000 * uu) := q1.trans (mul_le_mul_of_nonneg_left q3 hN0.le)
  have q6 : N' * (1 - 2003 / 1000 * uu) ≤ t * t := (mul_le_mul_of_nonneg_left q4 hN0.le).trans q2
  have m1 : uu * N' ≤ 1 / 10 ^ 15 * N' := mul_le_mul_of_nonneg_right hu' hN0.le
  have m2 : uu * N ≤ 1 / 10 ^ 15 * N := mul_le_mul_of_nonneg_right hu' h0
  norm_num at m1 m2
  have q7 : uu * N' ≤ uu * (1001 / 1000 * (t * t)) := mul_le_mul_of_nonneg_left (by linarith) hu.le
  have q8 : uu * N ≤ uu * (1001 / 1000 * N') := mul_le_mul_of_nonneg_left (by linarith [h5.1, h5.2]) hu.le
  refine ⟨ht3, ?_⟩
  have q9 : 0 ≤ uu * (t * t) := by positivity
  rw [abs_le]
  constructor <;> linarith [h5.1, h5.2]

/-- sine and cosine of the C library are accurate -/
def Fpu.Accurate (F : Fpu) : Prop := ∀ x, |F.sin x - Real.sin x| ≤ 1 / 2 ^ 52 ∧ |F.cos x - Real.cos x| ≤ 1 / 2 ^ 52

/-- the coefficient of `A` -/
theorem sin_coef (F : Fpu) (hF : F.Accurate) {t : ℝ} (h1 : 1 / 10 ^ 11 ≤ t) (h2 : t * t ≤ 2 ^ 203) :
    |F.rn (F.sin t / t) * t - Real.sin t| ≤ 4 * uu := by
  have hu := uu_pos
  have hu' := uu_le
  have ht : 0 < t := by linarith [show (0 : ℝ) < 1 / 10 ^ 11 by norm_num]
  have hS := abs_le.mp (hF t).1
  have e2 : (1 : ℝ) / 2 ^ 52 = 2 * uu := by unfold uu; norm_num
  rw [e2] at hS
  norm_num at hu'
  have hS1 : |F.sin t| ≤ 101 / 100 := by
    rw [abs_le]; constructor <;> linarith [hS.1, hS.2, Real.sin_le_one t, Real.neg_one_le_sin t]
  have hT : tiny ≤ 101 / 100 / t := by
    rw [le_div_iff₀ ht]
    have : t ≤ 2 ^ 102 := by
      by_contra hc; push Not at hc
      have : (2 : ℝ) ^ 102 * 2 ^ 102 < t * t := mul_lt_mul'' hc hc (by positivity) (by positivity)
      have e : (2 : ℝ) ^ 203 ≤ 2 ^ 102 * 2 ^ 102 := by norm_num
      linarith
    calc tiny * t ≤ 1 / 10 ^ 80 * 2 ^ 102 := mul_le_mul tiny_le this ht.le (by positivity)
      _ ≤ _ := by norm_num
  have hx : |F.sin t / t| ≤ 101 / 100 / t := by
    rw [abs_div, abs_of_pos ht]; exact div_le_div_of_nonneg_right hS1 ht.le
  have h3 := rnb F.toRound hT hx
  have h4 : |F.rn (F.sin t / t) * t - F.sin t| ≤ 1001 / 1000 * uu * (101 / 100) := by
    have e : F.rn (F.sin t / t) * t - F.sin t = (F.rn (F.sin t / t) - F.sin t / t) * t := by field_simp
    rw [e, abs_mul, abs_of_pos ht]
    calc _ ≤ 1001 / 1000 * uu * (101 / 100 / t) * t := mul_le_mul_of_nonneg_right h3 ht.le
      _ = _ := by field_simp
  rw [abs_le] at h4 ⊢
  constructor <;> linarith [h4.1, h4.2, hS.1, hS.2]

/-- the coefficient of `A * A` -/
theorem cos_coef (F : Fpu) (hF : F.Accurate) {t : ℝ} (h1 : 1 / 10 ^ 11 ≤ t) (h2 : t * t ≤ 2 ^ 203) :
    |F.rn (F.rn (1 - F.cos t) / F.rn (t * t)) * (t * t) - (1 - Real.cos t)| ≤ 9 * uu := by
  have hu := uu_pos
  have hu' := uu_le
  have ht : 0 < t := by linarith [show (0 : ℝ) < 1 / 10 ^ 11 by norm_num]
  have htt : 0 < t * t := by positivity
  have hC := abs_le.mp (hF t).2
  have e2 : (1 : ℝ) / 2 ^ 52 = 2 * uu := by unfold uu; norm_num
  rw [e2] at hC
  norm_num at hu'
  have tl := tiny_le
  have hC1 : |1 - F.cos t| ≤ 201 / 100 := by
    rw [abs_le]; constructor <;> linarith [hC.1, hC.2, Real.cos_le_one t, Real.neg_one_le_cos t]
  have hD := abs_le.mp (rnb F.toRound (by linarith [show (1 : ℝ) / 10 ^ 80 ≤ 201 / 100 by norm_num]) hC1)
  have hD' : |F.rn (1 - F.cos t)| ≤ 21 / 10 := by
    rw [abs_le] at hC1 ⊢; constructor <;> linarith [hD.1, hD.2, hC1.1, hC1.2]
  have hTt : tiny ≤ t * t := by
    have : (1 / 10 ^ 11 : ℝ) * (1 / 10 ^ 11) ≤ t * t := mul_le_mul h1 h1 (by positivity) ht.le
    have e : (1 : ℝ) / 10 ^ 80 ≤ (1 / 10 ^ 11 : ℝ) * (1 / 10 ^ 11) := by norm_num
    linarith
  have hT := abs_le.mp (rnb F.toRound hTt (le_of_eq (abs_of_pos htt)))
  generalize F.rn (1 - F.cos t) = D at *
  generalize hq : t * t = q at *
  generalize F.rn q = T at *
  have m1 : uu * q ≤ 1 / 10 ^ 15 * q := mul_le_mul_of_nonneg_right (by norm_num; exact hu') htt.le
  norm_num at m1
  have hT0 : 99 / 100 * q ≤ T := by linarith [hT.1]
  have hTp : 0 < T := by linarith
  have hx : |D / T| ≤ 22 / 10 / q := by
    rw [abs_div, abs_of_pos hTp, div_le_div_iff₀ hTp htt]
    calc |D| * q ≤ 21 / 10 * q := mul_le_mul_of_nonneg_right hD' htt.le
      _ ≤ 22 / 10 * T := by linarith
  have hM : tiny ≤ 22 / 10 / q := by
    rw [le_div_iff₀ htt]
    calc tiny * q ≤ 1 / 10 ^ 80 * 2 ^ 203 := mul_le_mul tl h2 htt.le (by positivity)
      _ ≤ _ := by norm_num
  have h3 := rnb F.toRound hM hx
  have h4 : |(F.rn (D / T) - D / T) * q| ≤ 1001 / 1000 * uu * (22 / 10) := by
    rw [abs_mul, abs_of_pos htt]
    calc _ ≤ 1001 / 1000 * uu * (22 / 10 / q) * q := mul_le_mul_of_nonneg_right h3 htt.le
      _ = _ := by field_simp
  have h5 : |D / T * q - D| ≤ 22 / 10 * (1001 / 1000 * uu) := by
    have e : D / T * q - D = D / T * (q - T) := by field_simp
    rw [e, abs_mul]
    have : |q - T| ≤ 1001 / 1000 * uu * q := by rw [abs_le]; constructor <;> linarith [hT.1, hT.2]
    calc _ ≤ 22 / 10 / q * (1001 / 1000 * uu * q) := mul_le_mul hx this (abs_nonneg _) (by positivity)
      _ = _ := by field_simp
  rw [sub_mul] at h4
  rw [abs_le] at h4 h5 ⊢
  constructor <;> linarith [h4.1, h4.2, h5.1, h5.2, hC.1, hC.2, hD.1, hD.2]

/-- the exact matrix with given coefficients almost preserves lengths -/
def nearB (w : V3) (s c : ℝ) : M3 := 1 + s • skew w + c • (skew w * skew w)

theorem nsq_skew (w x : V3) : nsq (skew w *ᵥ x) ≤ nsq w * nsq x := by
  have e : nsq w * nsq x - nsq (skew w *ᵥ x) = (w 0 * x 0 + w 1 * x 1 + w 2 * x 2) ^ 2 := by
    simp [nsq, skew, Matrix.mulVec, dotProduct, Fin.sum_univ_three]; ring
  nlinarith [sq_nonneg (w 0 * x 0 + w 1 * x 1 + w 2 * x 2)]

theorem nsq_nearB (w : V3) (s c : ℝ) (x : V3) :
    nsq (nearB w s c *ᵥ x) = nsq x - (2 * c - s ^ 2 - c ^ 2 * nsq w) * nsq (skew w *ᵥ x) := by
  simp [nearB, nsq, skew, Matrix.mulVec, dotProduct, Fin.sum_univ_three, Matrix.mul_apply, Matrix.add_apply, Matrix.smul_apply, Matrix.one_apply]
  ring

theorem nearB_len {w : V3} {s c t : ℝ} (ht : 0 < t) (hN : |nsq w - t * t| ≤ 13 * uu * (t * t)) (hs : |s * t - Real.sin t| ≤ 4 * uu)
    (hc : |c * (t * t) - (1 - Real.cos t)| ≤ 9 * uu) (x : V3) : |nsq (nearB w s c *ᵥ x) - nsq x| ≤ 90 * uu * nsq x := by
  have hu := uu_pos
  have hu' := uu_le
  norm_num at hu'
  have hx := nsq_nonneg' x
  have hq : 0 < t * t := by positivity
  obtain ⟨ρ, hρ⟩ : ∃ ρ, nsq w = ρ * (t * t) := ⟨nsq w / (t * t), by field_simp⟩
  have hρ1 : |ρ - 1| ≤ 13 * uu := by
    rw [hρ, ← sub_one_mul, abs_mul, abs_of_pos hq] at hN
    exact le_of_mul_le_mul_right hN hq
  have hρ' := abs_le.mp hρ1
  set σ := s * t with hσ
  set γ := c * (t * t) with hγ
  obtain ⟨a, ha⟩ : ∃ a, a = σ - Real.sin t := ⟨_, rfl⟩
  obtain ⟨b, hb⟩ : ∃ b, b = γ - (1 - Real.cos t) := ⟨_, rfl⟩
  rw [← ha] at hs
  rw [← hb] at hc
  have hs' := abs_le.mp hs
  have hc' := abs_le.mp hc
  have e1 : (2 * c - s ^ 2 - c ^ 2 * nsq w) * (t * t) = (2 * γ - γ ^ 2 - σ ^ 2) - γ ^ 2 * (ρ - 1) := by
    rw [hρ, hσ, hγ]; ring
  have e2 : 2 * γ - γ ^ 2 - σ ^ 2 = 2 * Real.cos t * b - b ^ 2 - 2 * Real.sin t * a - a ^ 2 := by
    have h1 : γ = b + (1 - Real.cos t) := by rw [hb]; ring
    have h2 : σ = a + Real.sin t := by rw [ha]; ring
    rw [h1, h2]; linear_combination (-1) * Real.sin_sq_add_cos_sq t
  have hcos := abs_le.mp (Real.abs_cos_le_one t)
  have hsin := abs_le.mp (Real.abs_sin_le_one t)
  have p1 : |2 * Real.cos t * b| ≤ 18 * uu := by
    rw [abs_mul, abs_mul]
    have := mul_le_mul (Real.abs_cos_le_one t) hc (abs_nonneg _) (by norm_num)
    norm_num; linarith
  have p2 : |2 * Real.sin t * a| ≤ 8 * uu := by
    rw [abs_mul, abs_mul]
    have := mul_le_mul (Real.abs_sin_le_one t) hs (abs_nonneg _) (by norm_num)
    norm_num; linarith
  have uu2 : uu * uu ≤ 1 / 1000000 * uu := mul_le_mul_of_nonneg_right (by linarith) hu.le
  have p3 : b ^ 2 ≤ uu := by
    have : |b| ^ 2 ≤ (9 * uu) ^ 2 := pow_le_pow_left₀ (abs_nonneg _) hc 2
    rw [sq_abs] at this; nlinarith
  have p4 : a ^ 2 ≤ uu := by
    have : |a| ^ 2 ≤ (4 * uu) ^ 2 := pow_le_pow_left₀ (abs_nonneg _) hs 2
    rw [sq_abs] at this; nlinarith
  have hγ1 : |γ| ≤ 201 / 100 := by
    rw [abs_le]; constructor <;> linarith [hb, hc'.1, hc'.2, hcos.1, hcos.2]
  have p5 : |γ ^ 2 * (ρ - 1)| ≤ 55 * uu := by
    rw [abs_mul, abs_of_nonneg (sq_nonneg _), ← sq_abs]
    calc |γ| ^ 2 * |ρ - 1| ≤ (201 / 100) ^ 2 * (13 * uu) := by gcongr
      _ ≤ _ := by linarith
  have p6 : |(2 * c - s ^ 2 - c ^ 2 * nsq w) * (t * t)| ≤ 84 * uu := by
    rw [e1, e2]
    rw [abs_le] at p1 p2 p5 ⊢
    constructor <;> linarith [p1.1, p1.2, p2.1, p2.2, p5.1, p5.2, sq_nonneg a, sq_nonneg b]
  rw [nsq_nearB, sub_sub_cancel_left, abs_neg, abs_mul, abs_of_nonneg (nsq_nonneg' (skew w *ᵥ x))]
  have h7 : nsq (skew w *ᵥ x) ≤ 101 / 100 * (t * t) * nsq x := by
    refine (nsq_skew w x).trans (mul_le_mul_of_nonneg_right ?_ hx)
    rw [hρ]; exact mul_le_mul_of_nonneg_right (by linarith [hρ'.2]) hq.le
  rw [abs_mul, abs_of_pos hq] at p6
  calc |2 * c - s ^ 2 - c ^ 2 * nsq w| * nsq (skew w *ᵥ x) ≤ |2 * c - s ^ 2 - c ^ 2 * nsq w| * (101 / 100 * (t * t) * nsq x) :=
        mul_le_mul_of_nonneg_left h7 (abs_nonneg _)
    _ = (|2 * c - s ^ 2 - c ^ 2 * nsq w| * (t * t)) * (101 / 100 * nsq x) := by ring
    _ ≤ 84 * uu * (101 / 100 * nsq x) := mul_le_mul_of_nonneg_right p6 (by positivity)
    _ ≤ 90 * uu * nsq x := by nlinarith [mul_nonneg hu.le hx]

/-- `G` is, up to rounding errors, a matrix that preserves lengths -/
def NearRot (G : M3) : Prop :=
  ∃ B : M3, (∀ x, |nsq (B *ᵥ x) - nsq x| ≤ 90 * uu * nsq x) ∧ ∀ i j, |G i j - B i j| ≤ 40 * uu

theorem NearRot.one : NearRot 1 :=
  ⟨1, fun x => by rw [Matrix.one_mulVec, sub_self, abs_zero]; exact mul_nonneg (by linarith [uu_pos]) (nsq_nonneg' x),
    fun i j => by rw [sub_self, abs_zero]; linarith [uu_pos]⟩

theorem skew_entry_le {w : V3} {a : ℝ} (ha : 0 ≤ a) (h : nsq w ≤ a * a) (i j : Fin 3) : |skew w i j| ≤ a := by
  have key : ∀ k, |w k| ≤ a := fun k => abs_le_of_sq_le_sq (by nlinarith [sq_le_nsq w k]) ha
  fin_cases i <;> fin_cases j <;> simp [skew, key, ha]

/-- what the two ways of computing a rotation have in common -/
theorem near_core_entry (F : Fpu) {w : V3} {s c t : ℝ} (h1 : 1 / 10 ^ 11 ≤ t)
    (hN : |nsq w - t * t| ≤ 13 * uu * (t * t)) (hs : |s * t - Real.sin t| ≤ 4 * uu)
    (hc : |c * (t * t) - (1 - Real.cos t)| ≤ 9 * uu) {P : M3}
    (hP : (∀ i j, |skew w i j| ≤ 1001 / 1000 * t) → |c| * (t * t) ≤ 201 / 100 → ∀ i j, |P i j - c * (skew w * skew w) i j| ≤ 27 * uu) (i j : Fin 3) :
    |addM F.toRound (addM F.toRound 1 (smulM F.toRound s (skew w))) P i j - nearB w s c i j| ≤ 40 * uu := by
  have hu := uu_pos
  have hu' := uu_le
  have ht : 0 < t := by linarith [show (0 : ℝ) < 1 / 10 ^ 11 by norm_num]
  have htt : 0 < t * t := by positivity
  have tl : ∀ M : ℝ, 1 ≤ M → tiny ≤ M := fun M hM => tiny_le.trans (le_trans (by norm_num) hM)
  norm_num at hu'
  have hA : ∀ i j, |skew w i j| ≤ 1001 / 1000 * t := fun i j => by
    refine skew_entry_le (by positivity) ?_ i j
    have m : uu * (t * t) ≤ 1 / 1000000 * (t * t) := mul_le_mul_of_nonneg_right (by linarith) htt.le
    linarith [(abs_le.mp hN).2]
  have hct : |c| * (t * t) ≤ 201 / 100 := by
    rw [← abs_of_pos htt, ← abs_mul]
    rw [abs_le] at hc ⊢
    constructor <;> linarith [hc.1, hc.2, Real.cos_le_one t, Real.neg_one_le_cos t]
  have hst : |s| * t ≤ 1005 / 1000 := by
    rw [← abs_of_pos ht, ← abs_mul]
    rw [abs_le] at hs ⊢
    constructor <;> linarith [hs.1, hs.2, Real.sin_le_one t, Real.neg_one_le_sin t]
  have hP' := hP hA hct i j
  have q1 : |s * skew w i j| ≤ 101 / 100 := by
    rw [abs_mul]
    calc |s| * |skew w i j| ≤ |s| * (1001 / 1000 * t) := mul_le_mul_of_nonneg_left (hA i j) (abs_nonneg _)
      _ = 1001 / 1000 * (|s| * t) := by ring
      _ ≤ _ := by linarith
  have q2 : |c * (skew w * skew w) i j| ≤ 61 / 10 := by
    rw [abs_mul]
    have key : ∀ k, |skew w i k * skew w k j| ≤ 1001 / 1000 * t * (1001 / 1000 * t) := fun k => by
      rw [abs_mul]; exact mul_le_mul (hA i k) (hA k j) (abs_nonneg _) (by positivity)
    have hsum : |(skew w * skew w) i j| ≤ 3 * (1001 / 1000 * t * (1001 / 1000 * t)) := by
      rw [Matrix.mul_apply]
      refine (Finset.abs_sum_le_sum_abs _ _).trans ?_
      rw [Fin.sum_univ_three]; linarith [key 0, key 1, key 2]
    calc |c| * |(skew w * skew w) i j| ≤ |c| * (3 * (1001 / 1000 * t * (1001 / 1000 * t))) := mul_le_mul_of_nonneg_left hsum (abs_nonneg _)
      _ = 3006003 / 1000000 * (|c| * (t * t)) := by ring
      _ ≤ _ := by linarith
  have o1 : |(1 : M3) i j| ≤ 1 := by
    rw [Matrix.one_apply]; split <;> norm_num
  have r1 := rnb F.toRound (tl _ (by norm_num)) q1
  have e : nearB w s c i j = (1 : M3) i j + s * skew w i j + c * (skew w * skew w) i j := by
    simp [nearB]
  unfold addM smulM
  rw [e]
  generalize s * skew w i j = x at *
  generalize c * (skew w * skew w) i j = y at *
  generalize (1 : M3) i j = o at *
  generalize P i j = p at *
  rw [abs_le] at q1 q2 o1 hP' r1
  have q3 : |o + F.rn x| ≤ 202 / 100 := by rw [abs_le]; constructor <;> linarith [q1.1, q1.2, o1.1, o1.2, r1.1, r1.2]
  have r2 := abs_le.mp (rnb F.toRound (tl _ (by norm_num)) q3)
  rw [abs_le] at q3
  have q4 : |F.rn (o + F.rn x) + p| ≤ 82 / 10 := by
    rw [abs_le]; constructor <;> linarith [q3.1, q3.2, q2.1, q2.2, hP'.1, hP'.2, r2.1, r2.2]
  have r3 := abs_le.mp (rnb F.toRound (tl _ (by norm_num)) q4)
  rw [abs_le]
  constructor <;> linarith [r1.1, r1.2, r2.1, r2.2, r3.1, r3.2, hP'.1, hP'.2]

theorem near_core (F : Fpu) {w : V3} {s c t : ℝ} (h1 : 1 / 10 ^ 11 ≤ t)
    (hN : |nsq w - t * t| ≤ 13 * uu * (t * t)) (hs : |s * t - Real.sin t| ≤ 4 * uu)
    (hc : |c * (t * t) - (1 - Real.cos t)| ≤ 9 * uu) {P : M3}
    (hP : (∀ i j, |skew w i j| ≤ 1001 / 1000 * t) → |c| * (t * t) ≤ 201 / 100 → ∀ i j, |P i j - c * (skew w * skew w) i j| ≤ 27 * uu) :
    NearRot (addM F.toRound (addM F.toRound 1 (smulM F.toRound s (skew w))) P) :=
  ⟨nearB w s c, nearB_len (by linarith [show (0 : ℝ) < 1 / 10 ^ 11 by norm_num]) hN hs hc, near_core_entry F h1 hN hs hc hP⟩

theorem small_scale {t : ℝ} (ht : 0 < t) (h2 : t * t ≤ 2 ^ 203) {k : ℝ} (hk : 1 ≤ k) : tiny ≤ k / t := by
  rw [le_div_iff₀ ht]
  have : t ≤ 2 ^ 102 := by
    by_contra hc; push Not at hc
    have : (2 : ℝ) ^ 102 * 2 ^ 102 < t * t := mul_lt_mul'' hc hc (by positivity) (by positivity)
    have e : (2 : ℝ) ^ 203 ≤ 2 ^ 102 * 2 ^ 102 := by norm_num
    linarith
  calc tiny * t ≤ 1 / 10 ^ 80 * 2 ^ 102 := mul_le_mul tiny_le this ht.le (by positivity)
    _ ≤ 1 := by norm_num
    _ ≤ k := hk

/-- `(c * A) * A` -/
theorem prod1 (F : Fpu) {A : M3} {c t : ℝ} (ht : 0 < t) (h2 : t * t ≤ 2 ^ 203) (hA : ∀ i j, |A i j| ≤ 1001 / 1000 * t)
    (hc : |c| * (t * t) ≤ 201 / 100) (i j : Fin 3) : |mulM F (smulM F.toRound c A) A i j - c * (A * A) i j| ≤ 27 * uu := by
  have hu := uu_pos
  have q1 : ∀ k, |c * A i k| ≤ 2015 / 1000 / t := fun k => by
    rw [le_div_iff₀ ht, abs_mul]
    calc |c| * |A i k| * t ≤ |c| * (1001 / 1000 * t) * t := by gcongr; exact hA i k
      _ = 1001 / 1000 * (|c| * (t * t)) := by ring
      _ ≤ _ := by linarith
  have hM := small_scale ht h2 (k := 2015 / 1000) (by norm_num)
  have r1 := fun k => rnb F.toRound hM (q1 k)
  have r2 := fun k => rnb' F.toRound hM (q1 k)
  have m : ∀ {x b : ℝ} (k : Fin 3), |x| ≤ b / t → |x * A k j| ≤ 1001 / 1000 * b := by
    intro x b k hx
    rw [abs_mul]
    calc |x| * |A k j| ≤ b / t * (1001 / 1000 * t) := mul_le_mul hx (hA k j) (abs_nonneg _) ((abs_nonneg _).trans hx)
      _ = _ := by field_simp
  have r3 : ∀ k, |smulM F.toRound c A i k * A k j| ≤ 203 / 100 := fun k =>
    (m k (b := 1001 / 1000 * (2015 / 1000)) (by rw [mul_div_assoc]; exact r2 k)).trans (by norm_num)
  have d := abs_le.mp (dot_err F (tiny_le.trans (by norm_num)) r3)
  have r4 : ∀ k, |(F.rn (c * A i k) - c * A i k) * A k j| ≤ 2025 / 1000 * uu := fun k =>
    (m k (b := 1001 / 1000 * uu * (2015 / 1000)) (by rw [mul_div_assoc]; exact r1 k)).trans (by nlinarith)
  have e : (smulM F.toRound c A * A) i j - c * (A * A) i j = (F.rn (c * A i 0) - c * A i 0) * A 0 j
      + (F.rn (c * A i 1) - c * A i 1) * A 1 j + (F.rn (c * A i 2) - c * A i 2) * A 2 j := by
    rw [Matrix.mul_apply, Matrix.mul_apply, Fin.sum_univ_three, Fin.sum_univ_three]; unfold smulM; ring
  have p0 := abs_le.mp (r4 0)
  have p1 := abs_le.mp (r4 1)
  have p2 := abs_le.mp (r4 2)
  rw [abs_le]
  constructor <;> linarith [d.1, d.2, p0.1, p0.2, p1.1, p1.2, p2.1, p2.2]

/-- `c * (A * A)` -/
theorem prod2 (F : Fpu) {A : M3} {c t : ℝ} (h1 : 1 / 10 ^ 11 ≤ t) (hA : ∀ i j, |A i j| ≤ 1001 / 1000 * t)
    (hc : |c| * (t * t) ≤ 201 / 100) (i j : Fin 3) : |smulM F.toRound c (mulM F A A) i j - c * (A * A) i j| ≤ 27 * uu := by
  have hu := uu_pos
  have hu' := uu_le
  norm_num at hu'
  have ht : 0 < t := by linarith [show (0 : ℝ) < 1 / 10 ^ 11 by norm_num]
  have htt : 0 < t * t := by positivity
  have hTt : tiny ≤ t * t := by
    have : (1 / 10 ^ 11 : ℝ) * (1 / 10 ^ 11) ≤ t * t := mul_le_mul h1 h1 (by positivity) ht.le
    have e : (1 : ℝ) / 10 ^ 80 ≤ (1 / 10 ^ 11 : ℝ) * (1 / 10 ^ 11) := by norm_num
    linarith [tiny_le]
  have q : ∀ k, |A i k * A k j| ≤ 1003 / 1000 * (t * t) := fun k => by
    rw [abs_mul]
    calc |A i k| * |A k j| ≤ (1001 / 1000 * t) * (1001 / 1000 * t) := mul_le_mul (hA i k) (hA k j) (abs_nonneg _) (by positivity)
      _ ≤ _ := by nlinarith
  have d := dot_err F (by linarith) q
  have s : |(A * A) i j| ≤ 3 * (1003 / 1000 * (t * t)) := by
    rw [Matrix.mul_apply]
    refine (Finset.abs_sum_le_sum_abs _ _).trans ?_
    rw [Fin.sum_univ_three]; linarith [q 0, q 1, q 2]
  unfold smulM
  generalize mulM F A A i j = x at *
  generalize (A * A) i j = y at *
  have g1 : |c * x - c * y| ≤ 202 / 10 * uu := by
    rw [← mul_sub, abs_mul]
    calc |c| * |x - y| ≤ |c| * (10 * uu * (1003 / 1000 * (t * t))) := mul_le_mul_of_nonneg_left d (abs_nonneg _)
      _ = 1003 / 100 * uu * (|c| * (t * t)) := by ring
      _ ≤ 1003 / 100 * uu * (201 / 100) := mul_le_mul_of_nonneg_left hc (by positivity)
      _ ≤ _ := by linarith
  have g2 : |c * y| ≤ 606 / 100 := by
    rw [abs_mul]
    calc |c| * |y| ≤ |c| * (3 * (1003 / 1000 * (t * t))) := mul_le_mul_of_nonneg_left s (abs_nonneg _)
      _ = 3009 / 1000 * (|c| * (t * t)) := by ring
      _ ≤ _ := by linarith
  rw [abs_le] at g1 g2
  have g3 : |c * x| ≤ 61 / 10 := by rw [abs_le]; constructor <;> linarith [g1.1, g1.2, g2.1, g2.2]
  have r := abs_le.mp (rnb F.toRound (tiny_le.trans (by norm_num)) g3)
  rw [abs_le]
  constructor <;> linarith [r.1, r.2, g1.1, g1.2]

theorem range {w : V3} (h : ∀ i, |w i| ≤ 2 ^ 100) {t : ℝ} (hN : |nsq w - t * t| ≤ 13 * uu * (t * t)) : t * t ≤ 2 ^ 203 := by
  have hu' := uu_le
  norm_num at hu'
  have b : nsq w ≤ 3 * 2 ^ 200 := by
    have k : ∀ i, w i ^ 2 ≤ 2 ^ 200 := fun i => by
      rw [← sq_abs]; calc |w i| ^ 2 ≤ (2 ^ 100) ^ 2 := pow_le_pow_left₀ (abs_nonneg _) (h i) 2
        _ = _ := by rw [← pow_mul]
    unfold nsq; linarith [k 0, k 1, k 2]
  have m : uu * (t * t) ≤ 1 / 1000000 * (t * t) := mul_le_mul_of_nonneg_right (by linarith) (mul_self_nonneg t)
  have e : (2 : ℝ) ^ 203 = 8 * 2 ^ 200 := by norm_num
  rw [e]
  have p : (0 : ℝ) < 2 ^ 200 := by positivity
  linarith [(abs_le.mp hN).1]

theorem gamma0_near (F : Fpu) (hF : F.Accurate) {w : V3} (h : ∀ i, |w i| ≤ 2 ^ 100) : NearRot (gamma0 F w) := by
  unfold gamma0
  dsimp only
  by_cases hc : norm3 F w < F.rn TOLERANCE
  · rw [if_pos hc]; exact NearRot.one
  · rw [if_neg hc]
    obtain ⟨h1, hN⟩ := norm_err F hc
    have h2 := range h hN
    exact near_core F h1 hN (sin_coef F hF h1 h2) (cos_coef F hF h1 h2)
      (fun hA hc => prod1 F (by linarith [show (0 : ℝ) < 1 / 10 ^ 11 by norm_num]) h2 hA hc)

theorem expRot_near (F : Fpu) (hF : F.Accurate) {w : V3} (h : ∀ i, |w i| ≤ 2 ^ 100) : NearRot (expRot F w) := by
  unfold expRot
  dsimp only
  by_cases hc : norm3 F w < F.rn TOLERANCE
  · rw [if_pos hc]; exact NearRot.one
  · rw [if_neg hc]
    obtain ⟨h1, hN⟩ := norm_err F hc
    have h2 := range h hN
    exact near_core F h1 hN (sin_coef F hF h1 h2) (cos_coef F hF h1 h2) (fun hA hc => prod2 F h1 hA hc)

/-- `X` preserves squared lengths up to the factor `d` -/
def Keeps (d : ℝ) (X : M3) : Prop := ∀ x, |nsq (X *ᵥ x) - nsq x| ≤ d * nsq x

theorem nsq_add_le (a b : V3) {k : ℝ} (hk : 0 < k) : |nsq (a + b) - nsq a| ≤ k * nsq a + nsq b / k + nsq b := by
  have e : nsq (a + b) - nsq a = 2 * (a 0 * b 0 + a 1 * b 1 + a 2 * b 2) + nsq b := by
    simp [nsq]; ring
  have key : ∀ x y : ℝ, |2 * (x * y)| ≤ k * x ^ 2 + y ^ 2 / k := by
    intro x y
    have h1 : 0 ≤ (k * x - y) ^ 2 / k := by positivity
    have h2 : 0 ≤ (k * x + y) ^ 2 / k := by positivity
    have e1 : (k * x - y) ^ 2 / k = k * x ^ 2 - 2 * (x * y) + y ^ 2 / k := by field_simp; ring
    have e2 : (k * x + y) ^ 2 / k = k * x ^ 2 + 2 * (x * y) + y ^ 2 / k := by field_simp; ring
    rw [abs_le]; constructor <;> linarith
  have h0 := abs_le.mp (key (a 0) (b 0))
  have h1 := abs_le.mp (key (a 1) (b 1))
  have h2 := abs_le.mp (key (a 2) (b 2))
  have hb := nsq_nonneg' b
  have e3 : nsq b / k = b 0 ^ 2 / k + b 1 ^ 2 / k + b 2 ^ 2 / k := by unfold nsq; rw [add_div, add_div]
  rw [e, e3, abs_le]
  unfold nsq at *
  constructor <;> linarith [h0.1, h0.2, h1.1, h1.2, h2.1, h2.2]

theorem nsq_mul_le {E : M3} {e : ℝ} (h : ∀ i j, |E i j| ≤ e) (x : V3) : nsq (E *ᵥ x) ≤ (3 * e) ^ 2 * nsq x := by
  have he : 0 ≤ e := (abs_nonneg _).trans (h 0 0)
  have key : ∀ i, ((E *ᵥ x) i) ^ 2 ≤ 3 * e ^ 2 * nsq x := by
    intro i
    have h1 : |(E *ᵥ x) i| ≤ e * (|x 0| + |x 1| + |x 2|) := by
      simp only [Matrix.mulVec, dotProduct]
      refine (Finset.abs_sum_le_sum_abs _ _).trans ?_
      rw [Fin.sum_univ_three, abs_mul, abs_mul, abs_mul]
      nlinarith [mul_le_mul_of_nonneg_right (h i 0) (abs_nonneg (x 0)), mul_le_mul_of_nonneg_right (h i 1) (abs_nonneg (x 1)),
        mul_le_mul_of_nonneg_right (h i 2) (abs_nonneg (x 2))]
    rw [← sq_abs]
    calc |(E *ᵥ x) i| ^ 2 ≤ (e * (|x 0| + |x 1| + |x 2|)) ^ 2 := pow_le_pow_left₀ (abs_nonneg _) h1 2
      _ = e ^ 2 * (|x 0| + |x 1| + |x 2|) ^ 2 := by ring
      _ ≤ e ^ 2 * (3 * nsq x) := by
        refine mul_le_mul_of_nonneg_left ?_ (sq_nonneg e)
        unfold nsq
        rw [← sq_abs (x 0), ← sq_abs (x 1), ← sq_abs (x 2)]
        nlinarith [sq_nonneg (|x 0| - |x 1|), sq_nonneg (|x 0| - |x 2|), sq_nonneg (|x 1| - |x 2|)]
      _ = _ := by ring
  have := key 0
  have := key 1
  have := key 2
  have e2 : nsq (E *ᵥ x) = (E *ᵥ x) 0 ^ 2 + (E *ᵥ x) 1 ^ 2 + (E *ᵥ x) 2 ^ 2 := rfl
  rw [e2]; linarith

theorem Keeps.entry {d m : ℝ} {X : M3} (h : Keeps d X) (hm : 0 ≤ m) (h2 : 1 + d ≤ m * m) (i j : Fin 3) : |X i j| ≤ m := by
  have h1 := (abs_le.mp (h (Pi.single j 1))).2
  have e : nsq (Pi.single j (1 : ℝ) : V3) = 1 := by fin_cases j <;> simp [nsq, Pi.single_apply]
  rw [e, Matrix.mulVec_single_one] at h1
  have h3 := sq_le_nsq (X.col j) i
  refine abs_le_of_sq_le_sq ?_ hm
  have : X.col j i = X i j := rfl
  rw [this] at h3
  nlinarith

/-- a product, computed with rounding errors, of a matrix that preserves lengths up to `d` and one that is nearly a rotation -/
theorem prod_keeps {d : ℝ} (hd : 0 ≤ d) {C E : M3} (hC : ∀ x, |nsq (C *ᵥ x) - nsq x| ≤ (d + 91 * uu * (1 + d)) * nsq x) {m : ℝ}
    (hm : m * m = 1 + d) (hE : ∀ i j, |E i j| ≤ 131 * uu * m) : Keeps ((1 + d) * (1 + 1 / 2 ^ 43) - 1) (C + E) := by
  intro x
  have hu := uu_pos
  have hu' := uu_le
  norm_num at hu'
  have hx := nsq_nonneg' x
  have e2 : (1 : ℝ) / 2 ^ 43 = 1024 * uu := by unfold uu; norm_num
  rw [Matrix.add_mulVec, e2]
  have h1 := nsq_add_le (C *ᵥ x) (E *ᵥ x) (k := 393 * uu) (by positivity)
  have h2 := nsq_mul_le hE x
  have h3 : nsq (E *ᵥ x) ≤ (393 * uu) * (393 * uu) * ((1 + d) * nsq x) := by
    refine h2.trans (le_of_eq ?_); rw [← hm]; ring
  have h4 : nsq (E *ᵥ x) / (393 * uu) ≤ 393 * uu * ((1 + d) * nsq x) := by
    rw [div_le_iff₀ (by positivity)]; linarith
  set y := (1 + d) * nsq x with hy
  have hy0 : 0 ≤ y := by positivity
  have h5 := abs_le.mp (hC x)
  have h6 : nsq (C *ᵥ x) ≤ 101 / 100 * y := by
    have m1 : uu * y ≤ 1 / 1000000 * y := mul_le_mul_of_nonneg_right (by linarith) hy0
    have : (d + 91 * uu * (1 + d)) * nsq x = d * nsq x + 91 * (uu * y) := by rw [hy]; ring
    have e3 : y = nsq x + d * nsq x := by rw [hy]; ring
    linarith [h5.2]
  have h7 : 393 * uu * nsq (C *ᵥ x) ≤ 397 * (uu * y) := by
    have := mul_le_mul_of_nonneg_left h6 hu.le
    nlinarith [mul_nonneg hu.le hy0]
  have h8 : (393 * uu) * (393 * uu) * y ≤ uu * y := by
    have : 393 * 393 * uu ≤ 1 := by linarith
    nlinarith [mul_le_mul_of_nonneg_right this (mul_nonneg hu.le hy0)]
  have e4 : ((1 + d) * (1 + 1024 * uu) - 1) * nsq x = d * nsq x + 1024 * (uu * y) := by rw [hy]; ring
  have e5 : (d + 91 * uu * (1 + d)) * nsq x = d * nsq x + 91 * (uu * y) := by rw [hy]; ring
  rw [e4]
  rw [e5] at h5
  have h9 := abs_le.mp h1
  have h10 := mul_nonneg hu.le hy0
  rw [abs_le]
  constructor <;> linarith [h5.1, h5.2, h9.1, h9.2]

theorem B_entry {B : M3} (hB : ∀ x, |nsq (B *ᵥ x) - nsq x| ≤ 90 * uu * nsq x) (i j : Fin 3) : |B i j| ≤ 1001 / 1000 := by
  have hu' := uu_le
  norm_num at hu'
  exact Keeps.entry (d := 90 * uu) hB (by norm_num) (by norm_num; linarith) i j

/-- the rounding errors of `X * G` or `G * X` -/
theorem prod_err {x g b : Fin 3 → ℝ} {m : ℝ} (hx : ∀ k, |x k| ≤ m) (hg : ∀ k, |g k - b k| ≤ 40 * uu) (hm : 0 ≤ m) {p : ℝ}
    (hp : |p - (x 0 * g 0 + x 1 * g 1 + x 2 * g 2)| ≤ 10 * uu * (101 / 100 * m)) :
    |p - (x 0 * b 0 + x 1 * b 1 + x 2 * b 2)| ≤ 131 * uu * m := by
  have hu := uu_pos
  have key : ∀ k, |x k * (g k - b k)| ≤ m * (40 * uu) := fun k => by
    rw [abs_mul]; exact mul_le_mul (hx k) (hg k) (abs_nonneg _) hm
  have k0 := abs_le.mp (key 0)
  have k1 := abs_le.mp (key 1)
  have k2 := abs_le.mp (key 2)
  have := mul_nonneg hu.le hm
  rw [abs_le] at hp ⊢
  constructor <;> linarith [k0.1, k0.2, k1.1, k1.2, k2.1, k2.2, hp.1, hp.2]

theorem mul_right_keeps (F : Fpu) {d : ℝ} (hd : 0 ≤ d) {X G : M3} (hX : Keeps d X) (hG : NearRot G) :
    Keeps ((1 + d) * (1 + 1 / 2 ^ 43) - 1) (mulM F X G) := by
  obtain ⟨B, hB, hGB⟩ := hG
  have hu := uu_pos
  have hu' := uu_le
  norm_num at hu'
  obtain ⟨m, hm0, hm⟩ : ∃ m : ℝ, 1 ≤ m ∧ m * m = 1 + d :=
    ⟨Real.sqrt (1 + d), by rw [Real.one_le_sqrt]; linarith, Real.mul_self_sqrt (by linarith)⟩
  have hXe := fun i j => hX.entry (by linarith : 0 ≤ m) hm.ge i j
  have hBe := B_entry hB
  have hGe : ∀ i j, |G i j| ≤ 101 / 100 := fun i j => by
    have h1 := abs_le.mp (hBe i j)
    have h2 := abs_le.mp (hGB i j)
    rw [abs_le]; constructor <;> linarith [h1.1, h1.2, h2.1, h2.2]
  have := prod_keeps hd (C := X * B) (E := mulM F X G - X * B) ?_ hm ?_
  · rwa [add_sub_cancel] at this
  · intro x
    rw [← Matrix.mulVec_mulVec]
    have h1 := abs_le.mp (hX (B *ᵥ x))
    have h2 := abs_le.mp (hB x)
    have hx := nsq_nonneg' x
    have h3 : d * nsq (B *ᵥ x) ≤ d * (nsq x + 90 * uu * nsq x) := mul_le_mul_of_nonneg_left (by linarith [h2.2]) hd
    have h4 : 0 ≤ uu * nsq x := mul_nonneg hu.le hx
    have h5 : 0 ≤ uu * (d * nsq x) := mul_nonneg hu.le (mul_nonneg hd hx)
    rw [abs_le]
    constructor <;> nlinarith [h1.1, h1.2, h2.1, h2.2]
  · intro i j
    rw [Matrix.sub_apply]
    have d1 := dot_err F (A := X) (B := G) (i := i) (j := j) (M := 101 / 100 * m) (tiny_le.trans (by norm_num; linarith)) (fun k => by
      rw [abs_mul]; calc |X i k| * |G k j| ≤ m * (101 / 100) := mul_le_mul (hXe i k) (hGe k j) (abs_nonneg _) (by linarith)
        _ = _ := by ring)
    rw [Matrix.mul_apply, Fin.sum_univ_three] at d1 ⊢
    exact prod_err (x := fun k => X i k) (g := fun k => G k j) (b := fun k => B k j) (hXe i) (fun k => hGB k j) (by linarith) d1

theorem mul_left_keeps (F : Fpu) {d : ℝ} (hd : 0 ≤ d) {X G : M3} (hX : Keeps d X) (hG : NearRot G) :
    Keeps ((1 + d) * (1 + 1 / 2 ^ 43) - 1) (mulM F G X) := by
  obtain ⟨B, hB, hGB⟩ := hG
  have hu := uu_pos
  have hu' := uu_le
  norm_num at hu'
  obtain ⟨m, hm0, hm⟩ : ∃ m : ℝ, 1 ≤ m ∧ m * m = 1 + d :=
    ⟨Real.sqrt (1 + d), by rw [Real.one_le_sqrt]; linarith, Real.mul_self_sqrt (by linarith)⟩
  have hXe := fun i j => hX.entry (by linarith : 0 ≤ m) hm.ge i j
  have hBe := B_entry hB
  have hGe : ∀ i j, |G i j| ≤ 101 / 100 := fun i j => by
    have h1 := abs_le.mp (hBe i j)
    have h2 := abs_le.mp (hGB i j)
    rw [abs_le]; constructor <;> linarith [h1.1, h1.2, h2.1, h2.2]
  have := prod_keeps hd (C := B * X) (E := mulM F G X - B * X) ?_ hm ?_
  · rwa [add_sub_cancel] at this
  · intro x
    rw [← Matrix.mulVec_mulVec]
    have h1 := abs_le.mp (hX x)
    have h2 := abs_le.mp (hB (X *ᵥ x))
    have hx := nsq_nonneg' x
    have h3 : uu * nsq (X *ᵥ x) ≤ uu * ((1 + d) * nsq x) := mul_le_mul_of_nonneg_left (by linarith [h1.2]) hu.le
    have h4 : 0 ≤ uu * ((1 + d) * nsq x) := mul_nonneg hu.le (mul_nonneg (by linarith) hx)
    rw [abs_le]
    constructor <;> nlinarith [h1.1, h1.2, h2.1, h2.2]
  · intro i j
    rw [Matrix.sub_apply]
    have d1 := dot_err F (A := G) (B := X) (i := i) (j := j) (M := 101 / 100 * m) (tiny_le.trans (by norm_num; linarith)) (fun k => by
      rw [abs_mul]; exact mul_le_mul (hGe i k) (hXe k j) (abs_nonneg _) (by norm_num))
    rw [Matrix.mul_apply, Fin.sum_univ_three] at d1 ⊢
    have := prod_err (x := fun k => X k j) (g := fun k => G i k) (b := fun k => B i k) (m := m) (fun k => hXe k j) (fun k => hGB i k) (by linarith)
      (p := mulM F G X i j) (by
        rw [show X 0 j * G i 0 + X 1 j * G i 1 + X 2 j * G i 2 = G i 0 * X 0 j + G i 1 * X 1 j + G i 2 * X 2 j by ring]; exact d1)
    rwa [show X 0 j * B i 0 + X 1 j * B i 1 + X 2 j * B i 2 = B i 0 * X 0 j + B i 1 * X 1 j + B i 2 * X 2 j by ring] at this

end F64
end Drift
