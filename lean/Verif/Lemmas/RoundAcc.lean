import Verif.Lemmas.RoundRot
import Mathlib.Analysis.SpecialFunctions.Trigonometric.Bounds

/-!
# How far the computed rotations are from the exact ones
-/
namespace Drift
namespace F64
open Matrix

theorem nsq_add_sq {a b : V3} {p q : ℝ} (hp : 0 ≤ p) (hq : 0 ≤ q) (ha : nsq a ≤ p ^ 2) (hb : nsq b ≤ q ^ 2) : nsq (a + b) ≤ (p + q) ^ 2 := by
  have e : nsq (a + b) = nsq a + 2 * (a 0 * b 0 + a 1 * b 1 + a 2 * b 2) + nsq b := by simp [nsq]; ring
  have c : (a 0 * b 0 + a 1 * b 1 + a 2 * b 2) ^ 2 ≤ nsq a * nsq b := by
    unfold nsq
    nlinarith [sq_nonneg (a 0 * b 1 - a 1 * b 0), sq_nonneg (a 0 * b 2 - a 2 * b 0), sq_nonneg (a 1 * b 2 - a 2 * b 1)]
  have c2 : (a 0 * b 0 + a 1 * b 1 + a 2 * b 2) ^ 2 ≤ (p * q) ^ 2 := by
    refine c.trans ?_
    rw [mul_pow]
    exact mul_le_mul ha hb (nsq_nonneg' b) (sq_nonneg p)
  have c3 := abs_le_of_sq_le_sq c2 (mul_nonneg hp hq)
  have c4 := (abs_le.mp c3).2
  rw [e]; nlinarith

/-- a threshold from above -/
theorem norm_large (F : Fpu) {w : V3} (h : (39 / 10 ^ 21 : ℝ) ≤ nsq w) : ¬ norm3 F w < F.rn TOLERANCE := by
  have hu := uu_pos
  have hu' := uu_le
  norm_num at hu'
  have ht0 := tiny_pos
  have tl := tiny_le
  have hM : tiny ≤ nsq w := tl.trans (le_trans (by norm_num) h)
  have hb : ∀ k, |w k * w k| ≤ nsq w := fun k => by
    rw [abs_of_nonneg (mul_self_nonneg _)]; exact sq_le_nsq w k
  have h6 : 0 ≤ uu * nsq w := mul_nonneg uu_pos.le (ht0.le.trans hM)
  have e := fun k => abs_le.mp (rnb F.toRound hM (hb k))
  have b := fun k => rnb' F.toRound hM (hb k)
  have s := abs_le.mp (sum3_err F.toRound F.normRight (M := 1001 / 1000 * nsq w) (by linarith) (b 0) (b 1) (b 2))
  have en : nsq w = w 0 * w 0 + w 1 * w 1 + w 2 * w 2 := by unfold nsq; ring
  have m : uu * nsq w ≤ 1 / 1000000 * nsq w := mul_le_mul_of_nonneg_right (by linarith) (by linarith)
  have h1 : (36 / 10 ^ 21 : ℝ) ≤ sum3 F.toRound F.normRight (F.rn (w 0 * w 0)) (F.rn (w 1 * w 1)) (F.rn (w 2 * w 2)) := by
    have : (37 / 10 ^ 21 : ℝ) ≤ 999 / 1000 * nsq w := by norm_num at h ⊢; linarith
    norm_num at this ⊢
    linarith [(e 0).1, (e 1).1, (e 2).1, s.1]
  have h2 : (18 / 10 ^ 11 : ℝ) ≤ Real.sqrt (sum3 F.toRound F.normRight (F.rn (w 0 * w 0)) (F.rn (w 1 * w 1)) (F.rn (w 2 * w 2))) := by
    apply Real.le_sqrt_of_sq_le
    refine le_trans ?_ h1
    norm_num
  have h3 := rn_mono F.toRound (le_trans (show TOLERANCE ≤ (18 / 10 ^ 11 : ℝ) by unfold TOLERANCE; norm_num) h2)
  exact not_lt.mpr h3

theorem root_close {t θ k : ℝ} (ht : 0 ≤ t) (hθ : 0 < θ) (h : |t * t - θ * θ| ≤ k * (θ * θ)) : |t - θ| ≤ k * θ := by
  have e : t * t - θ * θ = (t - θ) * (t + θ) := by ring
  rw [e, abs_mul, abs_of_pos (by linarith : 0 < t + θ)] at h
  have h1 : |t - θ| * θ ≤ |t - θ| * (t + θ) := mul_le_mul_of_nonneg_left (by linarith) (abs_nonneg _)
  have h2 : |t - θ| * θ ≤ (k * θ) * θ := by linarith
  exact le_of_mul_le_mul_right h2 hθ

/-- the rounded rotation vector -/
theorem vec_err (R : Round) {φ ψ : V3} (hψ : ∀ i, ψ i = R.rn (φ i)) (h : (4 / 10 ^ 20 : ℝ) ≤ nsq φ) :
    (∀ i, |ψ i - φ i| ≤ 1001 / 1000 * uu * Drift.norm3 φ) ∧ |nsq ψ - nsq φ| ≤ 7 * uu * nsq φ := by
  have hu := uu_pos
  have hu' := uu_le
  norm_num at hu'
  have hθ0 := norm3_nonneg φ
  have hq := norm3_mul_self φ
  have hθ : (1 / 10 ^ 10 : ℝ) ≤ Drift.norm3 φ := by
    by_contra hc; push Not at hc
    have : Drift.norm3 φ * Drift.norm3 φ < 1 / 10 ^ 10 * (1 / 10 ^ 10) := mul_lt_mul'' hc hc hθ0 hθ0
    rw [hq] at this
    norm_num at this h
    linarith
  have hb : ∀ i, |φ i| ≤ Drift.norm3 φ := fun i => abs_le_of_sq_le_sq (by nlinarith [sq_le_nsq φ i]) hθ0
  have h1 : ∀ i, |ψ i - φ i| ≤ 1001 / 1000 * uu * Drift.norm3 φ := fun i => by
    rw [hψ]; exact rnb R (tiny_le.trans (le_trans (by norm_num) hθ)) (hb i)
  refine ⟨h1, ?_⟩
  rw [← hq]
  generalize Drift.norm3 φ = θ at *
  have h2 : ∀ i, |ψ i ^ 2 - φ i ^ 2| ≤ 21 / 10 * (uu * (θ * θ)) := fun i => by
    have e : ψ i ^ 2 - φ i ^ 2 = (ψ i - φ i) * (ψ i + φ i) := by ring
    have h3 : |ψ i + φ i| ≤ 2002 / 1000 * θ := by
      have m : uu * θ ≤ 1 / 1000000 * θ := mul_le_mul_of_nonneg_right (by linarith) hθ0
      have a := abs_le.mp (h1 i)
      have b := abs_le.mp (hb i)
      rw [abs_le]; constructor <;> linarith [a.1, a.2, b.1, b.2]
    rw [e, abs_mul]
    calc _ ≤ 1001 / 1000 * uu * θ * (2002 / 1000 * θ) := mul_le_mul (h1 i) h3 (abs_nonneg _) (by positivity)
      _ = 2004002 / 1000000 * (uu * (θ * θ)) := by ring
      _ ≤ _ := by nlinarith [mul_nonneg hu.le (mul_self_nonneg θ)]
  have p0 := abs_le.mp (h2 0)
  have p1 := abs_le.mp (h2 1)
  have p2 := abs_le.mp (h2 2)
  have n1 : nsq ψ = ψ 0 ^ 2 + ψ 1 ^ 2 + ψ 2 ^ 2 := rfl
  have n2 : θ * θ = φ 0 ^ 2 + φ 1 ^ 2 + φ 2 ^ 2 := hq
  have h5 : 0 ≤ uu * (θ * θ) := mul_nonneg hu.le (mul_self_nonneg θ)
  rw [n1, abs_le]
  constructor <;> linarith [p0.1, p0.2, p1.1, p1.2, p2.1, p2.2]

theorem sin_lip (a b : ℝ) : |Real.sin a - Real.sin b| ≤ |a - b| := by
  have e : Real.sin a - Real.sin b = 2 * (Real.sin ((a - b) / 2) * Real.cos ((a + b) / 2)) := by rw [Real.sin_sub_sin]; ring
  rw [e, abs_mul, abs_mul]
  have h1 := Real.abs_sin_le_abs (x := (a - b) / 2)
  have h2 := Real.abs_cos_le_one ((a + b) / 2)
  have h3 : |(a - b) / 2| = |a - b| / 2 := by rw [abs_div]; norm_num
  rw [h3] at h1
  have := mul_le_mul h1 h2 (abs_nonneg _) (by positivity)
  norm_num; linarith

theorem cos_lip (a b : ℝ) : |Real.cos a - Real.cos b| ≤ |a - b| := by
  have := sin_lip (Real.pi / 2 - a) (Real.pi / 2 - b)
  rw [Real.sin_pi_div_two_sub, Real.sin_pi_div_two_sub] at this
  rwa [show Real.pi / 2 - a - (Real.pi / 2 - b) = -(a - b) by ring, abs_neg] at this

/-- the coefficients computed from the norm `t`, against those of the norm `θ` -/
theorem coef_acc {s c t θ N : ℝ} (h1 : 1 / 10 ^ 11 ≤ t) (hθ : 1 / 10 ^ 10 ≤ θ) (hθ7 : θ ≤ 7) (hN : |N - t * t| ≤ 13 * uu * (t * t))
    (hn : |N - θ * θ| ≤ 7 * uu * (θ * θ)) (hs : |s * t - Real.sin t| ≤ 4 * uu) (hc : |c * (t * t) - (1 - Real.cos t)| ≤ 9 * uu) :
    |s * θ - Real.sin θ| ≤ 175 * uu ∧ |c * (θ * θ) - (1 - Real.cos θ)| ≤ 200 * uu ∧ |s| * θ ≤ 101 / 100 ∧ |c| * (θ * θ) ≤ 202 / 100 := by
  have hu := uu_pos
  have hu' := uu_le
  norm_num at hu'
  have hn' := abs_le.mp hn
  have m0 : uu * (θ * θ) ≤ 1 / 1000000 * (θ * θ) := mul_le_mul_of_nonneg_right (by linarith) (mul_self_nonneg _)
  have hθp : 0 < θ := by linarith [show (0 : ℝ) < 1 / 10 ^ 10 by norm_num]
  have htp : 0 < t := by linarith [show (0 : ℝ) < 1 / 10 ^ 11 by norm_num]
  have hθθ : 0 < θ * θ := by positivity
  have htt : 0 < t * t := by positivity
  have hU : 0 ≤ uu * (θ * θ) := by positivity
  -- the two norms
  have hN' := abs_le.mp hN
  have m1 : uu * (t * t) ≤ 1 / 1000000 * (t * t) := mul_le_mul_of_nonneg_right (by linarith) htt.le
  have m2 : uu * (t * t) ≤ 1001 / 1000 * (uu * (θ * θ)) := by
    have : t * t ≤ 1001 / 1000 * (θ * θ) := by linarith [hN'.1, hn'.2]
    have := mul_le_mul_of_nonneg_left this hu.le
    linarith
  have hd : |t * t - θ * θ| ≤ 21 * uu * (θ * θ) := by
    rw [abs_le]; constructor <;> linarith [hN'.1, hN'.2, hn'.1, hn'.2]
  have hr := root_close htp.le hθp hd
  have hr' := abs_le.mp hr
  have m3 : uu * θ ≤ 7 * uu := by nlinarith
  have m4 : uu * θ ≤ 1 / 1000000 * θ := mul_le_mul_of_nonneg_right (by linarith) hθp.le
  have htθ : θ ≤ 1001 / 1000 * t := by linarith [hr'.1]
  -- coefficients
  have hst : |s| * t ≤ 1005 / 1000 := by
    rw [← abs_of_pos htp, ← abs_mul]
    rw [abs_le] at hs ⊢
    constructor <;> linarith [hs.1, hs.2, Real.sin_le_one t, Real.neg_one_le_sin t]
  have hsθ : |s| * θ ≤ 101 / 100 := by
    have := mul_le_mul_of_nonneg_left htθ (abs_nonneg s); linarith
  have hct : |c| * (t * t) ≤ 201 / 100 := by
    rw [← abs_of_pos htt, ← abs_mul]
    rw [abs_le] at hc ⊢
    constructor <;> linarith [hc.1, hc.2, Real.cos_le_one t, Real.neg_one_le_cos t]
  have hcθ : |c| * (θ * θ) ≤ 202 / 100 := by
    have : θ * θ ≤ 1003 / 1000 * (t * t) := by
      have := mul_le_mul htθ htθ hθp.le (by positivity); nlinarith
    have := mul_le_mul_of_nonneg_left this (abs_nonneg c); linarith
  have hsc := sin_lip t θ
  have hcc := cos_lip t θ
  have hS : |s * θ - Real.sin θ| ≤ 175 * uu := by
    have e : |s * θ - s * t| ≤ 22 * uu := by
      rw [← mul_sub, abs_mul, abs_sub_comm]
      calc |s| * |t - θ| ≤ |s| * (21 * uu * θ) := mul_le_mul_of_nonneg_left hr (abs_nonneg _)
        _ = 21 * uu * (|s| * θ) := by ring
        _ ≤ 21 * uu * (101 / 100) := mul_le_mul_of_nonneg_left hsθ (by positivity)
        _ ≤ _ := by linarith
    have q : |t - θ| ≤ 147 * uu := by linarith
    have q' := hsc.trans q
    rw [abs_le] at e hs q' ⊢
    constructor <;> linarith [e.1, e.2, hs.1, hs.2, q'.1, q'.2]
  have hC : |c * (θ * θ) - (1 - Real.cos θ)| ≤ 200 * uu := by
    have e : |c * (θ * θ) - c * (t * t)| ≤ 43 * uu := by
      rw [← mul_sub, abs_mul, abs_sub_comm]
      calc |c| * |t * t - θ * θ| ≤ |c| * (21 * uu * (θ * θ)) := mul_le_mul_of_nonneg_left hd (abs_nonneg _)
        _ = 21 * uu * (|c| * (θ * θ)) := by ring
        _ ≤ 21 * uu * (202 / 100) := mul_le_mul_of_nonneg_left hcθ (by positivity)
        _ ≤ _ := by linarith
    have q : |t - θ| ≤ 147 * uu := by linarith
    have q' := hcc.trans q
    rw [abs_le] at e hc q' ⊢
    constructor <;> linarith [e.1, e.2, hc.1, hc.2, q'.1, q'.2]
  exact ⟨hS, hC, hsθ, hcθ⟩

/-- ... and the matrices -/
theorem core_acc {s c θ : ℝ} {φ ψ : V3} (hθp : 0 < θ) (hq : θ * θ = nsq φ) (hv : ∀ i, |ψ i - φ i| ≤ 1001 / 1000 * uu * θ)
    (hS : |s * θ - Real.sin θ| ≤ 175 * uu) (hC : |c * (θ * θ) - (1 - Real.cos θ)| ≤ 200 * uu) (hsθ : |s| * θ ≤ 101 / 100)
    (hcθ : |c| * (θ * θ) ≤ 202 / 100) (i j : Fin 3) :
    |s * skew ψ i j - Real.sin θ / θ * skew φ i j| ≤ 177 * uu ∧
    |c * (skew ψ * skew ψ) i j - (1 - Real.cos θ) / (θ * θ) * (skew φ * skew φ) i j| ≤ 213 * uu := by
  have hu := uu_pos
  have hu' := uu_le
  norm_num at hu'
  have hθθ : 0 < θ * θ := by positivity
  have m4 : uu * θ ≤ 1 / 1000000 * θ := mul_le_mul_of_nonneg_right (by linarith) hθp.le
  have hA : ∀ i j, |skew φ i j| ≤ θ := skew_entry_le hθp.le (le_of_eq hq.symm)
  -- entries
  have hD : ∀ i j, |skew ψ i j - skew φ i j| ≤ 1001 / 1000 * uu * θ := by
    intro i j
    have p : 0 ≤ 1001 / 1000 * uu * θ := by positivity
    have v := hv
    fin_cases i <;> fin_cases j <;> simp [skew] <;> first | exact p | exact v _ |
      (rw [show ∀ a b : ℝ, -a + b = -(a - b) by intros; ring, abs_neg]; exact v _)
  have hψe : ∀ i j, |skew ψ i j| ≤ 1001 / 1000 * θ := fun i j => by
    have a := abs_le.mp (hD i j)
    have b := abs_le.mp (hA i j)
    rw [abs_le]; constructor <;> linarith [a.1, a.2, b.1, b.2]
  have hA2 : |(skew φ * skew φ) i j| ≤ θ * θ := by
    have b : ∀ k, φ k ^ 2 ≤ θ * θ := fun k => by rw [hq]; nlinarith [sq_le_nsq φ k]
    have n : θ * θ = φ 0 ^ 2 + φ 1 ^ 2 + φ 2 ^ 2 := hq
    have p : ∀ a b : Fin 3, -(φ a ^ 2 + φ b ^ 2) / 2 ≤ φ a * φ b ∧ φ a * φ b ≤ (φ a ^ 2 + φ b ^ 2) / 2 := fun a b => by
      constructor <;> nlinarith [sq_nonneg (φ a + φ b), sq_nonneg (φ a - φ b)]
    rw [n, abs_le]
    fin_cases i <;> fin_cases j <;> simp [skew, Matrix.mul_apply, Fin.sum_univ_three] <;> constructor <;>
      linarith [(p 0 1).1, (p 0 1).2, (p 0 2).1, (p 0 2).2, (p 1 2).1, (p 1 2).2,
        (p 1 0).1, (p 1 0).2, (p 2 0).1, (p 2 0).2, (p 2 1).1, (p 2 1).2, sq_nonneg (φ 0), sq_nonneg (φ 1), sq_nonneg (φ 2)]
  have hA2d : |(skew ψ * skew ψ) i j - (skew φ * skew φ) i j| ≤ 61 / 10 * (uu * (θ * θ)) := by
    have e : (skew ψ * skew ψ) i j - (skew φ * skew φ) i j = ∑ k, ((skew ψ i k - skew φ i k) * skew ψ k j + skew φ i k * (skew ψ k j - skew φ k j)) := by
      rw [Matrix.mul_apply, Matrix.mul_apply, ← Finset.sum_sub_distrib]
      exact Finset.sum_congr rfl fun k _ => by ring
    have key : ∀ k, |(skew ψ i k - skew φ i k) * skew ψ k j + skew φ i k * (skew ψ k j - skew φ k j)| ≤ 203 / 100 * (uu * (θ * θ)) := by
      intro k
      have a1 : |(skew ψ i k - skew φ i k) * skew ψ k j| ≤ 1001 / 1000 * uu * θ * (1001 / 1000 * θ) := by
        rw [abs_mul]; exact mul_le_mul (hD i k) (hψe k j) (abs_nonneg _) (by positivity)
      have a2 : |skew φ i k * (skew ψ k j - skew φ k j)| ≤ θ * (1001 / 1000 * uu * θ) := by
        rw [abs_mul]; exact mul_le_mul (hA i k) (hD k j) (abs_nonneg _) hθp.le
      refine (abs_add_le _ _).trans ?_
      nlinarith
    rw [e]
    refine (Finset.abs_sum_le_sum_abs _ _).trans ?_
    rw [Fin.sum_univ_three]; linarith [key 0, key 1, key 2, mul_pos hu hθθ]
  have g1 : |s * skew ψ i j - Real.sin θ / θ * skew φ i j| ≤ 177 * uu := by
    have e : s * skew ψ i j - Real.sin θ / θ * skew φ i j = s * (skew ψ i j - skew φ i j) + (s * θ - Real.sin θ) * (skew φ i j / θ) := by
      field_simp; ring
    have a1 : |s * (skew ψ i j - skew φ i j)| ≤ 12 / 10 * uu := by
      rw [abs_mul]
      calc |s| * |skew ψ i j - skew φ i j| ≤ |s| * (1001 / 1000 * uu * θ) := mul_le_mul_of_nonneg_left (hD i j) (abs_nonneg _)
        _ = 1001 / 1000 * uu * (|s| * θ) := by ring
        _ ≤ 1001 / 1000 * uu * (101 / 100) := mul_le_mul_of_nonneg_left hsθ (by positivity)
        _ ≤ _ := by linarith
    have a2 : |(s * θ - Real.sin θ) * (skew φ i j / θ)| ≤ 175 * uu := by
      rw [abs_mul, abs_div, abs_of_pos hθp]
      have : |skew φ i j| / θ ≤ 1 := by rw [div_le_one hθp]; exact hA i j
      calc _ ≤ 175 * uu * 1 := mul_le_mul hS this (by positivity) (by positivity)
        _ = _ := mul_one _
    rw [e]
    refine (abs_add_le _ _).trans ?_
    linarith
  have g2 : |c * (skew ψ * skew ψ) i j - (1 - Real.cos θ) / (θ * θ) * (skew φ * skew φ) i j| ≤ 213 * uu := by
    have e : c * (skew ψ * skew ψ) i j - (1 - Real.cos θ) / (θ * θ) * (skew φ * skew φ) i j
        = c * ((skew ψ * skew ψ) i j - (skew φ * skew φ) i j) + (c * (θ * θ) - (1 - Real.cos θ)) * ((skew φ * skew φ) i j / (θ * θ)) := by
      field_simp; ring
    have a1 : |c * ((skew ψ * skew ψ) i j - (skew φ * skew φ) i j)| ≤ 125 / 10 * uu := by
      rw [abs_mul]
      calc _ ≤ |c| * (61 / 10 * (uu * (θ * θ))) := mul_le_mul_of_nonneg_left hA2d (abs_nonneg _)
        _ = 61 / 10 * uu * (|c| * (θ * θ)) := by ring
        _ ≤ 61 / 10 * uu * (202 / 100) := mul_le_mul_of_nonneg_left hcθ (by positivity)
        _ ≤ _ := by linarith
    have a2 : |(c * (θ * θ) - (1 - Real.cos θ)) * ((skew φ * skew φ) i j / (θ * θ))| ≤ 200 * uu := by
      rw [abs_mul, abs_div, abs_of_pos hθθ]
      have : |(skew φ * skew φ) i j| / (θ * θ) ≤ 1 := by rw [div_le_one hθθ]; exact hA2
      calc _ ≤ 200 * uu * 1 := mul_le_mul hC this (by positivity) (by positivity)
        _ = _ := mul_one _
    rw [e]
    refine (abs_add_le _ _).trans ?_
    linarith
  exact ⟨g1, g2⟩

/-- a matrix close to the one with the computed coefficients is close to the exact rotation -/
theorem acc_common (F : Fpu) (hF : F.Accurate) {φ ψ : V3} (hv : ∀ i, |ψ i - φ i| ≤ 1001 / 1000 * uu * Drift.norm3 φ)
    (hn : |nsq ψ - nsq φ| ≤ 7 * uu * nsq φ) (hr : ∀ i, |φ i| ≤ 4) (hψr : ∀ i, |ψ i| ≤ 2 ^ 100)
    (h : (4 / 10 ^ 20 : ℝ) ≤ nsq φ) {G : M3}
    (hG : ¬ norm3 F ψ < F.rn TOLERANCE → 1 / 10 ^ 11 ≤ norm3 F ψ → norm3 F ψ * norm3 F ψ ≤ 2 ^ 203 →
      ∃ P : M3, G = addM F.toRound (addM F.toRound 1 (smulM F.toRound (F.rn (F.sin (norm3 F ψ) / norm3 F ψ)) (skew ψ))) P ∧
      ((∀ i j, |skew ψ i j| ≤ 1001 / 1000 * norm3 F ψ) →
        |F.rn (F.rn (1 - F.cos (norm3 F ψ)) / F.rn (norm3 F ψ * norm3 F ψ))| * (norm3 F ψ * norm3 F ψ) ≤ 201 / 100 → ∀ i j,
        |P i j - F.rn (F.rn (1 - F.cos (norm3 F ψ)) / F.rn (norm3 F ψ * norm3 F ψ)) * (skew ψ * skew ψ) i j| ≤ 27 * uu))
    (i j : Fin 3) : |G i j - Gam0 φ i j| ≤ 500 * uu := by
  have hu := uu_pos
  have hu' := uu_le
  norm_num at hu'
  have hn' := abs_le.mp hn
  have hφ0 := nsq_nonneg' φ
  have m0 : uu * nsq φ ≤ 1 / 1000000 * nsq φ := mul_le_mul_of_nonneg_right (by linarith) hφ0
  have hbig : ¬ norm3 F ψ < F.rn TOLERANCE := norm_large F (by
    have : (39 / 10 ^ 21 : ℝ) ≤ 999 / 1000 * nsq φ := by norm_num at h ⊢; linarith
    linarith [hn'.1])
  obtain ⟨h1, hN⟩ := norm_err F hbig
  have h2 := range hψr hN
  have hs := sin_coef F hF h1 h2
  have hc := cos_coef F hF h1 h2
  obtain ⟨P, rfl, hP⟩ := hG hbig h1 h2
  have hB := near_core_entry F h1 hN hs hc hP i j
  have hθ : (1 / 10 ^ 10 : ℝ) ≤ Drift.norm3 φ := by
    by_contra hc; push Not at hc
    have := mul_lt_mul'' hc hc (norm3_nonneg φ) (norm3_nonneg φ)
    rw [norm3_mul_self] at this
    norm_num at this h
    linarith
  have hG : Gam0 φ = 1 + (Real.sin (Drift.norm3 φ) / Drift.norm3 φ) • skew φ
      + ((1 - Real.cos (Drift.norm3 φ)) / (Drift.norm3 φ * Drift.norm3 φ)) • (skew φ * skew φ) := by
    unfold Gam0
    rw [if_neg (not_lt.mpr (by unfold TOLERANCE; norm_num at hθ ⊢; exact hθ)), gammaCase0_eq, norm3_mul_self]
  have hq := norm3_mul_self φ
  have hθ7 : Drift.norm3 φ ≤ 7 := by
    by_contra hc; push Not at hc
    have b : ∀ i, φ i ^ 2 ≤ 16 := fun i => by rw [← sq_abs]; nlinarith [hr i, abs_nonneg (φ i)]
    have : nsq φ ≤ 48 := by unfold nsq; linarith [b 0, b 1, b 2]
    nlinarith
  rw [← hq] at hn
  obtain ⟨hS, hC, hsθ, hcθ⟩ := coef_acc h1 hθ hθ7 hN hn hs hc
  obtain ⟨g1, g2⟩ := core_acc (by linarith [show (0 : ℝ) < 1 / 10 ^ 10 by norm_num]) hq hv hS hC hsθ hcθ i j
  have eB : ∀ s c : ℝ, nearB ψ s c i j = (1 : M3) i j + s * skew ψ i j + c * (skew ψ * skew ψ) i j := fun s c => by simp [nearB]
  have eG : Gam0 φ i j = (1 : M3) i j + Real.sin (Drift.norm3 φ) / Drift.norm3 φ * skew φ i j + (1 - Real.cos (Drift.norm3 φ)) / (Drift.norm3 φ * Drift.norm3 φ) * (skew φ * skew φ) i j := by
    rw [hG]; simp
  rw [eB] at hB
  rw [eG]
  rw [abs_le] at hB g1 g2 ⊢
  constructor <;> linarith [hB.1, hB.2, g1.1, g1.2, g2.1, g2.2]

/-- no rotation -/
theorem norm_zero_small (F : Fpu) : norm3 F (0 : V3) < F.rn TOLERANCE := by
  have hu' := uu_le
  norm_num at hu'
  have h1 : norm3 F (0 : V3) = 0 := by
    have z : F.rn 0 = 0 := rn_of_F F.toRound IsF.zero
    unfold norm3 sum3; split <;> simp [z]
  have := (abs_le.mp (rnb F.toRound (x := TOLERANCE) (M := 1 / 10 ^ 10) (tiny_le.trans (by norm_num)) (by unfold TOLERANCE; norm_num))).1
  have e2 : TOLERANCE = 1 / 10 ^ 10 := by unfold TOLERANCE; norm_num
  rw [h1]
  rw [e2] at this ⊢
  norm_num at this ⊢; linarith

theorem Gam0_zero' : Gam0 (0 : V3) = 1 := by unfold Gam0; rw [if_pos (by rw [norm3_zero]; exact TOLERANCE_pos)]

/-- the computed rotation for a rounded rotation vector, against the exact rotation for the exact vector -/
theorem gamma0_acc (F : Fpu) (hF : F.Accurate) {φ ψ : V3} (hψ : ∀ i, ψ i = F.rn (φ i)) (hr : ∀ i, |φ i| ≤ 4)
    (h : φ = 0 ∨ (4 / 10 ^ 20 : ℝ) ≤ nsq φ) (i j : Fin 3) : |gamma0 F ψ i j - Gam0 φ i j| ≤ 500 * uu := by
  have hu := uu_pos
  rcases h with rfl | h
  · have e : ψ = 0 := by ext i; rw [hψ]; exact rn_of_F F.toRound IsF.zero
    have h3 : gamma0 F (0 : V3) = 1 := by unfold gamma0; dsimp only; rw [if_pos (norm_zero_small F)]
    rw [e, h3, Gam0_zero', sub_self, abs_zero]; positivity
  obtain ⟨hv, hn⟩ := vec_err F.toRound hψ h
  refine acc_common F hF hv hn hr (fun i => ?_) h (fun hbig h1 h2 => ?_) i j
  · rw [hψ]; exact (rnb' F.toRound (tiny_le.trans (by norm_num)) (hr i)).trans (by norm_num)
  · have e : gamma0 F ψ = rodrigues F ψ (norm3 F ψ) := by unfold gamma0; dsimp only; rw [if_neg hbig]
    exact ⟨_, e, fun hA hc => prod1 F (by linarith [show (0 : ℝ) < 1 / 10 ^ 11 by norm_num]) h2 hA hc⟩

/-- ... and the rotation of a correction -/
theorem expRot_acc (F : Fpu) (hF : F.Accurate) {φ : V3} (hr : ∀ i, |φ i| ≤ 4)
    (h : φ = 0 ∨ (4 / 10 ^ 20 : ℝ) ≤ nsq φ) (i j : Fin 3) : |expRot F φ i j - Gam0 φ i j| ≤ 500 * uu := by
  have hu := uu_pos
  rcases h with rfl | h
  · have h3 : expRot F (0 : V3) = 1 := by unfold expRot; dsimp only; rw [if_pos (norm_zero_small F)]
    rw [h3, Gam0_zero', sub_self, abs_zero]; positivity
  refine acc_common F hF (ψ := φ) (fun i => ?_) ?_ hr (fun i => (hr i).trans (by norm_num)) h (fun hbig h1 h2 => ?_) i j
  · rw [sub_self, abs_zero]; exact mul_nonneg (by positivity) (norm3_nonneg φ)
  · rw [sub_self, abs_zero]; exact mul_nonneg (by positivity) (nsq_nonneg' φ)
  · refine ⟨_, by unfold expRot; dsimp only; rw [if_neg hbig], fun hA hc => prod2 F h1 hA hc⟩

/-! ### the error of the orientation -/

/-- sum of the squares of the entries -/
noncomputable def fsq (A : M3) : ℝ := (A * Aᵀ).trace

theorem fsq_eq (A : M3) : fsq A = ∑ p : Fin 3 × Fin 3, A p.1 p.2 ^ 2 := by
  rw [fsq, Matrix.trace, Fintype.sum_prod_type]
  refine Finset.sum_congr rfl fun i _ => ?_
  rw [Matrix.diag_apply, Matrix.mul_apply]
  exact Finset.sum_congr rfl fun j _ => by rw [Matrix.transpose_apply]; ring

theorem fsq_entry (A : M3) (i j : Fin 3) : A i j ^ 2 ≤ fsq A := by
  rw [fsq_eq]
  exact Finset.single_le_sum (f := fun p : Fin 3 × Fin 3 => A p.1 p.2 ^ 2) (fun _ _ => sq_nonneg _) (Finset.mem_univ (i, j))

theorem fsq_le {A : M3} {e : ℝ} (h : ∀ i j, |A i j| ≤ e) : fsq A ≤ (3 * e) ^ 2 := by
  rw [fsq_eq]
  have : ∀ p ∈ (Finset.univ : Finset (Fin 3 × Fin 3)), A p.1 p.2 ^ 2 ≤ e ^ 2 := fun p _ => by
    rw [← sq_abs]; exact pow_le_pow_left₀ (abs_nonneg _) (h _ _) 2
  refine (Finset.sum_le_card_nsmul _ _ _ this).trans (le_of_eq ?_)
  simp; ring

theorem fsq_mul_right (A : M3) {G : M3} (hG : G * Gᵀ = 1) : fsq (A * G) = fsq A := by
  rw [fsq, fsq, Matrix.transpose_mul, Matrix.mul_assoc, ← Matrix.mul_assoc G, hG, Matrix.one_mul]

theorem fsq_mul_left (A : M3) {G : M3} (hG : Gᵀ * G = 1) : fsq (G * A) = fsq A := by
  rw [fsq, fsq, Matrix.transpose_mul, Matrix.mul_assoc, Matrix.trace_mul_comm, Matrix.mul_assoc, Matrix.mul_assoc, hG, Matrix.mul_one]

theorem fsq_add {A B : M3} {p q : ℝ} (hp : 0 ≤ p) (hq : 0 ≤ q) (ha : fsq A ≤ p ^ 2) (hb : fsq B ≤ q ^ 2) : fsq (A + B) ≤ (p + q) ^ 2 := by
  rw [fsq_eq] at *
  have e : ∑ r : Fin 3 × Fin 3, (A + B) r.1 r.2 ^ 2 = ∑ r : Fin 3 × Fin 3, A r.1 r.2 ^ 2
      + 2 * (∑ r : Fin 3 × Fin 3, A r.1 r.2 * B r.1 r.2) + ∑ r : Fin 3 × Fin 3, B r.1 r.2 ^ 2 := by
    rw [Finset.mul_sum, ← Finset.sum_add_distrib, ← Finset.sum_add_distrib]
    exact Finset.sum_congr rfl fun r _ => by rw [Matrix.add_apply]; ring
  have c : (∑ r : Fin 3 × Fin 3, A r.1 r.2 * B r.1 r.2) ^ 2 ≤ (p * q) ^ 2 := by
    refine (Finset.sum_mul_sq_le_sq_mul_sq _ _ _).trans ?_
    rw [mul_pow]
    exact mul_le_mul ha hb (Finset.sum_nonneg fun _ _ => sq_nonneg _) (sq_nonneg p)
  have c4 := (abs_le.mp (abs_le_of_sq_le_sq c (mul_nonneg hp hq))).2
  rw [e]; nlinarith

/-- one multiplication -/
theorem mul_right_acc (F : Fpu) {Y X G Γ : M3} {e : ℝ} (he : 0 ≤ e) (hD : fsq (Y - X) ≤ e ^ 2) (hY : ∀ i j, |Y i j| ≤ 111 / 100)
    (hG : ∀ i j, |G i j - Γ i j| ≤ 500 * uu) (hΓ : IsRot Γ) : fsq (mulM F Y G - X * Γ) ≤ (e + 1 / 2 ^ 40) ^ 2 := by
  have hu := uu_pos
  have hu' := uu_le
  norm_num at hu'
  have hΓe : ∀ i j, |Γ i j| ≤ 1 := fun i j => by
    refine abs_le_of_sq_le_sq ?_ zero_le_one
    have h1 : (Γ * Γᵀ) i i = 1 := by rw [hΓ.2.1, Matrix.one_apply_eq]
    rw [Matrix.mul_apply] at h1
    have h2 := Finset.single_le_sum (f := fun k => Γ i k * Γᵀ k i) (fun k _ => by
      rw [Matrix.transpose_apply]; exact mul_self_nonneg _) (Finset.mem_univ j)
    rw [h1] at h2
    simp only [Matrix.transpose_apply] at h2
    nlinarith
  have hGe : ∀ i j, |G i j| ≤ 101 / 100 := fun i j => by
    have h1 := abs_le.mp (hΓe i j)
    have h2 := abs_le.mp (hG i j)
    rw [abs_le]; constructor <;> linarith [h1.1, h1.2, h2.1, h2.2]
  have key : mulM F Y G - X * Γ = (Y - X) * Γ + ((mulM F Y G - Y * G) + Y * (G - Γ)) := by
    rw [Matrix.sub_mul, Matrix.mul_sub]; abel
  have hE : ∀ i j, |((mulM F Y G - Y * G) + Y * (G - Γ)) i j| ≤ 1700 * uu := fun i j => by
    have d1 := dot_err F (A := Y) (B := G) (i := i) (j := j) (M := 113 / 100) (tiny_le.trans (by norm_num)) (fun k => by
      rw [abs_mul]; calc |Y i k| * |G k j| ≤ 111 / 100 * (101 / 100) := mul_le_mul (hY i k) (hGe k j) (abs_nonneg _) (by norm_num)
        _ ≤ _ := by norm_num)
    have d2 : |(Y * (G - Γ)) i j| ≤ 1665 * uu := by
      rw [Matrix.mul_apply]
      refine (Finset.abs_sum_le_sum_abs _ _).trans ?_
      have t : ∀ k, |Y i k * (G - Γ) k j| ≤ 555 * uu := fun k => by
        rw [abs_mul, Matrix.sub_apply]
        calc _ ≤ 111 / 100 * (500 * uu) := mul_le_mul (hY i k) (hG k j) (abs_nonneg _) (by norm_num)
          _ = _ := by ring
      rw [Fin.sum_univ_three]; linarith [t 0, t 1, t 2]
    rw [Matrix.add_apply, Matrix.sub_apply]
    refine (abs_add_le _ _).trans ?_
    linarith
  rw [key]
  refine (fsq_add he (by positivity : (0 : ℝ) ≤ 3 * (1700 * uu)) ((fsq_mul_right _ hΓ.2.1).trans_le hD) (fsq_le hE)).trans ?_
  refine pow_le_pow_left₀ (by positivity) ?_ 2
  have : 3 * (1700 * uu) ≤ 1 / 2 ^ 40 := by unfold uu; norm_num
  linarith

theorem fsq_T (A : M3) : fsq Aᵀ = fsq A := by rw [fsq, fsq, Matrix.transpose_transpose, Matrix.trace_mul_comm]

theorem mul_left_acc (F : Fpu) {Y X G Γ : M3} {e : ℝ} (he : 0 ≤ e) (hD : fsq (Y - X) ≤ e ^ 2) (hY : ∀ i j, |Y i j| ≤ 111 / 100)
    (hG : ∀ i j, |G i j - Γ i j| ≤ 500 * uu) (hΓ : IsRot Γ) : fsq (mulM F G Y - Γ * X) ≤ (e + 1 / 2 ^ 40) ^ 2 := by
  have h := mul_right_acc F (Y := Yᵀ) (X := Xᵀ) (G := Gᵀ) (Γ := Γᵀ) he (by rw [← Matrix.transpose_sub, fsq_T]; exact hD)
    (fun i j => hY j i) (fun i j => hG j i) ⟨by rw [Matrix.transpose_transpose]; exact hΓ.2.1, by rw [Matrix.transpose_transpose]; exact hΓ.1,
      by rw [Matrix.det_transpose]; exact hΓ.2.2⟩
  have e1 : mulM F Yᵀ Gᵀ = (mulM F G Y)ᵀ := by
    ext i j
    simp only [mulM, Matrix.transpose_apply, mul_comm]
  rwa [e1, ← Matrix.transpose_mul, ← Matrix.transpose_sub, fsq_T] at h

end F64
end Drift
