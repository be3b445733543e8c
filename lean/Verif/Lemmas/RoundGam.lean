import Verif.Model.RoundedImu
import Verif.Lemmas.RoundAcc
import Verif.Lemmas.GammaMore

/-!
# How far the computed `Gamma_SO3(., 1)` and `Gamma_SO3(., 2)` are from the exact ones
-/
namespace Drift
namespace F64
open Matrix

/-- a computed quotient -/
theorem quot_err (R : Round) {D T q B : ℝ} (hq : 0 < q) (hq1 : q ≤ 3) (hT : |T - q| ≤ 1 / 1000 * q) {k : ℝ} (hk : 0 ≤ k) (hTk : |T - q| ≤ k * uu * q) (hB : 1 / 10 ^ 60 ≤ B) (hD : |D| ≤ B) :
    |R.rn (D / T) * q - D| ≤ (102 / 100 * k + 102 / 100) * uu * B := by
  have hu := uu_pos
  have hT' := abs_le.mp hT
  have hT0 : 999 / 1000 * q ≤ T := by linarith [hT'.1]
  have hTp : 0 < T := by linarith
  have hB0 : 0 < B := by linarith [show (0 : ℝ) < 1 / 10 ^ 60 by norm_num]
  have hx : |D / T| ≤ 1002 / 1000 * B / q := by
    rw [abs_div, abs_of_pos hTp, div_le_div_iff₀ hTp hq]
    calc |D| * q ≤ B * q := mul_le_mul_of_nonneg_right hD hq.le
      _ ≤ 1002 / 1000 * B * T := by nlinarith
  have hM : tiny ≤ 1002 / 1000 * B / q := by
    rw [le_div_iff₀ hq]
    have := mul_le_mul tiny_le hq1 hq.le (by positivity)
    refine this.trans ?_
    refine le_trans ?_ (mul_le_mul_of_nonneg_left hB (by norm_num))
    norm_num
  have h3 := rnb R hM hx
  have h4 : |(R.rn (D / T) - D / T) * q| ≤ 1001 / 1000 * uu * (1002 / 1000 * B) := by
    rw [abs_mul, abs_of_pos hq]
    calc _ ≤ 1001 / 1000 * uu * (1002 / 1000 * B / q) * q := mul_le_mul_of_nonneg_right h3 hq.le
      _ = _ := by field_simp
  have h5 : |D / T * q - D| ≤ 1002 / 1000 * B * (k * uu) := by
    have e : D / T * q - D = D / T * (q - T) := by field_simp
    rw [e, abs_mul, abs_sub_comm q T]
    calc _ ≤ 1002 / 1000 * B / q * (k * uu * q) := mul_le_mul hx hTk (abs_nonneg _) (by positivity)
      _ = _ := by field_simp
  rw [sub_mul] at h4
  have huB : 0 ≤ uu * B := by positivity
  have hkuB : 0 ≤ k * (uu * B) := by positivity
  rw [abs_le] at h4 h5 ⊢
  constructor <;> linarith [h4.1, h4.2, h5.1, h5.2]

/-- the powers of the norm as computed -/
theorem pow_err (R : Round) {t : ℝ} (h1 : 1 / 10 ^ 10 ≤ t) (h2 : t ≤ 101 / 100) :
    |R.rn (t * t) - t * t| ≤ 2 * uu * (t * t) ∧ |R.rn (R.rn (t * t) * t) - t * t * t| ≤ 4 * uu * (t * t * t) ∧
      |R.rn (R.rn (2 * R.rn (t * t)) * R.rn (t * t)) - 2 * (t * t) * (t * t)| ≤ 7 * uu * (2 * (t * t) * (t * t)) := by
  have hu := uu_pos
  have hu' := uu_le
  norm_num at hu'
  have ht : 0 < t := lt_of_lt_of_le (by norm_num) h1
  have q1 : 1 / 10 ^ 20 ≤ t * t := by
    calc (1 : ℝ) / 10 ^ 20 = 1 / 10 ^ 10 * (1 / 10 ^ 10) := by norm_num
      _ ≤ _ := mul_le_mul h1 h1 (by norm_num) ht.le
  have c1 : 1 / 10 ^ 30 ≤ t * t * t := by
    calc (1 : ℝ) / 10 ^ 30 = 1 / 10 ^ 20 * (1 / 10 ^ 10) := by norm_num
      _ ≤ _ := mul_le_mul q1 h1 (by norm_num) (by positivity)
  have f1 : 1 / 10 ^ 40 ≤ t * t * (t * t) := by
    calc (1 : ℝ) / 10 ^ 40 = 1 / 10 ^ 20 * (1 / 10 ^ 20) := by norm_num
      _ ≤ _ := mul_le_mul q1 q1 (by norm_num) (by positivity)
  have e1 := rnb R (x := t * t) (M := t * t) (tiny_le.trans (le_trans (by norm_num) q1)) (le_of_eq (abs_of_pos (by positivity)))
  obtain ⟨q, hq⟩ : ∃ q, t * t = q := ⟨_, rfl⟩
  rw [hq] at e1 q1 c1 f1 ⊢
  obtain ⟨Q, hQ⟩ : ∃ Q, R.rn q = Q := ⟨_, rfl⟩
  rw [hQ] at e1 ⊢
  have q0 : 0 < q := lt_of_lt_of_le (by norm_num) q1
  have m : uu * q ≤ 1 / 1000000000 * q := mul_le_mul_of_nonneg_right (by linarith) q0.le
  have e1' := abs_le.mp e1
  have uq : 0 ≤ uu * q := by positivity
  have Q1 : Q ≤ 1001 / 1000 * q := by linarith [e1'.2]
  have Q2 : 999 / 1000 * q ≤ Q := by linarith [e1'.1]
  have Qp : 0 < Q := by linarith
  refine ⟨by linarith, ?_, ?_⟩
  · have b : |Q * t - q * t| ≤ 1001 / 1000 * uu * (q * t) := by
      rw [← sub_mul, abs_mul, abs_of_pos ht]
      calc _ ≤ 1001 / 1000 * uu * q * t := mul_le_mul_of_nonneg_right e1 ht.le
        _ = _ := by ring
    have s : |Q * t| ≤ 1001 / 1000 * (q * t) := by
      rw [abs_of_pos (mul_pos Qp ht)]
      calc Q * t ≤ 1001 / 1000 * q * t := mul_le_mul_of_nonneg_right Q1 ht.le
        _ = _ := by ring
    have r := rnb R (M := 1001 / 1000 * (q * t)) (tiny_le.trans (by norm_num at c1 ⊢; linarith)) s
    have up : 0 ≤ uu * (q * t) := by positivity
    rw [abs_le] at b r ⊢
    constructor <;> linarith [b.1, b.2, r.1, r.2]
  · have r2 := rnb R (x := 2 * Q) (M := 2 * (1001 / 1000 * q)) (tiny_le.trans (by norm_num at q1 ⊢; linarith))
      (by rw [abs_of_pos (by positivity : 0 < 2 * Q)]; linarith)
    obtain ⟨W, hW⟩ : ∃ W, R.rn (2 * Q) = W := ⟨_, rfl⟩
    rw [hW] at r2 ⊢
    have r2' := abs_le.mp r2
    have Wb : |W - 2 * q| ≤ 41 / 10 * (uu * q) := by
      rw [abs_le]; constructor <;> linarith [r2'.1, r2'.2, e1'.1, e1'.2]
    have Wb' := abs_le.mp Wb
    have W1 : |W| ≤ 2002 / 1000 * q := by rw [abs_le]; constructor <;> linarith [Wb'.1, Wb'.2]
    have b : |W * Q - 2 * q * q| ≤ 63 / 10 * (uu * (q * q)) := by
      have e : W * Q - 2 * q * q = W * (Q - q) + (W - 2 * q) * q := by ring
      have a1 : |W * (Q - q)| ≤ 2002 / 1000 * q * (1001 / 1000 * uu * q) := by
        rw [abs_mul]; exact mul_le_mul W1 e1 (abs_nonneg _) (by positivity)
      have a2 : |(W - 2 * q) * q| ≤ 41 / 10 * (uu * q) * q := by
        rw [abs_mul, abs_of_pos q0]; exact mul_le_mul_of_nonneg_right Wb q0.le
      rw [e]
      refine (abs_add_le _ _).trans ?_
      have : 0 ≤ uu * (q * q) := by positivity
      nlinarith
    have s : |W * Q| ≤ 2005 / 1000 * (q * q) := by
      rw [abs_mul, abs_of_pos Qp]
      calc |W| * Q ≤ 2002 / 1000 * q * (1001 / 1000 * q) := mul_le_mul W1 Q1 Qp.le (by positivity)
        _ ≤ _ := by nlinarith [mul_pos q0 q0]
    have r := rnb R (M := 2005 / 1000 * (q * q)) (tiny_le.trans (by norm_num at f1 ⊢; linarith)) s
    have up : 0 ≤ uu * (q * q) := by positivity
    rw [abs_le] at b r ⊢
    constructor <;> linarith [b.1, b.2, r.1, r.2]

/-- the coefficient of `A * A` in `Gamma_SO3(., 1)` and of `A` in `Gamma_SO3(., 2)` -/
theorem d_coef (F : Fpu) (hF : F.Accurate) {t : ℝ} (h1 : 1 / 10 ^ 10 ≤ t) (h2 : t ≤ 101 / 100) :
    |F.rn (F.rn (t - F.sin t) / F.rn (F.rn (t * t) * t)) * (t * t * t) - (t - Real.sin t)| ≤ 16 * uu := by
  have hu := uu_pos
  have hu' := uu_le
  norm_num at hu'
  have ht : 0 < t := lt_of_lt_of_le (by norm_num) h1
  have hS := abs_le.mp (hF t).1
  have e2 : (1 : ℝ) / 2 ^ 52 = 2 * uu := by unfold uu; norm_num
  rw [e2] at hS
  have hC1 : |t - F.sin t| ≤ 202 / 100 := by
    rw [abs_le]; constructor <;> linarith [hS.1, hS.2, Real.sin_le_one t, Real.neg_one_le_sin t]
  have hD := abs_le.mp (rnb F.toRound (tiny_le.trans (by norm_num)) hC1)
  have hD' : |F.rn (t - F.sin t)| ≤ 21 / 10 := by
    rw [abs_le] at hC1 ⊢; constructor <;> linarith [hD.1, hD.2, hC1.1, hC1.2]
  obtain ⟨-, p3, -⟩ := pow_err F.toRound h1 h2
  have q0 : 0 < t * t * t := by positivity
  have q2 : t * t * t ≤ 3 := by
    have : t * t ≤ 11 / 10 := by nlinarith
    nlinarith
  have h := quot_err F.toRound q0 q2 (p3.trans (mul_le_mul_of_nonneg_right (by linarith) q0.le)) (by norm_num) p3
    (B := 21 / 10) (by norm_num) hD'
  rw [abs_le] at h ⊢
  constructor <;> linarith [h.1, h.2, hD.1, hD.2, hS.1, hS.2]

/-- the coefficient of `A * A` in `Gamma_SO3(., 2)` -/
theorem e_coef (F : Fpu) (hF : F.Accurate) {t : ℝ} (h1 : 1 / 10 ^ 10 ≤ t) (h2 : t ≤ 101 / 100) :
    |F.rn (F.rn (F.rn (F.rn (t * t) + F.rn (2 * F.cos t)) - 2) / F.rn (F.rn (2 * F.rn (t * t)) * F.rn (t * t))) * (2 * (t * t) * (t * t)) -
      (t * t + 2 * Real.cos t - 2)| ≤ 40 * uu := by
  have hu := uu_pos
  have hu' := uu_le
  norm_num at hu'
  have ht : 0 < t := lt_of_lt_of_le (by norm_num) h1
  have hS := abs_le.mp (hF t).2
  have e2 : (1 : ℝ) / 2 ^ 52 = 2 * uu := by unfold uu; norm_num
  rw [e2] at hS
  obtain ⟨p2, -, p4⟩ := pow_err F.toRound h1 h2
  have q0 : 0 < 2 * (t * t) * (t * t) := by positivity
  have tt : t * t ≤ 103 / 100 := by nlinarith
  have tt0 : 0 < t * t := by positivity
  have q2 : 2 * (t * t) * (t * t) ≤ 3 := by nlinarith
  have p2' := abs_le.mp p2
  have m2 : uu * (t * t) ≤ 103 / 100 * uu := by nlinarith
  have c1 : |2 * F.cos t| ≤ 201 / 100 := by
    rw [abs_le]; constructor <;> linarith [hS.1, hS.2, Real.cos_le_one t, Real.neg_one_le_cos t]
  have r1 := abs_le.mp (rnb F.toRound (tiny_le.trans (by norm_num)) c1)
  have c1' := abs_le.mp c1
  obtain ⟨C, hC⟩ : ∃ C, F.rn (2 * F.cos t) = C := ⟨_, rfl⟩
  obtain ⟨Q, hQ⟩ : ∃ Q, F.rn (t * t) = Q := ⟨_, rfl⟩
  rw [hC] at r1 ⊢
  rw [hQ] at p4 p2' ⊢
  have c2 : |Q + C| ≤ 31 / 10 := by
    rw [abs_le]; constructor <;> linarith [p2'.1, p2'.2, r1.1, r1.2, c1'.1, c1'.2]
  have r2 := abs_le.mp (rnb F.toRound (tiny_le.trans (by norm_num)) c2)
  have c2' := abs_le.mp c2
  obtain ⟨S, hS'⟩ : ∃ S, F.rn (Q + C) = S := ⟨_, rfl⟩
  rw [hS'] at r2 ⊢
  have cl := Real.one_sub_sq_div_two_le_cos (x := t)
  have cu := Real.cos_le_one t
  have c3 : |S - 2| ≤ 11 / 10 := by
    rw [abs_le]; constructor <;> nlinarith [p2'.1, p2'.2, r1.1, r1.2, r2.1, r2.2, hS.1, hS.2]
  have r3 := abs_le.mp (rnb F.toRound (tiny_le.trans (by norm_num)) c3)
  have c3' := abs_le.mp c3
  have hD' : |F.rn (S - 2)| ≤ 12 / 10 := by
    rw [abs_le]; constructor <;> linarith [r3.1, r3.2, c3'.1, c3'.2]
  obtain ⟨W, hW⟩ : ∃ W, F.rn (F.rn (2 * Q) * Q) = W := ⟨_, rfl⟩
  rw [hW] at p4 ⊢
  have h := quot_err F.toRound q0 q2 (p4.trans (mul_le_mul_of_nonneg_right (by linarith) q0.le)) (by norm_num) p4
    (B := 12 / 10) (by norm_num) hD'
  rw [abs_le] at h ⊢
  constructor <;> linarith [h.1, h.2, r1.1, r1.2, r2.1, r2.2, r3.1, r3.2, hS.1, hS.2, p2'.1, p2'.2]

/-- a coefficient computed from the norm `t`, against that of the norm `θ`: powers of both, bounds on the function -/
theorem coef_move {c p q f g B k l m : ℝ} (hp : 0 < q) (hk : |c * p - f| ≤ k * uu) (hl : |f - g| ≤ l * uu) (hm : |p - q| ≤ m * uu * q)
    (hm1 : m * uu ≤ 1 / 1000) (hm0 : 0 ≤ m) (hB : |f| ≤ B) (hkB : k * uu ≤ 1 / 1000 * B) : |c * q - g| ≤ (k + l + 102 / 100 * m * B) * uu := by
  have hu := uu_pos
  have hm' := abs_le.mp hm
  have h1 : m * uu * q ≤ 1 / 1000 * q := mul_le_mul_of_nonneg_right hm1 hp.le
  have hpp : 999 / 1000 * q ≤ p := by linarith [hm'.1]
  have hk' := abs_le.mp hk
  have hB' := abs_le.mp hB
  have h2 : |c| * p ≤ 1001 / 1000 * B := by
    have e : |c| * p = |c * p| := by rw [abs_mul, abs_of_pos (by linarith : 0 < p)]
    rw [e, abs_le]; constructor <;> linarith [hk'.1, hk'.2, hB'.1, hB'.2]
  have h3 : |c| * q ≤ 1003 / 1000 * B := by
    have := mul_le_mul_of_nonneg_left hpp (abs_nonneg c)
    have hB0 : 0 ≤ B := (abs_nonneg f).trans hB
    linarith
  have h4 : |c * q - c * p| ≤ m * uu * (1003 / 1000 * B) := by
    rw [← mul_sub, abs_mul, abs_sub_comm]
    calc |c| * |p - q| ≤ |c| * (m * uu * q) := mul_le_mul_of_nonneg_left hm (abs_nonneg _)
      _ = m * uu * (|c| * q) := by ring
      _ ≤ _ := mul_le_mul_of_nonneg_left h3 (by positivity)
  have hB0 : 0 ≤ m * uu * B := mul_nonneg (by positivity) ((abs_nonneg f).trans hB)
  have hl' := abs_le.mp hl
  rw [abs_le] at h4 ⊢
  constructor <;> linarith [h4.1, h4.2, hl'.1, hl'.2, hk'.1, hk'.2]

/-- the three coefficients, against the exact ones -/
theorem coefs (F : Fpu) (hF : F.Accurate) {t θ : ℝ} (h1 : 1 / 10 ^ 6 ≤ θ) (h2 : θ ≤ 1) (h : |t - θ| ≤ 21 * uu * θ) :
    |F.rn (F.rn (1 - F.cos t) / F.rn (t * t)) * (θ * θ) - (1 - Real.cos θ)| ≤ 200 * uu ∧
    |F.rn (F.rn (t - F.sin t) / F.rn (F.rn (t * t) * t)) * (θ * θ * θ) - (θ - Real.sin θ)| ≤ 200 * uu ∧
    |F.rn (F.rn (F.rn (F.rn (t * t) + F.rn (2 * F.cos t)) - 2) / F.rn (F.rn (2 * F.rn (t * t)) * F.rn (t * t))) * (2 * (θ * θ) * (θ * θ)) -
      (θ * θ + 2 * Real.cos θ - 2)| ≤ 340 * uu := by
  have hu := uu_pos
  have hu' := uu_le
  norm_num at hu'
  have hθ : 0 < θ := lt_of_lt_of_le (by norm_num) h1
  have h' := abs_le.mp h
  have m : uu * θ ≤ 1 / 1000000000000 * θ := mul_le_mul_of_nonneg_right (by linarith) hθ.le
  have m1 : uu * θ ≤ uu := by nlinarith
  have t1 : 1 / 10 ^ 10 ≤ t := by norm_num at h1 ⊢; linarith [h'.1]
  have t2 : t ≤ 101 / 100 := by linarith [h'.2]
  have ht : 0 < t := lt_of_lt_of_le (by norm_num) t1
  have htθ : t ≤ 1001 / 1000 * θ := by linarith
  have q2 : |t * t - θ * θ| ≤ 43 * uu * (θ * θ) := by
    have e : t * t - θ * θ = (t - θ) * (t + θ) := by ring
    rw [e, abs_mul, abs_of_pos (by linarith : 0 < t + θ)]
    calc _ ≤ 21 * uu * θ * (2001 / 1000 * θ) := mul_le_mul h (by linarith) (by linarith) (by positivity)
      _ ≤ _ := by nlinarith [mul_pos hu (mul_pos hθ hθ)]
  have q3 : |t * t * t - θ * θ * θ| ≤ 65 * uu * (θ * θ * θ) := by
    have e : t * t * t - θ * θ * θ = (t * t - θ * θ) * t + θ * θ * (t - θ) := by ring
    rw [e]
    refine (abs_add_le _ _).trans ?_
    rw [abs_mul, abs_mul, abs_of_pos ht, abs_of_pos (mul_pos hθ hθ)]
    have a1 : |t * t - θ * θ| * t ≤ 43 * uu * (θ * θ) * (1001 / 1000 * θ) := mul_le_mul q2 htθ ht.le (by positivity)
    have a2 : θ * θ * |t - θ| ≤ θ * θ * (21 * uu * θ) := mul_le_mul_of_nonneg_left h (by positivity)
    nlinarith [mul_pos hu (mul_pos hθ (mul_pos hθ hθ))]
  have q4 : |2 * (t * t) * (t * t) - 2 * (θ * θ) * (θ * θ)| ≤ 87 * uu * (2 * (θ * θ) * (θ * θ)) := by
    have e : 2 * (t * t) * (t * t) - 2 * (θ * θ) * (θ * θ) = (t * t - θ * θ) * (2 * (t * t + θ * θ)) := by ring
    have b : t * t ≤ 1003 / 1000 * (θ * θ) := by
      have := mul_le_mul htθ htθ ht.le (by positivity); nlinarith
    rw [e, abs_mul, abs_of_pos (by positivity : 0 < 2 * (t * t + θ * θ))]
    calc _ ≤ 43 * uu * (θ * θ) * (2 * (2003 / 1000 * (θ * θ))) := mul_le_mul q2 (by linarith) (by positivity) (by positivity)
      _ ≤ _ := by nlinarith [mul_pos hu (mul_pos (mul_pos hθ hθ) (mul_pos hθ hθ))]
  have hsc := abs_le.mp ((sin_lip t θ).trans h)
  have hcc := abs_le.mp ((cos_lip t θ).trans h)
  have q2' := abs_le.mp q2
  have mq : uu * (θ * θ) ≤ uu := by nlinarith
  have cs := cos_coef F hF (by norm_num at t1 ⊢; linarith) (show t * t ≤ 2 ^ 203 by norm_num; nlinarith)
  have cl := Real.one_sub_sq_div_two_le_cos (x := t)
  have cu := Real.cos_le_one t
  refine ⟨?_, ?_, ?_⟩
  · have := coef_move (q := θ * θ) (g := 1 - Real.cos θ) (B := 2) (k := 9) (l := 21) (m := 43) (by positivity) cs
      (by rw [abs_le]; constructor <;> linarith [hcc.1, hcc.2]) q2 (by linarith) (by norm_num)
      (by rw [abs_le]; constructor <;> linarith [Real.neg_one_le_cos t]) (by linarith)
    exact this.trans (by linarith)
  · have := coef_move (q := θ * θ * θ) (g := θ - Real.sin θ) (B := 202 / 100) (k := 16) (l := 42) (m := 65) (by positivity) (d_coef F hF t1 t2)
      (by rw [abs_le]; constructor <;> linarith [hsc.1, hsc.2, h'.1, h'.2]) q3 (by linarith) (by norm_num)
      (by rw [abs_le]; constructor <;> linarith [Real.sin_le_one t, Real.neg_one_le_sin t]) (by linarith)
    exact this.trans (by linarith)
  · have := coef_move (q := 2 * (θ * θ) * (θ * θ)) (g := θ * θ + 2 * Real.cos θ - 2) (B := 11 / 10) (k := 40) (l := 85) (m := 87) (by positivity) (e_coef F hF t1 t2)
      (by rw [abs_le]; constructor <;> linarith [hcc.1, hcc.2, q2'.1, q2'.2]) q4 (by linarith) (by norm_num)
      (by rw [abs_le]; constructor <;> nlinarith) (by linarith)
    exact this.trans (by linarith)

/-- entries of the rounded rotation vector's matrix -/
theorem skew_err {φ ψ : V3} {θ : ℝ} (hθp : 0 < θ) (hq : θ * θ = nsq φ) (hv : ∀ i, |ψ i - φ i| ≤ 1001 / 1000 * uu * θ) (i j : Fin 3) :
    |skew φ i j| ≤ θ ∧ |skew ψ i j - skew φ i j| ≤ 1001 / 1000 * uu * θ ∧ |skew ψ i j| ≤ 1001 / 1000 * θ ∧
    |(skew φ * skew φ) i j| ≤ θ * θ ∧ |(skew ψ * skew ψ) i j - (skew φ * skew φ) i j| ≤ 61 / 10 * (uu * (θ * θ)) := by
  have hu := uu_pos
  have hu' := uu_le
  norm_num at hu'
  have hθθ : 0 < θ * θ := by positivity
  have m4 : uu * θ ≤ 1 / 1000000 * θ := mul_le_mul_of_nonneg_right (by linarith) hθp.le
  have hA : ∀ i j, |skew φ i j| ≤ θ := skew_entry_le hθp.le (le_of_eq hq.symm)
  have hD : ∀ i j, |skew ψ i j - skew φ i j| ≤ 1001 / 1000 * uu * θ := by
    intro i j
    have p : 0 ≤ 1001 / 1000 * uu * θ := by positivity
    have v := hv
    fin_cases i <;> fin_cases j <;> simp [skew] <;> first | exact p | exact v _ |
      (rw [show ∀ a b : ℝ, -a + b = -(a - b) by intros; ring, abs_neg]; exact v _)
  have hψe : ∀ i j, |skew ψ i j| ≤ 1001 / 1000 * θ := fun i j => by
    have a := abs_le.mp (hD i j)
    have b := abs_le.mp (hA i j)
    rw [abs_le]; constructor <;> linarith [a.1, a.2, b.1, b.2]
  have hA2 : |(skew φ * skew φ) i j| ≤ θ * θ := by
    have b : ∀ k, φ k ^ 2 ≤ θ * θ := fun k => by rw [hq]; nlinarith [sq_le_nsq φ k]
    have n : θ * θ = φ 0 ^ 2 + φ 1 ^ 2 + φ 2 ^ 2 := hq
    have p : ∀ a b : Fin 3, -(φ a ^ 2 + φ b ^ 2) / 2 ≤ φ a * φ b ∧ φ a * φ b ≤ (φ a ^ 2 + φ b ^ 2) / 2 := fun a b => by
      constructor <;> nlinarith [sq_nonneg (φ a + φ b), sq_nonneg (φ a - φ b)]
    rw [n, abs_le]
    fin_cases i <;> fin_cases j <;> simp [skew, Matrix.mul_apply, Fin.sum_univ_three] <;> constructor <;>
      linarith [(p 0 1).1, (p 0 1).2, (p 0 2).1, (p 0 2).2, (p 1 2).1, (p 1 2).2,
        (p 1 0).1, (p 1 0).2, (p 2 0).1, (p 2 0).2, (p 2 1).1, (p 2 1).2, sq_nonneg (φ 0), sq_nonneg (φ 1), sq_nonneg (φ 2)]
  refine ⟨hA i j, hD i j, hψe i j, hA2, ?_⟩
  have e : (skew ψ * skew ψ) i j - (skew φ * skew φ) i j = ∑ k, ((skew ψ i k - skew φ i k) * skew ψ k j + skew φ i k * (skew ψ k j - skew φ k j)) := by
    rw [Matrix.mul_apply, Matrix.mul_apply, ← Finset.sum_sub_distrib]
    exact Finset.sum_congr rfl fun k _ => by ring
  have key : ∀ k, |(skew ψ i k - skew φ i k) * skew ψ k j + skew φ i k * (skew ψ k j - skew φ k j)| ≤ 203 / 100 * (uu * (θ * θ)) := by
    intro k
    have a1 : |(skew ψ i k - skew φ i k) * skew ψ k j| ≤ 1001 / 1000 * uu * θ * (1001 / 1000 * θ) := by
      rw [abs_mul]; exact mul_le_mul (hD i k) (hψe k j) (abs_nonneg _) (by positivity)
    have a2 : |skew φ i k * (skew ψ k j - skew φ k j)| ≤ θ * (1001 / 1000 * uu * θ) := by
      rw [abs_mul]; exact mul_le_mul (hA i k) (hD k j) (abs_nonneg _) hθp.le
    refine (abs_add_le _ _).trans ?_
    nlinarith
  rw [e]
  refine (Finset.abs_sum_le_sum_abs _ _).trans ?_
  rw [Fin.sum_univ_three]; linarith [key 0, key 1, key 2, mul_pos hu hθθ]

/-- the whole matrix `k I + c A + (d A) A` -/
theorem assemble (F : Fpu) {φ ψ : V3} {θ k c d c' d' εc εd : ℝ} (hθp : 0 < θ) (hθ1 : θ ≤ 1) (hq : θ * θ = nsq φ)
    (hv : ∀ i, |ψ i - φ i| ≤ 1001 / 1000 * uu * θ) (hk : 0 ≤ k ∧ k ≤ 1) (hc : |c| * θ ≤ 2) (hd : |d| * (θ * θ) ≤ 2)
    (hεc : |c - c'| * θ ≤ εc) (hεd : |d - d'| * (θ * θ) ≤ εd) (i j : Fin 3) :
    |addM F.toRound (addM F.toRound (k • (1 : M3)) (smulM F.toRound c (skew ψ))) (mulM F (smulM F.toRound d (skew ψ)) (skew ψ)) i j -
      (k • (1 : M3) + c' • skew φ + d' • (skew φ * skew φ)) i j| ≤ εc + εd + 60 * uu := by
  have hu := uu_pos
  have hu' := uu_le
  norm_num at hu'
  have hθθ : 0 < θ * θ := by positivity
  obtain ⟨hA, hD, hψ, hA2, hD2⟩ := skew_err hθp hq hv i j
  have hψe := fun a b => (skew_err hθp hq hv a b).2.2.1
  -- c A
  have a1 : |c * skew ψ i j| ≤ 2003 / 1000 := by
    rw [abs_mul]
    calc _ ≤ |c| * (1001 / 1000 * θ) := mul_le_mul_of_nonneg_left hψ (abs_nonneg _)
      _ ≤ _ := by linarith
  have r1 := abs_le.mp (rnb F.toRound (tiny_le.trans (by norm_num)) a1)
  -- d A
  have a2 : ∀ a b, |d * skew ψ a b| ≤ 2003 / 1000 / θ := fun a b => by
    rw [le_div_iff₀ hθp, abs_mul]
    calc |d| * |skew ψ a b| * θ ≤ |d| * (1001 / 1000 * θ) * θ :=
          mul_le_mul_of_nonneg_right (mul_le_mul_of_nonneg_left (hψe a b) (abs_nonneg _)) hθp.le
      _ = 1001 / 1000 * (|d| * (θ * θ)) := by ring
      _ ≤ _ := by linarith
  have hM : tiny ≤ 2003 / 1000 / θ := by
    rw [le_div_iff₀ hθp]
    calc tiny * θ ≤ 1 / 10 ^ 80 * 1 := mul_le_mul tiny_le hθ1 hθp.le (by norm_num)
      _ ≤ _ := by norm_num
  have r2 : ∀ a b, |F.rn (d * skew ψ a b) - d * skew ψ a b| ≤ 1001 / 1000 * uu * (2003 / 1000 / θ) := fun a b => rnb F.toRound hM (a2 a b)
  have r2' : ∀ a b, |F.rn (d * skew ψ a b)| ≤ 1001 / 1000 * (2003 / 1000 / θ) := fun a b => rnb' F.toRound hM (a2 a b)
  have p1 := dot_err F (A := smulM F.toRound d (skew ψ)) (B := skew ψ) (i := i) (j := j) (M := 201 / 100) (tiny_le.trans (by norm_num)) (fun l => by
    rw [abs_mul]
    calc |F.rn (d * skew ψ i l)| * |skew ψ l j| ≤ 1001 / 1000 * (2003 / 1000 / θ) * (1001 / 1000 * θ) :=
          mul_le_mul (r2' i l) (hψe l j) (abs_nonneg _) (by positivity)
      _ = 1001 / 1000 * (2003 / 1000) * (1001 / 1000) := by field_simp
      _ ≤ _ := by norm_num)
  have p2 : |(smulM F.toRound d (skew ψ) * skew ψ) i j - d * (skew ψ * skew ψ) i j| ≤ 61 / 10 * uu := by
    have e : (smulM F.toRound d (skew ψ) * skew ψ) i j - d * (skew ψ * skew ψ) i j =
        ∑ l, (F.rn (d * skew ψ i l) - d * skew ψ i l) * skew ψ l j := by
      rw [Matrix.mul_apply, Matrix.mul_apply, Finset.mul_sum, ← Finset.sum_sub_distrib]
      exact Finset.sum_congr rfl fun l _ => by unfold smulM; ring
    have key : ∀ l, |(F.rn (d * skew ψ i l) - d * skew ψ i l) * skew ψ l j| ≤ 203 / 100 * uu := fun l => by
      rw [abs_mul]
      calc _ ≤ 1001 / 1000 * uu * (2003 / 1000 / θ) * (1001 / 1000 * θ) := mul_le_mul (r2 i l) (hψe l j) (abs_nonneg _) (by positivity)
        _ = 1001 / 1000 * (2003 / 1000) * (1001 / 1000) * uu := by field_simp
        _ ≤ _ := by nlinarith
    rw [e]
    refine (Finset.abs_sum_le_sum_abs _ _).trans ?_
    rw [Fin.sum_univ_three]; linarith [key 0, key 1, key 2]
  -- against the exact ones
  have g1 : |c * skew ψ i j - c' * skew φ i j| ≤ εc + 21 / 10 * uu := by
    have e : c * skew ψ i j - c' * skew φ i j = c * (skew ψ i j - skew φ i j) + (c - c') * skew φ i j := by ring
    rw [e]
    refine (abs_add_le _ _).trans ?_
    rw [abs_mul, abs_mul]
    have b1 : |c| * |skew ψ i j - skew φ i j| ≤ |c| * (1001 / 1000 * uu * θ) := mul_le_mul_of_nonneg_left hD (abs_nonneg _)
    have b2 : |c - c'| * |skew φ i j| ≤ |c - c'| * θ := mul_le_mul_of_nonneg_left hA (abs_nonneg _)
    have b3 : uu * (|c| * θ) ≤ uu * 2 := mul_le_mul_of_nonneg_left hc hu.le
    linarith
  have g2 : |d * (skew ψ * skew ψ) i j - d' * (skew φ * skew φ) i j| ≤ εd + 123 / 10 * uu := by
    have e : d * (skew ψ * skew ψ) i j - d' * (skew φ * skew φ) i j =
        d * ((skew ψ * skew ψ) i j - (skew φ * skew φ) i j) + (d - d') * (skew φ * skew φ) i j := by ring
    rw [e]
    refine (abs_add_le _ _).trans ?_
    rw [abs_mul, abs_mul]
    have b1 : |d| * |(skew ψ * skew ψ) i j - (skew φ * skew φ) i j| ≤ |d| * (61 / 10 * (uu * (θ * θ))) := mul_le_mul_of_nonneg_left hD2 (abs_nonneg _)
    have b2 : |d - d'| * |(skew φ * skew φ) i j| ≤ |d - d'| * (θ * θ) := mul_le_mul_of_nonneg_left hA2 (abs_nonneg _)
    have b3 : uu * (|d| * (θ * θ)) ≤ uu * 2 := mul_le_mul_of_nonneg_left hd hu.le
    linarith
  -- size of the last product
  have s2 : |d * (skew ψ * skew ψ) i j| ≤ 201 / 100 := by
    rw [abs_mul]
    have h1 := abs_add_le ((skew ψ * skew ψ) i j - (skew φ * skew φ) i j) ((skew φ * skew φ) i j)
    rw [sub_add_cancel] at h1
    have h2 : |(skew ψ * skew ψ) i j| ≤ 1001 / 1000 * (θ * θ) := by
      have : uu * (θ * θ) ≤ 1 / 1000000 * (θ * θ) := mul_le_mul_of_nonneg_right (by linarith) hθθ.le
      linarith
    calc _ ≤ |d| * (1001 / 1000 * (θ * θ)) := mul_le_mul_of_nonneg_left h2 (abs_nonneg _)
      _ ≤ _ := by linarith
  have hI : |(k • (1 : M3)) i j| ≤ 1 := by
    rw [Matrix.smul_apply, Matrix.one_apply]; split <;> simp [abs_of_nonneg hk.1, hk.2]
  have eL : addM F.toRound (addM F.toRound (k • (1 : M3)) (smulM F.toRound c (skew ψ))) (mulM F (smulM F.toRound d (skew ψ)) (skew ψ)) i j =
    F.rn (F.rn ((k • (1 : M3)) i j + F.rn (c * skew ψ i j)) + mulM F (smulM F.toRound d (skew ψ)) (skew ψ) i j) := rfl
  have eR : (k • (1 : M3) + c' • skew φ + d' • (skew φ * skew φ)) i j = (k • (1 : M3)) i j + c' * skew φ i j + d' * (skew φ * skew φ) i j := rfl
  rw [eL, eR]
  generalize (k • (1 : M3)) i j = I at *
  generalize mulM F (smulM F.toRound d (skew ψ)) (skew ψ) i j = P at *
  generalize (smulM F.toRound d (skew ψ) * skew ψ) i j = P1 at *
  generalize d * (skew ψ * skew ψ) i j = P2 at *
  generalize d' * (skew φ * skew φ) i j = P3 at *
  generalize c' * skew φ i j = C3 at *
  generalize c * skew ψ i j = C2 at *
  have hI' := abs_le.mp hI
  have a1' := abs_le.mp a1
  have s2' := abs_le.mp s2
  have p1' := abs_le.mp p1
  have p2' := abs_le.mp p2
  obtain ⟨C1, hC1⟩ : ∃ C1, F.rn C2 = C1 := ⟨_, rfl⟩
  rw [hC1] at r1 ⊢
  have t1 : |I + C1| ≤ 31 / 10 := by rw [abs_le]; constructor <;> linarith [r1.1, r1.2, hI'.1, hI'.2, a1'.1, a1'.2]
  have r3 := abs_le.mp (rnb F.toRound (tiny_le.trans (by norm_num)) t1)
  have t1' := abs_le.mp t1
  obtain ⟨S, hS⟩ : ∃ S, F.rn (I + C1) = S := ⟨_, rfl⟩
  rw [hS] at r3 ⊢
  have t2 : |S + P| ≤ 52 / 10 := by
    rw [abs_le]; constructor <;> linarith [r3.1, r3.2, p1'.1, p1'.2, p2'.1, p2'.2, t1'.1, t1'.2, s2'.1, s2'.2]
  have r4 := abs_le.mp (rnb F.toRound (tiny_le.trans (by norm_num)) t2)
  have g1' := abs_le.mp g1
  have g2' := abs_le.mp g2
  rw [abs_le]
  constructor <;> linarith [r1.1, r1.2, r3.1, r3.2, r4.1, r4.2, p1'.1, p1'.2, p2'.1, p2'.2, g1'.1, g1'.2, g2'.1, g2'.2]

/-- the computed norm, against the exact one -/
theorem norm_acc (F : Fpu) {φ ψ : V3} (hψ : ∀ i, ψ i = F.rn (φ i)) (h : 1 / 10 ^ 6 ≤ Drift.norm3 φ) :
    ¬ norm3 F ψ < F.rn TOLERANCE ∧ |norm3 F ψ - Drift.norm3 φ| ≤ 21 * uu * Drift.norm3 φ ∧
      ∀ i, |ψ i - φ i| ≤ 1001 / 1000 * uu * Drift.norm3 φ := by
  have hu := uu_pos
  have hu' := uu_le
  norm_num at hu'
  have hq := norm3_mul_self φ
  have hn : (1 / 10 ^ 12 : ℝ) ≤ nsq φ := by
    rw [← hq]
    calc (1 : ℝ) / 10 ^ 12 = 1 / 10 ^ 6 * (1 / 10 ^ 6) := by norm_num
      _ ≤ _ := mul_le_mul h h (by norm_num) (norm3_nonneg φ)
  have hn2 : (4 / 10 ^ 20 : ℝ) ≤ nsq φ := le_trans (by norm_num) hn
  obtain ⟨hv, hN1⟩ := vec_err F.toRound hψ hn2
  have hN1' := abs_le.mp hN1
  have m0 : uu * nsq φ ≤ 1 / 1000000 * nsq φ := mul_le_mul_of_nonneg_right (by linarith) (nsq_nonneg' φ)
  have hbig : ¬ norm3 F ψ < F.rn TOLERANCE := norm_large F (by
    have : (39 / 10 ^ 21 : ℝ) ≤ 999 / 1000 * nsq φ := by norm_num at hn ⊢; linarith
    linarith [hN1'.1])
  refine ⟨hbig, ?_, hv⟩
  obtain ⟨h1, hN⟩ := norm_err F hbig
  rw [← hq] at hN1' m0
  have hN' := abs_le.mp hN
  have htp : 0 < norm3 F ψ := lt_of_lt_of_le (by norm_num) h1
  have hθ : 0 < Drift.norm3 φ := lt_of_lt_of_le (by norm_num) h
  generalize norm3 F ψ = t at *
  generalize Drift.norm3 φ = θ at *
  have htt : 0 < t * t := by positivity
  have m1 : uu * (t * t) ≤ 1 / 1000000 * (t * t) := mul_le_mul_of_nonneg_right (by linarith) htt.le
  have m2 : uu * (t * t) ≤ 1001 / 1000 * (uu * (θ * θ)) := by
    have : t * t ≤ 1001 / 1000 * (θ * θ) := by linarith [hN'.1, hN1'.2]
    have := mul_le_mul_of_nonneg_left this hu.le
    linarith
  have hU : 0 ≤ uu * (θ * θ) := by positivity
  exact root_close htp.le hθ (by rw [abs_le]; constructor <;> linarith [hN'.1, hN'.2, hN1'.1, hN1'.2])

/-- from a multiple of a power of the norm to the coefficient -/
theorem coef_div {c f q k : ℝ} (hq : 0 < q) (h : |c * q - f| ≤ k) : |c - f / q| * q ≤ k := by
  have e : |c - f / q| * q = |c * q - f| := by
    rw [← abs_of_pos hq, ← abs_mul, sub_mul, abs_of_pos hq, div_mul_cancel₀ _ hq.ne']
  rw [e]; exact h

/-- the computed `Gamma_SO3(., 1)` -/
theorem gamma1_acc (F : Fpu) (hF : F.Accurate) {φ ψ : V3} (hψ : ∀ i, ψ i = F.rn (φ i)) {τ : ℝ} (hτ : 1 / 10 ^ 6 ≤ τ) (hτ1 : τ ≤ 1)
    (h : φ = 0 ∨ τ ≤ Drift.norm3 φ ∧ Drift.norm3 φ ≤ 1) (i j : Fin 3) : |gamma1 F ψ i j - Gam1 φ i j| ≤ 500 * uu / τ := by
  have hu := uu_pos
  have hu' := uu_le
  norm_num at hu'
  have hτ0 : 0 < τ := lt_of_lt_of_le (by norm_num) hτ
  rcases h with rfl | ⟨h1, h2⟩
  · have e : ψ = 0 := by ext i; rw [hψ]; exact rn_of_F F.toRound IsF.zero
    have r1 : F.rn 1 = 1 := rn_of_F F.toRound (by simpa using IsF.nat (n := 1) (by norm_num))
    have r0 : F.rn 0 = 0 := rn_of_F F.toRound IsF.zero
    have h3 : gamma1 F (0 : V3) = 1 := by
      unfold gamma1; dsimp only; rw [if_pos (norm_zero_small F)]
      ext a b
      simp only [smulM, div_one, r1, one_mul, Matrix.one_apply]
      split <;> simp [r0, r1]
    have h4 : Gam1 (0 : V3) = 1 := by unfold Gam1; rw [if_pos norm3_zero_lt]
    rw [e, h3, h4, sub_self, abs_zero]; positivity
  obtain ⟨hbig, ht, hv⟩ := norm_acc F hψ (hτ.trans h1)
  have hθ : 0 < Drift.norm3 φ := hτ0.trans_le h1
  have hq := norm3_mul_self φ
  obtain ⟨k1, k2, -⟩ := coefs F hF (hτ.trans h1) h2 ht
  have hT : ¬ Drift.norm3 φ < TOLERANCE := not_lt.mpr ((show TOLERANCE ≤ 1 / 10 ^ 6 by unfold TOLERANCE; norm_num).trans (hτ.trans h1))
  have eG : Gam1 φ = (1 : ℝ) • (1 : M3) + ((1 - Real.cos (Drift.norm3 φ)) / (Drift.norm3 φ * Drift.norm3 φ)) • skew φ +
      ((Drift.norm3 φ - Real.sin (Drift.norm3 φ)) / (Drift.norm3 φ * Drift.norm3 φ * Drift.norm3 φ)) • (skew φ * skew φ) := by
    unfold Gam1; rw [if_neg hT]; unfold gammaCase1; rw [Matrix.smul_mul, one_smul]
  have eF : gamma1 F ψ = addM F.toRound (addM F.toRound ((1 : ℝ) • (1 : M3)) (smulM F.toRound (F.rn (F.rn (1 - F.cos (norm3 F ψ)) / F.rn (norm3 F ψ * norm3 F ψ))) (skew ψ)))
      (mulM F (smulM F.toRound (F.rn (F.rn (norm3 F ψ - F.sin (norm3 F ψ)) / F.rn (F.rn (norm3 F ψ * norm3 F ψ) * norm3 F ψ))) (skew ψ)) (skew ψ)) := by
    unfold gamma1; dsimp only; rw [if_neg hbig, one_smul]
  rw [eG, eF]
  have sl := Real.sin_gt_sub_cube hθ
  have sle := Real.sin_le hθ.le
  have cl := Real.one_sub_sq_div_two_le_cos (x := Drift.norm3 φ)
  have cu := Real.cos_le_one (Drift.norm3 φ)
  generalize F.rn (F.rn (1 - F.cos (norm3 F ψ)) / F.rn (norm3 F ψ * norm3 F ψ)) = c at *
  generalize F.rn (F.rn (norm3 F ψ - F.sin (norm3 F ψ)) / F.rn (F.rn (norm3 F ψ * norm3 F ψ) * norm3 F ψ)) = d at *
  generalize Drift.norm3 φ = θ at *
  have θ6 : 1 / 10 ^ 6 ≤ θ := hτ.trans h1
  have u6 : uu / θ ≤ 1 / 10 ^ 9 := by
    rw [div_le_iff₀ hθ]
    norm_num at θ6 ⊢; linarith
  have uτ : uu / θ ≤ uu / τ := div_le_div_of_nonneg_left hu.le hτ0 h1
  have u1 : uu ≤ uu / τ := by rw [le_div_iff₀ hτ0]; nlinarith
  have hεc : |c - (1 - Real.cos θ) / (θ * θ)| * θ ≤ 200 * uu / θ := by
    have := coef_div (by positivity) k1
    rw [le_div_iff₀ hθ, mul_assoc]; exact this
  have hεd : |d - (θ - Real.sin θ) / (θ * θ * θ)| * (θ * θ) ≤ 200 * uu / θ := by
    have := coef_div (by positivity) k2
    rw [le_div_iff₀ hθ, mul_assoc]; exact this
  have bc : |c| * θ ≤ 2 := by
    have e : |(1 - Real.cos θ) / (θ * θ)| * θ ≤ 1 := by
      rw [abs_of_nonneg (div_nonneg (by linarith) (by positivity)), div_mul_eq_mul_div, div_le_one (by positivity)]
      nlinarith
    have := abs_add_le (c - (1 - Real.cos θ) / (θ * θ)) ((1 - Real.cos θ) / (θ * θ))
    rw [sub_add_cancel] at this
    have h3 := mul_le_mul_of_nonneg_right this hθ.le
    have e2 : 200 * uu / θ = 200 * (uu / θ) := by ring
    rw [e2] at hεc
    linarith
  have bd : |d| * (θ * θ) ≤ 2 := by
    have e : |(θ - Real.sin θ) / (θ * θ * θ)| * (θ * θ) ≤ 1 := by
      rw [abs_of_nonneg (div_nonneg (by linarith) (by positivity)), div_mul_eq_mul_div, div_le_one (by positivity)]
      have : θ - Real.sin θ ≤ θ := by nlinarith [pow_pos hθ 3]
      nlinarith [mul_pos hθ hθ]
    have := abs_add_le (d - (θ - Real.sin θ) / (θ * θ * θ)) ((θ - Real.sin θ) / (θ * θ * θ))
    rw [sub_add_cancel] at this
    have h3 := mul_le_mul_of_nonneg_right this (mul_pos hθ hθ).le
    have e2 : 200 * uu / θ = 200 * (uu / θ) := by ring
    rw [e2] at hεd
    linarith
  refine (assemble F hθ h2 hq hv ⟨by norm_num, le_rfl⟩ bc bd hεc hεd i j).trans ?_
  have e1 : 200 * uu / θ = 200 * (uu / θ) := by ring
  have e2 : 500 * uu / τ = 500 * (uu / τ) := by ring
  rw [e1, e2]; linarith

/-- the computed `Gamma_SO3(., 2)` -/
theorem gamma2_acc (F : Fpu) (hF : F.Accurate) {φ ψ : V3} (hψ : ∀ i, ψ i = F.rn (φ i)) {τ : ℝ} (hτ : 1 / 10 ^ 6 ≤ τ) (hτ1 : τ ≤ 1)
    (h : φ = 0 ∨ τ ≤ Drift.norm3 φ ∧ Drift.norm3 φ ≤ 1) (i j : Fin 3) : |gamma2 F ψ i j - Gam2 φ i j| ≤ 500 * uu / (τ * τ) := by
  have hu := uu_pos
  have hu' := uu_le
  norm_num at hu'
  have hτ0 : 0 < τ := lt_of_lt_of_le (by norm_num) hτ
  have r0 : F.rn 0 = 0 := rn_of_F F.toRound IsF.zero
  have rh : F.rn (1 / 2) = 1 / 2 := rn_of_F F.toRound ⟨1, -1, by norm_num, by norm_num, by norm_num⟩
  have eh : smulM F.toRound (1 / 2) 1 = (1 / 2 : ℝ) • (1 : M3) := by
    ext a b
    simp only [smulM, Matrix.smul_apply, Matrix.one_apply]
    split
    · simpa using rh
    · simp [r0]
  rcases h with rfl | ⟨h1, h2⟩
  · have e : ψ = 0 := by ext i; rw [hψ]; exact rn_of_F F.toRound IsF.zero
    have h3 : gamma2 F (0 : V3) = (1 / 2 : ℝ) • (1 : M3) := by
      unfold gamma2; dsimp only; rw [if_pos (norm_zero_small F), rh, eh]
    have h4 : Gam2 (0 : V3) = (1 / 2 : ℝ) • 1 := by unfold Gam2; rw [if_pos norm3_zero_lt]
    rw [e, h3, h4, sub_self, abs_zero]; positivity
  obtain ⟨hbig, ht, hv⟩ := norm_acc F hψ (hτ.trans h1)
  have hθ : 0 < Drift.norm3 φ := hτ0.trans_le h1
  have hq := norm3_mul_self φ
  obtain ⟨-, k2, k3⟩ := coefs F hF (hτ.trans h1) h2 ht
  have hT : ¬ Drift.norm3 φ < TOLERANCE := not_lt.mpr ((show TOLERANCE ≤ 1 / 10 ^ 6 by unfold TOLERANCE; norm_num).trans (hτ.trans h1))
  have eG : Gam2 φ = (1 / 2 : ℝ) • (1 : M3) + ((Drift.norm3 φ - Real.sin (Drift.norm3 φ)) / (Drift.norm3 φ * Drift.norm3 φ * Drift.norm3 φ)) • skew φ +
      ((Drift.norm3 φ * Drift.norm3 φ + 2 * Real.cos (Drift.norm3 φ) - 2) / (2 * (Drift.norm3 φ * Drift.norm3 φ) * (Drift.norm3 φ * Drift.norm3 φ))) • (skew φ * skew φ) := by
    unfold Gam2; rw [if_neg hT]; unfold gammaCase2; rw [Matrix.smul_mul]; norm_num
  have eF : gamma2 F ψ = addM F.toRound (addM F.toRound ((1 / 2 : ℝ) • (1 : M3)) (smulM F.toRound (F.rn (F.rn (norm3 F ψ - F.sin (norm3 F ψ)) / F.rn (F.rn (norm3 F ψ * norm3 F ψ) * norm3 F ψ))) (skew ψ)))
      (mulM F (smulM F.toRound (F.rn (F.rn (F.rn (F.rn (norm3 F ψ * norm3 F ψ) + F.rn (2 * F.cos (norm3 F ψ))) - 2) / F.rn (F.rn (2 * F.rn (norm3 F ψ * norm3 F ψ)) * F.rn (norm3 F ψ * norm3 F ψ)))) (skew ψ)) (skew ψ)) := by
    unfold gamma2; dsimp only; rw [if_neg hbig, eh]
  rw [eG, eF]
  have sl := Real.sin_gt_sub_cube hθ
  have sle := Real.sin_le hθ.le
  have cl := Real.one_sub_sq_div_two_le_cos (x := Drift.norm3 φ)
  have cu := Real.cos_le_one (Drift.norm3 φ)
  generalize F.rn (F.rn (F.rn (F.rn (norm3 F ψ * norm3 F ψ) + F.rn (2 * F.cos (norm3 F ψ))) - 2) / F.rn (F.rn (2 * F.rn (norm3 F ψ * norm3 F ψ)) * F.rn (norm3 F ψ * norm3 F ψ))) = e at *
  generalize F.rn (F.rn (norm3 F ψ - F.sin (norm3 F ψ)) / F.rn (F.rn (norm3 F ψ * norm3 F ψ) * norm3 F ψ)) = d at *
  generalize Drift.norm3 φ = θ at *
  have θ6 : 1 / 10 ^ 6 ≤ θ := hτ.trans h1
  have hθθ : 0 < θ * θ := mul_pos hθ hθ
  have θ12 : 1 / 10 ^ 12 ≤ θ * θ := by
    calc (1 : ℝ) / 10 ^ 12 = 1 / 10 ^ 6 * (1 / 10 ^ 6) := by norm_num
      _ ≤ _ := mul_le_mul θ6 θ6 (by norm_num) hθ.le
  have u6 : uu / (θ * θ) ≤ 1 / 10 ^ 3 := by
    rw [div_le_iff₀ hθθ]
    norm_num at θ12 ⊢; linarith
  have uτ : uu / (θ * θ) ≤ uu / (τ * τ) := div_le_div_of_nonneg_left hu.le (by positivity) (mul_le_mul h1 h1 hτ0.le hθ.le)
  have u1 : uu ≤ uu / (τ * τ) := by
    rw [le_div_iff₀ (by positivity)]
    exact mul_le_of_le_one_right hu.le (by nlinarith)
  have hεd : |d - (θ - Real.sin θ) / (θ * θ * θ)| * θ ≤ 200 * uu / (θ * θ) := by
    have := coef_div (by positivity) k2
    rw [le_div_iff₀ hθθ]; refine le_trans (le_of_eq ?_) this; ring
  have hεe : |e - (θ * θ + 2 * Real.cos θ - 2) / (2 * (θ * θ) * (θ * θ))| * (θ * θ) ≤ 170 * uu / (θ * θ) := by
    have := coef_div (by positivity) k3
    rw [le_div_iff₀ hθθ]
    have e2 : |e - (θ * θ + 2 * Real.cos θ - 2) / (2 * (θ * θ) * (θ * θ))| * (2 * (θ * θ) * (θ * θ)) =
      2 * (|e - (θ * θ + 2 * Real.cos θ - 2) / (2 * (θ * θ) * (θ * θ))| * (θ * θ) * (θ * θ)) := by ring
    linarith
  have bd : |d| * θ ≤ 2 := by
    have e : |(θ - Real.sin θ) / (θ * θ * θ)| * θ ≤ 1 := by
      rw [abs_of_nonneg (div_nonneg (by linarith) (by positivity)), div_mul_eq_mul_div, div_le_one (by positivity)]
      have : θ - Real.sin θ ≤ θ * θ * θ := by nlinarith [pow_pos hθ 3]
      nlinarith [mul_pos hθ hθ, mul_pos hθθ hθ]
    have := abs_add_le (d - (θ - Real.sin θ) / (θ * θ * θ)) ((θ - Real.sin θ) / (θ * θ * θ))
    rw [sub_add_cancel] at this
    have h3 := mul_le_mul_of_nonneg_right this hθ.le
    have e2 : 200 * uu / (θ * θ) = 200 * (uu / (θ * θ)) := by ring
    rw [e2] at hεd
    linarith
  have be : |e| * (θ * θ) ≤ 2 := by
    have h0 : |(θ * θ + 2 * Real.cos θ - 2) / (2 * (θ * θ) * (θ * θ))| * (θ * θ) ≤ 1 := by
      rw [abs_of_nonneg (div_nonneg (by nlinarith) (by positivity)), div_mul_eq_mul_div, div_le_one (by positivity)]
      have : θ * θ + 2 * Real.cos θ - 2 ≤ 2 * (θ * θ) := by linarith
      nlinarith
    have := abs_add_le (e - (θ * θ + 2 * Real.cos θ - 2) / (2 * (θ * θ) * (θ * θ))) ((θ * θ + 2 * Real.cos θ - 2) / (2 * (θ * θ) * (θ * θ)))
    rw [sub_add_cancel] at this
    have h3 := mul_le_mul_of_nonneg_right this hθθ.le
    have e2 : 170 * uu / (θ * θ) = 170 * (uu / (θ * θ)) := by ring
    rw [e2] at hεe
    linarith
  refine (assemble F hθ h2 hq hv ⟨by norm_num, by norm_num⟩ bd be hεd hεe i j).trans ?_
  have e1 : 200 * uu / (θ * θ) = 200 * (uu / (θ * θ)) := by ring
  have e1' : 170 * uu / (θ * θ) = 170 * (uu / (θ * θ)) := by ring
  have e2 : 500 * uu / (τ * τ) = 500 * (uu / (τ * τ)) := by ring
  rw [e1, e1', e2]; linarith

end F64
end Drift
