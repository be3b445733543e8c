import Verif.Lemmas.RoundWit

/-!
# `Phi35L` in binary64 arithmetic for one motion: the value
-/
namespace Drift
namespace F64
namespace Wit
open Matrix

/-- a robot that turns at 6e-6 rad/s about the vertical axis -/
noncomputable def w0 : V3 := ![0, 0, 51/8388608]
/-- at rest otherwise: the accelerometer shows gravity -/
noncomputable def a0 : V3 := ![0, 0, 39/4]

theorem skew_bk (x : ℝ) : skew ![0, 0, x] = bk 0 x 0 := by
  ext i j; fin_cases i <;> fin_cases j <;> simp [skew, bk]
theorem one_bk : (1 : M3) = bk 1 0 1 := by
  ext i j; fin_cases i <;> fin_cases j <;> simp [bk]
theorem bk_T (p q r : ℝ) : (bk p q r)ᵀ = bk p (-q) r := by
  ext i j; fin_cases i <;> fin_cases j <;> simp [bk]
theorem phi0 (R : Round) : smulV R (1/128) w0 = ![0, 0, 51/1073741824] := by
  ext i; fin_cases i
  · simp [smulV, w0, rn0]
  · simp [smulV, w0, rn0]
  · simpa [smulV, w0] using sc_phi R
theorem norm_z (F : Fpu) {x y : ℝ} (hx : 0 ≤ x) (h : F.rn (x * x) = y) (hy : x * x = y) (hF : F.rn x = x) : norm3 F ![0, 0, x] = x := by
  have h1 : F.rn y = y := by rw [← h, rnrn F.toRound]
  have h2 : Real.sqrt y = x := by rw [← hy, Real.sqrt_mul_self hx]
  unfold norm3 sum3
  split <;> simp [h, rn0 F.toRound, h1, h2, hF]
theorem norm_w (F : Fpu) : norm3 F w0 = 51/8388608 :=
  norm_z F (by norm_num) (sc_nsq F.toRound) (by norm_num) (rn_of_F F.toRound ⟨51, -23, by norm_num, by norm_num, by norm_num⟩)
theorem norm_phi (F : Fpu) : norm3 F ![0, 0, 51/1073741824] = 51/1073741824 :=
  norm_z F (by norm_num) (sc_xsq F.toRound) (by norm_num) (rn_of_F F.toRound ⟨51, -30, by norm_num, by norm_num, by norm_num⟩)
theorem norm_nphi (F : Fpu) : norm3 F ![0, 0, -(51/1073741824)] = 51/1073741824 := by
  have h := norm_phi F
  simp only [norm3, cons_val_zero, cons_val_one, cons_val, neg_mul_neg] at h ⊢
  exact h
theorem tol (R : Round) : ¬ (51/1073741824 : ℝ) < R.rn TOLERANCE := by
  have h := rn_mono R (show TOLERANCE ≤ (51/1073741824 : ℝ) by norm_num [TOLERANCE])
  rw [rn_of_F R (x := 51/1073741824) ⟨51, -30, by norm_num, by norm_num, by norm_num⟩] at h
  exact not_lt.mpr h

theorem mul_zero_bk (F : Fpu) (A : M3) : mulM F A (bk 0 0 0) = bk 0 0 0 := by
  have e : bk 0 0 0 = 0 := by ext i j; fin_cases i <;> fin_cases j <;> simp [bk]
  rw [e]; ext i j; simp [mulM, sum3, rn0 F.toRound]

variable (F : Fpu) (hs : ∀ x, F.sin x = F.rn (Real.sin x)) (hc : ∀ x, F.cos x = F.rn (Real.cos x))

include hs hc

theorem rod1 : rodrigues F ![0, 0, 51/1073741824] (51/1073741824) =
    bk (4503599627370491/4503599627370496) (7177611906121725/151115727451828646838272) 1 := by
  unfold rodrigues
  dsimp only
  rw [hs, hc, sin1, cos1, sc_s, sc_c, skew_bk, one_bk, st0, st1, st2, st3, st4]
theorem rod2 : rodrigues F ![0, 0, -(51/1073741824)] (51/1073741824) =
    bk (4503599627370491/4503599627370496) (-(7177611906121725/151115727451828646838272)) 1 := by
  unfold rodrigues
  dsimp only
  rw [hs, hc, sin1, cos1, sc_s, sc_c, skew_bk, one_bk, st14, st15, st16, st17, st18]
theorem g0 : gamma0 F ![0, 0, 51/1073741824] =
    bk (4503599627370491/4503599627370496) (7177611906121725/151115727451828646838272) 1 := by
  unfold gamma0
  dsimp only
  rw [norm_phi, if_neg (tol _), rod1 F hs hc]
theorem g3 (pow4 : ℝ → ℝ) : gamma3 F pow4 ![0, 0, -(51/1073741824)] =
    bk (6004799503160661/36028797018963968) 0 (6004799503160661/36028797018963968) := by
  unfold gamma3
  dsimp only
  rw [norm_nphi, if_neg (tol _), rod2 F hs hc, skew_bk, one_bk, st5, sc_one, st6, st7, st8, sc_half, st9, st10, st11, sc_sixth, st12, st13,
    st19, mul_zero_bk F, st20, st21]

theorem phi35_value (pow4 : ℝ → ℝ) : phi35 F pow4 w0 a0 (1/128) =
    bk (-(2711713514691441/281474976710656)) (1539758898398677/1180591620717411303424) 0 := by
  have e : (-![0, 0, 51/1073741824] : V3) = ![0, 0, -(51/1073741824)] := by ext i; fin_cases i <;> simp
  have ew : skew w0 = bk 0 (51/8388608) 0 := skew_bk _
  have ea : skew a0 = bk 0 (39/4) 0 := skew_bk _
  unfold phi35
  dsimp only
  rw [phi0, e, g0 F hs hc, g3 F hs hc, ew, ea, norm_w, bk_T]
  simp only [sc_x, sc_2x, sc_dt2, sc_dt3, sc_t2, sc_t3, sc_t4, sc_t5, sc_t6, sc_t7, hs, hc, sin1, cos1, sin2, cos2, sc_xsq, sc_x3, sc_xc, sc_xs,
    sc_k1, sc_k2, sc_k3, sc_k4, sc_k5, sc_k6]
  simp only [st22, st23, st24, st25, st26, st27, st28, st29, st30, st31, st32, st33, st34, st35, st36, st37, st38, st39, st40, st41, st42, st43, st44, st45, st46, st47]

end Wit
end F64
end Drift
