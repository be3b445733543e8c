import Verif.Lemmas.GammaMore
import Mathlib.Analysis.Real.Pi.Bounds

/-!
# Properties C01 - C09: `src/math/lie_group.cpp`
-/
namespace Drift
open Matrix Mat Nat

/-- **C01**: for every `w`, `Exp_SO3(w)` returns a proper rotation. -/
theorem C01_exp_SO3_rotation (w : V3) : ∃ R, exp_SO3 w = some R ∧ IsRot R :=
  ⟨Gam0 w, gamma_SO3_zero w, Gam0_isRot w⟩

/-- non-vacuity: outside the tolerance ball the result is not just the identity:
a half turn about the x axis. -/
example : exp_SO3 ![Real.pi, 0, 0] = some !![1, 0, 0; 0, -1, 0; 0, 0, -1] := by
  have hn : norm3 ![Real.pi, 0, 0] = Real.pi := by
    unfold norm3; simp [Real.sqrt_sq Real.pi_pos.le]
  have hge : ¬ norm3 ![Real.pi, 0, 0] < TOLERANCE := by
    rw [hn]; unfold TOLERANCE; have := Real.pi_gt_three; norm_num; linarith
  rw [exp_SO3, gamma_SO3_zero, Gam0, if_neg hge, gammaCase0_eq, hn]
  have hp := Real.pi_ne_zero
  congr 1
  ext i j
  fin_cases i <;> fin_cases j <;>
    simp [skew, Matrix.mul_apply, Fin.sum_univ_three, nsq] <;> field_simp <;> norm_num

/-- **C02**: outside the tolerance ball and for every order `m ≤ 20`, `Gamma_SO3(w,m)` is the sum of
the documented series `Σ_n (w^)^n/(n+m)!`. -/
theorem C02_gamma_SO3_series (w : V3) (hw : (1e-10 : ℝ) ≤ norm3 w) (m : ℕ) (hm : m ≤ 20) :
    ∃ G, gamma_SO3 w m = some G ∧
      HasSum (fun n : ℕ => (1 / ((n + m)! : ℝ)) • skew w ^ n) G :=
  ⟨_, gamma_SO3_closed (not_lt.mpr hw) m hm,
    gamma_series (norm3_pos_of_not_lt (not_lt.mpr hw)).ne' m⟩

/-- **C02**, in particular: `Exp_SO3` is the matrix exponential of the skew matrix. -/
theorem C02_exp_SO3_is_exp (w : V3) (hw : (1e-10 : ℝ) ≤ norm3 w) :
    exp_SO3 w = some (NormedSpace.exp (skew w)) := by
  have h := Gam0_series (w := w) (Or.inl (not_lt.mpr hw))
  rw [exp_SO3, gamma_SO3_zero, NormedSpace.exp_eq_tsum ℝ]
  congr 1
  rw [← h.tsum_eq]
  exact tsum_congr fun n => by rw [one_div]

example : TOLERANCE ≤ norm3 ![1, 2, 2] := by
  have : norm3 ![1, 2, 2] = 3 := by
    unfold norm3; simp
    rw [show (1 : ℝ) + 2 ^ 2 + 2 ^ 2 = 3 ^ 2 by norm_num]; exact Real.sqrt_sq (by norm_num)
  rw [this]; unfold TOLERANCE; norm_num

/-- the orders beyond 20 are undefined behaviour (overflow of the factorial accumulator) -/
theorem C02_gamma_SO3_order_21 (w : V3) : gamma_SO3 w 21 = none := by
  unfold gamma_SO3
  rw [if_neg (by norm_num)]
  by_cases h : norm3 w < TOLERANCE
  · simp only [h, if_true]
    have : factorial? 21 = none := by decide
    rw [this]; rfl
  · simp only [h, if_false]
    rw [if_neg (by norm_num), if_neg (by norm_num), if_neg (by norm_num)]
    have h20 := gammaLoop_eq (skew w) 20 le_rfl
    have h21 : gammaLoop (skew w) 21 = none := by
      unfold gammaLoop at h20 ⊢
      rw [forRange, h20, Option.bind_some, if_neg]
      have : 20 ! = 2432902008176640000 := by decide
      rw [this]; unfold inLong; norm_num
    unfold gammaGeneral
    rw [show (21 : ℤ).toNat = 21 from rfl, h21]; rfl

/-- **C03**: inside the tolerance ball every entry of the shortcut differs from the series by at
most `2|w|/(m+1)!`, hence by at most `2e-10`. -/
theorem C03_small_angle_error (w : V3) (hw : norm3 w < (1e-10 : ℝ)) (m : ℕ) (hm : m ≤ 20) :
    ∃ G, gamma_SO3 w m = some G ∧ ∀ S, HasSum (fun n : ℕ => (1 / ((n + m)! : ℝ)) • skew w ^ n) S →
      ∀ i j, |G i j - S i j| ≤ 2 * norm3 w / ((m + 1)! : ℝ) ∧ |G i j - S i j| ≤ 2e-10 := by
  have hw : norm3 w < TOLERANCE := hw
  suffices H : ∃ G, gamma_SO3 w m = some G ∧ ∀ S, HasSum (fun n : ℕ => (1 / ((n + m)! : ℝ)) • skew w ^ n) S →
      ∀ i j, |G i j - S i j| ≤ 2 * norm3 w / ((m + 1)! : ℝ) by
    obtain ⟨G, hG, hS⟩ := H
    refine ⟨G, hG, fun S h i j => ⟨hS S h i j, (hS S h i j).trans ?_⟩⟩
    have h1 : (1 : ℝ) ≤ ((m + 1)! : ℝ) := by exact_mod_cast Nat.factorial_pos (m + 1)
    calc 2 * norm3 w / ((m + 1)! : ℝ) ≤ 2 * norm3 w :=
          div_le_self (mul_nonneg (by norm_num) (norm3_nonneg w)) h1
      _ ≤ 2e-10 := by unfold TOLERANCE at hw; norm_num at hw ⊢; linarith
  refine ⟨(1.0 / ((m ! : ℕ) : ℝ)) • (1 : M3), ?_, ?_⟩
  · unfold gamma_SO3
    rw [if_neg (by omega)]
    simp only [hw, if_true, factorial?_eq m hm, Option.map_some, Int.cast_natCast]
  · intro S hS i j
    have hf0 : (0 : ℝ) < ((m + 1)! : ℝ) := by exact_mod_cast Nat.factorial_pos _
    by_cases h0 : norm3 w = 0
    · have hw0 := norm3_eq_zero.mp h0
      subst hw0
      have := hS.unique (series_zero m)
      rw [this, norm3_zero]; norm_num
    · have hpos : 0 < norm3 w := lt_of_le_of_ne (norm3_nonneg w) (Ne.symm h0)
      have hu := hS.unique (gamma_series h0 m)
      have e : ((1.0 / ((m ! : ℕ) : ℝ)) • (1 : M3)) i j - S i j =
          -(acoef (norm3 w) m * skew w i j + acoef (norm3 w) (m + 1) * (skew w * skew w) i j) := by
        rw [hu]
        simp only [Matrix.add_apply, Matrix.smul_apply, smul_eq_mul]
        norm_num; ring
      rw [e, abs_neg]
      have a1 := acoef_abs_le hpos hw m
      have a2 := acoef_abs_le hpos hw (m + 1)
      have b1 := skew_entry_le w i j
      have b2 := skew_sq_entry_le w i j
      have hf : ((m + 1)! : ℝ) ≤ ((m + 1 + 1)! : ℝ) := by exact_mod_cast Nat.factorial_le (by omega)
      have a2' : |acoef (norm3 w) (m + 1)| ≤ (3 / 2) / ((m + 1)! : ℝ) :=
        a2.trans (div_le_div_of_nonneg_left (by norm_num) hf0 hf)
      have hsm : norm3 w ^ 2 ≤ norm3 w / 3 := by
        have : norm3 w ≤ 1 / 3 := by unfold TOLERANCE at hw; linarith
        nlinarith
      calc _ ≤ |acoef (norm3 w) m * skew w i j| + |acoef (norm3 w) (m + 1) * (skew w * skew w) i j| :=
            abs_add_le _ _
        _ = |acoef (norm3 w) m| * |skew w i j| + |acoef (norm3 w) (m + 1)| * |(skew w * skew w) i j| := by
            rw [abs_mul, abs_mul]
        _ ≤ ((3 / 2) / ((m + 1)! : ℝ)) * norm3 w + ((3 / 2) / ((m + 1)! : ℝ)) * (norm3 w / 3) := by
            gcongr
            exact b2.trans hsm
        _ = _ := by field_simp; ring

example : norm3 ![1e-11, 0, 0] < TOLERANCE ∧ norm3 ![1e-11, 0, 0] ≠ 0 := by
  have : norm3 ![1e-11, 0, 0] = 1e-11 := by
    unfold norm3; simp; exact Real.sqrt_sq (by norm_num)
  rw [this]; unfold TOLERANCE; norm_num

/-- **C04**: `factorial(n)` returns `n!` for `0 ≤ n ≤ 20` (after at most `n+1` nested calls). -/
theorem C04_factorial_exact (n : ℕ) (hn : n ≤ 20) (fuel : ℕ) (hf : n + 1 ≤ fuel) :
    factorialF fuel n = .ret ((n ! : ℕ) : ℤ) := factorialF_small n hn fuel hf

/-- **C04**: for every larger `int` it overflows the return type: undefined behaviour. -/
theorem C04_factorial_overflow (n : ℕ) (hn : 21 ≤ n) (hi : (n : ℤ) < 2 ^ 31) (fuel : ℕ)
    (hf : n + 1 ≤ fuel) : factorialF fuel n = .ub := factorialF_big n hn hi fuel hf

/-- **C04**: for every negative `int` it never returns a value, however long it runs. -/
theorem C04_factorial_negative (n : ℤ) (hn : n < 0) (fuel : ℕ) (x : ℤ) :
    factorialF fuel n ≠ .ret x := factorialF_neg n hn fuel x

example : factorialF 30 20 = .ret 2432902008176640000 ∧ factorialF 30 21 = .ub ∧
    factorialF 30 (-1) = .running := by decide

/-- the call depth used by `factorial?` decides every call that returns -/
theorem factorial_fuel_sufficient (n : ℤ) (fuel : ℕ) (x : ℤ) (h : factorialF fuel n = .ret x) :
    factorial? n = some x := by
  by_cases hn : n < 0
  · exact absurd h (factorialF_neg n hn fuel x)
  · obtain ⟨k, rfl⟩ : ∃ k : ℕ, n = k := ⟨n.toNat, by omega⟩
    by_cases hk : k ≤ 20
    · have := factorialF_mono h (by simp) (Nat.le_max_left fuel (k + 1))
      rw [factorialF_small k hk _ (Nat.le_max_right _ _)] at this
      rw [factorial?_eq k hk, ← Eval.ret.inj this]
    · exfalso
      have := factorialF_mono h (by simp) (Nat.le_max_left fuel (k + 1))
      by_cases hi : (k : ℤ) < 2 ^ 31
      · rw [factorialF_big k (by omega) hi _ (Nat.le_max_right _ _)] at this
        exact absurd this (by simp)
      · -- `k` itself is not an `int`; the model then reports the overflow of `k - 1` or recurses
        have aux : ∀ (j : ℕ) (f : ℕ) (y : ℤ), 21 ≤ j → factorialF f (j : ℤ) ≠ .ret y := by
          intro j
          induction j with
          | zero => intro _ _ h; omega
          | succ j ih =>
            intro f y hj hret
            match f with
            | 0 => simp [factorialF] at hret
            | f + 1 =>
              rw [factorialF, if_neg (by omega)] at hret
              split_ifs at hret with hi1
              have e : ((j + 1 : ℕ) : ℤ) - 1 = (j : ℤ) := by push_cast; ring
              rw [e] at hret
              by_cases hj' : j = 20
              · subst hj'
                cases f with
                | zero => simp [factorialF] at hret
                | succ f =>
                  have h20 : factorialF (max (f + 1) 21) ((20 : ℕ) : ℤ) = .ret ((20 ! : ℕ) : ℤ) :=
                    factorialF_small 20 le_rfl _ (Nat.le_max_right _ _)
                  cases hh : factorialF (f + 1) ((20 : ℕ) : ℤ) with
                  | ret z =>
                    rw [hh] at hret
                    have h3 := factorialF_mono hh (by simp) (Nat.le_max_left (f + 1) 21)
                    rw [h20] at h3
                    have hz := Eval.ret.inj h3
                    have h20' : 20 ! = 2432902008176640000 := by decide
                    rw [h20'] at hz
                    subst hz
                    simp [inLong] at hret
                  | ub => rw [hh] at hret; simp at hret
                  | running => rw [hh] at hret; simp at hret
              · cases hh : factorialF f (j : ℤ) with
                | ret z => exact ih f z (by omega) hh
                | ub => rw [hh] at hret; simp at hret
                | running => rw [hh] at hret; simp at hret
        exact aux k fuel x (by omega) h

/-- **C05**: the right Jacobian is the transpose of the left one (every `w`), and
`Jl(w) = Exp(w) Jr(w)` (every `w`). -/
theorem C05_jacobians_transpose (w : V3) : ∃ E Jl Jr,
    exp_SO3 w = some E ∧ leftJacobian_SO3 w = some Jl ∧ rightJacobian_SO3 w = some Jr ∧
      Jr = Jlᵀ ∧ Jl = E * Jr :=
  ⟨_, _, _, gamma_SO3_zero w, gamma_SO3_one w, gamma_SO3_one (-w), Gam1_neg w, Gam1_eq_mul w⟩

/-- **C05**: `Exp(w) = I + skew(w) Jl(w) = I + Jl(w) skew(w)` outside the tolerance ball. -/
theorem C05_exp_eq_one_add_skew_jacobian (w : V3) (hw : (1e-10 : ℝ) ≤ norm3 w) : ∃ E Jl,
    exp_SO3 w = some E ∧ leftJacobian_SO3 w = some Jl ∧ E = 1 + skew w * Jl ∧
      E = 1 + Jl * skew w := by
  have h := Gam0_eq_one_add (w := w) (Or.inl (not_lt.mpr hw))
  exact ⟨_, _, gamma_SO3_zero w, gamma_SO3_one w, h, by rw [Gam1_comm_skew]; exact h⟩

/-- **C06**: for every `K` and every `v` of size `3+3K`, `Exp_SEK3(v)` is an element of SE_K(3). -/
theorem C06_exp_SEK3_group (K : ℕ) (v : Mat) (hr : v.rows = 3 + 3 * K) (hc : v.cols = 1) :
    ∃ X, exp_SEK3 v = some X ∧ IsSEK K X :=
  ⟨_, exp_SEK3_eq hr hc, sek_isSEK (Gam0_isRot _)⟩

/-- **C06**: when the rotation part is outside the tolerance ball (or zero), it is the matrix
exponential of the hat matrix. -/
theorem C06_exp_SEK3_is_exp (K : ℕ) (v : Mat) (hr : v.rows = 3 + 3 * K) (hc : v.cols = 1)
    (hw : (1e-10 : ℝ) ≤ norm3 (v.blkV 0 0) ∨ v.blkV 0 0 = 0) :
    ∃ X, exp_SEK3 v = some X ∧
      X.toMn (3 + K) (3 + K)
        = NormedSpace.exp (hat K (v.blkV 0 0) (fun k => v.blkV (3 + 3 * k) 0)) := by
  refine ⟨_, exp_SEK3_eq hr hc, ?_⟩
  have h := hat_exp K (w := v.blkV 0 0) (hw.imp not_lt.mpr id) (fun k => v.blkV (3 + 3 * k) 0)
  rw [NormedSpace.exp_eq_tsum ℝ, ← h.tsum_eq]
  exact tsum_congr fun n => by rw [one_div]

example : ∃ v : Mat, v.rows = 3 + 3 * 3 ∧ v.cols = 1 ∧ TOLERANCE ≤ norm3 (v.blkV 0 0) := by
  refine ⟨ofFn 12 1 fun i _ => i, rfl, rfl, ?_⟩
  have h1 : (1 : ℝ) ≤ norm3 ((ofFn 12 1 fun i _ => (i : ℝ)).blkV 0 0) := by
    unfold norm3
    apply Real.one_le_sqrt.mpr
    simp [blkV, ofFn_e]
  refine le_trans ?_ h1
  unfold TOLERANCE; norm_num

/-- **C07**: the adjoint is a homomorphism, for every `K`. -/
theorem C07_adjoint_mul (K : ℕ) (X Y : Mat) (hX : IsSEK K X) (hY : IsSEK K Y) :
    ∃ AX AY AXY, adjoint_SEK3 X = some AX ∧ adjoint_SEK3 Y = some AY ∧
      adjoint_SEK3 (X * Y) = some AXY ∧ AXY = AX * AY := by
  have h1 := adjoint_mkSE K (X.blk3 0 0) (fun k => X.blkV 0 (3 + k))
  have h2 := adjoint_mkSE K (Y.blk3 0 0) (fun k => Y.blkV 0 (3 + k))
  rw [← hX.eq_mk] at h1; rw [← hY.eq_mk] at h2
  refine ⟨_, _, _, h1, h2, ?_, (adjF_mul hX.rot).symm⟩
  conv_lhs => rw [hX.eq_mk, hY.eq_mk, mkSE_mul]
  exact adjoint_mkSE _ _ _

/-- **C07**: the adjoint of the identity is the identity. -/
theorem C07_adjoint_one (K : ℕ) : adjoint_SEK3 (one (3 + K)) = some (one (3 + 3 * K)) := by
  rw [one_eq_mkSE, adjoint_mkSE, adjF_one]; congr 2; ring

/-- **C07**: the adjoint of the inverse is the inverse of the adjoint (both sides). -/
theorem C07_adjoint_inv (K : ℕ) (X W : Mat) (hX : IsSEK K X) (hW : X.inv? = some W) :
    IsSEK K W ∧ ∃ AX AW, adjoint_SEK3 X = some AX ∧ adjoint_SEK3 W = some AW ∧
      AX * AW = one (3 + 3 * K) ∧ AW * AX = one (3 + 3 * K) := by
  have hx := hX.eq_mk
  set R := X.blk3 0 0
  set p := fun k => X.blkV 0 (3 + k)
  obtain ⟨h1, h2, h3, h4, h5⟩ := inv?_spec hW
  rw [hX.rows] at h2 h3 h4 h5
  have hWeq : W = mkSE K Rᵀ (fun k => -(Rᵀ.mulVec (p k))) := by
    refine inv_unique (A := X) (n := 3 + K) rfl h3 h5 ?_
    rw [hx]; exact mkSE_inv_right hX.rot
  have hWS : IsSEK K W := by rw [hWeq]; exact sek_isSEK hX.rot.transpose
  obtain ⟨AX, AW, AXW, a1, a2, a3, a4⟩ := C07_adjoint_mul K X W hX hWS
  obtain ⟨AW', AX', AWX, b1, b2, b3, b4⟩ := C07_adjoint_mul K W X hWS hX
  rw [h4, C07_adjoint_one, Option.some.injEq] at a3
  rw [h5, C07_adjoint_one, Option.some.injEq] at b3
  rw [a1, Option.some.injEq] at b2
  rw [a2, Option.some.injEq] at b1
  subst b1 b2
  exact ⟨hWS, AX, AW, a1, a2, a4 ▸ a3.symm, b4 ▸ b3.symm⟩

example : IsSEK 3 (mkSE 3 !![0, -1, 0; 1, 0, 0; 0, 0, 1] fun k => ![k, 1, 2]) := by
  refine sek_isSEK ⟨?_, ?_, ?_⟩
  · ext i j; fin_cases i <;> fin_cases j <;> simp [Matrix.mul_apply, Fin.sum_univ_three]
  · ext i j; fin_cases i <;> fin_cases j <;> simp [Matrix.mul_apply, Fin.sum_univ_three]
  · rw [det_fin_three]; simp

/-- **C08**: `X Exp(v) X⁻¹ = Exp(Ad_X v)`, for every `K`, every `X` in SE_K(3) and every `v` whose
rotation part is zero or outside the tolerance ball. -/
theorem C08_adjoint_transports_exp (K : ℕ) (X W v : Mat) (hX : IsSEK K X) (hW : X.inv? = some W)
    (hr : v.rows = 3 + 3 * K) (hc : v.cols = 1)
    (hw : (1e-10 : ℝ) ≤ norm3 (v.blkV 0 0) ∨ v.blkV 0 0 = 0) :
    ∃ A E E', adjoint_SEK3 X = some A ∧ exp_SEK3 v = some E ∧ exp_SEK3 (A * v) = some E' ∧
      X * E * W = E' := by
  have hx := hX.eq_mk
  have hR := hX.rot
  set R := X.blk3 0 0
  set p := fun k => X.blkV 0 (3 + k)
  obtain ⟨_, _, h3, _, h5⟩ := inv?_spec hW
  rw [hX.rows] at h3 h5
  have hWeq : W = mkSE K Rᵀ (fun k => -(Rᵀ.mulVec (p k))) := by
    refine inv_unique (A := X) (n := 3 + K) rfl h3 h5 ?_
    rw [hx]; exact mkSE_inv_right hX.rot
  have hA := adjoint_mkSE K R p
  rw [← hx] at hA
  set A := ofBlk (K + 1) (K + 1) (adjF R p) with hAd
  have hAr : (A * v).rows = 3 + 3 * K := by simp [A]; ring
  have hAc : (A * v).cols = 1 := by simp [hc]
  refine ⟨_, _, _, hA, exp_SEK3_eq hr hc, exp_SEK3_eq hAr hAc, ?_⟩
  set w := v.blkV 0 0
  have hA0 : (A * v).blkV 0 0 = R.mulVec w := by
    rw [blkV_mul A v (n := K + 1) rfl, Finset.sum_eq_single 0]
    · have := ofBlk_blk3 (a := K + 1) (b := K + 1) (adjF R p) (i := 0) (j := 0) (by omega) (by omega)
      simp only [Nat.mul_zero] at this ⊢
      rw [hAd, this]; simp [adjF, w]
    · intro k hk hk0
      have := ofBlk_blk3 (a := K + 1) (b := K + 1) (adjF R p) (i := 0) (j := k) (by omega)
        (by simpa using hk)
      rw [Nat.mul_zero] at this
      rw [hAd, this]; simp [adjF, hk0, Ne.symm hk0]
    · intro h; simp at h
  have hAk : ∀ k < K, (A * v).blkV (3 + 3 * k) 0
      = (skew (p k) * R).mulVec w + R.mulVec (v.blkV (3 + 3 * k) 0) := by
    intro k hk
    rw [show 3 + 3 * k = 3 * (k + 1) by ring, blkV_mul A v (n := K + 1) rfl]
    rw [← Finset.sum_subset (s₁ := {0, k + 1}) (by intro x hx; simp at hx ⊢; omega)]
    · rw [Finset.sum_pair (by omega), hAd, ofBlk_blk3 _ (by omega) (by omega),
        ofBlk_blk3 _ (by omega) (by omega)]
      simp [adjF, w]
    · intro l hl hl'
      simp at hl hl'
      rw [hAd, ofBlk_blk3 _ (by omega) (by omega)]
      simp [adjF, hl', Ne.symm hl'.2]
  rw [hA0, hWeq]
  conv_lhs => rw [hx]
  rw [mkSE_mul, mkSE_mul]
  refine mkSE_congr ?_ ?_
  · rw [Gam0_rot hR]
  · intro k hk
    rw [hAk k hk, Gam1_rot hR]
    have key := Gam0_eq_one_add (w := w) (hw.imp not_lt.mpr id)
    rw [← Gam1_comm_skew] at key
    -- skew(p) R w = - R skew(w) Rᵀ p
    have e1 : (skew (p k) * R).mulVec w = -(R * skew w * Rᵀ).mulVec (p k) := by
      rw [← skew_rot hR, ← mulVec_mulVec, skew_mulVec_swap]
    rw [e1, Matrix.mulVec_add, mulVec_neg, mulVec_neg, mulVec_mulVec, mulVec_mulVec, mulVec_mulVec,
      mulVec_mulVec]
    have e2 : R * Gam1 w * Rᵀ * (R * skew w * Rᵀ) = R * (Gam1 w * skew w) * Rᵀ := by
      rw [show R * Gam1 w * Rᵀ * (R * skew w * Rᵀ) = R * Gam1 w * (Rᵀ * R) * skew w * Rᵀ by
        simp only [Matrix.mul_assoc], hR.1]
      simp only [Matrix.mul_assoc, Matrix.mul_one, Matrix.one_mul]
    have e3 : R * Gam1 w * Rᵀ * R = R * Gam1 w := by rw [Matrix.mul_assoc, hR.1, Matrix.mul_one]
    rw [e2, e3, key]
    simp only [Matrix.mul_add, Matrix.add_mul, Matrix.mul_one, hR.2.1, add_mulVec, one_mulVec]
    abel

/-- **C08**, the excluded inputs: inside the tolerance ball the identity is false (the shortcut
drops the first-order term), so the restriction above is necessary. -/
theorem C08_small_angle_counterexample :
    ∃ (X v : Mat), IsSEK 1 X ∧ v.rows = 6 ∧ v.cols = 1 ∧ 0 < norm3 (v.blkV 0 0) ∧
      norm3 (v.blkV 0 0) < (1e-10 : ℝ) ∧ ∃ W A E E', X.inv? = some W ∧
        adjoint_SEK3 X = some A ∧ exp_SEK3 v = some E ∧ exp_SEK3 (A * v) = some E' ∧
        X * E * W ≠ E' := by
  set X := mkSE 1 1 (fun _ => ![0, 1, 0]) with hX
  set v := ofFn 6 1 (fun i _ => if i = 0 then 1e-11 else 0) with hv
  have hw : v.blkV 0 0 = ![1e-11, 0, 0] := by
    ext i; fin_cases i <;> simp [blkV, v, ofFn_e]
  have hu : v.blkV 3 0 = 0 := by
    ext i; fin_cases i <;> simp [blkV, v, ofFn_e]
  have hn : norm3 ![1e-11, 0, 0] = 1e-11 := by
    unfold norm3; simp; exact Real.sqrt_sq (by norm_num)
  have hlt : norm3 ![(1e-11 : ℝ), 0, 0] < TOLERANCE := by rw [hn]; unfold TOLERANCE; norm_num
  have hA := adjoint_mkSE 1 1 (fun _ => ![0, 1, 0])
  rw [← hX] at hA
  set A := ofBlk 2 2 (adjF 1 fun _ => ![0, 1, 0]) with hAd
  have hW : X.inv? = some (mkSE 1 (1 : M3)ᵀ (fun _ => -((1 : M3)ᵀ.mulVec ![0, 1, 0]))) := by
    rw [inv?_eq_some_iff]
    exact ⟨rfl, rfl, rfl, mkSE_inv_right IsRot.one, mkSE_inv_left IsRot.one⟩
  refine ⟨X, v, sek_isSEK IsRot.one, rfl, rfl, by rw [hw, hn]; norm_num, by rw [hw]; exact hlt,
    _, _, _, _, hW, hA, exp_SEK3_eq (K := 1) rfl rfl, exp_SEK3_eq (K := 1) rfl rfl, ?_⟩
  have b00 : A.blk3 0 0 = 1 := ofBlk_blk3 (a := 2) (b := 2) (adjF 1 fun _ => ![0, 1, 0]) (i := 0) (j := 0)
    (by omega) (by omega)
  have b01 : A.blk3 0 3 = 0 := ofBlk_blk3 (a := 2) (b := 2) (adjF 1 fun _ => ![0, 1, 0]) (i := 0) (j := 1)
    (by omega) (by omega)
  have b10 : A.blk3 3 0 = skew ![0, 1, 0] * 1 := ofBlk_blk3 (a := 2) (b := 2)
    (adjF 1 fun _ => ![0, 1, 0]) (i := 1) (j := 0) (by omega) (by omega)
  have hA0 : (A * v).blkV 0 0 = ![1e-11, 0, 0] := by
    rw [blkV_mul A v (n := 2) rfl, Finset.sum_range_succ, Finset.sum_range_one]
    simp only [Nat.mul_zero, Nat.mul_one, b00, b01, hw, hu, one_mulVec]
    simp
  have hA3 : (A * v).blkV 3 0 = ![0, 0, -1e-11] := by
    rw [blkV_mul A v (n := 2) rfl, Finset.sum_range_succ, Finset.sum_range_one]
    simp only [Nat.mul_zero, Nat.mul_one, b10, hw, hu]
    ext i; fin_cases i <;> simp [skew]
  intro hcontra
  rw [hw, hA0, hX] at hcontra
  rw [mkSE_mul, mkSE_mul] at hcontra
  have := (mkSE_inj hcontra).2 0 (by norm_num)
  have h2 := congrFun this 2
  have g1 : Gam1 ![(1e-11 : ℝ), 0, 0] = 1 := by unfold Gam1; rw [if_pos hlt]
  have g0 : Gam0 ![(1e-11 : ℝ), 0, 0] = 1 := by unfold Gam0; rw [if_pos hlt]
  simp [g0, g1, hu, hA3] at h2
  norm_num at h2

/-- **C09**: `skew` is the cross-product matrix, antisymmetric, annihilates its argument, and is
equivariant under rotations. -/
theorem C09_skew (u v : V3) (R : M3) (hR : IsRot R) :
    (skew v).mulVec u = crossProduct v u ∧ (skew v)ᵀ = -skew v ∧ (skew v).mulVec v = 0 ∧
      skew (R.mulVec v) = R * skew v * Rᵀ :=
  ⟨skew_mulVec v u, skew_transpose v, skew_mulVec_self v, skew_rot hR v⟩

end Drift
