import Verif.Spec.DriftRate
import Verif.Lemmas.Flow
import Verif.Lemmas.Tilt2

/-! # Lemmas: the growth of the error between two motions -/
set_option linter.unusedSimpArgs false
namespace Drift
open Matrix Set

theorem dot_le (u v : V3) : u ⬝ᵥ v ≤ norm3 u * norm3 v := by
  have hu := norm3_nonneg u; have hv := norm3_nonneg v
  refine le_trans (le_abs_self _) (abs_le_of_sq_le_sq ?_ (by positivity)) |>.trans (le_refl _)
  rw [mul_pow, norm3_sq, norm3_sq]
  simp only [nsq, dotProduct, Fin.sum_univ_three]
  nlinarith [sq_nonneg (u 0 * v 1 - u 1 * v 0), sq_nonneg (u 0 * v 2 - u 2 * v 0), sq_nonneg (u 1 * v 2 - u 2 * v 1)]

/-- a vector whose rate is bounded by `B'` has moved by at most the growth of `B` -/
theorem grow_le {f f' : ℝ → V3} {B B' : ℝ → ℝ} {a b : ℝ} (hab : a ≤ b) (hf : ∀ i, Continuous fun t => f t i)
    (hd : ∀ t ∈ Ico a b, ∀ i, HasDerivWithinAt (fun τ => f τ i) (f' t i) (Ici t) t) (hB : ∀ t, HasDerivAt B (B' t) t)
    (hle : ∀ t ∈ Ico a b, norm3 (f' t) ≤ B' t) : norm3 (f b - f a) ≤ B b - B a := by
  have hBc : Continuous B := continuous_iff_continuousAt.mpr fun t => (hB t).continuousAt
  have h0 : B a ≤ B b := by
    have := image_le_of_deriv_right_le_deriv_boundary (f := fun _ => B a) (f' := fun _ => 0) (a := a) (b := b) continuousOn_const
      (fun x _ => hasDerivWithinAt_const _ _ _) (B := B) (B' := B') (le_refl _) hBc.continuousOn (fun x _ => (hB x).hasDerivWithinAt)
      (fun x hx => (norm3_nonneg _).trans (hle x hx)) (right_mem_Icc.mpr hab)
    exact this
  set u : V3 := f b - f a with hu
  have key := image_le_of_deriv_right_le_deriv_boundary (f := fun t => u ⬝ᵥ (f t - f a)) (f' := fun t => u ⬝ᵥ f' t) (a := a) (b := b)
    (Continuous.continuousOn (by
      simp only [dotProduct, Fin.sum_univ_three, Pi.sub_apply]
      have h0 := hf 0; have h1 := hf 1; have h2 := hf 2
      fun_prop))
    (fun x hx => by
      simp only [dotProduct, Fin.sum_univ_three, Pi.sub_apply]
      exact ((((hd x hx 0).sub_const (f a 0)).const_mul _).add (((hd x hx 1).sub_const (f a 1)).const_mul _)).add (((hd x hx 2).sub_const (f a 2)).const_mul _))
    (B := fun t => norm3 u * (B t - B a)) (B' := fun t => norm3 u * B' t) (by simp)
    (Continuous.continuousOn (by fun_prop)) (fun x _ => (((hB x).sub_const _).const_mul _).hasDerivWithinAt)
    (fun x hx => (dot_le _ _).trans (mul_le_mul_of_nonneg_left (hle x hx) (norm3_nonneg _))) (right_mem_Icc.mpr hab)
  have key : u ⬝ᵥ u ≤ norm3 u * (B b - B a) := key
  rw [nsq_dot, ← norm3_sq] at key
  have hn := norm3_nonneg u
  by_contra hc
  push Not at hc
  nlinarith

theorem norm3_orth {R : M3} (h : Rᵀ * R = 1) (x : V3) : norm3 (R.mulVec x) = norm3 x := by
  refine norm3_eq_of_nsq ?_
  rw [← nsq_dot, ← nsq_dot, Matrix.dotProduct_mulVec, ← Matrix.mulVec_transpose, Matrix.mulVec_mulVec, h, one_mulVec]

theorem norm3_skew (v b : V3) : norm3 ((skew v).mulVec b) ≤ norm3 v * norm3 b := by
  have := norm3_skew_le v b
  rw [skew_transpose, neg_mulVec] at this
  have e : norm3 (-(skew v).mulVec b) = norm3 ((skew v).mulVec b) := norm3_eq_of_nsq (nsq_neg _)
  rwa [e] at this

/-- the path that the estimate takes during one interval (`R`, `v`, `q`, from time `t0`) against the truth -/
theorem drift_interval {T : Truth} {w a : ℝ → V3} (hT : T.Moves w a) {A εg εa : ℝ} {w' a' : V3} {R : ℝ → M3} {v q : ℝ → V3}
    (hS : Strapdown w' a' ![0, 0, -9.8] R v q) (hR0 : IsRot (R 0)) {t0 t1 δR δv δq : ℝ} (h01 : t0 ≤ t1)
    (hA : ∀ t, norm3 (a t) ≤ A) (hw : ∀ t, t0 ≤ t → t < t1 → norm3 (w' - w t) ≤ εg ∧ norm3 (a' - a t) ≤ εa)
    (hR : ∀ x, norm3 ((R 0).mulVec x - (T.R t0).mulVec x) ≤ δR * norm3 x) (hv : norm3 (v 0 - T.v t0) ≤ δv) (hq : norm3 (q 0 - T.q t0) ≤ δq) :
    (∀ x, norm3 ((R (t1 - t0)).mulVec x - (T.R t1).mulVec x) ≤ (δR + εg * (t1 - t0)) * norm3 x) ∧
    norm3 (v (t1 - t0) - T.v t1) ≤ δv + εa * (t1 - t0) + A * (δR * (t1 - t0) + εg * (t1 - t0) ^ 2 / 2) ∧
    norm3 (q (t1 - t0) - T.q t1) ≤ δq + δv * (t1 - t0) + εa * (t1 - t0) ^ 2 / 2 + A * (δR * (t1 - t0) ^ 2 / 2 + εg * (t1 - t0) ^ 3 / 6) := by
  have hRo : ∀ t, (R t)ᵀ * R t = 1 := by
    intro t
    rw [(hS.unique t).1, transpose_mul, Matrix.mul_assoc, ← Matrix.mul_assoc (R 0)ᵀ, hR0.1, Matrix.one_mul, E0_T_mul]
  have dR : ∀ t i j, HasDerivAt (fun τ => R (τ - t0) i j) ((R (t - t0) * skew w') i j) t := fun t i j => (hS.rot (t - t0) i j).comp_sub_const t t0
  have dv : ∀ t i, HasDerivAt (fun τ => v (τ - t0) i) (((R (t - t0)).mulVec a' + ![0, 0, -9.8] : V3) i) t := fun t i => (hS.vel (t - t0) i).comp_sub_const t t0
  have dq : ∀ t i, HasDerivAt (fun τ => q (τ - t0) i) (v (t - t0) i) t := fun t i => (hS.pos (t - t0) i).comp_sub_const t t0
  have cR : ∀ i j, Continuous fun t => R (t - t0) i j := fun i j => continuous_iff_continuousAt.mpr fun t => (dR t i j).continuousAt
  have cv : ∀ i, Continuous fun t => v (t - t0) i := fun i => continuous_iff_continuousAt.mpr fun t => (dv t i).continuousAt
  have cq : ∀ i, Continuous fun t => q (t - t0) i := fun i => continuous_iff_continuousAt.mpr fun t => (dq t i).continuousAt
  -- orientation
  have rotB : ∀ b, t0 ≤ b → b ≤ t1 → ∀ x, norm3 ((R (b - t0)).mulVec x - (T.R b).mulVec x) ≤ (δR + εg * (b - t0)) * norm3 x := by
    intro b hb hb1 x
    set y : V3 := (T.R b).mulVec x with hy
    have hyn : norm3 y = norm3 x := norm3_orth (hT.orient b).1 x
    have g := grow_le (f := fun t => (R (t - t0) * (T.R t)ᵀ).mulVec y) (f' := fun t => (R (t - t0) * (skew (w' - w t) * (T.R t)ᵀ)).mulVec y)
      (B := fun t => εg * norm3 y * t) (B' := fun _ => εg * norm3 y) hb (fun i => by
        simp only [Matrix.mulVec, dotProduct, Matrix.mul_apply, transpose_apply]
        exact continuous_finset_sum _ fun j _ => (continuous_finset_sum _ fun k _ => (cR i k).mul (hT.contR j k)).mul continuous_const)
      (fun t _ i => by
        have hm : ∀ i j, HasDerivWithinAt (fun τ => (R (τ - t0) * (T.R τ)ᵀ) i j)
            ((R (t - t0) * (skew (w' - w t) * (T.R t)ᵀ)) i j) (Ici t) t := by
          intro i j
          have e : (R (t - t0) * (skew (w' - w t) * (T.R t)ᵀ)) = (R (t - t0) * skew w') * (T.R t)ᵀ + R (t - t0) * (T.R t * skew (w t))ᵀ := by
            rw [transpose_mul, skew_transpose, skew_sub, Matrix.sub_mul, Matrix.mul_sub, Matrix.neg_mul, Matrix.mul_neg, Matrix.mul_assoc]
            abel
          rw [e]
          simp only [Matrix.mul_apply, Matrix.add_apply, transpose_apply, ← Finset.sum_add_distrib]
          refine HasDerivWithinAt.fun_sum fun k _ => ?_
          have h1 := (dR t i k).hasDerivWithinAt (s := Ici t)
          have h2 := hT.rot t j k
          have h3 := h1.mul h2
          simp only [Matrix.mul_apply] at h3
          exact h3
        simp only [Matrix.mulVec, dotProduct]
        exact HasDerivWithinAt.fun_sum fun k _ => (hm i k).mul_const _)
      (fun t => by simpa using (hasDerivAt_id t).const_mul (εg * norm3 y))
      (fun t ht => by
        rw [← Matrix.mulVec_mulVec, norm3_orth (hRo _), ← Matrix.mulVec_mulVec]
        refine (norm3_skew _ _).trans ?_
        rw [norm3_orth (by rw [transpose_transpose]; exact (hT.orient t).2.1)]
        exact mul_le_mul_of_nonneg_right (hw t ht.1 (lt_of_lt_of_le ht.2 hb1)).1 (norm3_nonneg _))
    have e1 : (R (b - t0) * (T.R b)ᵀ).mulVec y = (R (b - t0)).mulVec x := by
      rw [hy, Matrix.mulVec_mulVec, Matrix.mul_assoc, (hT.orient b).1, Matrix.mul_one]
    simp only [e1, sub_self] at g
    clear_value y
    have h0 := hR ((T.R t0)ᵀ.mulVec y)
    rw [Matrix.mulVec_mulVec y, Matrix.mulVec_mulVec y, (hT.orient t0).2.1, one_mulVec,
      norm3_orth (by rw [transpose_transpose]; exact (hT.orient t0).2.1)] at h0
    have h3 := norm3_add_le ((R (b - t0)).mulVec x - (R 0 * (T.R t0)ᵀ).mulVec y) ((R 0 * (T.R t0)ᵀ).mulVec y - y)
    rw [sub_add_sub_cancel] at h3
    rw [hyn] at h0 g
    nlinarith
  -- velocity
  have velB : ∀ b, t0 ≤ b → b ≤ t1 → norm3 (v (b - t0) - T.v b) ≤ δv + εa * (b - t0) + A * (δR * (b - t0) + εg * (b - t0) ^ 2 / 2) := by
    intro b hb hb1
    have g := grow_le (f := fun t => v (t - t0) - T.v t) (f' := fun t => (R (t - t0)).mulVec (a' - a t) + ((R (t - t0)).mulVec (a t) - (T.R t).mulVec (a t)))
      (B := fun t => εa * (t - t0) + A * (δR * (t - t0) + εg * (t - t0) ^ 2 / 2)) (B' := fun t => εa + A * (δR + εg * (t - t0))) hb
      (fun i => (cv i).sub (hT.contV i))
      (fun t _ i => by
        have h := ((dv t i).hasDerivWithinAt (s := Ici t)).sub (hT.vel t i)
        refine h.congr_deriv ?_
        simp only [mulVec_sub, Pi.add_apply, Pi.sub_apply]
        ring)
      (fun t => by
        have h1 := (hasDerivAt_id t).sub_const t0
        have h2 := (h1.const_mul εa).add (((h1.const_mul δR).add (((h1.pow 2).const_mul εg).div_const 2)).const_mul A)
        refine HasDerivAt.congr_deriv h2 ?_
        simp only [id_eq, Nat.cast_ofNat, Nat.reduceSub]
        ring)
      (fun t ht => by
        have ht1 := lt_of_lt_of_le ht.2 hb1
        refine (norm3_add_le _ _).trans (add_le_add ?_ ?_)
        · rw [norm3_orth (hRo _)]; exact (hw t ht.1 ht1).2
        · refine (rotB t ht.1 ht1.le _).trans ?_
          rw [mul_comm]
          refine mul_le_mul_of_nonneg_right (hA t) ?_
          have := (norm3_nonneg _).trans (rotB t ht.1 ht1.le ![1, 0, 0])
          have e : norm3 ![1, 0, 0] = 1 := by simp [norm3]
          rwa [e, mul_one] at this)
    have h3 := norm3_add_le ((v (b - t0) - T.v b) - (v 0 - T.v t0)) (v 0 - T.v t0)
    simp only [sub_self] at g
    rw [sub_add_cancel] at h3
    linarith
  refine ⟨rotB t1 h01 le_rfl, velB t1 h01 le_rfl, ?_⟩
  have g := grow_le (f := fun t => q (t - t0) - T.q t) (f' := fun t => v (t - t0) - T.v t)
    (B := fun t => δv * (t - t0) + εa * (t - t0) ^ 2 / 2 + A * (δR * (t - t0) ^ 2 / 2 + εg * (t - t0) ^ 3 / 6))
    (B' := fun t => δv + εa * (t - t0) + A * (δR * (t - t0) + εg * (t - t0) ^ 2 / 2)) h01
    (fun i => (cq i).sub (hT.contQ i))
    (fun t _ i => ((dq t i).hasDerivWithinAt (s := Ici t)).sub (hT.pos t i))
    (fun t => by
      have h1 := (hasDerivAt_id t).sub_const t0
      have h2 := ((h1.const_mul δv).add (((h1.pow 2).const_mul εa).div_const 2)).add
        (((((h1.pow 2).const_mul δR).div_const 2).add (((h1.pow 3).const_mul εg).div_const 6)).const_mul A)
      refine HasDerivAt.congr_deriv h2 ?_
      simp only [id_eq, Nat.cast_ofNat, Nat.reduceSub]
      ring)
    (fun t ht => velB t ht.1 ht.2.le)
  have h3 := norm3_add_le ((q (t1 - t0) - T.q t1) - (q 0 - T.q t0)) (q 0 - T.q t0)
  simp only [sub_self] at g
  rw [sub_add_cancel] at h3
  linarith

end Drift
