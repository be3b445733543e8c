import Verif.Lemmas.Kin4
import Mathlib.Analysis.Calculus.MeanValue
import Mathlib.Analysis.Real.Sqrt

/-!
# How errors of the joint angles move the foot: first and second order bounds
-/
namespace Drift
open Real

/-- Taylor's bound of the first order -/
theorem first_order {f f1 : ℝ → ℝ} {M : ℝ} (h1 : ∀ t, HasDerivAt f (f1 t) t) (hM : ∀ t, |f1 t| ≤ M) : |f 1 - f 0| ≤ M := by
  have := Convex.norm_image_sub_le_of_norm_hasDerivWithin_le (s := Set.univ) (f := f) (f' := f1) (C := M) (x := 0) (y := 1)
    (fun t _ => (h1 t).hasDerivWithinAt) (fun t _ => by rw [Real.norm_eq_abs]; exact hM t) convex_univ trivial trivial
  simpa using this

/-- Taylor's bound of the second order -/
theorem second_order {f f1 f2 : ℝ → ℝ} {M : ℝ} (h1 : ∀ t, HasDerivAt f (f1 t) t) (h2 : ∀ t, HasDerivAt f1 (f2 t) t)
    (hM : ∀ t, |f2 t| ≤ M) : |f 1 - f 0 - f1 0| ≤ M / 2 := by
  have hf1 : ∀ t, 0 ≤ t → |f1 t - f1 0| ≤ M * t := by
    intro t ht
    have := Convex.norm_image_sub_le_of_norm_hasDerivWithin_le (s := Set.univ) (f := f1) (f' := f2) (C := M) (x := 0) (y := t)
      (fun t _ => (h2 t).hasDerivWithinAt) (fun t _ => by rw [Real.norm_eq_abs]; exact hM t) convex_univ trivial trivial
    simpa [abs_of_nonneg ht] using this
  have hd : ∀ t, HasDerivAt (fun t => f t - f 0 - f1 0 * t) (f1 t - f1 0) t := by
    intro t
    refine (((h1 t).sub_const (f 0)).sub ((hasDerivAt_id t).const_mul (f1 0))).congr_deriv ?_
    ring
  have hB : ∀ t, HasDerivAt (fun t : ℝ => M / 2 * t ^ 2) (M * t) t := by
    intro t
    refine ((hasDerivAt_pow 2 t).const_mul (M / 2)).congr_deriv ?_
    simp only [Nat.cast_ofNat, Nat.reduceSub]; ring
  have := image_norm_le_of_norm_deriv_right_le_deriv_boundary (f := fun t => f t - f 0 - f1 0 * t) (f' := fun t => f1 t - f1 0)
    (a := 0) (b := 1) (B := fun t => M / 2 * t ^ 2) (B' := fun t => M * t)
    (fun t _ => (hd t).continuousAt.continuousWithinAt) (fun t _ => (hd t).hasDerivWithinAt) (by simp) hB
    (fun t ht => by rw [Real.norm_eq_abs]; exact hf1 t ht.1)
  have := this (Set.right_mem_Icc.mpr zero_le_one)
  simpa using this

/-- one link: the coordinate in direction `(u, v, w)` of the end of a link of unit length at the angle `β` in the plane turned by `α` -/
noncomputable def linkF (u v w α β : ℝ) : ℝ := u * sin β + (v * sin α - w * cos α) * cos β

/-- length of `(u, v, w)` -/
noncomputable def len3 (u v w : ℝ) : ℝ := √(u ^ 2 + v ^ 2 + w ^ 2)

theorem cauchy3 (u v w a b c : ℝ) : |u * a + v * b + w * c| ≤ len3 u v w * √(a ^ 2 + b ^ 2 + c ^ 2) := by
  unfold len3
  rw [← Real.sqrt_mul (by positivity), ← Real.sqrt_sq_eq_abs]
  refine Real.sqrt_le_sqrt ?_
  nlinarith [sq_nonneg (u * b - v * a), sq_nonneg (u * c - w * a), sq_nonneg (v * c - w * b)]

theorem sqrt_le_of {x y : ℝ} (hy : 0 ≤ y) (h : x ≤ y ^ 2) : √x ≤ y := by
  rw [← Real.sqrt_sq hy]; exact Real.sqrt_le_sqrt h

/-- first and second derivative of a link along a straight motion of the joints -/
theorem link_deriv (u v w α β x s : ℝ) :
    (∀ t, HasDerivAt (fun t => linkF u v w (α + t * x) (β + t * s))
      (s * (u * cos (β + t * s)) + x * ((v * cos (α + t * x) + w * sin (α + t * x)) * cos (β + t * s)) -
        s * ((v * sin (α + t * x) - w * cos (α + t * x)) * sin (β + t * s))) t) ∧
    ∀ t, HasDerivAt (fun t => s * (u * cos (β + t * s)) + x * ((v * cos (α + t * x) + w * sin (α + t * x)) * cos (β + t * s)) -
        s * ((v * sin (α + t * x) - w * cos (α + t * x)) * sin (β + t * s)))
      (-(u * (s ^ 2 * sin (β + t * s)) + v * ((x ^ 2 + s ^ 2) * sin (α + t * x) * cos (β + t * s) + 2 * x * s * cos (α + t * x) * sin (β + t * s))
        + w * (-((x ^ 2 + s ^ 2) * cos (α + t * x) * cos (β + t * s)) + 2 * x * s * sin (α + t * x) * sin (β + t * s)))) t := by
  have ha : ∀ t, HasDerivAt (fun t : ℝ => α + t * x) x t := fun t => by
    simpa using ((hasDerivAt_id t).mul_const x).const_add α
  have hb : ∀ t, HasDerivAt (fun t : ℝ => β + t * s) s t := fun t => by
    simpa using ((hasDerivAt_id t).mul_const s).const_add β
  constructor
  · intro t
    unfold linkF
    refine (((hb t).sin.const_mul u).add ((((ha t).sin.const_mul v).sub ((ha t).cos.const_mul w)).mul (hb t).cos)).congr_deriv ?_
    simp only [Pi.sub_apply, Pi.add_apply]
    ring
  · intro t
    refine ((((hb t).cos.const_mul u).const_mul s).add (((((ha t).cos.const_mul v).add ((ha t).sin.const_mul w)).mul (hb t).cos).const_mul x)
      |>.sub (((((ha t).sin.const_mul v).sub ((ha t).cos.const_mul w)).mul (hb t).sin).const_mul s)).congr_deriv ?_
    simp only [Pi.sub_apply, Pi.add_apply]
    ring

theorem link_first (u v w α β x s : ℝ) :
    |linkF u v w (α + x) (β + s) - linkF u v w α β| ≤ len3 u v w * (|x| + |s|) := by
  have := first_order (link_deriv u v w α β x s).1 (M := len3 u v w * (|x| + |s|)) (fun t => by
    generalize α + t * x = a
    generalize β + t * s = b
    have e : s * (u * cos b) + x * ((v * cos a + w * sin a) * cos b) - s * ((v * sin a - w * cos a) * sin b) =
        u * (s * cos b) + v * (x * cos a * cos b - s * sin a * sin b) + w * (x * sin a * cos b + s * cos a * sin b) := by ring
    rw [e]
    refine (cauchy3 _ _ _ _ _ _).trans (mul_le_mul_of_nonneg_left (sqrt_le_of (by positivity) ?_) (by unfold len3; positivity))
    have h1 := sin_sq_add_cos_sq a
    have h2 := sin_sq_add_cos_sq b
    have e2 : (s * cos b) ^ 2 + (x * cos a * cos b - s * sin a * sin b) ^ 2 + (x * sin a * cos b + s * cos a * sin b) ^ 2 =
        s ^ 2 + x ^ 2 * cos b ^ 2 := by
      linear_combination (x ^ 2 * cos b ^ 2 + s ^ 2 * sin b ^ 2) * h1 + s ^ 2 * h2
    rw [e2]
    have h3 : x ^ 2 * cos b ^ 2 ≤ x ^ 2 := by nlinarith [sq_nonneg (sin b), sq_nonneg x, mul_nonneg (sq_nonneg x) (sq_nonneg (sin b))]
    nlinarith [abs_nonneg x, abs_nonneg s, sq_abs x, sq_abs s, mul_nonneg (abs_nonneg x) (abs_nonneg s)])
  simpa using this

theorem link_second (u v w α β x s : ℝ) :
    |linkF u v w (α + x) (β + s) - linkF u v w α β -
      (s * (u * cos β) + x * ((v * cos α + w * sin α) * cos β) - s * ((v * sin α - w * cos α) * sin β))|
      ≤ len3 u v w * (|x| + |s|) ^ 2 / 2 := by
  have := second_order (link_deriv u v w α β x s).1 (link_deriv u v w α β x s).2 (M := len3 u v w * (|x| + |s|) ^ 2) (fun t => by
    generalize α + t * x = a
    generalize β + t * s = b
    rw [abs_neg]
    refine (cauchy3 _ _ _ _ _ _).trans (mul_le_mul_of_nonneg_left (sqrt_le_of (by positivity) ?_) (by unfold len3; positivity))
    have h1 := sin_sq_add_cos_sq a
    have h2 := sin_sq_add_cos_sq b
    have e2 : (s ^ 2 * sin b) ^ 2 + ((x ^ 2 + s ^ 2) * sin a * cos b + 2 * x * s * cos a * sin b) ^ 2 +
        (-((x ^ 2 + s ^ 2) * cos a * cos b) + 2 * x * s * sin a * sin b) ^ 2 =
        (s ^ 4 + 4 * x ^ 2 * s ^ 2) * sin b ^ 2 + (x ^ 2 + s ^ 2) ^ 2 * cos b ^ 2 := by
      linear_combination ((x ^ 2 + s ^ 2) ^ 2 * cos b ^ 2 + 4 * x ^ 2 * s ^ 2 * sin b ^ 2) * h1
    rw [e2]
    have hx := sq_abs x
    have hs := sq_abs s
    have h4 : (x ^ 2 + s ^ 2) ^ 2 ≤ ((|x| + |s|) ^ 2) ^ 2 := by
      refine pow_le_pow_left₀ (by positivity) ?_ 2
      nlinarith [mul_nonneg (abs_nonneg x) (abs_nonneg s)]
    have h5 : s ^ 4 + 4 * x ^ 2 * s ^ 2 ≤ ((|x| + |s|) ^ 2) ^ 2 := by
      rw [show s ^ 4 = |s| ^ 4 by rw [← abs_pow, abs_of_nonneg (by positivity)], ← hx, ← hs]
      have p1 := abs_nonneg x
      have p2 := abs_nonneg s
      have : ((|x| + |s|) ^ 2) ^ 2 = |s| ^ 4 + 4 * |x| ^ 2 * |s| ^ 2 + (2 * |x| ^ 2 * |s| ^ 2 + 4 * |x| * |s| ^ 3 + 4 * |x| ^ 3 * |s| + |x| ^ 4) := by ring
      rw [this]
      have : 0 ≤ 2 * |x| ^ 2 * |s| ^ 2 + 4 * |x| * |s| ^ 3 + 4 * |x| ^ 3 * |s| + |x| ^ 4 := by positivity
      linarith
    calc _ ≤ ((|x| + |s|) ^ 2) ^ 2 * sin b ^ 2 + ((|x| + |s|) ^ 2) ^ 2 * cos b ^ 2 :=
          add_le_add (mul_le_mul_of_nonneg_right h5 (sq_nonneg _)) (mul_le_mul_of_nonneg_right h4 (sq_nonneg _))
      _ = _ := by rw [← mul_add, h2, mul_one])
  simpa using this

/-- the hip link: first and second order -/
theorem hip_second (v w α x : ℝ) :
    |(v * cos (α + x) + w * sin (α + x)) - (v * cos α + w * sin α) - x * (w * cos α - v * sin α)| ≤ len3 0 v w * |x| ^ 2 / 2 := by
  have h := link_second 0 w (-v) α 0 x 0
  unfold linkF at h
  simp at h
  have e : len3 0 w (-v) = len3 0 v w := by unfold len3; congr 1; ring
  rw [e] at h
  rw [sq_abs]
  refine le_trans (le_of_eq ?_) h
  congr 1; ring

theorem hip_first (v w α x : ℝ) :
    |(v * cos (α + x) + w * sin (α + x)) - (v * cos α + w * sin α)| ≤ len3 0 v w * |x| := by
  have h := link_first 0 w (-v) α 0 x 0
  unfold linkF at h
  simp at h
  have e : len3 0 w (-v) = len3 0 v w := by unfold len3; congr 1; ring
  rw [e] at h
  refine le_trans (le_of_eq ?_) h
  congr 1; ring

theorem len3_le (u v w : ℝ) : len3 0 v w ≤ len3 u v w := by
  unfold len3; refine Real.sqrt_le_sqrt ?_; nlinarith [sq_nonneg u]

/-- a coordinate of the foot is the sum of those of the links -/
theorem posF_links (f l u v w a b c : ℝ) : u * posF f l a b c 0 + v * posF f l a b c 1 + w * posF f l a b c 2 =
    u * (0.19 * f) + v * (0.049 * l) + 0.062 * l * (v * cos a + w * sin a) + 0.209 * linkF u v w a b +
      0.2075 * linkF u v w a (b + c) := by
  simp [posF, linkF]; ring

theorem foot_first (f l u v w a b c x y z : ℝ) (hl : |l| = 1) :
    |(u * posF f l (a + x) (b + y) (c + z) 0 + v * posF f l (a + x) (b + y) (c + z) 1 + w * posF f l (a + x) (b + y) (c + z) 2) -
      (u * posF f l a b c 0 + v * posF f l a b c 1 + w * posF f l a b c 2)| ≤
      len3 u v w * (0.4785 * |x| + 0.4165 * |y| + 0.2075 * |z|) := by
  rw [posF_links, posF_links, show b + y + (c + z) = b + c + (y + z) by ring]
  have h1 := hip_first v w a x
  have h2 := link_first u v w a b x y
  have h3 := link_first u v w a (b + c) x (y + z)
  have h4 := mul_le_mul_of_nonneg_right (len3_le u v w) (abs_nonneg x)
  have h5 := mul_le_mul_of_nonneg_left (abs_add_le y z) (by unfold len3; positivity : 0 ≤ len3 u v w)
  have e : ∀ A A' B B' C C' k : ℝ, k + 0.062 * l * A + 0.209 * B + 0.2075 * C - (k + 0.062 * l * A' + 0.209 * B' + 0.2075 * C') =
      0.062 * (l * (A - A')) + (0.209 * (B - B') + 0.2075 * (C - C')) := fun _ _ _ _ _ _ _ => by ring
  rw [e]
  refine (abs_add_le _ _).trans ?_
  have h6 := abs_add_le (0.209 * (linkF u v w (a + x) (b + y) - linkF u v w a b))
    (0.2075 * (linkF u v w (a + x) (b + c + (y + z)) - linkF u v w a (b + c)))
  rw [abs_mul, abs_mul, abs_of_pos (by norm_num : (0:ℝ) < 0.209), abs_of_pos (by norm_num : (0:ℝ) < 0.2075)] at h6
  rw [abs_mul, abs_of_pos (by norm_num : (0:ℝ) < 0.062), abs_mul, hl, one_mul]
  nlinarith

theorem foot_second (f l u v w a b c x y z : ℝ) (hl : |l| = 1) :
    |(u * posF f l (a + x) (b + y) (c + z) 0 + v * posF f l (a + x) (b + y) (c + z) 1 + w * posF f l (a + x) (b + y) (c + z) 2) -
      (u * posF f l a b c 0 + v * posF f l a b c 1 + w * posF f l a b c 2) -
      (u * (jacF l a b c 0 0 * x + jacF l a b c 0 1 * y + jacF l a b c 0 2 * z) +
        v * (jacF l a b c 1 0 * x + jacF l a b c 1 1 * y + jacF l a b c 1 2 * z) +
        w * (jacF l a b c 2 0 * x + jacF l a b c 2 1 * y + jacF l a b c 2 2 * z))| ≤
      len3 u v w * (0.24 * (|x| + |y| + |z|) ^ 2) := by
  rw [posF_links, posF_links, show b + y + (c + z) = b + c + (y + z) by ring]
  have h1 := hip_second v w a x
  have h2 := link_second u v w a b x y
  have h3 := link_second u v w a (b + c) x (y + z)
  have hL : 0 ≤ len3 u v w := by unfold len3; positivity
  have h4 := mul_le_mul_of_nonneg_right (len3_le u v w) (sq_nonneg |x|)
  have px := abs_nonneg x
  have py := abs_nonneg y
  have pz := abs_nonneg z
  have h5 : len3 u v w * (|x| + |y + z|) ^ 2 ≤ len3 u v w * (|x| + |y| + |z|) ^ 2 :=
    mul_le_mul_of_nonneg_left (pow_le_pow_left₀ (by positivity) (by linarith [abs_add_le y z]) 2) hL
  have h6 : len3 u v w * (|x| + |y|) ^ 2 ≤ len3 u v w * (|x| + |y| + |z|) ^ 2 :=
    mul_le_mul_of_nonneg_left (pow_le_pow_left₀ (by positivity) (by linarith) 2) hL
  have h7 : len3 u v w * |x| ^ 2 ≤ len3 u v w * (|x| + |y| + |z|) ^ 2 :=
    mul_le_mul_of_nonneg_left (pow_le_pow_left₀ (by positivity) (by linarith) 2) hL
  obtain ⟨D1, hD1⟩ : ∃ D, D = x * (w * cos a - v * sin a) := ⟨_, rfl⟩
  obtain ⟨D2, hD2⟩ : ∃ D, D = y * (u * cos b) + x * ((v * cos a + w * sin a) * cos b) - y * ((v * sin a - w * cos a) * sin b) := ⟨_, rfl⟩
  obtain ⟨D3, hD3⟩ : ∃ D, D = (y + z) * (u * cos (b + c)) + x * ((v * cos a + w * sin a) * cos (b + c)) -
    (y + z) * ((v * sin a - w * cos a) * sin (b + c)) := ⟨_, rfl⟩
  have hJ : u * (jacF l a b c 0 0 * x + jacF l a b c 0 1 * y + jacF l a b c 0 2 * z) +
        v * (jacF l a b c 1 0 * x + jacF l a b c 1 1 * y + jacF l a b c 1 2 * z) +
        w * (jacF l a b c 2 0 * x + jacF l a b c 2 1 * y + jacF l a b c 2 2 * z) =
      0.062 * l * D1 + 0.209 * D2 + 0.2075 * D3 := by
    rw [hD1, hD2, hD3]
    simp [jacF]; ring
  rw [hJ]
  rw [← hD1] at h1
  rw [← hD2] at h2
  rw [← hD3] at h3
  have e : ∀ A A' B B' C C' k : ℝ, k + 0.062 * l * A + 0.209 * B + 0.2075 * C - (k + 0.062 * l * A' + 0.209 * B' + 0.2075 * C') -
      (0.062 * l * D1 + 0.209 * D2 + 0.2075 * D3) =
      0.062 * (l * (A - A' - D1)) + (0.209 * (B - B' - D2) + 0.2075 * (C - C' - D3)) := fun _ _ _ _ _ _ _ => by ring
  rw [e]
  refine (abs_add_le _ _).trans ?_
  have h8 := abs_add_le (0.209 * (linkF u v w (a + x) (b + y) - linkF u v w a b - D2))
    (0.2075 * (linkF u v w (a + x) (b + c + (y + z)) - linkF u v w a (b + c) - D3))
  rw [abs_mul, abs_mul, abs_of_pos (by norm_num : (0:ℝ) < 0.209), abs_of_pos (by norm_num : (0:ℝ) < 0.2075)] at h8
  rw [abs_mul, abs_of_pos (by norm_num : (0:ℝ) < 0.062), abs_mul, hl, one_mul]
  have h0 : 0 ≤ len3 u v w * (|x| + |y| + |z|) ^ 2 := by positivity
  nlinarith

end Drift
