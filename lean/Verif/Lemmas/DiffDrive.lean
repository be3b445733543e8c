import Verif.Spec.DiffDrive
import Verif.Lemmas.Wheel
import Mathlib.Analysis.SpecialFunctions.Trigonometric.Bounds
import Mathlib.Analysis.Calculus.MeanValue

/-!
# Planar dead reckoning: algebra and the error bound
-/
set_option linter.unusedSimpArgs false
namespace Drift
open Real Matrix Mat

/-! ### rotations about the vertical axis -/

theorem Rz_mul (a b : ℝ) : Rz a * Rz b = Rz (a + b) := by
  ext i j
  fin_cases i <;> fin_cases j <;> simp [Rz, Matrix.mul_apply, Fin.sum_univ_three, cos_add, sin_add] <;> ring

theorem Rz_zero : Rz 0 = 1 := by
  ext i j
  fin_cases i <;> fin_cases j <;> simp [Rz]

theorem Rz_fwd (a v : ℝ) : (Rz a).mulVec ![v, 0, 0] = ![v * cos a, v * sin a, 0] := by
  funext i
  fin_cases i <;> simp [Rz, Matrix.mulVec, dotProduct, Fin.sum_univ_three] <;> ring

theorem Gam0_vertical (a : ℝ) : Gam0 ![0, 0, a] = Rz (turnOf a) := by
  have hn : norm3 ![0, 0, a] = |a| := by
    simp [norm3, Real.sqrt_sq_eq_abs]
  unfold Gam0 turnOf
  rw [hn]
  unfold TOLERANCE
  by_cases h : |a| < 1e-10
  · rw [if_pos h, if_pos h, Rz_zero]
  · rw [if_neg h, if_neg h]
    have ha : a ≠ 0 := by
      rintro rfl
      norm_num at h
    have h1 : sin |a| / |a| * a = sin a := by
      rcases abs_cases a with ⟨e, _⟩ | ⟨e, _⟩ <;> rw [e]
      · field_simp
      · rw [sin_neg]; field_simp
    have h2 : (1 - cos |a|) / (|a| * |a|) * (a * a) = 1 - cos a := by
      rw [cos_abs, abs_mul_abs_self]; field_simp
    ext i j
    fin_cases i <;> fin_cases j <;>
      simp [gammaCase0, skew, Rz, Matrix.mul_apply, Fin.sum_univ_three] <;> first | linarith [h1, h2] | (field_simp; ring)

/-! ### one interval -/

theorem heading_linear {θ : ℝ → ℝ} {ω a b : ℝ} (h : ∀ t ∈ Set.Icc a b, HasDerivWithinAt θ ω (Set.Icc a b) t) :
    ∀ t ∈ Set.Icc a b, θ t = θ a + ω * (t - a) := by
  intro t ht
  have : θ t - ω * t = θ a - ω * a := constant_of_has_deriv_right_zero (f := fun t => θ t - ω * t) (a := a) (b := b)
    (fun x hx => ((h x hx).continuousWithinAt).sub (by fun_prop))
    (fun x hx => by
      have h1 := (h x (Set.Ico_subset_Icc_self hx)).mono_of_mem_nhdsWithin (Icc_mem_nhdsGE_of_mem hx)
      have h2 := h1.sub ((hasDerivWithinAt_id x (Set.Ici x)).const_mul ω)
      rw [mul_one, sub_self] at h2
      exact h2) t ht
  linarith

/-- distance of two points on the unit circle -/
theorem norm_cis_sub (a b : ℝ) : ‖(⟨cos a - cos b, sin a - sin b⟩ : ℂ)‖ ≤ |a - b| := by
  have e : (⟨cos a - cos b, sin a - sin b⟩ : ℂ) = Complex.exp (Complex.I * b) * (Complex.exp (Complex.I * (a - b : ℝ)) - 1) := by
    rw [mul_sub, mul_one, ← Complex.exp_add, show Complex.I * b + Complex.I * ((a - b : ℝ) : ℂ) = (a : ℂ) * Complex.I by push_cast; ring,
      mul_comm Complex.I, Complex.exp_mul_I, Complex.exp_mul_I]
    apply Complex.ext <;> simp [Complex.cos_ofReal_re, Complex.sin_ofReal_re, Complex.cos_ofReal_im, Complex.sin_ofReal_im]
  rw [e, norm_mul, mul_comm Complex.I (b : ℂ), Complex.norm_exp_ofReal_mul_I, one_mul]
  exact Real.norm_exp_I_mul_ofReal_sub_one_le

theorem complex_mk (a b : ℝ) : (a : ℂ) + (b : ℂ) * Complex.I = ⟨a, b⟩ := by apply Complex.ext <;> simp
theorem complex_smul (v a b : ℝ) : (⟨v * a, v * b⟩ : ℂ) = (v : ℂ) * ⟨a, b⟩ := by apply Complex.ext <;> simp

theorem euler_step {θ x y : ℝ → ℝ} {v ω a b : ℝ} (hab : a ≤ b)
    (h : ∀ t ∈ Set.Icc a b, HasDerivWithinAt θ ω (Set.Icc a b) t ∧ HasDerivWithinAt x (v * cos (θ t)) (Set.Icc a b) t ∧
      HasDerivWithinAt y (v * sin (θ t)) (Set.Icc a b) t) {φ x0 y0 e E : ℝ} (he : |φ - θ a| ≤ e)
    (hE : ‖(⟨x a - x0, y a - y0⟩ : ℂ)‖ ≤ E) :
    ‖(⟨x b - (x0 + v * (b - a) * cos φ), y b - (y0 + v * (b - a) * sin φ)⟩ : ℂ)‖ ≤
      E + (|v| * |ω| * (b - a) ^ 2 / 2 + e * |v| * (b - a)) := by
  have hθ := heading_linear fun t ht => (h t ht).1
  let f : ℝ → ℂ := fun t => ((x t - (x0 + v * (t - a) * cos φ) : ℝ) : ℂ) + ((y t - (y0 + v * (t - a) * sin φ) : ℝ) : ℂ) * Complex.I
  have hf : ∀ t, f t = ⟨x t - (x0 + v * (t - a) * cos φ), y t - (y0 + v * (t - a) * sin φ)⟩ := fun t => complex_mk _ _
  let f' : ℝ → ℂ := fun t => ((v * cos (θ t) - v * cos φ : ℝ) : ℂ) + ((v * sin (θ t) - v * sin φ : ℝ) : ℂ) * Complex.I
  have hd : ∀ t ∈ Set.Icc a b, HasDerivWithinAt f (f' t) (Set.Icc a b) t := by
    intro t ht
    obtain ⟨-, h1, h2⟩ := h t ht
    have k1 : HasDerivWithinAt (fun t => x t - (x0 + v * (t - a) * cos φ)) (v * cos (θ t) - v * cos φ) (Set.Icc a b) t := by
      refine h1.sub ?_
      have := ((((hasDerivWithinAt_id t (Set.Icc a b)).sub_const a).const_mul v).mul_const (cos φ)).const_add x0
      simpa using this
    have k2 : HasDerivWithinAt (fun t => y t - (y0 + v * (t - a) * sin φ)) (v * sin (θ t) - v * sin φ) (Set.Icc a b) t := by
      refine h2.sub ?_
      have := ((((hasDerivWithinAt_id t (Set.Icc a b)).sub_const a).const_mul v).mul_const (sin φ)).const_add y0
      simpa using this
    exact k1.ofReal_comp.add (k2.ofReal_comp.mul_const Complex.I)
  have key := image_norm_le_of_norm_deriv_right_le_deriv_boundary' (f := f) (f' := f') (a := a) (b := b)
    (B := fun t => E + (|v| * |ω| * (t - a) ^ 2 / 2 + e * |v| * (t - a))) (B' := fun t => |v| * |ω| * (t - a) + e * |v|)
    (fun t ht => (hd t ht).continuousWithinAt)
    (fun t ht => (hd t (Set.Ico_subset_Icc_self ht)).mono_of_mem_nhdsWithin (Icc_mem_nhdsGE_of_mem ht))
    (by rw [hf]; simpa using hE) (by fun_prop)
    (fun t ht => by
      have h1 : HasDerivAt (fun t => E + (|v| * |ω| * (t - a) ^ 2 / 2 + e * |v| * (t - a))) (|v| * |ω| * (t - a) + e * |v|) t := by
        have i := (hasDerivAt_id t).sub_const a
        have := (((i.pow 2).const_mul (|v| * |ω|)).div_const 2).add (i.const_mul (e * |v|)) |>.const_add E
        refine this.congr_deriv ?_
        simp; ring
      exact h1.hasDerivWithinAt)
    (fun t ht => by
      have ht' := Set.Ico_subset_Icc_self ht
      have e1 : f' t = (v : ℂ) * ⟨cos (θ t) - cos φ, sin (θ t) - sin φ⟩ := by
        rw [← complex_smul, mul_sub, mul_sub]; exact complex_mk _ _
      rw [e1, norm_mul, Complex.norm_real, Real.norm_eq_abs]
      have h2 : |θ t - φ| ≤ |ω| * (t - a) + e := by
        rw [hθ t ht', show θ a + ω * (t - a) - φ = ω * (t - a) - (φ - θ a) by ring]
        refine (abs_sub _ _).trans (add_le_add ?_ he)
        rw [abs_mul, abs_of_nonneg (sub_nonneg.mpr ht'.1)]
      calc |v| * _ ≤ |v| * (|ω| * (t - a) + e) := mul_le_mul_of_nonneg_left ((norm_cis_sub _ _).trans h2) (abs_nonneg v)
        _ = _ := by ring)
    (Set.right_mem_Icc.mpr hab)
  rwa [hf] at key

/-! ### all intervals -/

theorem reckon_error {θ x y : ℝ → ℝ} : ∀ (l : List Reading) (s : Planar) {e E : ℝ}, Drives θ x y s.t l → |s.θ - θ s.t| ≤ e →
    ‖(⟨x s.t - s.x, y s.t - s.y⟩ : ℂ)‖ ≤ E →
    ‖(⟨x (s.reckon l).t - (s.reckon l).x, y (s.reckon l).t - (s.reckon l).y⟩ : ℂ)‖ ≤ E + driftBound e s.t l ∧
      |(s.reckon l).θ - θ (s.reckon l).t| ≤ e + l.length * 1e-10 := by
  intro l
  induction l with
  | nil => intro s e E _ he hE; exact ⟨by simpa [Planar.reckon, driftBound] using hE, by simpa [Planar.reckon] using he⟩
  | cons r l ih =>
    intro s e E hd he hE
    obtain ⟨hle, h1, h2⟩ := hd
    have st := euler_step hle h1 he hE
    have hθ := heading_linear (fun t ht => (h1 t ht).1) r.t (Set.right_mem_Icc.mpr hle)
    have he' : |s.θ + turnOf (r.ω * (r.t - s.t)) - θ r.t| ≤ e + |r.ω * (r.t - s.t) - turnOf (r.ω * (r.t - s.t))| := by
      rw [hθ, show s.θ + turnOf (r.ω * (r.t - s.t)) - (θ s.t + r.ω * (r.t - s.t)) =
        (s.θ - θ s.t) - (r.ω * (r.t - s.t) - turnOf (r.ω * (r.t - s.t))) by ring]
      exact (abs_sub _ _).trans (add_le_add he le_rfl)
    have hs : |r.ω * (r.t - s.t) - turnOf (r.ω * (r.t - s.t))| ≤ 1e-10 := by
      unfold turnOf
      split_ifs with h
      · rw [sub_zero]; exact h.le
      · rw [sub_self, abs_zero]; norm_num
    obtain ⟨a1, a2⟩ := ih ⟨r.t, s.θ + turnOf (r.ω * (r.t - s.t)), s.x + r.v * (r.t - s.t) * cos s.θ, s.y + r.v * (r.t - s.t) * sin s.θ⟩
      h2 he' st
    refine ⟨?_, ?_⟩
    · show ‖(⟨x (Planar.reckon _ l).t - _, _⟩ : ℂ)‖ ≤ _
      refine a1.trans (le_of_eq ?_)
      simp only [driftBound]; ring
    · refine a2.trans ?_
      simp only [List.length_cons, Nat.cast_add, Nat.cast_one]
      linarith

end Drift
