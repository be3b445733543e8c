import Verif.Spec.Slip
import Verif.Lemmas.DiffDrive

/-!
# Dead reckoning with slip: the error bound
-/
namespace Drift
open Real

/-- a function whose derivative is within `ε` of `c` stays within `ε (t - a)` of the line -/
theorem near_linear {θ : ℝ → ℝ} {a b c ε : ℝ}
    (h : ∀ t ∈ Set.Icc a b, ∃ w, HasDerivWithinAt θ w (Set.Icc a b) t ∧ |w - c| ≤ ε) :
    ∀ t ∈ Set.Icc a b, |θ t - (θ a + c * (t - a))| ≤ ε * (t - a) := by
  choose! w hw hε using h
  have hd : ∀ t ∈ Set.Icc a b, HasDerivWithinAt (fun t => θ t - (θ a + c * (t - a))) (w t - c) (Set.Icc a b) t := by
    intro t ht
    refine (hw t ht).sub ?_
    have := (((hasDerivWithinAt_id t (Set.Icc a b)).sub_const a).const_mul c).const_add (θ a)
    simpa using this
  intro t ht
  have := image_norm_le_of_norm_deriv_right_le_deriv_boundary' (f := fun t => θ t - (θ a + c * (t - a)))
    (f' := fun t => w t - c) (a := a) (b := b) (B := fun t => ε * (t - a)) (B' := fun _ => ε)
    (fun t ht => (hd t ht).continuousWithinAt)
    (fun t ht => (hd t (Set.Ico_subset_Icc_self ht)).mono_of_mem_nhdsWithin (Icc_mem_nhdsGE_of_mem ht))
    (by simp) (by fun_prop)
    (fun t ht => by
      have := ((hasDerivAt_id t).sub_const a).const_mul ε
      simpa using this.hasDerivWithinAt)
    (fun t ht => by rw [Real.norm_eq_abs]; exact hε t (Set.Ico_subset_Icc_self ht)) ht
  simpa using this

theorem norm_mk_sqrt (a b : ℝ) : ‖(⟨a, b⟩ : ℂ)‖ = √(a ^ 2 + b ^ 2) := by
  rw [Complex.norm_def, Complex.normSq_mk, pow_two, pow_two]

theorem slip_step {θ x y : ℝ → ℝ} {v ω a b εv εω : ℝ} (hab : a ≤ b)
    (h : ∀ t ∈ Set.Icc a b, ∃ w p q, HasDerivWithinAt θ w (Set.Icc a b) t ∧ HasDerivWithinAt x p (Set.Icc a b) t ∧
      HasDerivWithinAt y q (Set.Icc a b) t ∧ |w - ω| ≤ εω ∧
        √((p - v * cos (θ t)) ^ 2 + (q - v * sin (θ t)) ^ 2) ≤ εv) {φ x0 y0 e E : ℝ} (he : |φ - θ a| ≤ e)
    (hE : ‖(⟨x a - x0, y a - y0⟩ : ℂ)‖ ≤ E) :
    ‖(⟨x b - (x0 + v * (b - a) * cos φ), y b - (y0 + v * (b - a) * sin φ)⟩ : ℂ)‖ ≤
      E + (εv * (b - a) + |v| * (|ω| + εω) * (b - a) ^ 2 / 2 + e * |v| * (b - a)) := by
  have hθ := near_linear (fun t ht => by
    obtain ⟨w, p, q, h1, -, -, h4, -⟩ := h t ht
    exact ⟨w, h1, h4⟩)
  choose! w p q h1 h2 h3 h4 h5 using h
  let f : ℝ → ℂ := fun t => ((x t - (x0 + v * (t - a) * cos φ) : ℝ) : ℂ) + ((y t - (y0 + v * (t - a) * sin φ) : ℝ) : ℂ) * Complex.I
  have hf : ∀ t, f t = ⟨x t - (x0 + v * (t - a) * cos φ), y t - (y0 + v * (t - a) * sin φ)⟩ := fun t => complex_mk _ _
  let f' : ℝ → ℂ := fun t => ((p t - v * cos φ : ℝ) : ℂ) + ((q t - v * sin φ : ℝ) : ℂ) * Complex.I
  have hd : ∀ t ∈ Set.Icc a b, HasDerivWithinAt f (f' t) (Set.Icc a b) t := by
    intro t ht
    have k1 : HasDerivWithinAt (fun t => x t - (x0 + v * (t - a) * cos φ)) (p t - v * cos φ) (Set.Icc a b) t := by
      refine (h2 t ht).sub ?_
      have := ((((hasDerivWithinAt_id t (Set.Icc a b)).sub_const a).const_mul v).mul_const (cos φ)).const_add x0
      simpa using this
    have k2 : HasDerivWithinAt (fun t => y t - (y0 + v * (t - a) * sin φ)) (q t - v * sin φ) (Set.Icc a b) t := by
      refine (h3 t ht).sub ?_
      have := ((((hasDerivWithinAt_id t (Set.Icc a b)).sub_const a).const_mul v).mul_const (sin φ)).const_add y0
      simpa using this
    exact k1.ofReal_comp.add (k2.ofReal_comp.mul_const Complex.I)
  have key := image_norm_le_of_norm_deriv_right_le_deriv_boundary' (f := f) (f' := f') (a := a) (b := b)
    (B := fun t => E + (εv * (t - a) + |v| * (|ω| + εω) * (t - a) ^ 2 / 2 + e * |v| * (t - a)))
    (B' := fun t => εv + |v| * (|ω| + εω) * (t - a) + e * |v|)
    (fun t ht => (hd t ht).continuousWithinAt)
    (fun t ht => (hd t (Set.Ico_subset_Icc_self ht)).mono_of_mem_nhdsWithin (Icc_mem_nhdsGE_of_mem ht))
    (by rw [hf]; simpa using hE) (by fun_prop)
    (fun t ht => by
      have h1 : HasDerivAt (fun t => E + (εv * (t - a) + |v| * (|ω| + εω) * (t - a) ^ 2 / 2 + e * |v| * (t - a)))
          (εv + |v| * (|ω| + εω) * (t - a) + e * |v|) t := by
        have i := (hasDerivAt_id t).sub_const a
        have := (((i.const_mul εv).add (((i.pow 2).const_mul (|v| * (|ω| + εω))).div_const 2)).add
          (i.const_mul (e * |v|))).const_add E
        refine this.congr_deriv ?_
        simp only [id_eq, Nat.cast_ofNat, Nat.reduceSub]; ring
      exact h1.hasDerivWithinAt)
    (fun t ht => by
      have ht' := Set.Ico_subset_Icc_self ht
      have e1 : f' t = ⟨p t - v * cos (θ t), q t - v * sin (θ t)⟩ + (v : ℂ) * ⟨cos (θ t) - cos φ, sin (θ t) - sin φ⟩ := by
        rw [← complex_smul, mul_sub, mul_sub]
        refine (complex_mk _ _).trans ?_
        apply Complex.ext <;> simp
      rw [e1]
      refine (norm_add_le _ _).trans ?_
      rw [norm_mul, Complex.norm_real, Real.norm_eq_abs, norm_mk_sqrt (p t - _)]
      have hh : |θ t - φ| ≤ (|ω| + εω) * (t - a) + e := by
        have := hθ t ht'
        rw [show θ t - φ = (θ t - (θ a + ω * (t - a))) + (ω * (t - a) - (φ - θ a)) by ring]
        refine (abs_add_le _ _).trans ?_
        have h6 : |ω * (t - a) - (φ - θ a)| ≤ |ω| * (t - a) + e := by
          refine (abs_sub _ _).trans (add_le_add ?_ he)
          rw [abs_mul, abs_of_nonneg (sub_nonneg.mpr ht'.1)]
        linarith
      have h7 : |v| * ‖(⟨cos (θ t) - cos φ, sin (θ t) - sin φ⟩ : ℂ)‖ ≤ |v| * ((|ω| + εω) * (t - a) + e) :=
        mul_le_mul_of_nonneg_left ((norm_cis_sub _ _).trans hh) (abs_nonneg v)
      have h8 := h5 t ht'
      linarith)
    (Set.right_mem_Icc.mpr hab)
  rwa [hf] at key

theorem turnOf_near (a : ℝ) : |a - turnOf a| ≤ 1e-10 := by
  unfold turnOf
  split_ifs with h
  · rw [sub_zero]; exact h.le
  · rw [sub_self, abs_zero]; norm_num

theorem slip_error {θ x y : ℝ → ℝ} {εv εω : ℝ} : ∀ (l : List Reading) (s : Planar) {e E : ℝ},
    NearlyDrives εv εω θ x y s.t l → |s.θ - θ s.t| ≤ e → ‖(⟨x s.t - s.x, y s.t - s.y⟩ : ℂ)‖ ≤ E →
    ‖(⟨x (s.reckon l).t - (s.reckon l).x, y (s.reckon l).t - (s.reckon l).y⟩ : ℂ)‖ ≤ E + slipBound εv εω e s.t l ∧
      |(s.reckon l).θ - θ (s.reckon l).t| ≤ e + εω * ((s.reckon l).t - s.t) + l.length * 1e-10 := by
  intro l
  induction l with
  | nil => intro s e E _ he hE; exact ⟨by simpa [Planar.reckon, slipBound] using hE, by simpa [Planar.reckon] using he⟩
  | cons r l ih =>
    intro s e E hd he hE
    obtain ⟨hle, h1, h2⟩ := hd
    have st := slip_step hle h1 he hE
    have hθ := near_linear (fun t ht => by
      obtain ⟨w, p, q, k1, -, -, k4, -⟩ := h1 t ht
      exact ⟨w, k1, k4⟩) r.t (Set.right_mem_Icc.mpr hle)
    have he' : |s.θ + turnOf (r.ω * (r.t - s.t)) - θ r.t| ≤
        e + εω * (r.t - s.t) + |r.ω * (r.t - s.t) - turnOf (r.ω * (r.t - s.t))| := by
      rw [show s.θ + turnOf (r.ω * (r.t - s.t)) - θ r.t =
        ((s.θ - θ s.t) - (θ r.t - (θ s.t + r.ω * (r.t - s.t)))) - (r.ω * (r.t - s.t) - turnOf (r.ω * (r.t - s.t))) by ring]
      exact (abs_sub _ _).trans (add_le_add ((abs_sub _ _).trans (add_le_add he hθ)) le_rfl)
    have hs := turnOf_near (r.ω * (r.t - s.t))
    obtain ⟨a1, a2⟩ := ih ⟨r.t, s.θ + turnOf (r.ω * (r.t - s.t)), s.x + r.v * (r.t - s.t) * cos s.θ, s.y + r.v * (r.t - s.t) * sin s.θ⟩
      h2 he' st
    refine ⟨?_, ?_⟩
    · show ‖(⟨x (Planar.reckon _ l).t - _, _⟩ : ℂ)‖ ≤ _
      refine a1.trans (le_of_eq ?_)
      simp only [slipBound]; ring
    · refine a2.trans ?_
      simp only [List.length_cons, Nat.cast_add, Nat.cast_one, Planar.reckon]
      linarith

end Drift
