import Verif.Model.RosPub
import Verif.Lemmas.SO3
import Mathlib.Tactic.LinearCombination
import Mathlib.Tactic.FinCases

/-!
# The quaternion of a rotation matrix (Eigen's conversion) represents it
-/
namespace Drift
open Matrix

/-- the scalar equations of a rotation matrix -/
structure RotE (a b c d e f g h i : ℝ) : Prop where
  r0 : a ^ 2 + b ^ 2 + c ^ 2 = 1
  r1 : d ^ 2 + e ^ 2 + f ^ 2 = 1
  r2 : g ^ 2 + h ^ 2 + i ^ 2 = 1
  r01 : a * d + b * e + c * f = 0
  r02 : a * g + b * h + c * i = 0
  r12 : d * g + e * h + f * i = 0
  c0 : a ^ 2 + d ^ 2 + g ^ 2 = 1
  c1 : b ^ 2 + e ^ 2 + h ^ 2 = 1
  c2 : c ^ 2 + f ^ 2 + i ^ 2 = 1
  c01 : a * b + d * e + g * h = 0
  c02 : a * c + d * f + g * i = 0
  c12 : b * c + e * f + h * i = 0
  k00 : a = e * i - f * h
  k01 : b = f * g - d * i
  k02 : c = d * h - e * g
  k10 : d = c * h - b * i
  k11 : e = a * i - c * g
  k12 : f = b * g - a * h
  k20 : g = b * f - c * e
  k21 : h = c * d - a * f
  k22 : i = a * e - b * d

theorem RotE.cyc {a b c d e f g h i : ℝ} (r : RotE a b c d e f g h i) : RotE e f d h i g b c a where
  r0 := by linear_combination r.r1
  r1 := by linear_combination r.r2
  r2 := by linear_combination r.r0
  r01 := by linear_combination r.r12
  r02 := by linear_combination r.r01
  r12 := by linear_combination r.r02
  c0 := by linear_combination r.c1
  c1 := by linear_combination r.c2
  c2 := by linear_combination r.c0
  c01 := by linear_combination r.c12
  c02 := by linear_combination r.c01
  c12 := by linear_combination r.c02
  k00 := by linear_combination r.k11
  k01 := by linear_combination r.k12
  k02 := by linear_combination r.k10
  k10 := by linear_combination r.k21
  k11 := by linear_combination r.k22
  k12 := by linear_combination r.k20
  k20 := by linear_combination r.k01
  k21 := by linear_combination r.k02
  k22 := by linear_combination r.k00

theorem rotE_of_isRot {R : M3} (hR : IsRot R) :
    RotE (R 0 0) (R 0 1) (R 0 2) (R 1 0) (R 1 1) (R 1 2) (R 2 0) (R 2 1) (R 2 2) := by
  have h1 : R * Rᵀ = 1 := mul_eq_one_comm.1 hR.1
  have h2 : Rᵀ * R = 1 := hR.1
  have e1 : ∀ i j, (R * Rᵀ) i j = (1 : M3) i j := fun i j => by rw [h1]
  have e2 : ∀ i j, (Rᵀ * R) i j = (1 : M3) i j := fun i j => by rw [h2]
  have e3 : ∀ i j, R.adjugate i j = Rᵀ i j := fun i j => by rw [rot_cofactor hR]
  rw [Matrix.adjugate_fin_three] at e3
  simp only [Matrix.mul_apply, Fin.sum_univ_three, Matrix.transpose_apply] at e1 e2
  have a00 := e1 0 0; have a01 := e1 0 1; have a02 := e1 0 2
  have a11 := e1 1 1; have a12 := e1 1 2; have a22 := e1 2 2
  have b00 := e2 0 0; have b01 := e2 0 1; have b02 := e2 0 2
  have b11 := e2 1 1; have b12 := e2 1 2; have b22 := e2 2 2
  have k00 := e3 0 0; have k01 := e3 0 1; have k02 := e3 0 2
  have k10 := e3 1 0; have k11 := e3 1 1; have k12 := e3 1 2
  have k20 := e3 2 0; have k21 := e3 2 1; have k22 := e3 2 2
  simp at a00 a01 a02 a11 a12 a22 b00 b01 b02 b11 b12 b22 k00 k01 k02 k10 k11 k12 k20 k21 k22
  constructor
  · linear_combination a00
  · linear_combination a11
  · linear_combination a22
  · linear_combination a01
  · linear_combination a02
  · linear_combination a12
  · linear_combination b00
  · linear_combination b11
  · linear_combination b22
  · linear_combination b01
  · linear_combination b02
  · linear_combination b12
  · linear_combination -k00
  · linear_combination -k10
  · linear_combination -k20
  · linear_combination -k01
  · linear_combination -k11
  · linear_combination -k21
  · linear_combination -k02
  · linear_combination -k12
  · linear_combination -k22

/-- the scalar equations of `toRot` and of the unit norm -/
def QuatIs (w x y z a b c d e f g h i : ℝ) : Prop :=
  (1 - 2 * (y ^ 2 + z ^ 2) = a ∧ 2 * (x * y - w * z) = b ∧ 2 * (x * z + w * y) = c) ∧
  (2 * (x * y + w * z) = d ∧ 1 - 2 * (x ^ 2 + z ^ 2) = e ∧ 2 * (y * z - w * x) = f) ∧
  (2 * (x * z - w * y) = g ∧ 2 * (y * z + w * x) = h ∧ 1 - 2 * (x ^ 2 + y ^ 2) = i) ∧
  w ^ 2 + x ^ 2 + y ^ 2 + z ^ 2 = 1

theorem quatIs_trace {a b c d e f g h i w x y z : ℝ} (r : RotE a b c d e f g h i) (hw : w ≠ 0)
    (w2 : 4 * w ^ 2 = 1 + a + e + i) (wx : 4 * (w * x) = h - f) (wy : 4 * (w * y) = c - g) (wz : 4 * (w * z) = d - b) :
    QuatIs w x y z a b c d e f g h i := by
  have c8 : (8 : ℝ) * w ^ 2 ≠ 0 := mul_ne_zero (by norm_num) (pow_ne_zero _ hw)
  have sx : 16 * (w ^ 2 * x ^ 2) = (h - f) ^ 2 := by rw [← wx]; ring
  have sy : 16 * (w ^ 2 * y ^ 2) = (c - g) ^ 2 := by rw [← wy]; ring
  have sz : 16 * (w ^ 2 * z ^ 2) = (d - b) ^ 2 := by rw [← wz]; ring
  have pxy : 16 * (w ^ 2 * (x * y)) = (h - f) * (c - g) := by rw [← wx, ← wy]; ring
  have pxz : 16 * (w ^ 2 * (x * z)) = (h - f) * (d - b) := by rw [← wx, ← wz]; ring
  have pyz : 16 * (w ^ 2 * (y * z)) = (c - g) * (d - b) := by rw [← wy, ← wz]; ring
  have ix : (h - f) ^ 2 = (1 + a + e + i) * (1 + a - e - i) := by
    linear_combination r.r2 + r.r1 - r.c0 - 2 * r.k00
  have iy : (c - g) ^ 2 = (1 + a + e + i) * (1 - a + e - i) := by
    linear_combination r.r2 + r.r0 - r.c1 - 2 * r.k11
  have iz : (d - b) ^ 2 = (1 + a + e + i) * (1 - a - e + i) := by
    linear_combination r.r1 + r.r0 - r.c2 - 2 * r.k22
  have ixy : (h - f) * (c - g) = (1 + a + e + i) * (b + d) := by
    linear_combination -r.k10 - r.k01 - r.c01 - r.r01
  have ixz : (h - f) * (d - b) = (1 + a + e + i) * (c + g) := by
    linear_combination -r.k02 - r.k20 - r.c02 - r.r02
  have iyz : (c - g) * (d - b) = (1 + a + e + i) * (f + h) := by
    linear_combination -r.k12 - r.k21 - r.c12 - r.r12
  rw [ix] at sx; rw [iy] at sy; rw [iz] at sz; rw [ixy] at pxy; rw [ixz] at pxz; rw [iyz] at pyz
  refine ⟨⟨?_, ?_, ?_⟩, ⟨?_, ?_, ?_⟩, ⟨?_, ?_, ?_⟩, ?_⟩ <;> apply mul_left_cancel₀ c8
  · linear_combination -sy - sz + 2 * (1 - a) * w2
  · linear_combination pxy - 4 * w ^ 2 * wz + (- (d - b) - 2 * b) * w2
  · linear_combination pxz + 4 * w ^ 2 * wy + ((c - g) - 2 * c) * w2
  · linear_combination pxy + 4 * w ^ 2 * wz + ((d - b) - 2 * d) * w2
  · linear_combination -sx - sz + 2 * (1 - e) * w2
  · linear_combination pyz - 4 * w ^ 2 * wx + (-(h - f) - 2 * f) * w2
  · linear_combination pxz - 4 * w ^ 2 * wy + (-(c - g) - 2 * g) * w2
  · linear_combination pyz + 4 * w ^ 2 * wx + ((h - f) - 2 * h) * w2
  · linear_combination -sx - sy + 2 * (1 - i) * w2
  · linear_combination (1 / 2) * sx + (1 / 2) * sy + (1 / 2) * sz +
      (2 * w ^ 2 + (1 + a + e + i) / 2 - 2) * w2

theorem quatIs_first {a b c d e f g h i w x y z : ℝ} (r : RotE a b c d e f g h i) (hx : x ≠ 0)
    (x2 : 4 * x ^ 2 = 1 + a - e - i) (xw : 4 * (x * w) = h - f) (xy : 4 * (x * y) = d + b) (xz : 4 * (x * z) = g + c) :
    QuatIs w x y z a b c d e f g h i := by
  have c8 : (8 : ℝ) * x ^ 2 ≠ 0 := mul_ne_zero (by norm_num) (pow_ne_zero _ hx)
  have sw : 16 * (x ^ 2 * w ^ 2) = (h - f) ^ 2 := by rw [← xw]; ring
  have sy : 16 * (x ^ 2 * y ^ 2) = (d + b) ^ 2 := by rw [← xy]; ring
  have sz : 16 * (x ^ 2 * z ^ 2) = (g + c) ^ 2 := by rw [← xz]; ring
  have pwy : 16 * (x ^ 2 * (w * y)) = (h - f) * (d + b) := by rw [← xw, ← xy]; ring
  have pwz : 16 * (x ^ 2 * (w * z)) = (h - f) * (g + c) := by rw [← xw, ← xz]; ring
  have pyz : 16 * (x ^ 2 * (y * z)) = (d + b) * (g + c) := by rw [← xy, ← xz]; ring
  have iw : (h - f) ^ 2 = (1 + a - e - i) * (1 + a + e + i) := by
    linear_combination r.r2 + r.r1 - r.c0 - 2 * r.k00
  have iy : (d + b) ^ 2 = (1 + a - e - i) * (1 - a + e - i) := by
    linear_combination r.r1 + r.r0 - r.c2 + 2 * r.k22
  have iz : (g + c) ^ 2 = (1 + a - e - i) * (1 - a - e + i) := by
    linear_combination r.r2 + r.r0 - r.c1 + 2 * r.k11
  have iwy : (h - f) * (d + b) = (1 + a - e - i) * (c - g) := by
    linear_combination -r.k02 + r.k20 - r.c02 + r.r02
  have iwz : (h - f) * (g + c) = (1 + a - e - i) * (d - b) := by
    linear_combination -r.k10 + r.k01 + r.c01 - r.r01
  have iyz : (d + b) * (g + c) = (1 + a - e - i) * (h + f) := by
    linear_combination -r.k21 - r.k12 + r.r12 + r.c12
  rw [iw] at sw; rw [iy] at sy; rw [iz] at sz; rw [iwy] at pwy; rw [iwz] at pwz; rw [iyz] at pyz
  refine ⟨⟨?_, ?_, ?_⟩, ⟨?_, ?_, ?_⟩, ⟨?_, ?_, ?_⟩, ?_⟩ <;> apply mul_left_cancel₀ c8
  · linear_combination -sy - sz + 2 * (1 - a) * x2
  · linear_combination 4 * x ^ 2 * xy - pwz + ((d + b) - 2 * b) * x2
  · linear_combination 4 * x ^ 2 * xz + pwy + ((g + c) - 2 * c) * x2
  · linear_combination 4 * x ^ 2 * xy + pwz + ((d + b) - 2 * d) * x2
  · linear_combination -sz - 4 * x ^ 2 * x2 + (2 * (1 - e) - (1 + a - e - i)) * x2
  · linear_combination pyz - 4 * x ^ 2 * xw + (-(h - f) - 2 * f) * x2
  · linear_combination 4 * x ^ 2 * xz - pwy + ((g + c) - 2 * g) * x2
  · linear_combination pyz + 4 * x ^ 2 * xw + ((h - f) - 2 * h) * x2
  · linear_combination -sy - 4 * x ^ 2 * x2 + (2 * (1 - i) - (1 + a - e - i)) * x2
  · linear_combination (1 / 2) * sw + (1 / 2) * sy + (1 / 2) * sz +
      (2 * x ^ 2 + (1 + a - e - i) / 2 - 2) * x2

theorem QuatIs.cyc {w x y z a b c d e f g h i : ℝ} (q : QuatIs w x y z e f d h i g b c a) :
    QuatIs w z x y a b c d e f g h i := by
  obtain ⟨⟨h1, h2, h3⟩, ⟨h4, h5, h6⟩, ⟨h7, h8, h9⟩, h10⟩ := q
  refine ⟨⟨?_, ?_, ?_⟩, ⟨?_, ?_, ?_⟩, ⟨?_, ?_, ?_⟩, ?_⟩
  · linear_combination h9
  · linear_combination h7
  · linear_combination h8
  · linear_combination h3
  · linear_combination h1
  · linear_combination h2
  · linear_combination h6
  · linear_combination h4
  · linear_combination h5
  · linear_combination h10

theorem quat_toRot_of {q : Quat} {R : M3}
    (h : QuatIs q.w q.x q.y q.z (R 0 0) (R 0 1) (R 0 2) (R 1 0) (R 1 1) (R 1 2) (R 2 0) (R 2 1) (R 2 2)) :
    q.toRot = R ∧ q.w ^ 2 + q.x ^ 2 + q.y ^ 2 + q.z ^ 2 = 1 := by
  obtain ⟨⟨h1, h2, h3⟩, ⟨h4, h5, h6⟩, ⟨h7, h8, h9⟩, h10⟩ := h
  refine ⟨?_, h10⟩
  funext i j
  fin_cases i <;> fin_cases j <;> simp [Quat.toRot]
  · linear_combination h1
  · linear_combination h2
  · linear_combination h3
  · linear_combination h4
  · linear_combination h5
  · linear_combination h6
  · linear_combination h7
  · linear_combination h8
  · linear_combination h9

theorem half_sq {u : ℝ} (hu : 0 < u) : (0.5 * Real.sqrt u ≠ 0) ∧ 4 * (0.5 * Real.sqrt u) ^ 2 = u ∧
    ∀ v, 4 * (0.5 * Real.sqrt u * (v * (0.5 / Real.sqrt u))) = v := by
  have hs : Real.sqrt u ≠ 0 := (Real.sqrt_pos.2 hu).ne'
  refine ⟨mul_ne_zero (by norm_num) hs, ?_, fun v => ?_⟩
  · rw [mul_pow, Real.sq_sqrt hu.le]; ring
  · field_simp; ring

/-- Eigen's conversion gives a unit quaternion that represents the matrix. -/
theorem ofRot_toRot {R : M3} (hR : IsRot R) :
    (Quat.ofRot R).toRot = R ∧
      (Quat.ofRot R).w ^ 2 + (Quat.ofRot R).x ^ 2 + (Quat.ofRot R).y ^ 2 + (Quat.ofRot R).z ^ 2 = 1 := by
  have r := rotE_of_isRot hR
  have htr : R.trace = R 0 0 + R 1 1 + R 2 2 := by simp [Matrix.trace, Fin.sum_univ_three]
  apply quat_toRot_of
  unfold Quat.ofRot
  by_cases ht : R.trace > 0
  · rw [if_pos ht]
    obtain ⟨h1, h2, h3⟩ := half_sq (u := R.trace + 1) (by linarith)
    refine quatIs_trace r h1 ?_ (h3 _) (h3 _) (h3 _)
    rw [h2, htr]; ring
  · rw [if_neg ht]
    rw [htr] at ht
    have e12 : (0 : Fin 3) + 1 = 1 := rfl
    have e22 : (1 : Fin 3) + 1 = 2 := rfl
    have e02 : (2 : Fin 3) + 1 = 0 := rfl
    by_cases h10 : R 1 1 > R 0 0
    · by_cases h21 : R 2 2 > R 1 1
      · simp only [if_pos h10, if_pos h21, e02, e12]
        obtain ⟨h1, h2, h3⟩ := half_sq (u := R 2 2 - R 0 0 - R 1 1 + 1) (by linarith)
        have := (quatIs_first r.cyc.cyc h1 (w := (R 1 0 - R 0 1) * (0.5 / Real.sqrt (R 2 2 - R 0 0 - R 1 1 + 1)))
          (y := (R 0 2 + R 2 0) * (0.5 / Real.sqrt (R 2 2 - R 0 0 - R 1 1 + 1)))
          (z := (R 1 2 + R 2 1) * (0.5 / Real.sqrt (R 2 2 - R 0 0 - R 1 1 + 1)))
          (by rw [h2]; ring) (h3 _) (h3 _) (h3 _)).cyc.cyc
        simpa using this
      · simp only [if_pos h10, if_neg h21, e02, e22]
        obtain ⟨h1, h2, h3⟩ := half_sq (u := R 1 1 - R 2 2 - R 0 0 + 1) (by linarith)
        have := (quatIs_first r.cyc h1 (w := (R 0 2 - R 2 0) * (0.5 / Real.sqrt (R 1 1 - R 2 2 - R 0 0 + 1)))
          (y := (R 2 1 + R 1 2) * (0.5 / Real.sqrt (R 1 1 - R 2 2 - R 0 0 + 1)))
          (z := (R 0 1 + R 1 0) * (0.5 / Real.sqrt (R 1 1 - R 2 2 - R 0 0 + 1)))
          (by rw [h2]; ring) (h3 _) (h3 _) (h3 _)).cyc
        simpa using this
    · by_cases h20 : R 2 2 > R 0 0
      · simp only [if_neg h10, if_pos h20, e02, e12]
        obtain ⟨h1, h2, h3⟩ := half_sq (u := R 2 2 - R 0 0 - R 1 1 + 1) (by linarith)
        have := (quatIs_first r.cyc.cyc h1 (w := (R 1 0 - R 0 1) * (0.5 / Real.sqrt (R 2 2 - R 0 0 - R 1 1 + 1)))
          (y := (R 0 2 + R 2 0) * (0.5 / Real.sqrt (R 2 2 - R 0 0 - R 1 1 + 1)))
          (z := (R 1 2 + R 2 1) * (0.5 / Real.sqrt (R 2 2 - R 0 0 - R 1 1 + 1)))
          (by rw [h2]; ring) (h3 _) (h3 _) (h3 _)).cyc.cyc
        simpa using this
      · simp only [if_neg h10, if_neg h20, e12, e22]
        obtain ⟨h1, h2, h3⟩ := half_sq (u := R 0 0 - R 1 1 - R 2 2 + 1) (by linarith)
        have := quatIs_first r h1 (w := (R 2 1 - R 1 2) * (0.5 / Real.sqrt (R 0 0 - R 1 1 - R 2 2 + 1)))
          (y := (R 1 0 + R 0 1) * (0.5 / Real.sqrt (R 0 0 - R 1 1 - R 2 2 + 1)))
          (z := (R 2 0 + R 0 2) * (0.5 / Real.sqrt (R 0 0 - R 1 1 - R 2 2 + 1)))
          (by rw [h2]; ring) (h3 _) (h3 _) (h3 _)
        simpa using this

end Drift
