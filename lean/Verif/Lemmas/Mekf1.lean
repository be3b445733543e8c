import Verif.Model.Mekf
import Verif.Lemmas.QuatRot
import Verif.Lemmas.SO3
import Verif.Lemmas.Est3
import Verif.Lemmas.Filter1

/-! Helper lemmas for the multiplicative EKF: quaternions and rotations. -/
namespace Drift
open Matrix
namespace Mekf

theorem four_nonneg {a b c d : ℝ} (hs : a + b + c + d = 4) (ab : 0 ≤ a * b) (ac : 0 ≤ a * c) (ad : 0 ≤ a * d) : 0 ≤ a := by
  by_contra h
  push Not at h
  have hb : b ≤ 0 := by nlinarith
  have hc : c ≤ 0 := by nlinarith
  have hd : d ≤ 0 := by nlinarith
  linarith

/-- the four radicands of `rot2quat`, and the products of pairs of them -/
structure Rad (R : M3) (uw ux uy uz : ℝ) : Prop where
  w : uw = 1 + R 0 0 + R 1 1 + R 2 2
  x : ux = 1 + R 0 0 - R 1 1 - R 2 2
  y : uy = 1 - R 0 0 + R 1 1 - R 2 2
  z : uz = 1 - R 0 0 - R 1 1 + R 2 2
  w0 : 0 ≤ uw
  x0 : 0 ≤ ux
  y0 : 0 ≤ uy
  z0 : 0 ≤ uz
  wx : uw * ux = (R 2 1 - R 1 2) ^ 2
  wy : uw * uy = (R 0 2 - R 2 0) ^ 2
  wz : uw * uz = (R 1 0 - R 0 1) ^ 2
  xy : ux * uy = (R 1 0 + R 0 1) ^ 2
  xz : ux * uz = (R 2 0 + R 0 2) ^ 2
  yz : uy * uz = (R 2 1 + R 1 2) ^ 2

theorem rad {R : M3} (hR : IsRot R) : ∃ uw ux uy uz, Rad R uw ux uy uz := by
  have r := rotE_of_isRot hR
  refine ⟨1 + R 0 0 + R 1 1 + R 2 2, 1 + R 0 0 - R 1 1 - R 2 2, 1 - R 0 0 + R 1 1 - R 2 2, 1 - R 0 0 - R 1 1 + R 2 2, ?_⟩
  set a := R 0 0; set b := R 0 1; set c := R 0 2
  set d := R 1 0; set e := R 1 1; set f := R 1 2
  set g := R 2 0; set h := R 2 1; set i := R 2 2
  have wx : (1 + a + e + i) * (1 + a - e - i) = (h - f) ^ 2 := by
    linear_combination -(r.r2 + r.r1 - r.c0 - 2 * r.k00)
  have wy : (1 + a + e + i) * (1 - a + e - i) = (c - g) ^ 2 := by
    linear_combination -(r.r2 + r.r0 - r.c1 - 2 * r.k11)
  have wz : (1 + a + e + i) * (1 - a - e + i) = (d - b) ^ 2 := by
    linear_combination -(r.r1 + r.r0 - r.c2 - 2 * r.k22)
  have xy : (1 + a - e - i) * (1 - a + e - i) = (d + b) ^ 2 := by
    linear_combination -(r.r1 + r.r0 - r.c2 + 2 * r.k22)
  have xz : (1 + a - e - i) * (1 - a - e + i) = (g + c) ^ 2 := by
    linear_combination -(r.r2 + r.r0 - r.c1 + 2 * r.k11)
  have yz : (1 - a + e - i) * (1 - a - e + i) = (h + f) ^ 2 := by
    linear_combination -(r.r2 + r.r1 - r.c0 + 2 * r.k00)
  refine ⟨rfl, rfl, rfl, rfl, ?_, ?_, ?_, ?_, wx, wy, wz, xy, xz, yz⟩
  · refine four_nonneg (b := 1 + a - e - i) (c := 1 - a + e - i) (d := 1 - a - e + i) (by ring) ?_ ?_ ?_
    · rw [wx]; positivity
    · rw [wy]; positivity
    · rw [wz]; positivity
  · refine four_nonneg (b := 1 + a + e + i) (c := 1 - a + e - i) (d := 1 - a - e + i) (by ring) ?_ ?_ ?_
    · rw [mul_comm, wx]; positivity
    · rw [xy]; positivity
    · rw [xz]; positivity
  · refine four_nonneg (b := 1 + a + e + i) (c := 1 + a - e - i) (d := 1 - a - e + i) (by ring) ?_ ?_ ?_
    · rw [mul_comm, wy]; positivity
    · rw [mul_comm, xy]; positivity
    · rw [yz]; positivity
  · refine four_nonneg (b := 1 + a + e + i) (c := 1 + a - e - i) (d := 1 - a + e - i) (by ring) ?_ ?_ ?_
    · rw [mul_comm, wz]; positivity
    · rw [mul_comm, xz]; positivity
    · rw [mul_comm, yz]; positivity

theorem copysign_sq (x s : ℝ) : copysign x s ^ 2 = x ^ 2 := by
  unfold copysign; split_ifs <;> simp

theorem half_sqrt_sq {u : ℝ} (h : 0 ≤ u) : (Real.sqrt u / 2) ^ 2 = u / 4 := by
  rw [div_pow, Real.sq_sqrt h]; norm_num

theorem rot2quat_eq {R : M3} {uw ux uy uz : ℝ} (r : Rad R uw ux uy uz) :
    rot2quat R = ⟨Real.sqrt uw / 2, copysign (Real.sqrt ux / 2) (R 2 1 - R 1 2),
      copysign (Real.sqrt uy / 2) (R 0 2 - R 2 0), copysign (Real.sqrt uz / 2) (R 1 0 - R 0 1)⟩ := by
  unfold rot2quat
  rw [← r.w, ← r.x, ← r.y, ← r.z, max_eq_right r.w0, max_eq_right r.x0, max_eq_right r.y0, max_eq_right r.z0]

theorem rot2quat_unit {R : M3} (hR : IsRot R) :
    (rot2quat R).w ^ 2 + (rot2quat R).x ^ 2 + (rot2quat R).y ^ 2 + (rot2quat R).z ^ 2 = 1 := by
  obtain ⟨uw, ux, uy, uz, r⟩ := rad hR
  rw [rot2quat_eq r]
  simp only [copysign_sq]
  rw [half_sqrt_sq r.w0, half_sqrt_sq r.x0, half_sqrt_sq r.y0, half_sqrt_sq r.z0, r.w, r.x, r.y, r.z]; ring

theorem qnorm_unit {q : Quat} (h : q.w ^ 2 + q.x ^ 2 + q.y ^ 2 + q.z ^ 2 = 1) : qnorm q = 1 := by
  rw [qnorm, h, Real.sqrt_one]

theorem quat2rot_unit {q : Quat} (h : q.w ^ 2 + q.x ^ 2 + q.y ^ 2 + q.z ^ 2 = 1) : quat2rot q = some q.toRot := by
  unfold quat2rot
  rw [qnorm_unit h]
  simp only [one_ne_zero, if_false, div_one]
  congr 1
  ext i j
  fin_cases i <;> fin_cases j <;> simp [Quat.toRot] <;> ring

/-- the normalised quaternion -/
noncomputable def unit (q : Quat) : Quat := ⟨q.w / qnorm q, q.x / qnorm q, q.y / qnorm q, q.z / qnorm q⟩

theorem unit_unit {q : Quat} (h : qnorm q ≠ 0) :
    (unit q).w ^ 2 + (unit q).x ^ 2 + (unit q).y ^ 2 + (unit q).z ^ 2 = 1 := by
  have h2 : qnorm q ^ 2 = q.w ^ 2 + q.x ^ 2 + q.y ^ 2 + q.z ^ 2 := Real.sq_sqrt (by positivity)
  simp only [unit, div_pow]
  rw [← add_div, ← add_div, ← add_div, ← h2, div_self (pow_ne_zero 2 h)]

theorem quat2rot_of_ne {q : Quat} (h : qnorm q ≠ 0) : quat2rot q = some (unit q).toRot := by
  rw [← quat2rot_unit (unit_unit h)]
  unfold quat2rot
  rw [qnorm_unit (unit_unit h)]
  simp only [h, one_ne_zero, if_false, div_one]
  rfl

theorem quat2rot_isRot {q : Quat} {R : M3} (h : quat2rot q = some R) : IsRot R := by
  by_cases hn : qnorm q = 0
  · simp [quat2rot, hn] at h
  · rw [quat2rot_of_ne hn] at h
    obtain rfl := Option.some.inj h
    exact toRot_isRot (unit_unit hn)

theorem copysign_mul {u v s : ℝ} (hu : 0 ≤ u) (hv : 0 ≤ v) (h : u * v = s ^ 2) :
    4 * (Real.sqrt u / 2 * copysign (Real.sqrt v / 2) s) = s := by
  have hs : Real.sqrt u * Real.sqrt v = |s| := by
    rw [← Real.sqrt_mul hu, h, Real.sqrt_sq_eq_abs]
  unfold copysign
  split_ifs with hn
  · rw [abs_of_nonneg (by positivity)]
    have : |s| = -s := abs_of_neg hn
    linarith
  · rw [abs_of_nonneg (by positivity)]
    have : |s| = s := abs_of_nonneg (not_lt.mp hn)
    linarith

/-- off the half turns the conversion is exact -/
theorem roundtrip {R : M3} (hR : IsRot R) (ht : R.trace ≠ -1) : quat2rot (rot2quat R) = some R := by
  rw [quat2rot_unit (rot2quat_unit hR)]
  congr 1
  obtain ⟨uw, ux, uy, uz, r⟩ := rad hR
  have htr : R.trace = R 0 0 + R 1 1 + R 2 2 := by simp [Matrix.trace, Fin.sum_univ_three]
  have hw : 0 < uw := lt_of_le_of_ne r.w0 fun h => ht (by rw [htr]; linarith [r.w])
  refine (quat_toRot_of ?_).1
  rw [rot2quat_eq r]
  refine quatIs_trace (rotE_of_isRot hR) (by positivity) ?_ (copysign_mul r.w0 r.x0 r.wx)
    (copysign_mul r.w0 r.y0 r.wy) (copysign_mul r.w0 r.z0 r.wz)
  simp only
  rw [half_sqrt_sq r.w0, r.w]; ring

/-- a half turn is replaced by the half turn about the axis with the absolute values of the coordinates -/
theorem roundtrip_half {R : M3} (hR : IsRot R) (ht : R.trace = -1) :
    quat2rot (rot2quat R) = some !![R 0 0, |R 0 1|, |R 0 2|; |R 1 0|, R 1 1, |R 1 2|; |R 2 0|, |R 2 1|, R 2 2] := by
  rw [quat2rot_unit (rot2quat_unit hR)]
  obtain ⟨uw, ux, uy, uz, r⟩ := rad hR
  have htr : R.trace = R 0 0 + R 1 1 + R 2 2 := by simp [Matrix.trace, Fin.sum_univ_three]
  have hw : uw = 0 := by rw [r.w]; linarith
  have sx : R 2 1 = R 1 2 := by
    have := r.wx; rw [hw, zero_mul] at this; nlinarith [pow_eq_zero_iff (two_ne_zero) |>.mp this.symm]
  have sy : R 0 2 = R 2 0 := by
    have := r.wy; rw [hw, zero_mul] at this; nlinarith [pow_eq_zero_iff (two_ne_zero) |>.mp this.symm]
  have sz : R 1 0 = R 0 1 := by
    have := r.wz; rw [hw, zero_mul] at this; nlinarith [pow_eq_zero_iff (two_ne_zero) |>.mp this.symm]
  rw [rot2quat_eq r, hw, sx, sy, sz]
  simp only [sub_self, copysign, lt_irrefl, if_false, Real.sqrt_zero, zero_div]
  have ax : |Real.sqrt ux / 2| = Real.sqrt ux / 2 := abs_of_nonneg (by positivity)
  have ay : |Real.sqrt uy / 2| = Real.sqrt uy / 2 := abs_of_nonneg (by positivity)
  have az : |Real.sqrt uz / 2| = Real.sqrt uz / 2 := abs_of_nonneg (by positivity)
  rw [ax, ay, az]
  have hx := Real.sq_sqrt r.x0
  have hy := Real.sq_sqrt r.y0
  have hz := Real.sq_sqrt r.z0
  have pxy : Real.sqrt ux * Real.sqrt uy = 2 * |R 0 1| := by
    rw [← Real.sqrt_mul r.x0, r.xy, Real.sqrt_sq_eq_abs, sz, ← two_mul, abs_mul, abs_two]
  have pxz : Real.sqrt ux * Real.sqrt uz = 2 * |R 2 0| := by
    rw [← Real.sqrt_mul r.x0, r.xz, Real.sqrt_sq_eq_abs, sy, ← two_mul, abs_mul, abs_two]
  have pyz : Real.sqrt uy * Real.sqrt uz = 2 * |R 1 2| := by
    rw [← Real.sqrt_mul r.y0, r.yz, Real.sqrt_sq_eq_abs, sx, ← two_mul, abs_mul, abs_two]
  have ex := r.x; have ey := r.y; have ez := r.z
  congr 1
  ext i j
  fin_cases i <;> fin_cases j <;> simp [Quat.toRot] <;> linarith

end Mekf
end Drift
