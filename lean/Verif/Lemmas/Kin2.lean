import Verif.Lemmas.Kin1

/-!
# Closed forms of the generated Jacobians
-/
namespace Drift
open Matrix Real

theorem Jp_FR (q : Fin 12 → ℝ) : Cols .FR (Cheetah.Jp_FrontRight q) (jacF (Leg.left .FR) (q (Leg.joint .FR 0)) (q (Leg.joint .FR 1)) (q (Leg.joint .FR 2))) := by
  intro i j
  fin_cases i <;> fin_cases j <;>
  simp [jacF, Cheetah.Jp_FrontRight, Leg.joint, Leg.idx, Leg.left, Leg.fore, cos_add, sin_add] <;> ring

theorem Jp_FL (q : Fin 12 → ℝ) : Cols .FL (Cheetah.Jp_FrontLeft q) (jacF (Leg.left .FL) (q (Leg.joint .FL 0)) (q (Leg.joint .FL 1)) (q (Leg.joint .FL 2))) := by
  intro i j
  fin_cases i <;> fin_cases j <;>
  simp [jacF, Cheetah.Jp_FrontLeft, Leg.joint, Leg.idx, Leg.left, Leg.fore, cos_add, sin_add] <;> ring

theorem Jp_HR (q : Fin 12 → ℝ) : Cols .HR (Cheetah.Jp_HindRight q) (jacF (Leg.left .HR) (q (Leg.joint .HR 0)) (q (Leg.joint .HR 1)) (q (Leg.joint .HR 2))) := by
  intro i j
  fin_cases i <;> fin_cases j <;>
  simp [jacF, Cheetah.Jp_HindRight, Leg.joint, Leg.idx, Leg.left, Leg.fore, cos_add, sin_add] <;> ring

theorem Jp_HL (q : Fin 12 → ℝ) : Cols .HL (Cheetah.Jp_HindLeft q) (jacF (Leg.left .HL) (q (Leg.joint .HL 0)) (q (Leg.joint .HL 1)) (q (Leg.joint .HL 2))) := by
  intro i j
  fin_cases i <;> fin_cases j <;>
  simp [jacF, Cheetah.Jp_HindLeft, Leg.joint, Leg.idx, Leg.left, Leg.fore, cos_add, sin_add] <;> ring

theorem Jp_cols (l : Leg) (q : Fin 12 → ℝ) : Cols l (Cheetah.Jp l q) (jacF l.left (q (l.joint 0)) (q (l.joint 1)) (q (l.joint 2))) := by
  cases l
  · exact Jp_FR q
  · exact Jp_FL q
  · exact Jp_HR q
  · exact Jp_HL q

theorem Jwb_FR (q : Fin 12 → ℝ) : Cols .FR (Cheetah.Jwb_FrontRight q) (wbF (q (Leg.joint .FR 1)) (q (Leg.joint .FR 2))) := by
  intro i j
  fin_cases i <;> fin_cases j <;>
  simp [wbF, Cheetah.Jwb_FrontRight, Leg.joint, Leg.idx, Leg.left, Leg.fore, cos_add, sin_add] <;> ring

theorem Jwb_FL (q : Fin 12 → ℝ) : Cols .FL (Cheetah.Jwb_FrontLeft q) (wbF (q (Leg.joint .FL 1)) (q (Leg.joint .FL 2))) := by
  intro i j
  fin_cases i <;> fin_cases j <;>
  simp [wbF, Cheetah.Jwb_FrontLeft, Leg.joint, Leg.idx, Leg.left, Leg.fore, cos_add, sin_add] <;> ring

theorem Jwb_HR (q : Fin 12 → ℝ) : Cols .HR (Cheetah.Jwb_HindRight q) (wbF (q (Leg.joint .HR 1)) (q (Leg.joint .HR 2))) := by
  intro i j
  fin_cases i <;> fin_cases j <;>
  simp [wbF, Cheetah.Jwb_HindRight, Leg.joint, Leg.idx, Leg.left, Leg.fore, cos_add, sin_add] <;> ring

theorem Jwb_HL (q : Fin 12 → ℝ) : Cols .HL (Cheetah.Jwb_HindLeft q) (wbF (q (Leg.joint .HL 1)) (q (Leg.joint .HL 2))) := by
  intro i j
  fin_cases i <;> fin_cases j <;>
  simp [wbF, Cheetah.Jwb_HindLeft, Leg.joint, Leg.idx, Leg.left, Leg.fore, cos_add, sin_add] <;> ring

theorem Jwb_cols (l : Leg) (q : Fin 12 → ℝ) : Cols l (Cheetah.Jwb l q) (wbF (q (l.joint 1)) (q (l.joint 2))) := by
  cases l
  · exact Jwb_FR q
  · exact Jwb_FL q
  · exact Jwb_HR q
  · exact Jwb_HL q

theorem Jws_FR (q : Fin 12 → ℝ) : Cols .FR (Cheetah.Jws_FrontRight q) (wsF (q (Leg.joint .FR 0))) := by
  intro i j
  fin_cases i <;> fin_cases j <;>
  simp [wsF, Cheetah.Jws_FrontRight, Leg.joint, Leg.idx, Leg.left, Leg.fore, cos_add, sin_add] <;> ring

theorem Jws_FL (q : Fin 12 → ℝ) : Cols .FL (Cheetah.Jws_FrontLeft q) (wsF (q (Leg.joint .FL 0))) := by
  intro i j
  fin_cases i <;> fin_cases j <;>
  simp [wsF, Cheetah.Jws_FrontLeft, Leg.joint, Leg.idx, Leg.left, Leg.fore, cos_add, sin_add] <;> ring

theorem Jws_HR (q : Fin 12 → ℝ) : Cols .HR (Cheetah.Jws_HindRight q) (wsF (q (Leg.joint .HR 0))) := by
  intro i j
  fin_cases i <;> fin_cases j <;>
  simp [wsF, Cheetah.Jws_HindRight, Leg.joint, Leg.idx, Leg.left, Leg.fore, cos_add, sin_add] <;> ring

theorem Jws_HL (q : Fin 12 → ℝ) : Cols .HL (Cheetah.Jws_HindLeft q) (wsF (q (Leg.joint .HL 0))) := by
  intro i j
  fin_cases i <;> fin_cases j <;>
  simp [wsF, Cheetah.Jws_HindLeft, Leg.joint, Leg.idx, Leg.left, Leg.fore, cos_add, sin_add] <;> ring

theorem Jws_cols (l : Leg) (q : Fin 12 → ℝ) : Cols l (Cheetah.Jws l q) (wsF (q (l.joint 0))) := by
  cases l
  · exact Jws_FR q
  · exact Jws_FL q
  · exact Jws_HR q
  · exact Jws_HL q

theorem Jvb_FR (q : Fin 12 → ℝ) : Cols .FR (Cheetah.Jvb_FrontRight q) (vbF (Leg.left .FR) (q (Leg.joint .FR 1)) (q (Leg.joint .FR 2))) := by
  intro i j
  fin_cases i <;> fin_cases j <;>
  simp [vbF, Cheetah.Jvb_FrontRight, Leg.joint, Leg.idx, Leg.left, Leg.fore, cos_add, sin_add,
    -mul_eq_mul_left_iff, -mul_eq_mul_right_iff] <;>
  first
  | ring1
  | linear_combination (0.2075 : ℝ) * sin_sq_add_cos_sq (q 2)
  | linear_combination (0.209 * cos (q 1) + 0.2075 * (cos (q 1) * cos (q 2) - sin (q 1) * sin (q 2))) * (sin (q 1) ^ 2 + cos (q 1) ^ 2) * sin_sq_add_cos_sq (q 2)
      + (0.209 * cos (q 1) + 0.2075 * (cos (q 1) * cos (q 2) - sin (q 1) * sin (q 2))) * sin_sq_add_cos_sq (q 1)
  | linear_combination (0.062 : ℝ) * (cos (q 1) * cos (q 2) - sin (q 1) * sin (q 2)) * sin_sq_add_cos_sq (q 0)
  | linear_combination (-0.062 : ℝ) * (cos (q 1) * cos (q 2) - sin (q 1) * sin (q 2)) * sin_sq_add_cos_sq (q 0)

theorem Jvb_FL (q : Fin 12 → ℝ) : Cols .FL (Cheetah.Jvb_FrontLeft q) (vbF (Leg.left .FL) (q (Leg.joint .FL 1)) (q (Leg.joint .FL 2))) := by
  intro i j
  fin_cases i <;> fin_cases j <;>
  simp [vbF, Cheetah.Jvb_FrontLeft, Leg.joint, Leg.idx, Leg.left, Leg.fore, cos_add, sin_add,
    -mul_eq_mul_left_iff, -mul_eq_mul_right_iff] <;>
  first
  | ring1
  | linear_combination (0.2075 : ℝ) * sin_sq_add_cos_sq (q 5)
  | linear_combination (0.209 * cos (q 4) + 0.2075 * (cos (q 4) * cos (q 5) - sin (q 4) * sin (q 5))) * (sin (q 4) ^ 2 + cos (q 4) ^ 2) * sin_sq_add_cos_sq (q 5)
      + (0.209 * cos (q 4) + 0.2075 * (cos (q 4) * cos (q 5) - sin (q 4) * sin (q 5))) * sin_sq_add_cos_sq (q 4)
  | linear_combination (0.062 : ℝ) * (cos (q 4) * cos (q 5) - sin (q 4) * sin (q 5)) * sin_sq_add_cos_sq (q 3)
  | linear_combination (-0.062 : ℝ) * (cos (q 4) * cos (q 5) - sin (q 4) * sin (q 5)) * sin_sq_add_cos_sq (q 3)

theorem Jvb_HR (q : Fin 12 → ℝ) : Cols .HR (Cheetah.Jvb_HindRight q) (vbF (Leg.left .HR) (q (Leg.joint .HR 1)) (q (Leg.joint .HR 2))) := by
  intro i j
  fin_cases i <;> fin_cases j <;>
  simp [vbF, Cheetah.Jvb_HindRight, Leg.joint, Leg.idx, Leg.left, Leg.fore, cos_add, sin_add,
    -mul_eq_mul_left_iff, -mul_eq_mul_right_iff] <;>
  first
  | ring1
  | linear_combination (0.2075 : ℝ) * sin_sq_add_cos_sq (q 8)
  | linear_combination (0.209 * cos (q 7) + 0.2075 * (cos (q 7) * cos (q 8) - sin (q 7) * sin (q 8))) * (sin (q 7) ^ 2 + cos (q 7) ^ 2) * sin_sq_add_cos_sq (q 8)
      + (0.209 * cos (q 7) + 0.2075 * (cos (q 7) * cos (q 8) - sin (q 7) * sin (q 8))) * sin_sq_add_cos_sq (q 7)
  | linear_combination (0.062 : ℝ) * (cos (q 7) * cos (q 8) - sin (q 7) * sin (q 8)) * sin_sq_add_cos_sq (q 6)
  | linear_combination (-0.062 : ℝ) * (cos (q 7) * cos (q 8) - sin (q 7) * sin (q 8)) * sin_sq_add_cos_sq (q 6)

theorem Jvb_HL (q : Fin 12 → ℝ) : Cols .HL (Cheetah.Jvb_HindLeft q) (vbF (Leg.left .HL) (q (Leg.joint .HL 1)) (q (Leg.joint .HL 2))) := by
  intro i j
  fin_cases i <;> fin_cases j <;>
  simp [vbF, Cheetah.Jvb_HindLeft, Leg.joint, Leg.idx, Leg.left, Leg.fore, cos_add, sin_add,
    -mul_eq_mul_left_iff, -mul_eq_mul_right_iff] <;>
  first
  | ring1
  | linear_combination (0.2075 : ℝ) * sin_sq_add_cos_sq (q 11)
  | linear_combination (0.209 * cos (q 10) + 0.2075 * (cos (q 10) * cos (q 11) - sin (q 10) * sin (q 11))) * (sin (q 10) ^ 2 + cos (q 10) ^ 2) * sin_sq_add_cos_sq (q 11)
      + (0.209 * cos (q 10) + 0.2075 * (cos (q 10) * cos (q 11) - sin (q 10) * sin (q 11))) * sin_sq_add_cos_sq (q 10)
  | linear_combination (0.062 : ℝ) * (cos (q 10) * cos (q 11) - sin (q 10) * sin (q 11)) * sin_sq_add_cos_sq (q 9)
  | linear_combination (-0.062 : ℝ) * (cos (q 10) * cos (q 11) - sin (q 10) * sin (q 11)) * sin_sq_add_cos_sq (q 9)

theorem Jvb_cols (l : Leg) (q : Fin 12 → ℝ) : Cols l (Cheetah.Jvb l q) (vbF l.left (q (l.joint 1)) (q (l.joint 2))) := by
  cases l
  · exact Jvb_FR q
  · exact Jvb_FL q
  · exact Jvb_HR q
  · exact Jvb_HL q

theorem Jvs_FR (q : Fin 12 → ℝ) : Cols .FR (Cheetah.Jvs_FrontRight q) (vsF (Leg.fore .FR) (Leg.left .FR) (q (Leg.joint .FR 0)) (q (Leg.joint .FR 1))) := by
  intro i j
  fin_cases i <;> fin_cases j <;>
  simp [vsF, Cheetah.Jvs_FrontRight, Leg.joint, Leg.idx, Leg.left, Leg.fore, cos_add, sin_add] <;>
  first
  | ring1
  | linear_combination (-0.19 : ℝ) * sin (q 1) * sin_sq_add_cos_sq (q 0)

theorem Jvs_FL (q : Fin 12 → ℝ) : Cols .FL (Cheetah.Jvs_FrontLeft q) (vsF (Leg.fore .FL) (Leg.left .FL) (q (Leg.joint .FL 0)) (q (Leg.joint .FL 1))) := by
  intro i j
  fin_cases i <;> fin_cases j <;>
  simp [vsF, Cheetah.Jvs_FrontLeft, Leg.joint, Leg.idx, Leg.left, Leg.fore, cos_add, sin_add] <;>
  first
  | ring1
  | linear_combination (-0.19 : ℝ) * sin (q 4) * sin_sq_add_cos_sq (q 3)

theorem Jvs_HR (q : Fin 12 → ℝ) : Cols .HR (Cheetah.Jvs_HindRight q) (vsF (Leg.fore .HR) (Leg.left .HR) (q (Leg.joint .HR 0)) (q (Leg.joint .HR 1))) := by
  intro i j
  fin_cases i <;> fin_cases j <;>
  simp [vsF, Cheetah.Jvs_HindRight, Leg.joint, Leg.idx, Leg.left, Leg.fore, cos_add, sin_add] <;>
  first
  | ring1
  | linear_combination (0.19 : ℝ) * sin (q 7) * sin_sq_add_cos_sq (q 6)

theorem Jvs_HL (q : Fin 12 → ℝ) : Cols .HL (Cheetah.Jvs_HindLeft q) (vsF (Leg.fore .HL) (Leg.left .HL) (q (Leg.joint .HL 0)) (q (Leg.joint .HL 1))) := by
  intro i j
  fin_cases i <;> fin_cases j <;>
  simp [vsF, Cheetah.Jvs_HindLeft, Leg.joint, Leg.idx, Leg.left, Leg.fore, cos_add, sin_add] <;>
  first
  | ring1
  | linear_combination (0.19 : ℝ) * sin (q 10) * sin_sq_add_cos_sq (q 9)

theorem Jvs_cols (l : Leg) (q : Fin 12 → ℝ) : Cols l (Cheetah.Jvs l q) (vsF l.fore l.left (q (l.joint 0)) (q (l.joint 1))) := by
  cases l
  · exact Jvs_FR q
  · exact Jvs_FL q
  · exact Jvs_HR q
  · exact Jvs_HL q

end Drift
