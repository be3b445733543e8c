import Verif.Lemmas.Kin1

/-!
# Closed forms of the generated body and spatial Jacobians
-/
namespace Drift
open Matrix Real

theorem Jb_Jwb_FR (q : Fin 12 → ℝ) :
    Cols .FR (fun i : Fin 3 => Cheetah.Jb_FrontRight q (Fin.castAdd 3 i)) (wbF (q (Leg.joint .FR 1)) (q (Leg.joint .FR 2))) := by
  intro i j
  fin_cases i <;> fin_cases j <;>
  simp [wbF, Cheetah.Jb_FrontRight, Leg.joint, Leg.idx, Leg.left, Leg.fore, cos_add, sin_add,
    -mul_eq_mul_left_iff, -mul_eq_mul_right_iff] <;>
  first
  | ring1
  | linear_combination (0.2075 : ℝ) * sin_sq_add_cos_sq (q 2)
  | linear_combination (0.209 * cos (q 1) + 0.2075 * (cos (q 1) * cos (q 2) - sin (q 1) * sin (q 2))) * (sin (q 1) ^ 2 + cos (q 1) ^ 2) * sin_sq_add_cos_sq (q 2)
      + (0.209 * cos (q 1) + 0.2075 * (cos (q 1) * cos (q 2) - sin (q 1) * sin (q 2))) * sin_sq_add_cos_sq (q 1)
  | linear_combination (-0.19 : ℝ) * sin (q 1) * sin_sq_add_cos_sq (q 0)

theorem Jb_Jvb_FR (q : Fin 12 → ℝ) :
    Cols .FR (fun i : Fin 3 => Cheetah.Jb_FrontRight q (Fin.natAdd 3 i)) (vbF (Leg.left .FR) (q (Leg.joint .FR 1)) (q (Leg.joint .FR 2))) := by
  intro i j
  fin_cases i <;> fin_cases j <;>
  simp [vbF, Cheetah.Jb_FrontRight, Leg.joint, Leg.idx, Leg.left, Leg.fore, cos_add, sin_add,
    -mul_eq_mul_left_iff, -mul_eq_mul_right_iff] <;>
  first
  | ring1
  | linear_combination (0.2075 : ℝ) * sin_sq_add_cos_sq (q 2)
  | linear_combination (0.209 * cos (q 1) + 0.2075 * (cos (q 1) * cos (q 2) - sin (q 1) * sin (q 2))) * (sin (q 1) ^ 2 + cos (q 1) ^ 2) * sin_sq_add_cos_sq (q 2)
      + (0.209 * cos (q 1) + 0.2075 * (cos (q 1) * cos (q 2) - sin (q 1) * sin (q 2))) * sin_sq_add_cos_sq (q 1)
  | linear_combination (-0.19 : ℝ) * sin (q 1) * sin_sq_add_cos_sq (q 0)

theorem Jb_Jwb_FL (q : Fin 12 → ℝ) :
    Cols .FL (fun i : Fin 3 => Cheetah.Jb_FrontLeft q (Fin.castAdd 3 i)) (wbF (q (Leg.joint .FL 1)) (q (Leg.joint .FL 2))) := by
  intro i j
  fin_cases i <;> fin_cases j <;>
  simp [wbF, Cheetah.Jb_FrontLeft, Leg.joint, Leg.idx, Leg.left, Leg.fore, cos_add, sin_add,
    -mul_eq_mul_left_iff, -mul_eq_mul_right_iff] <;>
  first
  | ring1
  | linear_combination (0.2075 : ℝ) * sin_sq_add_cos_sq (q 5)
  | linear_combination (0.209 * cos (q 4) + 0.2075 * (cos (q 4) * cos (q 5) - sin (q 4) * sin (q 5))) * (sin (q 4) ^ 2 + cos (q 4) ^ 2) * sin_sq_add_cos_sq (q 5)
      + (0.209 * cos (q 4) + 0.2075 * (cos (q 4) * cos (q 5) - sin (q 4) * sin (q 5))) * sin_sq_add_cos_sq (q 4)
  | linear_combination (-0.19 : ℝ) * sin (q 4) * sin_sq_add_cos_sq (q 3)

theorem Jb_Jvb_FL (q : Fin 12 → ℝ) :
    Cols .FL (fun i : Fin 3 => Cheetah.Jb_FrontLeft q (Fin.natAdd 3 i)) (vbF (Leg.left .FL) (q (Leg.joint .FL 1)) (q (Leg.joint .FL 2))) := by
  intro i j
  fin_cases i <;> fin_cases j <;>
  simp [vbF, Cheetah.Jb_FrontLeft, Leg.joint, Leg.idx, Leg.left, Leg.fore, cos_add, sin_add,
    -mul_eq_mul_left_iff, -mul_eq_mul_right_iff] <;>
  first
  | ring1
  | linear_combination (0.2075 : ℝ) * sin_sq_add_cos_sq (q 5)
  | linear_combination (0.209 * cos (q 4) + 0.2075 * (cos (q 4) * cos (q 5) - sin (q 4) * sin (q 5))) * (sin (q 4) ^ 2 + cos (q 4) ^ 2) * sin_sq_add_cos_sq (q 5)
      + (0.209 * cos (q 4) + 0.2075 * (cos (q 4) * cos (q 5) - sin (q 4) * sin (q 5))) * sin_sq_add_cos_sq (q 4)
  | linear_combination (-0.19 : ℝ) * sin (q 4) * sin_sq_add_cos_sq (q 3)

theorem Jb_Jwb_HR (q : Fin 12 → ℝ) :
    Cols .HR (fun i : Fin 3 => Cheetah.Jb_HindRight q (Fin.castAdd 3 i)) (wbF (q (Leg.joint .HR 1)) (q (Leg.joint .HR 2))) := by
  intro i j
  fin_cases i <;> fin_cases j <;>
  simp [wbF, Cheetah.Jb_HindRight, Leg.joint, Leg.idx, Leg.left, Leg.fore, cos_add, sin_add,
    -mul_eq_mul_left_iff, -mul_eq_mul_right_iff] <;>
  first
  | ring1
  | linear_combination (0.2075 : ℝ) * sin_sq_add_cos_sq (q 8)
  | linear_combination (0.209 * cos (q 7) + 0.2075 * (cos (q 7) * cos (q 8) - sin (q 7) * sin (q 8))) * (sin (q 7) ^ 2 + cos (q 7) ^ 2) * sin_sq_add_cos_sq (q 8)
      + (0.209 * cos (q 7) + 0.2075 * (cos (q 7) * cos (q 8) - sin (q 7) * sin (q 8))) * sin_sq_add_cos_sq (q 7)
  | linear_combination (0.19 : ℝ) * sin (q 7) * sin_sq_add_cos_sq (q 6)

theorem Jb_Jvb_HR (q : Fin 12 → ℝ) :
    Cols .HR (fun i : Fin 3 => Cheetah.Jb_HindRight q (Fin.natAdd 3 i)) (vbF (Leg.left .HR) (q (Leg.joint .HR 1)) (q (Leg.joint .HR 2))) := by
  intro i j
  fin_cases i <;> fin_cases j <;>
  simp [vbF, Cheetah.Jb_HindRight, Leg.joint, Leg.idx, Leg.left, Leg.fore, cos_add, sin_add,
    -mul_eq_mul_left_iff, -mul_eq_mul_right_iff] <;>
  first
  | ring1
  | linear_combination (0.2075 : ℝ) * sin_sq_add_cos_sq (q 8)
  | linear_combination (0.209 * cos (q 7) + 0.2075 * (cos (q 7) * cos (q 8) - sin (q 7) * sin (q 8))) * (sin (q 7) ^ 2 + cos (q 7) ^ 2) * sin_sq_add_cos_sq (q 8)
      + (0.209 * cos (q 7) + 0.2075 * (cos (q 7) * cos (q 8) - sin (q 7) * sin (q 8))) * sin_sq_add_cos_sq (q 7)
  | linear_combination (0.19 : ℝ) * sin (q 7) * sin_sq_add_cos_sq (q 6)

theorem Jb_Jwb_HL (q : Fin 12 → ℝ) :
    Cols .HL (fun i : Fin 3 => Cheetah.Jb_HindLeft q (Fin.castAdd 3 i)) (wbF (q (Leg.joint .HL 1)) (q (Leg.joint .HL 2))) := by
  intro i j
  fin_cases i <;> fin_cases j <;>
  simp [wbF, Cheetah.Jb_HindLeft, Leg.joint, Leg.idx, Leg.left, Leg.fore, cos_add, sin_add,
    -mul_eq_mul_left_iff, -mul_eq_mul_right_iff] <;>
  first
  | ring1
  | linear_combination (0.2075 : ℝ) * sin_sq_add_cos_sq (q 11)
  | linear_combination (0.209 * cos (q 10) + 0.2075 * (cos (q 10) * cos (q 11) - sin (q 10) * sin (q 11))) * (sin (q 10) ^ 2 + cos (q 10) ^ 2) * sin_sq_add_cos_sq (q 11)
      + (0.209 * cos (q 10) + 0.2075 * (cos (q 10) * cos (q 11) - sin (q 10) * sin (q 11))) * sin_sq_add_cos_sq (q 10)
  | linear_combination (0.19 : ℝ) * sin (q 10) * sin_sq_add_cos_sq (q 9)

theorem Jb_Jvb_HL (q : Fin 12 → ℝ) :
    Cols .HL (fun i : Fin 3 => Cheetah.Jb_HindLeft q (Fin.natAdd 3 i)) (vbF (Leg.left .HL) (q (Leg.joint .HL 1)) (q (Leg.joint .HL 2))) := by
  intro i j
  fin_cases i <;> fin_cases j <;>
  simp [vbF, Cheetah.Jb_HindLeft, Leg.joint, Leg.idx, Leg.left, Leg.fore, cos_add, sin_add,
    -mul_eq_mul_left_iff, -mul_eq_mul_right_iff] <;>
  first
  | ring1
  | linear_combination (0.2075 : ℝ) * sin_sq_add_cos_sq (q 11)
  | linear_combination (0.209 * cos (q 10) + 0.2075 * (cos (q 10) * cos (q 11) - sin (q 10) * sin (q 11))) * (sin (q 10) ^ 2 + cos (q 10) ^ 2) * sin_sq_add_cos_sq (q 11)
      + (0.209 * cos (q 10) + 0.2075 * (cos (q 10) * cos (q 11) - sin (q 10) * sin (q 11))) * sin_sq_add_cos_sq (q 10)
  | linear_combination (0.19 : ℝ) * sin (q 10) * sin_sq_add_cos_sq (q 9)

theorem Jb_Jwb_cols (l : Leg) (q : Fin 12 → ℝ) :
    Cols l (fun i : Fin 3 => Cheetah.Jb l q (Fin.castAdd 3 i)) (wbF (q (l.joint 1)) (q (l.joint 2))) := by
  cases l
  · exact Jb_Jwb_FR q
  · exact Jb_Jwb_FL q
  · exact Jb_Jwb_HR q
  · exact Jb_Jwb_HL q

theorem Jb_Jvb_cols (l : Leg) (q : Fin 12 → ℝ) :
    Cols l (fun i : Fin 3 => Cheetah.Jb l q (Fin.natAdd 3 i)) (vbF l.left (q (l.joint 1)) (q (l.joint 2))) := by
  cases l
  · exact Jb_Jvb_FR q
  · exact Jb_Jvb_FL q
  · exact Jb_Jvb_HR q
  · exact Jb_Jvb_HL q

theorem Js_Jws_FR (q : Fin 12 → ℝ) :
    Cols .FR (fun i : Fin 3 => Cheetah.Js_FrontRight q (Fin.castAdd 3 i)) (wsF (q (Leg.joint .FR 0))) := by
  intro i j
  fin_cases i <;> fin_cases j <;>
  simp [wsF, Cheetah.Js_FrontRight, Leg.joint, Leg.idx, Leg.left, Leg.fore, cos_add, sin_add,
    -mul_eq_mul_left_iff, -mul_eq_mul_right_iff] <;>
  first
  | ring1
  | linear_combination (0.2075 : ℝ) * sin_sq_add_cos_sq (q 2)
  | linear_combination (0.209 * cos (q 1) + 0.2075 * (cos (q 1) * cos (q 2) - sin (q 1) * sin (q 2))) * (sin (q 1) ^ 2 + cos (q 1) ^ 2) * sin_sq_add_cos_sq (q 2)
      + (0.209 * cos (q 1) + 0.2075 * (cos (q 1) * cos (q 2) - sin (q 1) * sin (q 2))) * sin_sq_add_cos_sq (q 1)
  | linear_combination (-0.19 : ℝ) * sin (q 1) * sin_sq_add_cos_sq (q 0)

theorem Js_Jvs_FR (q : Fin 12 → ℝ) :
    Cols .FR (fun i : Fin 3 => Cheetah.Js_FrontRight q (Fin.natAdd 3 i)) (vsF (Leg.fore .FR) (Leg.left .FR) (q (Leg.joint .FR 0)) (q (Leg.joint .FR 1))) := by
  intro i j
  fin_cases i <;> fin_cases j <;>
  simp [vsF, Cheetah.Js_FrontRight, Leg.joint, Leg.idx, Leg.left, Leg.fore, cos_add, sin_add,
    -mul_eq_mul_left_iff, -mul_eq_mul_right_iff] <;>
  first
  | ring1
  | linear_combination (0.2075 : ℝ) * sin_sq_add_cos_sq (q 2)
  | linear_combination (0.209 * cos (q 1) + 0.2075 * (cos (q 1) * cos (q 2) - sin (q 1) * sin (q 2))) * (sin (q 1) ^ 2 + cos (q 1) ^ 2) * sin_sq_add_cos_sq (q 2)
      + (0.209 * cos (q 1) + 0.2075 * (cos (q 1) * cos (q 2) - sin (q 1) * sin (q 2))) * sin_sq_add_cos_sq (q 1)
  | linear_combination (-0.19 : ℝ) * sin (q 1) * sin_sq_add_cos_sq (q 0)

theorem Js_Jws_FL (q : Fin 12 → ℝ) :
    Cols .FL (fun i : Fin 3 => Cheetah.Js_FrontLeft q (Fin.castAdd 3 i)) (wsF (q (Leg.joint .FL 0))) := by
  intro i j
  fin_cases i <;> fin_cases j <;>
  simp [wsF, Cheetah.Js_FrontLeft, Leg.joint, Leg.idx, Leg.left, Leg.fore, cos_add, sin_add,
    -mul_eq_mul_left_iff, -mul_eq_mul_right_iff] <;>
  first
  | ring1
  | linear_combination (0.2075 : ℝ) * sin_sq_add_cos_sq (q 5)
  | linear_combination (0.209 * cos (q 4) + 0.2075 * (cos (q 4) * cos (q 5) - sin (q 4) * sin (q 5))) * (sin (q 4) ^ 2 + cos (q 4) ^ 2) * sin_sq_add_cos_sq (q 5)
      + (0.209 * cos (q 4) + 0.2075 * (cos (q 4) * cos (q 5) - sin (q 4) * sin (q 5))) * sin_sq_add_cos_sq (q 4)
  | linear_combination (-0.19 : ℝ) * sin (q 4) * sin_sq_add_cos_sq (q 3)

theorem Js_Jvs_FL (q : Fin 12 → ℝ) :
    Cols .FL (fun i : Fin 3 => Cheetah.Js_FrontLeft q (Fin.natAdd 3 i)) (vsF (Leg.fore .FL) (Leg.left .FL) (q (Leg.joint .FL 0)) (q (Leg.joint .FL 1))) := by
  intro i j
  fin_cases i <;> fin_cases j <;>
  simp [vsF, Cheetah.Js_FrontLeft, Leg.joint, Leg.idx, Leg.left, Leg.fore, cos_add, sin_add,
    -mul_eq_mul_left_iff, -mul_eq_mul_right_iff] <;>
  first
  | ring1
  | linear_combination (0.2075 : ℝ) * sin_sq_add_cos_sq (q 5)
  | linear_combination (0.209 * cos (q 4) + 0.2075 * (cos (q 4) * cos (q 5) - sin (q 4) * sin (q 5))) * (sin (q 4) ^ 2 + cos (q 4) ^ 2) * sin_sq_add_cos_sq (q 5)
      + (0.209 * cos (q 4) + 0.2075 * (cos (q 4) * cos (q 5) - sin (q 4) * sin (q 5))) * sin_sq_add_cos_sq (q 4)
  | linear_combination (-0.19 : ℝ) * sin (q 4) * sin_sq_add_cos_sq (q 3)

theorem Js_Jws_HR (q : Fin 12 → ℝ) :
    Cols .HR (fun i : Fin 3 => Cheetah.Js_HindRight q (Fin.castAdd 3 i)) (wsF (q (Leg.joint .HR 0))) := by
  intro i j
  fin_cases i <;> fin_cases j <;>
  simp [wsF, Cheetah.Js_HindRight, Leg.joint, Leg.idx, Leg.left, Leg.fore, cos_add, sin_add,
    -mul_eq_mul_left_iff, -mul_eq_mul_right_iff] <;>
  first
  | ring1
  | linear_combination (0.2075 : ℝ) * sin_sq_add_cos_sq (q 8)
  | linear_combination (0.209 * cos (q 7) + 0.2075 * (cos (q 7) * cos (q 8) - sin (q 7) * sin (q 8))) * (sin (q 7) ^ 2 + cos (q 7) ^ 2) * sin_sq_add_cos_sq (q 8)
      + (0.209 * cos (q 7) + 0.2075 * (cos (q 7) * cos (q 8) - sin (q 7) * sin (q 8))) * sin_sq_add_cos_sq (q 7)
  | linear_combination (0.19 : ℝ) * sin (q 7) * sin_sq_add_cos_sq (q 6)

theorem Js_Jvs_HR (q : Fin 12 → ℝ) :
    Cols .HR (fun i : Fin 3 => Cheetah.Js_HindRight q (Fin.natAdd 3 i)) (vsF (Leg.fore .HR) (Leg.left .HR) (q (Leg.joint .HR 0)) (q (Leg.joint .HR 1))) := by
  intro i j
  fin_cases i <;> fin_cases j <;>
  simp [vsF, Cheetah.Js_HindRight, Leg.joint, Leg.idx, Leg.left, Leg.fore, cos_add, sin_add,
    -mul_eq_mul_left_iff, -mul_eq_mul_right_iff] <;>
  first
  | ring1
  | linear_combination (0.2075 : ℝ) * sin_sq_add_cos_sq (q 8)
  | linear_combination (0.209 * cos (q 7) + 0.2075 * (cos (q 7) * cos (q 8) - sin (q 7) * sin (q 8))) * (sin (q 7) ^ 2 + cos (q 7) ^ 2) * sin_sq_add_cos_sq (q 8)
      + (0.209 * cos (q 7) + 0.2075 * (cos (q 7) * cos (q 8) - sin (q 7) * sin (q 8))) * sin_sq_add_cos_sq (q 7)
  | linear_combination (0.19 : ℝ) * sin (q 7) * sin_sq_add_cos_sq (q 6)

theorem Js_Jws_HL (q : Fin 12 → ℝ) :
    Cols .HL (fun i : Fin 3 => Cheetah.Js_HindLeft q (Fin.castAdd 3 i)) (wsF (q (Leg.joint .HL 0))) := by
  intro i j
  fin_cases i <;> fin_cases j <;>
  simp [wsF, Cheetah.Js_HindLeft, Leg.joint, Leg.idx, Leg.left, Leg.fore, cos_add, sin_add,
    -mul_eq_mul_left_iff, -mul_eq_mul_right_iff] <;>
  first
  | ring1
  | linear_combination (0.2075 : ℝ) * sin_sq_add_cos_sq (q 11)
  | linear_combination (0.209 * cos (q 10) + 0.2075 * (cos (q 10) * cos (q 11) - sin (q 10) * sin (q 11))) * (sin (q 10) ^ 2 + cos (q 10) ^ 2) * sin_sq_add_cos_sq (q 11)
      + (0.209 * cos (q 10) + 0.2075 * (cos (q 10) * cos (q 11) - sin (q 10) * sin (q 11))) * sin_sq_add_cos_sq (q 10)
  | linear_combination (0.19 : ℝ) * sin (q 10) * sin_sq_add_cos_sq (q 9)

theorem Js_Jvs_HL (q : Fin 12 → ℝ) :
    Cols .HL (fun i : Fin 3 => Cheetah.Js_HindLeft q (Fin.natAdd 3 i)) (vsF (Leg.fore .HL) (Leg.left .HL) (q (Leg.joint .HL 0)) (q (Leg.joint .HL 1))) := by
  intro i j
  fin_cases i <;> fin_cases j <;>
  simp [vsF, Cheetah.Js_HindLeft, Leg.joint, Leg.idx, Leg.left, Leg.fore, cos_add, sin_add,
    -mul_eq_mul_left_iff, -mul_eq_mul_right_iff] <;>
  first
  | ring1
  | linear_combination (0.2075 : ℝ) * sin_sq_add_cos_sq (q 11)
  | linear_combination (0.209 * cos (q 10) + 0.2075 * (cos (q 10) * cos (q 11) - sin (q 10) * sin (q 11))) * (sin (q 10) ^ 2 + cos (q 10) ^ 2) * sin_sq_add_cos_sq (q 11)
      + (0.209 * cos (q 10) + 0.2075 * (cos (q 10) * cos (q 11) - sin (q 10) * sin (q 11))) * sin_sq_add_cos_sq (q 10)
  | linear_combination (0.19 : ℝ) * sin (q 10) * sin_sq_add_cos_sq (q 9)

theorem Js_Jws_cols (l : Leg) (q : Fin 12 → ℝ) :
    Cols l (fun i : Fin 3 => Cheetah.Js l q (Fin.castAdd 3 i)) (wsF (q (l.joint 0))) := by
  cases l
  · exact Js_Jws_FR q
  · exact Js_Jws_FL q
  · exact Js_Jws_HR q
  · exact Js_Jws_HL q

theorem Js_Jvs_cols (l : Leg) (q : Fin 12 → ℝ) :
    Cols l (fun i : Fin 3 => Cheetah.Js l q (Fin.natAdd 3 i)) (vsF l.fore l.left (q (l.joint 0)) (q (l.joint 1))) := by
  cases l
  · exact Js_Jvs_FR q
  · exact Js_Jvs_FL q
  · exact Js_Jvs_HR q
  · exact Js_Jvs_HL q

end Drift
