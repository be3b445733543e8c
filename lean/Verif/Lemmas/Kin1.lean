import Verif.Model.MiniCheetah
import Mathlib.Tactic.FinCases
import Mathlib.Tactic.LinearCombination

/-!
# Closed forms of the generated kinematics
-/
namespace Drift
open Matrix Real

theorem rotX_mulVec (a : ℝ) (v : V3) : (rotX a).mulVec v =
    ![v 0, cos a * v 1 - sin a * v 2, sin a * v 1 + cos a * v 2] := by
  funext i
  fin_cases i <;> simp [rotX, Matrix.mulVec, dotProduct, Fin.sum_univ_three]; ring
theorem rotY_mulVec (a : ℝ) (v : V3) : (rotY a).mulVec v =
    ![cos a * v 0 + sin a * v 2, v 1, - sin a * v 0 + cos a * v 2] := by
  funext i
  fin_cases i <;> simp [rotY, Matrix.mulVec, dotProduct, Fin.sum_univ_three]

/-- closed form of the foot position -/
noncomputable def posF (f l a b c : ℝ) : V3 :=
  ![0.19 * f + 0.209 * sin b + 0.2075 * sin (b + c),
    0.049 * l + 0.062 * l * cos a + sin a * (0.209 * cos b + 0.2075 * cos (b + c)),
    0.062 * l * sin a - cos a * (0.209 * cos b + 0.2075 * cos (b + c))]

/-- closed form of the foot orientation -/
noncomputable def rotF (a b c : ℝ) : M3 :=
  !![cos (b + c), 0, -sin (b + c);
     -(sin a * sin (b + c)), cos a, -(sin a * cos (b + c));
     cos a * sin (b + c), sin a, cos a * cos (b + c)]

/-- derivative of the position by the three joints -/
noncomputable def jacF (l a b c : ℝ) : M3 :=
  !![0, 0.209 * cos b + 0.2075 * cos (b + c), 0.2075 * cos (b + c);
     -(0.062 * l * sin a) + cos a * (0.209 * cos b + 0.2075 * cos (b + c)),
       -(sin a * (0.209 * sin b + 0.2075 * sin (b + c))), -(sin a * (0.2075 * sin (b + c)));
     0.062 * l * cos a + sin a * (0.209 * cos b + 0.2075 * cos (b + c)),
       cos a * (0.209 * sin b + 0.2075 * sin (b + c)), cos a * (0.2075 * sin (b + c))]

/-- body angular velocity -/
noncomputable def wbF (b c : ℝ) : M3 := !![cos (b + c), 0, 0; 0, -1, -1; -sin (b + c), 0, 0]
/-- spatial angular velocity -/
noncomputable def wsF (a : ℝ) : M3 := !![1, 0, 0; 0, -cos a, -cos a; 0, -sin a, -sin a]
/-- body linear velocity -/
noncomputable def vbF (l b c : ℝ) : M3 :=
  !![0.062 * l * sin (b + c), 0.209 * cos c + 0.2075, 0.2075;
     0.209 * cos b + 0.2075 * cos (b + c), 0, 0;
     0.062 * l * cos (b + c), -(0.209 * sin c), 0]
/-- spatial linear velocity -/
noncomputable def vsF (f l a b : ℝ) : M3 :=
  !![0, -(0.049 * l * sin a), -(0.049 * l * sin a) - 0.209 * cos b;
     0, 0.19 * f * sin a, (0.19 * f + 0.209 * sin b) * sin a;
     -(0.049 * l), -(0.19 * f * cos a), -((0.19 * f + 0.209 * sin b) * cos a)]

/-- `J` has the columns `A` at the joints of the leg and zeros elsewhere -/
def Cols {n : ℕ} (l : Leg) (J : Matrix (Fin n) (Fin 12) ℝ) (A : Matrix (Fin n) (Fin 3) ℝ) : Prop :=
  ∀ i j, J i j = if j = l.joint 0 then A i 0 else if j = l.joint 1 then A i 1 else if j = l.joint 2 then A i 2 else 0

theorem legPos_eq (l : Leg) (q : Fin 12 → ℝ) :
    legPos l q = posF l.fore l.left (q (l.joint 0)) (q (l.joint 1)) (q (l.joint 2)) := by
  simp only [legPos, rotX_mulVec, rotY_mulVec]
  funext i
  fin_cases i <;> simp [posF, legHip, cos_add, sin_add] <;> ring

theorem legRot_eq (l : Leg) (q : Fin 12 → ℝ) :
    legRot l q = rotF (q (l.joint 0)) (q (l.joint 1)) (q (l.joint 2)) := by
  ext i j
  fin_cases i <;> fin_cases j <;>
    simp [legRot, rotX, rotY, rotF, Matrix.mul_apply, Fin.sum_univ_three, cos_add, sin_add, -mul_eq_mul_left_iff] <;> ring

theorem p_eq (l : Leg) (q : Fin 12 → ℝ) (i : Fin 3) : Cheetah.p l q i 0 = legPos l q i := by
  rw [legPos_eq]
  cases l <;> fin_cases i <;>
  simp [posF, Cheetah.p, Cheetah.p_FrontRight, Cheetah.p_FrontLeft, Cheetah.p_HindRight, Cheetah.p_HindLeft,
    Leg.joint, Leg.idx, Leg.fore, Leg.left, cos_add, sin_add] <;> ring

theorem R_eq (l : Leg) (q : Fin 12 → ℝ) : Cheetah.R l q = legRot l q := by
  rw [legRot_eq]
  ext i j
  cases l <;> fin_cases i <;> fin_cases j <;>
  simp [rotF, Cheetah.R, Cheetah.R_FrontRight, Cheetah.R_FrontLeft, Cheetah.R_HindRight, Cheetah.R_HindLeft,
    Leg.joint, Leg.idx, cos_add, sin_add] <;> ring

theorem H_eq (l : Leg) (q : Fin 12 → ℝ) (i j : Fin 4) : Cheetah.H l q i j =
    !![legRot l q 0 0, legRot l q 0 1, legRot l q 0 2, legPos l q 0;
       legRot l q 1 0, legRot l q 1 1, legRot l q 1 2, legPos l q 1;
       legRot l q 2 0, legRot l q 2 1, legRot l q 2 2, legPos l q 2;
       0, 0, 0, 1] i j := by
  rw [legRot_eq, legPos_eq]
  cases l <;> fin_cases i <;> fin_cases j <;>
  simp [rotF, posF, Cheetah.H, Cheetah.H_FrontRight, Cheetah.H_FrontLeft, Cheetah.H_HindRight, Cheetah.H_HindLeft,
    Leg.joint, Leg.idx, Leg.fore, Leg.left, cos_add, sin_add] <;> ring

end Drift
