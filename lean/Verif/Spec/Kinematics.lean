import Verif.Basic.Fixed
import Mathlib.Analysis.SpecialFunctions.Trigonometric.Basic
import Mathlib.Analysis.Calculus.FDeriv.Basic

/-!
# Specification of the Mini Cheetah legs: geometry of the robot

Body frame: x forward, y left, z up.  A leg is a chain of three joints: abduction about +x at the hip, hip pitch and knee about
-y.  Independent of the generated code.
-/
namespace Drift
open Matrix

/-- the legs, in the order of the joint vector -/
inductive Leg
  | FR | FL | HR | HL
  deriving DecidableEq

namespace Leg
/-- number of the leg -/
def idx : Leg → Fin 4
  | FR => 0 | FL => 1 | HR => 2 | HL => 3
/-- front: 1, hind: -1 -/
def fore : Leg → ℝ
  | FR => 1 | FL => 1 | HR => -1 | HL => -1
/-- left: 1, right: -1 -/
def left : Leg → ℝ
  | FR => -1 | FL => 1 | HR => -1 | HL => 1
/-- joint `k` (abduction, hip, knee) of the leg in the joint vector -/
def joint (l : Leg) (k : Fin 3) : Fin 12 := ⟨3 * l.idx.val + k.val, by have := l.idx.isLt; have := k.isLt; omega⟩
end Leg

/-- rotation by `a` about the x axis -/
noncomputable def rotX (a : ℝ) : M3 := !![1, 0, 0; 0, Real.cos a, -Real.sin a; 0, Real.sin a, Real.cos a]
/-- rotation by `a` about the y axis -/
noncomputable def rotY (a : ℝ) : M3 := !![Real.cos a, 0, Real.sin a; 0, 1, 0; -Real.sin a, 0, Real.cos a]

/-- orientation of the foot frame in the body frame -/
noncomputable def legRot (l : Leg) (q : Fin 12 → ℝ) : M3 :=
  rotX (q (l.joint 0)) * (rotY (-(q (l.joint 1))) * rotY (-(q (l.joint 2))))

/-- position of the abduction joint in the body frame: 0.19 m forward, 0.049 m to the side -/
def legHip (l : Leg) : V3 := ![0.19 * l.fore, 0.049 * l.left, 0]

/-- position of the foot in the body frame: the hip link is 0.062 m to the side, the thigh 0.209 m and the shank 0.2075 m
long -/
noncomputable def legPos (l : Leg) (q : Fin 12 → ℝ) : V3 :=
  legHip l + (rotX (q (l.joint 0))).mulVec
    (![0, 0.062 * l.left, 0] + (rotY (-(q (l.joint 1)))).mulVec
      (![0, 0, -0.209] + (rotY (-(q (l.joint 2)))).mulVec ![0, 0, -0.2075]))

/-- the matrix of a velocity twist `(ω, v)` -/
def twist4 (w v : V3) : Matrix (Fin 4) (Fin 4) ℝ :=
  !![0, -w 2, w 1, v 0; w 2, 0, -w 0, v 1; -w 1, w 0, 0, v 2; 0, 0, 0, 0]

end Drift
