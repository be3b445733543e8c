import Verif.Basic.Fixed
import Mathlib.Analysis.Complex.Trigonometric
import Mathlib.Analysis.Real.Sqrt

/-!
# Model of `src/math/lie_group.cpp`

`double` is ℝ.  `none` is undefined behaviour / a failed assertion.
-/
namespace Drift
open Mat

/-- lie_group.cpp:20 `const double TOLERANCE = 1e-10;` -/
noncomputable def TOLERANCE : ℝ := 1e-10

/-- Result of evaluating an integer function with a step budget. -/
inductive Eval where
  /-- returned a value -/
  | ret (x : ℤ)
  /-- signed overflow of `int` or `long int`: undefined behaviour -/
  | ub
  /-- still recursing after the given number of calls -/
  | running
deriving DecidableEq, Repr

/-- range of the 64-bit `long int` of the target platform -/
def inLong (x : ℤ) : Prop := -2 ^ 63 ≤ x ∧ x < 2 ^ 63
instance (x : ℤ) : Decidable (inLong x) := inferInstanceAs (Decidable (_ ∧ _))
/-- range of the 32-bit `int` of the target platform -/
def inInt (x : ℤ) : Prop := -2 ^ 31 ≤ x ∧ x < 2 ^ 31
instance (x : ℤ) : Decidable (inInt x) := inferInstanceAs (Decidable (_ ∧ _))

/-- lie_group.cpp:22-24 `factorial`: the recursion with at most `fuel` calls.
`factorial(n-1)*n` is a `long int` product, `n-1` an `int` difference. -/
def factorialF : ℕ → ℤ → Eval
  | 0, _ => .running
  | fuel + 1, n =>
    if n = 1 ∨ n = 0 then .ret 1
    else if inInt (n - 1) then
      match factorialF fuel (n - 1) with
      | .ret x => if inLong (x * n) then .ret (x * n) else .ub
      | r => r
    else .ub

/-- lie_group.cpp:22-24 as used by callers: the returned value, or `none` if the call does not
return (`n + 2` nested calls suffice for every call that returns, see
`factorial_fuel_sufficient`). -/
def factorial? (n : ℤ) : Option ℤ :=
  match factorialF (n.toNat + 2) n with
  | .ret x => some x
  | _ => none

/-- lie_group.cpp:26-31 `skew` -/
def skew (v : V3) : M3 :=
  !![0, -v 2, v 1; v 2, 0, -v 0; -v 1, v 0, 0]

/-- `w.norm()` for a `Vector3d` -/
noncomputable def norm3 (w : V3) : ℝ := Real.sqrt (w 0 ^ 2 + w 1 ^ 2 + w 2 ^ 2)

/-- lie_group.cpp:49-51, 70-71: `I + (sin θ/θ) A + ((1-cos θ)/θ²) A A` -/
noncomputable def gammaCase0 (θ : ℝ) (A : M3) : M3 :=
  1 + (Real.sin θ / θ) • A + (((1 - Real.cos θ) / (θ * θ)) • A) * A

/-- lie_group.cpp:53-57 -/
noncomputable def gammaCase1 (θ : ℝ) (A : M3) : M3 :=
  1 + ((1 - Real.cos θ) / (θ * θ)) • A + (((θ - Real.sin θ) / (θ * θ * θ)) • A) * A

/-- lie_group.cpp:59-64 -/
noncomputable def gammaCase2 (θ : ℝ) (A : M3) : M3 :=
  (0.5 : ℝ) • (1 : M3) + ((θ - Real.sin θ) / (θ * θ * θ)) • A
    + (((θ * θ + 2 * Real.cos θ - 2) / (2 * (θ * θ) * (θ * θ))) • A) * A

/-- lie_group.cpp:72-79: the accumulation loop; state `(kfactorial, Ak, S)`.
`kfactorial` is a `long int`; overflow is undefined behaviour. -/
noncomputable def gammaLoop (A : M3) (m : ℕ) : Option (ℤ × M3 × M3) :=
  forRange m ((1 : ℤ), (1 : M3), (1 : M3)) fun k s =>
    -- the C++ loop runs k = 1..m; ours runs k = 0..m-1
    if inLong (s.1 * ((k : ℤ) + 1)) then
      let kf := s.1 * ((k : ℤ) + 1)
      let Ak := s.2.1 * A
      some (kf, Ak, s.2.2 + (1 / (kf : ℝ)) • Ak)
    else none

/-- lie_group.cpp:67-87: the general case -/
noncomputable def gammaGeneral (θ : ℝ) (A : M3) (m : ℕ) : Option M3 := do
  let R := gammaCase0 θ A
  let (kf, _, S) ← gammaLoop A m
  if m = 0 then some R
  else if m % 2 = 1 then
    some ((1 / (kf : ℝ)) • (1 : M3)
      + (((-1) ^ ((m + 1) / 2) / θ ^ (m + 1)) • A) * (R - S))
  else
    some ((1 / (kf : ℝ)) • (1 : M3) + ((-1) ^ (m / 2) / θ ^ m) • (R - S))

/-- lie_group.cpp:33-86 `Gamma_SO3`; `assert(m >= 0)` failing is `none`. -/
noncomputable def gamma_SO3 (w : V3) (m : ℤ) : Option M3 :=
  if m < 0 then none
  else
    let θ := norm3 w
    if θ < TOLERANCE then (factorial? m).map fun f : ℤ => (1.0 / (f : ℝ)) • (1 : M3)
    else
      let A := skew w
      if m = 0 then some (gammaCase0 θ A)
      else if m = 1 then some (gammaCase1 θ A)
      else if m = 2 then some (gammaCase2 θ A)
      else gammaGeneral θ A m.toNat

/-- lie_group.cpp:88-91 `Exp_SO3` -/
noncomputable def exp_SO3 (w : V3) : Option M3 := gamma_SO3 w 0
/-- lie_group.cpp:93-96 `LeftJacobian_SO3` -/
noncomputable def leftJacobian_SO3 (w : V3) : Option M3 := gamma_SO3 w 1
/-- lie_group.cpp:98-101 `RightJacobian_SO3` -/
noncomputable def rightJacobian_SO3 (w : V3) : Option M3 := gamma_SO3 (-w) 1

/-- lie_group.cpp:103-130 `Exp_SEK3`.  `v` is a column vector; `K = (v.size()-3)/3`
(for `v.size() ≥ 3`, otherwise `v.head(3)` is out of range). -/
noncomputable def exp_SEK3 (v : Mat) : Option Mat := do
  let w ← v.blkV? 0 0
  let K := (v.rows - 3) / 3
  let X := one (3 + K)
  let θ := norm3 w
  let RJ : M3 × M3 :=
    if θ < TOLERANCE then (1, 1)
    else
      let A := skew w
      let θ2 := θ * θ
      let s := Real.sin θ
      let c := Real.cos θ
      let o := (1 - c) / θ2
      let A2 := A * A
      (1 + (s / θ) • A + o • A2, 1 + o • A + ((θ - s) / (θ2 * θ)) • A2)
  let X ← X.setBlock? 0 0 (of3 RJ.1)
  forRange K X fun i X => do
    let vi ← v.blkV? (3 + 3 * i) 0
    X.setBlock? 0 (3 + i) (ofV (RJ.2.mulVec vi))

/-- lie_group.cpp:132-143 `Adjoint_SEK3` (`none` if `X` has fewer than 3 rows or columns). -/
noncomputable def adjoint_SEK3 (X : Mat) : Option Mat := do
  let R ← X.blk3? 0 0
  let K := X.cols - 3
  let Adj := zero (3 + 3 * K) (3 + 3 * K)
  let Adj ← Adj.setBlock? 0 0 (of3 R)
  forRange K Adj fun i Adj => do
    let Adj ← Adj.setBlock? (3 + 3 * i) (3 + 3 * i) (of3 R)
    let p ← X.blkV? 0 (3 + i)
    Adj.setBlock? (3 + 3 * i) 0 (of3 (skew p * R))

end Drift
