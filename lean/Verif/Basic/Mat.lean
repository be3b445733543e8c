import Mathlib.Data.Matrix.Mul
import Mathlib.Data.Real.Basic
import Mathlib.LinearAlgebra.Matrix.NonsingularInverse
import Mathlib.LinearAlgebra.Matrix.PosDef
import Mathlib.Algebra.BigOperators.Intervals
import Mathlib.Tactic.Ring
import Mathlib.Tactic.Linarith
import Mathlib.Tactic.FieldSimp

/-!
# Run-time sized real matrices

`Mat` models `Eigen::MatrixXd` (and, with `cols = 1`, `Eigen::VectorXd`): sizes are run-time
values and entries are addressed by natural numbers.  Entries outside the size are zero by
construction, so two `Mat`s are equal iff sizes and in-range entries agree.

Every Eigen operation that asserts something (`block` in range, matching dimensions) has a checked
version, returning `none` when Eigen's precondition fails (an abort in debug builds, undefined
behaviour in release builds), and a pure version used by the proofs.
-/

namespace Drift

open Finset

/-- `Eigen::Matrix3d` -/
abbrev M3 := Matrix (Fin 3) (Fin 3) ℝ
/-- `Eigen::Vector3d` -/
abbrev V3 := Fin 3 → ℝ

/-- `Eigen::MatrixXd`: run-time sizes, entries indexed by ℕ, zero outside. -/
structure Mat where
  rows : ℕ
  cols : ℕ
  e : ℕ → ℕ → ℝ
  supp : ∀ i j, ¬ (i < rows ∧ j < cols) → e i j = 0

namespace Mat

theorem ext' {A B : Mat} (hr : A.rows = B.rows) (hc : A.cols = B.cols)
    (h : ∀ i j, i < A.rows → j < A.cols → A.e i j = B.e i j) : A = B := by
  have he : A.e = B.e := by
    funext i j
    by_cases hij : i < A.rows ∧ j < A.cols
    · exact h i j hij.1 hij.2
    · rw [A.supp i j hij, B.supp i j (by rw [← hr, ← hc]; exact hij)]
  cases A; cases B; simp_all

/-- Matrix with given sizes and entries. -/
def ofFn (r c : ℕ) (f : ℕ → ℕ → ℝ) : Mat where
  rows := r
  cols := c
  e i j := if i < r ∧ j < c then f i j else 0
  supp i j h := by simp [h]

@[simp] theorem ofFn_rows (r c f) : (ofFn r c f).rows = r := rfl
@[simp] theorem ofFn_cols (r c f) : (ofFn r c f).cols = c := rfl
theorem ofFn_e (r c f i j) : (ofFn r c f).e i j = if i < r ∧ j < c then f i j else 0 := rfl
theorem ofFn_e_of_lt {r c f i j} (hi : i < r) (hj : j < c) : (ofFn r c f).e i j = f i j := by
  simp [ofFn_e, hi, hj]

theorem e_of_ge_rows (A : Mat) {i j} (h : A.rows ≤ i) : A.e i j = 0 := A.supp i j (by omega)
theorem e_of_ge_cols (A : Mat) {i j} (h : A.cols ≤ j) : A.e i j = 0 := A.supp i j (by omega)

/-- `MatrixXd::Zero(r,c)` -/
def zero (r c : ℕ) : Mat := ofFn r c fun _ _ => 0
/-- `MatrixXd::Identity(r,c)` -/
def eye (r c : ℕ) : Mat := ofFn r c fun i j => if i = j then 1 else 0
/-- `MatrixXd::Identity(n,n)` -/
def one (n : ℕ) : Mat := eye n n
/-- `MatrixXd::Ones(r,c)` -/
def ones (r c : ℕ) : Mat := ofFn r c fun _ _ => 1
/-- `A.transpose()` -/
def T (A : Mat) : Mat where
  rows := A.cols
  cols := A.rows
  e i j := A.e j i
  supp i j h := A.supp j i (by tauto)
/-- Matrix product (pure; the inner size is `A.cols`). -/
def mul (A B : Mat) : Mat where
  rows := A.rows
  cols := B.cols
  e i j := ∑ k ∈ range A.cols, A.e i k * B.e k j
  supp i j h := by
    apply sum_eq_zero; intro k _
    by_cases hi : i < A.rows
    · rw [B.e_of_ge_cols (by omega), mul_zero]
    · rw [A.e_of_ge_rows (by omega), zero_mul]
/-- Sum (pure; sizes of the left operand). -/
def add (A B : Mat) : Mat := ofFn A.rows A.cols fun i j => A.e i j + B.e i j
/-- Difference (pure; sizes of the left operand). -/
def sub (A B : Mat) : Mat := ofFn A.rows A.cols fun i j => A.e i j - B.e i j
/-- Scalar multiple. -/
def smul (c : ℝ) (A : Mat) : Mat := ofFn A.rows A.cols fun i j => c * A.e i j
/-- `A.block(r0,c0,nr,nc)` as a value (pure). -/
def blockP (A : Mat) (r0 c0 nr nc : ℕ) : Mat := ofFn nr nc fun i j => A.e (r0 + i) (c0 + j)
/-- `A.block(r0,c0,B.rows(),B.cols()) = B` (pure). -/
def setBlockP (A : Mat) (r0 c0 : ℕ) (B : Mat) : Mat :=
  ofFn A.rows A.cols fun i j =>
    if (r0 ≤ i ∧ i < r0 + B.rows) ∧ (c0 ≤ j ∧ j < c0 + B.cols) then B.e (i - r0) (j - c0)
    else A.e i j
/-- `A(i,j) = x` (pure). -/
def setP (A : Mat) (i j : ℕ) (x : ℝ) : Mat :=
  ofFn A.rows A.cols fun a b => if a = i ∧ b = j then x else A.e a b

instance : Mul Mat := ⟨mul⟩
instance : Add Mat := ⟨add⟩
instance : Sub Mat := ⟨sub⟩
instance : HSMul ℝ Mat Mat := ⟨smul⟩

/-! ### checked versions -/

/-- `A * B`, with Eigen's size precondition. -/
noncomputable def mul? (A B : Mat) : Option Mat := if A.cols = B.rows then some (A * B) else none
/-- `A + B`, with Eigen's size precondition. -/
noncomputable def add? (A B : Mat) : Option Mat :=
  if A.rows = B.rows ∧ A.cols = B.cols then some (A + B) else none
/-- `A - B`, with Eigen's size precondition. -/
noncomputable def sub? (A B : Mat) : Option Mat :=
  if A.rows = B.rows ∧ A.cols = B.cols then some (A - B) else none
/-- `A.block(r0,c0,nr,nc)`, in range or `none`. -/
def block? (A : Mat) (r0 c0 nr nc : ℕ) : Option Mat :=
  if r0 + nr ≤ A.rows ∧ c0 + nc ≤ A.cols then some (A.blockP r0 c0 nr nc) else none
/-- `A.block(r0,c0,B.rows(),B.cols()) = B`, in range or `none`. -/
def setBlock? (A : Mat) (r0 c0 : ℕ) (B : Mat) : Option Mat :=
  if r0 + B.rows ≤ A.rows ∧ c0 + B.cols ≤ A.cols then some (A.setBlockP r0 c0 B) else none
/-- `A(i,j)`, in range or `none`. -/
def get? (A : Mat) (i j : ℕ) : Option ℝ :=
  if i < A.rows ∧ j < A.cols then some (A.e i j) else none
/-- `A(i,j) = x`, in range or `none`. -/
def set? (A : Mat) (i j : ℕ) (x : ℝ) : Option Mat :=
  if i < A.rows ∧ j < A.cols then some (A.setP i j x) else none

/-! ### basic projections -/
@[simp] theorem zero_rows (r c) : (zero r c).rows = r := rfl
@[simp] theorem zero_cols (r c) : (zero r c).cols = c := rfl
@[simp] theorem zero_e (r c i j) : (zero r c).e i j = 0 := by simp [zero, ofFn_e]
@[simp] theorem eye_rows (r c) : (eye r c).rows = r := rfl
@[simp] theorem eye_cols (r c) : (eye r c).cols = c := rfl
theorem eye_e (r c i j) : (eye r c).e i j = if (i < r ∧ j < c) ∧ i = j then 1 else 0 := by
  simp only [eye, ofFn_e]; split_ifs <;> first | rfl | (exfalso; tauto)
@[simp] theorem one_rows (n) : (one n).rows = n := rfl
@[simp] theorem one_cols (n) : (one n).cols = n := rfl
theorem one_e (n i j) : (one n).e i j = if i < n ∧ i = j then 1 else 0 := by
  simp only [one, eye_e]
  by_cases h : i = j
  · subst h; simp
  · simp [h]
@[simp] theorem ones_rows (r c) : (ones r c).rows = r := rfl
@[simp] theorem ones_cols (r c) : (ones r c).cols = c := rfl
@[simp] theorem T_rows (A : Mat) : A.T.rows = A.cols := rfl
@[simp] theorem T_cols (A : Mat) : A.T.cols = A.rows := rfl
@[simp] theorem T_e (A : Mat) (i j) : A.T.e i j = A.e j i := rfl
@[simp] theorem mul_rows (A B : Mat) : (A * B).rows = A.rows := rfl
@[simp] theorem mul_cols (A B : Mat) : (A * B).cols = B.cols := rfl
theorem mul_e (A B : Mat) (i j) : (A * B).e i j = ∑ k ∈ range A.cols, A.e i k * B.e k j := rfl
@[simp] theorem add_rows (A B : Mat) : (A + B).rows = A.rows := rfl
@[simp] theorem add_cols (A B : Mat) : (A + B).cols = A.cols := rfl
theorem add_e (A B : Mat) (i j) :
    (A + B).e i j = if i < A.rows ∧ j < A.cols then A.e i j + B.e i j else 0 := rfl
@[simp] theorem sub_rows (A B : Mat) : (A - B).rows = A.rows := rfl
@[simp] theorem sub_cols (A B : Mat) : (A - B).cols = A.cols := rfl
theorem sub_e (A B : Mat) (i j) :
    (A - B).e i j = if i < A.rows ∧ j < A.cols then A.e i j - B.e i j else 0 := rfl
@[simp] theorem smul_rows (c : ℝ) (A : Mat) : (c • A).rows = A.rows := rfl
@[simp] theorem smul_cols (c : ℝ) (A : Mat) : (c • A).cols = A.cols := rfl
@[simp] theorem smul_e (c : ℝ) (A : Mat) (i j) : (c • A).e i j = c * A.e i j := by
  show (smul c A).e i j = _
  simp only [smul, ofFn_e]; split_ifs with h
  · rfl
  · rw [A.supp i j h, mul_zero]
theorem add_e' {A B : Mat} (hr : A.rows = B.rows) (hc : A.cols = B.cols) (i j) :
    (A + B).e i j = A.e i j + B.e i j := by
  rw [add_e]; split_ifs with h
  · rfl
  · rw [A.supp i j h, B.supp i j (by rwa [← hr, ← hc]), add_zero]
theorem sub_e' {A B : Mat} (hr : A.rows = B.rows) (hc : A.cols = B.cols) (i j) :
    (A - B).e i j = A.e i j - B.e i j := by
  rw [sub_e]; split_ifs with h
  · rfl
  · rw [A.supp i j h, B.supp i j (by rwa [← hr, ← hc]), sub_zero]
@[simp] theorem blockP_rows (A : Mat) (a b c d) : (A.blockP a b c d).rows = c := rfl
@[simp] theorem blockP_cols (A : Mat) (a b c d) : (A.blockP a b c d).cols = d := rfl
theorem blockP_e (A : Mat) (a b c d i j) :
    (A.blockP a b c d).e i j = if i < c ∧ j < d then A.e (a + i) (b + j) else 0 := rfl
@[simp] theorem setBlockP_rows (A B : Mat) (a b) : (A.setBlockP a b B).rows = A.rows := rfl
@[simp] theorem setBlockP_cols (A B : Mat) (a b) : (A.setBlockP a b B).cols = A.cols := rfl
theorem setBlockP_e (A B : Mat) (a b i j) :
    (A.setBlockP a b B).e i j = if i < A.rows ∧ j < A.cols then
      (if (a ≤ i ∧ i < a + B.rows) ∧ (b ≤ j ∧ j < b + B.cols) then B.e (i - a) (j - b)
       else A.e i j) else 0 := rfl
@[simp] theorem setP_rows (A : Mat) (a b x) : (A.setP a b x).rows = A.rows := rfl
@[simp] theorem setP_cols (A : Mat) (a b x) : (A.setP a b x).cols = A.cols := rfl
theorem setP_e (A : Mat) (a b x i j) :
    (A.setP a b x).e i j = if i < A.rows ∧ j < A.cols then
      (if i = a ∧ j = b then x else A.e i j) else 0 := rfl

/-- In range, an assigned block reads back. -/
theorem setBlockP_e_in {A B : Mat} {a b : ℕ} (hr : a + B.rows ≤ A.rows)
    (hc : b + B.cols ≤ A.cols) (i j) :
    (A.setBlockP a b B).e i j =
      if (a ≤ i ∧ i < a + B.rows) ∧ (b ≤ j ∧ j < b + B.cols) then B.e (i - a) (j - b)
      else A.e i j := by
  rw [setBlockP_e]
  by_cases h : i < A.rows ∧ j < A.cols
  · rw [if_pos h]
  · rw [if_neg h]
    rw [if_neg (by omega), A.supp i j h]

/-! ### algebra -/

theorem mul_assoc' (A B C : Mat) : A * B * C = A * (B * C) := by
  refine ext' rfl rfl fun i j _ _ => ?_
  simp only [mul_e, mul_cols, sum_mul, mul_sum]
  rw [sum_comm]
  exact sum_congr rfl fun _ _ => sum_congr rfl fun _ _ => by ring

theorem T_T (A : Mat) : A.T.T = A := rfl

theorem T_mul {A B : Mat} (h : A.cols = B.rows) : (A * B).T = B.T * A.T := by
  refine ext' rfl rfl fun i j _ _ => ?_
  simp only [mul_e, T_e, T_cols, h]
  exact sum_congr rfl fun _ _ => by ring

theorem T_add {A B : Mat} (hr : A.rows = B.rows) (hc : A.cols = B.cols) :
    (A + B).T = A.T + B.T := by
  refine ext' rfl rfl fun i j _ _ => ?_
  rw [T_e, add_e' hr hc, add_e' (by simpa using hc) (by simpa using hr)]; rfl

theorem T_sub {A B : Mat} (hr : A.rows = B.rows) (hc : A.cols = B.cols) :
    (A - B).T = A.T - B.T := by
  refine ext' rfl rfl fun i j _ _ => ?_
  rw [T_e, sub_e' hr hc, sub_e' (by simpa using hc) (by simpa using hr)]; rfl

theorem T_smul (c : ℝ) (A : Mat) : (c • A).T = c • A.T := by
  refine ext' rfl rfl fun i j _ _ => ?_
  simp

@[simp] theorem T_one (n : ℕ) : (one n).T = one n := by
  refine ext' rfl rfl fun i j _ _ => ?_
  simp only [T_e, one_e]; congr 1; apply propext; omega

@[simp] theorem T_zero (r c : ℕ) : (zero r c).T = zero c r := by
  refine ext' rfl rfl fun i j _ _ => by simp

theorem mul_one' (A : Mat) : A * one A.cols = A := by
  refine ext' rfl rfl fun i j _ hj => ?_
  simp only [mul_e, one_e]
  rw [sum_eq_single j]
  · simp; intro h; simp at hj; omega
  · intro k _ hk; simp [hk]
  · intro h; simp at h hj; omega

theorem mul_one_of {A : Mat} {n : ℕ} (h : A.cols = n) : A * one n = A := h ▸ mul_one' A

theorem one_mul' (A : Mat) : one A.rows * A = A := by
  refine ext' rfl rfl fun i j hi _ => ?_
  simp only [mul_e, one_e, one_cols]
  rw [sum_eq_single i]
  · simp at hi; simp [hi]
  · intro k _ hk; simp [Ne.symm hk]
  · intro h; simp at h hi; omega

theorem one_mul_of {A : Mat} {n : ℕ} (h : A.rows = n) : one n * A = A := h ▸ one_mul' A

theorem zero_mul' (r : ℕ) (A : Mat) (n : ℕ) : zero r n * A = zero r A.cols := by
  refine ext' rfl rfl fun i j _ _ => by simp [mul_e]

theorem mul_zero' (A : Mat) (n c : ℕ) : A * zero n c = zero A.rows c := by
  refine ext' rfl rfl fun i j _ _ => by simp [mul_e]

theorem add_mul' {A B : Mat} (C : Mat) (hr : A.rows = B.rows) (hc : A.cols = B.cols) :
    (A + B) * C = A * C + B * C := by
  refine ext' rfl rfl fun i j _ _ => ?_
  rw [add_e' (A := A * C) (B := B * C) hr rfl]
  simp only [mul_e, add_cols, ← hc, ← sum_add_distrib]
  exact sum_congr rfl fun k _ => by rw [add_e' hr hc]; ring

theorem mul_add' (A : Mat) {B C : Mat} (hr : B.rows = C.rows) (hc : B.cols = C.cols) :
    A * (B + C) = A * B + A * C := by
  refine ext' rfl rfl fun i j _ _ => ?_
  rw [add_e' (A := A * B) (B := A * C) rfl hc]
  simp only [mul_e, ← sum_add_distrib]
  exact sum_congr rfl fun k _ => by rw [add_e' hr hc]; ring

theorem sub_mul' {A B : Mat} (C : Mat) (hr : A.rows = B.rows) (hc : A.cols = B.cols) :
    (A - B) * C = A * C - B * C := by
  refine ext' rfl rfl fun i j _ _ => ?_
  rw [sub_e' (A := A * C) (B := B * C) hr rfl]
  simp only [mul_e, sub_cols, ← hc, ← sum_sub_distrib]
  exact sum_congr rfl fun k _ => by rw [sub_e' hr hc]; ring

theorem mul_sub' (A : Mat) {B C : Mat} (hr : B.rows = C.rows) (hc : B.cols = C.cols) :
    A * (B - C) = A * B - A * C := by
  refine ext' rfl rfl fun i j _ _ => ?_
  rw [sub_e' (A := A * B) (B := A * C) rfl hc]
  simp only [mul_e, ← sum_sub_distrib]
  exact sum_congr rfl fun k _ => by rw [sub_e' hr hc]; ring

theorem smul_mul' (c : ℝ) (A B : Mat) : (c • A) * B = c • (A * B) := by
  refine ext' rfl rfl fun i j _ _ => ?_
  simp only [mul_e, smul_e, smul_cols, mul_sum]
  exact sum_congr rfl fun k _ => by ring

theorem mul_smul' (c : ℝ) (A B : Mat) : A * (c • B) = c • (A * B) := by
  refine ext' rfl rfl fun i j _ _ => ?_
  simp only [mul_e, smul_e, mul_sum]
  exact sum_congr rfl fun k _ => by ring

theorem add_comm' {A B : Mat} (hr : A.rows = B.rows) (hc : A.cols = B.cols) : A + B = B + A := by
  refine ext' hr hc fun i j _ _ => ?_
  rw [add_e' hr hc, add_e' hr.symm hc.symm, add_comm]

theorem add_assoc' {A B C : Mat} (hr : A.rows = B.rows) (hc : A.cols = B.cols)
    (hr' : B.rows = C.rows) (hc' : B.cols = C.cols) : A + B + C = A + (B + C) := by
  refine ext' rfl rfl fun i j _ _ => ?_
  rw [add_e' (by simp; omega) (by simp; omega), add_e' hr hc, add_e' (by simp; omega) (by simp; omega),
    add_e' hr' hc', add_assoc]

theorem add_zero' (A : Mat) (r c : ℕ) : A + zero r c = A := by
  refine ext' rfl rfl fun i j hi hj => ?_
  simp only [add_rows, add_cols] at hi hj
  simp [add_e, hi, hj]

theorem sub_zero' (A : Mat) (r c : ℕ) : A - zero r c = A := by
  refine ext' rfl rfl fun i j hi hj => ?_
  simp only [sub_rows, sub_cols] at hi hj
  simp [sub_e, hi, hj]

/-! ### bridge to Mathlib's matrices -/

/-- The in-range entries as a Mathlib matrix. -/
def toM (A : Mat) : Matrix (Fin A.rows) (Fin A.cols) ℝ := fun i j => A.e i j

/-- The in-range entries as a Mathlib matrix with prescribed sizes. -/
def toMn (A : Mat) (r c : ℕ) : Matrix (Fin r) (Fin c) ℝ := fun i j => A.e i j

/-- A Mathlib matrix as a run-time sized one. -/
def ofM {r c : ℕ} (M : Matrix (Fin r) (Fin c) ℝ) : Mat where
  rows := r
  cols := c
  e i j := if h : i < r ∧ j < c then M ⟨i, h.1⟩ ⟨j, h.2⟩ else 0
  supp i j h := by simp [h]

@[simp] theorem ofM_rows {r c} (M : Matrix (Fin r) (Fin c) ℝ) : (ofM M).rows = r := rfl
@[simp] theorem ofM_cols {r c} (M : Matrix (Fin r) (Fin c) ℝ) : (ofM M).cols = c := rfl
@[simp] theorem ofM_e_fin {r c} (M : Matrix (Fin r) (Fin c) ℝ) (i : Fin r) (j : Fin c) :
    (ofM M).e i j = M i j := by simp [ofM]
theorem ofM_e {r c} (M : Matrix (Fin r) (Fin c) ℝ) {i j} (hi : i < r) (hj : j < c) :
    (ofM M).e i j = M ⟨i, hi⟩ ⟨j, hj⟩ := by simp [ofM, hi, hj]

@[simp] theorem toMn_ofM {r c} (M : Matrix (Fin r) (Fin c) ℝ) : (ofM M).toMn r c = M := by
  funext i j; simp [toMn]

theorem ofM_toMn (A : Mat) {r c} (hr : A.rows = r) (hc : A.cols = c) : ofM (A.toMn r c) = A := by
  subst hr hc
  refine ext' rfl rfl fun i j hi hj => ?_
  simp only [ofM_rows, ofM_cols] at hi hj
  rw [ofM_e _ hi hj]; rfl

theorem toMn_mul (A B : Mat) {r m c : ℕ} (hm : A.cols = m) :
    (A * B).toMn r c = A.toMn r m * B.toMn m c := by
  subst hm
  funext i j
  simp only [toMn, mul_e, Matrix.mul_apply]
  rw [sum_range]

theorem ofM_mul {r m c : ℕ} (A : Matrix (Fin r) (Fin m) ℝ) (B : Matrix (Fin m) (Fin c) ℝ) :
    ofM (A * B) = ofM A * ofM B := by
  have h := toMn_mul (ofM A) (ofM B) (r := r) (m := m) (c := c) rfl
  rw [toMn_ofM, toMn_ofM] at h
  rw [← h, ofM_toMn (ofM A * ofM B) (r := r) (c := c) rfl rfl]

theorem ofM_one (n : ℕ) : ofM (1 : Matrix (Fin n) (Fin n) ℝ) = one n := by
  refine ext' rfl rfl fun i j hi hj => ?_
  simp only [ofM_rows, ofM_cols] at hi hj
  rw [ofM_e _ hi hj, one_e, Matrix.one_apply]
  simp [hi]

/-- `A.inverse()` : `none` when `A` is not square or singular (Eigen would produce inf/NaN). -/
noncomputable def inv? (A : Mat) : Option Mat :=
  if A.rows = A.cols ∧ (A.toMn A.rows A.rows).det ≠ 0 then
    some (ofM (A.toMn A.rows A.rows)⁻¹) else none

theorem inv?_spec {A W : Mat} (h : A.inv? = some W) :
    A.rows = A.cols ∧ W.rows = A.rows ∧ W.cols = A.rows ∧ A * W = one A.rows ∧
      W * A = one A.rows := by
  unfold inv? at h
  split_ifs at h with hc
  obtain ⟨hsq, hdet⟩ := hc
  simp only [Option.some.injEq] at h
  subst h
  have hu : IsUnit (A.toMn A.rows A.rows).det := isUnit_iff_ne_zero.mpr hdet
  have hA : ofM (A.toMn A.rows A.rows) = A := ofM_toMn A rfl hsq.symm
  refine ⟨hsq, rfl, rfl, ?_, ?_⟩
  · conv_lhs => rw [← hA, ofM_rows]
    have := ofM_mul (A.toMn A.rows A.rows) (A.toMn A.rows A.rows)⁻¹
    rw [Matrix.mul_nonsing_inv _ hu, ofM_one] at this
    rw [hA]
    nth_rewrite 1 [← hA]
    exact this.symm
  · have := ofM_mul (A.toMn A.rows A.rows)⁻¹ (A.toMn A.rows A.rows)
    rw [Matrix.nonsing_inv_mul _ hu, ofM_one, hA] at this
    exact this.symm

/-- Two-sided inverses are unique (square matrices of the same size). -/
theorem inv_unique {A W W' : Mat} {n : ℕ} (hW'c : W'.rows = n)
    (hWc : W.cols = n)
    (h1 : W * A = one n) (h2 : A * W' = one n) : W = W' := by
  have : W * A * W' = W * (A * W') := mul_assoc' _ _ _
  rw [h1, h2, mul_one_of hWc, one_mul_of hW'c] at this
  exact this.symm

theorem inv?_isSome_of_left_inverse {A W : Mat} {n : ℕ} (hr : A.rows = n) (hc : A.cols = n)
    (hWc : W.cols = n) (h : W * A = one n) : ∃ V, A.inv? = some V := by
  subst hr
  unfold inv?
  rw [if_pos]
  · exact ⟨_, rfl⟩
  · refine ⟨hc.symm, ?_⟩
    have hh := toMn_mul W A (r := A.rows) (c := A.rows) hWc
    rw [h] at hh
    have h1 : (one A.rows).toMn A.rows A.rows = 1 := by
      funext i j; simp [toMn, one_e, Matrix.one_apply, Fin.ext_iff]
    rw [h1] at hh
    intro h0
    have := congrArg Matrix.det hh
    rw [Matrix.det_mul, h0, mul_zero, Matrix.det_one] at this
    exact one_ne_zero this

/-- `inv?` succeeds exactly on square invertible matrices, and returns the inverse. -/
theorem inv?_eq_some_iff {A W : Mat} :
    A.inv? = some W ↔ A.rows = A.cols ∧ W.rows = A.rows ∧ W.cols = A.rows ∧
      A * W = one A.rows ∧ W * A = one A.rows := by
  constructor
  · exact inv?_spec
  · rintro ⟨h1, h2, h3, h4, h5⟩
    obtain ⟨V, hV⟩ := inv?_isSome_of_left_inverse rfl h1.symm h3 h5
    obtain ⟨_, hVr, hVc, hV1, hV2⟩ := inv?_spec hV
    rw [hV, inv_unique (n := A.rows) h2 hVc hV2 h4]

end Mat
end Drift
