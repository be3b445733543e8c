import Verif.Basic.Mat
import Mathlib.LinearAlgebra.Matrix.Determinant.Basic
import Mathlib.LinearAlgebra.Matrix.Notation
import Mathlib.LinearAlgebra.CrossProduct

/-!
# Fixed size blocks inside run-time sized matrices

`block<3,3>(r,c)`, `block<3,1>(r,c)` reads and writes of `Eigen` on a `Mat`, and the bounded
`for` loop used by the models.
-/
namespace Drift
open Finset

/-- `for (int i = 0; i < n; ++i) s = f(i, s);` where a body may have undefined behaviour. -/
def forRange {σ : Type} : ℕ → σ → (ℕ → σ → Option σ) → Option σ
  | 0, s, _ => some s
  | n + 1, s, f => (forRange n s f).bind (f n)

/-- Loop invariant rule. -/
theorem forRange_inv {σ : Type} (Inv : ℕ → σ → Prop) {n : ℕ} {s : σ} {f : ℕ → σ → Option σ}
    (h0 : Inv 0 s) (hs : ∀ i t, i < n → Inv i t → ∃ t', f i t = some t' ∧ Inv (i + 1) t') :
    ∃ t, forRange n s f = some t ∧ Inv n t := by
  induction n with
  | zero => exact ⟨s, rfl, h0⟩
  | succ n ih =>
    obtain ⟨t, ht, hi⟩ := ih fun i t hi => hs i t (by omega)
    obtain ⟨t', ht', hi'⟩ := hs n t (by omega) hi
    exact ⟨t', by simp [forRange, ht, ht'], hi'⟩

namespace Mat

/-- A 3x3 matrix as a run-time sized one. -/
def of3 (M : M3) : Mat := ofM M
/-- A 3-vector as a 3x1 matrix. -/
def ofV (v : V3) : Mat := ofM fun (i : Fin 3) (_ : Fin 1) => v i
/-- The 3x3 block at `(r,c)` (pure). -/
def blk3 (A : Mat) (r c : ℕ) : M3 := fun i j => A.e (r + i) (c + j)
/-- The 3x1 block at `(r,c)` (pure). -/
def blkV (A : Mat) (r c : ℕ) : V3 := fun i => A.e (r + i) c
/-- `A.block<3,3>(r,c)` as a value; `none` out of range. -/
def blk3? (A : Mat) (r c : ℕ) : Option M3 :=
  if r + 3 ≤ A.rows ∧ c + 3 ≤ A.cols then some (A.blk3 r c) else none
/-- `A.block<3,1>(r,c)` (or `v.segment<3>(r)` when `c = 0`); `none` out of range. -/
def blkV? (A : Mat) (r c : ℕ) : Option V3 :=
  if r + 3 ≤ A.rows ∧ c + 1 ≤ A.cols then some (A.blkV r c) else none

@[simp] theorem of3_rows (M : M3) : (of3 M).rows = 3 := rfl
@[simp] theorem of3_cols (M : M3) : (of3 M).cols = 3 := rfl
@[simp] theorem ofV_rows (v : V3) : (ofV v).rows = 3 := rfl
@[simp] theorem ofV_cols (v : V3) : (ofV v).cols = 1 := rfl
theorem of3_e (M : M3) {i j} (hi : i < 3) (hj : j < 3) : (of3 M).e i j = M ⟨i, hi⟩ ⟨j, hj⟩ :=
  ofM_e _ hi hj
theorem ofV_e (v : V3) {i} (hi : i < 3) : (ofV v).e i 0 = v ⟨i, hi⟩ := ofM_e _ hi one_pos
@[simp] theorem of3_e_fin (M : M3) (i j : Fin 3) : (of3 M).e i j = M i j := of3_e M i.2 j.2
@[simp] theorem ofV_e_fin (v : V3) (i : Fin 3) : (ofV v).e i 0 = v i := ofV_e v i.2

@[simp] theorem blk3_apply (A : Mat) (r c) (i j : Fin 3) : A.blk3 r c i j = A.e (r + i) (c + j) := rfl
@[simp] theorem blkV_apply (A : Mat) (r c) (i : Fin 3) : A.blkV r c i = A.e (r + i) c := rfl

@[simp] theorem blk3_of3 (M : M3) : (of3 M).blk3 0 0 = M := by
  ext i j; simp
@[simp] theorem blkV_ofV (v : V3) : (ofV v).blkV 0 0 = v := by
  ext i; simp

/-- Entries of a matrix of size `3a x 3b` are determined by its 3x3 blocks. -/
theorem ext_blk3 {A B : Mat} {a b : ℕ} (hr : A.rows = 3 * a) (hc : A.cols = 3 * b)
    (hr' : B.rows = 3 * a) (hc' : B.cols = 3 * b)
    (h : ∀ i j, i < a → j < b → A.blk3 (3 * i) (3 * j) = B.blk3 (3 * i) (3 * j)) : A = B := by
  refine ext' (by omega) (by omega) fun i j hi hj => ?_
  have := congrFun (congrFun (h (i / 3) (j / 3) (by omega) (by omega))
    ⟨i % 3, Nat.mod_lt _ (by norm_num)⟩) ⟨j % 3, Nat.mod_lt _ (by norm_num)⟩
  simpa [Nat.div_add_mod] using this

theorem sum_range_three_mul (n : ℕ) (f : ℕ → ℝ) :
    ∑ k ∈ range (3 * n), f k = ∑ k ∈ range n, ∑ i : Fin 3, f (3 * k + i) := by
  induction n with
  | zero => simp
  | succ n ih =>
    rw [show 3 * (n + 1) = 3 * n + 1 + 1 + 1 by ring, sum_range_succ, sum_range_succ,
      sum_range_succ, ih, sum_range_succ, Fin.sum_univ_three]
    simp; ring

/-- Block multiplication: a 3x3 block of a product is the sum of products of 3x3 blocks. -/
theorem blk3_mul (A B : Mat) {n : ℕ} (h : A.cols = 3 * n) (r c : ℕ) :
    (A * B).blk3 r c = ∑ k ∈ range n, A.blk3 r (3 * k) * B.blk3 (3 * k) c := by
  ext i j
  rw [blk3_apply, mul_e, h, sum_range_three_mul, Matrix.sum_apply]
  refine sum_congr rfl fun k _ => ?_
  rw [Matrix.mul_apply]; rfl

theorem blk3_T (A : Mat) (r c : ℕ) : A.T.blk3 r c = (A.blk3 c r).transpose := by
  ext i j; simp

theorem blk3_add {A B : Mat} (hr : A.rows = B.rows) (hc : A.cols = B.cols) (r c) :
    (A + B).blk3 r c = A.blk3 r c + B.blk3 r c := by
  ext i j; simp [add_e' hr hc]

theorem blk3_sub {A B : Mat} (hr : A.rows = B.rows) (hc : A.cols = B.cols) (r c) :
    (A - B).blk3 r c = A.blk3 r c - B.blk3 r c := by
  ext i j; simp [sub_e' hr hc]

theorem blk3_one (n : ℕ) {r c : ℕ} (hr : r < n) (hc : c < n) :
    (one (3 * n)).blk3 (3 * r) (3 * c) = if r = c then 1 else 0 := by
  ext i j
  have hi := i.2; have hj := j.2
  simp only [blk3_apply, one_e]
  split_ifs with h1 h2 h2
  · subst h2; simp [Matrix.one_apply, Fin.ext_iff]; omega
  · exfalso; omega
  · subst h2; simp only [Matrix.one_apply, Fin.ext_iff]
    rw [if_neg (by omega)]
  · rfl

/-- Block-wise reading of an assigned 3x3 block. -/
theorem setBlockP_of3_e {A : Mat} {a b : ℕ} {M : M3} (hr : a + 3 ≤ A.rows)
    (hc : b + 3 ≤ A.cols) (i j) :
    (A.setBlockP a b (of3 M)).e i j =
      if h : (a ≤ i ∧ i < a + 3) ∧ (b ≤ j ∧ j < b + 3) then
        M ⟨i - a, by omega⟩ ⟨j - b, by omega⟩ else A.e i j := by
  rw [setBlockP_e_in (by simpa using hr) (by simpa using hc)]
  by_cases h : (a ≤ i ∧ i < a + 3) ∧ (b ≤ j ∧ j < b + 3)
  · rw [dif_pos h, if_pos (by simpa using h)]
    exact of3_e M _ _
  · rw [dif_neg h, if_neg (by simpa using h)]

theorem setBlockP_ofV_e {A : Mat} {a b : ℕ} {v : V3} (hr : a + 3 ≤ A.rows)
    (hc : b + 1 ≤ A.cols) (i j) :
    (A.setBlockP a b (ofV v)).e i j =
      if h : (a ≤ i ∧ i < a + 3) ∧ j = b then v ⟨i - a, by omega⟩ else A.e i j := by
  rw [setBlockP_e_in (by simpa using hr) (by simpa using hc)]
  by_cases h : (a ≤ i ∧ i < a + 3) ∧ j = b
  · rw [dif_pos h, if_pos (by simp only [ofV_rows, ofV_cols]; omega), show j - b = 0 by omega]
    exact ofV_e v _
  · rw [dif_neg h, if_neg (by simp only [ofV_rows, ofV_cols]; omega)]

theorem blk3_setBlockP_same {A : Mat} {a b : ℕ} {M : M3} (hr : a + 3 ≤ A.rows)
    (hc : b + 3 ≤ A.cols) : (A.setBlockP a b (of3 M)).blk3 a b = M := by
  ext i j
  rw [blk3_apply, setBlockP_of3_e hr hc, dif_pos (by omega)]
  congr <;> simp

theorem blk3_setBlockP_disj {A : Mat} {a b r c : ℕ} {M : M3} (hr : a + 3 ≤ A.rows)
    (hc : b + 3 ≤ A.cols) (h : r + 3 ≤ a ∨ a + 3 ≤ r ∨ c + 3 ≤ b ∨ b + 3 ≤ c) :
    (A.setBlockP a b (of3 M)).blk3 r c = A.blk3 r c := by
  ext i j
  rw [blk3_apply, setBlockP_of3_e hr hc, dif_neg (by omega)]; rfl

theorem setBlock?_eq {A B : Mat} {r c : ℕ} (h1 : r + B.rows ≤ A.rows) (h2 : c + B.cols ≤ A.cols) :
    A.setBlock? r c B = some (A.setBlockP r c B) := by
  unfold setBlock?; rw [if_pos ⟨h1, h2⟩]
theorem block?_eq {A : Mat} {r c nr nc : ℕ} (h1 : r + nr ≤ A.rows) (h2 : c + nc ≤ A.cols) :
    A.block? r c nr nc = some (A.blockP r c nr nc) := by
  unfold block?; rw [if_pos ⟨h1, h2⟩]
theorem blk3?_eq {A : Mat} {r c : ℕ} (h1 : r + 3 ≤ A.rows) (h2 : c + 3 ≤ A.cols) :
    A.blk3? r c = some (A.blk3 r c) := by
  unfold blk3?; rw [if_pos ⟨h1, h2⟩]
theorem blkV?_eq {A : Mat} {r c : ℕ} (h1 : r + 3 ≤ A.rows) (h2 : c + 1 ≤ A.cols) :
    A.blkV? r c = some (A.blkV r c) := by
  unfold blkV?; rw [if_pos ⟨h1, h2⟩]
theorem mul?_eq {A B : Mat} (h : A.cols = B.rows) : A.mul? B = some (A * B) := by
  unfold mul?; rw [if_pos h]
theorem add?_eq {A B : Mat} (h : A.rows = B.rows) (h' : A.cols = B.cols) :
    A.add? B = some (A + B) := by
  unfold add?; rw [if_pos ⟨h, h'⟩]
theorem sub?_eq {A B : Mat} (h : A.rows = B.rows) (h' : A.cols = B.cols) :
    A.sub? B = some (A - B) := by
  unfold sub?; rw [if_pos ⟨h, h'⟩]

end Mat
end Drift
