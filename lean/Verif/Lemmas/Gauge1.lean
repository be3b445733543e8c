import Verif.Spec.Gauge
import Verif.Props.ErrorFlow
import Verif.Lemmas.Est4

/-! # Lemmas: the unobserved directions -/
set_option linter.unusedSimpArgs false
namespace Drift
open Mat Matrix Finset RobotState

/-- the quadratic form of `P` dominates the weighted squares of the functionals given by the columns `n q` -/
def Low (n : Fin 4 → Mat) (d : Fin 4 → ℝ) (P : Mat) : Prop :=
  ∀ x : ℕ → ℝ, ∑ q, d q * (∑ i ∈ range P.rows, x i * (n q).e i 0) ^ 2 ≤ quad P x

theorem Low.congr {n n' : Fin 4 → Mat} {d : Fin 4 → ℝ} {P A : Mat} (h : Low n d P) (hA : A.cols = P.rows)
    (hP : P.rows = P.cols) (hn : ∀ q, A * n q = n' q) : Low n' d (A * P * A.T) := by
  intro x
  rw [quad_congr_mul hA hP]
  refine le_trans (le_of_eq ?_) (h _)
  refine sum_congr rfl fun q _ => ?_
  congr 2
  rw [← hn q]
  simp only [mul_rows, mul_e, mul_sum, sum_mul, hA]
  rw [sum_comm]
  exact sum_congr rfl fun i _ => sum_congr rfl fun j _ => by ring

theorem Low.add {n : Fin 4 → Mat} {d : Fin 4 → ℝ} {P B : Mat} (h : Low n d P) (hB : PSD B) (hr : P.rows = B.rows)
    (hc : P.cols = B.cols) : Low n d (P + B) := by
  intro x
  rw [quad_add hr hc]
  have := hB.2 x
  have := h x
  simp only [add_rows] at this ⊢
  linarith

theorem mask_decomp {P : Mat} {m : ℕ} (p : ℕ → Prop) [DecidablePred p] (c : ℝ) (hr : P.rows = m) (hc : P.cols = m) :
    mask p c P = diagM m (fun i => if p i then 1 else 0) * P * (diagM m (fun i => if p i then 1 else 0)).T
      + diagM m (fun i => if p i then 0 else c) := by
  refine ext' (by simp [hr]) (by simp [hc]) fun i j hi hj => ?_
  simp only [mask_rows, mask_cols] at hi hj
  rw [show (diagM m (fun i => if p i then (1 : ℝ) else 0)).T = diagM m (fun i => if p i then 1 else 0) from diagM_sym _ _,
    add_e' (by simp) (by simp), mul_diagM_e (by simp [hc]), diagM_mul_e hr, diagM_e, mask_e hi hj]
  by_cases h1 : p i <;> by_cases h2 : p j <;> by_cases h3 : i = j <;> simp [h1, h2, h3, hr ▸ hi, hc ▸ hj] <;>
    simp_all

theorem Low.mask {n : Fin 4 → Mat} {d : Fin 4 → ℝ} {P : Mat} (h : Low n d P) (p : ℕ → Prop) [DecidablePred p] {c : ℝ}
    (hc : 0 ≤ c) (hP : P.rows = P.cols) (hr : ∀ q, (n q).rows = P.rows) (hn : ∀ q i j, ¬ p i → (n q).e i j = 0) :
    Low n d (mask p c P) := by
  rw [mask_decomp p c rfl hP.symm]
  refine Low.add (h.congr (by simp) hP fun q => ?_) (diagM_psd fun i _ => by split_ifs <;> simp [hc]) (by simp) (by simp)
  refine ext' (by simp [hr]) (by simp) fun i j hi hj => ?_
  rw [diagM_mul_e (hr q)]
  by_cases h1 : p i
  · simp at hi; simp [h1, hi]
  · rw [hn q i j h1]; simp

/-- the unobserved directions: a turn `α` about the vertical, a shift `u` of position and contacts -/
def gcol (K : ℕ) (α : ℝ) (u : V3) : Mat := errVec K ![0, 0, α] 0 u (fun _ => u) 0 0

@[simp] theorem gcol_rows (K α u) : (gcol K α u).rows = 3 * (K + 3) := rfl
@[simp] theorem gcol_cols (K α u) : (gcol K α u).cols = 1 := rfl

/-- blocks -/
def gB (K : ℕ) (α : ℝ) (u : V3) (i : ℕ) : V3 := if i = 0 then ![0, 0, α] else if i = 1 then 0 else if i ≤ K then u else 0

theorem gcol_blkV {K : ℕ} (hK : 2 ≤ K) (α : ℝ) (u : V3) {i : ℕ} (hi : i < K + 3) :
    (gcol K α u).blkV (3 * i) 0 = gB K α u i := by
  unfold gcol
  rw [errVec_blkV _ _ _ _ _ _ hi]
  unfold errB gB
  by_cases h0 : i = 0
  · ifs
  by_cases h1 : i = 1
  · ifs
  by_cases h2 : i = 2
  · subst h2
    rw [if_neg (by omega), if_neg (by omega), if_pos rfl, if_neg (by omega), if_neg (by omega), if_pos hK]
  rw [if_neg h0, if_neg h1, if_neg h2, if_neg h0, if_neg h1]
  by_cases h3 : i ≤ K
  · rw [if_pos h3, if_pos h3]
  · rw [if_neg h3, if_neg h3]; split_ifs <;> rfl

theorem gcol_e {K : ℕ} (hK : 2 ≤ K) (α : ℝ) (u : V3) {i : ℕ} (hi : i < 3 * (K + 3)) :
    (gcol K α u).e i 0 = gB K α u (i / 3) ⟨i % 3, Nat.mod_lt _ (by norm_num)⟩ := by
  rw [← gcol_blkV hK α u (by omega), blkV_apply]
  congr 1; simp only; omega

/-- the four directions -/
def gN (K : ℕ) : Fin 4 → Mat := ![gcol K 1 0, gcol K 0 ![1, 0, 0], gcol K 0 ![0, 1, 0], gcol K 0 ![0, 0, 1]]
/-- their weights -/
def gD (rc pc : ℝ) : Fin 4 → ℝ := ![rc, pc, pc, pc]

theorem gN_cases {K : ℕ} {p : Mat → Prop} (h : ∀ α u, p (gcol K α u)) (q : Fin 4) : p (gN K q) := by
  fin_cases q <;> exact h _ _

theorem sum_ite_Icc {K : ℕ} (hK : 2 ≤ K) (f : ℕ → ℝ) :
    ∑ i ∈ range (K + 3), (if 2 ≤ i ∧ i ≤ K then f i else 0) = ∑ b ∈ Icc 2 K, f b := by
  rw [← sum_filter]
  refine sum_congr ?_ fun _ _ => rfl
  ext i; simp; omega

theorem gcol_dot {K : ℕ} (hK : 2 ≤ K) (α : ℝ) (u : V3) (x : ℕ → ℝ) :
    ∑ i ∈ range (3 * (K + 3)), x i * (gcol K α u).e i 0 =
      α * x 2 + ∑ k : Fin 3, u k * ∑ b ∈ Icc 2 K, x (3 * b + k) := by
  rw [sum_range_three_mul]
  have h1 : ∀ i ∈ range (K + 3), ∑ k : Fin 3, x (3 * i + k) * (gcol K α u).e (3 * i + k) 0 =
      (if i = 0 then α * x 2 else 0) + ∑ k : Fin 3, if 2 ≤ i ∧ i ≤ K then u k * x (3 * i + k) else 0 := by
    intro i hi
    have hi := mem_range.mp hi
    have h2 : ∀ k : Fin 3, (gcol K α u).e (3 * i + k) 0 = gB K α u i k := by
      intro k
      rw [← gcol_blkV hK α u hi, blkV_apply]
    simp only [h2]
    unfold gB
    by_cases h0 : i = 0
    · subst h0; simp [Fin.sum_univ_three]; ring
    by_cases h1 : i = 1
    · subst h1; simp
    by_cases h3 : i ≤ K
    · rw [if_neg h0, if_neg h1, if_pos h3, if_neg h0, zero_add]
      refine sum_congr rfl fun k _ => ?_
      rw [if_pos ⟨by omega, h3⟩]; ring
    · rw [if_neg h0, if_neg h1, if_neg h3, if_neg h0, zero_add]
      refine sum_congr rfl fun k _ => ?_
      rw [if_neg (by omega)]; simp
  rw [sum_congr rfl h1, sum_add_distrib, sum_comm, sum_ite_eq' (range (K + 3)) 0 (fun _ => α * x 2), if_pos (by simp)]
  congr 1
  refine sum_congr rfl fun k _ => ?_
  rw [sum_ite_Icc hK (fun i => u k * x (3 * i + k)), mul_sum]

theorem low_iff {K : ℕ} (hK : 2 ≤ K) {rc pc : ℝ} {P : Mat} (hr : P.rows = 3 * K + 9) :
    Low (gN K) (gD rc pc) P ↔ UnknownFrame K rc pc P := by
  unfold Low UnknownFrame
  refine forall_congr' fun x => ?_
  rw [hr, show 3 * K + 9 = 3 * (K + 3) by ring]
  rw [Fin.sum_univ_four]
  have e : ∀ k : ℕ, k < 3 → True := fun _ _ => trivial
  simp only [gN, gD, Matrix.cons_val_zero, Matrix.cons_val_one, Matrix.cons_val]
  rw [gcol_dot hK, gcol_dot hK, gcol_dot hK, gcol_dot hK]
  simp [Fin.sum_univ_three, Finset.sum_range_succ]
  constructor <;> intro h <;> linarith

theorem low_rows {K : ℕ} (q : Fin 4) : (gN K q).rows = 3 * K + 9 := gN_cases (p := fun M => M.rows = 3 * K + 9) (fun _ _ => by simp; ring) q

/-- the directions have no bias component -/
theorem gN_bias {K : ℕ} (hK : 2 ≤ K) (q : Fin 4) (i j : ℕ) (hi : 3 * K + 3 ≤ i) : (gN K q).e i j = 0 := by
  refine gN_cases (p := fun M => M.e i j = 0) (fun α u => ?_) q
  by_cases h : i < 3 * (K + 3)
  · by_cases hj : j = 0
    · subst hj
      rw [gcol_e hK α u h]; unfold gB
      rw [if_neg (by omega), if_neg (by omega), if_neg (by omega)]; rfl
    · exact e_of_ge_cols _ (by simp; omega)
  · exact e_of_ge_rows _ (by simp; omega)

end Drift
