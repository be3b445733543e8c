import Verif.Spec.PSD

/-! Helper lemmas on symmetric and positive semidefinite run-time sized matrices. -/
namespace Drift
open Finset Mat

theorem Sym.sq {A : Mat} (h : Sym A) : A.rows = A.cols := by
  have := congrArg Mat.cols h; simpa using this
theorem Sym.e {A : Mat} (h : Sym A) (i j) : A.e i j = A.e j i := by
  have := congrArg (fun M => Mat.e M i j) h; simpa using this.symm
theorem sym_of {A : Mat} (hs : A.rows = A.cols)
    (h : ∀ i j, i < A.rows → j < A.rows → A.e i j = A.e j i) : Sym A :=
  ext' (by simpa using hs.symm) (by simpa using hs) fun i j hi hj => by
    simp only [T_rows, T_cols, T_e] at *
    exact h j i hj (by omega)
theorem PSD.sym {A : Mat} (h : PSD A) : Sym A := h.1
theorem PSD.sq {A : Mat} (h : PSD A) : A.rows = A.cols := h.1.sq
theorem PD.sq {A : Mat} (h : PD A) : A.rows = A.cols := h.1.sq

theorem PD.psd {A : Mat} (h : PD A) : PSD A := by
  refine ⟨h.1, fun x => ?_⟩
  by_cases hx : ∃ i < A.rows, x i ≠ 0
  · exact (h.2 x hx).le
  · push Not at hx
    have : quad A x = 0 := by
      unfold quad
      refine sum_eq_zero fun i hi => sum_eq_zero fun j _ => ?_
      rw [hx i (mem_range.mp hi)]; ring
    exact this.ge

/-- `PSD` is Mathlib's `PosSemidef` of the entries. -/
theorem psd_iff_posSemidef (A : Mat) :
    PSD A ↔ A.rows = A.cols ∧ (A.toMn A.rows A.rows).PosSemidef := by
  have key : ∀ (x : ℕ → ℝ), A.rows = A.cols → quad A x =
      (star fun i : Fin A.rows => x i) ⬝ᵥ ((A.toMn A.rows A.rows).mulVec fun i => x i) := by
    intro x hs
    unfold quad
    rw [← hs, sum_range]
    simp only [dotProduct, Matrix.mulVec, toMn, mul_sum, sum_range]
    refine sum_congr rfl fun i _ => sum_congr rfl fun j _ => ?_
    simp; ring
  constructor
  · intro h
    refine ⟨h.sq, ?_⟩
    rw [Matrix.posSemidef_iff_dotProduct_mulVec]
    refine ⟨?_, fun x => ?_⟩
    · ext i j
      simp [toMn, Matrix.conjTranspose_apply, h.1.e j i]
    · have := h.2 (fun i => if hi : i < A.rows then x ⟨i, hi⟩ else 0)
      rw [key _ h.sq] at this
      simpa using this
  · rintro ⟨hs, h⟩
    rw [Matrix.posSemidef_iff_dotProduct_mulVec] at h
    refine ⟨sym_of hs fun i j hi hj => ?_, fun x => ?_⟩
    · have := congrFun (congrFun h.1 ⟨j, hj⟩) ⟨i, hi⟩
      simpa [toMn, Matrix.conjTranspose_apply] using this
    · rw [key x hs]; exact h.2 _

theorem quad_add {A B : Mat} (hr : A.rows = B.rows) (hc : A.cols = B.cols) (x) :
    quad (A + B) x = quad A x + quad B x := by
  simp only [quad, add_rows, add_cols, ← hr, ← hc, ← sum_add_distrib]
  refine sum_congr rfl fun i _ => sum_congr rfl fun j _ => ?_
  rw [add_e' hr hc]; ring

theorem quad_smul (c : ℝ) (A : Mat) (x) : quad (c • A) x = c * quad A x := by
  simp only [quad, smul_rows, smul_cols, smul_e, mul_sum]
  refine sum_congr rfl fun i _ => sum_congr rfl fun j _ => by ring

/-- `xᵀ (A P Aᵀ) x = (Aᵀx)ᵀ P (Aᵀx)` -/
theorem quad_congr_mul {A P : Mat} (h : A.cols = P.rows) (h' : P.rows = P.cols) (x) :
    quad (A * P * A.T) x = quad P (fun k => ∑ i ∈ range A.rows, x i * A.e i k) := by
  simp only [quad, mul_rows, mul_cols, T_cols, mul_e, T_e, ← h', ← h, sum_mul, mul_sum]
  -- LHS: Σi Σj Σl Σk ; RHS: Σk Σl Σj Σi
  calc _ = ∑ i ∈ range A.rows, ∑ j ∈ range A.rows, ∑ l ∈ range A.cols, ∑ k ∈ range A.cols,
        x i * A.e i k * P.e k l * (x j * A.e j l) := by
        refine sum_congr rfl fun i _ => sum_congr rfl fun j _ => sum_congr rfl fun l _ =>
          sum_congr rfl fun k _ => by ring
    _ = ∑ i ∈ range A.rows, ∑ l ∈ range A.cols, ∑ k ∈ range A.cols, ∑ j ∈ range A.rows,
        x i * A.e i k * P.e k l * (x j * A.e j l) := by
        refine sum_congr rfl fun i _ => ?_
        rw [sum_comm]
        exact sum_congr rfl fun l _ => sum_comm
    _ = ∑ k ∈ range A.cols, ∑ l ∈ range A.cols, ∑ i ∈ range A.rows, ∑ j ∈ range A.rows,
        x i * A.e i k * P.e k l * (x j * A.e j l) := by
        rw [sum_comm]
        rw [sum_congr rfl fun l _ => sum_comm]
        exact sum_comm
    _ = _ := by
        refine sum_congr rfl fun k _ => sum_congr rfl fun l _ => ?_
        rw [sum_comm]

theorem Sym.congr {A P : Mat} (h : A.cols = P.rows) (hP : Sym P) : Sym (A * P * A.T) := by
  unfold Sym
  rw [T_mul (by simpa using hP.sq ▸ h.symm), T_T, T_mul h, show P.T = P from hP, mul_assoc']

theorem PSD.congr {A P : Mat} (h : A.cols = P.rows) (hP : PSD P) : PSD (A * P * A.T) :=
  ⟨Sym.congr h hP.1, fun x => by rw [quad_congr_mul h hP.sq]; exact hP.2 _⟩

theorem Sym.add {A B : Mat} (hr : A.rows = B.rows) (hA : Sym A) (hB : Sym B) : Sym (A + B) := by
  have hc : A.cols = B.cols := by rw [← hA.sq, ← hB.sq, hr]
  unfold Sym
  rw [T_add hr hc]; rw [show A.T = A from hA, show B.T = B from hB]

theorem PSD.add {A B : Mat} (hr : A.rows = B.rows) (hA : PSD A) (hB : PSD B) : PSD (A + B) := by
  have hc : A.cols = B.cols := by rw [← hA.sq, ← hB.sq, hr]
  refine ⟨Sym.add hr hA.1 hB.1, fun x => ?_⟩
  rw [quad_add hr hc]; exact add_nonneg (hA.2 x) (hB.2 x)

theorem PSD.add_pd {A B : Mat} (hr : A.rows = B.rows) (hA : PSD A) (hB : PD B) : PD (A + B) := by
  have hc : A.cols = B.cols := by rw [← hA.sq, ← hB.sq, hr]
  refine ⟨Sym.add hr hA.1 hB.1, fun x hx => ?_⟩
  rw [quad_add hr hc]
  exact add_pos_of_nonneg_of_pos (hA.2 x) (hB.2 x (by simpa [hr] using hx))

theorem PSD.smul {A : Mat} {c : ℝ} (hc : 0 ≤ c) (hA : PSD A) : PSD (c • A) :=
  ⟨by unfold Sym; rw [T_smul, show A.T = A from hA.1],
   fun x => by rw [quad_smul]; exact mul_nonneg hc (hA.2 x)⟩

/-- A diagonal matrix. -/
def diagM (n : ℕ) (d : ℕ → ℝ) : Mat := ofFn n n fun i j => if i = j then d i else 0

@[simp] theorem diagM_rows (n d) : (diagM n d).rows = n := rfl
@[simp] theorem diagM_cols (n d) : (diagM n d).cols = n := rfl
theorem diagM_e (n d i j) : (diagM n d).e i j = if i < n ∧ i = j then d i else 0 := by
  simp only [diagM, ofFn_e]
  by_cases h : i = j
  · subst h; simp
  · simp [h]

theorem quad_diagM (n d x) : quad (diagM n d) x = ∑ i ∈ range n, d i * x i ^ 2 := by
  unfold quad
  simp only [diagM_rows, diagM_cols]
  refine sum_congr rfl fun i hi => ?_
  rw [sum_eq_single i]
  · rw [diagM_e, if_pos ⟨mem_range.mp hi, rfl⟩]; ring
  · intro j _ hj; rw [diagM_e, if_neg (by tauto)]; ring
  · intro h; exact absurd hi h

theorem diagM_sym (n d) : Sym (diagM n d) := by
  refine sym_of rfl fun i j _ _ => ?_
  simp only [diagM_e]
  by_cases h : i = j
  · subst h; rfl
  · rw [if_neg (by tauto), if_neg (by tauto)]

theorem diagM_psd {n : ℕ} {d : ℕ → ℝ} (h : ∀ i < n, 0 ≤ d i) : PSD (diagM n d) :=
  ⟨diagM_sym n d, fun x => by
    rw [quad_diagM]
    exact sum_nonneg fun i hi => mul_nonneg (h i (mem_range.mp hi)) (sq_nonneg _)⟩

theorem diagM_pd {n : ℕ} {d : ℕ → ℝ} (h : ∀ i < n, 0 < d i) : PD (diagM n d) :=
  ⟨diagM_sym n d, fun x ⟨k, hk, hx⟩ => by
    rw [quad_diagM]
    refine sum_pos' (fun i hi => mul_nonneg (h i (mem_range.mp hi)).le (sq_nonneg _))
      ⟨k, mem_range.mpr hk, mul_pos (h k hk) (by positivity)⟩⟩

theorem one_eq_diagM (n : ℕ) : one n = diagM n fun _ => 1 := by
  refine ext' rfl rfl fun i j _ _ => by rw [one_e, diagM_e]

theorem one_pd (n : ℕ) : PD (one n) := by
  rw [one_eq_diagM]; exact diagM_pd fun _ _ => one_pos

theorem zero_psd (n : ℕ) : PSD (zero n n) :=
  ⟨sym_of rfl fun _ _ _ _ => by simp, fun x => by simp [quad]⟩

/-- `D P D` for diagonal `D` -/
theorem diagM_mul_e {n : ℕ} {d : ℕ → ℝ} {P : Mat} (h : P.rows = n) (i j) :
    (diagM n d * P).e i j = (if i < n then d i else 0) * P.e i j := by
  rw [mul_e, diagM_cols]
  by_cases hi : i < n
  · rw [sum_eq_single i]
    · rw [diagM_e]; simp [hi]
    · intro k _ hk; rw [diagM_e, if_neg (by tauto)]; ring
    · intro h; simp at h; omega
  · rw [P.e_of_ge_rows (by omega)]
    refine (sum_eq_zero fun k _ => ?_).trans (by simp)
    rw [diagM_e, if_neg (by tauto)]; ring

theorem mul_diagM_e {n : ℕ} {d : ℕ → ℝ} {P : Mat} (h : P.cols = n) (i j) :
    (P * diagM n d).e i j = P.e i j * (if j < n then d j else 0) := by
  rw [mul_e, h]
  by_cases hj : j < n
  · rw [sum_eq_single j]
    · rw [diagM_e]; simp [hj]
    · intro k _ hk; rw [diagM_e, if_neg (by tauto)]; ring
    · intro h; simp at h; omega
  · rw [P.e_of_ge_cols (by omega)]
    refine (sum_eq_zero fun k _ => ?_).trans (by simp)
    rw [diagM_e, if_neg (by omega)]; ring

/-- Keep the coordinates satisfying `p`; replace rows and columns of the others by `c` times the
identity.  Every "decouple and reset" assignment in the filter has this form. -/
theorem PSD.mask {P Q : Mat} (hP : PSD P) (p : ℕ → Prop) [DecidablePred p] {c : ℝ} (hc : 0 ≤ c)
    (hr : Q.rows = P.rows) (hcl : Q.cols = P.cols)
    (h : ∀ i j, i < P.rows → j < P.rows →
      Q.e i j = if p i ∧ p j then P.e i j else if i = j then c else 0) : PSD Q := by
  set n := P.rows with hn
  have hs : P.cols = n := hP.sq.symm
  set D := diagM n fun i => if p i then 1 else 0 with hD
  set E := diagM n fun i => if p i then 0 else c with hE
  have hQ : Q = D * P * D.T + E := by
    refine ext' (by simp [hr, D]) (by simp [hcl, hs, D]) fun i j hi hj => ?_
    have hi' : i < n := by omega
    have hj' : j < n := by omega
    rw [h i j hi' hj', add_e' (by simp [D, E]) (by simp [D, E]), show D.T = D from diagM_sym _ _]
    rw [hD, mul_diagM_e (by simp [hs]), diagM_mul_e hn.symm, hE, diagM_e]
    by_cases h1 : p i <;> by_cases h2 : p j <;> by_cases h3 : i = j <;>
      simp_all
  rw [hQ]
  refine PSD.add (by simp [D, E]) (PSD.congr (by simp [D, hn]) hP) (diagM_psd fun i _ => ?_)
  show 0 ≤ if p i then 0 else c
  split_ifs <;> simp [hc]

/-- A positive definite matrix is invertible. -/
theorem PD.inv {A : Mat} (h : PD A) : ∃ W, A.inv? = some W := by
  unfold inv?
  rw [if_pos]
  · exact ⟨_, rfl⟩
  refine ⟨h.sq, fun h0 => ?_⟩
  obtain ⟨v, hv, hv0⟩ := Matrix.exists_mulVec_eq_zero_iff.mpr h0
  have hne : ∃ i, v i ≠ 0 := by
    by_contra hh; push Not at hh; exact hv (funext hh)
  obtain ⟨i0, hi0⟩ := hne
  set x : ℕ → ℝ := fun i => if hi : i < A.rows then v ⟨i, hi⟩ else 0 with hx
  have hpos := h.2 x ⟨i0, i0.2, by simpa [hx] using hi0⟩
  have : quad A x = 0 := by
    unfold quad
    refine sum_eq_zero fun i hi => ?_
    have hi' := mem_range.mp hi
    have hrow := congrFun hv0 ⟨i, hi'⟩
    simp only [Matrix.mulVec, dotProduct, Pi.zero_apply] at hrow
    rw [← h.sq, sum_range]
    have : ∀ j : Fin A.rows, x i * A.e i j * x j = x i * (A.toMn A.rows A.rows ⟨i, hi'⟩ j * v j) := by
      intro j
      have hj : x j = v j := by simp [hx]
      rw [hj]; simp only [toMn]; ring
    rw [sum_congr rfl fun j _ => this j, ← mul_sum, hrow, mul_zero]
  linarith

/-- The inverse of a symmetric matrix is symmetric. -/
theorem Sym.inv {A W : Mat} (h : Sym A) (hW : A.inv? = some W) : Sym W := by
  obtain ⟨h1, h2, h3, h4, h5⟩ := inv?_spec hW
  have hT : A * W.T = one A.rows := by
    have := congrArg T h5
    rw [T_mul (by omega), T_one, show A.T = A from h] at this
    exact this
  exact (inv_unique (n := A.rows) (by simp [h3]) h3 h5 hT).symm

end Drift
