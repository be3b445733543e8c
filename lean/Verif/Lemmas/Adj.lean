import Verif.Lemmas.State
import Verif.Lemmas.PSD
import Verif.Spec.Filter

/-! Helper lemmas: block-diagonal embedding, adjoint of the state, masks. -/
set_option linter.unusedSimpArgs false
set_option linter.unnecessarySeqFocus false
namespace Drift
open Mat Matrix Finset

/-! ### block diagonal `A ⊕ I` -/

@[simp] theorem bd_rows (A n) : (bd A n).rows = n := rfl
@[simp] theorem bd_cols (A n) : (bd A n).cols = n := rfl

theorem bd_e {A : Mat} {m n : ℕ} (hr : A.rows = m) (hc : A.cols = m) (h : m ≤ n) (i j : ℕ) :
    (bd A n).e i j = if i < m ∧ j < m then A.e i j else if i < n ∧ i = j then 1 else 0 := by
  unfold bd
  rw [setBlockP_e_in (by simp; omega) (by simp; omega), one_e]
  by_cases h1 : i < m ∧ j < m
  · rw [if_pos (by omega), if_pos h1]; rfl
  · rw [if_neg (by omega), if_neg h1]

theorem bd_mul {A B : Mat} {m n : ℕ} (hr : A.rows = m) (hc : A.cols = m) (hr' : B.rows = m)
    (hc' : B.cols = m) (h : m ≤ n) : bd A n * bd B n = bd (A * B) n := by
  refine ext' rfl rfl fun i j hi hj => ?_
  simp only [mul_rows, mul_cols, bd_rows, bd_cols] at hi hj
  rw [mul_e, bd_cols, bd_e (m := m) (by simpa) (by simpa) h]
  by_cases him : i < m
  · rw [← sum_subset (s₁ := range m) (by intro x; simp; omega)]
    · by_cases hjm : j < m
      · rw [if_pos ⟨him, hjm⟩, mul_e, hc]
        refine sum_congr rfl fun k hk => ?_
        have hk' := mem_range.mp hk
        rw [bd_e hr hc h, bd_e hr' hc' h, if_pos ⟨him, hk'⟩, if_pos ⟨hk', hjm⟩]
      · rw [if_neg (by omega), if_neg (by omega)]
        refine sum_eq_zero fun k hk => ?_
        have hk' := mem_range.mp hk
        rw [bd_e hr' hc' h, if_neg (by omega), if_neg (by omega), mul_zero]
    · intro k hk hk'
      simp only [mem_range] at hk hk'
      rw [bd_e hr hc h, if_neg (by omega), if_neg (by omega), zero_mul]
  · rw [if_neg (by omega), sum_eq_single i]
    · rw [bd_e hr hc h, if_neg (by omega), if_pos ⟨hi, rfl⟩, one_mul, bd_e hr' hc' h, if_neg (by omega)]
    · intro k _ hk
      rw [bd_e hr hc h, if_neg (by omega), if_neg (by omega), zero_mul]
    · intro hh; simp at hh; omega

theorem bd_one {m n : ℕ} (h : m ≤ n) : bd (one m) n = one n := by
  refine ext' rfl rfl fun i j hi hj => ?_
  rw [bd_e (A := one m) (m := m) rfl rfl h, one_e, one_e]
  by_cases h1 : i < m ∧ j < m
  · rw [if_pos h1]
    by_cases hij : i = j
    · rw [if_pos ⟨h1.1, hij⟩, if_pos ⟨by omega, hij⟩]
    · rw [if_neg (fun h => hij h.2), if_neg (fun h => hij h.2)]
  · rw [if_neg h1]

theorem bd_T {A : Mat} {m n : ℕ} (hr : A.rows = m) (hc : A.cols = m) (h : m ≤ n) :
    (bd A n).T = bd A.T n := by
  refine ext' rfl rfl fun i j hi hj => ?_
  rw [T_e, bd_e hr hc h, bd_e (A := A.T) (m := m) (by simpa) (by simpa) h, T_e]
  by_cases h1 : i < m ∧ j < m
  · rw [if_pos ⟨h1.2, h1.1⟩, if_pos h1]
  · rw [if_neg (fun h => h1 ⟨h.2, h.1⟩), if_neg h1]
    simp only [T_rows, T_cols, bd_rows, bd_cols] at hi hj
    by_cases hij : i = j
    · rw [if_pos ⟨by omega, hij.symm⟩, if_pos ⟨hi, hij⟩]
    · rw [if_neg (fun h => hij h.2.symm), if_neg (fun h => hij h.2)]

/-! ### group inverse and adjoint -/

/-- the inverse of an SE_K(3)-shaped matrix -/
def invSE (K : ℕ) (X : Mat) : Mat :=
  mkSE K (X.blk3 0 0)ᵀ (fun k => (-(X.blk3 0 0)ᵀ).mulVec (X.blkV 0 (3 + k)))

@[simp] theorem invSE_rows (K X) : (invSE K X).rows = 3 + K := rfl
@[simp] theorem invSE_cols (K X) : (invSE K X).cols = 3 + K := rfl

theorem get_Xinv_invSE {s : RobotState} {K : ℕ} (h : IsSEK K s.X) :
    s.get_Xinv = some (invSE K s.X) := by
  have := h.rows
  exact RobotState.get_Xinv_eq (by omega) h.cols

theorem invSE_isSEK {K : ℕ} {X : Mat} (h : IsSEK K X) : IsSEK K (invSE K X) :=
  sek_isSEK h.rot.transpose

theorem mul_invSE {K : ℕ} {X : Mat} (h : IsSEK K X) : X * invSE K X = one (3 + K) := by
  conv_lhs => rw [h.eq_mk]
  rw [← mkSE_inv_right (K := K) (p := fun k => X.blkV 0 (3 + k)) h.rot]
  congr 1
  unfold invSE
  refine mkSE_congr (by rw [← h.eq_mk]) fun k hk => ?_
  rw [← h.eq_mk, neg_mulVec]

theorem invSE_mul {K : ℕ} {X : Mat} (h : IsSEK K X) : invSE K X * X = one (3 + K) := by
  conv_lhs => rw [h.eq_mk]
  rw [← mkSE_inv_left (K := K) (p := fun k => X.blkV 0 (3 + k)) h.rot]
  congr 1
  unfold invSE
  refine mkSE_congr (by rw [← h.eq_mk]) fun k hk => ?_
  rw [← h.eq_mk, neg_mulVec]

/-- value of `Adjoint_SEK3` on SE_K(3) -/
noncomputable def AdM (K : ℕ) (X : Mat) : Mat :=
  ofBlk (K + 1) (K + 1) (adjF (X.blk3 0 0) (fun k => X.blkV 0 (3 + k)))

@[simp] theorem AdM_rows (K X) : (AdM K X).rows = 3 * (K + 1) := rfl
@[simp] theorem AdM_cols (K X) : (AdM K X).cols = 3 * (K + 1) := rfl

theorem adjoint_AdM {K : ℕ} {X : Mat} (hr : X.rows = 3 + K) (hc : X.cols = 3 + K) :
    adjoint_SEK3 X = some (AdM K X) := adjoint_SEK3_eq (by omega) hc

theorem AdM_mkSE (K : ℕ) (R : M3) (p : ℕ → V3) :
    AdM K (mkSE K R p) = ofBlk (K + 1) (K + 1) (adjF R p) := by
  have h1 := adjoint_mkSE K R p
  rw [adjoint_AdM (K := K) rfl rfl] at h1
  exact Option.some.inj h1

theorem AdM_mul {K : ℕ} {X Y : Mat} (hX : IsSEK K X) (hY : IsSEK K Y) :
    AdM K (X * Y) = AdM K X * AdM K Y := by
  rw [hX.eq_mk, hY.eq_mk, mkSE_mul, AdM_mkSE, AdM_mkSE, AdM_mkSE]
  have hR : IsRot (X.blk3 0 0) := hX.rot
  rw [adjF_mul hR]

theorem AdM_one (K : ℕ) : AdM K (one (3 + K)) = one (3 * (K + 1)) := by
  rw [one_eq_mkSE, AdM_mkSE, adjF_one]

/-- adjoint of `X` extended by the identity on the six bias coordinates -/
noncomputable def EA (K : ℕ) (X : Mat) : Mat := bd (AdM K X) (3 * K + 9)

@[simp] theorem EA_rows (K X) : (EA K X).rows = 3 * K + 9 := rfl
@[simp] theorem EA_cols (K X) : (EA K X).cols = 3 * K + 9 := rfl

theorem EA_mul {K : ℕ} {X Y : Mat} (hX : IsSEK K X) (hY : IsSEK K Y) :
    EA K (X * Y) = EA K X * EA K Y := by
  unfold EA
  rw [bd_mul (m := 3 * (K + 1)) rfl rfl rfl rfl (by omega), AdM_mul hX hY]

theorem EA_one (K : ℕ) : EA K (one (3 + K)) = one (3 * K + 9) := by
  unfold EA; rw [AdM_one, bd_one (by omega)]

theorem EA_mul_inv {K : ℕ} {X : Mat} (h : IsSEK K X) :
    EA K X * EA K (invSE K X) = one (3 * K + 9) := by
  rw [← EA_mul h (invSE_isSEK h), mul_invSE h, EA_one]

theorem EA_inv_mul {K : ℕ} {X : Mat} (h : IsSEK K X) :
    EA K (invSE K X) * EA K X = one (3 * K + 9) := by
  rw [← EA_mul (invSE_isSEK h) h, invSE_mul h, EA_one]

/-- conjugation by two inverse matrices cancels -/
theorem conj_cancel {A B P : Mat} {n : ℕ} (hB : B.rows = n) (hA : A.cols = n)
    (hPr : P.rows = n) (hPc : P.cols = n) (hBc : B.cols = n) (h : A * B = one n) :
    A * (B * P * B.T) * A.T = P := by
  have e1 : A * (B * P * B.T) * A.T = (A * B) * P * ((A * B).T) := by
    rw [T_mul (by omega)]
    simp only [mul_assoc']
  rw [e1, h, T_one, one_mul_of hPr, mul_one_of hPc]

/-! ### masks -/

/-- keep the coordinates satisfying `p`, replace the others by `c` times the identity -/
def mask (p : ℕ → Prop) [DecidablePred p] (c : ℝ) (P : Mat) : Mat :=
  ofFn P.rows P.cols fun i j => if p i ∧ p j then P.e i j else if i = j then c else 0

section
variable {p : ℕ → Prop} [DecidablePred p] {c : ℝ}

@[simp] theorem mask_rows (P) : (mask p c P).rows = P.rows := rfl
@[simp] theorem mask_cols (P) : (mask p c P).cols = P.cols := rfl
theorem mask_e {P : Mat} {i j : ℕ} (hi : i < P.rows) (hj : j < P.cols) :
    (mask p c P).e i j = if p i ∧ p j then P.e i j else if i = j then c else 0 :=
  ofFn_e_of_lt hi hj

theorem mask_eq {P : Mat} {n : ℕ} (hr : P.rows = n) (hc : P.cols = n) :
    mask p c P = diagM n (fun i => if p i then 1 else 0) * P * diagM n (fun i => if p i then 1 else 0)
      + diagM n (fun i => if p i then 0 else c) := by
  refine ext' (by simp [hr]) (by simp [hc]) fun i j hi hj => ?_
  have hi' : i < n := by simpa [hr] using hi
  have hj' : j < n := by simpa [hc] using hj
  rw [mask_e (P := P) (by omega) (by omega), add_e' (by simp) (by simp), mul_diagM_e (by simp [hc]), diagM_mul_e hr, diagM_e]
  by_cases h1 : p i <;> by_cases h2 : p j <;> by_cases h3 : i = j <;> simp_all

theorem mask_psd {P : Mat} (h : PSD P) (hc : 0 ≤ c) : PSD (mask p c P) :=
  h.mask p hc rfl rfl fun _ _ hi hj => mask_e hi (h.sq ▸ hj)

end

/-- masking the coordinates `≥ m` commutes with congruence by `A ⊕ I` -/
theorem mask_bd {A P : Mat} {m n : ℕ} {c : ℝ} (hr : A.rows = m) (hc : A.cols = m) (h : m ≤ n)
    (hPr : P.rows = n) (hPc : P.cols = n) :
    mask (· < m) c (bd A n * P * (bd A n).T) = bd A n * mask (· < m) c P * (bd A n).T := by
  set B := bd A n with hB
  set D := diagM n (fun i => if i < m then (1 : ℝ) else 0) with hD
  set E := diagM n (fun i => if i < m then (0 : ℝ) else c) with hE
  have hcomm : ∀ (A' : Mat), A'.rows = m → A'.cols = m → D * bd A' n = bd A' n * D := by
    intro A' hr' hc'
    refine ext' rfl rfl fun i j hi hj => ?_
    simp only [mul_rows, mul_cols, bd_rows, bd_cols, hD, diagM_rows] at hi hj
    rw [hD, diagM_mul_e (P := bd A' n) (n := n) rfl, mul_diagM_e (P := bd A' n) (n := n) rfl, bd_e hr' hc' h]
    by_cases h1 : i < m <;> by_cases h2 : j < m
    · simp [h1, h2, hi, hj]
    · have : i ≠ j := by omega
      simp [h1, h2, this]
    · have : i ≠ j := by omega
      simp [h1, h2, this]
    · simp [h1, h2]
  have hBE : B * E = E := by
    refine ext' rfl rfl fun i j hi hj => ?_
    simp only [mul_rows, mul_cols, hB, bd_rows, hE, diagM_cols] at hi hj
    rw [hE, mul_diagM_e (P := B) (n := n) rfl, hB, bd_e hr hc h, diagM_e]
    by_cases h2 : j < m
    · have : i < m ∨ i ≠ j := by omega
      by_cases hij : i = j
      · subst hij; simp [h2]
      · simp [h2, hij]
    · by_cases hij : i = j
      · subst hij; simp [h2, hi]
      · simp [h2, hij]
  have hEB : E * B.T = E := by
    have := congrArg T hBE
    rw [T_mul (by simp [hB, hE]), show E.T = E from diagM_sym _ _] at this
    exact this
  have hc1 : D * B = B * D := hcomm A hr hc
  have hc2 : D * B.T = B.T * D := by
    rw [hB, bd_T hr hc h]; exact hcomm A.T (by simpa) (by simpa)
  have hsz : (D * P * D).rows = E.rows ∧ (D * P * D).cols = E.cols := ⟨rfl, rfl⟩
  rw [mask_eq (n := n) (by simp [hB]) (by simp [hB]), mask_eq hPr hPc, ← hD, ← hE,
    mul_add' _ hsz.1 hsz.2, add_mul' (A := B * (D * P * D)) (B := B * E) _ rfl rfl, hBE, hEB]
  congr 1
  calc D * (B * P * B.T) * D = (D * B) * P * (B.T * D) := by simp only [mul_assoc']
    _ = (B * D) * P * (D * B.T) := by rw [hc1, hc2]
    _ = _ := by simp only [mul_assoc']

end Drift
