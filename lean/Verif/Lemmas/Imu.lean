import Verif.Model.ImuPropagation
import Verif.Lemmas.Joseph
import Verif.Lemmas.GammaMore

/-! Helper lemmas: closed forms of the IMU propagation. -/
set_option linter.unusedSimpArgs false
set_option linter.unnecessarySeqFocus false
namespace Drift
open Mat Matrix Finset RobotState ImuProp

/-! ### block updates -/

/-- function update at a pair -/
def upd (f : ℕ → ℕ → M3) (i j : ℕ) (M : M3) : ℕ → ℕ → M3 := fun a b =>
  if a = i ∧ b = j then M else f a b

theorem put_ofBlk {n : ℕ} {f : ℕ → ℕ → M3} {r c : ℕ} (i j : ℕ) {M : M3} (hr : r = 3 * i)
    (hc : c = 3 * j) (hi : i < n) (hj : j < n) :
    put (ofBlk n n f) r c M = some (ofBlk n n (upd f i j M)) := by
  unfold put
  subst hr hc
  rw [setBlock?_eq (by simp; omega) (by simp; omega)]
  congr 1
  refine ext_blk3 (a := n) (b := n) rfl rfl rfl rfl fun a b ha hb => ?_
  rw [ofBlk_blk3 _ ha hb]
  unfold upd
  by_cases h : a = i ∧ b = j
  · rw [if_pos h, h.1, h.2, blk3_setBlockP_same (by simp; omega) (by simp; omega)]
  · rw [if_neg h, blk3_setBlockP_disj (by simp; omega) (by simp; omega) (by omega), ofBlk_blk3 _ ha hb]

/-- zeroing all columns from `c` on -/
theorem setBlock_zero_cols {n m : ℕ} {f : ℕ → ℕ → M3} (h : m ≤ n) :
    (ofBlk n n f).setBlock? 0 (3 * m) (zero (3 * n) (3 * (n - m))) =
      some (ofBlk n n fun i j => if m ≤ j then 0 else f i j) := by
  rw [setBlock?_eq (by simp) (by simp; omega)]
  congr 1
  refine ext_blk3 (a := n) (b := n) rfl rfl rfl rfl fun a b ha hb => ?_
  rw [ofBlk_blk3 _ ha hb]
  ext i j
  have hi := i.2
  have hj := j.2
  rw [blk3_apply, setBlockP_e_in (by simp) (by simp; omega)]
  by_cases h' : m ≤ b
  · rw [if_pos h', if_pos (by simp; omega)]; simp
  · rw [if_neg h', if_neg (by simp; omega)]
    have := congrFun (congrFun (ofBlk_blk3 f ha hb) i) j
    simpa using this

theorem forRange_put_diag {n m : ℕ} {f : ℕ → ℕ → M3} {M : M3} (h : m + 3 ≤ n) :
    (forRange m (ofBlk n n f) fun k Phi => put Phi ((5 + k - 2) * 3) ((5 + k - 2) * 3) M) =
      some (ofBlk n n fun a b => if a = b ∧ 3 ≤ a ∧ a < 3 + m then M else f a b) := by
  induction m with
  | zero =>
    simp only [forRange]
    congr 1
    refine ofBlk_congr fun a b _ _ => ?_
    rw [if_neg (by omega)]
  | succ m ih =>
    rw [forRange, ih (by omega), Option.bind_some, put_ofBlk (3 + m) (3 + m) (by omega) (by omega)
      (by omega) (by omega)]
    congr 1
    refine ofBlk_congr fun a b _ _ => ?_
    unfold upd
    by_cases h1 : a = 3 + m ∧ b = 3 + m
    · rw [if_pos h1, if_pos (by omega)]
    · rw [if_neg h1]
      beta_reduce
      by_cases h2 : a = b ∧ 3 ≤ a ∧ a < 3 + m
      · rw [if_pos h2, if_pos (by omega)]
      · rw [if_neg h2, if_neg (by omega)]

theorem forRange_put_col {n m c : ℕ} {f : ℕ → ℕ → M3} {s : RobotState} {RG : M3} (h : m + 3 ≤ n) (hc : c < n)
    (hr : 3 ≤ s.X.rows) (hX : 5 + m ≤ s.X.cols) :
    (forRange m (ofBlk n n f) fun k Phi =>
        (s.get_vector ((5 + k : ℕ) : ℤ)).bind fun d => put Phi ((5 + k - 2) * 3) (3 * c) (-skew d * RG)) =
      some (ofBlk n n fun a b => if b = c ∧ 3 ≤ a ∧ a < 3 + m then -skew (s.X.blkV 0 (a + 2)) * RG
        else f a b) := by
  induction m with
  | zero =>
    simp only [forRange]
    congr 1
    refine ofBlk_congr fun a b _ _ => ?_
    rw [if_neg (by omega)]
  | succ m ih =>
    have hv : s.get_vector ((5 + m : ℕ) : ℤ) = some (s.X.blkV 0 (5 + m)) := by
      unfold get_vector
      rw [if_neg (by omega)]
      exact blkV?_eq (by omega) (by simp; omega)
    rw [forRange, ih (by omega) (by omega), Option.bind_some, hv, Option.bind_some,
      put_ofBlk (3 + m) c (by omega) (by omega) (by omega) (by omega)]
    congr 1
    refine ofBlk_congr fun a b _ _ => ?_
    unfold upd
    by_cases h1 : a = 3 + m ∧ b = c
    · rw [if_pos h1, if_pos (by omega), h1.1, show 3 + m + 2 = 5 + m by ring]
    · rw [if_neg h1]
      beta_reduce
      by_cases h2 : b = c ∧ 3 ≤ a ∧ a < 3 + m
      · rw [if_pos h2, if_pos (by omega)]
      · rw [if_neg h2, if_neg (by omega)]

/-! ### transition matrices -/

/-- blocks of the left-invariant transition matrix without the bias columns -/
noncomputable def phiLB (K : ℕ) (a : V3) (dt : ℝ) (G0 G1 G2 : M3) : ℕ → ℕ → M3 := fun i j =>
  if i = j ∧ 3 ≤ i ∧ i < 3 + (K - 2) then G0ᵀ
  else if i = 2 ∧ j = 2 then G0ᵀ
  else if i = 2 ∧ j = 1 then dt • G0ᵀ
  else if i = 1 ∧ j = 1 then G0ᵀ
  else if i = 2 ∧ j = 0 then dt ^ 2 • (-G0ᵀ * skew (G2.mulVec a))
  else if i = 1 ∧ j = 0 then dt • (-G0ᵀ * skew (G1.mulVec a))
  else if i = 0 ∧ j = 0 then G0ᵀ
  else if i = j then 1 else 0

/-- blocks of the left-invariant transition matrix -/
noncomputable def phiLF (K : ℕ) (en : Bool) (a : V3) (dt : ℝ) (G0 G1 G2 p25 p35 : M3) : ℕ → ℕ → M3 :=
  fun i j =>
  if en then
    if i = 2 ∧ j = K + 2 then dt ^ 2 • (-G0ᵀ * G2)
    else if i = 1 ∧ j = K + 2 then dt • (-G1ᵀ)
    else if i = 2 ∧ j = K + 1 then p35
    else if i = 1 ∧ j = K + 1 then p25
    else if i = 0 ∧ j = K + 1 then dt • (-G1ᵀ)
    else phiLB K a dt G0 G1 G2 i j
  else if K + 1 ≤ j then 0 else phiLB K a dt G0 G1 G2 i j

/-- blocks of the right-invariant transition matrix without the bias columns -/
noncomputable def phiRB (dt : ℝ) : ℕ → ℕ → M3 := fun i j =>
  if i = 2 ∧ j = 1 then dt • (1 : M3)
  else if i = 2 ∧ j = 0 then dt ^ 2 • ((0.5 : ℝ) • skew gravity)
  else if i = 1 ∧ j = 0 then dt • skew gravity
  else if i = j then 1 else 0

/-- blocks of the right-invariant transition matrix -/
noncomputable def phiRF (K : ℕ) (en : Bool) (a : V3) (dt : ℝ) (G0 G1 G2 p25 p35 : M3) (X : Mat) :
    ℕ → ℕ → M3 := fun i j =>
  let R := X.blk3 0 0
  let v := X.blkV 0 3
  let p := X.blkV 0 4
  let RG1dt := dt • (R * G1)
  let RG2dt2 := dt ^ 2 • (R * G2)
  if en then
    if i = 2 ∧ j = K + 2 then -RG2dt2
    else if i = 1 ∧ j = K + 2 then -RG1dt
    else if j = K + 1 ∧ 3 ≤ i ∧ i < 3 + (K - 2) then -skew (X.blkV 0 (i + 2)) * RG1dt
    else if i = 2 ∧ j = K + 1 then
      -skew (p + dt • v + RG2dt2.mulVec a + dt ^ 2 • ((0.5 : ℝ) • gravity)) * RG1dt + R * G0 * p35
    else if i = 1 ∧ j = K + 1 then
      -skew (v + RG1dt.mulVec a + dt • gravity) * RG1dt + R * G0 * p25
    else if i = 0 ∧ j = K + 1 then -RG1dt
    else phiRB dt i j
  else if K + 1 ≤ j then 0 else phiRB dt i j

theorem phiLeft_eq {K : ℕ} (hK : 2 ≤ K) (en : Bool) (a : V3) (dt : ℝ) (G0 G1 G2 p25 p35 : M3) :
    phiLeft en a dt G0 G1 G2 p25 p35 (3 + K) 6 (3 * K + 9) =
      some (ofBlk (K + 3) (K + 3) (phiLF K en a dt G0 G1 G2 p25 p35)) := by
  unfold phiLeft
  rw [if_neg (by omega), show 3 * K + 9 - 6 = 3 * (K + 1) by omega,
    show 3 * K + 9 = 3 * (K + 3) by ring, show 3 + K - 5 = K - 2 by omega, one_eq_ofBlk]
  simp only [Option.bind_eq_bind]
  rw [put_ofBlk 0 0 rfl rfl (by omega) (by omega), Option.bind_some,
    put_ofBlk 1 0 rfl rfl (by omega) (by omega), Option.bind_some,
    put_ofBlk 2 0 rfl rfl (by omega) (by omega), Option.bind_some,
    put_ofBlk 1 1 rfl rfl (by omega) (by omega), Option.bind_some,
    put_ofBlk 2 1 rfl rfl (by omega) (by omega), Option.bind_some,
    put_ofBlk 2 2 rfl rfl (by omega) (by omega), Option.bind_some,
    forRange_put_diag (by omega), Option.bind_some]
  cases en
  · rw [if_neg (by simp), show (6 : ℕ) = 3 * (K + 3 - (K + 1)) by omega, setBlock_zero_cols (by omega)]
    rfl
  · rw [if_pos rfl, put_ofBlk 0 (K + 1) rfl rfl (by omega) (by omega), Option.bind_some,
      put_ofBlk 1 (K + 1) rfl rfl (by omega) (by omega), Option.bind_some,
      put_ofBlk 2 (K + 1) rfl rfl (by omega) (by omega), Option.bind_some,
      put_ofBlk 1 (K + 2) rfl (by ring) (by omega) (by omega), Option.bind_some,
      put_ofBlk 2 (K + 2) rfl (by ring) (by omega) (by omega)]
    rfl

theorem phiRight_eq {K : ℕ} {s : RobotState} (hs : Shape K s) (en : Bool) (a : V3) (dt : ℝ)
    (G0 G1 G2 p25 p35 : M3) :
    phiRight en a dt G0 G1 G2 p25 p35 s (3 + K) 6 (3 * K + 9) =
      some (ofBlk (K + 3) (K + 3) (phiRF K en a dt G0 G1 G2 p25 p35 s.X)) := by
  have hK := hs.k
  have hr := hs.x.rows
  have hc := hs.x.cols
  unfold phiRight
  rw [if_neg (by omega), show 3 * K + 9 - 6 = 3 * (K + 1) by omega,
    show 3 * K + 9 = 3 * (K + 3) by ring, show 3 + K - 5 = K - 2 by omega, one_eq_ofBlk]
  simp only [Option.bind_eq_bind]
  unfold get_rotation get_velocity get_position
  rw [blk3?_eq (by omega) (by omega), Option.bind_some, blkV?_eq (by omega) (by omega), Option.bind_some,
    blkV?_eq (by omega) (by omega), Option.bind_some,
    put_ofBlk 1 0 rfl rfl (by omega) (by omega), Option.bind_some,
    put_ofBlk 2 0 rfl rfl (by omega) (by omega), Option.bind_some,
    put_ofBlk 2 1 rfl rfl (by omega) (by omega), Option.bind_some]
  cases en
  · rw [if_neg (by simp), show (6 : ℕ) = 3 * (K + 3 - (K + 1)) by omega, setBlock_zero_cols (by omega)]
    rfl
  · rw [if_pos rfl, put_ofBlk 0 (K + 1) rfl rfl (by omega) (by omega), Option.bind_some,
      put_ofBlk 1 (K + 1) rfl rfl (by omega) (by omega), Option.bind_some,
      put_ofBlk 2 (K + 1) rfl rfl (by omega) (by omega), Option.bind_some,
      forRange_put_col (by omega) (by omega) (by omega) (by omega), Option.bind_some,
      put_ofBlk 1 (K + 2) rfl (by ring) (by omega) (by omega), Option.bind_some,
      put_ofBlk 2 (K + 2) rfl (by ring) (by omega) (by omega)]
    rfl


/-! ### the extended adjoint in blocks -/

/-- blocks of `Ad ⊕ I` -/
noncomputable def eaF (K : ℕ) (R : M3) (p : ℕ → V3) (i j : ℕ) : M3 :=
  if i ≤ K ∧ j ≤ K then adjF R p i j else if i = j then 1 else 0

theorem EA_eq_ofBlk (K : ℕ) (X : Mat) :
    EA K X = ofBlk (K + 3) (K + 3) (eaF K (X.blk3 0 0) fun k => X.blkV 0 (3 + k)) := by
  refine ext_blk3 (a := K + 3) (b := K + 3) (by simp; ring) (by simp; ring) rfl rfl fun a b ha hb => ?_
  rw [ofBlk_blk3 _ ha hb]
  unfold EA eaF
  ext i j
  have hi := i.2
  have hj := j.2
  rw [blk3_apply, bd_e (m := 3 * (K + 1)) rfl rfl (by omega)]
  by_cases h : a ≤ K ∧ b ≤ K
  · rw [if_pos h, if_pos (by omega)]
    have := congrFun (congrFun (ofBlk_blk3 (a := K + 1) (b := K + 1)
      (adjF (X.blk3 0 0) fun k => X.blkV 0 (3 + k)) (i := a) (j := b) (by omega) (by omega)) i) j
    rw [blk3_apply] at this
    exact this
  · rw [if_neg h, if_neg (by omega)]
    by_cases hab : a = b
    · subst hab
      rw [if_pos rfl, Matrix.one_apply]
      by_cases hij : i = j
      · subst hij; rw [if_pos (by omega), if_pos rfl]
      · rw [if_neg hij, if_neg]
        intro hc; exact hij (Fin.ext (by omega))
    · rw [if_neg hab, if_neg (by omega)]; rfl

/-- left multiplication by `Ad ⊕ I` -/
theorem eaF_mul (K : ℕ) (R : M3) (p : ℕ → V3) (f : ℕ → ℕ → M3) (i j : ℕ) (hi : i < K + 3) :
    ∑ k ∈ range (K + 3), eaF K R p i k * f k j =
      if i = 0 then R * f 0 j
      else if i ≤ K then skew (p (i - 1)) * R * f 0 j + R * f i j
      else f i j := by
  by_cases h0 : i = 0
  · subst h0
    rw [if_pos rfl, sum_eq_single 0]
    · simp [eaF, adjF]
    · intro k _ hk
      unfold eaF adjF
      by_cases hkK : k ≤ K
      · rw [if_pos (by omega), if_neg (by omega), if_neg hk, Matrix.zero_mul]
      · rw [if_neg (by omega), if_neg (by omega), Matrix.zero_mul]
    · intro h; simp at h
  · rw [if_neg h0]
    by_cases hK : i ≤ K
    · rw [if_pos hK]
      have hsub : ({0, i} : Finset ℕ) ⊆ range (K + 3) := by
        intro x hx; simp at hx ⊢; omega
      rw [← sum_subset hsub, sum_pair (Ne.symm h0)]
      · unfold eaF adjF
        rw [if_pos (by omega), if_neg h0, if_pos rfl, if_pos (by omega), if_pos rfl]
      · intro k _ hk
        simp at hk
        unfold eaF adjF
        by_cases hkK : k ≤ K
        · rw [if_pos (by omega), if_neg (by omega), if_neg hk.1, Matrix.zero_mul]
        · rw [if_neg (by omega), if_neg (by omega), Matrix.zero_mul]
    · rw [if_neg hK, sum_eq_single i]
      · unfold eaF; rw [if_neg (by omega), if_pos rfl, Matrix.one_mul]
      · intro k _ hk
        unfold eaF
        rw [if_neg (by omega), if_neg (Ne.symm hk), Matrix.zero_mul]
      · intro h; simp at h; omega

/-- right multiplication by `Ad ⊕ I` -/
theorem mul_eaF (K : ℕ) (R : M3) (p : ℕ → V3) (f : ℕ → ℕ → M3) (i j : ℕ) (hj : j < K + 3) :
    ∑ k ∈ range (K + 3), f i k * eaF K R p k j =
      if j = 0 then f i 0 * R + ∑ k ∈ range K, f i (k + 1) * (skew (p k) * R)
      else if j ≤ K then f i j * R
      else f i j := by
  by_cases h0 : j = 0
  · subst h0
    rw [if_pos rfl, sum_range_succ', add_comm, sum_range_succ, sum_range_succ]
    have e1 : eaF K R p 0 0 = R := by simp [eaF, adjF]
    have e2 : eaF K R p (K + 1) 0 = 0 := by
      unfold eaF; rw [if_neg (by omega), if_neg (by omega)]
    have e3 : eaF K R p (K + 1 + 1) 0 = 0 := by
      unfold eaF; rw [if_neg (by omega), if_neg (by omega)]
    rw [e1, e2, e3, Matrix.mul_zero, Matrix.mul_zero, add_zero, add_zero]
    congr 1
    refine sum_congr rfl fun k hk => ?_
    have := mem_range.mp hk
    unfold eaF adjF
    rw [if_pos (by omega), if_neg (by omega), if_pos rfl, show k + 1 - 1 = k by omega]
  · rw [if_neg h0]
    by_cases hK : j ≤ K
    · rw [if_pos hK, sum_eq_single j]
      · unfold eaF adjF; rw [if_pos (by omega), if_pos rfl]
      · intro k _ hk
        unfold eaF adjF
        by_cases hkK : k ≤ K
        · rw [if_pos (by omega), if_neg hk, if_neg h0, Matrix.mul_zero]
        · rw [if_neg (by omega), if_neg hk, Matrix.mul_zero]
      · intro h; simp at h; omega
    · rw [if_neg hK, sum_eq_single j]
      · unfold eaF; rw [if_neg (by omega), if_pos rfl, Matrix.mul_one]
      · intro k _ hk
        unfold eaF
        rw [if_neg (by omega), if_neg hk, Matrix.mul_zero]
      · intro h; simp at h; omega

/-! ### mean -/

/-- closed form of the predicted mean -/
noncomputable def meanK (K : ℕ) (w a : V3) (dt : ℝ) (X : Mat) : Mat :=
  mkSE K (X.blk3 0 0 * Gam0 (dt • w)) fun k =>
    if k = 0 then X.blkV 0 3 + dt • ((X.blk3 0 0 * Gam1 (dt • w)).mulVec a + gravity)
    else if k = 1 then X.blkV 0 4 + dt • X.blkV 0 3
      + dt • dt • ((X.blk3 0 0 * Gam2 (dt • w)).mulVec a + (0.5 : ℝ) • gravity)
    else X.blkV 0 (3 + k)

@[simp] theorem meanK_rows (K w a dt X) : (meanK K w a dt X).rows = 3 + K := rfl
@[simp] theorem meanK_cols (K w a dt X) : (meanK K w a dt X).cols = 3 + K := rfl

theorem meanK_isSEK {K w a dt X} (h : IsSEK K X) : IsSEK K (meanK K w a dt X) :=
  sek_isSEK (h.rot.mul (Gam0_isRot _))

theorem set_mkSE_rot {K : ℕ} {R S : M3} {p : ℕ → V3} :
    (mkSE K R p).setBlock? 0 0 (of3 S) = some (mkSE K S p) := by
  rw [setBlock?_eq (by simp) (by simp)]
  congr 1
  refine ext' rfl rfl fun i j hi hj => ?_
  simp only [setBlockP_rows, setBlockP_cols, mkSE_rows, mkSE_cols] at hi hj
  rw [setBlockP_of3_e (by simp) (by simp)]
  unfold mkSE
  rw [ofFn_e_of_lt hi hj, ofFn_e_of_lt hi hj]
  by_cases h : i < 3 ∧ j < 3
  · rw [dif_pos (by omega)]; simp [h.1, h.2]
  · rw [dif_neg (by omega)]
    by_cases hi3 : i < 3
    · have hj3 : ¬ j < 3 := fun hj => h ⟨hi3, hj⟩
      simp [hi3, hj3]
    · simp [hi3]

theorem set_mkSE_col {K k : ℕ} {R : M3} {p : ℕ → V3} {v : V3} (hk : k < K) :
    (mkSE K R p).setBlock? 0 (3 + k) (ofV v) = some (mkSE K R fun l => if l = k then v else p l) := by
  rw [setBlock?_eq (by simp) (by simp; omega)]
  congr 1
  refine ext' rfl rfl fun i j hi hj => ?_
  simp only [setBlockP_rows, setBlockP_cols, mkSE_rows, mkSE_cols] at hi hj
  rw [setBlockP_ofV_e (by simp) (by simp; omega)]
  unfold mkSE
  rw [ofFn_e_of_lt hi hj, ofFn_e_of_lt hi hj]
  by_cases h : i < 3 ∧ j = 3 + k
  · rw [dif_pos (by omega)]; simp [h.1, h.2]
  · rw [dif_neg (by omega)]
    by_cases hi3 : i < 3
    · have hj3 : ¬ j = 3 + k := fun hj => h ⟨hi3, hj⟩
      by_cases hj' : j < 3
      · simp [hi3, hj']
      · have : ¬ j - 3 = k := by omega
        simp [hi3, hj', this]
    · simp [hi3]

theorem set_mkSE_col3 {K : ℕ} {R : M3} {p : ℕ → V3} {v : V3} (hk : 0 < K) :
    (mkSE K R p).setBlock? 0 3 (ofV v) = some (mkSE K R fun l => if l = 0 then v else p l) :=
  set_mkSE_col hk
theorem set_mkSE_col4 {K : ℕ} {R : M3} {p : ℕ → V3} {v : V3} (hk : 1 < K) :
    (mkSE K R p).setBlock? 0 4 (ofV v) = some (mkSE K R fun l => if l = 1 then v else p l) :=
  set_mkSE_col hk

theorem predictMean_eq {K : ℕ} {s : RobotState} (hs : Shape K s) (hw : s.stateType = .worldCentric)
    (w a : V3) (dt : ℝ) : predictMean w a dt s = some (meanK K w a dt s.X) := by
  have hr := hs.x.rows; have hc := hs.x.cols; have hK := hs.k
  unfold predictMean get_rotation get_velocity get_position
  rw [blk3?_eq (by omega) (by omega), blkV?_eq (by omega) (by omega), blkV?_eq (by omega) (by omega), hw]
  simp only [Option.bind_eq_bind, Option.bind_some, gamma_SO3_zero, gamma_SO3_one, gamma_SO3_two]
  have e1 : s.X.setBlock? 0 0 (of3 (s.X.blk3 0 0 * Gam0 (dt • w)))
      = some (mkSE K (s.X.blk3 0 0 * Gam0 (dt • w)) fun k => s.X.blkV 0 (3 + k)) := by
    conv_lhs => rw [hs.x.eq_mk]
    rw [set_mkSE_rot, mkSE_blk3]
  rw [e1, Option.bind_some]
  rw [set_mkSE_col3 (by omega), Option.bind_some, set_mkSE_col4 (by omega)]
  congr 1
  refine mkSE_congr rfl fun k hk => ?_
  by_cases h0 : k = 0
  · subst h0; simp
  · by_cases h1 : k = 1
    · subst h1; simp
    · simp [h0, h1]


/-- decide every `if` whose condition is linear arithmetic -/
macro "ifs" : tactic => `(tactic| repeat (first | rw [if_pos (by omega)] | rw [if_neg (by omega)] | rw [if_pos (by simp <;> omega)]))

theorem sum_phiRB {K : ℕ} (hK : 2 ≤ K) (dt : ℝ) (f : ℕ → M3) (i : ℕ) :
    ∑ k ∈ range K, phiRB dt i (k + 1) * f k =
      if i = 0 then 0 else if i = 2 then dt • f 0 + f 1 else if i ≤ K then f (i - 1) else 0 := by
  by_cases h2 : i = 2
  · subst h2
    have hsub : ({0, 1} : Finset ℕ) ⊆ range K := by intro x hx; simp at hx ⊢; omega
    rw [← sum_subset hsub, sum_pair (by omega)]
    · unfold phiRB; ifs; simp
    · intro k _ hk; simp at hk; unfold phiRB; ifs; simp
  · by_cases h0 : i = 0
    · subst h0
      rw [if_pos rfl]
      refine sum_eq_zero fun k _ => ?_
      unfold phiRB; ifs; simp
    · rw [if_neg h0, if_neg h2]
      by_cases hi : i ≤ K
      · rw [if_pos hi, sum_eq_single (i - 1)]
        · unfold phiRB; ifs; simp
        · intro k _ hk; unfold phiRB; ifs; simp
        · intro h; simp at h; omega
      · rw [if_neg hi]
        refine sum_eq_zero fun k hk => ?_
        have := mem_range.mp hk
        unfold phiRB; ifs; simp

theorem phiRF_le {K : ℕ} {en a dt G0 G1 G2 p25 p35 X} {i j : ℕ} (hj : j ≤ K) :
    phiRF K en a dt G0 G1 G2 p25 p35 X i j = phiRB dt i j := by
  cases en <;> simp only [phiRF, if_true, Bool.false_eq_true, if_false] <;> ifs

theorem phiLF_le {K : ℕ} {en a dt G0 G1 G2 p25 p35} {i j : ℕ} (hj : j ≤ K) :
    phiLF K en a dt G0 G1 G2 p25 p35 i j = phiLB K a dt G0 G1 G2 i j := by
  cases en <;> simp only [phiLF, if_true, Bool.false_eq_true, if_false] <;> ifs

/-! ### equivalence of the two transition matrices -/

theorem rot_G0t {R G0 : M3} (h0 : IsRot G0) : R * G0 * G0ᵀ = R := by
  rw [Matrix.mul_assoc, h0.2.1, Matrix.mul_one]

/-- `Φ_R (Ad_X ⊕ I) = (Ad_X⁺ ⊕ I) Φ_L`: the two transition matrices are the same map in the two error
coordinates.  Any `p25`, `p35`; `G1 = G0 G1ᵀ` is used for the bias columns. -/
theorem phi_equiv {K : ℕ} (hK : 2 ≤ K) {X : Mat} (hX : IsSEK K X) (en : Bool) (w a : V3) (dt : ℝ)
    (p25 p35 : M3) :
    ofBlk (K + 3) (K + 3) (phiRF K en a dt (Gam0 (dt • w)) (Gam1 (dt • w)) (Gam2 (dt • w)) p25 p35 X) * EA K X
      = EA K (meanK K w a dt X) * ofBlk (K + 3) (K + 3)
          (phiLF K en a dt (Gam0 (dt • w)) (Gam1 (dt • w)) (Gam2 (dt • w)) p25 p35) := by
  set G0 := Gam0 (dt • w) with hG0
  set G1 := Gam1 (dt • w) with hG1
  set G2 := Gam2 (dt • w) with hG2
  set R := X.blk3 0 0 with hR
  have rR : IsRot R := hX.rot
  have r0 : IsRot G0 := Gam0_isRot _
  have hRG : IsRot (R * G0) := rR.mul r0
  have hG1' : R * G0 * G1ᵀ = R * G1 := by
    rw [Matrix.mul_assoc]
    congr 1
    rw [hG1, hG0, ← Gam1_neg, ← Gam1_eq_mul]
  have hG2' : R * G0 * (G0ᵀ * G2) = R * G2 := by rw [← Matrix.mul_assoc, rot_G0t r0]
  rw [EA_eq_ofBlk, EA_eq_ofBlk, ofBlk_mul, ofBlk_mul]
  refine ofBlk_congr fun i j hi hj => ?_
  rw [mul_eaF _ _ _ _ _ _ hj, eaF_mul _ _ _ _ _ _ hi]
  rw [← hR]
  -- the data of the new mean
  set p : ℕ → V3 := fun k => X.blkV 0 (3 + k) with hp
  have mR : (meanK K w a dt X).blk3 0 0 = R * G0 := mkSE_blk3 _ _ _
  have mC : ∀ k, k < K → (meanK K w a dt X).blkV 0 (3 + k) =
    if k = 0 then X.blkV 0 3 + dt • ((R * G1).mulVec a + gravity)
    else if k = 1 then X.blkV 0 4 + dt • X.blkV 0 3 + dt • dt • ((R * G2).mulVec a + (0.5 : ℝ) • gravity)
    else X.blkV 0 (3 + k) := fun k hk => mkSE_blkV _ _ _ hk
  rw [mR]
  have hv' : X.blkV 0 3 + (dt • (R * G1)).mulVec a + dt • gravity
      = X.blkV 0 3 + dt • ((R * G1).mulVec a + gravity) := by
    rw [smul_mulVec, smul_add, add_assoc]
  have hp' : X.blkV 0 4 + dt • X.blkV 0 3 + (dt ^ 2 • (R * G2)).mulVec a + dt ^ 2 • ((0.5 : ℝ) • gravity)
      = X.blkV 0 4 + dt • X.blkV 0 3 + dt • dt • ((R * G2).mulVec a + (0.5 : ℝ) • gravity) := by
    rw [smul_mulVec, smul_smul dt dt, smul_add, pow_two, add_assoc]
  by_cases hjK : j ≤ K
  · -- no bias column
    have hsum : ∑ k ∈ range K, phiRF K en a dt G0 G1 G2 p25 p35 X i (k + 1) * (skew (p k) * R)
        = ∑ k ∈ range K, phiRB dt i (k + 1) * (skew (p k) * R) :=
      sum_congr rfl fun k hk => by rw [phiRF_le (by have := mem_range.mp hk; omega)]
    rw [hsum, sum_phiRB hK, phiRF_le (by omega), phiRF_le hjK, phiLF_le hjK, phiLF_le hjK]
    have e00 : R * G0 * G0ᵀ = R := rot_G0t r0
    by_cases hj0 : j = 0
    · subst hj0
      by_cases h0 : i = 0
      · subst h0; ifs; unfold phiRB phiLB; ifs; rw [e00]; simp
      by_cases h1 : i = 1
      · subst h1; ifs; unfold phiRB phiLB; ifs
        have := mC 0 (by omega)
        rw [show 1 - 1 = 0 from rfl, this, if_pos rfl]
        rw [Matrix.mul_assoc _ (R * G0) G0ᵀ, e00]
        rw [Matrix.mul_smul, Matrix.neg_mul, Matrix.mul_neg, ← Matrix.mul_assoc, e00, rot_skew rR,
          mulVec_mulVec]
        simp only [skew_add, skew_smul, Matrix.add_mul, Matrix.smul_mul, hp, smul_add, smul_neg]
        abel
      by_cases h2 : i = 2
      · subst h2; ifs; unfold phiRB phiLB; ifs
        have := mC 1 (by omega)
        rw [show 2 - 1 = 1 from rfl, this, if_neg (by omega), if_pos rfl]
        rw [Matrix.mul_assoc _ (R * G0) G0ᵀ, e00]
        rw [Matrix.mul_smul, Matrix.neg_mul, Matrix.mul_neg, ← Matrix.mul_assoc, e00, rot_skew rR,
          mulVec_mulVec]
        simp only [skew_add, skew_smul, Matrix.add_mul, Matrix.smul_mul, hp, smul_add, smul_smul, pow_two,
          smul_neg, mul_assoc]
        abel
      by_cases h3 : i ≤ K
      · ifs; unfold phiRB phiLB; ifs
        have := mC (i - 1) (by omega)
        rw [this, if_neg (by omega), if_neg (by omega), Matrix.mul_assoc _ (R * G0) G0ᵀ, e00]
        simp [hp]
      · ifs; unfold phiRB phiLB; ifs; simp
    · by_cases h0 : i = 0
      · subst h0; ifs; unfold phiRB phiLB; ifs; simp
      by_cases h1 : i = 1
      · subst h1
        by_cases hj1 : j = 1
        · subst hj1; ifs; unfold phiRB phiLB; ifs; simp [e00]
        · ifs; unfold phiRB phiLB; ifs; simp
      by_cases h2 : i = 2
      · subst h2
        by_cases hj1 : j = 1
        · subst hj1; ifs; unfold phiRB phiLB; ifs; simp [e00]
        by_cases hj2 : j = 2
        · subst hj2; ifs; unfold phiRB phiLB; ifs; simp [e00]
        · ifs; unfold phiRB phiLB; ifs; simp
      by_cases h3 : i ≤ K
      · by_cases hij : i = j
        · subst hij; ifs; unfold phiRB phiLB; ifs; simp [e00]
        · ifs; unfold phiRB phiLB; ifs; simp
      · ifs; unfold phiRB phiLB; ifs; simp
  · -- bias columns
    cases en
    · simp only [phiRF, phiLF, Bool.false_eq_true, if_false]
      ifs
      by_cases h0 : i = 0
      · ifs; simp
      · by_cases h3 : i ≤ K <;> ifs <;> simp
    · simp only [phiRF, phiLF, if_true, ← hR, hv', hp']
      by_cases hj1 : j = K + 1
      · subst hj1
        by_cases h0 : i = 0
        · subst h0; ifs
          rw [Matrix.mul_smul, Matrix.mul_neg, hG1', smul_neg]
        by_cases h1 : i = 1
        · subst h1; ifs
          have := mC 0 (by omega)
          rw [show 1 - 1 = 0 from rfl, this, if_pos rfl]
          rw [Matrix.mul_assoc _ (R * G0), Matrix.mul_smul (R * G0), Matrix.mul_neg (R * G0), hG1', smul_neg,
            Matrix.neg_mul, Matrix.mul_neg]
        by_cases h2 : i = 2
        · subst h2; ifs
          have := mC 1 (by omega)
          rw [show 2 - 1 = 1 from rfl, this, if_neg (by omega), if_pos rfl]
          rw [Matrix.mul_assoc _ (R * G0), Matrix.mul_smul (R * G0), Matrix.mul_neg (R * G0), hG1', smul_neg,
            Matrix.neg_mul, Matrix.mul_neg]
        by_cases h3 : i ≤ K
        · ifs
          have := mC (i - 1) (by omega)
          rw [this, if_neg (by omega), if_neg (by omega), show 3 + (i - 1) = i + 2 by omega]
          unfold phiLB; ifs
          rw [Matrix.mul_assoc _ (R * G0), Matrix.mul_smul (R * G0), Matrix.mul_neg (R * G0), hG1', smul_neg,
            Matrix.neg_mul, Matrix.mul_neg, Matrix.mul_zero, add_zero]
        · ifs; unfold phiRB phiLB
          by_cases hij : i = K + 1 <;> ifs
      · have hj2 : j = K + 2 := by omega
        subst hj2
        have z0 : phiLB K a dt G0 G1 G2 0 (K + 2) = 0 := by unfold phiLB; ifs
        by_cases h0 : i = 0
        · subst h0; ifs; unfold phiRB; ifs; rw [z0]; simp
        by_cases h1 : i = 1
        · subst h1; ifs
          rw [z0, Matrix.mul_zero, zero_add, Matrix.mul_smul, Matrix.mul_neg, hG1', smul_neg]
        by_cases h2 : i = 2
        · subst h2; ifs
          rw [z0, Matrix.mul_zero, zero_add, Matrix.mul_smul, Matrix.neg_mul, Matrix.mul_neg, hG2', smul_neg]
        by_cases h3 : i ≤ K
        · ifs; rw [z0]; unfold phiRB phiLB; ifs; simp
        · ifs; unfold phiRB phiLB
          by_cases hij : i = K + 2 <;> ifs
end Drift
