import Verif.Lemmas.Legged2

/-! # Lemmas: covariance augmentation for a new contact -/
set_option linter.unusedSimpArgs false
namespace Drift
open Mat Matrix Finset RobotState

/-- closed form of `F` -/
noncomputable def augF (K : ℕ) (left : Bool) (pose : V3) : Mat :=
  ofBlk (K + 4) (K + 3) fun i j =>
    if i = K + 1 then (if j = 2 then 1 else if left ∧ j = 0 then skew (-pose) else 0)
    else if i < K + 1 then (if i = j then 1 else 0)
    else (if i - 1 = j then 1 else 0)

/-- closed form of `G` -/
def augG (K : ℕ) (W : M3) : Mat := ofBlk (K + 4) 1 fun i _ => if i = K + 1 then W else 0

/-- closed form of the augmented covariance -/
noncomputable def augP (K : ℕ) (left : Bool) (pose : V3) (W cov : M3) (P : Mat) : Mat :=
  augF K left pose * P * (augF K left pose).T + augG K W * of3 cov * (augG K W).T

theorem ofBlk_e {a b : ℕ} (f : ℕ → ℕ → M3) {i j : ℕ} (hi : i < 3 * a) (hj : j < 3 * b) :
    (ofBlk a b f).e i j = f (i / 3) (j / 3) ⟨i % 3, Nat.mod_lt _ (by norm_num)⟩ ⟨j % 3, Nat.mod_lt _ (by norm_num)⟩ := by
  unfold ofBlk; rw [ofFn_e_of_lt hi hj]

@[simp] theorem augF_rows (K l p) : (augF K l p).rows = 3 * (K + 4) := rfl
@[simp] theorem augF_cols (K l p) : (augF K l p).cols = 3 * (K + 3) := rfl
@[simp] theorem augG_rows (K W) : (augG K W).rows = 3 * (K + 4) := rfl
@[simp] theorem augG_cols (K W) : (augG K W).cols = 3 * 1 := rfl

theorem one_fin_eq {k l : ℕ} (hk : k < 3) (hl : l < 3) : (1 : M3) ⟨k, hk⟩ ⟨l, hl⟩ = if k = l then 1 else 0 := by
  rw [Matrix.one_apply]; simp

theorem put2_eq (K : ℕ) :
    (((zero (3 * K + 9 + 3) (3 * K + 9)).setBlockP 0 0 (one (3 * K + 3))).setBlockP (3 * K + 3 + 3) (3 * K + 3) (one 6)) =
    ofFn (3 * K + 12) (3 * K + 9) fun i j => if i < 3 * K + 3 then (if i = j then 1 else 0) else
      if 3 * K + 6 ≤ i then (if i - 3 = j then 1 else 0) else 0 := by
  refine ext' rfl rfl fun i j hi hj => ?_
  simp only [setBlockP_rows, setBlockP_cols, zero_rows, zero_cols] at hi hj
  rw [ofFn_e_of_lt (by omega) hj, setBlockP_e_in (by simp) (by simp), setBlockP_e_in (by simp <;> omega) (by simp)]
  simp only [one_rows, one_cols, zero_e, one_e]
  by_cases h1 : i < 3 * K + 3
  · rw [if_neg (by omega), if_pos h1]
    by_cases h2 : i = j
    · rw [if_pos (by omega), if_pos (by omega), if_pos h2]
    · rw [if_neg h2]
      by_cases h3 : (0 ≤ i ∧ i < 0 + (3 * K + 3)) ∧ 0 ≤ j ∧ j < 0 + (3 * K + 3)
      · rw [if_pos h3, if_neg (by omega)]
      · rw [if_neg h3]
  · rw [if_neg h1]
    by_cases h2 : 3 * K + 6 ≤ i
    · rw [if_pos h2]
      by_cases h3 : i - 3 = j
      · rw [if_pos (by omega), if_pos (by omega), if_pos h3]
      · rw [if_neg h3]
        by_cases h4 : (3 * K + 3 + 3 ≤ i ∧ i < 3 * K + 3 + 3 + 6) ∧ 3 * K + 3 ≤ j ∧ j < 3 * K + 3 + 6
        · rw [if_pos h4, if_neg (by omega)]
        · rw [if_neg h4, if_neg (by omega)]
    · rw [if_neg h2, if_neg (by omega), if_neg (by omega)]

theorem delta_blk {K i j : ℕ} (k l : Fin 3) (c : ℕ) :
    (if 3 * i + (k : ℕ) - 3 * c = 3 * j + (l : ℕ) then (1 : ℝ) else 0) =
      (if i - c = j then (1 : M3) else 0) k l ∨ i < c := by
  by_cases hic : i < c
  · exact .inr hic
  · left
    have hk := k.2; have hl := l.2
    by_cases h : i - c = j
    · rw [if_pos h, Matrix.one_apply]
      by_cases hkl : k = l
      · rw [if_pos (by subst hkl; omega), if_pos hkl]
      · have : (k : ℕ) ≠ l := fun hh => hkl (Fin.ext hh)
        rw [if_neg (by omega), if_neg hkl]
    · rw [if_neg h, if_neg (by omega)]; rfl

theorem augF_eq {K : ℕ} (hK : 2 ≤ K) (pose : V3) :
    (((zero (3 * K + 9 + 3) (3 * K + 9)).setBlockP 0 0 (one (3 * K + 3))).setBlockP (3 * K + 3 + 3) (3 * K + 3) (one 6)).setBlockP
      (3 * K + 3) 6 (of3 1) = augF K false pose ∧
    ((((zero (3 * K + 9 + 3) (3 * K + 9)).setBlockP 0 0 (one (3 * K + 3))).setBlockP (3 * K + 3 + 3) (3 * K + 3) (one 6)).setBlockP
      (3 * K + 3) 6 (of3 1)).setBlockP (3 * K + 3) 0 (of3 (skew (-pose))) = augF K true pose := by
  rw [put2_eq]
  set F0 := ofFn (3 * K + 12) (3 * K + 9) fun i j => if i < 3 * K + 3 then (if i = j then (1 : ℝ) else 0) else
      if 3 * K + 6 ≤ i then (if i - 3 = j then 1 else 0) else 0 with hF0
  have hr : F0.rows = 3 * (K + 4) := by rw [hF0, ofFn_rows]; ring
  have hc : F0.cols = 3 * (K + 3) := by rw [hF0, ofFn_cols]; ring
  have h0 : ∀ i j, i < K + 4 → j < K + 3 → F0.blk3 (3 * i) (3 * j) = if i = K + 1 then 0
      else if i < K + 1 then (if i = j then 1 else 0) else (if i - 1 = j then 1 else 0) := by
    intro i j hi hj
    funext k l
    have hk := k.2; have hl := l.2
    rw [blk3_apply, hF0, ofFn_e_of_lt (by omega) (by omega)]
    by_cases h1 : i = K + 1
    · rw [if_pos h1, if_neg (by omega), if_neg (by omega)]; rfl
    · rw [if_neg h1]
      by_cases h2 : i < K + 1
      · rw [if_pos h2, if_pos (by omega)]
        rcases delta_blk (K := K) (i := i) (j := j) k l 0 with h | h
        · simpa using h
        · omega
      · rw [if_neg h2, if_neg (by omega), if_pos (by omega)]
        rcases delta_blk (K := K) (i := i) (j := j) k l 1 with h | h
        · simpa using h
        · omega
  have h1 : ∀ i j, i < K + 4 → j < K + 3 → (F0.setBlockP (3 * K + 3) 6 (of3 1)).blk3 (3 * i) (3 * j) =
      if i = K + 1 then (if j = 2 then 1 else 0)
      else if i < K + 1 then (if i = j then 1 else 0) else (if i - 1 = j then 1 else 0) := by
    intro i j hi hj
    by_cases hij : i = K + 1 ∧ j = 2
    · obtain ⟨rfl, rfl⟩ := hij
      rw [if_pos rfl, if_pos rfl]
      exact blk3_setBlockP_same (by omega) (by omega)
    · rw [blk3_setBlockP_disj (by omega) (by omega) (by omega), h0 i j hi hj]
      by_cases h1 : i = K + 1
      · rw [if_pos h1, if_pos h1, if_neg (fun h => hij ⟨h1, h⟩)]
      · rw [if_neg h1, if_neg h1]
  constructor
  · refine ext_blk3 (a := K + 4) (b := K + 3) hr hc rfl rfl fun i j hi hj => ?_
    rw [h1 i j hi hj]
    unfold augF
    rw [ofBlk_blk3 _ hi hj]
    simp
  · refine ext_blk3 (a := K + 4) (b := K + 3) hr hc rfl rfl fun i j hi hj => ?_
    unfold augF
    rw [ofBlk_blk3 _ hi hj]
    by_cases hij : i = K + 1 ∧ j = 0
    · obtain ⟨rfl, rfl⟩ := hij
      rw [if_pos rfl, if_neg (by omega), if_pos (by simp)]
      exact blk3_setBlockP_same (by simp; omega) (by simp; omega)
    · rw [blk3_setBlockP_disj (by simp; omega) (by simp; omega) (by omega), h1 i j hi hj]
      by_cases h1 : i = K + 1
      · rw [if_pos h1, if_pos h1]
        by_cases h2 : j = 2
        · rw [if_pos h2, if_pos h2]
        · rw [if_neg h2, if_neg h2, if_neg (fun h => hij ⟨h1, h.2⟩)]
      · rw [if_neg h1, if_neg h1]

theorem augG_eq (K : ℕ) (W : M3) : (zero (3 * K + 9 + 3) 3).setBlockP (3 * K + 9 + 3 - 6 - 3) 0 (of3 W) = augG K W := by
  refine ext_blk3 (a := K + 4) (b := 1) (by simp; ring) (by simp) rfl rfl fun i j hi hj => ?_
  unfold augG
  rw [ofBlk_blk3 _ hi hj]
  obtain rfl : j = 0 := by omega
  by_cases h : i = K + 1
  · subst h
    rw [if_pos rfl, show 3 * (K + 1) = 3 * K + 9 + 3 - 6 - 3 by omega]
    exact blk3_setBlockP_same (by simp) (by simp)
  · rw [if_neg h, blk3_setBlockP_disj (by simp) (by simp) (by omega)]
    funext k l; simp

/-- value of `augment` on a well-formed state -/
theorem augment_eq {K h s} (g : Good K h s) (c : LegCorr) (pose : V3) (cov : M3) {P : Mat}
    (hPr : P.rows = 3 * K + 9) (hPc : P.cols = 3 * K + 9) :
    c.augment s pose cov P = some (s.X.blkV 0 4 + (s.X.blk3 0 0).mulVec pose,
      augP K (decide (c.errorType = .leftInvariant)) pose
        (if c.errorType = .leftInvariant then 1 else s.X.blk3 0 0) cov P) := by
  have x1 := g.shape.x.rows; have x2 := g.shape.x.cols; have hK := g.shape.k
  have hp : s.dimP = 3 * K + 9 := g.shape.pc
  have ht : s.dimTheta = 6 := g.shape.thr
  have e0 : s.get_rotation = some (s.X.blk3 0 0) := blk3?_eq (by omega) (by omega)
  have e4 : s.get_position = some (s.X.blkV 0 4) := blkV?_eq (by omega) (by omega)
  have eW : s.get_world_rotation = some (s.X.blk3 0 0) := by unfold get_world_rotation; rw [g.world]; exact e0
  obtain ⟨hF1, hF2⟩ := augF_eq hK pose
  unfold LegCorr.augment
  rw [hp, ht, if_neg (by omega), e0, e4, eW, g.world]
  simp only [Option.bind_eq_bind, Option.bind_some, reduceCtorEq, false_and, or_false, true_and]
  rw [show 3 * K + 9 - 6 = 3 * K + 3 by omega]
  rw [setBlock?_eq (by simp <;> omega) (by simp), Option.bind_some, setBlock?_eq (by simp) (by simp), Option.bind_some]
  have hfin : ∀ (l : Bool) (W : M3), (augF K l pose).mul? P = some (augF K l pose * P) ∧
      (augF K l pose * P).mul? (augF K l pose).T = some (augF K l pose * P * (augF K l pose).T) ∧
      (augG K W).mul? (of3 cov) = some (augG K W * of3 cov) ∧
      (augG K W * of3 cov).mul? (augG K W).T = some (augG K W * of3 cov * (augG K W).T) ∧
      (augF K l pose * P * (augF K l pose).T).add? (augG K W * of3 cov * (augG K W).T) = some (augP K l pose W cov P) := by
    intro l W
    refine ⟨mul?_eq (by simp [hPr]; ring), mul?_eq (by simp [hPc]; ring), mul?_eq (by simp), mul?_eq (by simp), ?_⟩
    rw [add?_eq (by simp) (by simp)]; rfl
  cases het : c.errorType with
  | rightInvariant =>
    rw [if_pos (by simp)]
    simp only [setBlockP_rows, zero_rows]
    rw [setBlock?_eq (by simp) (by simp <;> omega), Option.bind_some, hF1]
    rw [setBlock?_eq (by simp; omega) (by simp), Option.bind_some, show (augF K false pose).rows - 6 - 3 = 3 * K + 9 + 3 - 6 - 3 by simp; omega, augG_eq]
    simp only [Option.bind_some]
    obtain ⟨f1, f2, f3, f4, f5⟩ := hfin false (s.X.blk3 0 0)
    rw [f1, Option.bind_some, f2, Option.bind_some, f3, Option.bind_some, f4, Option.bind_some, f5, Option.bind_some]
    rfl
  | leftInvariant =>
    rw [if_neg (by simp)]
    simp only [setBlockP_rows, zero_rows]
    rw [setBlock?_eq (by simp) (by simp <;> omega), Option.bind_some, setBlock?_eq (by simp) (by simp <;> omega), Option.bind_some, hF2]
    rw [setBlock?_eq (by simp; omega) (by simp), Option.bind_some, show (augF K true pose).rows - 6 - 3 = 3 * K + 9 + 3 - 6 - 3 by simp; omega, augG_eq]
    simp only [Option.bind_some]
    obtain ⟨f1, f2, f3, f4, f5⟩ := hfin true 1
    rw [f1, Option.bind_some, f2, Option.bind_some, f3, Option.bind_some, f4, Option.bind_some, f5, Option.bind_some]
    rfl

theorem augP_psd {K l pose W cov P} (hP : PSD P) (hr : P.rows = 3 * K + 9) (hc : PSD (of3 cov)) :
    PSD (augP K l pose W cov P) :=
  PSD.add rfl (hP.congr (by simp [hr]; ring)) (hc.congr (by simp))

@[simp] theorem augP_rows (K l pose W cov P) : (augP K l pose W cov P).rows = 3 * (K + 4) := rfl
@[simp] theorem augP_cols (K l pose W cov P) : (augP K l pose W cov P).cols = 3 * (K + 4) := rfl

theorem sel_augF (K l pose) : sel (3 * K + 12) (3 * K + 3) 3 * augF K l pose = one (3 * K + 9) := by
  refine ext' (by simp) (by simp; ring) fun i j hi hj => ?_
  simp only [mul_rows, mul_cols, sel_rows, augF_cols] at hi hj
  rw [sel_mul_e (by omega) (by omega), one_e]
  unfold augF skip
  rw [ofBlk_e _ (by split_ifs <;> omega) (by omega)]
  have hm : ∀ (a b : ℕ) , (1 : M3) ⟨a % 3, Nat.mod_lt _ (by norm_num)⟩ ⟨b % 3, Nat.mod_lt _ (by norm_num)⟩ =
    if a % 3 = b % 3 then 1 else 0 := fun a b => one_fin_eq _ _
  by_cases h1 : i < 3 * K + 3
  · simp only [if_pos h1]
    rw [if_neg (by omega), if_pos (by omega)]
    by_cases h2 : i / 3 = j / 3
    · rw [if_pos h2, hm]
      by_cases h3 : i = j
      · rw [if_pos (by rw [h3]), if_pos ⟨by omega, h3⟩]
      · rw [if_neg (by omega), if_neg (by omega)]
    · rw [if_neg h2]; exact (if_neg (by omega)).symm
  · simp only [if_neg h1]
    rw [if_neg (by omega), if_neg (by omega)]
    by_cases h2 : (i + 3) / 3 - 1 = j / 3
    · rw [if_pos h2, hm]
      by_cases h3 : i = j
      · rw [if_pos (by omega), if_pos ⟨by omega, h3⟩]
      · rw [if_neg (by omega), if_neg (by omega)]
    · rw [if_neg h2]; exact (if_neg (by omega)).symm

theorem sel_augG (K W) : sel (3 * K + 12) (3 * K + 3) 3 * augG K W = zero (3 * K + 9) 3 := by
  refine ext' (by simp) (by simp) fun i j hi hj => ?_
  simp only [mul_rows, mul_cols, sel_rows, augG_cols] at hi hj
  rw [sel_mul_e (by omega) (by omega), zero_e]
  unfold augG skip
  rw [ofBlk_e _ (by split_ifs <;> omega) (by omega), if_neg (by split_ifs <;> omega)]
  rfl

/-- the covariance of the existing states is not changed -/
theorem augP_deletes {K l pose W cov P} (hr : P.rows = 3 * K + 9) (hc : P.cols = 3 * K + 9) :
    Deletes (augP K l pose W cov P) P (3 * K + 3) 3 := by
  have h := eq_deletes (M := augP K l pose W cov P) (n := 3 * K + 12) (i := 3 * K + 3) (k := 3) (by simp; ring)
    (by simp; ring) (by omega)
  have e : sel (3 * K + 12) (3 * K + 3) 3 * augP K l pose W cov P * (sel (3 * K + 12) (3 * K + 3) 3).T = P := by
    unfold augP
    set S := sel (3 * K + 12) (3 * K + 3) 3 with hS
    rw [mul_add' _ (by simp) (by simp), add_mul' _ (by simp) (by simp)]
    have e1 : S * (augF K l pose * P * (augF K l pose).T) * S.T = P := by
      have : S * (augF K l pose * P * (augF K l pose).T) * S.T = (S * augF K l pose) * P * (S * augF K l pose).T := by
        rw [T_mul (by simp [hS]; ring)]; simp only [mul_assoc']
      rw [this, hS, sel_augF, T_one, one_mul_of hr, mul_one_of hc]
    have e2 : S * (augG K W * of3 cov * (augG K W).T) * S.T = zero (3 * K + 9) (3 * K + 9) := by
      have : S * (augG K W * of3 cov * (augG K W).T) * S.T = (S * augG K W) * of3 cov * (S * augG K W).T := by
        rw [T_mul (by simp [hS]; ring)]; simp only [mul_assoc']
      rw [this, hS, sel_augG, zero_mul', T_zero, mul_zero']
      rfl
    rw [e1, e2, add_zero']
  rw [e] at h
  exact h

end Drift
