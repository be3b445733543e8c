import Verif.Lemmas.Legged5

/-! # Lemmas: left- and right-invariant covariances under augmentation and removal -/
set_option linter.unusedSimpArgs false
namespace Drift
open Mat Matrix Finset RobotState

theorem adjF_alt (R : M3) (p : ℕ → V3) (i k : ℕ) : adjF R p i k =
    if k = 0 then (if i = 0 then R else skew (p (i - 1)) * R) else if i = k then R else 0 := by
  unfold adjF
  by_cases hk : k = 0
  · subst hk; simp
  · simp [hk]

/-- blocks of `Ad_X ⊕ I` -/
noncomputable def legEaF (K : ℕ) (X : Mat) (i j : ℕ) : M3 :=
  if i ≤ K ∧ j ≤ K then adjF (X.blk3 0 0) (fun k => X.blkV 0 (3 + k)) i j else if i = j then 1 else 0

theorem EA_eq (K : ℕ) (X : Mat) : EA K X = ofBlk (K + 3) (K + 3) (legEaF K X) := by
  refine ext_blk3 (a := K + 3) (b := K + 3) (by simp; ring) (by simp; ring) rfl rfl fun i j hi hj => ?_
  rw [ofBlk_blk3 _ hi hj]
  unfold legEaF
  by_cases h : i ≤ K ∧ j ≤ K
  · rw [if_pos h]
    have e : AdM K X = ofBlk (K + 1) (K + 1) (adjF (X.blk3 0 0) (fun k => X.blkV 0 (3 + k))) := rfl
    rw [← ofBlk_blk3 (a := K + 1) (b := K + 1) (adjF (X.blk3 0 0) (fun k => X.blkV 0 (3 + k))) (by omega) (by omega), ← e]
    funext k l
    have hk := k.2; have hl := l.2
    rw [blk3_apply, blk3_apply]
    unfold EA
    rw [bd_e (m := 3 * (K + 1)) rfl rfl (by omega), if_pos (by omega)]
  · rw [if_neg h]
    funext k l
    have hk := k.2; have hl := l.2
    rw [blk3_apply]
    unfold EA
    rw [bd_e (m := 3 * (K + 1)) rfl rfl (by omega), if_neg (by omega)]
    by_cases hij : i = j
    · subst hij
      rw [if_pos rfl, Matrix.one_apply]
      by_cases hkl : k = l
      · subst hkl
        rw [if_pos (by omega), if_pos rfl]
      · have : (k : ℕ) ≠ l := fun h => hkl (Fin.ext h)
        rw [if_neg (by omega), if_neg hkl]
    · rw [if_neg hij, if_neg (by omega)]; rfl

theorem sum_delta (n : ℕ) (f : ℕ → M3) {a : ℕ} (ha : a < n) (d : ℕ → M3) (hd : d a = 1) (hd0 : ∀ k, k ≠ a → d k = 0) :
    ∑ k ∈ range n, f k * d k = f a := by
  rw [sum_eq_single_of_mem a (mem_range.mpr ha) (fun k _ hk => by rw [hd0 k hk, Matrix.mul_zero]), hd, Matrix.mul_one]

theorem sum_delta' (n : ℕ) (f : ℕ → M3) {a : ℕ} (ha : a < n) (d : ℕ → M3) (hd : d a = 1) (hd0 : ∀ k, k ≠ a → d k = 0) :
    ∑ k ∈ range n, d k * f k = f a := by
  rw [sum_eq_single_of_mem a (mem_range.mpr ha) (fun k _ hk => by rw [hd0 k hk, Matrix.zero_mul]), hd, Matrix.one_mul]

/-- a matrix extending `X` by one column `aug` -/
structure Extends (K : ℕ) (X X' : Mat) (aug : V3) : Prop where
  rot : X'.blk3 0 0 = X.blk3 0 0
  old : ∀ k, k < K → X'.blkV 0 (3 + k) = X.blkV 0 (3 + k)
  new : X'.blkV 0 (3 + K) = aug

theorem augF_intertwine {K : ℕ} (hK : 2 ≤ K) {X X' : Mat} (hR : IsRot (X.blk3 0 0)) {pose : V3}
    (hx : Extends K X X' (X.blkV 0 4 + (X.blk3 0 0).mulVec pose)) :
    augF K false pose * EA K X = EA (K + 1) X' * augF K true pose := by
  rw [EA_eq, EA_eq]
  unfold augF
  rw [ofBlk_mul, show K + 1 + 3 = K + 4 by ring, ofBlk_mul]
  refine ofBlk_congr fun i j hi hj => ?_
  set R := X.blk3 0 0 with hRd
  have hRHS : ∀ i k, k < K + 4 → legEaF (K + 1) X' i k = if i ≤ K + 1 ∧ k ≤ K + 1 then
      (if k = 0 then (if i = 0 then R else skew (X'.blkV 0 (3 + (i - 1))) * R) else if i = k then R else 0)
      else if i = k then 1 else 0 := by
    intro i k hk
    unfold legEaF; simp only [adjF_alt]
    rw [hx.rot]
  have hold : ∀ i j, i ≤ K → j ≤ K → legEaF (K + 1) X' i j = legEaF K X i j := by
    intro i j hi hj
    unfold legEaF; simp only [adjF_alt]
    rw [if_pos (c := i ≤ K + 1 ∧ j ≤ K + 1) (by omega), if_pos (c := i ≤ K ∧ j ≤ K) (by omega), hx.rot]
    by_cases hj0 : j = 0
    · by_cases hi0 : i = 0
      · simp [hj0, hi0]
      · simp only [hj0, hi0, if_true, if_false]
        rw [hx.old (i - 1) (by omega)]
    · simp only [hj0, if_false]
  by_cases hi1 : i = K + 1
  · -- new row
    subst hi1
    rw [sum_delta' (a := 2) (ha := by omega) (f := fun k => legEaF K X k j) (hd := by simp) (hd0 := fun k hk => by simp [hk])]
    rw [← sum_subset (s₁ := {0, K + 1}) (by intro x hx; simp at hx ⊢; omega)]
    · rw [sum_pair (by omega)]
      rw [hRHS _ _ (by omega), hRHS _ _ (by omega)]
      have hn : X'.blkV 0 (3 + (K + 1 - 1)) = X.blkV 0 4 + R.mulVec pose := by rw [Nat.add_sub_cancel, hx.new]
      rw [hn]
      unfold legEaF; simp only [adjF_alt]
      by_cases hj0 : j = 0
      · subst hj0
        simp only [show (2 : ℕ) ≤ K from hK, Nat.zero_le, and_self, if_true, show (2 : ℕ) ≠ 0 by norm_num, if_false,
          le_refl, show K + 1 ≠ 0 by omega, show ¬ (0 : ℕ) = K + 1 by omega, show (0 : ℕ) < K + 1 by omega,
          show ¬ (0 : ℕ) = 2 by norm_num, Matrix.mul_one]
        rw [skew_add, Matrix.add_mul, skew_neg, Matrix.mul_neg, rot_skew hR]
        simp only [← hRd, show 3 + (2 - 1) = 4 from rfl]
        simp
      · by_cases hj2 : j = 2
        · subst hj2
          simp [hK, show ¬ (0 : ℕ) = K + 1 by omega, ← hRd]
        · by_cases hjK : j ≤ K
          · simp [hK, hjK, hj0, hj2, Ne.symm hj0, Ne.symm hj2, show ¬ (0 : ℕ) = K + 1 by omega]
          · simp [hK, hjK, hj0, hj2, Ne.symm hj0, Ne.symm hj2, show ¬ (0 : ℕ) = K + 1 by omega]
    · intro k hk hk'
      simp at hk hk'
      rw [hRHS _ _ hk]
      by_cases hkK : k ≤ K + 1
      · rw [if_pos (by omega), if_neg hk'.1, if_neg (Ne.symm hk'.2), Matrix.zero_mul]
      · rw [if_neg (by omega), if_neg (Ne.symm hk'.2), Matrix.zero_mul]
  · by_cases hi2 : i < K + 1
    · -- old rows
      rw [sum_delta' (a := i) (ha := by omega) (f := fun k => legEaF K X k j) (hd := by simp [hi1, hi2])
        (hd0 := fun k hk => by simp [hi1, hi2, Ne.symm hk])]
      by_cases hjK : j ≤ K
      · rw [sum_eq_single_of_mem j (mem_range.mpr (by omega))]
        · simp only [show j ≠ K + 1 by omega, if_false, show j < K + 1 by omega, if_true, Matrix.mul_one]
          rw [hold i j (by omega) hjK]
        · intro k hk hkj
          by_cases hk1 : k = K + 1
          · rw [hRHS _ _ (mem_range.mp hk), hk1, if_pos (by omega), if_neg (by omega), if_neg hi1, Matrix.zero_mul]
          · by_cases hk2 : k < K + 1
            · simp [hk1, hk2, hkj]
            · simp only [hk1, hk2, if_false]
              rw [if_neg (by omega), Matrix.mul_zero]
      · rw [show legEaF K X i j = 0 by unfold legEaF; rw [if_neg (by omega), if_neg (by omega)]]
        symm
        refine sum_eq_zero fun k hk => ?_
        by_cases hk1 : k = K + 1
        · rw [hRHS _ _ (mem_range.mp hk), hk1, if_pos (by omega), if_neg (by omega), if_neg hi1, Matrix.zero_mul]
        · by_cases hk2 : k < K + 1
          · simp only [hk1, hk2, if_false, if_true]
            rw [if_neg (by omega), Matrix.mul_zero]
          · rw [hRHS _ _ (mem_range.mp hk), if_neg (by omega), if_neg (by omega), Matrix.zero_mul]
    · -- bias rows
      rw [sum_delta' (a := i - 1) (ha := by omega) (f := fun k => legEaF K X k j) (hd := by simp [hi1, hi2])
        (hd0 := fun k hk => by simp [hi1, hi2, Ne.symm hk])]
      have hL : legEaF K X (i - 1) j = if i - 1 = j then 1 else 0 := by unfold legEaF; rw [if_neg (by omega)]
      rw [hL, sum_delta' (a := i) (ha := hi)
        (f := fun k => if k = K + 1 then (if j = 2 then (1 : M3) else if true = true ∧ j = 0 then skew (-pose) else 0)
          else if k < K + 1 then (if k = j then 1 else 0) else (if k - 1 = j then 1 else 0))
        (hd := by rw [hRHS _ _ hi, if_neg (by omega), if_pos rfl])
        (hd0 := fun k hk => by
          unfold legEaF; rw [if_neg (by omega), if_neg (Ne.symm hk)])]
      simp [hi1, hi2]

theorem augG_intertwine {K : ℕ} {X X' : Mat} {aug : V3} (hx : Extends K X X' aug) :
    augG K (X.blk3 0 0) = EA (K + 1) X' * augG K 1 := by
  rw [EA_eq]
  unfold augG
  rw [show K + 1 + 3 = K + 4 by ring, ofBlk_mul]
  refine ofBlk_congr fun i j hi hj => ?_
  rw [sum_delta (a := K + 1) (ha := by omega) (f := fun k => legEaF (K + 1) X' i k) (hd := by simp)
    (hd0 := fun k hk => by simp [hk])]
  unfold legEaF; simp only [adjF_alt]
  rw [hx.rot]
  by_cases h : i = K + 1
  · subst h; simp
  · by_cases h2 : i ≤ K + 1
    · simp [h, h2]
    · simp [h, h2]

/-- augmentation keeps the two covariances related -/
theorem augP_related {K : ℕ} (hK : 2 ≤ K) {X X' PL : Mat} (hR : IsRot (X.blk3 0 0)) {pose : V3} {cov : M3}
    (hx : Extends K X X' (X.blkV 0 4 + (X.blk3 0 0).mulVec pose)) (hr : PL.rows = 3 * K + 9) (hc : PL.cols = 3 * K + 9) :
    augP K false pose (X.blk3 0 0) cov (EA K X * PL * (EA K X).T) =
      EA (K + 1) X' * augP K true pose 1 cov PL * (EA (K + 1) X').T := by
  have h1 := augF_intertwine hK hR hx
  have h2 := augG_intertwine hx
  unfold augP
  rw [mul_add' _ (by simp) (by simp), add_mul' _ (by simp) (by simp)]
  congr 1
  · have e1 : augF K false pose * (EA K X * PL * (EA K X).T) * (augF K false pose).T =
        (augF K false pose * EA K X) * PL * (augF K false pose * EA K X).T := by
      rw [T_mul (by simp; ring)]; simp only [mul_assoc']
    rw [e1, h1, T_mul (by simp; ring)]
    simp only [mul_assoc']
  · rw [h2, T_mul (by simp; ring)]
    simp only [mul_assoc']

/-! ### removal -/

theorem sel_blk {n j0 : ℕ} (hj : j0 ≤ n) : sel (3 * (n + 1)) (3 * j0) 3 =
    ofBlk n (n + 1) fun i j => if j = skip j0 1 i then 1 else 0 := by
  refine ext_blk3 (a := n) (b := n + 1) (by simp; omega) (by simp) rfl rfl fun i j hi hj' => ?_
  rw [ofBlk_blk3 _ hi hj']
  funext k l
  have hk := k.2; have hl := l.2
  rw [blk3_apply]
  unfold sel
  rw [ofFn_e_of_lt (by omega) (by omega)]
  unfold skip
  by_cases hij : i < j0
  · rw [if_pos hij, if_pos (c := 3 * i + (k : ℕ) < 3 * j0) (by omega)]
    by_cases h : j = i
    · subst h
      rw [if_pos rfl, Matrix.one_apply]
      by_cases hkl : k = l
      · subst hkl; rw [if_pos rfl, if_pos rfl]
      · have : (k : ℕ) ≠ l := fun h => hkl (Fin.ext h)
        rw [if_neg (by omega), if_neg hkl]
    · rw [if_neg h, if_neg (by omega)]; rfl
  · rw [if_neg hij, if_neg (c := 3 * i + (k : ℕ) < 3 * j0) (by omega)]
    by_cases h : j = i + 1
    · subst h
      rw [if_pos rfl, Matrix.one_apply]
      by_cases hkl : k = l
      · subst hkl; rw [if_pos (by omega), if_pos rfl]
      · have : (k : ℕ) ≠ l := fun h => hkl (Fin.ext h)
        rw [if_neg (by omega), if_neg hkl]
    · rw [if_neg h, if_neg (by omega)]; rfl

theorem sel_intertwine {K col : ℕ} (h5 : 5 ≤ col) (hcol : col < 4 + K) {X X' : Mat} (hr : X.rows = 4 + K)
    (hc : X.cols = 4 + K) (hK : 2 ≤ K) (hd : Deletes X X' col 1) :
    sel (3 * (K + 1) + 9) (3 * col - 6) 3 * EA (K + 1) X = EA K X' * sel (3 * (K + 1) + 9) (3 * col - 6) 3 := by
  have hsel : sel (3 * (K + 1) + 9) (3 * col - 6) 3 = ofBlk (K + 3) (K + 4) fun i j => if j = skip (col - 2) 1 i then 1 else 0 := by
    rw [← sel_blk (by omega)]
    congr 1 <;> omega
  rw [hsel, EA_eq, EA_eq, show K + 1 + 3 = K + 4 by ring, ofBlk_mul, ofBlk_mul]
  refine ofBlk_congr fun i j hi hj => ?_
  have hski : skip (col - 2) 1 i < K + 4 := by unfold skip; split_ifs <;> omega
  rw [sum_delta' (a := skip (col - 2) 1 i) (ha := hski) (f := fun k => legEaF (K + 1) X k j) (hd := by simp)
    (hd0 := fun k hk => by rw [if_neg hk])]
  have hXe : ∀ a b, a < 3 → b < 3 + K → X'.e a b = X.e a (skip col 1 b) := by
    intro a b ha hb
    rw [hd.2.2 a b (by omega) (by omega)]
    congr 1
    unfold skip; rw [if_pos (by omega)]
  have hrot : X'.blk3 0 0 = X.blk3 0 0 := by
    funext a b
    have hb := b.2
    rw [blk3_apply, blk3_apply, Nat.zero_add, Nat.zero_add, hXe _ _ a.2 (by omega)]
    congr 1
    unfold skip; rw [if_pos (by omega)]
  have hvec : ∀ k, k < K → X'.blkV 0 (3 + k) = X.blkV 0 (skip col 1 (3 + k)) := by
    intro k hk
    funext a
    rw [blkV_apply, blkV_apply, Nat.zero_add, hXe _ _ a.2 (by omega)]
  by_cases hj0 : j = col - 2
  · -- the deleted column
    rw [sum_eq_zero]
    · subst hj0
      unfold legEaF; simp only [adjF_alt]
      have hne : skip (col - 2) 1 i ≠ col - 2 := by unfold skip; split_ifs <;> omega
      by_cases hc : skip (col - 2) 1 i ≤ K + 1 ∧ col - 2 ≤ K + 1
      · rw [if_pos hc, if_neg (by omega), if_neg hne]
      · rw [if_neg hc, if_neg hne]
    · intro k hk
      rw [if_neg, Matrix.mul_zero]
      unfold skip; split_ifs <;> omega
  · -- another column
    set j' := if j < col - 2 then j else j - 1 with hj'
    have hjj : j = skip (col - 2) 1 j' := by rw [hj']; unfold skip; split_ifs <;> omega
    have hjlt : j' < K + 3 := by rw [hj']; split_ifs <;> omega
    rw [sum_delta (a := j') (ha := hjlt) (f := fun k => legEaF K X' i k) (hd := by rw [← hjj, if_pos rfl])
      (hd0 := fun k hk => by
        rw [if_neg]
        intro hcon
        rw [hjj] at hcon
        unfold skip at hcon
        split_ifs at hcon <;> omega)]
    have hskle : ∀ a, skip (col - 2) 1 a ≤ K + 1 ↔ a ≤ K := by intro a; unfold skip; split_ifs <;> omega
    have hskinj : ∀ a b, skip (col - 2) 1 a = skip (col - 2) 1 b ↔ a = b := by
      intro a b; unfold skip; split_ifs <;> omega
    have hsk0 : ∀ a, skip (col - 2) 1 a = 0 ↔ a = 0 := by
      intro a
      have h0 : skip (col - 2) 1 0 = 0 := by unfold skip; rw [if_pos (by omega)]
      rw [← hskinj a 0, h0]
    rw [hjj]
    unfold legEaF; simp only [adjF_alt]
    simp only [hskle, hskinj, hsk0, hrot]
    by_cases hb : i ≤ K ∧ j' ≤ K
    · rw [if_pos hb, if_pos hb]
      by_cases hj00 : j' = 0
      · rw [if_pos hj00, if_pos hj00]
        by_cases hi00 : i = 0
        · rw [if_pos hi00, if_pos hi00]
        · rw [if_neg hi00, if_neg hi00, hvec (i - 1) (by omega)]
          congr 3
          unfold skip
          split_ifs <;> omega
      · rw [if_neg hj00, if_neg hj00]
    · rw [if_neg hb, if_neg hb]

/-- removal keeps the two covariances related -/
theorem del_related {K col : ℕ} (h5 : 5 ≤ col) (hcol : col < 4 + K) (hK : 2 ≤ K) {X X' PL PR PL' PR' : Mat}
    (hr : X.rows = 4 + K) (hc : X.cols = 4 + K) (hd : Deletes X X' col 1)
    (hLr : PL.rows = 3 * (K + 1) + 9) (hLc : PL.cols = 3 * (K + 1) + 9)
    (hL : Deletes PL PL' (3 * col - 6) 3) (hR : Deletes PR PR' (3 * col - 6) 3)
    (h : PR = EA (K + 1) X * PL * (EA (K + 1) X).T) : PR' = EA K X' * PL' * (EA K X').T := by
  have hi := sel_intertwine h5 hcol hr hc hK hd
  set S := sel (3 * (K + 1) + 9) (3 * col - 6) 3 with hS
  have e1 : PL' = S * PL * S.T := deletes_eq hLr hLc (by omega) hL
  have e2 : PR' = S * PR * S.T := deletes_eq (by rw [h]; simp) (by rw [h]; simp) (by omega) hR
  rw [e2, h, e1]
  have a1 : S * (EA (K + 1) X * PL * (EA (K + 1) X).T) * S.T = (S * EA (K + 1) X) * PL * (S * EA (K + 1) X).T := by
    rw [T_mul (by simp [hS])]; simp only [mul_assoc']
  rw [a1, hi, T_mul (by simp [hS]; omega)]
  simp only [mul_assoc']

end Drift
