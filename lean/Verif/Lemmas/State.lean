import Verif.Spec.State
import Verif.Lemmas.SEK3

/-! Helper lemmas on the state model. -/
set_option linter.unusedSimpArgs false
set_option linter.unnecessarySeqFocus false
namespace Drift
open Mat Matrix

/-- writing the columns of an SE_K(3)-shaped matrix one after the other -/
theorem fillCols {K : ℕ} {R : M3} (f : ℕ → V3) (g : ℕ → Mat → Option Mat)
    (hg : ∀ i X, i < K → X.rows = 3 + K → X.cols = 3 + K → g i X = X.setBlock? 0 (3 + i) (ofV (f i))) :
    forRange K (mkSE K R fun _ => 0) g = some (mkSE K R f) := by
  obtain ⟨t, ht, hI⟩ := forRange_inv
    (Inv := fun i X => X = mkSE K R (fun k => if k < i then f k else 0))
    (n := K) (s := mkSE K R fun _ => 0) (f := g)
    (by simp) (by
      rintro i X hi rfl
      refine ⟨_, by rw [hg i _ hi rfl rfl]; unfold setBlock?; rw [if_pos (by simp; omega)], ?_⟩
      refine ext' rfl rfl fun a b ha hb => ?_
      simp only [setBlockP_rows, setBlockP_cols, mkSE_rows, mkSE_cols] at ha hb
      rw [setBlockP_ofV_e (by simp) (by simp; omega)]
      unfold mkSE
      rw [ofFn_e_of_lt ha hb, ofFn_e_of_lt ha hb]
      by_cases ha3 : a < 3
      · by_cases hbi : b = 3 + i
        · subst hbi
          rw [dif_pos (by omega), dif_pos ha3, dif_neg (by omega)]
          simp
        · rw [dif_neg (by omega), dif_pos ha3, dif_pos ha3]
          by_cases hb3 : b < 3
          · rw [dif_pos hb3, dif_pos hb3]
          · rw [dif_neg hb3, dif_neg hb3]
            show (if b - 3 < i then _ else _ : V3) _ = (if b - 3 < i + 1 then _ else _ : V3) _
            by_cases hbi' : b - 3 < i
            · rw [if_pos hbi', if_pos (by omega)]
            · rw [if_neg hbi', if_neg (by omega)]
      · rw [dif_neg (by omega), dif_neg ha3, dif_neg ha3])
  rw [ht, hI]
  congr 1
  exact mkSE_congr rfl fun k hk => by simp [hk]

theorem one_setRot (K : ℕ) (R : M3) :
    (one (3 + K)).setBlock? 0 0 (of3 R) = some (mkSE K R fun _ => 0) := by
  unfold setBlock?
  rw [if_pos (by simp)]
  congr 1
  refine ext' rfl rfl fun i j hi hj => ?_
  simp only [setBlockP_rows, setBlockP_cols, one_rows, one_cols] at hi hj
  rw [setBlockP_of3_e (by simp) (by simp)]
  unfold mkSE
  rw [ofFn_e_of_lt hi hj, one_e]
  by_cases hi3 : i < 3 <;> by_cases hj3 : j < 3
  · rw [dif_pos (by omega), dif_pos hi3, dif_pos hj3]; simp
  · rw [dif_neg (by omega), dif_pos hi3, dif_neg hj3, if_neg (by omega)]; rfl
  · rw [dif_neg (by omega), dif_neg hi3, if_neg (by omega), if_neg (by omega)]
  · rw [dif_neg (by omega), dif_neg hi3]; simp [hi]

namespace RobotState

theorem get_Xinv_eq {s : RobotState} {K : ℕ} (hr : 3 ≤ s.X.rows) (hc : s.X.cols = 3 + K) :
    s.get_Xinv = some (mkSE K (s.X.blk3 0 0)ᵀ
      (fun k => (-(s.X.blk3 0 0)ᵀ).mulVec (s.X.blkV 0 (3 + k)))) := by
  unfold get_Xinv dimX
  have h0 : s.X.blk3? 0 0 = some (s.X.blk3 0 0) := by unfold blk3?; rw [if_pos (by omega)]
  simp only [h0, Option.bind_eq_bind, Option.bind_some, hc, one_setRot, Nat.add_sub_cancel_left]
  refine fillCols _ _ fun i X hi _ _ => ?_
  have : s.X.blkV? 0 (3 + i) = some (s.X.blkV 0 (3 + i)) := by unfold blkV?; rw [if_pos (by omega)]
  rw [this, Option.bind_some]

/-- Deleting rows and columns. -/
theorem removeRowAndColumn_eq {M : Mat} {i k : ℕ} (hs : M.rows = M.cols) (h : i + k ≤ M.cols) :
    removeRowAndColumn M i k =
      some (ofFn (M.cols - k) (M.cols - k) fun a b => M.e (skip i k a) (skip i k b)) := by
  unfold removeRowAndColumn
  simp only [Int.toNat_natCast]
  rw [if_neg (by omega)]
  have hn : ¬ M.rows < M.cols - i - k := by omega
  simp only [hn, if_false]
  have b1 : M.block? (M.rows - (M.cols - i - k)) 0 (M.cols - i - k) M.cols
      = some (M.blockP (M.rows - (M.cols - i - k)) 0 (M.cols - i - k) M.cols) := by
    unfold block?; rw [if_pos (by omega)]
  simp only [b1, Option.bind_eq_bind, Option.bind_some]
  have b2 : M.setBlock? i 0 (M.blockP (M.rows - (M.cols - i - k)) 0 (M.cols - i - k) M.cols)
      = some (M.setBlockP i 0 (M.blockP (M.rows - (M.cols - i - k)) 0 (M.cols - i - k) M.cols)) := by
    unfold setBlock?; rw [if_pos (by simp; omega)]
  rw [b2, Option.bind_some]
  set M1 := M.setBlockP i 0 (M.blockP (M.rows - (M.cols - i - k)) 0 (M.cols - i - k) M.cols) with hM1
  have hM1r : M1.rows = M.rows := rfl
  have hM1c : M1.cols = M.cols := rfl
  have b3 : M1.block? 0 (M.cols - (M.cols - i - k)) M1.rows (M.cols - i - k)
      = some (M1.blockP 0 (M.cols - (M.cols - i - k)) M1.rows (M.cols - i - k)) := by
    unfold block?; rw [if_pos (by omega)]
  rw [b3, Option.bind_some, if_neg (by omega)]
  set B := M1.blockP 0 (M.cols - (M.cols - i - k)) M1.rows (M.cols - i - k) with hB
  have hBr : B.rows = M.rows := rfl
  have hBc : B.cols = M.cols - i - k := rfl
  have b4 : M1.setBlock? 0 i B = some (M1.setBlockP 0 i B) := by
    unfold setBlock?; rw [if_pos (by omega)]
  rw [b4, Option.bind_some]
  congr 1
  refine ext' rfl rfl fun a b ha hb => ?_
  simp only [blockP_rows, blockP_cols] at ha hb
  rw [blockP_e, if_pos ⟨ha, hb⟩, ofFn_e_of_lt ha hb, Nat.zero_add, Nat.zero_add,
    setBlockP_e_in (by omega) (by omega)]
  have hM1e : ∀ a b, a < M.cols - k → b < M.cols → M1.e a b = M.e (skip i k a) b := by
    intro a b ha hb
    rw [hM1, setBlockP_e_in (by simp; omega) (by simp)]
    unfold skip
    by_cases hai : a < i
    · rw [if_neg (by simp; omega), if_pos hai]
    · rw [if_pos (by simp; omega), if_neg hai, blockP_e, if_pos (by omega)]
      congr 1 <;> omega
  by_cases hbi : b < i
  · rw [if_neg (by omega), hM1e a b ha (by omega)]
    congr 1; unfold skip; rw [if_pos hbi]
  · rw [if_pos (by omega), hB, blockP_e, if_pos (by omega), hM1e _ _ (by omega) (by omega)]
    have e1 : skip i k b = b + k := by unfold skip; rw [if_neg hbi]
    rw [e1]
    congr 1 <;> [congr 1; skip] <;> omega

theorem removeRowAndColumn_deletes {M : Mat} {i k : ℕ} (hs : M.rows = M.cols) (h : i + k ≤ M.cols) :
    ∃ M', removeRowAndColumn M i k = some M' ∧ Deletes M M' i k := by
  refine ⟨_, removeRowAndColumn_eq hs h, by simp [hs], rfl, fun a b ha hb => ?_⟩
  rw [ofFn_e_of_lt (by omega) hb]

/-- the shifting loop of `del_aug_state` -/
theorem shiftCols_spec {h : Heap} {m : List (Option ℕ)} {idx n : ℕ} (hlen : idx + n + 1 = m.length)
    (ht : ∀ j, idx ≤ j → j < m.length → ∃ a, m[j]? = some (some a) ∧ h.val a = j) :
    ∃ h' m', shiftCols h m idx n = some (h', m') ∧ m'.length = m.length ∧ h'.next = h.next ∧
      (∀ j, j < idx → m'[j]? = m[j]?) ∧
      (∀ j, idx ≤ j → j < idx + n → m'[j]? = m[j + 1]?) ∧
      (∀ a, (∀ j, idx < j → j < m.length → m[j]? ≠ some (some a)) → h'.val a = h.val a) ∧
      (∀ a j, idx < j → j < m.length → m[j]? = some (some a) → h'.val a = j - 1) := by
  unfold shiftCols
  obtain ⟨t, e, hI⟩ := forRange_inv
    (Inv := fun k (t : Heap × List (Option ℕ)) =>
      t.2.length = m.length ∧ t.1.next = h.next ∧
      (∀ j, j < idx → t.2[j]? = m[j]?) ∧
      (∀ j, idx ≤ j → j < idx + k → t.2[j]? = m[j + 1]?) ∧
      (∀ j, idx + k ≤ j → t.2[j]? = m[j]?) ∧
      (∀ a, (∀ j, idx < j → j ≤ idx + k → m[j]? ≠ some (some a)) → t.1.val a = h.val a) ∧
      (∀ a j, idx < j → j ≤ idx + k → m[j]? = some (some a) → t.1.val a = j - 1))
    (n := n) (s := (h, m))
    (f := fun k s => (s.2[idx + k + 1]?).bind fun q => q.bind fun a =>
      some (s.1.write a (s.1.val a - 1), s.2.set (idx + k) q))
    (by
      refine ⟨rfl, rfl, fun _ _ => rfl, fun j h1 h2 => by omega, fun _ _ => rfl, fun _ _ => rfl, ?_⟩
      intro a j h1 h2; omega)
    (by
      rintro k t hk ⟨i1, i2, i3, i4, i5, i6, i7⟩
      obtain ⟨a, ha, hv⟩ := ht (idx + k + 1) (by omega) (by omega)
      have hq : t.2[idx + k + 1]? = some (some a) := by rw [i5 _ (by omega), ha]
      have hinj : ∀ j j' b, idx < j → j < m.length → idx < j' → j' < m.length →
          m[j]? = some (some b) → m[j']? = some (some b) → j = j' := by
        intro j j' b hj hjl hj' hjl' e1 e2
        obtain ⟨c, hc, hcv⟩ := ht j (by omega) hjl
        obtain ⟨c', hc', hcv'⟩ := ht j' (by omega) hjl'
        rw [e1] at hc; rw [e2] at hc'
        simp only [Option.some.injEq] at hc hc'
        subst hc; subst hc'
        omega
      have hval : t.1.val a = ((idx + k + 1 : ℕ) : ℤ) := by
        rw [i6 a, hv]
        intro j h1 h2 hj
        have := hinj j (idx + k + 1) a h1 (by omega) (by omega) (by omega) hj ha
        omega
      refine ⟨_, by rw [hq, Option.bind_some, Option.bind_some], ?_⟩
      refine ⟨by simp [i1], i2, ?_, ?_, ?_, ?_, ?_⟩
      · intro j hj
        rw [List.getElem?_set_ne (by omega), i3 j hj]
      · intro j h1 h2
        by_cases hj : j = idx + k
        · subst hj
          rw [List.getElem?_set_self (by omega), ← ha]
        · rw [List.getElem?_set_ne (by omega), i4 j h1 (by omega)]
      · intro j hj
        rw [List.getElem?_set_ne (by omega), i5 j (by omega)]
      · intro b hb
        have hne : b ≠ a := by
          rintro rfl; exact hb (idx + k + 1) (by omega) (by omega) ha
        show (if b = a then _ else t.1.val b) = _
        rw [if_neg hne]
        exact i6 b fun j h1 h2 => hb j h1 (by omega)
      · intro b j h1 h2 hj
        show (if b = a then t.1.val a - 1 else t.1.val b) = _
        by_cases hba : b = a
        · subst hba
          rw [if_pos rfl, hval]
          have := hinj j (idx + k + 1) b h1 (by omega) (by omega) (by omega) hj ha
          subst this; rfl
        · rw [if_neg hba]
          refine i7 b j h1 ?_ hj
          rcases Nat.lt_or_ge j (idx + k + 1) with h | h
          · omega
          · exfalso
            have : j = idx + k + 1 := by omega
            subst this
            rw [ha] at hj
            exact hba (by simpa using hj.symm))
  refine ⟨t.1, t.2, e, hI.1, hI.2.1, hI.2.2.1, hI.2.2.2.1, ?_, ?_⟩
  · intro a ha; exact hI.2.2.2.2.2.1 a fun j h1 h2 => ha j h1 (by omega)
  · intro a j h1 h2 hj; exact hI.2.2.2.2.2.2 a j h1 (by omega) hj

/-- Full description of `del_aug_state` on a consistent state. -/
theorem del_aug_state_spec {h : Heap} {s : RobotState} {idx : ℕ} (hc : Consistent s)
    (ht : TableOK h s) (h5 : 5 ≤ idx) (hlt : idx < s.dimX) :
    ∃ h' s', s.del_aug_state h idx = some (h', s') ∧
      Deletes s.X s'.X idx 1 ∧ Deletes s.P s'.P (3 * idx - 6) 3 ∧ Deletes s.Qc s'.Qc (3 * idx - 6) 3 ∧
      s'.colMap.length + 1 = s.colMap.length ∧ h'.next = h.next ∧
      (∀ j, j < s'.colMap.length → s'.colMap[j]? = s.colMap[skip idx 1 j]?) ∧
      (∀ a, (∀ j, idx < j → s.colMap[j]? ≠ some (some a)) → h'.val a = h.val a) ∧
      (∀ a j, idx < j → s.colMap[j]? = some (some a) → h'.val a = j - 1) ∧
      s' = { s with X := s'.X, P := s'.P, Qc := s'.Qc, colMap := s'.colMap } := by
  have hl := hc.map_len
  have hx := hc.x_ge
  have hlt' : idx < s.X.cols := hlt
  obtain ⟨h', m', e, e1, e2, e3, e4, e5, e6⟩ := shiftCols_spec (h := h) (m := s.colMap) (idx := idx)
    (n := s.dimX - 1 - idx) (by unfold dimX; omega) (by
      intro j h1 h2
      obtain ⟨a, ha, hv, _⟩ := ht.2 j (by omega) h2
      exact ⟨a, ha, hv⟩)
  obtain ⟨X', hX', dX⟩ := removeRowAndColumn_deletes (M := s.X) (i := idx) (k := 1) hc.x_sq (by omega)
  have hp1 := hc.p_rows; have hp2 := hc.p_cols; have hq1 := hc.q_rows; have hq2 := hc.q_cols
  have ht6 := hc.th_rows
  obtain ⟨P', hP', dP⟩ := removeRowAndColumn_deletes (M := s.P) (i := 3 * idx - 6) (k := 3)
    (by omega) (by omega)
  obtain ⟨Q', hQ', dQ⟩ := removeRowAndColumn_deletes (M := s.Qc) (i := 3 * idx - 6) (k := 3)
    (by omega) (by omega)
  have ecast : (3 : ℤ) + 3 * ((idx : ℤ) - 3) = ((3 * idx - 6 : ℕ) : ℤ) := by omega
  have hne : m' ≠ [] := by
    intro h0; rw [h0] at e1; simp at e1; omega
  refine ⟨h', { s with X := X', P := P', Qc := Q', colMap := m'.dropLast }, ?_, dX, dP, dQ, ?_, e2, ?_, ?_, ?_, rfl⟩
  · unfold del_aug_state
    rw [if_neg (by omega)]
    simp only [Int.toNat_natCast, e, Option.bind_eq_bind, Option.bind_some, hne, if_false, hX', ecast, hP',
      hQ']
  · show m'.dropLast.length + 1 = _
    rw [List.length_dropLast]; omega
  · intro j hj
    have hj' : j < m'.length - 1 := by simpa [List.length_dropLast] using hj
    show m'.dropLast[j]? = _
    rw [List.getElem?_dropLast, if_pos hj']
    unfold skip
    by_cases hji : j < idx
    · rw [if_pos hji, e3 j hji]
    · rw [if_neg hji, e4 j (by omega) (by unfold dimX; omega)]
  · intro a ha; exact e5 a fun j h1 _ => ha j h1
  · intro a j h1 h2
    have : j < s.colMap.length := by
      by_contra hcon
      rw [List.getElem?_eq_none (by omega)] at h2
      simp at h2
    exact e6 a j h1 this h2

/-- the enlarged noise covariance: never fails on sizes that occur, sizes grow by three, and the new
block is the given noise -/
theorem augQc_spec {Qc : Mat} {dX : ℕ} {noise : M3} (h5 : 5 ≤ dX) (hr : Qc.rows = 3 * dX)
    (hc : Qc.cols = 3 * dX) :
    ∃ Q, augQc Qc 6 (dX + 1) noise = some Q ∧ Q.rows = Qc.rows + 3 ∧ Q.cols = Qc.cols + 3 ∧
      ∀ i j, i < Qc.rows + 3 → j < Qc.cols + 3 → Q.e i j =
        if h : (Qc.cols - 6 ≤ i ∧ i < Qc.cols - 3) ∧ (Qc.cols - 6 ≤ j ∧ j < Qc.cols - 3) then
          noise ⟨i - (Qc.cols - 6), by omega⟩ ⟨j - (Qc.cols - 6), by omega⟩
        else if Qc.cols - 3 ≤ i ∧ Qc.cols - 3 ≤ j then Qc.e (i - 3) (j - 3)
        else if i ≤ dX ∧ Qc.cols - 3 ≤ j then Qc.e i (j - 3)
        else if Qc.cols - 3 ≤ i ∧ j ≤ dX then Qc.e (i - 3) j
        else if i ≤ dX ∧ j ≤ dX then Qc.e i j
        else 0 := by
  unfold augQc
  have b1 : Qc.block? 0 0 (dX + 1) (dX + 1) = some (Qc.blockP 0 0 (dX + 1) (dX + 1)) := by
    unfold block?; rw [if_pos (by omega)]
  simp only [b1, Option.bind_eq_bind, Option.bind_some]
  have s1 : ∀ (A B : Mat) (r c : ℕ), r + B.rows ≤ A.rows → c + B.cols ≤ A.cols →
      A.setBlock? r c B = some (A.setBlockP r c B) := by
    intro A B r c h1 h2; unfold setBlock?; rw [if_pos ⟨h1, h2⟩]
  rw [s1 _ _ _ _ (by simp <;> omega) (by simp <;> omega), Option.bind_some]
  have hn : ¬ (Qc.rows < 6 ∨ Qc.cols < 6) := by omega
  rw [if_neg hn]
  have b2 : Qc.block? (Qc.rows - 6) 0 6 (dX + 1) = some (Qc.blockP (Qc.rows - 6) 0 6 (dX + 1)) := by
    unfold block?; rw [if_pos (by omega)]
  have b3 : Qc.block? 0 (Qc.cols - 6) (dX + 1) 6 = some (Qc.blockP 0 (Qc.cols - 6) (dX + 1) 6) := by
    unfold block?; rw [if_pos (by omega)]
  have b4 : Qc.block? (Qc.rows - 6) (Qc.cols - 6) 6 6 = some (Qc.blockP (Qc.rows - 6) (Qc.cols - 6) 6 6) := by
    unfold block?; rw [if_pos (by omega)]
  simp only [b2, b3, b4, Option.bind_some]
  rw [s1 _ _ _ _ (by simp <;> omega) (by simp <;> omega), Option.bind_some,
    s1 _ _ _ _ (by simp <;> omega) (by simp <;> omega), Option.bind_some,
    s1 _ _ _ _ (by simp <;> omega) (by simp <;> omega), Option.bind_some,
    s1 _ _ _ _ (by simp <;> omega) (by simp <;> omega)]
  refine ⟨_, rfl, by simp [hr, hc], by simp, fun i j hi hj => ?_⟩
  rw [setBlockP_of3_e (by simp <;> omega) (by simp <;> omega)]
  by_cases hA : (Qc.cols - 6 ≤ i ∧ i < Qc.cols - 3) ∧ (Qc.cols - 6 ≤ j ∧ j < Qc.cols - 3)
  · rw [dif_pos (by omega), dif_pos hA]
  rw [dif_neg (by omega), dif_neg hA]
  simp only [setBlockP_rows, setBlockP_cols, zero_rows, zero_cols]
  rw [setBlockP_e_in (by simp <;> omega) (by simp <;> omega)]
  by_cases hB : Qc.cols - 3 ≤ i ∧ Qc.cols - 3 ≤ j
  · rw [if_pos (by simp <;> omega), if_pos hB, blockP_e, if_pos (by omega)]
    congr 1 <;> omega
  rw [if_neg (by simp <;> omega), if_neg hB, setBlockP_e_in (by simp <;> omega) (by simp <;> omega)]
  by_cases hC : i ≤ dX ∧ Qc.cols - 3 ≤ j
  · rw [if_pos (by simp <;> omega), if_pos hC, blockP_e, if_pos (by omega)]
    congr 1 <;> omega
  rw [if_neg (by simp <;> omega), if_neg hC, setBlockP_e_in (by simp <;> omega) (by simp <;> omega)]
  by_cases hD : Qc.cols - 3 ≤ i ∧ j ≤ dX
  · rw [if_pos (by simp <;> omega), if_pos hD, blockP_e, if_pos (by omega)]
    congr 1 <;> omega
  rw [if_neg (by simp <;> omega), if_neg hD, setBlockP_e_in (by simp <;> omega) (by simp <;> omega)]
  by_cases hE : i ≤ dX ∧ j ≤ dX
  · rw [if_pos (by simp <;> omega), if_pos hE, blockP_e, if_pos (by omega)]
    congr 1 <;> omega
  · rw [if_neg (by simp <;> omega), if_neg hE, zero_e]

/-- `add_aug_state` on a consistent state. -/
theorem add_aug_state_spec {s : RobotState} (hc : Consistent s) (aug : V3) (P : Mat) (noise : M3)
    (ptr : Option ℕ) :
    ∃ s', s.add_aug_state aug P noise ptr = some ((s.dimX : ℤ), s') ∧
      s'.X.rows = s.X.rows + 1 ∧ s'.X.cols = s.X.cols + 1 ∧
      (∀ i j, i < s.X.rows → j < s.X.cols → s'.X.e i j = s.X.e i j) ∧
      s'.X.blkV 0 s.dimX = aug ∧
      (∀ i j, 3 ≤ i → i < s.X.rows + 1 → j < s.X.cols + 1 → (s.X.rows ≤ i ∨ s.X.cols ≤ j) →
        s'.X.e i j = if i = j then 1 else 0) ∧
      (∀ j, j < s.X.cols → s'.X.e s.X.rows j = 0) ∧
      s'.P = P ∧ augQc s.Qc 6 (s.dimX + 1) noise = some s'.Qc ∧
      s'.Qc.rows = s.Qc.rows + 3 ∧ s'.Qc.cols = s.Qc.cols + 3 ∧
      s'.colMap = s.colMap ++ [ptr] ∧
      s' = { s with X := s'.X, P := s'.P, Qc := s'.Qc, colMap := s'.colMap } := by
  have hx := hc.x_ge; have hsq := hc.x_sq; have ht := hc.th_rows
  have hq1 := hc.q_rows; have hq2 := hc.q_cols
  obtain ⟨Q, hQ, hQr, hQc, _⟩ := augQc_spec (Qc := s.Qc) (dX := s.X.cols) (noise := noise) hx
    (by omega) (by omega)
  set X1 := (resizeLikeIdentity s.X (s.X.cols + 1)).setBlockP 0 s.X.cols (ofV aug) with hX1
  have hset : (resizeLikeIdentity s.X (s.X.cols + 1)).setBlock? 0 s.X.cols (ofV aug) = some X1 := by
    unfold setBlock?; rw [if_pos (by simp [resizeLikeIdentity]; omega)]
  have hXe : ∀ i j, X1.e i j = if h : i < 3 ∧ j = s.X.cols then aug ⟨i, h.1⟩
      else (resizeLikeIdentity s.X (s.X.cols + 1)).e i j := by
    intro i j
    rw [hX1, setBlockP_ofV_e (by simp [resizeLikeIdentity]; omega) (by simp [resizeLikeIdentity])]
    by_cases h : i < 3 ∧ j = s.X.cols
    · rw [dif_pos (by omega), dif_pos h]; rfl
    · rw [dif_neg (by omega), dif_neg h]
  refine ⟨{ s with X := X1, P := P, Qc := Q, colMap := s.colMap ++ [ptr] }, ?_, ?_, rfl, ?_, ?_, ?_, ?_, rfl,
    hQ, hQr, hQc, rfl, rfl⟩
  · unfold add_aug_state
    simp only [dimX, dimTheta, ht, hset, hQ, Option.bind_eq_bind, Option.bind_some]
  · show X1.rows = _
    rw [hX1, hsq]; rfl
  · intro i j hi hj
    show X1.e i j = _
    rw [hXe, dif_neg (by omega)]
    unfold resizeLikeIdentity
    rw [ofFn_e_of_lt (by omega) (by omega), if_pos ⟨hi, hj⟩]
  · ext i
    have := i.2
    show X1.e (0 + i) s.X.cols = _
    rw [hXe, dif_pos (by omega)]; simp
  · intro i j h3 hi hj hor
    show X1.e i j = _
    rw [hXe, dif_neg (by omega)]
    unfold resizeLikeIdentity
    rw [ofFn_e_of_lt (by omega) (by omega), if_neg (by omega)]
  · intro j hj
    show X1.e s.X.rows j = _
    rw [hXe, dif_neg (by omega)]
    unfold resizeLikeIdentity
    rw [ofFn_e_of_lt (by omega) (by omega), if_neg (by omega), if_neg (by omega)]

end RobotState
end Drift
