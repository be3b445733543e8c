import Verif.Lemmas.Legged1

/-! # Lemmas: address view of `del_aug_state` and `add_aug_state` -/
set_option linter.unusedSimpArgs false
namespace Drift
open Mat Matrix Finset RobotState

theorem Good.consistent {K h s} (g : Good K h s) : Consistent s := by
  have := g.shape.x.rows; have := g.shape.x.cols; have := g.shape.k; have := g.shape.thr; have := g.shape.thc
  have := g.shape.pr; have := g.shape.pc; have := g.q.r; have hq := g.q.psd.sq; have := g.len
  exact ⟨by omega, by omega, by omega, by omega, by omega, by omega, by omega, by omega, by omega⟩

/-- the column number stored for a reference of the table -/
theorem Good.col {K h s} (g : Good K h s) {a : ℕ} (ha : some a ∈ s.colMap) :
    ∃ j, 5 ≤ j ∧ j < 3 + K ∧ s.colMap[j]? = some (some a) ∧ h.val a = j ∧ a < h.next := by
  obtain ⟨j, hj⟩ := List.mem_iff_getElem?.mp ha
  have hl : j < s.colMap.length := by
    by_contra hcon; rw [List.getElem?_eq_none (by omega)] at hj; simp at hj
  have h5 : 5 ≤ j := by
    by_contra hcon
    rw [g.tab.1 j (by omega)] at hj; simp at hj
  obtain ⟨b, hb, hv, hn⟩ := g.tab.2 j h5 hl
  rw [hj] at hb
  cases hb
  exact ⟨j, h5, by rw [← g.len]; exact hl, hj, hv, hn⟩

/-- a reference occurs once in the table -/
theorem Good.col_unique {K h s} (g : Good K h s) {a i j : ℕ} (hi : s.colMap[i]? = some (some a))
    (hj : s.colMap[j]? = some (some a)) : i = j := by
  have key : ∀ i : ℕ, s.colMap[i]? = some (some a) → h.val a = i := by
    intro i hi
    have hl : i < s.colMap.length := by
      by_contra hcon; rw [List.getElem?_eq_none (by omega)] at hi; simp at hi
    have h5 : 5 ≤ i := by
      by_contra hcon
      rw [g.tab.1 i (by omega)] at hi; simp at hi
    obtain ⟨b, hb, hv, hn⟩ := g.tab.2 i h5 hl
    rw [hi] at hb
    cases hb
    exact hv
  have h1 := key i hi; have h2 := key j hj
  omega

theorem get_vector_eq {K h s} (g : Good K h s) {j : ℕ} (hj : j < 3 + K) :
    s.get_vector (j : ℤ) = some (s.X.blkV 0 j) := by
  have := g.shape.x.rows; have := g.shape.x.cols
  unfold get_vector
  rw [if_neg (by omega), Int.toNat_natCast, blkV?_eq (by omega) (by omega)]

/-- Result of removing the column of reference `a`. -/
structure DelSpec (h : Heap) (s : RobotState) (a : ℕ) (h' : Heap) (s' : RobotState) : Prop where
  next : h'.next = h.next
  mem : ∀ b, some b ∈ s'.colMap ↔ some b ∈ s.colMap ∧ b ≠ a
  vec : ∀ b, some b ∈ s.colMap → b ≠ a → s'.get_vector (h'.val b) = s.get_vector (h.val b)
  base : ∀ j, j < 5 → ∀ i, i < 3 → s'.X.e i j = s.X.e i j
  delX : Deletes s.X s'.X (h.val a).toNat 1
  delP : Deletes s.P s'.P (3 * (h.val a).toNat - 6) 3
  frame : s' = { s with X := s'.X, P := s'.P, Qc := s'.Qc, colMap := s'.colMap }

theorem del_good {K h s} (g : Good (K + 1) h s) {a : ℕ} (ha : some a ∈ s.colMap) :
    ∃ h' s', s.del_aug_state h (h.val a) = some (h', s') ∧ Good K h' s' ∧ DelSpec h s a h' s' := by
  obtain ⟨j, h5, hj, hja, hva, hna⟩ := g.col ha
  have x1 := g.shape.x.rows; have x2 := g.shape.x.cols; have p1 := g.shape.pr; have p2 := g.shape.pc
  have hl0 := g.len
  obtain ⟨h', s', e, dX, dP, dQ, hl, hn, hm, hv1, hv2, hfr⟩ :=
    del_aug_state_spec (idx := j) g.consistent g.tab h5 (by unfold dimX; omega)
  have hth : s'.Theta = s.Theta := by rw [hfr]
  have hst : s'.stateType = s.stateType := by rw [hfr]
  have hK : 2 ≤ K := by omega
  -- values of references
  have hval : ∀ b i, s.colMap[i]? = some (some b) → i ≠ j → h'.val b = if i < j then (i : ℤ) else (i : ℤ) - 1 := by
    intro b i hi hne
    have hb : h.val b = i := by
      obtain ⟨i', _, _, q1, q2, _⟩ := g.col (List.mem_of_getElem? hi)
      rw [q2, g.col_unique q1 hi]
    by_cases hij : i < j
    · rw [if_pos hij, hv1 b, hb]
      intro j' hj' hcon
      have := g.col_unique hcon hi
      omega
    · rw [if_neg hij, hv2 b i (by omega) hi]
  have hmem : ∀ b, some b ∈ s'.colMap ↔ some b ∈ s.colMap ∧ b ≠ a := by
    intro b
    constructor
    · intro hb
      obtain ⟨i, hi⟩ := List.mem_iff_getElem?.mp hb
      have hil : i < s'.colMap.length := by
        by_contra hcon; rw [List.getElem?_eq_none (by omega)] at hi; simp at hi
      rw [hm i hil] at hi
      refine ⟨List.mem_of_getElem? hi, ?_⟩
      rintro rfl
      have := g.col_unique hi hja
      unfold skip at this
      split_ifs at this <;> omega
    · rintro ⟨hb, hne⟩
      obtain ⟨i, h5i, hi, hib, -, -⟩ := g.col hb
      have hij : i ≠ j := by rintro rfl; rw [hja] at hib; cases hib; exact hne rfl
      refine List.mem_of_getElem? (i := if i < j then i else i - 1) ?_
      rw [hm _ (by split_ifs <;> omega), ← hib]
      congr 1
      unfold skip
      split_ifs <;> omega
  have hXe : ∀ i c, i < 3 + K → c < 3 + K → s'.X.e i c = s.X.e (skip j 1 i) (skip j 1 c) := by
    intro i c hi hc; exact dX.2.2 i c (by omega) (by omega)
  have hbase : ∀ c, c < 5 → ∀ i, i < 3 → s'.X.e i c = s.X.e i c := by
    intro c hc i hi
    rw [hXe i c (by omega) (by omega)]
    unfold skip; rw [if_pos (by omega), if_pos (by omega)]
  have gg : Good K h' s' := by
    refine ⟨⟨⟨by rw [dX.1]; omega, by rw [dX.2.1]; omega, ?_, ?_⟩, hK, by rw [hth]; exact g.shape.thr,
      by rw [hth]; exact g.shape.thc, by rw [dP.1]; omega, by rw [dP.2.1]; omega⟩, by rw [hst]; exact g.world,
      psd_deletes g.psd (by omega) dP, qcOK_del g.q (by omega) (by omega) dQ, by omega, ?_, ?_⟩
    · have : s'.X.blk3 0 0 = s.X.blk3 0 0 := by
        funext i c
        rw [blk3_apply, blk3_apply, hbase _ (by omega) _ (by omega)]
      rw [this]; exact g.shape.x.rot
    · intro i c hi hi' hc
      rw [hXe i c hi' hc, g.shape.x.bot _ _ (by unfold skip; split_ifs <;> omega) (by unfold skip; split_ifs <;> omega)
        (by unfold skip; split_ifs <;> omega)]
      by_cases hic : i = c
      · rw [if_pos (by rw [hic]), if_pos hic]
      · rw [if_neg (by unfold skip; split_ifs <;> omega), if_neg hic]
    · intro c hc
      rw [hm c (by omega)]
      have : skip j 1 c = c := by unfold skip; rw [if_pos (by omega)]
      rw [this]; exact g.tab.1 c hc
    · intro c hc5 hc
      rw [hm c hc]
      obtain ⟨b, hb, hvb, hnb⟩ := g.tab.2 (skip j 1 c) (by unfold skip; split_ifs <;> omega)
        (by unfold skip; split_ifs <;> omega)
      refine ⟨b, hb, ?_, by omega⟩
      rw [hval b _ hb (by unfold skip; split_ifs <;> omega)]
      unfold skip
      split_ifs <;> omega
  refine ⟨h', s', by rw [hva]; exact e, gg, hn, hmem, fun b hb hne => ?_, hbase, by rw [hva]; exact dX,
    by rw [hva]; exact dP, hfr⟩
  obtain ⟨i, h5i, hi, hib, hvb, -⟩ := g.col hb
  have hij : i ≠ j := by rintro rfl; rw [hja] at hib; cases hib; exact hne rfl
  rw [hvb, hval b i hib hij, get_vector_eq g hi]
  have key : ∀ c : ℕ, c < 3 + K → skip j 1 c = i → s'.get_vector (c : ℤ) = some (s.X.blkV 0 i) := by
    intro c hc hsk
    rw [get_vector_eq gg hc]
    congr 1
    funext r
    rw [blkV_apply, blkV_apply, hXe _ _ (by omega) hc, hsk]
    congr 1
    unfold skip; rw [if_pos (by omega)]
  by_cases hlt : i < j
  · rw [if_pos hlt]
    exact key i (by omega) (by unfold skip; rw [if_pos hlt])
  · rw [if_neg hlt, show (i : ℤ) - 1 = ((i - 1 : ℕ) : ℤ) by omega]
    exact key (i - 1) (by omega) (by unfold skip; split_ifs <;> omega)

/-- Result of adding a column with a fresh reference. -/
structure AddSpec (h : Heap) (s : RobotState) (aug : V3) (P : Mat) (h' : Heap) (s' : RobotState) : Prop where
  next : h'.next = h.next + 1
  mem : ∀ b, some b ∈ s'.colMap ↔ some b ∈ s.colMap ∨ b = h.next
  vec : ∀ b, some b ∈ s.colMap → s'.get_vector (h'.val b) = s.get_vector (h.val b)
  new : s'.get_vector (h'.val h.next) = some aug
  base : ∀ j, j < 5 → ∀ i, i < 3 → s'.X.e i j = s.X.e i j
  x : ∀ i j, i < s.X.rows → j < s.X.cols → s'.X.e i j = s.X.e i j
  newcol : s'.X.blkV 0 s.dimX = aug
  p : s'.P = P
  col : h'.val h.next = s.dimX
  frame : s' = { s with X := s'.X, P := P, Qc := s'.Qc, colMap := s.colMap ++ [some h.next] }

theorem add_good {K h s} (g : Good K h s) (aug : V3) {P : Mat} (hP : PSD P) (hr : P.rows = 3 * K + 12)
    {noise : M3} (hn : PSD (of3 noise)) (x : ℤ) :
    ∃ k s', s.add_aug_state aug P noise (some (h.alloc x).1) = some (k, s') ∧
      Good (K + 1) ((h.alloc x).2.write (h.alloc x).1 k) s' ∧
      AddSpec h s aug P ((h.alloc x).2.write (h.alloc x).1 k) s' := by
  have x1 := g.shape.x.rows; have x2 := g.shape.x.cols; have p1 := g.shape.pr; have p2 := g.shape.pc
  have hl0 := g.len; have hK := g.shape.k; have hq := g.q.r
  obtain ⟨s', e, a1, a2, a3, a4, a5, a6, a7, a8, a9, a10, a11, a12⟩ :=
    add_aug_state_spec g.consistent aug P noise (some (h.alloc x).1)
  have hth : s'.Theta = s.Theta := by rw [a12]
  have hst : s'.stateType = s.stateType := by rw [a12]
  have hd : s.dimX = 3 + K := x2
  set h' := (h.alloc x).2.write (h.alloc x).1 (s.dimX : ℤ) with hh'
  have hv : ∀ b, h'.val b = if b = h.next then (s.dimX : ℤ) else h.val b := by
    intro b
    show (if b = h.next then (s.dimX : ℤ) else if b = h.next then x else h.val b) = _
    by_cases hb : b = h.next
    · rw [if_pos hb, if_pos hb]
    · rw [if_neg hb, if_neg hb, if_neg hb]
  have hnx : h'.next = h.next + 1 := rfl
  have hptr : (h.alloc x).1 = h.next := rfl
  rw [hptr] at a11
  have hmem : ∀ b, some b ∈ s'.colMap ↔ some b ∈ s.colMap ∨ b = h.next := by
    intro b
    rw [a11]; simp
  have hbase : ∀ c, c < 5 → ∀ i, i < 3 → s'.X.e i c = s.X.e i c := by
    intro c hc i hi
    exact a3 i c (by omega) (by omega)
  have gg : Good (K + 1) h' s' := by
    refine ⟨⟨⟨by omega, by omega, ?_, ?_⟩, by omega, by rw [hth]; exact g.shape.thr,
      by rw [hth]; exact g.shape.thc, by rw [a7]; omega, by rw [a7, ← hP.sq]; omega⟩, by rw [hst]; exact g.world,
      by rw [a7]; exact hP, qcOK_add hK g.q hn (by rw [← hd]; exact a8), by rw [a11]; simp; omega, ?_, ?_⟩
    · have : s'.X.blk3 0 0 = s.X.blk3 0 0 := by
        funext i c
        rw [blk3_apply, blk3_apply, hbase _ (by omega) _ (by omega)]
      rw [this]; exact g.shape.x.rot
    · intro i c hi hi' hc
      by_cases hcase : i < 3 + K ∧ c < 3 + K
      · rw [a3 i c (by omega) (by omega)]
        exact g.shape.x.bot i c hi hcase.1 hcase.2
      · exact a5 i c hi (by omega) (by omega) (by omega)
    · intro c hc
      rw [a11, List.getElem?_append_left (by omega)]; exact g.tab.1 c hc
    · intro c hc5 hc
      rw [a11, List.length_append, List.length_singleton] at hc
      rw [a11]
      rcases Nat.lt_or_ge c s.colMap.length with hlt | hge
      · obtain ⟨b, hb, hvb, hnb⟩ := g.tab.2 c hc5 hlt
        refine ⟨b, by rw [List.getElem?_append_left hlt]; exact hb, ?_, by omega⟩
        rw [hv, if_neg (by omega)]; exact hvb
      · have : c = s.colMap.length := by omega
        subst this
        refine ⟨h.next, by rw [List.getElem?_append_right le_rfl]; simp, ?_, by omega⟩
        rw [hv, if_pos rfl, hd, hl0]
  refine ⟨(s.dimX : ℤ), s', e, gg, hnx, hmem, fun b hb => ?_, ?_, hbase, a3, a4, a7, by rw [hv, if_pos rfl], ?_⟩
  · obtain ⟨i, h5i, hi, hib, hvb, hnb⟩ := g.col hb
    rw [hv, if_neg (by omega), hvb, get_vector_eq g hi, get_vector_eq gg (by omega)]
    congr 1
    funext r
    rw [blkV_apply, blkV_apply, a3 _ _ (by omega) (by omega)]
  · rw [hv, if_pos rfl, hd, get_vector_eq gg (by omega), ← hd, a4]
  · rw [← a7, ← a11]; exact a12

end Drift
