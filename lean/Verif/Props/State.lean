import Verif.Lemmas.State

/-!
# Properties C10 - C22: `src/state/robot_state.cpp`, `src/math/se_k_3.cpp`
-/
set_option linter.unusedSimpArgs false
set_option linter.unnecessarySeqFocus false
namespace Drift
open Mat Matrix RobotState

/-! ### C10 -/

/-- **C10**: for every state whose matrix is in SE_K(3), any `K`, `get_Xinv` returns the two-sided
inverse, and it is again in SE_K(3). -/
theorem C10_get_Xinv_inverse (s : RobotState) (K : ℕ) (h : IsSEK K s.X) :
    ∃ Y, s.get_Xinv = some Y ∧ s.X * Y = one (3 + K) ∧ Y * s.X = one (3 + K) ∧ IsSEK K Y := by
  have hr := h.rows; have hc := h.cols
  refine ⟨_, get_Xinv_eq (K := K) (by omega) hc, ?_, ?_, sek_isSEK h.rot.transpose⟩
  · conv_lhs => rw [h.eq_mk]
    simp only [mkSE_blk3]
    rw [← mkSE_inv_right (K := K) (p := fun k => s.X.blkV 0 (3 + k)) h.rot]
    congr 1
    refine mkSE_congr rfl fun k hk => ?_
    rw [← h.eq_mk, neg_mulVec]
  · conv_lhs => rw [h.eq_mk]
    simp only [mkSE_blk3]
    rw [← mkSE_inv_left (K := K) (p := fun k => s.X.blkV 0 (3 + k)) h.rot]
    congr 1
    refine mkSE_congr rfl fun k hk => ?_
    rw [← h.eq_mk, neg_mulVec]

/-- a rotated state with one augmented column meets the hypothesis of C10 -/
example : IsSEK 3 (mkSE 3 !![0, -1, 0; 1, 0, 0; 0, 0, 1] fun k => ![k, 2, 3]) := by
  refine sek_isSEK ⟨?_, ?_, ?_⟩
  · ext i j; fin_cases i <;> fin_cases j <;> simp [Matrix.mul_apply, Fin.sum_univ_three]
  · ext i j; fin_cases i <;> fin_cases j <;> simp [Matrix.mul_apply, Fin.sum_univ_three]
  · simp [Matrix.det_fin_three]

/-! ### C11 -/

/-- **C11**, world side: for every state (either state type) in SE_K(3) with the base columns, the
blocks of `get_world_X` are what `get_world_rotation/velocity/position` return. -/
theorem C11_world_getters_partial (s : RobotState) (K : ℕ) (hK : 2 ≤ K) (h : IsSEK K s.X) :
    ∃ W, s.get_world_X = some W ∧ s.get_world_rotation = some (W.blk3 0 0) ∧
      s.get_world_velocity = some (W.blkV 0 3) ∧ s.get_world_position = some (W.blkV 0 4) := by
  have hr := h.rows; have hc := h.cols
  have e0 : s.X.blk3? 0 0 = some (s.X.blk3 0 0) := blk3?_eq (by omega) (by omega)
  have e3 : s.X.blkV? 0 3 = some (s.X.blkV 0 3) := blkV?_eq (by omega) (by omega)
  have e4 : s.X.blkV? 0 4 = some (s.X.blkV 0 4) := blkV?_eq (by omega) (by omega)
  unfold get_world_X get_world_rotation get_world_velocity get_world_position
  cases s.stateType
  · exact ⟨_, rfl, e0, e3, e4⟩
  · refine ⟨_, get_Xinv_eq (K := K) (by omega) hc, ?_, ?_, ?_⟩
    · simp [get_rotation, e0]
    · rw [mkSE_blkV3 _ _ _ (by omega)]
      simp [get_rotation, get_velocity, e0, e3]
    · rw [mkSE_blkV4 _ _ _ (by omega)]
      simp [get_rotation, get_position, e0, e4]

/-- **C11**, body side: rotation always agrees; velocity and position agree for body-centric states
and are the exact NEGATION of the columns of `get_body_X` for world-centric ones. -/
theorem C11_body_getters_partial (s : RobotState) (K : ℕ) (hK : 2 ≤ K) (h : IsSEK K s.X) :
    ∃ B v p, s.get_body_X = some B ∧ s.get_body_rotation = some (B.blk3 0 0) ∧
      s.get_body_velocity = some v ∧ s.get_body_position = some p ∧
      (s.stateType = .bodyCentric → v = B.blkV 0 3 ∧ p = B.blkV 0 4) ∧
      (s.stateType = .worldCentric → v = -B.blkV 0 3 ∧ p = -B.blkV 0 4) := by
  have hr := h.rows; have hc := h.cols
  have e0 : s.X.blk3? 0 0 = some (s.X.blk3 0 0) := blk3?_eq (by omega) (by omega)
  have e3 : s.X.blkV? 0 3 = some (s.X.blkV 0 3) := blkV?_eq (by omega) (by omega)
  have e4 : s.X.blkV? 0 4 = some (s.X.blkV 0 4) := blkV?_eq (by omega) (by omega)
  unfold get_body_X get_body_rotation get_body_velocity get_body_position
  cases s.stateType
  · refine ⟨_, ((s.X.blk3 0 0)ᵀ).mulVec (s.X.blkV 0 3), ((s.X.blk3 0 0)ᵀ).mulVec (s.X.blkV 0 4),
      get_Xinv_eq (K := K) (by omega) hc, ?_, ?_, ?_, by simp, fun _ => ⟨?_, ?_⟩⟩
    · simp [get_rotation, e0]
    · simp only [get_rotation, get_velocity, e0, e3]; rfl
    · simp only [get_rotation, get_position, e0, e4]; rfl
    · rw [mkSE_blkV3 _ _ _ (by omega), neg_mulVec, neg_neg]
    · rw [mkSE_blkV4 _ _ _ (by omega), neg_mulVec, neg_neg]
  · exact ⟨_, _, _, rfl, e0, e3, e4, fun _ => ⟨rfl, rfl⟩, by simp⟩

/-- the property as stated is FALSE on the body side -/
theorem C11_body_getters_false :
    ¬ ∀ (s : RobotState) (K : ℕ), 2 ≤ K → IsSEK K s.X →
      ∃ B, s.get_body_X = some B ∧ s.get_body_velocity = some (B.blkV 0 3) := by
  intro H
  let s : RobotState := { init with X := mkSE 2 1 fun _ => ![1, 0, 0] }
  have hs : IsSEK 2 s.X := sek_isSEK (K := 2) (p := fun _ => ![1, 0, 0]) IsRot.one
  obtain ⟨B, hB, hv⟩ := H s 2 le_rfl hs
  obtain ⟨B', v, p, hB', _, hv', _, _, hw⟩ := C11_body_getters_partial s 2 le_rfl hs
  rw [hB] at hB'; cases hB'
  rw [hv] at hv'; cases hv'
  have h1 := (hw rfl).1
  have hB2 := get_Xinv_eq (s := s) (K := 2) (by simp [s]) (by simp [s])
  have hB3 : s.get_body_X = s.get_Xinv := rfl
  rw [← hB3, hB] at hB2
  simp only [Option.some.injEq] at hB2
  rw [hB2, mkSE_blkV3 _ _ _ (by omega)] at h1
  have h2 := congrFun h1 0
  have e1 : s.X.blk3 0 0 = 1 := mkSE_blk3 2 1 fun _ => ![1, 0, 0]
  have e2 : s.X.blkV 0 (3 + 0) = ![1, 0, 0] :=
    mkSE_blkV 2 1 (fun _ => ![1, 0, 0]) (k := 0) (by omega)
  rw [e1, e2] at h2
  simp [neg_mulVec] at h2
  norm_num at h2

/-! ### C12, C13 -/

theorem stateReach_inv {h : Heap} {s : RobotState} (hs : StateReach h s) :
    Consistent s ∧ TableOK h s := by
  induction hs with
  | init h =>
    refine ⟨⟨rfl, by simp [init], rfl, rfl, rfl, rfl, rfl, rfl, rfl⟩, ?_, ?_⟩
    · intro j hj
      show (List.replicate 5 none)[j]? = _
      rw [List.getElem?_replicate, if_pos hj]
    · intro j h1 h2
      simp [init] at h2; omega
  | @add h s aug P noise k s' _ hPr hPc he ih =>
    obtain ⟨hc, ht⟩ := ih
    obtain ⟨s₁, e1, a1, a2, -, -, -, -, a3, -, a5, a6, a7, a8⟩ :=
      add_aug_state_spec hc aug P noise (some (h.alloc 0).1)
    rw [e1] at he
    simp only [Option.some.injEq, Prod.mk.injEq] at he
    obtain ⟨hk, rfl⟩ := he
    have hth : s₁.Theta = s.Theta := by rw [a8]
    have c1 := hc.x_sq; have c2 := hc.x_ge; have c4 := hc.th_rows; have c5 := hc.p_rows
    have c6 := hc.p_cols; have c7 := hc.q_rows; have c8 := hc.q_cols; have c9 := hc.map_len
    refine ⟨⟨by omega, by omega, by rw [hth]; exact hc.th_col, by rw [hth]; exact c4, ?_, ?_, ?_, ?_, ?_⟩, ?_, ?_⟩
    · rw [hth, a3]; omega
    · rw [hth, a3]; omega
    · rw [hth]; omega
    · rw [hth]; omega
    · rw [a7, List.length_append, a2, c9]; rfl
    · intro j hj
      rw [a7, List.getElem?_append_left (by omega)]; exact ht.1 j hj
    · intro j h5 hj
      rw [a7, List.length_append, List.length_singleton] at hj
      rw [a7]
      rcases Nat.lt_or_ge j s.colMap.length with hlt | hge
      · obtain ⟨a, ha, hv, hn⟩ := ht.2 j h5 hlt
        refine ⟨a, by rw [List.getElem?_append_left hlt]; exact ha, ?_, ?_⟩
        · show (if a = h.next then k else if a = h.next then 0 else h.val a) = _
          rw [if_neg (by omega), if_neg (by omega)]; exact hv
        · show a < h.next + 1
          omega
      · have : j = s.colMap.length := by omega
        subst this
        refine ⟨h.next, by rw [List.getElem?_append_right le_rfl]; simp [Heap.alloc], ?_, ?_⟩
        · show (if h.next = h.next then k else _) = _
          rw [if_pos rfl, ← hk, c9]; rfl
        · show h.next < h.next + 1
          omega
  | @del h s idx h' s' _ h5 hlt he ih =>
    obtain ⟨hc, ht⟩ := ih
    obtain ⟨h₁, s₁, e1, dX, dP, dQ, hl, hn, hm, hv1, hv2, hs⟩ := del_aug_state_spec hc ht h5 hlt
    rw [e1] at he
    simp only [Option.some.injEq, Prod.mk.injEq] at he
    obtain ⟨rfl, rfl⟩ := he
    have hth : s₁.Theta = s.Theta := by rw [hs]
    have c1 := hc.x_sq; have c2 := hc.x_ge; have c4 := hc.th_rows; have c5 := hc.p_rows
    have c6 := hc.p_cols; have c7 := hc.q_rows; have c8 := hc.q_cols; have c9 := hc.map_len
    have hlt' : idx < s.X.cols := hlt
    obtain ⟨x1, x2, -⟩ := dX; obtain ⟨p1, p2, -⟩ := dP; obtain ⟨q1, q2, -⟩ := dQ
    refine ⟨⟨by omega, by omega, by rw [hth]; exact hc.th_col, by rw [hth]; exact c4, ?_, ?_, ?_, ?_, ?_⟩, ?_, ?_⟩
    · rw [hth]; omega
    · rw [hth]; omega
    · rw [hth]; omega
    · rw [hth]; omega
    · omega
    · intro j hj
      rw [hm j (by omega)]
      have : skip idx 1 j = j := by unfold skip; rw [if_pos (by omega)]
      rw [this]; exact ht.1 j hj
    · intro j hj5 hj
      rw [hm j hj]
      by_cases hji : j < idx
      · have hsk : skip idx 1 j = j := by unfold skip; rw [if_pos hji]
        rw [hsk]
        obtain ⟨a, ha, hav, han⟩ := ht.2 j hj5 (by omega)
        refine ⟨a, ha, ?_, by omega⟩
        rw [hv1 a, hav]
        intro j' hj' hcon
        have hlen : j' < s.colMap.length := by
          by_contra hcc
          rw [List.getElem?_eq_none (by omega)] at hcon; simp at hcon
        obtain ⟨a', ha', hav', _⟩ := ht.2 j' (by omega) hlen
        rw [hcon] at ha'
        simp only [Option.some.injEq] at ha'
        subst ha'
        omega
      · have hsk : skip idx 1 j = j + 1 := by unfold skip; rw [if_neg hji]
        rw [hsk]
        obtain ⟨a, ha, hav, han⟩ := ht.2 (j + 1) (by omega) (by omega)
        refine ⟨a, ha, ?_, by omega⟩
        rw [hv2 a (j + 1) (by omega) ha]
        push_cast; ring
  | @clear h s _ ih =>
    refine ⟨⟨rfl, by simp [clear], rfl, rfl, rfl, rfl, rfl, rfl, rfl⟩, ?_, ?_⟩
    · intro j hj
      show (List.replicate 5 none)[j]? = _
      rw [List.getElem?_replicate, if_pos hj]
    · intro j h1 h2
      simp [clear] at h2; omega

/-- **C12**: after any history of constructions, additions, removals and clears all dimensions agree:
`P` and `Qc` are square of size `3*dimX - 6 + dimTheta` and the table has `dimX` entries. -/
theorem C12_dimensions_consistent (h : Heap) (s : RobotState) (hs : StateReach h s) :
    s.X.rows = s.dimX ∧ 5 ≤ s.dimX ∧ s.P.rows + 6 = 3 * s.dimX + s.dimTheta ∧
      s.P.cols + 6 = 3 * s.dimX + s.dimTheta ∧
      s.Qc.rows + 6 = 3 * s.dimX + s.dimTheta ∧ s.Qc.cols + 6 = 3 * s.dimX + s.dimTheta ∧
      s.colMap.length = s.dimX :=
  have hc := (stateReach_inv hs).1
  ⟨hc.x_sq, hc.x_ge, hc.p_rows, hc.p_cols, hc.q_rows, hc.q_cols, hc.map_len⟩

/-- **C12**, progress: in every reachable state no addition and no removal of an augmented column has
undefined behaviour, so histories can be continued at will. -/
theorem C12_operations_defined (h : Heap) (s : RobotState) (hs : StateReach h s) :
    (∀ aug P noise ptr, ∃ s', s.add_aug_state aug P noise ptr = some ((s.dimX : ℤ), s')) ∧
    (∀ idx : ℕ, 5 ≤ idx → idx < s.dimX → ∃ h' s', s.del_aug_state h idx = some (h', s')) := by
  obtain ⟨hc, ht⟩ := stateReach_inv hs
  refine ⟨fun aug P noise ptr => ?_, fun idx h5 hlt => ?_⟩
  · obtain ⟨s', e, _⟩ := add_aug_state_spec hc aug P noise ptr
    exact ⟨s', e⟩
  · obtain ⟨h', s', e, _⟩ := del_aug_state_spec hc ht h5 hlt
    exact ⟨h', s', e⟩

/-- non-vacuity: states with two contacts are reachable (and so, by C12, are all longer histories) -/
theorem reach_two (h : Heap) (a b : V3) (n m : M3) : ∃ h' s', StateReach h' s' ∧ s'.dimX = 7 := by
  have r0 := StateReach.init h
  obtain ⟨s1, e1, x1, x2, -, -, -, -, p1, -⟩ :=
    add_aug_state_spec (stateReach_inv r0).1 a (one 18) n (some (h.alloc 0).1)
  have r1 := StateReach.add a (one 18) n _ s1 r0 rfl rfl e1
  obtain ⟨s2, e2, y1, y2, -, -, -, -, p2, -⟩ :=
    add_aug_state_spec (stateReach_inv r1).1 b (one 21) m
      (some (((h.alloc 0).2.write (h.alloc 0).1 (RobotState.init.dimX : ℤ)).alloc 0).1)
  have r2 := StateReach.add b (one 21) m _ s2 r1 (by rw [p1]; rfl) (by rw [p1]; rfl) e2
  exact ⟨_, s2, r2, by unfold dimX; rw [y2, x2]; rfl⟩

/-- **C13**: removing augmented column `idx` of a reachable state deletes exactly row/column `idx` of
`X` and rows/columns `3 idx - 6, ..., 3 idx - 4` of `P` and `Qc`; all other entries keep their value
(`Deletes`), and bias, times, flags stay the same. -/
theorem C13_removes_exactly (h : Heap) (s : RobotState) (hs : StateReach h s) (idx : ℕ)
    (h5 : 5 ≤ idx) (hlt : idx < s.dimX) :
    ∃ h' s', s.del_aug_state h idx = some (h', s') ∧ Deletes s.X s'.X idx 1 ∧
      Deletes s.P s'.P (3 * idx - 6) 3 ∧ Deletes s.Qc s'.Qc (3 * idx - 6) 3 ∧
      (∀ j, j < s'.colMap.length → s'.colMap[j]? = s.colMap[skip idx 1 j]?) ∧
      s'.Theta = s.Theta ∧ s'.t = s.t ∧ s'.tProp = s.tProp ∧ s'.enableBias = s.enableBias ∧
      s'.stateType = s.stateType ∧ s'.bodyAngVel = s.bodyAngVel ∧ s'.slip = s.slip := by
  obtain ⟨hc, ht⟩ := stateReach_inv hs
  obtain ⟨h', s', e, dX, dP, dQ, _, _, hm, _, _, hs'⟩ := del_aug_state_spec hc ht h5 hlt
  exact ⟨h', s', e, dX, dP, dQ, hm, by rw [hs'], by rw [hs'], by rw [hs'], by rw [hs'], by rw [hs'],
    by rw [hs'], by rw [hs']⟩

/-- `Deletes` on a concrete matrix: deleting row and column 1 of a 3x3 matrix -/
example (M : Mat) (hr : M.rows = 3) (hc : M.cols = 3) :
    ∃ M', removeRowAndColumn M 1 1 = some M' ∧ M'.rows = 2 ∧ M'.e 0 0 = M.e 0 0 ∧
      M'.e 0 1 = M.e 0 2 ∧ M'.e 1 0 = M.e 2 0 ∧ M'.e 1 1 = M.e 2 2 := by
  obtain ⟨M', h, d1, d2, d3⟩ := removeRowAndColumn_deletes (M := M) (i := 1) (k := 1) (by omega) (by omega)
  exact ⟨M', h, by omega, d3 0 0 (by omega) (by omega), d3 0 1 (by omega) (by omega),
    d3 1 0 (by omega) (by omega), d3 1 1 (by omega) (by omega)⟩

end Drift
