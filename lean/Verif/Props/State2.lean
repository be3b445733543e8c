import Verif.Props.State

/-!
# Properties C15 - C22: noise blocks, accessors, copies, `SEK3`, `clear`
-/
set_option linter.unusedSimpArgs false
set_option linter.unnecessarySeqFocus false
namespace Drift
open Mat Matrix RobotState

/-! ### C15 -/

/-- **C15**, what holds: the contact that has just been added has its configured noise, in every
reachable state.  (The full property also claims it for the contacts added earlier; see
`C15_older_contact_loses_noise`.) -/
theorem C15_new_contact_noise_partial (h : Heap) (s : RobotState) (hs : StateReach h s) (aug : V3)
    (P : Mat) (noise : M3) (ptr : Option ℕ) :
    ∃ s', s.add_aug_state aug P noise ptr = some ((s.dimX : ℤ), s') ∧
      s'.Qc.blk3 (3 * s.dimX - 6) (3 * s.dimX - 6) = noise := by
  have hc := (stateReach_inv hs).1
  obtain ⟨s', e, -, -, -, -, -, -, -, hQ, -⟩ := add_aug_state_spec hc aug P noise ptr
  have c2 := hc.x_ge; have c4 := hc.th_rows; have c7 := hc.q_rows; have c8 := hc.q_cols
  obtain ⟨Q, hQ', hr, hcQ, hent⟩ := augQc_spec (Qc := s.Qc) (dX := s.X.cols) (noise := noise) c2
    (by omega) (by omega)
  change augQc s.Qc 6 (s.X.cols + 1) noise = some s'.Qc at hQ
  rw [hQ'] at hQ
  simp only [Option.some.injEq] at hQ
  refine ⟨s', e, ?_⟩
  rw [← hQ]
  ext i j
  have hi := i.2; have hj := j.2
  rw [blk3_apply, hent _ _ (by unfold dimX; omega) (by unfold dimX; omega),
    dif_pos (by unfold dimX; omega)]
  congr 1 <;> ext <;> simp only [dimX] <;> omega

/-- **C15** is FALSE from the second contact on, in every reachable state: adding a further contact
replaces the noise block of the contact added just before by zero. -/
theorem C15_older_contact_loses_noise (h : Heap) (s : RobotState) (hs : StateReach h s)
    (a₁ a₂ : V3) (P₁ P₂ : Mat) (n₁ n₂ : M3) (p₂ : Option ℕ)
    (hP1 : P₁.rows = s.P.rows + 3) (hP1' : P₁.cols = s.P.cols + 3) :
    ∃ s₁ s₂, s.add_aug_state a₁ P₁ n₁ (some (h.alloc 0).1) = some ((s.dimX : ℤ), s₁) ∧
      s₁.add_aug_state a₂ P₂ n₂ p₂ = some ((s.dimX : ℤ) + 1, s₂) ∧
      s₁.Qc.blk3 (3 * s.dimX - 6) (3 * s.dimX - 6) = n₁ ∧
      s₂.Qc.blk3 (3 * s.dimX - 6) (3 * s.dimX - 6) = 0 := by
  obtain ⟨s₁, e1, hn1⟩ := C15_new_contact_noise_partial h s hs a₁ P₁ n₁ (some (h.alloc 0).1)
  have hs1 := StateReach.add a₁ P₁ n₁ _ s₁ hs hP1 hP1' e1
  have hc1 := (stateReach_inv hs1).1
  obtain ⟨s₂, e2, -, -, -, -, -, -, -, hQ, -⟩ := add_aug_state_spec hc1 a₂ P₂ n₂ p₂
  have c2 := hc1.x_ge; have c4 := hc1.th_rows; have c7 := hc1.q_rows; have c8 := hc1.q_cols
  have hc := (stateReach_inv hs).1
  have hx1 : s₁.X.cols = s.X.cols + 1 := by
    obtain ⟨s', e, _, h2, _⟩ := add_aug_state_spec hc a₁ P₁ n₁ (some (h.alloc 0).1)
    rw [e1] at e
    simp only [Option.some.injEq, Prod.mk.injEq] at e
    rw [e.2]; exact h2
  have hx := hc.x_ge
  obtain ⟨Q, hQ', hr, hcQ, hent⟩ := augQc_spec (Qc := s₁.Qc) (dX := s₁.X.cols) (noise := n₂) c2
    (by omega) (by omega)
  change augQc s₁.Qc 6 (s₁.X.cols + 1) n₂ = some s₂.Qc at hQ
  rw [hQ'] at hQ
  simp only [Option.some.injEq] at hQ
  refine ⟨s₁, s₂, e1, ?_, hn1, ?_⟩
  · rw [e2]; unfold dimX; rw [hx1]; push_cast; rfl
  · rw [← hQ]
    ext i j
    have hi := i.2; have hj := j.2
    rw [blk3_apply, hent _ _ (by unfold dimX; omega) (by unfold dimX; omega)]
    rw [dif_neg (by unfold dimX; omega), if_neg (by unfold dimX; omega),
      if_neg (by unfold dimX; omega), if_neg (by unfold dimX; omega), if_neg (by unfold dimX; omega)]
    rfl

/-- two contacts with identity noise: the first one ends with zero noise -/
example (h : Heap) : ∃ s₁ s₂,
    init.add_aug_state 0 (one 18) 1 (some (h.alloc 0).1) = some (5, s₁) ∧
      s₁.add_aug_state 0 (one 21) 1 none = some (6, s₂) ∧
      s₁.Qc.blk3 9 9 = 1 ∧ s₂.Qc.blk3 9 9 = 0 := by
  obtain ⟨s₁, s₂, h1, h2, h3, h4⟩ := C15_older_contact_loses_noise h init (.init h) 0 0 (one 18)
    (one 21) 1 1 none rfl rfl
  exact ⟨s₁, s₂, h1, h2, h3, h4⟩

/-! ### C16 -/

/-- **C16**, what holds: in reachable states without contacts (`dimX = 5`) the bias covariance
accessors return the blocks of the two biases, which are the last six rows/columns of `P`. -/
theorem C16_bias_cov_base_partial (h : Heap) (s : RobotState) (hs : StateReach h s)
    (h5 : s.dimX = 5) :
    s.get_gyroscope_bias_covariance = some (s.P.blk3 (s.dimP - 6) (s.dimP - 6)) ∧
      s.get_accelerometer_bias_covariance = some (s.P.blk3 (s.dimP - 3) (s.dimP - 3)) := by
  have hc := (stateReach_inv hs).1
  have c4 := hc.th_rows; have c7 := hc.p_rows; have c8 := hc.p_cols
  have h5' : s.X.cols = 5 := h5
  have e : s.dimP = 15 := by unfold dimP; omega
  rw [e]
  exact ⟨blk3?_eq (by omega) (by omega), blk3?_eq (by omega) (by omega)⟩

/-- **C16**: the covariance accessors of the three base quantities read the diagonal blocks of the rotation, velocity
and position error, in every reachable state, with any number of augmented columns. -/
theorem C16_base_cov (h : Heap) (s : RobotState) (hs : StateReach h s) (i j : Fin 3) :
    (∃ M, s.get_rotation_covariance = some M ∧ M i j = s.P.e i j) ∧
      (∃ M, s.get_velocity_covariance = some M ∧ M i j = s.P.e (3 + i) (3 + j)) ∧
      ∃ M, s.get_position_covariance = some M ∧ M i j = s.P.e (6 + i) (6 + j) := by
  have hc := (stateReach_inv hs).1
  have c4 := hc.th_rows; have c7 := hc.p_rows; have c8 := hc.p_cols
  have c5 := hc.x_ge
  refine ⟨⟨_, blk3?_eq (A := s.P) (r := 0) (c := 0) (by omega) (by omega), ?_⟩, ⟨_, blk3?_eq (by omega) (by omega), rfl⟩,
    ⟨_, blk3?_eq (by omega) (by omega), rfl⟩⟩
  simp [Mat.blk3]

/-- **C16** is FALSE with a contact: there is a reachable state (one contact) whose "gyroscope bias
covariance" is the covariance block of the contact, not of the bias. -/
theorem C16_bias_cov_false :
    ¬ ∀ (h : Heap) (s : RobotState), StateReach h s →
      s.get_gyroscope_bias_covariance = some (s.P.blk3 (s.dimP - 6) (s.dimP - 6)) := by
  intro H
  let h : Heap := ⟨fun _ => 0, 0⟩
  let P : Mat := (one 18).setBlockP 9 9 (of3 0)
  have r0 := StateReach.init h
  obtain ⟨s1, e1, x1, x2, -, -, -, -, p1, -⟩ :=
    add_aug_state_spec (stateReach_inv r0).1 0 P 0 (some (h.alloc 0).1)
  have r1 := StateReach.add 0 P 0 _ s1 r0 rfl rfl e1
  have := H _ s1 r1
  have hr : s1.P.rows = 18 := by rw [p1]; rfl
  have hcc : s1.P.cols = 18 := by rw [p1]; rfl
  unfold get_gyroscope_bias_covariance dimP at this
  rw [blk3?_eq (by omega) (by omega), hcc] at this
  simp only [Option.some.injEq] at this
  have h00 := congrFun (congrFun this 0) 0
  simp only [blk3_apply, p1, P] at h00
  rw [setBlockP_of3_e (by simp) (by simp), setBlockP_of3_e (by simp) (by simp),
    dif_pos (by simp), dif_neg (by simp)] at h00
  simp [one_e] at h00

/-! ### C17 -/

/-- **C17**, covariance, what holds: the appended block is read back, and its deletion restores the
covariance, at the index `idx` with `3*idx - 6 = dimP`. -/
theorem C17_aug_cov_partial (s : RobotState) (c : M3) (idx : ℕ) (hi : 2 ≤ idx)
    (hsq : s.P.rows = s.P.cols) (hidx : 3 * idx - 6 = s.dimP) :
    ∃ s', s.add_aug_cov c = some s' ∧ s'.get_aug_cov idx = some c ∧
      ∃ s'', s'.del_aug_cov idx = some s'' ∧ s''.P = s.P := by
  unfold dimP at hidx
  set P1 := (resizeLikeZero s.P (s.P.cols + 3)).setBlockP s.P.cols s.P.cols (of3 c) with hP1
  have hset : (resizeLikeZero s.P (s.P.cols + 3)).setBlock? s.P.cols s.P.cols (of3 c) = some P1 :=
    setBlock?_eq (by simp [resizeLikeZero]) (by simp [resizeLikeZero])
  have hr : P1.rows = s.P.cols + 3 := rfl
  have hc : P1.cols = s.P.cols + 3 := rfl
  refine ⟨{ s with P := P1 }, by simp only [add_aug_cov, dimP, hset, Option.map_some], ?_, ?_⟩
  · unfold get_aug_cov
    rw [if_neg (by omega)]
    have : (3 + 3 * ((idx : ℤ) - 3)).toNat = s.P.cols := by omega
    rw [this]
    show P1.blk3? _ _ = _
    rw [blk3?_eq (by omega) (by omega), hP1, blk3_setBlockP_same (by simp [resizeLikeZero])
      (by simp [resizeLikeZero])]
  · have ecast : (3 : ℤ) + 3 * ((idx : ℤ) - 3) = ((s.P.cols : ℕ) : ℤ) := by omega
    obtain ⟨M', hM, d1, d2, d3⟩ := removeRowAndColumn_deletes (M := P1) (i := s.P.cols) (k := 3)
      (by omega) (by omega)
    refine ⟨{ s with P := M' }, ?_, ?_⟩
    · simp only [del_aug_cov, ecast, hM, Option.map_some]
    · refine ext' (by simp only [d1]; omega) (by simp only [d2]; omega) fun i j hi hj => ?_
      simp only [d1, d2] at hi hj
      show M'.e i j = _
      rw [d3 i j hi hj]
      unfold skip
      rw [if_pos (by omega), if_pos (by omega), hP1, setBlockP_of3_e (by simp [resizeLikeZero])
        (by simp [resizeLikeZero]), dif_neg (by omega)]
      unfold resizeLikeZero
      rw [ofFn_e_of_lt (by omega) (by omega), if_pos (by omega)]

/-- **C17** is FALSE for the covariance of the first augmented column (index 5) of a fresh state:
`get_aug_cov(5)` returns the gyroscope bias block instead of what was added. -/
theorem C17_aug_cov_false : ∃ c s', init.add_aug_cov c = some s' ∧ s'.get_aug_cov 5 = some 1 ∧ c ≠ 1 := by
  have hset : (resizeLikeZero init.P (15 + 3)).setBlock? 15 15 (of3 0)
      = some ((resizeLikeZero init.P (15 + 3)).setBlockP 15 15 (of3 0)) :=
    setBlock?_eq (by simp [resizeLikeZero]) (by simp [resizeLikeZero])
  refine ⟨0, { init with P := (resizeLikeZero init.P (15 + 3)).setBlockP 15 15 (of3 0) },
    by simp only [add_aug_cov, dimP, show init.P.cols = 15 from rfl, hset, Option.map_some], ?_, by simp⟩
  unfold get_aug_cov
  rw [if_neg (by norm_num), show (3 + 3 * ((5 : ℤ) - 3)).toNat = 9 from rfl]
  show Mat.blk3? _ _ _ = _
  rw [blk3?_eq (by simp [resizeLikeZero]) (by simp [resizeLikeZero]),
    blk3_setBlockP_disj (by simp [resizeLikeZero]) (by simp [resizeLikeZero]) (by omega)]
  congr 1
  ext i j
  have hi := i.2; have hj := j.2
  rw [blk3_apply]
  unfold resizeLikeZero
  rw [ofFn_e_of_lt (by omega) (by omega), if_pos (by simp [init]; omega)]
  show (one 15).e _ _ = _
  rw [one_e, Matrix.one_apply]
  by_cases hij : i = j
  · subst hij; simp; omega
  · rw [if_neg hij, if_neg]; rintro ⟨_, h⟩; exact hij (Fin.ext (by omega))

/-- **C17**, bias, what holds: the last added bias is read back with any index; for the first
augmented bias of a six-dimensional `theta` deletion (index 5) restores `theta`. -/
theorem C17_aug_bias_partial (g : ℕ → ℕ → ℝ) (s : RobotState) (b : V3) (idx : ℤ)
    (hc : s.Theta.cols = 1) :
    ∃ s', s.add_aug_bias g b = some s' ∧ s'.get_aug_bias idx = some b ∧
      (s.Theta.rows = 6 → ∃ s'', s'.del_aug_bias 5 = some s'' ∧ s''.Theta = s.Theta) := by
  set T1 := (resize g s.Theta (s.Theta.rows + 3) 1).setBlockP s.Theta.rows 0 (ofV b) with hT1
  have hset : (resize g s.Theta (s.Theta.rows + 3) 1).setBlock? s.Theta.rows 0 (ofV b) = some T1 :=
    setBlock?_eq (by simp [resize]) (by simp [resize])
  have hr : T1.rows = s.Theta.rows + 3 := rfl
  have hcc : T1.cols = 1 := rfl
  refine ⟨{ s with Theta := T1 }, by simp only [add_aug_bias, hset, Option.map_some], ?_, ?_⟩
  · unfold get_aug_bias
    show (if T1.rows < 3 then none else T1.blkV? (T1.rows - 3) 0) = _
    rw [if_neg (by omega), hr, Nat.add_sub_cancel, blkV?_eq (by omega) (by omega)]
    congr 1
    ext i
    rw [blkV_apply, hT1, setBlockP_ofV_e (by simp [resize]) (by simp [resize]), dif_pos (by omega)]
    congr 1; ext; simp
  · intro h6
    unfold del_aug_bias
    simp only [show (5 : ℤ) - 5 + 6 = 6 by norm_num, hr, h6]
    rw [if_neg (by norm_num)]
    have b1 : T1.block? 9 0 0 1 = some (T1.blockP 9 0 0 1) := block?_eq (by omega) (by omega)
    have b2 : T1.setBlock? 6 0 (T1.blockP 9 0 0 1) = some (T1.setBlockP 6 0 (T1.blockP 9 0 0 1)) :=
      setBlock?_eq (by simp; omega) (by simp; omega)
    refine ⟨{ s with Theta := (T1.setBlockP 6 0 (T1.blockP 9 0 0 1)).blockP 0 0 6 1 }, ?_, ?_⟩
    · norm_num
      rw [show Int.toNat 9 = 9 from rfl, show Int.toNat 6 = 6 from rfl, b1, Option.bind_some, b2,
        Option.bind_some, setBlockP_rows, hr, h6]
    refine ext' (by simp; omega) (by simp; omega) fun i j hi hj => ?_
    simp only [blockP_rows, blockP_cols, setBlockP_rows] at hi hj
    rw [blockP_e, if_pos ⟨hi, hj⟩, setBlockP_e_in (by simp; omega) (by simp; omega), if_neg (by simp),
      hT1, setBlockP_ofV_e (by simp [resize]) (by simp [resize]), dif_neg (by omega)]
    unfold resize
    rw [ofFn_e_of_lt (by omega) (by omega), if_pos (by omega)]
    congr 1 <;> omega

/-- **C17** is FALSE for `get_aug_bias`: with two augmented biases, the index is ignored and the
first one cannot be read. -/
theorem C17_aug_bias_false : ∃ b₁ b₂ : V3, b₁ ≠ b₂ ∧ ∀ (g₁ g₂ : ℕ → ℕ → ℝ), ∃ s₁ s₂,
    init.add_aug_bias g₁ b₁ = some s₁ ∧ s₁.add_aug_bias g₂ b₂ = some s₂ ∧
      ∀ idx, s₂.get_aug_bias idx = some b₂ := by
  refine ⟨0, 1, by intro h; have := congrFun h 0; simp at this, fun g₁ g₂ => ?_⟩
  obtain ⟨s1, e1, -, -⟩ := C17_aug_bias_partial g₁ init 0 5 rfl
  have hc : s1.Theta.cols = 1 := by
    unfold add_aug_bias at e1
    simp only [Option.map_eq_some_iff] at e1
    obtain ⟨T, hT, rfl⟩ := e1
    unfold setBlock? at hT
    split_ifs at hT
    simp only [Option.some.injEq] at hT
    subst hT; rfl
  obtain ⟨s2, e2, _, -⟩ := C17_aug_bias_partial g₂ s1 1 5 hc
  refine ⟨s1, s2, e1, e2, fun idx => ?_⟩
  obtain ⟨s2', e2', h2, -⟩ := C17_aug_bias_partial g₂ s1 1 idx hc
  rw [e2] at e2'; cases e2'
  exact h2

/-! ### C18 -/

/-- the expected result: `B` in the top-left corner, then `n` copies of `X` on the diagonal -/
def diagCopies (B X : Mat) (n : ℕ) : Mat :=
  ofFn (B.rows + n * X.rows) (B.rows + n * X.rows) fun i j =>
    if i < B.rows ∧ j < B.rows then B.e i j
    else if (B.rows ≤ i ∧ B.rows ≤ j) ∧ (i - B.rows) / X.rows = (j - B.rows) / X.rows then
      X.e ((i - B.rows) % X.rows) ((j - B.rows) % X.rows)
    else 0

theorem copyDiag_spec (g : ℕ → ℕ → ℝ) (X B : Mat) (n : ℕ) (hX : X.rows = X.cols)
    (hX0 : 0 < X.rows) (hB : B.rows = B.cols) :
    copyDiag g X X.rows n B = some (diagCopies B X n) := by
  induction n with
  | zero =>
    show some B = _
    congr 1
    refine ext' (by simp [diagCopies]) (by simp [diagCopies, hB]) fun i j hi hj => ?_
    unfold diagCopies
    rw [ofFn_e_of_lt (by omega) (by omega), if_pos (by omega)]
  | succ n ih =>
    unfold copyDiag at ih ⊢
    rw [forRange, ih, Option.bind_some]
    set D := diagCopies B X n with hD
    have hDr : D.rows = B.rows + n * X.rows := rfl
    have hDc : D.cols = B.rows + n * X.rows := rfl
    set d := X.rows with hd
    set m := B.rows with hm
    simp only [Option.bind_eq_bind]
    rw [setBlock?_eq (by simp [resize]) (by simp [resize])]
    rw [Option.bind_some, setBlock?_eq (by simp [resize]) (by simp [resize]), Option.bind_some,
      if_pos (by simp [← hX]), setBlock?_eq (by simp [resize, ← hd]) (by simp [resize, ← hX])]
    congr 1
    have e1 : (n + 1) * d = n * d + d := by ring
    refine ext' (by simp [resize, diagCopies, hDr, e1, ← hd, ← hm]; ring)
      (by simp [resize, diagCopies, hDr, e1, ← hd, ← hm]; ring) fun i j hi hj => ?_
    simp only [setBlockP_rows, setBlockP_cols, resize, ofFn_rows, ofFn_cols, hDr] at hi hj
    rw [setBlockP_e_in (by simp [resize, ← hd]) (by simp [resize, ← hX])]
    have hdiv : ∀ a, a < m + n * d → m ≤ a → (a - m) / d < n := fun a ha hma =>
      (Nat.div_lt_iff_lt_mul hX0).mpr (by omega)
    have hdiv2 : ∀ a, m + n * d ≤ a → a < m + n * d + d → (a - m) / d = n ∧ (a - m) % d = a - (m + n * d) := by
      intro a h1 h2
      have : a - m = (a - (m + n * d)) + d * n := by rw [Nat.mul_comm d n]; omega
      rw [this, Nat.add_mul_div_left _ _ hX0, Nat.add_mul_mod_self_left,
        Nat.div_eq_of_lt (by omega), Nat.mod_eq_of_lt (by omega)]
      omega
    unfold diagCopies
    rw [ofFn_e_of_lt (by rw [← hd, ← hm, e1]; omega) (by rw [← hd, ← hm, e1]; omega), ← hm, ← hd]
    by_cases hi1 : m + n * d ≤ i <;> by_cases hj1 : m + n * d ≤ j
    · rw [if_pos (by rw [← hX, hDr]; omega), if_neg (by omega), if_pos]
      · rw [(hdiv2 i hi1 hi).2, (hdiv2 j hj1 hj).2, hDr]
      · refine ⟨by omega, ?_⟩
        rw [(hdiv2 i hi1 hi).1, (hdiv2 j hj1 hj).1]
    · rw [if_neg (by rw [hDr]; omega), setBlockP_e_in (by simp [resize]) (by simp [resize]),
        if_neg (by simp only [zero_rows, zero_cols, hDr]; omega),
        setBlockP_e_in (by simp [resize]) (by simp [resize]),
        if_pos (by simp only [zero_rows, zero_cols, hDr]; omega), zero_e, if_neg (by omega), if_neg]
      rintro ⟨h1, h2⟩
      rw [(hdiv2 i hi1 hi).1] at h2
      have := hdiv j (by omega) h1.2
      omega
    · rw [if_neg (by rw [hDr]; omega), setBlockP_e_in (by simp [resize]) (by simp [resize]),
        if_pos (by simp only [zero_rows, zero_cols, hDr]; omega), zero_e, if_neg (by omega), if_neg]
      rintro ⟨h1, h2⟩
      rw [(hdiv2 j hj1 hj).1] at h2
      have := hdiv i (by omega) h1.1
      omega
    · rw [if_neg (by rw [hDr]; omega), setBlockP_e_in (by simp [resize]) (by simp [resize]),
        if_neg (by simp only [zero_rows, zero_cols, hDr]; omega),
        setBlockP_e_in (by simp [resize]) (by simp [resize]),
        if_neg (by simp only [zero_rows, zero_cols, hDr]; omega)]
      unfold resize
      rw [ofFn_e_of_lt (by omega) (by omega), if_pos (by omega), hD]
      unfold diagCopies
      rw [ofFn_e_of_lt (by rw [← hd, ← hm]; omega) (by rw [← hd, ← hm]; omega)]

/-- **C18**: for every state with a square matrix, every square `B` and every `n`, whatever the
uninitialised memory contained, `copy_diag_X(n, B)` is `B` followed by `n` diagonal copies of `X`
and zero elsewhere. -/
theorem C18_copy_diag_X (g : ℕ → ℕ → ℝ) (s : RobotState) (B : Mat) (n : ℕ)
    (hX : s.X.rows = s.X.cols) (hX0 : 0 < s.X.rows) (hB : B.rows = B.cols) :
    s.copy_diag_X g n B = some (diagCopies B s.X n) := by
  unfold copy_diag_X dimX
  rw [← hX]; exact copyDiag_spec g s.X B n hX hX0 hB

/-- **C18**, the same for `copy_diag_Xinv` and the group inverse. -/
theorem C18_copy_diag_Xinv (g : ℕ → ℕ → ℝ) (s : RobotState) (B : Mat) (n K : ℕ)
    (h : IsSEK K s.X) (hB : B.rows = B.cols) :
    ∃ Y, s.X * Y = one (3 + K) ∧ s.copy_diag_Xinv g n B = some (diagCopies B Y n) := by
  obtain ⟨Y, hY, h1, _, hYs⟩ := C10_get_Xinv_inverse s K h
  refine ⟨Y, h1, ?_⟩
  unfold copy_diag_Xinv
  have e : s.dimX = Y.rows := by unfold dimX; rw [h.cols, hYs.rows]
  have hr := hYs.rows; have hc := hYs.cols
  simp only [hY, Option.bind_eq_bind, Option.bind_some, e]
  exact copyDiag_spec g Y B n (by omega) (by omega) hB

/-- two copies of a 5x5 state after a 1x1 corner -/
example (g : ℕ → ℕ → ℝ) : ∃ D, init.copy_diag_X g 2 (one 1) = some D ∧ D.rows = 11 ∧
    D.e 7 7 = 1 ∧ D.e 7 2 = 0 :=
  ⟨_, C18_copy_diag_X g init (one 1) 2 rfl (by simp [init]) rfl, rfl,
    by simp [diagCopies, init, ofFn_e, one_e], by simp [diagCopies, init, ofFn_e, one_e]⟩

/-! ### C19, C20 -/

theorem ofRpv_eq (R : M3) (p v : V3) :
    SEK3.ofRpv R p v = some ⟨5, mkSE 2 R fun k => if k = 0 then p else v⟩ := by
  unfold SEK3.ofRpv SEK3.default
  have h1 : (one 5).setBlock? 0 0 (of3 R) = some (mkSE 2 R fun _ => 0) := one_setRot 2 R
  simp only [h1, Option.bind_eq_bind, Option.bind_some]
  have h2 := fillCols (K := 2) (R := R) (fun k => if k = 0 then p else v)
    (fun i X => X.setBlock? 0 (3 + i) (ofV ((fun k => if k = 0 then p else v) i))) (fun _ _ _ _ _ => rfl)
  simp only [forRange, Option.bind_some] at h2
  norm_num at h2
  cases h3 : (mkSE 2 R fun _ => 0).setBlock? 0 3 (ofV p) with
  | none => rw [h3] at h2; simp at h2
  | some Y => rw [h3, Option.bind_some] at h2; simp [h2]

/-- **C19**, exactly what happens: a state built from `SEK3(R,p,v)` has rotation `R`, but reports `p`
as its VELOCITY and `v` as its POSITION (rotation is right: that part of the property holds). -/
theorem C19_from_SEK3_partial (R : M3) (p v : V3) : ∃ x s, SEK3.ofRpv R p v = some x ∧
    RobotState.ofSEK3 x = some s ∧ s.get_rotation = some R ∧ s.get_velocity = some p ∧
      s.get_position = some v := by
  refine ⟨_, { init with X := mkSE 2 R fun k => if k = 0 then p else v }, ofRpv_eq R p v, ?_, ?_, ?_, ?_⟩
  · unfold RobotState.ofSEK3
    rw [if_neg (by simp)]
    unfold ofXTheta
    rw [if_neg (by simp)]
    rfl
  · show Mat.blk3? _ _ _ = _
    rw [blk3?_eq (by simp) (by simp), mkSE_blk3]
  · show Mat.blkV? _ _ _ = _
    rw [blkV?_eq (by simp) (by simp), mkSE_blkV3 _ _ _ (by omega)]; simp
  · show Mat.blkV? _ _ _ = _
    rw [blkV?_eq (by simp) (by simp), mkSE_blkV4 _ _ _ (by omega)]; simp

/-- **C19** is FALSE as stated: velocity and position are exchanged. -/
theorem C19_from_SEK3_false : ¬ ∀ (R : M3) (p v : V3) (x : SEK3) (s : RobotState),
    SEK3.ofRpv R p v = some x → RobotState.ofSEK3 x = some s → s.get_position = some p := by
  intro H
  obtain ⟨x, s, h1, h2, _, _, h3⟩ := C19_from_SEK3_partial 1 0 1
  have := H _ _ _ x s h1 h2
  rw [h3] at this
  have := congrFun (Option.some.inj this) 0
  simp at this

/-- **C20**, the 5x5 case: `X * X.inverse()` and `X.inverse() * X` are the identity. -/
theorem C20_inverse_5x5_partial (x : SEK3) (h : IsSEK 2 x.X) :
    ∃ y, x.inverse = some y ∧ (∃ z, x.mul y = some z ∧ z.X = one 5) ∧
      ∃ z, y.mul x = some z ∧ z.X = one 5 := by
  have hr := h.rows; have hc := h.cols
  have e0 : x.X.blk3? 0 0 = some (x.X.blk3 0 0) := blk3?_eq (by omega) (by omega)
  have e3 : x.X.blkV? 0 3 = some (x.X.blkV 0 3) := blkV?_eq (by omega) (by omega)
  have e4 : x.X.blkV? 0 4 = some (x.X.blkV 0 4) := blkV?_eq (by omega) (by omega)
  set R := x.X.blk3 0 0 with hR
  have hinv : mkSE 2 Rᵀ (fun k => if k = 0 then (-Rᵀ).mulVec (x.X.blkV 0 3) else (-Rᵀ).mulVec (x.X.blkV 0 4))
      = mkSE 2 Rᵀ (fun k => -(Rᵀ.mulVec (x.X.blkV 0 (3 + k)))) := by
    refine mkSE_congr rfl fun k hk => ?_
    obtain rfl | rfl : k = 0 ∨ k = 1 := by omega
    · simp [neg_mulVec]
    · simp [neg_mulVec]
  refine ⟨⟨x.K, mkSE 2 Rᵀ (fun k => -(Rᵀ.mulVec (x.X.blkV 0 (3 + k))))⟩, ?_,
    ⟨⟨x.K, x.X * mkSE 2 Rᵀ (fun k => -(Rᵀ.mulVec (x.X.blkV 0 (3 + k))))⟩, ?_, ?_⟩,
    ⟨⟨x.K, mkSE 2 Rᵀ (fun k => -(Rᵀ.mulVec (x.X.blkV 0 (3 + k)))) * x.X⟩, ?_, ?_⟩⟩
  · unfold SEK3.inverse SEK3.get_R SEK3.get_p SEK3.get_v
    simp only [e0, e3, e4, Option.bind_eq_bind, Option.bind_some, ofRpv_eq, hinv]
  · unfold SEK3.mul; rw [mul?_eq (by simp [hc]), Option.map_some]
  · show x.X * _ = _
    rw [show one 5 = one (3 + 2) from rfl, ← mkSE_inv_right (K := 2) (p := fun k => x.X.blkV 0 (3 + k)) h.rot]
    congr 1
    exact h.eq_mk
  · unfold SEK3.mul; rw [mul?_eq (by simp [hr]), Option.map_some]
  · show _ * x.X = _
    rw [show one 5 = one (3 + 2) from rfl, ← mkSE_inv_left (K := 2) (p := fun k => x.X.blkV 0 (3 + k)) h.rot]
    congr 1
    exact h.eq_mk

/-- **C20** is FALSE for every other dimension: the inverse is 5x5 (or undefined), so the product
`X * X.inverse()` is a size error whenever `X` is in SE_K(3) with `K ≠ 2`. -/
theorem C20_inverse_other_sizes (x : SEK3) (K : ℕ) (hK : K ≠ 2) (h : IsSEK K x.X) :
    ∀ y, x.inverse = some y → x.mul y = none := by
  intro y hy
  unfold SEK3.inverse at hy
  cases h0 : x.get_R with
  | none => simp [h0] at hy
  | some R =>
    cases h1 : x.get_p with
    | none => simp [h0, h1] at hy
    | some p =>
      cases h2 : x.get_v with
      | none => simp [h0, h1, h2] at hy
      | some v =>
        simp only [h0, h1, h2, Option.bind_eq_bind, Option.bind_some, ofRpv_eq, Option.some.injEq] at hy
        subst hy
        unfold SEK3.mul mul?
        have := h.cols
        rw [if_neg (by simp; omega)]; rfl

example : ∃ x : SEK3, IsSEK 3 x.X ∧ (x.inverse).isSome := by
  refine ⟨⟨6, mkSE 3 1 fun _ => 0⟩, sek_isSEK (K := 3) (p := fun _ => 0) IsRot.one, ?_⟩
  unfold SEK3.inverse SEK3.get_R SEK3.get_p SEK3.get_v
  simp [blk3?_eq (A := mkSE 3 1 fun _ => 0) (r := 0) (c := 0) (by simp) (by simp),
    blkV?_eq (A := mkSE 3 1 fun _ => 0) (r := 0) (c := 3) (by simp) (by simp),
    blkV?_eq (A := mkSE 3 1 fun _ => 0) (r := 0) (c := 4) (by simp) (by simp), ofRpv_eq]

/-! ### C21 -/

/-- **C21** is FALSE, for every reachable state with two or more contacts: let a user delete, on a
COPY of the state, an augmented column that is not the last.  The running filter's table (which
shares the column numbers) no longer matches the running filter's matrix. -/
theorem C21_copy_corrupts_filter (h : Heap) (s : RobotState) (hs : StateReach h s) (idx : ℕ)
    (h5 : 5 ≤ idx) (hlt : idx + 1 < s.dimX) :
    let copy := s
    ∃ h' copy', copy.del_aug_state h idx = some (h', copy') ∧ TableOK h s ∧ ¬ TableOK h' s := by
  obtain ⟨hc, ht⟩ := stateReach_inv hs
  obtain ⟨h', s', e, -, -, -, -, -, -, -, hv, -⟩ := del_aug_state_spec hc ht h5 (by omega)
  refine ⟨h', s', e, ht, ?_⟩
  have hlen : idx + 1 < s.colMap.length := by rw [hc.map_len]; exact hlt
  obtain ⟨a, ha, hav, _⟩ := ht.2 (idx + 1) (by omega) hlen
  intro ht'
  obtain ⟨a', ha', hav', _⟩ := ht'.2 (idx + 1) (by omega) hlen
  rw [ha] at ha'
  simp only [Option.some.injEq] at ha'
  subst ha'
  have := hv a (idx + 1) (by omega) ha
  omega

example (h : Heap) : ∃ h' s', StateReach h' s' ∧ 5 + 1 < s'.dimX := by
  obtain ⟨h', s', r, e⟩ := reach_two h 0 0 0 0
  exact ⟨h', s', r, by omega⟩

/-- **C21**, what holds: deleting the last augmented column of a copy leaves every column number of
the running filter unchanged (all other setters do not touch the shared cells at all). -/
theorem C21_last_column_partial (h : Heap) (s : RobotState) (hs : StateReach h s) (idx : ℕ)
    (h5 : 5 ≤ idx) (hlt : idx + 1 = s.dimX) :
    ∃ h' copy', s.del_aug_state h idx = some (h', copy') ∧ h' = h ∧ TableOK h' s := by
  obtain ⟨hc, ht⟩ := stateReach_inv hs
  obtain ⟨h', s', e, -, -, -, -, hn, -, hv, -, -⟩ := del_aug_state_spec hc ht h5 (by omega)
  have hh : h' = h := by
    have : h'.val = h.val := by
      funext a
      refine hv a fun j hj hcon => ?_
      have : j < s.colMap.length := by
        by_contra hcc
        rw [List.getElem?_eq_none (by omega)] at hcon; simp at hcon
      rw [hc.map_len] at this
      unfold dimX at hlt
      omega
    cases h'; cases h; simp_all
  exact ⟨h', s', e, hh, hh ▸ ht⟩

/-! ### C22 -/

/-- **C22**: whatever the state, after `clear()` the matrix, the biases, both covariances and the
column table are those of a freshly constructed state, and the angular velocity is zero. -/
theorem C22_clear_restores (s : RobotState) :
    s.clear.X = init.X ∧ s.clear.Theta = init.Theta ∧ s.clear.P = init.P ∧ s.clear.Qc = init.Qc ∧
      s.clear.colMap = init.colMap ∧ s.clear.bodyAngVel = some 0 :=
  ⟨rfl, rfl, rfl, rfl, rfl, rfl⟩

/-- what `clear()` does not reset: both time stamps, the bias-update flag and the slip flag -/
theorem C22_clear_keeps (s : RobotState) : s.clear.t = s.t ∧ s.clear.tProp = s.tProp ∧
    s.clear.enableBias = s.enableBias ∧ s.clear.slip = s.slip := ⟨rfl, rfl, rfl, rfl⟩

end Drift
