import Verif.Lemmas.Joseph

/-!
# Properties C23 - C31: `src/filter/inekf/inekf.cpp`

All statements are about the results of `correctRightInvariant` / `correctLeftInvariant` for any
number `K - 2` of augmented columns and any number of measurement rows.
-/
set_option linter.unusedSimpArgs false
set_option linter.unnecessarySeqFocus false
namespace Drift
open Mat Matrix RobotState Finset

/-- the default constructed state is well formed -/
theorem init_shape : Shape 2 RobotState.init where
  x := by simpa [RobotState.init] using IsSEK.one 2
  k := le_refl 2
  thr := rfl
  thc := rfl
  pr := rfl
  pc := rfl

/-- a concrete observation with three rows -/
theorem obs_example (z : Mat) (hz : z.rows = 3) (hz' : z.cols = 1) :
    ObsSizes (3 * 2 + 9) z (eye 3 15) (one 3) := ⟨rfl, rfl, rfl, hz, hz'⟩

/-! ### C31 -/

/-- **C31**: if `P` is symmetric PSD, the measurement noise symmetric PD and the observation has
matching sizes, `CorrectRightInvariant` is well defined (in particular the innovation covariance is
invertible), for both error types and with or without bias update. -/
theorem C31_right_defined {K : ℕ} {s : RobotState} (h : Shape K s) (hP : PSD s.P) {Z H N : Mat}
    (ho : ObsSizes (3 * K + 9) Z H N) (hN : PD N) (et : ErrorType) :
    ∃ s', correctRightInvariant Z H N s et = some s' := by
  obtain ⟨W, hW⟩ := (innov_pd (priorR_psd (et := et) h hP)
    (by rw [ho.hc, priorR_rows h]) hN ho.nr).inv
  exact ⟨_, (correctRight_iff h).mpr ⟨ho, W, hW, rfl⟩⟩

/-- **C31** for `CorrectLeftInvariant` -/
theorem C31_left_defined {K : ℕ} {s : RobotState} (h : Shape K s) (hP : PSD s.P) {Z H N : Mat}
    (ho : ObsSizes (3 * K + 9) Z H N) (hN : PD N) (et : ErrorType) :
    ∃ s', correctLeftInvariant Z H N s et = some s' := by
  obtain ⟨W, hW⟩ := (innov_pd (priorL_psd (et := et) h hP)
    (by rw [ho.hc, priorL_rows h]) hN ho.nr).inv
  exact ⟨_, (correctLeft_iff h).mpr ⟨ho, W, hW, rfl⟩⟩

/-- **C31**, the matrix statement itself: `S = H P Hᵀ + N` has an inverse -/
theorem C31_innovation_invertible {P H N : Mat} (hP : PSD P) (hN : PD N) (hc : H.cols = P.rows)
    (hr : N.rows = H.rows) : ∃ W, (H * P * H.T + N).inv? = some W := by
  rw [mul_assoc']
  exact (innov_pd hP hc hN hr).inv

/-- a concrete case: the default state corrected with a three-row observation -/
example (et : ErrorType) :
    (∃ s', correctRightInvariant (ofV ![1, 2, 3]) (eye 3 15) (one 3) RobotState.init et = some s') ∧
    (∃ s', correctLeftInvariant (ofV ![1, 2, 3]) (eye 3 15) (one 3) RobotState.init et = some s') :=
  ⟨C31_right_defined init_shape (one_pd 15).psd (obs_example _ rfl rfl) (one_pd 3) et,
   C31_left_defined init_shape (one_pd 15).psd (obs_example _ rfl rfl) (one_pd 3) et⟩

/-! ### C23 -/

/-- **C23**: whatever `Z`, `H`, `N`, if `CorrectRightInvariant` returns, the new state is well formed
with the same `K`: `X` is in SE_K(3), `theta` is 6x1, `P` is square of the right size. -/
theorem C23_right_on_group {K : ℕ} {s s' : RobotState} (h : Shape K s) {Z H N : Mat} {et : ErrorType}
    (hs : correctRightInvariant Z H N s et = some s') : Shape K s' := by
  obtain ⟨ho, W, hW, rfl⟩ := (correctRight_iff h).mp hs
  have hPr := priorR_rows (et := et) h
  refine ⟨(expK_isSEK _ _).mul h.x, h.k, h.thr, h.thc, ?_, ?_⟩
  · unfold corrR; dsimp only; split_ifs <;> simp [hPr]
  · unfold corrR; dsimp only; split_ifs <;> simp [hPr]

/-- **C23** for `CorrectLeftInvariant` -/
theorem C23_left_on_group {K : ℕ} {s s' : RobotState} (h : Shape K s) {Z H N : Mat} {et : ErrorType}
    (hs : correctLeftInvariant Z H N s et = some s') : Shape K s' := by
  obtain ⟨ho, W, hW, rfl⟩ := (correctLeft_iff h).mp hs
  have hPr := priorL_rows (et := et) h
  refine ⟨h.x.mul (expK_isSEK _ _), h.k, h.thr, h.thc, ?_, ?_⟩
  · unfold corrL; dsimp only; split_ifs <;> simp [hPr]
  · unfold corrL; dsimp only; split_ifs <;> simp [hPr]

/-- **C23**, frame condition: a correction touches nothing but `X`, `theta` and `P`. -/
theorem C23_frame {K : ℕ} {s s' : RobotState} (h : Shape K s) {Z H N : Mat} {et : ErrorType}
    (hs : correctRightInvariant Z H N s et = some s' ∨ correctLeftInvariant Z H N s et = some s') :
    s' = { s with X := s'.X, Theta := s'.Theta, P := s'.P } := by
  rcases hs with hs | hs
  · obtain ⟨ho, W, hW, rfl⟩ := (correctRight_iff h).mp hs; rfl
  · obtain ⟨ho, W, hW, rfl⟩ := (correctLeft_iff h).mp hs; rfl

/-- **C23**, no silent acceptance: a correction with ill-sized arguments has no result. -/
theorem C23_sizes {K : ℕ} {s s' : RobotState} (h : Shape K s) {Z H N : Mat} {et : ErrorType}
    (hs : correctRightInvariant Z H N s et = some s' ∨ correctLeftInvariant Z H N s et = some s') :
    ObsSizes (3 * K + 9) Z H N := by
  rcases hs with hs | hs
  · exact ((correctRight_iff h).mp hs).1
  · exact ((correctLeft_iff h).mp hs).1

/-! ### C24 -/

/-- **C24**: a symmetric PSD covariance stays symmetric PSD through `CorrectRightInvariant`. -/
theorem C24_right_psd {K : ℕ} {s s' : RobotState} (h : Shape K s) (hP : PSD s.P) {Z H N : Mat}
    (hN : PD N) {et : ErrorType} (hs : correctRightInvariant Z H N s et = some s') : PSD s'.P := by
  obtain ⟨ho, W, hW, rfl⟩ := (correctRight_iff h).mp hs
  have hPr := priorR_rows (et := et) h
  obtain ⟨_, w1, w2, _, _⟩ := inv?_spec hW
  have hJ : PSD (joseph (priorR K s et) H N (gain (priorR K s et) H W)) :=
    joseph_psd (priorR_psd h hP) (by rw [ho.hc, hPr]) hN.psd rfl (by simp [w2, ho.nr])
  have hM := mask_psd (p := (· ≠ 3 * K + 5)) (c := 0.0001) hJ (by norm_num)
  unfold corrR; dsimp only; split_ifs
  · exact hM.congr (by simp [hPr])
  · exact hM

/-- **C24** for `CorrectLeftInvariant` -/
theorem C24_left_psd {K : ℕ} {s s' : RobotState} (h : Shape K s) (hP : PSD s.P) {Z H N : Mat}
    (hN : PD N) {et : ErrorType} (hs : correctLeftInvariant Z H N s et = some s') : PSD s'.P := by
  obtain ⟨ho, W, hW, rfl⟩ := (correctLeft_iff h).mp hs
  have hPr := priorL_rows (et := et) h
  obtain ⟨_, w1, w2, _, _⟩ := inv?_spec hW
  have hJ : PSD (joseph (priorL K s et) H N (gain (priorL K s et) H W)) :=
    joseph_psd (priorL_psd h hP) (by rw [ho.hc, hPr]) hN.psd rfl (by simp [w2, ho.nr])
  unfold corrL; dsimp only; split_ifs
  · exact hJ.congr (by simp [hPr])
  · exact hJ

/-- Consequence used by the estimator: any finite sequence of corrections with positive definite
noises, of either side and with either error type, is well defined and keeps the state well formed
with a PSD covariance. -/
theorem C24_sequence {K : ℕ} (L : List (Mat × Mat × Mat × ErrorType × Bool)) :
    ∀ s : RobotState, Shape K s → PSD s.P →
    (∀ o ∈ L, ObsSizes (3 * K + 9) o.1 o.2.1 o.2.2.1 ∧ PD o.2.2.1) →
    ∃ s', L.foldlM (fun t o => if o.2.2.2.2 then correctRightInvariant o.1 o.2.1 o.2.2.1 t o.2.2.2.1
        else correctLeftInvariant o.1 o.2.1 o.2.2.1 t o.2.2.2.1) s = some s' ∧ Shape K s' ∧ PSD s'.P := by
  induction L with
  | nil => intro s h hP _; exact ⟨s, rfl, h, hP⟩
  | cons o L ih =>
    intro s h hP hL
    obtain ⟨ho, hN⟩ := hL o (by simp)
    have hstep : ∃ t, (if o.2.2.2.2 then correctRightInvariant o.1 o.2.1 o.2.2.1 s o.2.2.2.1
        else correctLeftInvariant o.1 o.2.1 o.2.2.1 s o.2.2.2.1) = some t ∧ Shape K t ∧ PSD t.P := by
      split_ifs
      · obtain ⟨t, ht⟩ := C31_right_defined h hP ho hN o.2.2.2.1
        exact ⟨t, ht, C23_right_on_group h ht, C24_right_psd h hP hN ht⟩
      · obtain ⟨t, ht⟩ := C31_left_defined h hP ho hN o.2.2.2.1
        exact ⟨t, ht, C23_left_on_group h ht, C24_left_psd h hP hN ht⟩
    obtain ⟨t, ht, hsh, hpsd⟩ := hstep
    obtain ⟨s', hs', h1, h2⟩ := ih t hsh hpsd fun o' ho' => hL o' (by simp [ho'])
    refine ⟨s', ?_, h1, h2⟩
    rw [List.foldlM_cons, ht]
    exact hs'

/-! ### C25 -/

/-- **C25**: zero innovation leaves `X` and `theta` unchanged (`CorrectRightInvariant`). -/
theorem C25_right_zero_innovation {K : ℕ} {s s' : RobotState} (h : Shape K s) {H N : Mat}
    {et : ErrorType} {m : ℕ} (hs : correctRightInvariant (zero m 1) H N s et = some s') :
    s'.X = s.X ∧ s'.Theta = s.Theta := by
  obtain ⟨ho, W, hW, rfl⟩ := (correctRight_iff h).mp hs
  unfold corrR
  constructor
  · dsimp only
    rw [expK_zero K (fun i _ => by simp [mul_e]), one_mul_of h.x.rows]
  · dsimp only
    refine ext' rfl rfl fun i j hi hj => ?_
    simp only [add_rows, add_cols] at hi hj
    rw [add_e, if_pos ⟨hi, hj⟩, setP_e]
    simp [blockP_e, mul_e]

/-- **C25** for `CorrectLeftInvariant` -/
theorem C25_left_zero_innovation {K : ℕ} {s s' : RobotState} (h : Shape K s) {H N : Mat}
    {et : ErrorType} {m : ℕ} (hs : correctLeftInvariant (zero m 1) H N s et = some s') :
    s'.X = s.X ∧ s'.Theta = s.Theta := by
  obtain ⟨ho, W, hW, rfl⟩ := (correctLeft_iff h).mp hs
  unfold corrL
  constructor
  · dsimp only
    rw [expK_zero K (fun i _ => by simp [mul_e]), mul_one_of h.x.cols]
  · dsimp only
    refine ext' rfl rfl fun i j hi hj => ?_
    simp only [add_rows, add_cols] at hi hj
    rw [add_e, if_pos ⟨hi, hj⟩]
    simp [blockP_e, mul_e]

/-! ### C26 -/

theorem priorL_masked {K s et} (h : Shape K s) (hb : s.enableBias = false) :
    ∃ Q : Mat, Q.rows = 3 * K + 9 ∧ Q.cols = 3 * K + 9 ∧
      priorL K s et = mask (· < 3 * K + 3) 0.0001 Q := by
  unfold priorL prior0
  simp only [hb, Bool.false_eq_true, if_false]
  split_ifs with hl
  · refine ⟨EA K (invSE K s.X) * s.P * (EA K (invSE K s.X)).T, rfl, rfl, ?_⟩
    unfold EA
    rw [mask_bd (m := 3 * K + 3) (by simp; ring) (by simp; ring) (by omega) h.pr h.pc]
  · exact ⟨s.P, h.pr, h.pc, rfl⟩

theorem gain_bias_zero {K : ℕ} {Q H W : Mat} {c : ℝ} (hr : Q.rows = 3 * K + 9) (hc : Q.cols = 3 * K + 9)
    (hH : ∀ i j, 3 * K + 3 ≤ j → H.e i j = 0) (i j : ℕ) (hi : 3 * K + 3 ≤ i) :
    (gain (mask (· < 3 * K + 3) c Q) H W).e i j = 0 := by
  unfold gain
  rw [mul_e]
  refine sum_eq_zero fun k _ => ?_
  have : (mask (· < 3 * K + 3) c Q * H.T).e i k = 0 := by
    rw [mul_e]
    refine sum_eq_zero fun l hl => ?_
    rw [T_e]
    by_cases hl' : 3 * K + 3 ≤ l
    · rw [hH k l hl', mul_zero]
    · by_cases hin : i < 3 * K + 9
      · rw [mask_e (by omega) (by rw [hc]; omega), if_neg (by omega), if_neg (by omega), zero_mul]
      · rw [e_of_ge_rows _ (by simp only [mask_rows]; omega), zero_mul]
  rw [this, zero_mul]

/-- **C26**: with the bias update disabled and an observation that does not involve the biases
(columns `3K+3 ..` of `H` are zero), neither correction changes `theta`. -/
theorem C26_bias_frozen {K : ℕ} {s s' : RobotState} (h : Shape K s) (hb : s.enableBias = false)
    {Z H N : Mat} {et : ErrorType} (hH : ∀ i j, 3 * K + 3 ≤ j → H.e i j = 0)
    (hs : correctRightInvariant Z H N s et = some s' ∨ correctLeftInvariant Z H N s et = some s') :
    s'.Theta = s.Theta := by
  rcases hs with hs | hs
  · obtain ⟨ho, W, hW, rfl⟩ := (correctRight_iff h).mp hs
    obtain ⟨Q, q1, q2, hQ⟩ := priorR_masked (et := et) h hb
    unfold corrR; dsimp only
    refine ext' rfl rfl fun i j hi hj => ?_
    simp only [add_rows, add_cols] at hi hj
    rw [add_e, if_pos ⟨hi, hj⟩, setP_e]
    have hz : ((gain (priorR K s et) H W * Z).blockP (3 * K + 3) 0 6 1).e i j = 0 := by
      rw [blockP_e]; split_ifs
      · rw [mul_e, hQ]
        exact sum_eq_zero fun k _ => by rw [gain_bias_zero q1 q2 hH _ _ (by omega), zero_mul]
      · rfl
    rw [hz]; simp
  · obtain ⟨ho, W, hW, rfl⟩ := (correctLeft_iff h).mp hs
    obtain ⟨Q, q1, q2, hQ⟩ := priorL_masked (et := et) h hb
    unfold corrL; dsimp only
    refine ext' rfl rfl fun i j hi hj => ?_
    simp only [add_rows, add_cols] at hi hj
    rw [add_e, if_pos ⟨hi, hj⟩]
    have hz : ((gain (priorL K s et) H W * Z).blockP (3 * K + 3) 0 6 1).e i j = 0 := by
      rw [blockP_e]; split_ifs
      · rw [mul_e, hQ]
        exact sum_eq_zero fun k _ => by rw [gain_bias_zero q1 q2 hH _ _ (by omega), zero_mul]
      · rfl
    rw [hz, add_zero]

/-- the default state has the bias update disabled, and a velocity-like observation has no bias
columns -/
example : RobotState.init.enableBias = false ∧ ∀ i j, 3 * 2 + 3 ≤ j → (eye 3 15).e i j = 0 := by
  refine ⟨rfl, fun i j hj => ?_⟩
  rw [eye_e, if_neg (by omega)]

/-! ### C27 -/

/-- **C27**: `CorrectRightInvariant` never changes `theta(2)`, the yaw gyro bias; afterwards its row
and column of `P` are zero except for the variance `1e-4`.  Both error types. -/
theorem C27_yaw_bias {K : ℕ} {s s' : RobotState} (h : Shape K s) {Z H N : Mat} {et : ErrorType}
    (hs : correctRightInvariant Z H N s et = some s') :
    s'.Theta.e 2 0 = s.Theta.e 2 0 ∧
    s'.P.e (3 * K + 5) (3 * K + 5) = 0.0001 ∧
    ∀ j, j ≠ 3 * K + 5 → s'.P.e (3 * K + 5) j = 0 ∧ s'.P.e j (3 * K + 5) = 0 := by
  have hsh := C23_right_on_group h hs
  obtain ⟨ho, W, hW, rfl⟩ := (correctRight_iff h).mp hs
  have hPr := priorR_rows (et := et) h
  set M := mask (· ≠ 3 * K + 5) 0.0001 (joseph (priorR K s et) H N (gain (priorR K s et) H W)) with hM
  have hMr : M.rows = 3 * K + 9 := by simp [hM, hPr]
  have hMc : M.cols = 3 * K + 9 := by simp [hM, hPr]
  have hrow : ∀ j, j < 3 * K + 9 → M.e (3 * K + 5) j = if j = 3 * K + 5 then 0.0001 else 0 := by
    intro j hj
    rw [hM, mask_e (by simp [hPr]) (by simp [hPr, hj]), if_neg (by simp)]
    by_cases hj' : j = 3 * K + 5
    · rw [if_pos hj'.symm, if_pos hj']
    · rw [if_neg (Ne.symm hj'), if_neg hj']
  have hcol : ∀ j, j < 3 * K + 9 → M.T.e (3 * K + 5) j = if j = 3 * K + 5 then 0.0001 else 0 := by
    intro j hj
    rw [T_e, hM, mask_e (by simp [hPr, hj]) (by simp [hPr]), if_neg (by simp)]
  refine ⟨?_, ?_⟩
  · unfold corrR; dsimp only
    rw [add_e, if_pos (by rw [h.thr, h.thc]; omega), setP_e, if_pos (by simp), if_pos ⟨rfl, rfl⟩, add_zero]
  · have key : ∀ j, j < 3 * K + 9 →
        (corrR K Z H N W s et).P.e (3 * K + 5) j = (if j = 3 * K + 5 then 0.0001 else 0) ∧
        (corrR K Z H N W s et).P.e j (3 * K + 5) = (if j = 3 * K + 5 then 0.0001 else 0) := by
      intro j hj
      unfold corrR; dsimp only; rw [← hM]
      by_cases hl : et = .leftInvariant
      · rw [if_pos hl]
        unfold EA
        refine ⟨bd_conj_diag (m := 3 * K + 3) (by simp; ring) (by simp; ring) (by omega) (by omega)
          (by omega) hrow hMr hMc j hj, ?_⟩
        have := bd_conj_diag (m := 3 * K + 3) (A := AdM K (invSE K (expK K
          (gain (priorR K s et) H W * Z) * s.X))) (M := M.T) (i0 := 3 * K + 5) (by simp; ring) (by simp; ring)
          (by omega) (by omega) (by omega) hcol (by simp [hMc]) (by simp [hMr]) j hj
        rw [← this, ← T_e, T_mul (by simp [hMc]), T_mul (by simp [hMr]), T_T, mul_assoc']
      · rw [if_neg hl]
        refine ⟨hrow j hj, ?_⟩
        have := hcol j hj
        rwa [T_e] at this
    refine ⟨by simpa using (key (3 * K + 5) (by omega)).1, fun j hj => ?_⟩
    by_cases hj' : j < 3 * K + 9
    · have := key j hj'
      rw [if_neg hj] at this
      exact this
    · exact ⟨e_of_ge_cols _ (by rw [hsh.pc]; omega), e_of_ge_rows _ (by rw [hsh.pr]; omega)⟩

/-! ### C28 -/

theorem adjRelated_iff {K : ℕ} {X PL PR : Mat} (h : IsSEK K X) :
    AdjRelated K X PL PR ↔ PR = EA K X * PL * (EA K X).T := by
  unfold AdjRelated EA
  rw [adjoint_AdM h.rows h.cols]
  simp

/-- **C28**: two states with the same mean, one carrying the left-invariant covariance, the other the
adjoint-related right-invariant one.  `CorrectRightInvariant` with the respective error type is
defined for both or for none, produces the same mean, and the new covariances are related by the
adjoint of the new `X`. -/
theorem C28_error_types_equivalent {K : ℕ} {sL sR : RobotState} (hL : Shape K sL) (hR : Shape K sR)
    (hX : sL.X = sR.X) (hT : sL.Theta = sR.Theta) (hb : sL.enableBias = sR.enableBias)
    (hP : AdjRelated K sL.X sL.P sR.P) (Z H N : Mat) :
    (correctRightInvariant Z H N sL .leftInvariant = none ∧
      correctRightInvariant Z H N sR .rightInvariant = none) ∨
    ∃ sL' sR', correctRightInvariant Z H N sL .leftInvariant = some sL' ∧
      correctRightInvariant Z H N sR .rightInvariant = some sR' ∧
      sL'.X = sR'.X ∧ sL'.Theta = sR'.Theta ∧ sL'.enableBias = sR'.enableBias ∧
      AdjRelated K sL'.X sL'.P sR'.P := by
  rw [adjRelated_iff hL.x] at hP
  have hpr : priorR K sL .leftInvariant = priorR K sR .rightInvariant := by
    unfold priorR prior0
    simp only [if_true, if_neg (show ErrorType.rightInvariant ≠ .leftInvariant by decide), ← hb]
    split_ifs
    · exact hP.symm
    · unfold EA at hP ⊢
      rw [hP, mask_bd (m := 3 * K + 3) (by simp; ring) (by simp; ring) (by omega) hL.pr hL.pc]
  have hprr := priorR_rows (et := .rightInvariant) hR
  have main : ∀ W, (innov (priorR K sR .rightInvariant) H N).inv? = some W →
      ObsSizes (3 * K + 9) Z H N →
      (corrR K Z H N W sL .leftInvariant).X = (corrR K Z H N W sR .rightInvariant).X ∧
      (corrR K Z H N W sL .leftInvariant).Theta = (corrR K Z H N W sR .rightInvariant).Theta ∧
      AdjRelated K (corrR K Z H N W sL .leftInvariant).X (corrR K Z H N W sL .leftInvariant).P
        (corrR K Z H N W sR .rightInvariant).P := by
    intro W hW ho
    have hX' : IsSEK K (corrR K Z H N W sL .leftInvariant).X := by
      unfold corrR; exact (expK_isSEK _ _).mul hL.x
    refine ⟨by unfold corrR; dsimp only; rw [hpr, hX], by unfold corrR; dsimp only; rw [hpr, hT], ?_⟩
    rw [adjRelated_iff hX']
    unfold corrR at hX' ⊢
    dsimp only at hX' ⊢
    simp only [if_true, if_neg (show ErrorType.rightInvariant ≠ .leftInvariant by decide)]
    rw [hpr] at hX' ⊢
    rw [conj_cancel (n := 3 * K + 9) rfl rfl (by simp [hprr]) (by simp [hprr]) rfl (EA_mul_inv hX')]
  by_cases hd : ObsSizes (3 * K + 9) Z H N ∧ ∃ W, (innov (priorR K sR .rightInvariant) H N).inv? = some W
  · obtain ⟨ho, W, hW⟩ := hd
    obtain ⟨m1, m2, m3⟩ := main W hW ho
    exact .inr ⟨_, _, (correctRight_iff hL).mpr ⟨ho, W, by rw [hpr]; exact hW, rfl⟩,
      (correctRight_iff hR).mpr ⟨ho, W, hW, rfl⟩, m1, m2, hb, m3⟩
  · left
    constructor
    · refine Option.eq_none_iff_forall_ne_some.mpr fun t ht => hd ?_
      obtain ⟨ho, W, hW, _⟩ := (correctRight_iff hL).mp ht
      exact ⟨ho, W, by rw [← hpr]; exact hW⟩
    · refine Option.eq_none_iff_forall_ne_some.mpr fun t ht => hd ?_
      obtain ⟨ho, W, hW, _⟩ := (correctRight_iff hR).mp ht
      exact ⟨ho, W, hW⟩

/-- a non-trivial pair: translated state, unit left covariance -/
example : ∃ sL sR : RobotState, Shape 2 sL ∧ Shape 2 sR ∧ sL.X = sR.X ∧ sL.Theta = sR.Theta ∧
    sL.enableBias = sR.enableBias ∧ AdjRelated 2 sL.X sL.P sR.P := by
  have hx : IsSEK 2 (mkSE 2 1 fun _ => ![1, 2, 3]) := sek_isSEK IsRot.one
  refine ⟨{ init with X := mkSE 2 1 fun _ => ![1, 2, 3] },
    { init with X := mkSE 2 1 fun _ => ![1, 2, 3]
                P := EA 2 (mkSE 2 1 fun _ => ![1, 2, 3]) * one 15 * (EA 2 (mkSE 2 1 fun _ => ![1, 2, 3])).T },
    ⟨hx, le_refl _, rfl, rfl, rfl, rfl⟩, ⟨hx, le_refl _, rfl, rfl, rfl, rfl⟩, rfl, rfl, rfl,
    (adjRelated_iff hx).mpr rfl⟩

/-! ### C29 -/

/-- **C29**: in the right-invariant setting the corrected covariance is, on every direction that does
not involve the reset yaw gyro bias (and, with the bias update disabled, no bias), at most the prior
covariance: `xᵀ P⁺ x ≤ xᵀ P x`.  (The left-invariant setting is covered through C28.) -/
theorem C29_uncertainty_decreases {K : ℕ} {s s' : RobotState} (h : Shape K s) (hP : PSD s.P)
    {Z H N : Mat} (hN : PD N) (hs : correctRightInvariant Z H N s .rightInvariant = some s')
    (x : ℕ → ℝ) (hyaw : x (3 * K + 5) = 0)
    (hbias : s.enableBias = false → ∀ i, 3 * K + 3 ≤ i → x i = 0) :
    quad s'.P x ≤ quad s.P x := by
  obtain ⟨ho, W, hW, rfl⟩ := (correctRight_iff h).mp hs
  have hPr := priorR_rows (et := .rightInvariant) h
  have hPc := priorR_cols (et := .rightInvariant) h
  have hpsd := priorR_psd (et := .rightInvariant) h hP
  obtain ⟨_, w1, w2, _, _⟩ := inv?_spec hW
  simp only [innov_rows] at w1 w2
  have hq0 : quad (priorR K s .rightInvariant) x = quad s.P x := by
    unfold priorR prior0
    rw [if_neg (by decide)]
    split_ifs with hb
    · rfl
    · exact quad_mask x fun i hi => hbias (by simpa using hb) i (by omega)
  have hq1 : quad (corrR K Z H N W s .rightInvariant).P x =
      quad (joseph (priorR K s .rightInvariant) H N (gain (priorR K s .rightInvariant) H W)) x := by
    unfold corrR; dsimp only
    rw [if_neg (by decide)]
    exact quad_mask x fun i hi => by simp only [ne_eq, not_not] at hi; rw [hi]; exact hyaw
  rw [hq1, ← hq0, ← sub_nonneg, ← quad_sub (by simp) (by simp [hPr, hPc]),
    sub_joseph hPr hpsd.sym ho.hc hN.1 ho.nr hW]
  exact (((innov_pd hpsd (by rw [ho.hc, hPr]) hN ho.nr).psd).congr (by simp [w2])).2 x

/-- the identity direction of the position is such a direction -/
example : ∃ x : ℕ → ℝ, x (3 * 2 + 5) = 0 ∧ (∀ i, 3 * 2 + 3 ≤ i → x i = 0) ∧ x 6 ≠ 0 :=
  ⟨fun i => if i = 6 then 1 else 0, by norm_num, fun i hi => if_neg (by omega), by norm_num⟩

/-! ### C30 -/

theorem gain_zero_H {P H W : Mat} (hH : ∀ i j, H.e i j = 0) :
    gain P H W = zero P.rows W.cols := by
  refine ext' rfl rfl fun i j _ _ => ?_
  simp [gain, mul_e, hH]

theorem joseph_zero_H {P H N : Mat} {m n : ℕ} (hr : P.rows = n) (hc : P.cols = n) (hH : H.cols = n) :
    joseph P H N (zero n m) = P := by
  unfold joseph
  have e1 : zero n m * H = zero n n := by rw [zero_mul', hH]
  have e2 : one n - zero n n = one n := sub_zero' _ _ _
  rw [hr, e1, e2, T_one, one_mul_of hr, mul_one_of hc, T_zero, mul_zero']
  simp only [mul_rows, zero_rows]
  exact add_zero' _ _ _

/-- **C30**, what holds for the right correction: with `H = 0` and bias update enabled, the mean is
unchanged and, in the right-invariant setting, so is `P` outside the yaw-bias row and column. -/
theorem C30_right_correction_partial {K : ℕ} {s s' : RobotState} (h : Shape K s)
    (hb : s.enableBias = true) {Z H N : Mat} (hH : ∀ i j, H.e i j = 0)
    (hs : correctRightInvariant Z H N s .rightInvariant = some s') :
    s'.X = s.X ∧ s'.Theta = s.Theta ∧
      ∀ i j, i ≠ 3 * K + 5 → j ≠ 3 * K + 5 → s'.P.e i j = s.P.e i j := by
  have hsh := C23_right_on_group h hs
  obtain ⟨ho, W, hW, rfl⟩ := (correctRight_iff h).mp hs
  have hp : priorR K s .rightInvariant = s.P := by unfold priorR prior0; simp [hb]
  unfold corrR
  simp only [hp, gain_zero_H hH, h.pr]
  refine ⟨?_, ?_, ?_⟩
  · rw [expK_zero K (fun i _ => by simp [mul_e]), one_mul_of h.x.rows]
  · refine ext' rfl rfl fun i j hi hj => ?_
    simp only [add_rows, add_cols] at hi hj
    rw [add_e, if_pos ⟨hi, hj⟩, setP_e]
    simp [blockP_e, mul_e]
  · intro i j hi hj
    rw [joseph_zero_H h.pr h.pc ho.hc, if_neg (by decide)]
    by_cases hij : i < s.P.rows ∧ j < s.P.cols
    · rw [mask_e hij.1 hij.2, if_pos ⟨hi, hj⟩]
    · rw [s.P.supp i j hij]
      exact (mask _ _ s.P).supp i j (by simpa using hij)

/-- **C30**, what the left correction really does with no information: in the right-invariant setting
`P` becomes `Ad_X P Ad_Xᵀ`, in the left-invariant setting `Ad_X⁻¹ P Ad_X⁻ᵀ`. -/
theorem C30_left_correction_partial {K : ℕ} {s s' : RobotState} (h : Shape K s)
    (hb : s.enableBias = true) {Z H N : Mat} (hH : ∀ i j, H.e i j = 0) {et : ErrorType}
    (hs : correctLeftInvariant Z H N s et = some s') :
    s'.X = s.X ∧ s'.Theta = s.Theta ∧
      ((et = .rightInvariant → AdjRelated K s.X s.P s'.P) ∧
       (et = .leftInvariant → AdjRelated K s.X s'.P s.P)) := by
  obtain ⟨ho, W, hW, rfl⟩ := (correctLeft_iff h).mp hs
  have hPr := priorL_rows (et := et) h
  have hPc := priorL_cols (et := et) h
  have hX : (corrL K Z H N W s et).X = s.X := by
    unfold corrL; dsimp only
    rw [gain_zero_H hH, expK_zero K (fun i _ => by simp [mul_e]), mul_one_of h.x.cols]
  refine ⟨hX, ?_, ?_, ?_⟩
  · unfold corrL; dsimp only
    rw [gain_zero_H hH]
    refine ext' rfl rfl fun i j hi hj => ?_
    simp only [add_rows, add_cols] at hi hj
    rw [add_e, if_pos ⟨hi, hj⟩]
    simp [blockP_e, mul_e]
  · rintro rfl
    rw [adjRelated_iff h.x]
    have hp : priorL K s .rightInvariant = s.P := by unfold priorL prior0; simp [hb]
    have hX' := hX
    unfold corrL at hX' ⊢
    dsimp only at hX' ⊢
    rw [hX', if_pos rfl, gain_zero_H hH, hPr, joseph_zero_H hPr hPc ho.hc, hp]
  · rintro rfl
    rw [adjRelated_iff h.x]
    unfold corrL
    dsimp only
    rw [if_neg (by decide), gain_zero_H hH, hPr, joseph_zero_H hPr hPc ho.hc]
    have hp : priorL K s .leftInvariant = EA K (invSE K s.X) * s.P * (EA K (invSE K s.X)).T := by
      unfold priorL prior0; simp [hb]
    rw [hp, conj_cancel (n := 3 * K + 9) rfl rfl h.pr h.pc rfl (EA_mul_inv h.x)]

/-- a state with unit covariance and velocity `v` -/
noncomputable def exVel (v : V3) : RobotState :=
  { init with X := mkSE 2 1 (fun k => if k = 0 then v else 0), enableBias := true }

theorem exVel_shape (v) : Shape 2 (exVel v) :=
  ⟨sek_isSEK (K := 2) (R := 1) (p := fun k => if k = 0 then v else 0) IsRot.one, le_refl _, rfl, rfl, rfl, rfl⟩

theorem EA_unit_ne (v : V3) (hv : v 0 ≠ 0) :
    EA 2 (exVel v).X * one 15 * (EA 2 (exVel v).X).T ≠ one 15 := by
  intro hh
  have h1 := congrArg (fun M => M.e 5 1) hh
  rw [mul_one_of (by simp)] at h1
  unfold EA at h1
  rw [bd_T (m := 9) (by simp) (by simp) (by omega), bd_mul (m := 9) (by simp) (by simp) (by simp) (by simp)
    (by omega), bd_e (m := 9) (by simp) (by simp) (by omega), if_pos (by omega), one_e, if_neg (by omega)] at h1
  have h2 : (AdM 2 (exVel v).X * (AdM 2 (exVel v).X).T).blk3 (3 * 1) (3 * 0) 2 1 = 0 := by
    simpa using h1
  unfold exVel at h2
  rw [AdM_mkSE, ofBlk_T, ofBlk_mul, ofBlk_blk3 _ (by omega) (by omega)] at h2
  simp [sum_range_succ, adjF, skew, Matrix.mul_apply, Fin.sum_univ_three] at h2
  exact hv h2

/-- **C30 is false for `CorrectLeftInvariant`**, for both error types: a moving state with unit
covariance, bias update enabled and an all-zero `H` gets a different covariance. -/
theorem C30_false (et : ErrorType) : ∃ s s' : RobotState, Shape 2 s ∧ PSD s.P ∧ s.enableBias = true ∧
    correctLeftInvariant (zero 3 1) (zero 3 15) (one 3) s et = some s' ∧ s'.P ≠ s.P := by
  have hsz : ObsSizes (3 * 2 + 9) (zero 3 1) (zero 3 15) (one 3) := ⟨rfl, rfl, rfl, rfl, rfl⟩
  have hpsd : PSD (exVel ![1, 0, 0]).P := (one_pd 15).psd
  obtain ⟨s', hs'⟩ := C31_left_defined (exVel_shape ![1, 0, 0]) hpsd hsz (one_pd 3) et
  refine ⟨_, s', exVel_shape ![1, 0, 0], hpsd, rfl, hs', fun hEq => ?_⟩
  obtain ⟨-, -, hr, hl⟩ := C30_left_correction_partial (exVel_shape _) rfl (fun i j => by simp) hs'
  cases et
  · have := hl rfl
    rw [adjRelated_iff (exVel_shape _).x, hEq] at this
    exact EA_unit_ne ![1, 0, 0] (by simp) this.symm
  · have := hr rfl
    rw [adjRelated_iff (exVel_shape _).x, hEq] at this
    exact EA_unit_ne ![1, 0, 0] (by simp) this.symm

end Drift
