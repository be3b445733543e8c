import Verif.Lemmas.Perf1
import Verif.Props.Estimator2
import Verif.Props.VelLog

/-! # Lemmas: the first velocity correction after the initialisation -/
set_option linter.unusedSimpArgs false
namespace Drift
open Mat Matrix RobotState Finset

/-- with the pose uncorrelated and the same covariance `k` for the estimated and for the measured velocity, the correction goes half way -/
theorem first_vel {c : VelCorr} {s : RobotState} {m : VelMeas} {k : ℝ} {v p : V3} (hk : 0 < k) (hsh : Shape 2 s) (hw : s.stateType = .worldCentric)
    (hb : BlockDiag3 s.P) (hv : s.get_velocity_covariance = some (k • (1 : M3))) (hc : c.cov = k • (1 : M3)) (het : c.errorType = .rightInvariant)
    (h0 : s.get_rotation = some 1) (h3 : s.get_velocity = some v) (h4 : s.get_position = some p) :
    ∃ s', c.apply m s = some s' ∧ s'.t = some m.time ∧ s'.tProp = s.tProp ∧ s'.get_rotation = some 1 ∧
      s'.get_velocity = some (v + (1 / 2 : ℝ) • (c.scale • c.R_vel2body.mulVec m.vel - v)) ∧ s'.get_position = some p := by
  have hr := hsh.x.rows; have hcc := hsh.x.cols
  have hpr := hsh.pr; have hpc := hsh.pc
  have hsh' := hsh.setT (some m.time)
  have hd : s.dimP = 15 := hpc
  have e0 : s.get_rotation = some (s.X.blk3 0 0) := blk3?_eq (by omega) (by omega)
  have e3 : s.get_velocity = some (s.X.blkV 0 3) := blkV?_eq (by omega) (by omega)
  have e4 : s.get_position = some (s.X.blkV 0 4) := blkV?_eq (by omega) (by omega)
  have ev : s.get_velocity_covariance = some (s.P.blk3 3 3) := blk3?_eq (by omega) (by omega)
  rw [e0] at h0; rw [e3] at h3; rw [e4] at h4; rw [ev] at hv
  have h0 := Option.some.inj h0; have h3 := Option.some.inj h3; have h4 := Option.some.inj h4; have hv := Option.some.inj hv
  set Q := priorR 2 { s with t := some m.time } c.errorType with hQ
  have hQr : Q.rows = 15 := priorR_rows hsh'
  have hQc : Q.cols = 15 := priorR_cols hsh'
  have hQP : ∀ i j, i < 9 → j < 9 → Q.e i j = s.P.e i j := by
    intro i j hi hj
    rw [hQ]
    unfold priorR prior0
    rw [if_neg (by rw [het]; simp)]
    split_ifs
    · rfl
    · rw [mask_e (by simp only; omega) (by simp only; omega), if_pos ⟨by omega, by omega⟩]
  have hcol : ∀ i j, i < 9 → j < 3 → Q.e i (j + 3) = if i = j + 3 then k else 0 := by
    intro i j hi hj
    rw [hQP i (j + 3) hi (by omega)]
    by_cases h : i / 3 = 1
    · have := congrFun (congrFun hv ⟨i - 3, by omega⟩) ⟨j, hj⟩
      simp only [blk3_apply, Matrix.smul_apply, Matrix.one_apply, Fin.mk.injEq, smul_eq_mul, mul_ite, mul_one, mul_zero] at this
      rw [show 3 + (i - 3) = i by omega, show 3 + j = j + 3 by omega] at this
      rw [this]
      by_cases h' : i = j + 3
      · rw [if_pos h', if_pos (by omega)]
      · rw [if_neg h', if_neg (by omega)]
    · rw [hb i (j + 3) (by omega), if_neg (by omega)]
  have hPH : ∀ i j, i < 15 → j < 3 → (Q * (velH 15).T).e i j = Q.e i (j + 3) := by
    intro i j hi hj
    rw [mul_e, hQc, Finset.sum_eq_single (j + 3)]
    · rw [T_e, velH, ofFn_e_of_lt hj (by omega), if_pos rfl, mul_one]
    · intro k hk hne
      rw [T_e, velH, ofFn_e_of_lt hj (mem_range.mp hk), if_neg hne, mul_zero]
    · intro h; exact absurd (mem_range.mpr (by omega)) h
  have hinn : innov Q (velH 15) (of3 (k • 1)) = (2 * k) • Mat.one 3 := by
    refine ext' rfl rfl fun i j hi hj => ?_
    have hi : i < 3 := hi
    have hj : j < 3 := hj
    unfold innov
    rw [add_e, if_pos ⟨hi, hj⟩, mul_e, show (velH 15).cols = 15 from rfl, Finset.sum_eq_single (i + 3)]
    · rw [hPH _ _ (by omega) hj, hcol _ _ (by omega) hj, velH, ofFn_e_of_lt hi (by omega)]
      interval_cases i <;> interval_cases j <;> simp [of3, ofM, one_e, smul_e] <;> ring
    · intro k hk hne
      rw [velH, ofFn_e_of_lt hi (mem_range.mp hk), if_neg hne, zero_mul]
    · intro h; exact absurd (mem_range.mpr (by omega)) h
  have hinv : (innov Q (velH 15) (of3 (k • 1))).inv? = some ((1 / (2 * k)) • Mat.one 3) := by
    rw [hinn]
    refine inv?_eq_some_iff.mpr ⟨rfl, rfl, rfl, ?_, ?_⟩
    all_goals
      rw [Mat.smul_mul', Mat.mul_smul', mul_one_of (n := 3) rfl]
      refine ext' rfl rfl fun i j _ _ => ?_
      simp only [smul_e, smul_rows, one_rows]
      field_simp
  set z := c.scale • (1 : M3).mulVec (c.R_vel2body.mulVec m.vel) - v with hz
  have hdelta : ∀ i, i < 9 → (gain Q (velH 15) ((1 / (2 * k)) • Mat.one 3) * ofV z).e i 0 =
      if h : 3 ≤ i ∧ i < 6 then 1 / 2 * z ⟨i - 3, by omega⟩ else 0 := by
    intro i hi
    unfold gain
    rw [Mat.mul_smul', mul_one_of (n := 3) rfl, Mat.smul_mul', smul_e, mul_e]
    show 1 / (2 * k) * ∑ l ∈ range 3, (Q * (velH 15).T).e i l * (ofV z).e l 0 = _
    rw [Finset.sum_range_succ, Finset.sum_range_succ, Finset.sum_range_succ, Finset.sum_range_zero, ofV_e _ (by norm_num), ofV_e _ (by norm_num),
      ofV_e _ (by norm_num), hPH _ _ (by omega) (by norm_num), hPH _ _ (by omega) (by norm_num), hPH _ _ (by omega) (by norm_num),
      hcol _ _ hi (by norm_num), hcol _ _ hi (by norm_num), hcol _ _ hi (by norm_num)]
    interval_cases i <;> simp <;> field_simp
  set G := gain Q (velH 15) ((1 / (2 * k)) • Mat.one 3) with hG
  have d0 : (G * ofV z).blkV 0 0 = 0 := by
    funext i
    have := i.2
    rw [blkV_apply, hdelta _ (by omega), dif_neg (by omega)]; rfl
  have d1 : (G * ofV z).blkV 3 0 = (1 / 2 : ℝ) • z := by
    funext i
    have := i.2
    rw [blkV_apply, hdelta _ (by omega), dif_pos (by omega)]
    simp
  have d2 : (G * ofV z).blkV 6 0 = 0 := by
    funext i
    have := i.2
    rw [blkV_apply, hdelta _ (by omega), dif_neg (by omega)]; rfl
  have g0 : Gam1 (0 : V3) = 1 := by unfold Gam1; rw [if_pos (by rw [norm3_zero]; exact TOLERANCE_pos)]
  have g00 : Gam0 (0 : V3) = 1 := by unfold Gam0; rw [if_pos (by rw [norm3_zero]; exact TOLERANCE_pos)]
  have hX := hsh.x.eq_mk
  refine ⟨corrR 2 (ofV z) (velH 15) (of3 (k • 1)) ((1 / (2 * k)) • Mat.one 3) { s with t := some m.time } c.errorType, ?_, rfl, rfl, ?_⟩
  · refine (velApply_iff hsh hw c m).mpr ⟨1, v, by rw [← h0]; exact e0, by rw [← h3]; exact e3, ?_⟩
    rw [show RobotState.dimP { s with t := some m.time } = 15 from hd, hc, show (1 : M3) * k • (1 : M3) * (1 : M3)ᵀ = k • 1 by simp]
    exact (correctRight_iff hsh').mpr ⟨velH_obs (K := 2) _ _, _, hinv, rfl⟩
  have hX' : (corrR 2 (ofV z) (velH 15) (of3 (k • 1)) ((1 / (2 * k)) • Mat.one 3) { s with t := some m.time } c.errorType).X =
      mkSE 2 1 fun j => s.X.blkV 0 (3 + j) + (G * ofV z).blkV (3 + 3 * j) 0 := by
    show expK 2 (G * ofV z) * s.X = _
    unfold expK
    rw [d0, g00, g0]
    conv_lhs => rw [hX]
    rw [mkSE_mul, h0, Matrix.one_mul]
    simp only [one_mulVec]
  unfold get_rotation get_velocity get_position
  rw [hX']
  refine ⟨?_, ?_, ?_⟩
  · rw [blk3?_eq (by simp) (by simp), mkSE_blk3]
  · rw [blkV?_eq (by simp) (by simp), mkSE_blkV3 _ _ _ (by norm_num)]
    simp only [Nat.mul_zero, Nat.add_zero]
    rw [d1, h3, hz, one_mulVec]
  · rw [blkV?_eq (by simp) (by simp), mkSE_blkV4 _ _ _ (by norm_num)]
    simp only [Nat.mul_one]
    rw [d2, add_zero, ← h4]

end Drift
