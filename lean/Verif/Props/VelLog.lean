import Verif.Props.Velocity
import Verif.Spec.VelLog
import Verif.Lemmas.DiffDrive

/-!
# C137: the log of the velocity correction
-/
set_option linter.unusedSimpArgs false
namespace Drift
open Mat Matrix RobotState Finset

theorem apply_shape {K : ℕ} {c : VelCorr} {s s' : RobotState} {m : VelMeas} (hsh : Shape K s) (hw : s.stateType = .worldCentric)
    (h : c.apply m s = some s') : Shape K s' ∧ s'.t = some m.time := by
  obtain ⟨R, v, -, -, h1⟩ := (velApply_iff hsh hw c m).mp h
  refine ⟨C23_right_on_group (hsh.setT (some m.time)) h1, ?_⟩
  have := C23_frame (hsh.setT (some m.time)) (Or.inl h1)
  rw [this]

/-- **C137**, logging changes nothing else, and there is one line for each measurement that is used, none otherwise; the line carries the stamp
of the measurement, which is then the time of the estimate. -/
theorem C137_lines {K : ℕ} (c : VelCorr) (s : RobotState) (hsh : Shape K s) (hw : s.stateType = .worldCentric) :
    (c.correctLog s).map Prod.fst = c.correct s ∧
    ∀ b c' s' l, c.correctLog s = some ((b, c', s'), l) →
      (b = false → l = []) ∧ (b = true → ∃ r m, l = [r] ∧ m ∈ c.buffer ∧ r.time = m.time ∧ s'.t = some m.time) := by
  have hr := hsh.x.rows; have hc := hsh.x.cols; have hK := hsh.k
  have e0 : s.get_rotation = some (s.X.blk3 0 0) := blk3?_eq (by omega) (by omega)
  have row : ∀ m s', c.apply m s = some s' → ∃ u, c.row m s s' = some ⟨m.time, u⟩ := by
    intro m s' h
    have h1 := (apply_shape hsh hw h).1
    have hr := h1.x.rows; have hc := h1.x.cols; have hK := h1.k
    have e3 : s'.get_velocity = some (s'.X.blkV 0 3) := blkV?_eq (by omega) (by omega)
    refine ⟨if (s.X.blk3 0 0 * c.R_vel2body).det = 0 then none else some ((s.X.blk3 0 0 * c.R_vel2body)⁻¹.mulVec (s'.X.blkV 0 3)), ?_⟩
    unfold VelCorr.row
    simp only [e0, e3, Option.bind_eq_bind, Option.bind_some]
  obtain ⟨bu, hb⟩ : ∃ bu, c.buffer = bu := ⟨_, rfl⟩
  cases bu with
  | nil =>
    have h1 : c.correctLog s = some ((false, c, s), []) := by unfold VelCorr.correctLog; rw [hb]
    refine ⟨by rw [h1, C48_empty c s hb]; rfl, ?_⟩
    intro b c' s' l h
    rw [h1] at h
    simp only [Option.some.injEq, Prod.mk.injEq] at h
    obtain ⟨⟨rfl, -, -⟩, rfl⟩ := h
    simp
  | cons f rest =>
    unfold VelCorr.correctLog VelCorr.correct
    rw [hb]
    simp only [Option.bind_eq_bind]
    obtain ⟨tq, hq⟩ : ∃ tq, s.tProp = tq := ⟨_, rfl⟩
    cases tq with
    | none => rw [hq]; simp
    | some tp =>
      rw [hq]
      simp only [Option.bind_some]
      by_cases hf : f.time - tp ≥ 0
      · rw [if_pos hf, if_pos hf]
        refine ⟨rfl, ?_⟩
        intro b c' s' l h
        simp only [Option.some.injEq, Prod.mk.injEq] at h
        obtain ⟨⟨rfl, -, -⟩, rfl⟩ := h
        simp
      · rw [if_neg hf, if_neg hf]
        obtain ⟨pf, hp⟩ : ∃ pf, popFresh VelMeas.time c.tDiffThres tp f rest = pf := ⟨_, rfl⟩
        rw [hp]
        cases pf with
        | none =>
          refine ⟨rfl, ?_⟩
          intro b c' s' l h
          simp only [Option.some.injEq, Prod.mk.injEq] at h
          obtain ⟨⟨rfl, -, -⟩, rfl⟩ := h
          simp
        | some x =>
          obtain ⟨m, r'⟩ := x
          dsimp only
          obtain ⟨ap, ha⟩ : ∃ ap, c.apply m s = ap := ⟨_, rfl⟩
          cases ap with
          | none => rw [ha]; simp
          | some s1 =>
            obtain ⟨u, hu⟩ := row m s1 ha
            rw [ha]
            simp only [Option.bind_some, hu, Option.map_some]
            refine ⟨trivial, ?_⟩
            intro b c' s' l h
            simp only [Option.some.injEq, Prod.mk.injEq] at h
            obtain ⟨⟨rfl, -, rfl⟩, rfl⟩ := h
            obtain ⟨pre, he, -, -⟩ := popFresh_some.mp hp
            refine ⟨by simp, fun _ => ⟨_, m, rfl, by rw [he]; simp, rfl, (apply_shape hsh hw ha).2⟩⟩

/-- **C137**, exactly when the line is right: for a mounting that is a rotation the logged value is finite, and it is the estimated velocity in
the frame of the sensor exactly when the correction did not change the body-frame direction of the velocity, that is if the new velocity is
the same seen from the old and from the new orientation. -/
theorem C137_exactly {K : ℕ} {c : VelCorr} {s s' : RobotState} {m : VelMeas} {r : VelRow} (hsh : Shape K s) (hw : s.stateType = .worldCentric)
    (hR : IsRot c.R_vel2body) (h : c.apply m s = some s') (hl : c.row m s s' = some r) :
    ∃ u R R' v', r.vel = some u ∧ s.get_rotation = some R ∧ s'.get_rotation = some R' ∧ s'.get_velocity = some v' ∧
      (SensorVel c s' u ↔ Rᵀ.mulVec v' = R'ᵀ.mulVec v') := by
  obtain ⟨h1, -⟩ := apply_shape hsh hw h
  have a1 := hsh.x.rows; have a2 := hsh.x.cols; have a3 := hsh.k
  have b1 := h1.x.rows; have b2 := h1.x.cols
  have e0 : s.get_rotation = some (s.X.blk3 0 0) := blk3?_eq (by omega) (by omega)
  have e1 : s'.get_rotation = some (s'.X.blk3 0 0) := blk3?_eq (by omega) (by omega)
  have e3 : s'.get_velocity = some (s'.X.blkV 0 3) := blkV?_eq (by omega) (by omega)
  have hA : IsRot (s.X.blk3 0 0 * c.R_vel2body) := hsh.x.rot.mul hR
  have hi : (s.X.blk3 0 0 * c.R_vel2body)⁻¹ = (s.X.blk3 0 0 * c.R_vel2body)ᵀ := Matrix.inv_eq_left_inv hA.1
  unfold VelCorr.row at hl
  simp only [e0, e3, Option.bind_eq_bind, Option.bind_some, Option.some.injEq] at hl
  rw [if_neg (by rw [hA.2.2]; norm_num), hi, Matrix.transpose_mul, ← mulVec_mulVec] at hl
  refine ⟨_, _, _, _, by rw [← hl], e0, e1, e3, ?_⟩
  have key : ∀ x : V3, c.R_vel2body.mulVec (c.R_vel2bodyᵀ.mulVec x) = x := by
    intro x
    rw [mulVec_mulVec, hR.2.1, one_mulVec]
  constructor
  · rintro ⟨R2, v2, h2, h3, h4⟩
    rw [e1] at h2; rw [e3] at h3
    obtain rfl := Option.some.inj h2
    obtain rfl := Option.some.inj h3
    rw [key] at h4
    have := congrArg ((s'.X.blk3 0 0)ᵀ.mulVec ·) h4
    simp only [mulVec_mulVec] at this
    rw [← Matrix.mul_assoc, h1.x.rot.1, Matrix.one_mul] at this
    exact this
  · intro h4
    refine ⟨_, _, e1, e3, ?_⟩
    rw [key, h4, mulVec_mulVec, h1.x.rot.2.1, one_mulVec]

/-- **C137**, what holds: if the measurement agrees with the estimate, the logged velocity is the estimated velocity in the frame of the
sensor, `scale` times the measured one. -/
theorem C137_perfect_partial {K : ℕ} {c : VelCorr} {s s' : RobotState} {m : VelMeas} {r : VelRow} (hsh : Shape K s) (hw : s.stateType = .worldCentric)
    (hR : IsRot c.R_vel2body) (h : c.apply m s = some s') (hl : c.row m s s' = some r) {R : M3} {v : V3} (h1 : s.get_rotation = some R)
    (h2 : s.get_velocity = some v) (hz : c.scale • R.mulVec (c.R_vel2body.mulVec m.vel) = v) :
    r.vel = some (c.scale • m.vel) ∧ SensorVel c s' (c.scale • m.vel) := by
  have hX : s'.X = s.X :=
    (C50_perfect_measurement (hsh.setT (some m.time)) h1 h2 hz ((velApply_iff hsh hw c m).mp h)).1
  have g1 : s'.get_rotation = some R := by unfold get_rotation at h1 ⊢; rw [hX]; exact h1
  have g2 : s'.get_velocity = some v := by unfold get_velocity at h2 ⊢; rw [hX]; exact h2
  refine ⟨?_, R, v, g1, g2, by rw [mulVec_smul, mulVec_smul]; exact hz⟩
  have hRr : IsRot R := by
    have a1 := hsh.x.rows; have a2 := hsh.x.cols; have a3 := hsh.k
    have e0 : s.get_rotation = some (s.X.blk3 0 0) := blk3?_eq (by omega) (by omega)
    rw [e0] at h1
    rw [← Option.some.inj h1]
    exact hsh.x.rot
  have hA : IsRot (R * c.R_vel2body) := hRr.mul hR
  have hi : (R * c.R_vel2body)⁻¹ = (R * c.R_vel2body)ᵀ := Matrix.inv_eq_left_inv hA.1
  unfold VelCorr.row at hl
  simp only [h1, g2, Option.bind_eq_bind, Option.bind_some, Option.some.injEq] at hl
  rw [if_neg (by rw [hA.2.2]; norm_num), hi] at hl
  rw [← hl, ← hz, mulVec_mulVec, mulVec_smul, mulVec_mulVec, hA.1, one_mulVec]

/-! ### the witness: an estimate in which heading and forward speed are correlated -/

/-- factor of the covariance: the identity, with heading error and forward velocity error correlated -/
def velLogA : Mat := Mat.ofFn 15 15 fun i j => if i = j then 1 else if i = 2 ∧ j = 3 then 1 else 0

/-- at rest at the origin, propagated to time 1, bias estimation on -/
noncomputable def velLogS : RobotState :=
  { RobotState.init with enableBias := true, P := velLogA * one 15 * velLogA.T, tProp := some 1 }

/-- a correction with the sensor at the body frame and unit covariance, holding one measurement of 2 m/s forward -/
noncomputable def velLogC : VelCorr :=
  { buffer := [⟨0.9, ![2, 0, 0]⟩], errorType := .rightInvariant, cov := 1, scale := 1, R_vel2body := 1, tDiffThres := 0.3 }

theorem velLogS_shape : Shape 2 velLogS := ⟨init_shape.x, le_refl _, rfl, rfl, rfl, rfl⟩

theorem velLogS_psd : PSD velLogS.P := PSD.congr rfl (one_pd 15).psd

theorem velLogP_e {i j : ℕ} (hi : i < 15) (hj : j < 15) : velLogS.P.e i j =
    (if i = j then 1 else 0) + if (i = 2 ∧ j = 3) ∨ (i = 3 ∧ j = 2) ∨ (i = 2 ∧ j = 2) then 1 else 0 := by
  have e1 : velLogA * one 15 = velLogA := mul_one_of rfl
  show (velLogA * one 15 * velLogA.T).e i j = _
  rw [e1, mul_e]
  have hA : ∀ {i k : ℕ}, i < 15 → k < 15 → velLogA.e i k = if i = k then 1 else if i = 2 ∧ k = 3 then 1 else 0 := by
    intro i k h1 h2
    unfold velLogA; rw [ofFn_e_of_lt h1 h2]
  show ∑ k ∈ range 15, velLogA.e i k * velLogA.e j k = _
  rw [Finset.sum_congr rfl fun k hk => by rw [hA hi (mem_range.mp hk), hA hj (mem_range.mp hk)]]
  simp only [Finset.sum_range_succ, Finset.sum_range_zero]
  interval_cases i <;> interval_cases j <;> norm_num

theorem velLogPH_e {i j : ℕ} (hi : i < 15) (hj : j < 3) : (velLogS.P * (velH 15).T).e i j = velLogS.P.e i (j + 3) := by
  rw [mul_e]
  have : velLogS.P.cols = 15 := rfl
  rw [this]
  rw [Finset.sum_eq_single (j + 3)]
  · rw [T_e, velH, ofFn_e_of_lt hj (by omega), if_pos rfl, mul_one]
  · intro k hk hne
    rw [T_e, velH, ofFn_e_of_lt hj (mem_range.mp hk), if_neg hne, mul_zero]
  · intro h; exact absurd (mem_range.mpr (by omega)) h

theorem velLog_innov : innov velLogS.P (velH 15) (of3 1) = (2 : ℝ) • one 3 := by
  refine ext' rfl rfl fun i j hi hj => ?_
  have hi : i < 3 := hi
  have hj : j < 3 := hj
  unfold innov
  rw [add_e, if_pos ⟨hi, hj⟩, mul_e]
  have : (velH 15).cols = 15 := rfl
  rw [this, Finset.sum_eq_single (i + 3)]
  · rw [velLogPH_e (by omega) hj, velLogP_e (by omega) (by omega), velH, ofFn_e_of_lt hi (by omega)]
    interval_cases i <;> interval_cases j <;> simp [of3, ofM, one_e, smul_e] <;> norm_num
  · intro k hk hne
    rw [velH, ofFn_e_of_lt hi (mem_range.mp hk), if_neg hne, zero_mul]
  · intro h; exact absurd (mem_range.mpr (by omega)) h

theorem velLog_inv : (innov velLogS.P (velH 15) (of3 1)).inv? = some ((1 / 2 : ℝ) • Mat.one 3) := by
  rw [velLog_innov]
  refine inv?_eq_some_iff.mpr ⟨rfl, rfl, rfl, ?_, ?_⟩
  all_goals
    rw [Mat.smul_mul', Mat.mul_smul', mul_one_of (n := 3) rfl]
    refine ext' rfl rfl fun i j _ _ => ?_
    simp only [smul_e, smul_rows, one_rows]
    ring

/-- the correction of the pose, as a tangent vector -/
theorem velLog_delta : (gain velLogS.P (velH 15) ((1 / 2 : ℝ) • Mat.one 3) * ofV ![2, 0, 0]).blkV 0 0 = ![0, 0, 1] ∧
    (gain velLogS.P (velH 15) ((1 / 2 : ℝ) • Mat.one 3) * ofV ![2, 0, 0]).blkV 3 0 = ![1, 0, 0] := by
  have key : ∀ i, i < 15 → (gain velLogS.P (velH 15) ((1 / 2 : ℝ) • Mat.one 3) * ofV ![2, 0, 0]).e i 0 = velLogS.P.e i 3 := by
    intro i hi
    unfold gain
    rw [Mat.mul_smul', mul_one_of (n := 3) rfl, Mat.smul_mul', smul_e, mul_e]
    show 1 / 2 * ∑ k ∈ range 3, (velLogS.P * (velH 15).T).e i k * (ofV ![2, 0, 0]).e k 0 = _
    rw [Finset.sum_range_succ, Finset.sum_range_succ, Finset.sum_range_succ, Finset.sum_range_zero, ofV_e _ (by norm_num), ofV_e _ (by norm_num),
      ofV_e _ (by norm_num), velLogPH_e hi (by norm_num)]
    simp
    ring
  constructor
  · funext i
    have := i.2
    rw [blkV_apply, key _ (by omega), velLogP_e (by omega) (by omega)]
    fin_cases i <;> norm_num
  · funext i
    have := i.2
    rw [blkV_apply, key _ (by omega), velLogP_e (by omega) (by omega)]
    fin_cases i <;> norm_num

theorem velLog_apply : ∃ s', velLogC.apply ⟨0.9, ![2, 0, 0]⟩ velLogS = some s' ∧ s'.X.blk3 0 0 = Rz 1 ∧
    s'.X.blkV 0 3 = ![Real.sin 1, 1 - Real.cos 1, 0] := by
  have hsh := velLogS_shape
  have hsh' := hsh.setT (some (0.9 : ℝ))
  have e0 : velLogS.X.blk3 0 0 = 1 := by
    funext i j
    fin_cases i <;> fin_cases j <;> simp [velLogS, RobotState.init, one_e]
  have e3 : velLogS.X.blkV 0 3 = 0 := by
    funext i
    fin_cases i <;> simp [velLogS, RobotState.init, one_e]
  have hd : velLogS.dimP = 15 := rfl
  refine ⟨corrR 2 (ofV ![2, 0, 0]) (velH 15) (of3 1) ((1 / 2 : ℝ) • Mat.one 3) { velLogS with t := some 0.9 } .rightInvariant, ?_, ?_, ?_⟩
  · refine (velApply_iff hsh rfl velLogC ⟨0.9, ![2, 0, 0]⟩).mpr ⟨velLogS.X.blk3 0 0, velLogS.X.blkV 0 3, blk3?_eq (by decide) (by decide),
      blkV?_eq (by decide) (by decide), ?_⟩
    rw [e0, e3]
    have a1 : velLogC.scale • (1 : M3).mulVec (velLogC.R_vel2body.mulVec ![2, 0, 0]) - 0 = (![2, 0, 0] : V3) := by
      simp [velLogC]
    have a2 : (1 : M3) * velLogC.cov * (1 : M3)ᵀ = 1 := by simp [velLogC]
    rw [a1, a2]
    exact (correctRight_iff hsh').mpr ⟨velH_obs (K := 2) _ _, _, velLog_inv, rfl⟩
  all_goals
    have hX : (corrR 2 (ofV ![2, 0, 0]) (velH 15) (of3 1) ((1 / 2 : ℝ) • Mat.one 3) { velLogS with t := some 0.9 } .rightInvariant).X =
        expK 2 (gain velLogS.P (velH 15) ((1 / 2 : ℝ) • Mat.one 3) * ofV ![2, 0, 0]) := mul_one_of rfl
    rw [hX]
    unfold expK
  · rw [mkSE_blk3, velLog_delta.1, Gam0_vertical, turnOf, if_neg (by norm_num)]
  · rw [mkSE_blkV3 _ _ _ (by norm_num), velLog_delta.1]
    simp only [Nat.mul_zero, Nat.add_zero]
    rw [velLog_delta.2]
    have hn : norm3 ![0, 0, 1] = 1 := by simp [norm3]
    unfold Gam1
    rw [hn, if_neg (by unfold TOLERANCE; norm_num)]
    funext i
    fin_cases i <;> simp [gammaCase1, skew, Matrix.mulVec, dotProduct, Matrix.add_apply, Matrix.mul_apply, Fin.sum_univ_three]

/-- **C137** is false: an estimate in which heading and forward speed are correlated, and a measurement of the velocity that corrects both.  The
correction succeeds and writes a line, whose velocity is not the estimated velocity in the frame of the sensor: it is turned by the old
orientation. -/
theorem C137_false : ∃ (c c' : VelCorr) (s s' : RobotState) (r : VelRow) (u : V3), Shape 2 s ∧ PSD s.P ∧ PD (of3 c.cov) ∧ IsRot c.R_vel2body ∧
    c.correctLog s = some ((true, c', s'), [r]) ∧ r.vel = some u ∧ ¬ SensorVel c s' u := by
  obtain ⟨s', ha, h0, h3⟩ := velLog_apply
  have hR : IsRot velLogC.R_vel2body := ⟨by simp [velLogC], by simp [velLogC], by simp [velLogC]⟩
  have h1 := (apply_shape velLogS_shape rfl ha).1
  have b1 := h1.x.rows; have b2 := h1.x.cols
  have g0 : velLogS.get_rotation = some (velLogS.X.blk3 0 0) := blk3?_eq (by decide) (by decide)
  have g1 : s'.get_rotation = some (s'.X.blk3 0 0) := blk3?_eq (by omega) (by omega)
  have g3 : s'.get_velocity = some (s'.X.blkV 0 3) := blkV?_eq (by omega) (by omega)
  obtain ⟨r, hr⟩ : ∃ r, velLogC.row ⟨0.9, ![2, 0, 0]⟩ velLogS s' = some r := by
    unfold VelCorr.row
    simp only [g0, g3, Option.bind_eq_bind, Option.bind_some]
    exact ⟨_, rfl⟩
  have hp : popFresh VelMeas.time velLogC.tDiffThres 1 ⟨0.9, ![2, 0, 0]⟩ [] = some (⟨0.9, ![2, 0, 0]⟩, []) :=
    popFresh_some.mpr ⟨[], rfl, by simp, by simp [velLogC, Stale]; norm_num⟩
  have hl : velLogC.correctLog velLogS = some ((true, { velLogC with buffer := [] }, s'), [r]) := by
    unfold VelCorr.correctLog
    rw [show velLogC.buffer = [⟨0.9, ![2, 0, 0]⟩] from rfl]
    simp only [show velLogS.tProp = some 1 from rfl, Option.bind_eq_bind, Option.bind_some]
    rw [if_neg (by norm_num), hp]
    simp only [ha, hr, Option.bind_some]
  obtain ⟨u, R, R', v', hu, q0, q1, q3, hiff⟩ := C137_exactly velLogS_shape rfl hR ha hr
  refine ⟨velLogC, _, velLogS, s', r, u, velLogS_shape, velLogS_psd, ?_, hR, hl, hu, ?_⟩
  · have : of3 velLogC.cov = of3 ((1 : ℝ) • 1) := by simp [velLogC]
    rw [this]
    exact smul_one_pd (by norm_num)
  · rw [hiff]
    have e0 : velLogS.X.blk3 0 0 = 1 := by
      funext i j
      fin_cases i <;> fin_cases j <;> simp [velLogS, RobotState.init, one_e]
    rw [g0, e0] at q0
    rw [g1, h0] at q1
    rw [g3, h3] at q3
    obtain rfl := Option.some.inj q0
    obtain rfl := Option.some.inj q1
    obtain rfl := Option.some.inj q3
    intro h
    have h5 := congrFun h 1
    simp [Rz, Matrix.mulVec, dotProduct, Fin.sum_univ_three] at h5
    have := Real.sin_sq_add_cos_sq 1
    have := Real.cos_one_pos
    have := Real.cos_one_le
    nlinarith

/-- a robot turned by 1 rad that drives at 2 m/s -/
noncomputable def velLogT : RobotState :=
  { RobotState.init with X := mkSE 2 (Rz 1) fun _ => (Rz 1).mulVec ![2, 0, 0] }

/-- a case of `C137_exactly` and `C137_perfect_partial`: a robot turned by 1 rad that drives at 2 m/s, and a measurement of 2 m/s -/
example : ∃ (s s' : RobotState) (r : VelRow) (R : M3) (v : V3), Shape 2 s ∧ s.stateType = .worldCentric ∧ IsRot velLogC.R_vel2body ∧
    velLogC.apply ⟨0.9, ![2, 0, 0]⟩ s = some s' ∧ velLogC.row ⟨0.9, ![2, 0, 0]⟩ s s' = some r ∧ s.get_rotation = some R ∧ s.get_velocity = some v ∧
    v ≠ 0 ∧ velLogC.scale • R.mulVec (velLogC.R_vel2body.mulVec ![2, 0, 0]) = v := by
  have hrot : IsRot (Rz 1) := by
    have := Gam0_isRot ![0, 0, 1]
    rwa [Gam0_vertical, turnOf, if_neg (by norm_num)] at this
  have hsh : Shape 2 velLogT :=
    ⟨sek_isSEK (K := 2) (p := fun _ => (Rz 1).mulVec ![2, 0, 0]) hrot, le_refl _, rfl, rfl, rfl, rfl⟩
  have hpd : PD (of3 velLogC.cov) := by
    have : of3 velLogC.cov = of3 ((1 : ℝ) • 1) := by simp [velLogC]
    rw [this]
    exact smul_one_pd (by norm_num)
  obtain ⟨s', hs'⟩ := velUpdate_defined (hsh.setT (some 0.9)) (one_pd 15).psd hpd ![2, 0, 0]
  have ha := (velApply_iff hsh rfl velLogC ⟨0.9, ![2, 0, 0]⟩).mpr hs'
  have h1 := (apply_shape hsh rfl ha).1
  have b1 := h1.x.rows; have b2 := h1.x.cols
  have g0 : velLogT.get_rotation = some (Rz 1) := by
    rw [← mkSE_blk3 2 (Rz 1) fun _ => (Rz 1).mulVec ![2, 0, 0]]
    exact blk3?_eq (A := velLogT.X) (by decide) (by decide)
  have gv : velLogT.get_velocity =
      some ((Rz 1).mulVec ![2, 0, 0]) := by
    have := mkSE_blkV3 2 (Rz 1) (fun _ => (Rz 1).mulVec ![2, 0, 0]) (by norm_num)
    rw [← this]
    exact blkV?_eq (A := velLogT.X) (by decide) (by decide)
  have g3 : s'.get_velocity = some (s'.X.blkV 0 3) := blkV?_eq (by omega) (by omega)
  obtain ⟨r, hr⟩ : ∃ r, velLogC.row ⟨0.9, ![2, 0, 0]⟩ velLogT s' = some r := by
    unfold VelCorr.row
    simp only [g0, g3, Option.bind_eq_bind, Option.bind_some]
    exact ⟨_, rfl⟩
  refine ⟨_, s', r, _, _, hsh, rfl, ⟨by simp [velLogC], by simp [velLogC], by simp [velLogC]⟩, ha, hr, g0, gv, ?_, by simp [velLogC]⟩
  rw [Rz_fwd]
  intro h
  have := congrFun h 0
  have h2 := Real.cos_one_pos
  simp at this
  linarith

end Drift
