import Verif.Lemmas.Mekf3

/-!
# Properties C113-C118: the multiplicative EKF baseline
-/
namespace Drift
open Matrix NormedSpace
namespace Mekf

/-! ### C113 -/

/-- **C113** (what holds, exactly): converting a rotation to a quaternion and back returns it unless it is a half turn
(trace -1) about an axis with coordinates of different signs. -/
theorem C113_roundtrip_partial (R : M3) (hR : IsRot R) :
    quat2rot (rot2quat R) = some R ↔ R.trace ≠ -1 ∨ (0 ≤ R 0 1 ∧ 0 ≤ R 0 2 ∧ 0 ≤ R 1 2) := by
  constructor
  · intro h
    by_cases ht : R.trace = -1
    · rw [roundtrip_half hR ht] at h
      have e := Option.some.inj h
      refine Or.inr ⟨?_, ?_, ?_⟩
      · rw [← congrFun (congrFun e 0) 1]; simp
      · rw [← congrFun (congrFun e 0) 2]; simp
      · rw [← congrFun (congrFun e 1) 2]; simp
    · exact Or.inl ht
  · rintro (ht | ⟨h1, h2, h3⟩)
    · exact roundtrip hR ht
    · by_cases ht : R.trace = -1
      · rw [roundtrip_half hR ht]
        obtain ⟨uw, ux, uy, uz, r⟩ := rad hR
        have htr : R.trace = R 0 0 + R 1 1 + R 2 2 := by simp [Matrix.trace, Fin.sum_univ_three]
        have hw : uw = 0 := by rw [r.w]; linarith
        have sx : R 2 1 = R 1 2 := by
          have := r.wx; rw [hw, zero_mul] at this; nlinarith [pow_eq_zero_iff (two_ne_zero) |>.mp this.symm]
        have sy : R 2 0 = R 0 2 := by
          have := r.wy; rw [hw, zero_mul] at this; nlinarith [pow_eq_zero_iff (two_ne_zero) |>.mp this.symm]
        have sz : R 1 0 = R 0 1 := by
          have := r.wz; rw [hw, zero_mul] at this; nlinarith [pow_eq_zero_iff (two_ne_zero) |>.mp this.symm]
        congr 1
        rw [sx, sy, sz, abs_of_nonneg h1, abs_of_nonneg h2, abs_of_nonneg h3]
        ext i j
        fin_cases i <;> fin_cases j <;> simp [sx, sy, sz]
      · exact roundtrip hR ht

/-- the Husky mounting of the driver (MEKF.py:252): half a turn about `(1, -1, 0)` -/
noncomputable def huskyMount : M3 := !![0, -1, 0; -1, 0, 0; 0, 0, -1]

theorem huskyMount_isRot : IsRot huskyMount := by
  refine ⟨?_, ?_, ?_⟩
  · ext i j; fin_cases i <;> fin_cases j <;> simp [huskyMount, Matrix.mul_apply, Fin.sum_univ_three]
  · ext i j; fin_cases i <;> fin_cases j <;> simp [huskyMount, Matrix.mul_apply, Fin.sum_univ_three]
  · simp [huskyMount, Matrix.det_fin_three]

theorem huskyMount_quat : quat2rot ⟨0, 0.7071068, -0.7071068, 0⟩ = some huskyMount := by
  have hn : qnorm ⟨0, 0.7071068, -0.7071068, 0⟩ ^ 2 = 2 * 0.7071068 ^ 2 := by
    rw [qnorm, Real.sq_sqrt (by positivity)]; norm_num
  have h0 : qnorm ⟨0, 0.7071068, -0.7071068, 0⟩ ≠ 0 := by
    intro h; rw [h] at hn; norm_num at hn
  unfold quat2rot
  simp only [h0, if_false]
  congr 1
  generalize qnorm ⟨0, 0.7071068, -0.7071068, 0⟩ = n at hn h0
  ext i j
  fin_cases i <;> fin_cases j <;> simp [huskyMount, div_pow] <;> field_simp <;> rw [hn] <;> norm_num

/-- **C113 is false**: the driver's own mounting rotation does not survive the conversion. -/
theorem C113_false : ∃ R : M3, quat2rot ⟨0, 0.7071068, -0.7071068, 0⟩ = some R ∧ IsRot R ∧
    ∃ R', quat2rot (rot2quat R) = some R' ∧ R' ≠ R := by
  have ht : huskyMount.trace = -1 := by simp [huskyMount, Matrix.trace, Fin.sum_univ_three]
  refine ⟨huskyMount, huskyMount_quat, huskyMount_isRot, _, roundtrip_half huskyMount_isRot ht, ?_⟩
  intro h
  have := congrFun (congrFun h 0) 1
  simp [huskyMount] at this
  norm_num at this

/-- **C113**: the quaternion of a rotation is always a unit quaternion. -/
theorem C113_unit (R : M3) (hR : IsRot R) :
    (rot2quat R).w ^ 2 + (rot2quat R).x ^ 2 + (rot2quat R).y ^ 2 + (rot2quat R).z ^ 2 = 1 := rot2quat_unit hR

theorem copysign_of {w x : ℝ} (hw : 0 < w) : copysign (Real.sqrt (4 * x ^ 2) / 2) (4 * (w * x)) = x := by
  have h : Real.sqrt (4 * x ^ 2) = 2 * |x| := by
    rw [show 4 * x ^ 2 = (2 * x) ^ 2 by ring, Real.sqrt_sq_eq_abs, abs_mul, abs_two]
  rw [h]
  unfold copysign
  split_ifs with hn
  · have : x < 0 := by nlinarith
    rw [abs_of_neg this, abs_of_pos (by linarith)]; ring
  · have : 0 ≤ x := by nlinarith
    rw [abs_of_nonneg this, abs_of_nonneg (by linarith)]; ring

/-- **C113**, the other way round: a quaternion (of any length) with positive real part is recovered, normalised, from
its rotation. -/
theorem C113_quaternion (q : Quat) (hw : 0 < q.w) : ∃ R n, quat2rot q = some R ∧ 0 < n ∧
    n ^ 2 = q.w ^ 2 + q.x ^ 2 + q.y ^ 2 + q.z ^ 2 ∧ rot2quat R = ⟨q.w / n, q.x / n, q.y / n, q.z / n⟩ := by
  have hs : 0 < q.w ^ 2 + q.x ^ 2 + q.y ^ 2 + q.z ^ 2 := by positivity
  have hn : 0 < qnorm q := Real.sqrt_pos.mpr hs
  refine ⟨_, qnorm q, quat2rot_of_ne hn.ne', hn, Real.sq_sqrt hs.le, ?_⟩
  have hu := unit_unit hn.ne'
  have hr := toRot_isRot hu
  have hwu : 0 < (unit q).w := div_pos hw hn
  generalize hq : unit q = u at hu hr hwu
  have e : (⟨q.w / qnorm q, q.x / qnorm q, q.y / qnorm q, q.z / qnorm q⟩ : Quat) = u := hq
  rw [e]
  have a1 : 1 + u.toRot 0 0 + u.toRot 1 1 + u.toRot 2 2 = 4 * u.w ^ 2 := by simp [Quat.toRot]; linear_combination -4 * hu
  have a2 : 1 + u.toRot 0 0 - u.toRot 1 1 - u.toRot 2 2 = 4 * u.x ^ 2 := by simp [Quat.toRot]; ring
  have a3 : 1 - u.toRot 0 0 + u.toRot 1 1 - u.toRot 2 2 = 4 * u.y ^ 2 := by simp [Quat.toRot]; ring
  have a4 : 1 - u.toRot 0 0 - u.toRot 1 1 + u.toRot 2 2 = 4 * u.z ^ 2 := by simp [Quat.toRot]; ring
  have b1 : u.toRot 2 1 - u.toRot 1 2 = 4 * (u.w * u.x) := by simp [Quat.toRot]; ring
  have b2 : u.toRot 0 2 - u.toRot 2 0 = 4 * (u.w * u.y) := by simp [Quat.toRot]; ring
  have b3 : u.toRot 1 0 - u.toRot 0 1 = 4 * (u.w * u.z) := by simp [Quat.toRot]; ring
  unfold rot2quat
  rw [a1, a2, a3, a4, b1, b2, b3, max_eq_right (by positivity), max_eq_right (by positivity),
    max_eq_right (by positivity), max_eq_right (by positivity)]
  simp only [copysign_of hwu]
  have : Real.sqrt (4 * u.w ^ 2) / 2 = u.w := by
    rw [show 4 * u.w ^ 2 = (2 * u.w) ^ 2 by ring, Real.sqrt_sq (by positivity)]; ring
  rw [this]

/-- the hypotheses are met: the identity, and the half turn about the vertical (which does survive) -/
example : IsRot (1 : M3) ∧ (1 : M3).trace ≠ -1 := ⟨⟨by simp, by simp, by simp⟩, by simp; norm_num⟩
example : IsRot !![-1, 0, 0; 0, -1, 0; 0, 0, (1 : ℝ)] := by
  refine ⟨?_, ?_, ?_⟩
  · ext i j; fin_cases i <;> fin_cases j <;> simp [Matrix.mul_apply, Fin.sum_univ_three]
  · ext i j; fin_cases i <;> fin_cases j <;> simp [Matrix.mul_apply, Fin.sum_univ_three]
  · simp [Matrix.det_fin_three]

/-! ### C114 -/

theorem prop_valid {c : Cfg} (ha : 0 ≤ c.accCov) (hg : 0 ≤ c.gyroCov) {s : St} (h : Valid s) (dt : ℝ) (acc gyro : V3) :
    ∃ s', propCore c dt acc gyro s = some s' ∧ Valid s' := by
  unfold propCore
  rw [quat2rot_unit h.unit]
  refine ⟨_, rfl, ?_, ?_⟩
  · exact rot2quat_unit (isRot_mul (toRot_isRot h.unit) (exp_skew_isRot _))
  · dsimp only
    rw [noise_eq]
    exact (GyroFilter.congr_psd h.psd _).add (stepNoise_psd ha hg dt)

theorem innov_det {P : M99} (hP : P.PosSemidef) (H : M39) {r : ℝ} (hr : 0 < r) :
    (H * P * Hᵀ + r • (1 : M3)).det ≠ 0 :=
  (Matrix.PosDef.posSemidef_add (GyroFilter.congr_psd hP H) (Matrix.PosDef.one.smul hr)).det_pos.ne'

theorem update_valid {r : ℝ} (hr : 0 < r) {s : St} (h : Valid s) (y : V3) :
    ∃ s', measurement_update r y s = some s' ∧ Valid s' := by
  unfold measurement_update
  rw [quat2rot_unit h.unit]
  simp only [Option.bind_eq_bind, Option.bind_some]
  rw [if_neg (innov_det h.psd _ hr)]
  refine ⟨_, rfl, ?_, ?_⟩
  · exact rot2quat_unit (isRot_mul (toRot_isRot h.unit) (exp_skew_isRot _))
  · exact (GyroFilter.kalman_cov h.psd (Matrix.PosSemidef.one.smul hr.le) (innov_det h.psd _ hr)).1

/-- **C114**: from a valid state every sequence of IMU rows (with any time steps, also negative ones) and velocity
measurements is processed without an exception or NaN, and leaves a unit quaternion and a symmetric positive
semidefinite covariance. -/
theorem C114_run_valid (c : Cfg) (ha : 0 ≤ c.accCov) (hg : 0 ≤ c.gyroCov) (r : ℝ) (hr : 0 < r) (l : List Input) :
    ∀ s : St, Valid s → ∃ s', run c r s l = some s' ∧ Valid s' := by
  induction l with
  | nil => exact fun s h => ⟨s, rfl, h⟩
  | cons i l ih =>
    intro s h
    obtain ⟨s1, e1, v1⟩ := prop_valid ha hg h i.dt i.acc i.gyro
    have : ∃ s2, turn c r s i = some s2 ∧ Valid s2 := by
      unfold turn
      rw [e1]
      cases i.vel with
      | none => exact ⟨_, rfl, v1.unit, by simpa using v1.psd.transpose⟩
      | some y =>
        obtain ⟨s2, e2, v2⟩ := update_valid hr v1 y
        refine ⟨{ s2 with P := s2.Pᵀ }, by simp [e2], v2.unit, v2.psd.transpose⟩
    obtain ⟨s2, e2, v2⟩ := this
    obtain ⟨s3, e3, v3⟩ := ih s2 v2
    exact ⟨s3, by rw [run, e2]; exact e3, v3⟩

/-- **C114** for the driver: whatever the logs contain, as long as there is IMU data. -/
theorem C114_drive_valid (c : Cfg) (ha : 0 ≤ c.accCov) (hg : 0 ≤ c.gyroCov) (r : ℝ) (hr : 0 < r) (imu : List ImuRow)
    (vel : List (ℝ × V3)) (hi : imu ≠ []) : ∃ s, drive c r imu vel = some s ∧ Valid s := by
  obtain ⟨m, ms, rfl⟩ := List.exists_cons_of_ne_nil hi
  exact C114_run_valid c ha hg r hr _ _ ⟨by simp [initial, Quat.id], Matrix.PosSemidef.zero⟩

example : Valid initial := ⟨by simp [initial, Quat.id], Matrix.PosSemidef.zero⟩

/-! ### C115 -/

/-- **C115**: a velocity update uses the true derivative `H` of the predicted body velocity, the covariance it leaves is
the smallest any linear update can reach, and it moves the state by the gain times the innovation. -/
theorem C115_update (r : ℝ) (hr : 0 < r) (y : V3) (s s' : St) (h : Valid s) (hu : measurement_update r y s = some s') :
    ∃ (R : M3) (H : M39) (K : Matrix I9 (Fin 3) ℝ), quat2rot s.q = some R ∧ IsObsJac H R s.v ∧
      s'.P = updCov s.P H r K ∧ (∀ L, (updCov s.P H r L - s'.P).PosSemidef) ∧
      s'.p = s.p + seg (K *ᵥ (y - Rᵀ *ᵥ s.v)) 0 ∧ s'.v = s.v + seg (K *ᵥ (y - Rᵀ *ᵥ s.v)) 1 ∧
      s'.q = rot2quat (turned R (seg (K *ᵥ (y - Rᵀ *ᵥ s.v)) 2)) := by
  set R := s.q.toRot with hR
  set H := obs R s.v with hH
  set S := H * s.P * Hᵀ + r • (1 : M3) with hS
  have hdet : S.det ≠ 0 := innov_det h.psd H hr
  have hu' := hu
  unfold measurement_update at hu'
  rw [quat2rot_unit h.unit] at hu'
  simp only [Option.bind_eq_bind, Option.bind_some] at hu'
  rw [if_neg hdet] at hu'
  obtain rfl := Option.some.inj hu'
  have hPT := GyroFilter.posSemidef_T h.psd
  have hST : Sᵀ = S := by
    rw [hS, transpose_add, transpose_mul, transpose_mul, transpose_transpose, hPT, transpose_smul, transpose_one,
      Matrix.mul_assoc]
  have hWT : (S⁻¹)ᵀ = S⁻¹ := by rw [transpose_nonsing_inv, hST]
  have hW : S⁻¹ * S = 1 := nonsing_inv_mul _ (isUnit_iff_ne_zero.mpr hdet)
  have hW' : S * S⁻¹ = 1 := mul_nonsing_inv _ (isUnit_iff_ne_zero.mpr hdet)
  set K := s.P * Hᵀ * S⁻¹ with hK
  have hKS : K * S = s.P * Hᵀ := by rw [hK, Matrix.mul_assoc, hW, Matrix.mul_one]
  have hSpsd : S.PosSemidef := (GyroFilter.congr_psd h.psd H).add (Matrix.PosSemidef.one.smul hr.le)
  -- completing the square
  have key : ∀ L : Matrix I9 (Fin 3) ℝ, updCov s.P H r L = (1 - K * H) * s.P + (L - K) * S * (L - K)ᵀ := by
    intro L
    have hPH : s.P * Hᵀ = K * S := hKS.symm
    have hHP : H * s.P = S * Kᵀ := by
      have hKT : Kᵀ = S⁻¹ * (H * s.P) := by
        rw [hK, transpose_mul, transpose_mul, transpose_transpose, hWT, hPT]
      rw [hKT, ← Matrix.mul_assoc, hW', Matrix.one_mul]
    have e1 : updCov s.P H r L = s.P - L * (H * s.P) - (s.P * Hᵀ) * Lᵀ + L * S * Lᵀ := by
      rw [updCov, hS, transpose_sub, transpose_one, transpose_mul]
      simp only [Matrix.sub_mul, Matrix.mul_sub, Matrix.one_mul, Matrix.mul_one, Matrix.mul_add, Matrix.add_mul,
        Matrix.mul_smul, Matrix.smul_mul, Matrix.mul_assoc]
      abel
    rw [e1, hHP, hPH, Matrix.sub_mul, Matrix.one_mul, Matrix.mul_assoc K H, hHP, transpose_sub]
    simp only [Matrix.sub_mul, Matrix.mul_sub, Matrix.mul_assoc]
    abel
  refine ⟨R, H, K, quat2rot_unit h.unit, obs_jac R s.v, ?_, fun L => ?_, rfl, rfl, rfl⟩
  · rw [key K, sub_self, Matrix.zero_mul, Matrix.zero_mul, add_zero]
  · rw [key L, add_sub_cancel_left]
    exact GyroFilter.congr_psd hSpsd _

example : ∃ s', measurement_update 0.034 ![1, 0, 0] initial = some s' :=
  let ⟨s', h, _⟩ := update_valid (by norm_num) ⟨by simp [initial, Quat.id], Matrix.PosSemidef.zero⟩ _
  ⟨s', h⟩

/-! ### C116 -/

theorem propCore_eq {c : Cfg} {dt : ℝ} {acc gyro : V3} {s s' : St} {R : M3} (hR : quat2rot s.q = some R)
    (h : propCore c dt acc gyro s = some s') :
    s' = ⟨nextP R s.p s.v (c.R_imu2body *ᵥ acc - c.accBias) dt, nextV R s.v (c.R_imu2body *ᵥ acc - c.accBias) dt,
      rot2quat (nextR R (c.R_imu2body *ᵥ gyro - c.gyroBias) dt),
      transition (nextR R (c.R_imu2body *ᵥ gyro - c.gyroBias) dt) (c.R_imu2body *ᵥ acc - c.accBias)
        (c.R_imu2body *ᵥ gyro - c.gyroBias) dt * s.P *
        (transition (nextR R (c.R_imu2body *ᵥ gyro - c.gyroBias) dt) (c.R_imu2body *ᵥ acc - c.accBias)
        (c.R_imu2body *ᵥ gyro - c.gyroBias) dt)ᵀ + stepNoise c.accCov c.gyroCov dt⟩ := by
  unfold propCore at h
  rw [hR] at h
  obtain rfl := Option.some.inj h
  rw [noise_eq, show (0.5 : ℝ) * dt ^ 2 = dt ^ 2 / 2 by ring]
  rfl

/-- **C116**: the mean follows dead reckoning with the bias-corrected readings in the body frame. -/
theorem C116_mean (c : Cfg) (dt : ℝ) (acc gyro : V3) (s s' : St) (R : M3) (hR : quat2rot s.q = some R)
    (h : propCore c dt acc gyro s = some s') :
    s'.p = nextP R s.p s.v (c.R_imu2body *ᵥ acc - c.accBias) dt ∧
      s'.v = nextV R s.v (c.R_imu2body *ᵥ acc - c.accBias) dt ∧
      s'.q = rot2quat (nextR R (c.R_imu2body *ᵥ gyro - c.gyroBias) dt) := by
  rw [propCore_eq hR h]; exact ⟨rfl, rfl, rfl⟩

/-- **C116** (what holds): when the measured body rate vanishes, the covariance is propagated with the true derivative
of the step, plus the process noise. -/
theorem C116_no_rotation_partial (c : Cfg) (dt : ℝ) (acc gyro : V3) (s s' : St) (R : M3) (hR : quat2rot s.q = some R)
    (hw : c.R_imu2body *ᵥ gyro = c.gyroBias) (h : propCore c dt acc gyro s = some s') :
    ∃ F, IsStepJac F R s.p s.v (c.R_imu2body *ᵥ acc - c.accBias) 0 dt ∧
      s'.P = F * s.P * Fᵀ + stepNoise c.accCov c.gyroCov dt := by
  rw [propCore_eq hR h, hw, sub_self]
  exact ⟨_, step_jac _ _ _ _, rfl⟩

/-- **C116** (what holds for every rate): the orientation part of the propagated error is exact, for errors of any
size. -/
theorem C116_orientation_partial (c : Cfg) (dt : ℝ) (acc gyro : V3) (s s' : St) (R : M3)
    (hR : quat2rot s.q = some R) (h : propCore c dt acc gyro s = some s') :
    ∃ F : M99, s'.P = F * s.P * Fᵀ + stepNoise c.accCov c.gyroCov dt ∧
      ∀ δ : V9, nextR (turned R (seg δ 2)) (c.R_imu2body *ᵥ gyro - c.gyroBias) dt =
        turned (nextR R (c.R_imu2body *ᵥ gyro - c.gyroBias) dt) (seg (F *ᵥ δ) 2) := by
  rw [propCore_eq hR h]
  refine ⟨_, rfl, fun δ => ?_⟩
  rw [turned_next, transition_rot]

theorem quad_mul (F : M99) (δ x : V9) :
    x ⬝ᵥ ((F * vecMulVec δ δ * Fᵀ) *ᵥ x) = (x ⬝ᵥ (F *ᵥ δ)) ^ 2 := by
  rw [Matrix.mul_vecMulVec, Matrix.vecMulVec_mul, Matrix.vecMul_transpose, Matrix.vecMulVec_mulVec]
  simp [dotProduct_smul, dotProduct_comm, pow_two]

/-- **C116 is false** when the body turns: there is a step (a full turn in one time unit, specific force along the axis)
after which the covariance is not the one of the linearised step: the uncertainty of the orientation is not carried
over to the velocity. -/
theorem C116_false : ∃ (c : Cfg) (acc gyro : V3) (s s' : St) (R : M3), Valid s ∧ quat2rot s.q = some R ∧
    propCore c 1 acc gyro s = some s' ∧
    ¬ ∃ F, IsStepJac F R s.p s.v (c.R_imu2body *ᵥ acc - c.accBias) (c.R_imu2body *ᵥ gyro - c.gyroBias) 1 ∧
      s'.P = F * s.P * Fᵀ + stepNoise c.accCov c.gyroCov 1 := by
  set w : V3 := ![0, 0, 2 * Real.pi] with hw
  set δ : V9 := fun a => if a = (2, 0) then 1 else 0 with hδ
  set s : St := ⟨0, 0, Quat.id, vecMulVec δ δ⟩ with hs
  have hpsd : s.P.PosSemidef := by
    have := Matrix.posSemidef_vecMulVec_self_star δ
    simpa using this
  have hv : Valid s := ⟨by simp [hs, Quat.id], hpsd⟩
  have hq : quat2rot s.q = some 1 := by
    rw [quat2rot_unit hv.unit]
    congr 1
    ext i j
    fin_cases i <;> fin_cases j <;> simp [hs, Quat.id, Quat.toRot]
  obtain ⟨s', h, -⟩ := prop_valid (c := ⟨0, 0, 0, 0, 1⟩) le_rfl le_rfl hv 1 w w
  refine ⟨⟨0, 0, 0, 0, 1⟩, w, w, s, s', 1, hv, hq, h, ?_⟩
  rintro ⟨F, hF, hP⟩
  rw [propCore_eq hq h] at hP
  simp only [Matrix.one_mulVec, sub_zero] at hP hF
  have hP := add_right_cancel hP
  -- compare the variance of the velocity along y
  set x : V9 := fun a => if a = (1, 1) then 1 else 0 with hx
  have hxd : ∀ z : V9, x ⬝ᵥ z = seg z 1 1 := fun z => by
    simp [hx, dotProduct, seg]
  have hquad := congrArg (fun M : M99 => x ⬝ᵥ (M *ᵥ x)) hP
  simp only [hs] at hquad
  rw [quad_mul, quad_mul, hxd, hxd, transition_full_turn _ _ exp_full_turn] at hquad
  have h1 : seg δ 1 = 0 := by ext i; simp [seg, hδ]
  have h2 : seg δ 2 = ![1, 0, 0] := by
    ext i; fin_cases i <;> simp [seg, hδ]
  have hd := hF.vel δ
  have hd2 : VDeriv (fun τ => nextV (turned 1 (τ • seg δ 2)) (s.v + τ • seg δ 1) w 1) ((1 * skew (seg δ 2)) *ᵥ w) 0 := by
    intro i
    have := (((turned_deriv 1 (seg δ 2)).mulVec w i).sub_const ((![0, 0, 9.81] : V3) i)).const_mul 1
    simp only [hs, h1, smul_zero, add_zero, nextV, zero_add, one_smul]
    simpa using this
  have e := (hd 1).unique (hd2 1)
  have e2 : ((1 * skew (seg δ 2)) *ᵥ w) 1 = -(2 * Real.pi) := by
    rw [h2, Matrix.one_mul]
    simp [hw, skew, Matrix.mulVec, dotProduct, Fin.sum_univ_three]
  rw [e2] at e
  rw [e, h1] at hquad
  have := Real.pi_pos
  simp at hquad
  nlinarith

/-! ### C117 -/

/-- **C117** (what holds): a velocity measurement that agrees with the estimate leaves position and velocity as they
are; the orientation is kept exactly unless it is a half turn about an axis with coordinates of different signs. -/
theorem C117_perfect_partial (r : ℝ) (hr : 0 < r) (s : St) (h : Valid s) (R : M3) (hR : quat2rot s.q = some R) :
    ∃ s', measurement_update r (Rᵀ *ᵥ s.v) s = some s' ∧ s'.p = s.p ∧ s'.v = s.v ∧
      (quat2rot s'.q = some R ↔ R.trace ≠ -1 ∨ (0 ≤ R 0 1 ∧ 0 ≤ R 0 2 ∧ 0 ≤ R 1 2)) := by
  obtain ⟨s', hu, -⟩ := update_valid hr h (Rᵀ *ᵥ s.v)
  obtain ⟨R', H, K, h1, -, -, -, h2, h3, h4⟩ := C115_update r hr _ s s' h hu
  obtain rfl : R = R' := Option.some.inj (hR.symm.trans h1)
  have z : ∀ a, seg (K *ᵥ (Rᵀ *ᵥ s.v - Rᵀ *ᵥ s.v)) a = 0 := fun a => by
    rw [sub_self, Matrix.mulVec_zero]; rfl
  rw [z, add_zero] at h2 h3
  rw [z, turned_zero] at h4
  exact ⟨s', hu, h2, h3, by rw [h4]; exact C113_roundtrip_partial R (quat2rot_isRot hR)⟩

/-- **C117 is false**: a robot at rest whose orientation is half a turn about `(1, -1, 0)`, measuring velocity zero,
ends up with another orientation. -/
theorem C117_false : ∃ (s s' : St), Valid s ∧ s.v = 0 ∧ measurement_update 0.034 0 s = some s' ∧
    quat2rot s'.q ≠ quat2rot s.q := by
  set q : Quat := ⟨0, 0.7071068, -0.7071068, 0⟩
  have h0 : qnorm q ≠ 0 := by
    intro h
    have hn : qnorm q ^ 2 = 2 * 0.7071068 ^ 2 := by
      rw [qnorm, Real.sq_sqrt (by positivity)]; simp [q]; norm_num
    rw [h] at hn; norm_num at hn
  have hq : quat2rot (unit q) = some huskyMount := by
    rw [quat2rot_unit (unit_unit h0), ← quat2rot_of_ne h0]; exact huskyMount_quat
  set s : St := ⟨0, 0, unit q, 0⟩
  have hv : Valid s := ⟨unit_unit h0, Matrix.PosSemidef.zero⟩
  obtain ⟨s', h1, -, -, h4⟩ := C117_perfect_partial 0.034 (by norm_num) s hv huskyMount hq
  rw [show s.v = 0 from rfl, Matrix.mulVec_zero] at h1
  refine ⟨s, s', hv, rfl, h1, ?_⟩
  rw [show quat2rot s.q = _ from hq]
  intro h
  rcases h4.mp h with h5 | ⟨h5, -⟩
  · exact h5 (by simp [huskyMount, Matrix.trace, Fin.sum_univ_three])
  · simp [huskyMount] at h5; norm_num at h5

end Mekf
end Drift
