import Verif.Lemmas.Flow
import Verif.Spec.Propagation
import Verif.Props.Inekf

/-!
# Properties C32 - C37, C39, C40: `src/filter/inekf/propagation/imu_propagation.cpp`, `Propagate`
-/
set_option linter.unusedSimpArgs false
set_option linter.unnecessarySeqFocus false
namespace Drift
open Mat Matrix Finset RobotState ImuProp

/-- closed form of `Propagate` in the vocabulary of `PropReady` -/
theorem PropReady.run {K p s m f rest tp} (h : PropReady K p s m f rest tp) :
    ∃ bg ba w a, s.get_gyroscope_bias = some bg ∧ s.get_accelerometer_bias = some ba ∧ RatesOf p m bg ba w a ∧
      p.propagate s = some (true, { p with prev := some f, buffer := rest },
        { s with
          t := some m.time
          tProp := some m.time
          X := meanK K w a (m.time - tp) s.X
          P := fin K p.enableBias (covK K p w a (m.time - tp) s.X s.P s.Qc) }) := by
  have hT := h.shape.thr; have hTc := h.shape.thc
  refine ⟨_, _, _, _, ?_, ?_, ⟨rfl, rfl⟩, propagate_eq h.shape h.world h.qr h.qc h.buf h.prev h.time⟩
  · exact blkV?_eq (by omega) (by omega)
  · exact blkV?_eq (by omega) (by omega)

/-- an IMU measurement used in examples -/
noncomputable def exImu (t : ℝ) : ImuMeas := ⟨t, ![1, 0, 0], ![0, 0, 9.8], ⟨1, 0, 0, 0⟩⟩

/-- a propagation object used in examples: previous measurement at 1 s, one measurement at 2 s queued -/
noncomputable def exProp (et : ErrorType) (en : Bool) : ImuProp :=
  { errorType := et, buffer := [exImu 2], prev := some (exImu 1), R_imu2body := 1, t_imu2body := 0, bg0 := 0,
    ba0 := 0, gyroCov := 1, accelCov := 1, gyroBiasCov := 1, accelBiasCov := 1, enableBias := en,
    staticInit := false, useImuOri := false, biasInitialized := true, initBiasSize := 0, biasInitVec := [] }

theorem exReady (et en) :
    PropReady 2 (exProp et en) { RobotState.init with tProp := some 0 } (exImu 1) (exImu 2) [] 0 where
  shape := ⟨init_shape.x, init_shape.k, rfl, rfl, rfl, rfl⟩
  world := rfl
  qr := rfl
  qc := rfl
  buf := rfl
  prev := rfl
  time := rfl

/-! ### C36 -/

/-- **C36**, empty queue: `Propagate` returns false and changes nothing. -/
theorem C36_empty (p : ImuProp) (s : RobotState) (h : p.buffer = []) :
    p.propagate s = some (false, p, s) := by
  unfold propagate; rw [h]

/-- **C36**, non-empty queue: `Propagate` returns true, removes exactly the front measurement, which
becomes the held measurement, sets both times to the stamp of the measurement held before, and nothing
else but `X` and `P` changes. -/
theorem C36_step {K p s m f rest tp} (h : PropReady K p s m f rest tp) :
    ∃ X P, p.propagate s = some (true, { p with prev := some f, buffer := rest },
      { s with t := some m.time, tProp := some m.time, X := X, P := P }) := by
  obtain ⟨bg, ba, w, a, _, _, _, e⟩ := h.run
  exact ⟨_, _, e⟩

/-- **C36**: the new state depends on the held measurement, not on the queue: two propagators that differ
only in their (non-empty) queues produce the same state. -/
theorem C36_uses_held_measurement {K p s m f rest tp} (h : PropReady K p s m f rest tp) (f' : ImuMeas)
    (rest' : List ImuMeas) :
    (p.propagate s).map (fun r => r.2.2) = (ImuProp.propagate { p with buffer := f' :: rest' } s).map fun r => r.2.2 := by
  rw [propagate_eq h.shape h.world h.qr h.qc h.buf h.prev h.time,
    propagate_eq (p := { p with buffer := f' :: rest' }) h.shape h.world h.qr h.qc rfl h.prev h.time]
  rfl

/-- **C36**: the integration time is `m.time - tp`: only this difference of the time stamps enters the
estimate (shifting the stamp of the held measurement and the last propagation time by the same amount
gives the same `X` and `P`). -/
theorem C36_only_time_difference {K p s m f rest tp} (h : PropReady K p s m f rest tp) (c : ℝ) :
    (p.propagate s).map (fun r => (r.2.2.X, r.2.2.P)) =
      (ImuProp.propagate { p with prev := some { m with time := m.time + c } } { s with tProp := some (tp + c) }).map
        fun r => (r.2.2.X, r.2.2.P) := by
  have hs : Shape K { s with tProp := some (tp + c) } :=
    ⟨h.shape.x, h.shape.k, h.shape.thr, h.shape.thc, h.shape.pr, h.shape.pc⟩
  rw [propagate_eq h.shape h.world h.qr h.qc h.buf h.prev h.time,
    propagate_eq (p := { p with prev := some { m with time := m.time + c } })
      (s := { s with tProp := some (tp + c) }) hs h.world h.qr h.qc h.buf rfl rfl]
  simp only [Option.map_some, add_sub_add_right_eq_sub]
  rfl

example (et en) : ∃ X P, (exProp et en).propagate { RobotState.init with tProp := some 0 } =
    some (true, { exProp et en with prev := some (exImu 2), buffer := [] },
      { RobotState.init with t := some 1, tProp := some 1, X := X, P := P }) :=
  C36_step (exReady et en)

/-! ### C32 -/

/-- **C32**: let `w`, `a` be the body rate and acceleration of the held measurement (biases, mounting and
lever arm accounted for) and `dt` the time to integrate, outside the tolerance ball of the exponential
(or exactly `w dt = 0`).  Then for *every* solution `R, v, q` of the strapdown equations starting at the
current state, the propagated rotation, velocity and position are `R dt`, `v dt`, `q dt`. -/
theorem C32_strapdown {K p s m f rest tp} (h : PropReady K p s m f rest tp) {bg ba w a : V3}
    (hg : s.get_gyroscope_bias = some bg) (ha : s.get_accelerometer_bias = some ba)
    (hwa : RatesOf p m bg ba w a)
    (hdt : (1e-10 : ℝ) ≤ norm3 ((m.time - tp) • w) ∨ (m.time - tp) • w = 0)
    {R : ℝ → M3} {v q : ℝ → V3} (hsol : Strapdown w a ![0, 0, -9.8] R v q)
    (hR : s.get_rotation = some (R 0)) (hv : s.get_velocity = some (v 0)) (hq : s.get_position = some (q 0)) :
    ∃ p' s', p.propagate s = some (true, p', s') ∧ s'.get_rotation = some (R (m.time - tp)) ∧
      s'.get_velocity = some (v (m.time - tp)) ∧ s'.get_position = some (q (m.time - tp)) := by
  obtain ⟨bg', ba', w', a', hg', ha', ⟨hw', ha''⟩, e⟩ := h.run
  rw [hg] at hg'; rw [ha] at ha'
  cases hg'; cases ha'
  obtain ⟨hw, ha⟩ := hwa
  rw [← hw] at hw'; subst hw'
  rw [← ha] at ha''; subst ha''
  have hr := h.shape.x.rows; have hc := h.shape.x.cols; have hK := h.shape.k
  have hR' : s.X.blk3 0 0 = R 0 := by
    unfold get_rotation at hR; rw [blk3?_eq (by omega) (by omega)] at hR; exact Option.some.inj hR
  have hv' : s.X.blkV 0 3 = v 0 := by
    unfold get_velocity at hv; rw [blkV?_eq (by omega) (by omega)] at hv; exact Option.some.inj hv
  have hq' : s.X.blkV 0 4 = q 0 := by
    unfold get_position at hq; rw [blkV?_eq (by omega) (by omega)] at hq; exact Option.some.inj hq
  have hx : ExactAt ((m.time - tp) • w') := by
    rcases hdt with h | h
    · exact Or.inl (not_lt.mpr h)
    · exact Or.inr h
  refine ⟨_, _, e, ?_⟩
  have hgr : (![0, 0, -9.8] : V3) = gravity := by unfold gravity; norm_num
  rw [hgr] at hsol
  unfold get_rotation get_velocity get_position
  dsimp only
  rw [meanK_flow hx hsol hR'.symm hv'.symm hq'.symm, blk3?_eq (by simp) (by simp),
    blkV?_eq (by simp) (by simp; omega), blkV?_eq (by simp) (by simp; omega), mkSE_blk3,
    mkSE_blkV3 _ _ _ (by omega), mkSE_blkV4 _ _ _ (by omega)]
  exact ⟨rfl, rfl, rfl⟩

/-- **C32**, the strapdown equations have a solution through every state, so the statement above is not
vacuous. -/
theorem C32_solution_exists (w a : V3) (R0 : M3) (v0 q0 : V3) :
    ∃ R v q, Strapdown w a ![0, 0, -9.8] R v q ∧ R 0 = R0 ∧ v 0 = v0 ∧ q 0 = q0 :=
  Strapdown.exists w a _ R0 v0 q0

/-- the hypotheses of C32 are met by the example: rate `(1,0,0)`, `dt = 1` -/
example (et en) : TOLERANCE ≤ norm3 (((exImu 1).time - 0) • ((exProp et en).R_imu2body.mulVec (exImu 1).angVel - 0)) := by
  have : norm3 (((exImu 1).time - 0) • ((exProp et en).R_imu2body.mulVec (exImu 1).angVel - 0)) = 1 := by
    simp [exImu, exProp, norm3]
  rw [this]; unfold TOLERANCE; norm_num

/-! ### C33 -/

/-- **C33**: integrating the same IMU reading over `[t0,t1]` and then over `[t1,t2]` gives the same state
matrix as integrating it once over `[t0,t2]` (none of the three intervals being inside the tolerance ball,
unless the rate is zero). -/
theorem C33_split {K p s m1 m2 f rest t0} (h : PropReady K p s m1 m2 (f :: rest) t0)
    (hang : m2.angVel = m1.angVel) (hacc : m2.linAcc = m1.linAcc)
    (hx : ∀ bg w, s.get_gyroscope_bias = some bg → w = p.R_imu2body.mulVec m1.angVel - bg →
      w = 0 ∨ ((1e-10 : ℝ) ≤ norm3 ((m1.time - t0) • w) ∧ (1e-10 : ℝ) ≤ norm3 ((m2.time - m1.time) • w) ∧
        (1e-10 : ℝ) ≤ norm3 ((m2.time - t0) • w))) :
    ∃ p1 s1 p2 s2 p3 s3, p.propagate s = some (true, p1, s1) ∧ p1.propagate s1 = some (true, p2, s2) ∧
      ImuProp.propagate { p with prev := some m2, buffer := f :: rest } s = some (true, p3, s3) ∧ s2.X = s3.X := by
  have hT := h.shape.thr; have hTc := h.shape.thc
  have hr := h.shape.x.rows; have hc := h.shape.x.cols; have hK := h.shape.k
  have hg : s.get_gyroscope_bias = some (s.Theta.blkV 0 0) := blkV?_eq (by omega) (by omega)
  set w : V3 := p.R_imu2body.mulVec m1.angVel - s.Theta.blkV 0 0 with hw
  set a : V3 := p.R_imu2body.mulVec m1.linAcc - s.Theta.blkV 3 0 - crossProduct w (crossProduct w p.t_imu2body) with ha
  obtain ⟨R, v, q, hsol, hR, hv, hq⟩ :=
    Strapdown.exists w a gravity (s.X.blk3 0 0) (s.X.blkV 0 3) (s.X.blkV 0 4)
  have hxs : ExactAt ((m1.time - t0) • w) ∧ ExactAt ((m2.time - m1.time) • w) ∧ ExactAt ((m2.time - t0) • w) := by
    rcases hx _ _ hg rfl with h0 | ⟨h1, h2, h3⟩
    · rw [hw] at *; rw [h0]; simp [ExactAt]
    · exact ⟨Or.inl (not_lt.mpr h1), Or.inl (not_lt.mpr h2), Or.inl (not_lt.mpr h3)⟩
  have e1 := propagate_eq h.shape h.world h.qr h.qc h.buf h.prev h.time
  set s1 : RobotState := { s with
    t := some m1.time
    tProp := some m1.time
    X := meanK K w a (m1.time - t0) s.X
    P := fin K p.enableBias (covK K p w a (m1.time - t0) s.X s.P s.Qc) } with hs1
  have hs1' : Shape K s1 := ⟨meanK_isSEK h.shape.x, hK, hT, hTc, by simp [hs1], by simp [hs1]⟩
  have e2 := propagate_eq (p := { p with prev := some m2, buffer := f :: rest }) hs1' h.world h.qr h.qc
    rfl rfl (tp := m1.time) rfl
  have e3 := propagate_eq (p := { p with prev := some m2, buffer := f :: rest }) h.shape h.world h.qr h.qc
    rfl rfl h.time
  refine ⟨_, s1, _, _, _, _, e1, e2, e3, ?_⟩
  dsimp only [bodyRates]
  rw [hang, hacc]
  change meanK K w a (m2.time - m1.time) (meanK K w a (m1.time - t0) s.X) = meanK K w a (m2.time - t0) s.X
  rw [meanK_flow hxs.2.2 hsol hR hv hq, meanK_flow hxs.1 hsol hR hv hq]
  have hsh := hsol.shift (m1.time - t0)
  rw [meanK_flow hxs.2.1 hsh (by rw [mkSE_blk3]; simp) (by rw [mkSE_blkV3 _ _ _ (by omega)]; simp)
    (by rw [mkSE_blkV4 _ _ _ (by omega)]; simp)]
  refine mkSE_congr (by simp) fun k hk => ?_
  by_cases h0 : k = 0
  · simp [h0]
  · by_cases h1 : k = 1
    · simp [h1]
    · rw [if_neg h0, if_neg h0, if_neg h1, if_neg h1, mkSE_blkV _ _ _ hk, if_neg h0, if_neg h1]

/-! ### C34 -/

/-- **C34**: the propagated state is well formed with the same `K`: `X` in SE_K(3), same sizes. -/
theorem C34_on_group {K p s m f rest tp} (h : PropReady K p s m f rest tp) {b p' s'}
    (hp : p.propagate s = some (b, p', s')) : Shape K s' := by
  obtain ⟨bg, ba, w, a, _, _, _, e⟩ := h.run
  rw [e] at hp
  cases hp
  exact ⟨meanK_isSEK h.shape.x, h.shape.k, h.shape.thr, h.shape.thc, by simp, by simp⟩

/-- **C34**: every augmented column is unchanged, as are the biases, the column table, the noise
covariance and the flags. -/
theorem C34_frame {K p s m f rest tp} (h : PropReady K p s m f rest tp) {b p' s'}
    (hp : p.propagate s = some (b, p', s')) :
    (∀ i : ℤ, 5 ≤ i → s'.get_vector i = s.get_vector i) ∧ s'.Theta = s.Theta ∧ s'.dimX = s.dimX ∧
      s'.dimP = s.dimP ∧ s'.dimTheta = s.dimTheta ∧ s'.colMap = s.colMap ∧ s'.Qc = s.Qc ∧
      s'.stateType = s.stateType ∧ s'.enableBias = s.enableBias ∧ s'.bodyAngVel = s.bodyAngVel ∧
      s'.slip = s.slip := by
  obtain ⟨bg, ba, w, a, _, _, _, e⟩ := h.run
  rw [e] at hp
  cases hp
  have hr := h.shape.x.rows; have hc := h.shape.x.cols
  refine ⟨fun i hi => ?_, rfl, ?_, ?_, rfl, rfl, rfl, rfl, rfl, rfl, rfl⟩
  · obtain ⟨n, rfl⟩ := Int.eq_ofNat_of_zero_le (show 0 ≤ i by omega)
    unfold get_vector
    rw [if_neg (by omega), if_neg (by omega)]
    unfold blkV?
    rw [Int.toNat_natCast]
    by_cases hn : n < 3 + K
    · rw [if_pos (by simp; omega), if_pos (by omega)]
      congr 1
      obtain ⟨k, rfl⟩ : ∃ k, n = 3 + k := ⟨n - 3, by omega⟩
      unfold meanK
      rw [mkSE_blkV _ _ _ (by omega), if_neg (by omega), if_neg (by omega)]
    · rw [if_neg (by simp; omega), if_neg (by omega)]
  · exact hc.symm
  · have : s.dimP = 3 * K + 9 := h.shape.pc
    rw [this]
    change (fin _ _ _).cols = _
    simp

/-! ### C35 -/

/-- The noise covariances configured in the propagation are symmetric PSD. -/
def ImuNoisePSD (p : ImuProp) : Prop :=
  PSD (of3 p.gyroCov) ∧ PSD (of3 p.accelCov) ∧ PSD (of3 p.gyroBiasCov) ∧ PSD (of3 p.accelBiasCov)

/-- **C35**: with `P` and the noise covariances symmetric PSD and non-decreasing stamps, the propagated
covariance is symmetric PSD, for both error types, with or without bias estimation. -/
theorem C35_psd {K p s m f rest tp} (h : PropReady K p s m f rest tp) (hP : PSD s.P) (hN : ImuNoisePSD p)
    (hQ : QcOK K s.Qc) (ht : tp ≤ m.time) {b p' s'} (hp : p.propagate s = some (b, p', s')) : PSD s'.P := by
  obtain ⟨bg, ba, w, a, _, _, _, e⟩ := h.run
  rw [e] at hp
  cases hp
  have hpr := h.shape.pr
  refine fin_psd ?_
  have h1 : PSD (phiK K p w a (m.time - tp) s.X * s.P * (phiK K p w a (m.time - tp) s.X).T) :=
    hP.congr (by simp [hpr])
  have h2 := (qcK_psd h.shape.k ⟨hN.1, hN.2.1, hN.2.2.1, hN.2.2.2⟩ hQ).congr
    (A := phiK K p w a (m.time - tp) s.X * gK K p s.X) (by simp [h.qr])
  exact h1.add (by simp) (h2.smul (by linarith))

theorem smul_one_psd {c : ℝ} (hc : 0 ≤ c) : PSD (of3 (c • (1 : M3))) := by
  have : of3 (c • (1 : M3)) = diagM 3 fun _ => c := by
    refine ext' rfl rfl fun i j hi hj => ?_
    simp only [of3_rows, of3_cols] at hi hj
    rw [of3_e _ hi hj, diagM_e, Matrix.smul_apply, Matrix.one_apply]
    by_cases hij : i = j
    · subst hij; simp [hi]
    · simp [hij]
  rw [this]
  exact diagM_psd fun _ _ => hc

/-- **C35**: the covariances built by the constructor from any standard deviations are PSD. -/
theorem C35_ctor_noise {buf et c p} (h : ImuProp.ctor buf et c = some p) : ImuNoisePSD p := by
  unfold ctor at h
  simp only [Option.bind_eq_bind, Option.bind_eq_some_iff] at h
  obtain ⟨q, _, bg, _, ba, _, t, _, h⟩ := h
  cases h
  exact ⟨smul_one_psd (mul_self_nonneg _), smul_one_psd (mul_self_nonneg _), smul_one_psd (mul_self_nonneg _),
    smul_one_psd (mul_self_nonneg _)⟩

theorem qcOK_zero {K : ℕ} : QcOK K (zero (3 * K + 9) (3 * K + 9)) := ⟨rfl, zero_psd _, by simp⟩

example (et en) {b p' s'} (hp : (exProp et en).propagate { RobotState.init with tProp := some 0 } = some (b, p', s')) :
    PSD s'.P := by
  refine C35_psd (exReady et en) (one_pd 15).psd ?_ (qcOK_zero (K := 2)) (by simp [exImu]) hp
  have : PSD (of3 (1 : M3)) := by simpa using smul_one_psd (c := 1) (by norm_num)
  exact ⟨this, this, this, this⟩

/-! ### C37 -/

/-- **C37**: with bias estimation off, the bias block of the propagated covariance is the identity and the
biases are uncorrelated with everything else. -/
theorem C37_decoupled {K p s m f rest tp} (h : PropReady K p s m f rest tp) (hb : p.enableBias = false)
    {b p' s'} (hp : p.propagate s = some (b, p', s')) :
    ∀ i j, i < 3 * K + 9 → j < 3 * K + 9 → (3 * K + 3 ≤ i ∨ 3 * K + 3 ≤ j) →
      s'.P.e i j = if i = j then 1 else 0 := by
  obtain ⟨bg, ba, w, a, _, _, _, e⟩ := h.run
  rw [e] at hp
  cases hp
  intro i j hi hj hij
  unfold fin
  rw [hb, if_neg (by simp), mask_e (by simpa using hi) (by simpa using hj), if_neg (by omega)]

/-! ### C39 -/

/-- **C39**: if the covariances of the left- and of the right-invariant filter describe the same
uncertainty (`P_R = Ad_X P_L Ad_Xᵀ`) before a step, they do so after it, and the state matrices stay
equal; with or without bias estimation. -/
theorem C39_equivalent {K p s m f rest tp} (h : PropReady K p s m f rest tp) (hl : p.errorType = .leftInvariant)
    {PR : Mat} (hrel : AdjRelated K s.X s.P PR) :
    ∃ pl sl pr sr, p.propagate s = some (true, pl, sl) ∧
      ImuProp.propagate { p with errorType := .rightInvariant } { s with P := PR } = some (true, pr, sr) ∧
      sl.X = sr.X ∧ AdjRelated K sl.X sl.P sr.P ∧ { sl with P := sr.P } = sr := by
  have hpr := h.shape.pr; have hpc := h.shape.pc
  have hPR := (adjRelated_iff h.shape.x).mp hrel
  have hS : Shape K { s with P := PR } := by
    refine ⟨h.shape.x, h.shape.k, h.shape.thr, h.shape.thc, ?_, ?_⟩ <;> rw [hPR] <;> simp
  have e1 := propagate_eq h.shape h.world h.qr h.qc h.buf h.prev h.time
  have e2 := propagate_eq (p := { p with errorType := .rightInvariant }) (s := { s with P := PR }) hS h.world
    h.qr h.qc h.buf h.prev h.time
  refine ⟨_, _, _, _, e1, e2, rfl, ?_, rfl⟩
  set w := (p.bodyRates m (s.Theta.blkV 0 0) (s.Theta.blkV 3 0)).1
  set a := (p.bodyRates m (s.Theta.blkV 0 0) (s.Theta.blkV 3 0)).2
  set dt := m.time - tp
  refine (adjRelated_iff (meanK_isSEK h.shape.x)).mpr ?_
  show fin K p.enableBias (covK K { p with errorType := .rightInvariant } w a dt s.X PR s.Qc) =
    EA K (meanK K w a dt s.X) * fin K p.enableBias (covK K p w a dt s.X s.P s.Qc) * (EA K (meanK K w a dt s.X)).T
  set A := EA K s.X with hA
  set A' := EA K (meanK K w a dt s.X) with hA'
  set L := phiK K p w a dt s.X with hL
  set Rr := phiK K { p with errorType := .rightInvariant } w a dt s.X with hRr
  have hq : qcK K { p with errorType := .rightInvariant } s.Qc = qcK K p s.Qc := rfl
  have key : Rr * A = A' * L := by
    have := phi_equiv h.shape.k h.shape.x p.enableBias w a dt
      (phi25 w a dt (Gam0 (dt • w))ᵀ (Gam2 (dt • w))ᵀ)
      (phi35 w a dt (Gam0 (dt • w))ᵀ ((gamma_SO3 (-(dt • w)) 3).getD 0))
    rw [hL, hRr]
    unfold phiK
    rw [hl]
    exact this
  have hcov : covK K { p with errorType := .rightInvariant } w a dt s.X PR s.Qc =
      A' * covK K p w a dt s.X s.P s.Qc * A'.T := by
    unfold covK
    rw [← hL, ← hRr, hq]
    have hgL : gK K p s.X = one (3 * K + 9) := by unfold gK; rw [hl]
    have hgR : gK K { p with errorType := .rightInvariant } s.X = A := rfl
    rw [hgL, hgR]
    dsimp only
    rw [mul_one_of (A := L) (by simp [hL]), key]
    have s1 : (L * s.P * L.T).rows = (dt • (L * qcK K p s.Qc * L.T)).rows := rfl
    have s2 : (L * s.P * L.T).cols = (dt • (L * qcK K p s.Qc * L.T)).cols := rfl
    rw [mul_add' _ s1 s2, add_mul' (A := A' * (L * s.P * L.T)) (B := A' * dt • (L * qcK K p s.Qc * L.T)) _ rfl rfl, mul_smul', smul_mul']
    have c1 : ∀ Q : Mat, A' * (L * Q * L.T) * A'.T = A' * L * Q * (A' * L).T := by
      intro Q
      rw [T_mul (by simp [hA', hL])]
      simp only [mul_assoc']
    rw [c1, c1, hPR]
    congr 1
    have : Rr * (A * s.P * A.T) * Rr.T = Rr * A * s.P * (Rr * A).T := by
      rw [T_mul (by simp [hRr, hA])]
      simp only [mul_assoc']
    rw [this, key]
  rw [hcov]
  unfold fin
  by_cases hb : p.enableBias = true
  · rw [if_pos hb, if_pos hb]
  · rw [if_neg hb, if_neg hb]
    exact mask_bd (m := 3 * K + 3) (by simp; ring) (by simp; ring) (by omega) (by simp) (by simp)

/-- a covariance related to the identity exists for every state -/
example (en) : ∃ PR, AdjRelated 2 RobotState.init.X RobotState.init.P PR ∧
    PropReady 2 (exProp .leftInvariant en) { RobotState.init with tProp := some 0 } (exImu 1) (exImu 2) [] 0 :=
  ⟨_, (adjRelated_iff init_shape.x).mpr rfl, exReady _ _⟩

/-! ### C40 -/

/-- **C40**, right-invariant error: there is a function `F` of the elapsed time and the error alone (with
gravity built in) such that for any two states propagated with the same body rate and acceleration over
the same time, if the error `E` satisfies `X₁ = E X₂` before the step, then `X₁' = F dt E X₂'` after it.
Neither the trajectory nor the IMU input enters `F`. -/
theorem C40_right_error_autonomous (K : ℕ) : ∃ F : ℝ → Mat → Mat,
    ∀ p₁ s₁ m₁ f₁ rest₁ t₁ p₂ s₂ m₂ f₂ rest₂ t₂ bg₁ ba₁ bg₂ ba₂ w a E,
      PropReady K p₁ s₁ m₁ f₁ rest₁ t₁ → PropReady K p₂ s₂ m₂ f₂ rest₂ t₂ →
      s₁.get_gyroscope_bias = some bg₁ → s₁.get_accelerometer_bias = some ba₁ →
      s₂.get_gyroscope_bias = some bg₂ → s₂.get_accelerometer_bias = some ba₂ →
      RatesOf p₁ m₁ bg₁ ba₁ w a → RatesOf p₂ m₂ bg₂ ba₂ w a →
      m₁.time - t₁ = m₂.time - t₂ → IsSEK K E → s₁.X = E * s₂.X →
      ∃ q₁ r₁ q₂ r₂, p₁.propagate s₁ = some (true, q₁, r₁) ∧ p₂.propagate s₂ = some (true, q₂, r₂) ∧
        r₁.X = F (m₁.time - t₁) E * r₂.X := by
  refine ⟨fun dt E => mkSE K (E.blk3 0 0) fun k =>
    if k = 0 then E.blkV 0 3 + dt • (gravity - (E.blk3 0 0).mulVec gravity)
    else if k = 1 then E.blkV 0 4 + dt • E.blkV 0 3 + dt • dt • (0.5 : ℝ) • (gravity - (E.blk3 0 0).mulVec gravity)
    else E.blkV 0 (3 + k), ?_⟩
  intro p₁ s₁ m₁ f₁ rest₁ t₁ p₂ s₂ m₂ f₂ rest₂ t₂ bg₁ ba₁ bg₂ ba₂ w a E h₁ h₂ g1 a1 g2 a2 r1 r2 hdt hE hX
  obtain ⟨bg, ba, w', a', hg, ha, ⟨hw', ha'⟩, e1⟩ := h₁.run
  rw [g1] at hg; rw [a1] at ha; cases hg; cases ha
  rw [← r1.1] at hw'; subst hw'
  rw [← r1.2] at ha'; subst ha'
  obtain ⟨bg, ba, w'', a'', hg, ha, ⟨hw', ha'⟩, e2⟩ := h₂.run
  rw [g2] at hg; rw [a2] at ha; cases hg; cases ha
  rw [← r2.1] at hw'; subst hw'
  rw [← r2.2] at ha'; subst ha'
  refine ⟨_, _, _, _, e1, e2, ?_⟩
  dsimp only
  rw [← hdt]
  set dt := m₁.time - t₁
  have hK := h₁.shape.k
  have hx2 := h₂.shape.x.eq_mk
  have hxe : s₁.X = mkSE K (E.blk3 0 0 * s₂.X.blk3 0 0)
      (fun k => (E.blk3 0 0).mulVec (s₂.X.blkV 0 (3 + k)) + E.blkV 0 (3 + k)) := by
    rw [hX]; nth_rewrite 1 [hE.eq_mk]; nth_rewrite 1 [hx2]; rw [mkSE_mul]
  have c0 : s₁.X.blk3 0 0 = E.blk3 0 0 * s₂.X.blk3 0 0 := by rw [hxe, mkSE_blk3]
  have cv : ∀ k < K, s₁.X.blkV 0 (3 + k) = (E.blk3 0 0).mulVec (s₂.X.blkV 0 (3 + k)) + E.blkV 0 (3 + k) := by
    intro k hk; rw [hxe, mkSE_blkV _ _ _ hk]
  have c3 := cv 0 (by omega)
  have c4 := cv 1 (by omega)
  simp only [show 3 + 0 = 3 from rfl, show 3 + 1 = 4 from rfl] at c3 c4
  unfold meanK
  rw [mkSE_mul]
  refine mkSE_congr (by rw [c0, Matrix.mul_assoc]) fun k hk => ?_
  by_cases h0 : k = 0
  · simp only [if_pos h0]
    rw [c3, c0]
    simp only [mulVec_add, mulVec_smul, ← mulVec_mulVec, smul_add, smul_sub]
    abel
  · simp only [if_neg h0]
    by_cases h1 : k = 1
    · simp only [if_pos h1]
      rw [c3, c4, c0]
      simp only [mulVec_add, mulVec_smul, ← mulVec_mulVec, smul_add, smul_sub]
      abel
    · simp only [if_neg h1]
      exact cv k hk

/-- **C40**, left-invariant error: after the step it is a function of the error before the step, the
elapsed time and the IMU input (rate and acceleration); neither the trajectory nor gravity enters. -/
theorem C40_left_error_trajectory_free (K : ℕ) : ∃ F : ℝ → V3 → V3 → Mat → Mat,
    ∀ p₁ s₁ m₁ f₁ rest₁ t₁ p₂ s₂ m₂ f₂ rest₂ t₂ bg₁ ba₁ bg₂ ba₂ w a E,
      PropReady K p₁ s₁ m₁ f₁ rest₁ t₁ → PropReady K p₂ s₂ m₂ f₂ rest₂ t₂ →
      s₁.get_gyroscope_bias = some bg₁ → s₁.get_accelerometer_bias = some ba₁ →
      s₂.get_gyroscope_bias = some bg₂ → s₂.get_accelerometer_bias = some ba₂ →
      RatesOf p₁ m₁ bg₁ ba₁ w a → RatesOf p₂ m₂ bg₂ ba₂ w a →
      m₁.time - t₁ = m₂.time - t₂ → IsSEK K E → s₁.X = s₂.X * E →
      ∃ q₁ r₁ q₂ r₂, p₁.propagate s₁ = some (true, q₁, r₁) ∧ p₂.propagate s₂ = some (true, q₂, r₂) ∧
        r₁.X = r₂.X * F (m₁.time - t₁) w a E := by
  refine ⟨fun dt w a E => mkSE K ((Gam0 (dt • w))ᵀ * E.blk3 0 0 * Gam0 (dt • w)) fun k =>
    (Gam0 (dt • w))ᵀ.mulVec (
    if k = 0 then E.blkV 0 3 + dt • ((E.blk3 0 0 * Gam1 (dt • w)).mulVec a - (Gam1 (dt • w)).mulVec a)
    else if k = 1 then E.blkV 0 4 + dt • E.blkV 0 3
      + dt • dt • ((E.blk3 0 0 * Gam2 (dt • w)).mulVec a - (Gam2 (dt • w)).mulVec a)
    else E.blkV 0 (3 + k)), ?_⟩
  intro p₁ s₁ m₁ f₁ rest₁ t₁ p₂ s₂ m₂ f₂ rest₂ t₂ bg₁ ba₁ bg₂ ba₂ w a E h₁ h₂ g1 a1 g2 a2 r1 r2 hdt hE hX
  obtain ⟨bg, ba, w', a', hg, ha, ⟨hw', ha'⟩, e1⟩ := h₁.run
  rw [g1] at hg; rw [a1] at ha; cases hg; cases ha
  rw [← r1.1] at hw'; subst hw'
  rw [← r1.2] at ha'; subst ha'
  obtain ⟨bg, ba, w'', a'', hg, ha, ⟨hw', ha'⟩, e2⟩ := h₂.run
  rw [g2] at hg; rw [a2] at ha; cases hg; cases ha
  rw [← r2.1] at hw'; subst hw'
  rw [← r2.2] at ha'; subst ha'
  refine ⟨_, _, _, _, e1, e2, ?_⟩
  dsimp only
  rw [← hdt]
  set dt := m₁.time - t₁
  have hK := h₁.shape.k
  have hx2 := h₂.shape.x.eq_mk
  have hxe : s₁.X = mkSE K (s₂.X.blk3 0 0 * E.blk3 0 0)
      (fun k => (s₂.X.blk3 0 0).mulVec (E.blkV 0 (3 + k)) + s₂.X.blkV 0 (3 + k)) := by
    rw [hX]; nth_rewrite 1 [hE.eq_mk]; nth_rewrite 1 [hx2]; rw [mkSE_mul]
  have c0 : s₁.X.blk3 0 0 = s₂.X.blk3 0 0 * E.blk3 0 0 := by rw [hxe, mkSE_blk3]
  have cv : ∀ k < K, s₁.X.blkV 0 (3 + k) = (s₂.X.blk3 0 0).mulVec (E.blkV 0 (3 + k)) + s₂.X.blkV 0 (3 + k) := by
    intro k hk; rw [hxe, mkSE_blkV _ _ _ hk]
  have c3 := cv 0 (by omega)
  have c4 := cv 1 (by omega)
  simp only [show 3 + 0 = 3 from rfl, show 3 + 1 = 4 from rfl] at c3 c4
  have r0 : IsRot (Gam0 (dt • w'')) := Gam0_isRot _
  have hGG : ∀ (M : M3), s₂.X.blk3 0 0 * Gam0 (dt • w'') * ((Gam0 (dt • w''))ᵀ * M) = s₂.X.blk3 0 0 * M := by
    intro M; rw [← Matrix.mul_assoc, rot_G0t r0]
  have hGv : ∀ (u : V3), (s₂.X.blk3 0 0 * Gam0 (dt • w'')).mulVec ((Gam0 (dt • w''))ᵀ.mulVec u)
      = (s₂.X.blk3 0 0).mulVec u := by
    intro u; rw [mulVec_mulVec, rot_G0t r0]
  unfold meanK
  rw [mkSE_mul]
  refine mkSE_congr ?_ fun k hk => ?_
  · rw [Matrix.mul_assoc (Gam0 _)ᵀ, hGG, c0, Matrix.mul_assoc]
  · rw [hGv]
    by_cases h0 : k = 0
    · simp only [if_pos h0]
      rw [c3, c0]
      simp only [mulVec_add, mulVec_sub, mulVec_smul, ← mulVec_mulVec, smul_add, smul_sub]
      abel
    · simp only [if_neg h0]
      by_cases h1 : k = 1
      · simp only [if_pos h1]
        rw [c3, c4, c0]
        simp only [mulVec_add, mulVec_sub, mulVec_smul, ← mulVec_mulVec, smul_add, smul_sub]
        abel
      · simp only [if_neg h1]
        exact cv k hk

/-- two different states with the same input satisfy the hypotheses: error `E` = any group element -/
example (et en) (E : Mat) (hE : IsSEK 2 E) :
    PropReady 2 (exProp et en) { RobotState.init with tProp := some 0, X := E * RobotState.init.X }
      (exImu 1) (exImu 2) [] 0 :=
  ⟨⟨hE.mul init_shape.x, le_refl 2, rfl, rfl, rfl, rfl⟩, rfl, rfl, rfl, rfl, rfl, rfl⟩

end Drift
