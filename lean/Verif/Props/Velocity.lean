import Verif.Lemmas.Correction
import Verif.Props.Inekf

/-!
# Properties C46, C48, C49, C50: `src/filter/inekf/correction/velocity_correction.cpp`

`VelUpdate c vel s s'` (Spec/Velocity.lean) says that `s'` is `s` corrected with the velocity `vel`.
-/
set_option linter.unusedSimpArgs false
namespace Drift
open Mat Matrix RobotState Finset

/-! ### C48 -/

/-- **C48**: with an empty queue `Correct` returns false and changes nothing. -/
theorem C48_empty (c : VelCorr) (s : RobotState) (h : c.buffer = []) : c.correct s = some (false, c, s) := by
  unfold VelCorr.correct; rw [h]

/-- **C48**: a front measurement at or after the propagation time stays queued; `Correct` returns false and
changes nothing. -/
theorem C48_front_waits (c : VelCorr) (s : RobotState) {f : VelMeas} {rest : List VelMeas} {tp : ℝ}
    (h : c.buffer = f :: rest) (ht : s.tProp = some tp) (hf : tp ≤ f.time) :
    c.correct s = some (false, c, s) := by
  unfold VelCorr.correct
  rw [h]
  simp only [Option.bind_eq_bind, ht, Option.bind_some]
  rw [if_pos (by linarith)]

/-- **C48**: if every queued measurement is stale (and the first one is older than the propagation time) the
queue is emptied, `Correct` returns false and the state is not touched. -/
theorem C48_all_stale (c : VelCorr) (s : RobotState) {f : VelMeas} {rest : List VelMeas} {tp : ℝ}
    (h : c.buffer = f :: rest) (ht : s.tProp = some tp) (hf : f.time < tp)
    (hs : ∀ m ∈ c.buffer, Stale c.tDiffThres tp m.time) :
    c.correct s = some (false, { c with buffer := [] }, s) := by
  have hn := popFresh_none.mpr (h ▸ hs)
  unfold VelCorr.correct
  rw [h]
  simp only [Option.bind_eq_bind, ht, Option.bind_some]
  rw [if_neg (by linarith), hn]

/-- **C48**: otherwise a prefix of stale measurements is discarded, the first measurement that is not stale
is applied (exactly the update it stands for), later ones stay queued in order. -/
theorem C48_first_fresh {K : ℕ} (c : VelCorr) (s : RobotState) (hsh : Shape K s) (hw : s.stateType = .worldCentric)
    (hP : PSD s.P) (hC : PD (of3 c.cov)) {pre rest : List VelMeas} {m : VelMeas} {tp : ℝ}
    (h : c.buffer = pre ++ m :: rest) (ht : s.tProp = some tp) (hf : ∀ f ∈ c.buffer.head?, f.time < tp)
    (hpre : ∀ x ∈ pre, Stale c.tDiffThres tp x.time) (hm : ¬ Stale c.tDiffThres tp m.time) :
    ∃ s', c.correct s = some (true, { c with buffer := rest }, s') ∧
      VelUpdate c m.vel { s with t := some m.time } s' := by
  obtain ⟨s', hs'⟩ := velUpdate_defined (hsh.setT (some m.time)) hP hC m.vel
  refine ⟨s', ?_, hs'⟩
  obtain ⟨f, r0, hb⟩ : ∃ f r0, c.buffer = f :: r0 := by
    cases hb : c.buffer with
    | nil => rw [hb] at h; simp at h
    | cons f r0 => exact ⟨f, r0, rfl⟩
  have hf' : f.time < tp := hf f (by rw [hb]; rfl)
  have hp := popFresh_some.mpr ⟨pre, hb ▸ h, hpre, hm⟩
  have ha := (velApply_iff hsh hw c m).mpr hs'
  unfold VelCorr.correct
  rw [hb]
  simp only [Option.bind_eq_bind, ht, Option.bind_some]
  rw [if_neg (by linarith), hp]
  simp only [ha, Option.bind_some]

/-- **C48**: on a well-formed state every call returns, and one of the four cases above applies: what is left
in the queue is a suffix of it, and the state is only touched if `true` is returned. -/
theorem C48_total {K : ℕ} (c : VelCorr) (s : RobotState) (hsh : Shape K s) (hw : s.stateType = .worldCentric)
    (hP : PSD s.P) (hC : PD (of3 c.cov)) {tp : ℝ} (ht : s.tProp = some tp) :
    ∃ b c' s', c.correct s = some (b, c', s') ∧ c' = { c with buffer := c'.buffer } ∧ c'.buffer <:+ c.buffer ∧
      (b = false → s' = s) ∧
      (b = true → ∃ m ∈ c.buffer, VelUpdate c m.vel { s with t := some m.time } s') := by
  cases hb : c.buffer with
  | nil => exact ⟨false, c, s, C48_empty c s hb, rfl, by rw [hb], fun _ => rfl, by simp⟩
  | cons f rest =>
    by_cases hf : tp ≤ f.time
    · exact ⟨false, c, s, C48_front_waits c s hb ht hf, rfl, by rw [hb], fun _ => rfl, by simp⟩
    · cases hp : popFresh VelMeas.time c.tDiffThres tp f rest with
      | none =>
        exact ⟨false, _, s, C48_all_stale c s hb ht (not_le.mp hf) (hb ▸ popFresh_none.mp hp), rfl,
          by simp, fun _ => rfl, by simp⟩
      | some r =>
        obtain ⟨m, r'⟩ := r
        obtain ⟨pre, he, h1, h2⟩ := popFresh_some.mp hp
        obtain ⟨s', h3, h4⟩ := C48_first_fresh c s hsh hw hP hC (hb ▸ he) ht
          (by intro x hx; rw [hb] at hx; cases hx; exact not_le.mp hf) h1 h2
        refine ⟨true, _, s', h3, rfl, ?_, by simp, fun _ => ⟨m, ?_, h4⟩⟩
        · rw [he]; exact ⟨pre ++ [m], by simp⟩
        · rw [he]; simp

/-- a velocity correction with the documented defaults -/
noncomputable def exVelCorr (et : ErrorType) (buf : List VelMeas) : VelCorr :=
  ⟨et, buf, (0.1 * 0.1 : ℝ) • 1, 0.3, 1, 1.0⟩

theorem exVelCorr_pd (et buf) : PD (of3 (exVelCorr et buf).cov) := smul_one_pd (by norm_num)

/-- the constructor always produces a positive definite measurement covariance (`velocity_std ≠ 0`) -/
theorem velCtor_pd {buf et cfg c} (h : VelCorr.ctor buf et cfg = some c) (h0 : cfg.velocity_std.getD 0.1 ≠ 0) :
    PD (of3 c.cov) := by
  unfold VelCorr.ctor at h
  simp only [Option.bind_eq_bind, Option.bind_eq_some_iff] at h
  obtain ⟨q, _, h⟩ := h
  rw [← Option.some.inj h]
  show PD (of3 ((_ * _) • (1 : M3)))
  exact smul_one_pd (mul_self_pos.mpr h0)

/-- a concrete case: a stale measurement, a fresh one and a future one; the fresh one is used -/
example (et : ErrorType) : ∃ s', (exVelCorr et [⟨0, 0⟩, ⟨0.9, ![1, 0, 0]⟩, ⟨2, 0⟩]).correct
      { RobotState.init with tProp := some 1 } = some (true, exVelCorr et [⟨2, 0⟩], s') ∧
    VelUpdate (exVelCorr et [⟨0, 0⟩, ⟨0.9, ![1, 0, 0]⟩, ⟨2, 0⟩]) ![1, 0, 0]
      { RobotState.init with tProp := some 1, t := some 0.9 } s' :=
  C48_first_fresh (K := 2) (exVelCorr et [⟨0, 0⟩, ⟨0.9, ![1, 0, 0]⟩, ⟨2, 0⟩]) { RobotState.init with tProp := some 1 }
    ⟨init_shape.x, le_refl _, rfl, rfl, rfl, rfl⟩ rfl (one_pd 15).psd (exVelCorr_pd _ _)
    (pre := [⟨0, 0⟩]) (m := ⟨0.9, ![1, 0, 0]⟩) (rest := [⟨2, 0⟩]) (tp := 1) rfl rfl (by simp [exVelCorr])
    (by simp [Stale, exVelCorr]; norm_num) (by simp [Stale, exVelCorr]; norm_num)

/-! ### C49 -/

/-- **C49 is false**: after dropping stale measurements the next one is used without comparing it with the
propagation time.  Here the propagation time is 1, the queue holds stamps 0 (stale) and 10, and the
measurement from time 10 is applied: the state time jumps to 10. -/
theorem C49_false (et : ErrorType) (v : V3) : ∃ s', (exVelCorr et [⟨0, 0⟩, ⟨10, v⟩]).correct
      { RobotState.init with tProp := some 1 } = some (true, exVelCorr et [], s') ∧
    VelUpdate (exVelCorr et [⟨0, 0⟩, ⟨10, v⟩]) v { RobotState.init with tProp := some 1, t := some 10 } s' :=
  C48_first_fresh (K := 2) (exVelCorr et [⟨0, 0⟩, ⟨10, v⟩]) { RobotState.init with tProp := some 1 }
    ⟨init_shape.x, le_refl _, rfl, rfl, rfl, rfl⟩ rfl (one_pd 15).psd (exVelCorr_pd _ _)
    (pre := [⟨0, 0⟩]) (m := ⟨10, v⟩) (rest := []) (tp := 1) rfl rfl (by simp [exVelCorr])
    (by simp [Stale, exVelCorr]; norm_num)
    (by simp [Stale, exVelCorr]; norm_num)

/-- **C49**, what holds: the measurement applied is the first one in the queue that is not stale; it is older
than the propagation time unless a stale measurement was dropped in the same call.  (Missing: the comparison
with the propagation time after dropping; see `C49_false`.) -/
theorem C49_not_in_future_partial {K : ℕ} (c : VelCorr) (s : RobotState) (hsh : Shape K s)
    (hw : s.stateType = .worldCentric) {tp : ℝ} (ht : s.tProp = some tp) {c' : VelCorr} {s' : RobotState}
    (h : c.correct s = some (true, c', s')) :
    ∃ pre m, c.buffer = pre ++ m :: c'.buffer ∧ VelUpdate c m.vel { s with t := some m.time } s' ∧
      tp - c.tDiffThres ≤ m.time ∧ (∀ x ∈ pre, x.time < tp - c.tDiffThres) ∧ (pre = [] → m.time < tp) := by
  unfold VelCorr.correct at h
  cases hb : c.buffer with
  | nil => rw [hb] at h; simp at h
  | cons f rest =>
    rw [hb] at h
    simp only [Option.bind_eq_bind, ht, Option.bind_some] at h
    by_cases hf : f.time - tp ≥ 0
    · rw [if_pos hf] at h; simp at h
    · rw [if_neg hf] at h
      cases hp : popFresh VelMeas.time c.tDiffThres tp f rest with
      | none => rw [hp] at h; simp at h
      | some r =>
        obtain ⟨m, r'⟩ := r
        rw [hp] at h
        simp only [Option.bind_eq_some_iff] at h
        obtain ⟨s1, h1, h2⟩ := h
        cases h2
        obtain ⟨pre, he, hp1, hp2⟩ := popFresh_some.mp hp
        unfold Stale at hp1 hp2
        refine ⟨pre, m, he, (velApply_iff hsh hw c m).mp h1, by linarith, fun x hx => ?_, fun h0 => ?_⟩
        · have := hp1 x hx; linarith
        · subst h0
          simp only [List.nil_append, List.cons.injEq] at he
          rw [← he.1]; linarith

/-! ### C50 -/

/-- **C50**: a velocity measurement that agrees with the estimate (`scale * R R_vel2body vel = v`) leaves
orientation, velocity, position, contacts and biases unchanged. -/
theorem C50_perfect_measurement {K : ℕ} {c : VelCorr} {s s' : RobotState} (hsh : Shape K s) {vel v : V3} {R : M3}
    (hR : s.get_rotation = some R) (hv : s.get_velocity = some v)
    (hz : c.scale • R.mulVec (c.R_vel2body.mulVec vel) = v) (h : VelUpdate c vel s s') :
    s'.X = s.X ∧ s'.Theta = s.Theta := by
  obtain ⟨R', v', h1, h2, h3⟩ := h
  rw [hR] at h1; rw [hv] at h2
  cases h1; cases h2
  rw [hz, sub_self] at h3
  have : ofV (0 : V3) = zero 3 1 := by
    refine ext' rfl rfl fun i j hi hj => ?_
    simp only [ofV_rows, ofV_cols] at hi hj
    obtain rfl : j = 0 := by omega
    rw [ofV_e _ hi]; simp
  rw [this] at h3
  exact C25_right_zero_innovation hsh h3

/-- The hypothesis of C50 is met by the default state and a zero measurement, and then the state really is
updated (the covariance shrinks, the mean stays). -/
example (et : ErrorType) : ∃ s', VelUpdate (exVelCorr et []) 0 RobotState.init s' ∧ s'.X = RobotState.init.X := by
  obtain ⟨s', h⟩ := velUpdate_defined (c := exVelCorr et []) init_shape (one_pd 15).psd (exVelCorr_pd _ _) 0
  have h3 : RobotState.init.get_velocity = some 0 := by
    unfold get_velocity RobotState.init
    rw [blkV?_eq (by simp) (by simp)]
    congr 1; funext i; simp [one_e]; omega
  refine ⟨s', h, (C50_perfect_measurement init_shape (blk3?_eq (by simp [RobotState.init]) (by simp [RobotState.init])) h3
    (by simp) h).1⟩

/-! ### C46 -/

/-- **C46**, exact behaviour: `initialize` with a non-empty queue sets the velocity to `R vel` of the newest
measurement (no mounting rotation, no scale), keeps everything else, takes its time stamp and empties the
queue. -/
theorem setInitial_eq {K : ℕ} (c : VelCorr) (s : RobotState) (hsh : Shape K s) {pre : List VelMeas} {m : VelMeas}
    (hb : c.buffer = pre ++ [m]) {R : M3} (hR : s.get_rotation = some R) :
    c.setInitial s = some (true, { c with buffer := [] },
      { s with X := s.X.setBlockP 0 3 (ofV (R.mulVec m.vel)), t := some m.time }) := by
  have hr := hsh.x.rows; have hc := hsh.x.cols; have hK := hsh.k
  unfold VelCorr.setInitial
  rw [hb, List.getLast?_append]
  simp only [List.getLast?_singleton, Option.some_or, Option.bind_eq_bind, hR, Option.bind_some, set_velocity]
  rw [setBlock?_eq (by simp; omega) (by simp; omega)]
  rfl

theorem setInitial_shape {K : ℕ} {s : RobotState} (hsh : Shape K s) (v : V3) (t : Option ℝ) :
    Shape K { s with X := s.X.setBlockP 0 3 (ofV v), t := t } ∧
    RobotState.get_velocity { s with X := s.X.setBlockP 0 3 (ofV v), t := t } = some v ∧
    RobotState.get_rotation { s with X := s.X.setBlockP 0 3 (ofV v), t := t } = s.get_rotation := by
  have hr := hsh.x.rows; have hc := hsh.x.cols; have hK := hsh.k
  have he : ∀ i j, (s.X.setBlockP 0 3 (ofV v)).e i j = if h : i < 3 ∧ j = 3 then v ⟨i, h.1⟩ else s.X.e i j := by
    intro i j
    rw [setBlockP_ofV_e (by omega) (by omega)]
    by_cases h : i < 3 ∧ j = 3
    · rw [dif_pos (by omega), dif_pos h]; rfl
    · rw [dif_neg (by omega), dif_neg h]
  have hrot : (s.X.setBlockP 0 3 (ofV v)).blk3 0 0 = s.X.blk3 0 0 := by
    funext i j
    simp only [blk3_apply, he]
    rw [dif_neg (by omega)]
  refine ⟨⟨?_, hsh.k, hsh.thr, hsh.thc, hsh.pr, hsh.pc⟩, ?_, ?_⟩
  · refine ⟨hr, hc, by rw [hrot]; exact hsh.x.rot, fun i j h1 h2 h3 => ?_⟩
    rw [he, dif_neg (by omega)]
    exact hsh.x.bot i j h1 h2 h3
  · unfold get_velocity
    rw [blkV?_eq (by simp; omega) (by simp; omega)]
    congr 1; funext i
    simp only [blkV_apply, he]
    rw [dif_pos (by simp)]
    congr 1; ext; simp
  · unfold get_rotation
    rw [blk3?_eq (by simp; omega) (by simp; omega), blk3?_eq (by omega) (by omega)]
    rw [hrot]

/-- **C46 is false**: whenever mounting rotation and scale do not fix the measured velocity, the velocity set
by `initialize` differs from the one the correction with the same measurement predicts: the innovation of a
correction with the same measurement, `scale * R R_vel2body vel - v`, is not zero. -/
theorem C46_false {K : ℕ} (c : VelCorr) (s : RobotState) (hsh : Shape K s) {pre : List VelMeas} {m : VelMeas}
    (hb : c.buffer = pre ++ [m]) (hne : c.scale • c.R_vel2body.mulVec m.vel ≠ m.vel) :
    ∃ c' s' R v, c.setInitial s = some (true, c', s') ∧ s'.get_rotation = some R ∧ s'.get_velocity = some v ∧
      c.scale • R.mulVec (c.R_vel2body.mulVec m.vel) - v ≠ 0 := by
  have hr := hsh.x.rows; have hc := hsh.x.cols; have hK := hsh.k
  have e0 : s.get_rotation = some (s.X.blk3 0 0) := blk3?_eq (by omega) (by omega)
  have h2 := setInitial_shape hsh ((s.X.blk3 0 0).mulVec m.vel) (some m.time)
  refine ⟨_, _, s.X.blk3 0 0, (s.X.blk3 0 0).mulVec m.vel, setInitial_eq c s hsh hb e0, by rw [h2.2.2, e0], h2.2.1, ?_⟩
  intro h
  apply hne
  have h3 := congrArg ((s.X.blk3 0 0)ᵀ.mulVec ·) (sub_eq_zero.mp h)
  simp only [mulVec_smul, mulVec_mulVec] at h3
  rwa [← Matrix.mul_assoc, hsh.x.rot.1, Matrix.one_mul, one_mulVec] at h3

/-- a mounting turned by 90 degrees about z meets the hypothesis of `C46_false` -/
example (et : ErrorType) : ∃ c : VelCorr, ∃ m : VelMeas, c.buffer = [] ++ [m] ∧ IsRot c.R_vel2body ∧
    c.errorType = et ∧ c.scale • c.R_vel2body.mulVec m.vel ≠ m.vel := by
  refine ⟨⟨et, [⟨0, ![1, 0, 0]⟩], 1, 0.3, !![0, -1, 0; 1, 0, 0; 0, 0, 1], 1⟩, ⟨0, ![1, 0, 0]⟩, rfl, ?_, rfl, ?_⟩
  · refine ⟨?_, ?_, ?_⟩
    · ext i j; fin_cases i <;> fin_cases j <;> simp [Matrix.mul_apply, Fin.sum_univ_three]
    · ext i j; fin_cases i <;> fin_cases j <;> simp [Matrix.mul_apply, Fin.sum_univ_three]
    · simp [Matrix.det_fin_three]
  · intro h
    have := congrFun h 0
    simp [Matrix.mulVec, dotProduct, Fin.sum_univ_three] at this

/-- **C46**, what holds: with identity mounting and unit scale the initial velocity is the measured velocity
rotated into the world, the state stays well formed, and correcting with the same measurement changes neither
`X` nor the biases.  (Missing: any other mounting rotation or scale; see `C46_false`.) -/
theorem C46_identity_mount_partial {K : ℕ} (c : VelCorr) (s : RobotState) (hsh : Shape K s) {pre : List VelMeas}
    {m : VelMeas} (hb : c.buffer = pre ++ [m]) (hR : c.R_vel2body = 1) (hs : c.scale = 1) {R : M3}
    (h0 : s.get_rotation = some R) :
    ∃ s', c.setInitial s = some (true, { c with buffer := [] }, s') ∧ Shape K s' ∧
      s'.get_rotation = some R ∧ s'.get_velocity = some (R.mulVec m.vel) ∧
      ∀ s'', VelUpdate c m.vel s' s'' → s''.X = s'.X ∧ s''.Theta = s'.Theta := by
  obtain ⟨h1, h2, h3⟩ := setInitial_shape hsh (R.mulVec m.vel) (some m.time)
  refine ⟨_, setInitial_eq c s hsh hb h0, h1, by rw [h3, h0], h2, fun s'' h4 => ?_⟩
  exact C50_perfect_measurement h1 (h3.trans h0) h2 (by rw [hR, hs, one_mulVec, one_smul]) h4

end Drift
