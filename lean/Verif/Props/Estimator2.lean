import Verif.Props.Estimator
import Verif.Lemmas.Est5

/-!
# Properties of the estimator: `clear`, slip flag, logging
-/
set_option linter.unusedSimpArgs false
namespace Drift
open Mat Matrix RobotState

/-! ### Concrete estimators in use -/

/-- an estimator without corrections and with the given IMU configuration, bias averaging off -/
theorem exInUse {et : ErrorType} {ic : ImuPropConfig} {cs : List CorrConfig} {e0 e : Estimator} {evs : List EstEv}
    (hc : Estimator.ctor et ⟨fun _ => 0, 0⟩ {} ic cs = some e0) (u : Usable ic cs (imuArrivals evs))
    (h : e0.run evs = some e) : InUse e :=
  ⟨et, ⟨fun _ => 0, 0⟩, {}, ic, cs, e0, evs, u, hc, h⟩

/-- A concrete case for the theorems about initialisation: bias averaging off, one velocity and one legged
correction, one measurement each.  `InitState` then enables the filter. -/
theorem exIdle (et : ErrorType) (m : ImuMeas) (v : VelMeas) (l : LegMeas) :
    ∃ e, InUse e ∧ e.enabled = false ∧ e.pending = none ∧ e.prop.buffer = [m] ∧ e.prop.biasInitialized = true ∧ e.corrs ≠ [] ∧ ∀ c ∈ e.corrs, 0 < c.queued := by
  obtain ⟨e0, h0⟩ : ∃ e0, Estimator.ctor et ⟨fun _ => 0, 0⟩ {} { static_bias_initialization := some false } [.vel {}, .leg {}] = some e0 := ⟨_, rfl⟩
  obtain ⟨e, he⟩ : ∃ e, e0.run [.tick, .imu m, .vel 0 v, .leg 1 l] = some e :=
    (C58_safe h0 [.tick, .imu m, .vel 0 v, .leg 1 l] (exUsable _ (by simp [imuArrivals]))).imp fun _ h => h.1
  refine ⟨e, exInUse h0 (exUsable _ (by simp [imuArrivals])) he, ?_⟩
  rw [← Option.some.inj h0] at he
  simp only [Estimator.run, Estimator.step, Estimator.tick, Estimator.initBias, ImuProp.initImuBias, Option.getD_some, if_true,
    Option.map_some, Option.bind_some, if_false, Bool.false_eq_true] at he
  rw [← Option.some.inj he]
  refine ⟨rfl, rfl, rfl, rfl, by simp, ?_⟩
  intro c hc
  simp [List.modify_cons, Corr.pushVel, Corr.pushLeg, LegCorr.ctor] at hc
  rcases hc with rfl | rfl <;> simp [Corr.queued]

theorem run_append_one (ev : EstEv) (evs : List EstEv) : ∀ e0 : Estimator, e0.run (evs ++ [ev]) = (e0.run evs).bind fun e => e.step ev := by
  induction evs with
  | nil => intro e0; simp [Estimator.run]
  | cons ev' evs ih =>
    intro e0
    simp only [List.cons_append, Estimator.run]
    cases e0.step ev' with
    | none => rfl
    | some e1 => simp [ih]

theorem InUse.tick {e e' : Estimator} (h : InUse e) (ht : e.step .tick = some e') : InUse e' := by
  obtain ⟨et, h, c, ic, cs, e0, evs, u, hc, hr⟩ := h
  have himu : ∀ evs : List EstEv, imuArrivals (evs ++ [.tick]) = imuArrivals evs := by
    intro evs
    induction evs with
    | nil => rfl
    | cons ev evs ih => cases ev <;> simp [imuArrivals, ih]
  exact ⟨et, h, c, ic, cs, e0, evs ++ [.tick], by rw [himu]; exact u, hc, by rw [run_append_one, hr]; exact ht⟩

/-- and an enabled one, with the state published -/
theorem exEnabled (et : ErrorType) (m : ImuMeas) (v : VelMeas) (l : LegMeas) :
    ∃ e s, InUse e ∧ e.enabled = true ∧ e.outQ ≠ [] ∧ e.state = s := by
  obtain ⟨e, hu, h1, h2, h3, hb, -, h4⟩ := exIdle et m v l
  obtain ⟨s', q, -⟩ := C45_all_data hu h1 h2 h3 h4
  refine ⟨_, s', hu.tick (e' := { e with
        prop := { e.prop with buffer := [], prev := some m }
        corrs := e.corrs.map Corr.drained
        state := s'
        outQ := e.outQ ++ [s']
        enabled := true
        pending := none }) ?_, rfl, by simp, rfl⟩
  show e.tick = _
  unfold Estimator.tick
  rw [h2, h1, hb, ← q]; rfl

/-! ### C47: counterexample -/

/-- **C47 is false**: an IMU mounted upside down (180 degrees about the x axis) whose orientation is the identity.
The body is then upside down (`quat * mount⁻¹ = diag(1,-1,-1)`), but the filter starts with the orientation of the
IMU. -/
theorem C47_false (et : ErrorType) (t : ℝ) : ∃ e e' m, InUse e ∧ e.enabled = false ∧ e.pending = none ∧ e.prop.useImuOri = true ∧
    IsRot e.prop.R_imu2body ∧ e.prop.buffer = [m] ∧ e.initState = some e' ∧ e'.state.get_rotation = some 1 ∧
    m.quat.toRot * e.prop.R_imu2bodyᵀ = Matrix.diagonal ![1, -1, -1] := by
  let ic : ImuPropConfig := { static_bias_initialization := some false, use_imu_ori_to_init := some true, rotation_imu2body := some [0, 1, 0, 0] }
  let m : ImuMeas := ⟨t, 0, 0, ⟨1, 0, 0, 0⟩⟩
  obtain ⟨e0, h0⟩ : ∃ e0, Estimator.ctor et ⟨fun _ => 0, 0⟩ {} ic [] = some e0 := ⟨_, rfl⟩
  have u : Usable ic [] (imuArrivals [.tick, .imu m]) :=
    ⟨by simp, by simp, .inl rfl, .inr (by intro x hx; simp [imuArrivals] at hx; subst hx; simp [m]), by simp [imuArrivals]⟩
  obtain ⟨e, he⟩ : ∃ e, e0.run [.tick, .imu m] = some e := (C58_safe h0 _ u).imp fun _ h => h.1
  have hu : InUse e := exInUse h0 u he
  rw [← Option.some.inj h0] at he
  simp only [Estimator.run, Estimator.step, Estimator.tick, Estimator.initBias, ImuProp.initImuBias, Option.getD_some, if_true,
    Option.map_some, Option.bind_some, if_false, Bool.false_eq_true, ic] at he
  have he := (Option.some.inj he).symm
  have f1 : e.enabled = false := by rw [he]
  have f2 : e.pending = none := by rw [he]
  have f3 : e.prop.useImuOri = true := by rw [he]
  have f4 : e.prop.R_imu2body = Quat.toRot ⟨0, 1, 0, 0⟩ := by rw [he]
  have f5 : e.prop.buffer = [m] := by rw [he]; rfl
  have f6 : IsRot e.prop.R_imu2body := by rw [f4]; exact toRot_isRot (by norm_num)
  obtain ⟨e', h'⟩ : ∃ e', e.initState = some e' := (initState_inv (inUse_inv hu) f1 f2).imp fun _ h => h.1
  have := C47_identity_mount_partial hu f1 f2 f3 f5 f6 h'
  refine ⟨e, e', m, hu, f1, f2, f3, f6, f5, h', ?_, ?_⟩
  · rw [this.1]; congr 1
    ext i j; fin_cases i <;> fin_cases j <;> simp [Quat.toRot, m]
  · rw [f4]
    ext i j; fin_cases i <;> fin_cases j <;> simp [Quat.toRot, m, Matrix.mul_apply, Fin.sum_univ_three] <;> norm_num

/-! ### C57 -/

/-- **C57**: after `clear()` every measurement queue, the output queue and the log queue are empty, no contact
reference is held, the state is the identity with identity covariance and no extra column, and the filter is
disabled. -/
theorem C57_clear (e : Estimator) :
    e.clear.prop.buffer = [] ∧ (∀ c ∈ e.clear.corrs, c.queued = 0 ∧ ∀ id, c.refs id = none) ∧
      e.clear.outQ = [] ∧ e.clear.log.queue = [] ∧ e.clear.enabled = false ∧
      e.clear.state.X = one 5 ∧ e.clear.state.Theta = zero 6 1 ∧ e.clear.state.P = one 15 ∧ e.clear.state.Qc = zero 15 15 ∧
      e.clear.state.colMap = List.replicate 5 none ∧ e.clear.corrs.length = e.corrs.length := by
  refine ⟨rfl, ?_, rfl, ?_, rfl, rfl, rfl, rfl, rfl, rfl, by simp [Estimator.clear]⟩
  · intro c hc
    obtain ⟨d, -, rfl⟩ := List.mem_map.mp hc
    exact ⟨by cases d <;> rfl, refs_clear d⟩
  · simp only [Estimator.clear, Logger.clear]; split_ifs <;> rfl

/-- **C57**: a disabled filter becomes enabled only by a main-loop turn in which `InitState` completes, and that
turn publishes the initial state. -/
theorem C57_enabled_only_by_init {e e' : Estimator} {ev : EstEv} (h : e.step ev = some e') (hen : e.enabled = false)
    (hen' : e'.enabled = true) :
    ev = .tick ∧ e'.outQ = e.outQ ++ [e'.state] ∧
      ((e.pending = none ∧ e.prop.biasInitialized = true ∧ e.initState = some e') ∨ ∃ i, e.pending = some i ∧ e.initFrom i = some e') := by
  cases ev with
  | tick =>
    have ht : e.tick = some e' := h
    cases tick_out ht with
    | quiet o l en => rw [en, hen] at hen'; cases hen'
    | init o l en how => exact ⟨rfl, o, how⟩
    | run o l en => rw [en.1] at hen; cases hen
  | clear =>
    unfold Estimator.step at h
    cases hp : e.pending with
    | none => rw [hp] at h; cases h; cases hen'
    | some k => rw [hp] at h; cases h; rw [hen] at hen'; cases hen'
  | log =>
    simp only [Estimator.step, Option.map_eq_some_iff] at h
    obtain ⟨l, h1, rfl⟩ := h
    rw [show e.enabled = true from hen'] at hen; cases hen
  | imu m => cases h; rw [show e.enabled = true from hen'] at hen; cases hen
  | vel k m => cases h; rw [show e.enabled = true from hen'] at hen; cases hen
  | leg k m => cases h; rw [show e.enabled = true from hen'] at hen; cases hen
  | consume => cases h; rw [show e.enabled = true from hen'] at hen; cases hen

/-- **C57**: as long as the filter stays disabled after `clear()`, nothing is published or queued for logging. -/
theorem C57_silent_while_disabled {e e' : Estimator} {ev : EstEv} (h : e.step ev = some e') (hen : e.enabled = false)
    (hen' : e'.enabled = false) (ho : e.outQ = []) (hl : e.log.queue = []) : e'.outQ = [] ∧ e'.log.queue = [] := by
  cases ev with
  | tick =>
    have ht : e.tick = some e' := h
    cases tick_out ht with
    | quiet o l en => rw [o, l]; exact ⟨ho, hl⟩
    | init o l en how =>
      rcases how with ⟨-, -, how⟩ | ⟨i, -, how⟩
      · rcases initState_out how with ⟨h1, h2, h3⟩ | ⟨h1, h2, h3⟩
        · rw [h1, h2]; exact ⟨ho, hl⟩
        · rw [h3] at hen'; cases hen'
      · rcases initFrom_out how with ⟨h1, h2, h3⟩ | ⟨h1, h2, h3⟩
        · rw [h1, h2]; exact ⟨ho, hl⟩
        · rw [h3] at hen'; cases hen'
    | run o l en => rw [en.1] at hen; cases hen
  | clear =>
    unfold Estimator.step at h
    cases hp : e.pending with
    | none => rw [hp] at h; cases h; exact ⟨rfl, (C57_clear e).2.2.2.1⟩
    | some k => rw [hp] at h; cases h; exact ⟨ho, hl⟩
  | log =>
    simp only [Estimator.step, Option.map_eq_some_iff] at h
    obtain ⟨l, h1, rfl⟩ := h
    refine ⟨ho, ?_⟩
    unfold Logger.iter at h1
    rw [hl] at h1; cases h1; exact hl
  | imu m => cases h; exact ⟨ho, hl⟩
  | vel k m => cases h; exact ⟨ho, hl⟩
  | leg k m => cases h; exact ⟨ho, hl⟩
  | consume => cases h; exact ⟨by simp [ho], hl⟩

/-- **C57**: the state has no memory of the time before `clear()` once it is initialised again: the next
initialisation from the IMU gives what it would give on a newly constructed state (up to the slip flag and the
frame tag, which are not reset). -/
theorem C57_fresh_start (p : ImuProp) (s : RobotState) (hb : p.buffer ≠ []) :
    p.setInitialState s.clear = p.setInitialState { RobotState.init with slip := s.slip, stateType := s.stateType } := by
  unfold ImuProp.setInitialState
  cases hq : p.buffer with
  | nil => exact absurd hq hb
  | cons m rest => rfl

/-- a concrete case: an enabled estimator with something published, before and after `clear()` -/
example (et : ErrorType) (m : ImuMeas) (v : VelMeas) (l : LegMeas) :
    ∃ e, InUse e ∧ e.enabled = true ∧ e.outQ ≠ [] ∧ e.clear.enabled = false ∧ e.clear.outQ = [] := by
  obtain ⟨e, s, h1, h2, h3, -⟩ := exEnabled et m v l
  exact ⟨e, h1, h2, h3, rfl, rfl⟩

/-! ### C61 -/

/-- **C61**: the slip flag is a fixed threshold on the squared norm of the last column, whatever the covariance;
nothing else changes. -/
theorem C61_slip {K : ℕ} {s : RobotState} (hs : Shape K s) :
    ∃ d, s.get_vector ((s.dimX : ℤ) - 1) = some d ∧
      Estimator.slipStep s = some { s with slip := if d 0 ^ 2 + d 1 ^ 2 + d 2 ^ 2 > 0.004642 then 1 else 0 } := by
  have x1 := hs.x.rows; have x2 := hs.x.cols; have p1 := hs.pr; have p2 := hs.pc; have hk := hs.k
  have hd : s.get_vector ((s.dimX : ℤ) - 1) = some (s.X.blkV 0 (s.X.cols - 1)) := by
    unfold get_vector dimX
    rw [if_neg (by omega)]
    have : ((s.X.cols : ℤ) - 1).toNat = s.X.cols - 1 := by omega
    rw [this, blkV?_eq (by omega) (by omega)]
  have e0 : s.get_rotation = some (s.X.blk3 0 0) := blk3?_eq (by omega) (by omega)
  refine ⟨_, hd, ?_⟩
  unfold Estimator.slipStep
  rw [hd, e0]
  simp only [Option.bind_eq_bind, Option.bind_some]
  rw [if_neg (by omega)]
  set d := s.X.blkV 0 (s.X.cols - 1)
  have hinv : ((0.001 : ℝ) • (1 : M3))⁻¹ = (1000 : ℝ) • (1 : M3) := by
    apply Matrix.inv_eq_right_inv
    rw [smul_mul_smul_comm, Matrix.one_mul]; norm_num
  have hchi : d ⬝ᵥ ((((0.001 : ℝ) • (1 : M3))⁻¹).mulVec d) = 1000 * (d 0 ^ 2 + d 1 ^ 2 + d 2 ^ 2) := by
    rw [hinv, Matrix.smul_mulVec, Matrix.one_mulVec, dotProduct_smul, dotProduct, Fin.sum_univ_three, smul_eq_mul]; ring
  rw [hchi]
  by_cases h : d 0 ^ 2 + d 1 ^ 2 + d 2 ^ 2 > 0.004642
  · rw [if_pos h, if_pos (by linarith)]
  · rw [if_neg h, if_neg (by linarith)]

/-- **C61**: two states with the same last column get the same flag, whatever their covariances -/
theorem C61_independent_of_P {K K' : ℕ} {s s' : RobotState} (hs : Shape K s) (hs' : Shape K' s') {t t' : RobotState}
    (h : s.get_vector ((s.dimX : ℤ) - 1) = s'.get_vector ((s'.dimX : ℤ) - 1))
    (ht : Estimator.slipStep s = some t) (ht' : Estimator.slipStep s' = some t') : t.slip = t'.slip := by
  obtain ⟨d, h1, h2⟩ := C61_slip hs
  obtain ⟨d', h1', h2'⟩ := C61_slip hs'
  rw [h1, h1'] at h
  rw [ht] at h2; rw [ht'] at h2'
  rw [Option.some.inj h2, Option.some.inj h2', Option.some.inj h]

/-- on the initial state (last column: the position, zero) the flag is 0 -/
example : ∃ s', Estimator.slipStep RobotState.init = some s' ∧ s'.slip = 0 := by
  obtain ⟨d, h1, h2⟩ := C61_slip init_shape
  refine ⟨_, h2, ?_⟩
  have : d = 0 := by
    have : RobotState.init.get_vector ((RobotState.init.dimX : ℤ) - 1) = some 0 := by
      unfold get_vector dimX
      rw [show RobotState.init.X.cols = 5 from rfl, if_neg (by norm_num)]
      rw [show (((5 : ℕ) : ℤ) - 1).toNat = 4 from rfl]
      rw [show RobotState.init.X = one 5 from rfl, blkV?_eq (by simp) (by simp)]
      congr 1; funext i; fin_cases i <;> simp [blkV, Mat.one, Mat.eye, ofFn]
    rw [this] at h1; exact (Option.some.inj h1).symm
  show (if _ then (1 : ℤ) else 0) = 0
  rw [this]; norm_num

end Drift
