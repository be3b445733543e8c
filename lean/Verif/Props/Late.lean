import Verif.Props.Noise
import Verif.Props.Startup
import Verif.Spec.Late

/-!
# C109: IMU measurements out of order
-/
set_option linter.unusedSimpArgs false
namespace Drift
open Mat Matrix Finset RobotState ImuProp

/-- the orientation rows of the transition matrix, without bias estimation -/
theorem phiK_row {K : ℕ} (hK : 2 ≤ K) {p : ImuProp} (hb : p.enableBias = false) (w a : V3) (dt : ℝ) (X : Mat) :
    ∃ O : M3, IsRot O ∧ ∀ (i : Fin 3) k, k < 3 * K + 9 → (phiK K p w a dt X).e i k = if h : k < 3 then O i ⟨k, h⟩ else 0 := by
  have key : ∀ (F : ℕ → ℕ → M3) (O : M3), (∀ j, j < K + 3 → F 0 j = if j = 0 then O else 0) →
      ∀ (i : Fin 3) k, k < 3 * K + 9 → (ofBlk (K + 3) (K + 3) F).e i k = if h : k < 3 then O i ⟨k, h⟩ else 0 := by
    intro F O hF i k hk
    have := i.2
    rw [ofBlk_e F (by omega) (by omega), show (i : ℕ) / 3 = 0 by omega, hF _ (by omega)]
    have hi : (⟨(i : ℕ) % 3, Nat.mod_lt _ (by norm_num)⟩ : Fin 3) = i := by ext; simp
    rw [hi]
    by_cases h : k < 3
    · rw [dif_pos h, if_pos (by omega)]
      congr 1
      ext; simp; omega
    · rw [dif_neg h, if_neg (by omega)]; rfl
  unfold phiK
  rw [hb]
  cases p.errorType with
  | leftInvariant =>
    refine ⟨(Gam0 (dt • w))ᵀ, ?_, key _ _ fun j hj => ?_⟩
    · obtain ⟨h1, h2, h3⟩ := Gam0_isRot (dt • w)
      exact ⟨by rw [transpose_transpose]; exact h2, by rw [transpose_transpose]; exact h1, by rw [det_transpose]; exact h3⟩
    · simp only [phiLF, Bool.false_eq_true, if_false, phiLB]
      by_cases h : j = 0
      · subst h
        rw [if_neg (by omega), if_neg (by omega)]; simp
      · rw [if_neg h]
        split_ifs <;> first | rfl | (exfalso; omega) | simp_all
  | rightInvariant =>
    refine ⟨1, ⟨by simp, by simp, by simp⟩, key _ _ fun j hj => ?_⟩
    simp only [phiRF, Bool.false_eq_true, if_false, phiRB]
    by_cases h : j = 0
    · subst h
      rw [if_neg (by omega)]; simp
    · rw [if_neg h]
      split_ifs <;> first | rfl | (exfalso; omega) | simp_all


theorem sum_range_three {n : ℕ} (hn : 3 ≤ n) (f : ℕ → ℝ) (h : ∀ k, 3 ≤ k → f k = 0) : ∑ k ∈ range n, f k = f 0 + f 1 + f 2 := by
  rw [← sum_subset (range_mono hn) fun k _ hk => h k (by simpa using hk), sum_range_succ, sum_range_succ, sum_range_one]

/-- a quadratic form on vectors that only read the orientation -/
theorem quad_rot {A : Mat} (hr : 3 ≤ A.rows) (hc : 3 ≤ A.cols) {y : ℕ → ℝ} (hy : ∀ k, 3 ≤ k → y k = 0) :
    quad A y = at3 y 0 ⬝ᵥ (A.blk3 0 0).mulVec (at3 y 0) := by
  unfold quad
  rw [sum_range_three hr _ fun k hk => by simp [hy k hk]]
  have e : ∀ i, ∑ j ∈ range A.cols, y i * A.e i j * y j = y i * A.e i 0 * y 0 + y i * A.e i 1 * y 1 + y i * A.e i 2 * y 2 :=
    fun i => sum_range_three hc (fun j => y i * A.e i j * y j) fun k hk => by rw [hy k hk, mul_zero]
  rw [e, e, e]
  simp only [dotProduct, Matrix.mulVec, Fin.sum_univ_three, at3, blk3]
  simp
  ring

theorem row_norm {O : M3} (h : O * Oᵀ = 1) (i : Fin 3) : O i ⬝ᵥ O i = 1 := by
  have := congrFun (congrFun h i) i
  simpa [Matrix.mul_apply, dotProduct] using this

/-- the noise channels of a linear function that only reads the orientation -/
theorem channels_rot {K : ℕ} {s : RobotState} (hs : Shape K s) (et : ErrorType) {y : ℕ → ℝ} (hy : ∀ k, 3 ≤ k → y k = 0) :
    ∃ n, Channels K et s.X y n ∧ (∀ k, 3 ≤ k → n k = 0) ∧ at3 n 0 ⬝ᵥ at3 n 0 = at3 y 0 ⬝ᵥ at3 y 0 := by
  cases et with
  | leftInvariant => exact ⟨y, rfl, hy, rfl⟩
  | rightInvariant =>
    have hk := hs.k
    have hR : IsRot (s.X.blk3 0 0) := hs.x.rot
    refine ⟨_, ⟨_, adjoint_AdM hs.x.rows hs.x.cols, rfl⟩, ?_, ?_⟩
    all_goals
      have e : ∀ k, pull (bd (AdM K s.X) (3 * K + 9)) y k =
          y 0 * (EA K s.X).e 0 k + y 1 * (EA K s.X).e 1 k + y 2 * (EA K s.X).e 2 k := fun k =>
        sum_range_three (n := (EA K s.X).rows) (by rw [EA_eq_ofBlk]; show 3 ≤ 3 * (K + 3); omega)
          (fun j => y j * (EA K s.X).e j k) fun j hj => by rw [hy j hj, zero_mul]
      have e2 : ∀ (i : Fin 3) k, (EA K s.X).e i k = if h : k < 3 then s.X.blk3 0 0 i ⟨k, h⟩ else 0 := by
        intro i k
        have hi := i.2
        by_cases hk9 : k < 3 * (K + 3)
        · rw [EA_eq_ofBlk, ofBlk_e _ (by omega) hk9, show (i : ℕ) / 3 = 0 by omega]
          have hi' : (⟨(i : ℕ) % 3, Nat.mod_lt _ (by norm_num)⟩ : Fin 3) = i := by ext; simp
          rw [hi']
          unfold eaF adjF
          by_cases h : k < 3
          · rw [dif_pos h, if_pos (by omega), if_pos (by omega)]
            congr 1
            ext; simp; omega
          · rw [dif_neg h]
            split_ifs <;> first | rfl | (exfalso; omega) | simp_all
        · rw [dif_neg (by omega)]
          exact (EA K s.X).supp _ _ (by rw [EA_eq_ofBlk]; show ¬ (_ ∧ k < 3 * (K + 3)); omega)
    · intro k hk
      rw [e, show (EA K s.X).e 0 k = 0 from (e2 0 k).trans (dif_neg (by omega)), show (EA K s.X).e 1 k = 0 from (e2 1 k).trans (dif_neg (by omega)),
        show (EA K s.X).e 2 k = 0 from (e2 2 k).trans (dif_neg (by omega))]
      ring
    · have hat : at3 (pull (bd (AdM K s.X) (3 * K + 9)) y) 0 = (s.X.blk3 0 0)ᵀ.mulVec (at3 y 0) := by
        funext k
        have hk := k.2
        show pull (bd (AdM K s.X) (3 * K + 9)) y (3 * 0 + k) = _
        rw [Nat.mul_zero, Nat.zero_add, e, show (EA K s.X).e 0 k = _ from (e2 0 k).trans (dif_pos hk),
          show (EA K s.X).e 1 k = _ from (e2 1 k).trans (dif_pos hk), show (EA K s.X).e 2 k = _ from (e2 2 k).trans (dif_pos hk)]
        simp [Matrix.mulVec, dotProduct, Fin.sum_univ_three, at3]
        ring
      rw [hat, Matrix.dotProduct_mulVec, Matrix.vecMul_transpose, Matrix.mulVec_mulVec, hR.2.1, Matrix.one_mulVec]

/-- one IMU step without bias estimation, whatever the sign of the time step: the orientation covariance is turned and the
gyroscope noise added -/
theorem rotCov_step {K p s m f rest tp} (h : PropReady K p s m f rest tp) (hQ : QcOK K s.Qc) (hb : p.enableBias = false) {g : ℝ}
    (hg : p.gyroCov = g • (1 : M3)) {b p' s'} (hp : p.propagate s = some (b, p', s')) :
    ∃ O : M3, IsRot O ∧ ∀ i, (s'.P.blk3 0 0) i i = (O * s.P.blk3 0 0 * Oᵀ) i i + (m.time - tp) * g := by
  obtain ⟨bg, ba, w, a, Φ, -, -, -, hΦ, hq⟩ := C96_process_noise h hQ hp
  rw [stateTransitionMatrix_eq h.shape h.world] at hΦ
  obtain rfl := Option.some.inj hΦ
  obtain ⟨O, hO, hrow⟩ := phiK_row h.shape.k hb w a (m.time - tp) s.X
  refine ⟨O, hO, fun i => ?_⟩
  have hpr := h.shape.pr; have hpc := h.shape.pc; have hk := h.shape.k
  have hsr : s'.P.rows = 3 * K + 9 ∧ s'.P.cols = 3 * K + 9 := by
    have := C34_on_group h hp
    exact ⟨this.pr, this.pc⟩
  set x : ℕ → ℝ := fun k => if k = (i : ℕ) then 1 else 0 with hx
  have hi := i.2
  have hy : ∀ k, k < 3 * K + 9 → pull (phiK K p w a (m.time - tp) s.X) x k = if h : k < 3 then O i ⟨k, h⟩ else 0 := by
    intro k hk
    rw [← hrow i k hk]
    unfold pull
    rw [sum_eq_single (i : ℕ)]
    · simp [hx]
    · intro j _ hj; simp [hx, hj]
    · intro hn; exact absurd (mem_range.mpr (by rw [phiK_rows]; omega)) hn
  have hy' : ∀ k, 3 ≤ k → pull (phiK K p w a (m.time - tp) s.X) x k = 0 := by
    intro k hk
    by_cases hk' : k < 3 * K + 9
    · rw [hy k hk', dif_neg (by omega)]
    · unfold pull
      refine sum_eq_zero fun j _ => ?_
      have : (phiK K p w a (m.time - tp) s.X).e j k = 0 := (phiK K p w a (m.time - tp) s.X).supp j k (by rw [phiK_cols]; omega)
      rw [this, mul_zero]
  set y := pull (phiK K p w a (m.time - tp) s.X) x with hyd
  have hy0 : at3 y 0 = O i := by
    funext k
    have := k.2
    show y (3 * 0 + k) = _
    rw [hy _ (by omega), dif_pos (by omega)]
    congr 1
    ext; simp
  obtain ⟨n, hn, hn0, hn1⟩ := channels_rot h.shape p.errorType hy'
  have key := hq x n (fun _ k hk => by simp only [hx]; rw [if_neg (by omega)]) hn
  have hl : quad s'.P x = (s'.P.blk3 0 0) i i := by
    rw [quad_rot (by omega) (by omega) fun k hk => by simp only [hx]; rw [if_neg (by omega)]]
    have hx0 : at3 x 0 = Pi.single i 1 := by
      funext k
      simp only [at3, hx, Nat.mul_zero, Nat.zero_add, Pi.single_apply, Fin.ext_iff]
    rw [hx0]; simp
  have hr : quad s.P y = (O * s.P.blk3 0 0 * Oᵀ) i i := by
    rw [quad_rot (by omega) (by omega) hy', hy0]
    simp [Matrix.mul_apply, Matrix.mulVec, dotProduct, Fin.sum_univ_three]
    ring
  have hnr : noiseRate K p s.Qc n = g := by
    have h1 : at3 n 1 = 0 := by
      funext k; exact hn0 _ (by omega)
    have h0 : s.Qc.blk3 0 0 = 0 := by
      ext a b
      rw [blk3_apply]
      exact hQ.zero _ _ (.inl (by have := a.2; omega))
    unfold noiseRate
    rw [hb, h1, quad_rot (by have := h.qr; omega) (by have := h.qc; omega) hn0, h0, hg]
    simp only [Matrix.mulVec_zero, Matrix.zero_mulVec, dotProduct_zero, add_zero, Bool.false_eq_true, if_false, Matrix.smul_mulVec, Matrix.one_mulVec,
      dotProduct_smul, hn1, hy0, row_norm hO.2.1, smul_eq_mul, mul_one]
  rw [← hl, key, hr, hnr]

theorem oriVar_eq (s : RobotState) : oriVar s = ∑ i, (s.P.blk3 0 0) i i := by
  simp [oriVar, Fin.sum_univ_three, blk3]

theorem oriVar_step {K p s m f rest tp} (h : PropReady K p s m f rest tp) (hQ : QcOK K s.Qc) (hb : p.enableBias = false) {g : ℝ}
    (hg : p.gyroCov = g • (1 : M3)) {b p' s'} (hp : p.propagate s = some (b, p', s')) :
    oriVar s' = oriVar s + 3 * g * (m.time - tp) := by
  obtain ⟨O, hO, e⟩ := rotCov_step h hQ hb hg hp
  rw [oriVar_eq, oriVar_eq, Finset.sum_congr rfl fun i _ => e i, Finset.sum_add_distrib]
  have : ∑ i, (O * s.P.blk3 0 0 * Oᵀ) i i = ∑ i, (s.P.blk3 0 0) i i := by
    have : Matrix.trace (O * s.P.blk3 0 0 * Oᵀ) = Matrix.trace (s.P.blk3 0 0) := by
      rw [Matrix.trace_mul_comm, ← Matrix.mul_assoc, hO.1, Matrix.one_mul]
    exact this
  rw [this]
  simp
  ring

/-! ### an estimator that is dead reckoning -/

theorem correct_idle {c : Corr} (hc : c.queued = 0) (h : Heap) (s : RobotState) : c.correct h s = some (false, c, h, s) := by
  cases c with
  | vel c =>
    have : c.buffer = [] := List.eq_nil_of_length_eq_zero hc
    simp [Corr.correct, VelCorr.correct, this]
  | leg c =>
    have : c.buffer = [] := List.eq_nil_of_length_eq_zero hc
    simp [Corr.correct, LegCorr.correct, this]

theorem correctAll_idle {cs : List Corr} (hc : ∀ c ∈ cs, c.queued = 0) (h : Heap) (s : RobotState) :
    Estimator.correctAll cs h s = some (false, cs, h, s) := by
  induction cs with
  | nil => rfl
  | cons c cs ih =>
    simp only [Estimator.correctAll, Option.bind_eq_bind, correct_idle (hc c (by simp)), Option.bind_some, ih fun d hd => hc d (by simp [hd])]
    rfl

/-- enabled, no correction data queued, no bias estimation, gyroscope covariance `g I` -/
structure Dead (K : ℕ) (g : ℝ) (e : Estimator) : Prop where
  en : e.enabled = true
  pend : e.pending = none
  idle : ∀ c ∈ e.corrs, c.queued = 0
  shape : Shape K e.state
  world : e.state.stateType = .worldCentric
  q : QcOK K e.state.Qc
  bias : e.prop.enableBias = false
  cov : e.prop.gyroCov = g • (1 : M3)

theorem tick_dead_empty {K g e} (d : Dead K g e) (hb : e.prop.buffer = []) : e.step .tick = some e := by
  show e.tick = some e
  unfold Estimator.tick Estimator.runOnce
  rw [d.pend]
  simp only [d.en, if_true, Option.bind_eq_bind, C36_empty e.prop e.state hb, Option.bind_some, correctAll_idle d.idle]
  have h1 := d.en; have h2 := d.pend
  cases e
  simp only at h1 h2
  subst h1 h2
  rfl

theorem tick_dead {K g e f rest m tp} (d : Dead K g e) (hb : e.prop.buffer = f :: rest) (hm : e.prop.prev = some m)
    (ht : e.state.tProp = some tp) :
    ∃ e', e.step .tick = some e' ∧ Dead K g e' ∧ e'.prop.buffer = rest ∧ e'.prop.prev = some f ∧ e'.state.tProp = some m.time ∧
      e'.outQ = e.outQ ++ [e'.state] ∧ oriVar e'.state = oriVar e.state + 3 * g * (m.time - tp) := by
  have hsq := d.q.psd.sq
  have hr : PropReady K e.prop e.state m f rest tp := ⟨d.shape, d.world, d.q.r, by rw [← hsq]; exact d.q.r, hb, hm, ht⟩
  obtain ⟨X, P, hp⟩ := C36_step hr
  have hsh := C34_on_group hr hp
  have ho := oriVar_step hr d.q d.bias d.cov hp
  refine ⟨{ e with
      prop := { e.prop with prev := some f, buffer := rest }
      state := { e.state with t := some m.time, tProp := some m.time, X := X, P := P }
      outQ := e.outQ ++ [{ e.state with t := some m.time, tProp := some m.time, X := X, P := P }]
      log := e.log.push { e.state with t := some m.time, tProp := some m.time, X := X, P := P } }, ?_, ?_⟩
  · show e.tick = some _
    unfold Estimator.tick Estimator.runOnce
    rw [d.pend]
    simp only [d.en, if_true, Option.bind_eq_bind, hp, Option.bind_some, correctAll_idle d.idle, Bool.or_false]
  · exact ⟨⟨d.en, d.pend, d.idle, hsh, d.world, d.q, d.bias, d.cov⟩, rfl, rfl, rfl, rfl, ho⟩

/-- every dead-reckoning history -/
theorem run_dead {K g} : ∀ (evs : List EstEv) {e e' : Estimator}, Dead K g e → (∃ m, e.prop.prev = some m) → (∀ ev ∈ evs, DeadReckoning ev) →
    e.run evs = some e' → ∀ {tp}, e.state.tProp = some tp → ∃ tp', e'.state.tProp = some tp' ∧ Dead K g e' ∧
      oriVar e'.state = oriVar e.state + 3 * g * (tp' - tp) := by
  intro evs
  induction evs with
  | nil =>
    intro e e' d _ _ hr tp ht
    obtain rfl := Option.some.inj hr
    exact ⟨tp, ht, d, by ring⟩
  | cons ev evs ih =>
    intro e e' d hm hq hr tp ht
    obtain ⟨m, hm⟩ := hm
    obtain ⟨e1, h1, h2⟩ := Option.bind_eq_some_iff.mp hr
    have hq' : ∀ ev ∈ evs, DeadReckoning ev := fun v hv => hq v (by simp [hv])
    cases ev with
    | vel i v => exact False.elim (hq (.vel i v) (by simp))
    | leg i v => exact False.elim (hq (.leg i v) (by simp))
    | clear => exact False.elim (hq (.clear) (by simp))
    | imu x =>
      obtain rfl := Option.some.inj h1
      exact ih (e := { e with prop := { e.prop with buffer := e.prop.buffer ++ [x] } })
        ⟨d.en, d.pend, d.idle, d.shape, d.world, d.q, d.bias, d.cov⟩ ⟨m, hm⟩ hq' h2 ht
    | consume =>
      obtain rfl := Option.some.inj h1
      exact ih (e := { e with outQ := e.outQ.tail }) ⟨d.en, d.pend, d.idle, d.shape, d.world, d.q, d.bias, d.cov⟩ ⟨m, hm⟩ hq' h2 ht
    | log =>
      obtain ⟨l, -, rfl⟩ := Option.map_eq_some_iff.mp h1
      exact ih (e := { e with log := l }) ⟨d.en, d.pend, d.idle, d.shape, d.world, d.q, d.bias, d.cov⟩ ⟨m, hm⟩ hq' h2 ht
    | tick =>
      obtain ⟨bu, hb⟩ : ∃ bu, e.prop.buffer = bu := ⟨_, rfl⟩
      cases bu with
      | nil =>
        rw [tick_dead_empty d hb] at h1
        obtain rfl := Option.some.inj h1
        exact ih d ⟨m, hm⟩ hq' h2 ht
      | cons f rest =>
        obtain ⟨e1', h1', d', -, hm', ht', -, ho⟩ := tick_dead d hb hm ht
        rw [h1'] at h1
        obtain rfl := Option.some.inj h1
        obtain ⟨tp', a, b, c⟩ := ih d' ⟨f, hm'⟩ hq' h2 ht'
        exact ⟨tp', a, b, by rw [c, ho]; ring⟩

/-- an estimator in use that is enabled and has no correction data queued -/
theorem dead_of_use {et h c ic cs e0 evs e} (hc : Estimator.ctor et h c ic cs = some e0) (u : Usable ic cs (imuArrivals evs))
    (hr : e0.run evs = some e) (he : e.enabled = true) (hi : ∀ c ∈ e.corrs, c.queued = 0)
    (hb : ic.enable_imu_bias_update.getD false = false) :
    ∃ K tp m, Dead K ((ic.gyroscope_std.getD 0.1) ^ 2) e ∧ e.state.tProp = some tp ∧ e.prop.prev = some m ∧ tp ≤ m.time := by
  obtain ⟨e', h1, i⟩ := run_estInv evs (fut := []) (e := e0) (by rw [List.append_nil]; exact (ctor_inv u hc).1)
  rw [hr] at h1
  obtain rfl := Option.some.inj h1
  obtain ⟨K, gd⟩ := i.good
  obtain ⟨hp, tp, m, ht, hm, hle, -⟩ := i.run he
  obtain ⟨g1, -, -, -, g5⟩ := C96_configured hc hr
  exact ⟨K, tp, m, ⟨he, hp, hi, gd.shape, gd.world, gd.q, g5.trans hb, g1⟩, ht, hm, hle⟩

/-! ### C108: dead reckoning -/

/-- **C108**: as long as no correction arrives, whatever the schedule and whatever the motion, the total orientation
variance of the estimate grows by exactly `3 σ²` per second of propagated time, `σ` the configured gyroscope noise. -/
theorem C108_grows {et h c ic cs e0 evs e} (hc : Estimator.ctor et h c ic cs = some e0) (u : Usable ic cs (imuArrivals evs))
    (hr : e0.run evs = some e) (he : e.enabled = true) (hi : ∀ c ∈ e.corrs, c.queued = 0)
    (hb : ic.enable_imu_bias_update.getD false = false)
    (more : List EstEv) (hd : ∀ ev ∈ more, DeadReckoning ev) {e'} (h' : e.run more = some e') :
    ∃ tp tp', e.state.tProp = some tp ∧ e'.state.tProp = some tp' ∧
      oriVar e'.state = oriVar e.state + 3 * (ic.gyroscope_std.getD 0.1) ^ 2 * (tp' - tp) := by
  obtain ⟨K, tp, m, d, ht, hm, -⟩ := dead_of_use hc u hr he hi hb
  obtain ⟨tp', a, -, b⟩ := run_dead more d ⟨m, hm⟩ hd h' ht
  exact ⟨tp, tp', ht, a, b⟩

/-! ### C109: IMU measurements out of order -/

/-- **C109**, false: take any enabled estimator (without bias estimation, with gyroscope noise) whose queues are
empty, and let one IMU measurement arrive that is stamped earlier than the estimate by more than
`oriVar / (3 σ²)`.  It is accepted, and two turns later the estimate that is published has a covariance that is not
positive semidefinite: a negative orientation variance. -/
theorem C109_false {et h c ic cs e0 evs e} (hc : Estimator.ctor et h c ic cs = some e0) (u : Usable ic cs (imuArrivals evs))
    (hr : e0.run evs = some e) (he : e.enabled = true) (hi : ∀ c ∈ e.corrs, c.queued = 0) (hq : e.prop.buffer = [])
    (hb : ic.enable_imu_bias_update.getD false = false) (hg : ic.gyroscope_std.getD 0.1 ≠ 0) {tp} (ht : e.state.tProp = some tp)
    {late next : ImuMeas} (hl : late.time < tp - oriVar e.state / (3 * (ic.gyroscope_std.getD 0.1) ^ 2)) :
    ∃ e' s1 s2, e.run [.imu late, .tick, .imu next, .tick] = some e' ∧ e'.outQ = e.outQ ++ [s1, s2] ∧ ¬ ValidEstimate s2 := by
  obtain ⟨K, tp', m, d, ht', hm, -⟩ := dead_of_use hc u hr he hi hb
  rw [ht] at ht'
  obtain rfl := Option.some.inj ht'
  set g := (ic.gyroscope_std.getD 0.1) ^ 2 with hgd
  have hg0 : 0 < g := by positivity
  obtain ⟨e1, t1, d1, b1, m1, p1, o1, v1⟩ := tick_dead (e := { e with prop := { e.prop with buffer := e.prop.buffer ++ [late] } })
    (f := late) (rest := []) ⟨d.en, d.pend, d.idle, d.shape, d.world, d.q, d.bias, d.cov⟩ (by simp [hq]) hm ht
  obtain ⟨e2, t2, d2, b2, m2, p2, o2, v2⟩ := tick_dead (e := { e1 with prop := { e1.prop with buffer := e1.prop.buffer ++ [next] } })
    (f := next) (rest := []) ⟨d1.en, d1.pend, d1.idle, d1.shape, d1.world, d1.q, d1.bias, d1.cov⟩ (by simp [b1]) m1 p1
  refine ⟨e2, e1.state, e2.state, ?_, ?_, ?_⟩
  · simp only [Estimator.run]
    show (Estimator.step _ .tick).bind _ = _
    rw [t1]
    show (Estimator.step _ .tick).bind _ = _
    rw [t2]; rfl
  · rw [o2]
    show e1.outQ ++ _ = _
    rw [o1]; simp
  · rintro ⟨K', hs, hP⟩
    have hv : oriVar e2.state = oriVar e.state + 3 * g * (late.time - tp) := by
      rw [v2]
      show oriVar e1.state + _ = _
      rw [v1]
      show oriVar e.state + _ + _ = _
      ring
    have hneg : oriVar e2.state < 0 := by
      rw [hv]
      have h3 : 0 < 3 * g := by positivity
      have : oriVar e.state / (3 * g) < tp - late.time := by linarith
      rw [div_lt_iff₀ h3] at this
      nlinarith
    have hk := hs.k; have hpr := hs.pr
    have nn : ∀ i, i < 3 * K' + 9 → 0 ≤ e2.state.P.e i i := fun i hi => by
      have := hP.2 (fun k => if k = i then 1 else 0)
      unfold quad at this
      rw [sum_eq_single i, sum_eq_single i] at this
      · simpa using this
      · intro j _ hj; simp [hj]
      · intro hn; exact absurd (mem_range.mpr (by have := hs.pc; omega)) hn
      · intro j _ hj; simp [hj]
      · intro hn; exact absurd (mem_range.mpr (by omega)) hn
    have h0 := nn 0 (by omega); have h1 := nn 1 (by omega); have h2 := nn 2 (by omega)
    unfold oriVar at hneg
    linarith

/-- **C109**, what holds: a history in which the IMU stamps do not decrease in the order of arrival never loses validity. -/
theorem C109_in_order_partial {et h c ic cs e0} (hc : Estimator.ctor et h c ic cs = some e0) (evs : List EstEv)
    (u : Usable ic cs (imuArrivals evs)) : ∃ e, e0.run evs = some e ∧ ValidEstimate e.state ∧ ∀ s ∈ e.outQ, ValidEstimate s := by
  obtain ⟨e, h1, h2, h3, -⟩ := C58_safe hc evs u
  exact ⟨e, h1, h2, h3⟩

/-- the hypotheses are met: an estimator with a velocity and a legged correction, after its initialisation -/
example (et : ErrorType) (m : ImuMeas) (v : VelMeas) (l : LegMeas) :
    ∃ (ic : ImuPropConfig) (cs : List CorrConfig) (e0 e : Estimator) (evs : List EstEv) (tp : ℝ),
      Estimator.ctor et ⟨fun _ => 0, 0⟩ {} ic cs = some e0 ∧ Usable ic cs (imuArrivals evs) ∧ e0.run evs = some e ∧ e.enabled = true ∧
      (∀ c ∈ e.corrs, c.queued = 0) ∧ e.prop.buffer = [] ∧ ic.enable_imu_bias_update.getD false = false ∧
      ic.gyroscope_std.getD 0.1 ≠ 0 ∧ e.state.tProp = some tp := by
  obtain ⟨e0, h0⟩ : ∃ e0, Estimator.ctor et ⟨fun _ => 0, 0⟩ {} { static_bias_initialization := some false } [.vel {}, .leg {}] = some e0 := ⟨_, rfl⟩
  have u : Usable { static_bias_initialization := some false } [.vel {}, .leg {}] (imuArrivals [.tick, .imu m, .vel 0 v, .leg 1 l]) :=
    exUsable _ (by simp [imuArrivals])
  obtain ⟨e, he⟩ : ∃ e, e0.run [.tick, .imu m, .vel 0 v, .leg 1 l] = some e := (C58_safe h0 _ u).imp fun _ h => h.1
  have hu : InUse e := exInUse h0 u he
  have hf : e.enabled = false ∧ e.pending = none ∧ e.prop.biasInitialized = true ∧ e.prop.buffer = [m] ∧ ∀ c ∈ e.corrs, 0 < c.queued := by
    have he := he
    rw [← Option.some.inj h0] at he
    simp only [Estimator.run, Estimator.step, Estimator.tick, Estimator.initBias, ImuProp.initImuBias, Option.getD_some, if_true,
      Option.map_some, Option.bind_some, if_false, Bool.false_eq_true] at he
    rw [← Option.some.inj he]
    refine ⟨rfl, rfl, rfl, rfl, ?_⟩
    intro c hc
    simp [List.modify_cons, Corr.pushVel, Corr.pushLeg, LegCorr.ctor] at hc
    rcases hc with rfl | rfl <;> simp [Corr.queued]
  obtain ⟨h1, h2, h3, hb, h4⟩ := hf
  obtain ⟨s', q, -⟩ := C45_all_data hu h1 h2 hb h4
  have ht : e.step .tick = some { e with
        prop := { e.prop with buffer := [], prev := some m }
        corrs := e.corrs.map Corr.drained
        state := s'
        outQ := e.outQ ++ [s']
        enabled := true
        pending := none } := by
    show e.tick = _
    unfold Estimator.tick
    rw [h2, h1, h3, ← q]; rfl
  have hr := est_run_append [.tick, .imu m, .vel 0 v, .leg 1 l] [.tick] e0
  rw [he, Option.bind_some, show e.run [.tick] = (e.step .tick).bind fun e' => some e' from rfl, ht, Option.bind_some] at hr
  have u' : Usable { static_bias_initialization := some false } [.vel {}, .leg {}] (imuArrivals ([.tick, .imu m, .vel 0 v, .leg 1 l] ++ [.tick])) := u
  have hi : ∀ c ∈ e.corrs.map Corr.drained, c.queued = 0 := by
    intro c hc
    obtain ⟨d, -, rfl⟩ := List.mem_map.mp hc
    cases d <;> rfl
  obtain ⟨K, tp, m', -, ht', -⟩ := dead_of_use h0 u' hr rfl hi rfl
  exact ⟨_, _, e0, _, _, tp, h0, u', hr, rfl, hi, rfl, rfl, by norm_num, ht'⟩

end Drift
