import Verif.Lemmas.Drift1
import Verif.Props.Perfect
import Verif.Props.Late

/-!
# C152: dead reckoning drifts no faster than the errors of the IMU
-/
set_option linter.unusedSimpArgs false
namespace Drift
open Mat Matrix RobotState

/-- below the tolerance the code takes the rate to be zero -/
theorem meanK_small {K : ℕ} {w : V3} (a : V3) {dt : ℝ} (X : Mat) (h : norm3 (dt • w) < 1e-10) : meanK K w a dt X = meanK K 0 a dt X := by
  have h0 : norm3 (dt • (0 : V3)) < TOLERANCE := by rw [smul_zero, norm3_zero]; exact TOLERANCE_pos
  have h : norm3 (dt • w) < TOLERANCE := h
  unfold meanK Gam0 Gam1 Gam2
  simp only [if_pos h, if_pos h0]

theorem within_of {T : Truth} {δR δv δq t : ℝ} {K : ℕ} {s : RobotState} (hs : Shape K s) : T.Within δR δv δq t s ↔
    (∀ x, norm3 ((s.X.blk3 0 0).mulVec x - (T.R t).mulVec x) ≤ δR * norm3 x) ∧ norm3 (s.X.blkV 0 3 - T.v t) ≤ δv ∧ norm3 (s.X.blkV 0 4 - T.q t) ≤ δq := by
  have hr := hs.x.rows; have hc := hs.x.cols; have hK := hs.k
  have e1 : s.get_rotation = some (s.X.blk3 0 0) := by unfold get_rotation; rw [blk3?_eq (by omega) (by omega)]
  have e2 : s.get_velocity = some (s.X.blkV 0 3) := by unfold get_velocity; rw [blkV?_eq (by omega) (by omega)]
  have e3 : s.get_position = some (s.X.blkV 0 4) := by unfold get_position; rw [blkV?_eq (by omega) (by omega)]
  constructor
  · rintro ⟨R, v, q, h1, h2, h3, h⟩
    rw [e1] at h1; rw [e2] at h2; rw [e3] at h3
    rw [Option.some.inj h1, Option.some.inj h2, Option.some.inj h3]
    exact h
  · intro h
    exact ⟨_, _, _, e1, e2, e3, h⟩

/-- one propagation -/
theorem drift_prop {T : Truth} {w a : ℝ → V3} (hT : T.Moves w a) {A εg εa : ℝ} (hA : ∀ t, norm3 (a t) ≤ A) {δR δv δq : ℝ}
    {K p s m f rest tp} (h : PropReady K p s m f rest tp) {bg ba : V3} (hg : s.get_gyroscope_bias = some bg) (hb : s.get_accelerometer_bias = some ba)
    (hI : ReadsOne w a εg εa p.R_imu2body p.t_imu2body bg ba tp m) (hW : T.Within δR δv δq tp s) {b p' s'} (e : p.propagate s = some (b, p', s')) :
    T.Within (δR + 1e-10 + εg * (m.time - tp)) (δv + εa * (m.time - tp) + A * ((δR + 1e-10) * (m.time - tp) + εg * (m.time - tp) ^ 2 / 2))
      (δq + δv * (m.time - tp) + εa * (m.time - tp) ^ 2 / 2 + A * ((δR + 1e-10) * (m.time - tp) ^ 2 / 2 + εg * (m.time - tp) ^ 3 / 6)) m.time s' := by
  have hsh' := C34_on_group h e
  obtain ⟨bg', ba', w', a', hg', hb', ⟨hw', ha'⟩, e'⟩ := h.run
  rw [hg] at hg'; rw [hb] at hb'
  obtain rfl := Option.some.inj hg'
  obtain rfl := Option.some.inj hb'
  rw [e] at e'
  obtain ⟨-, -, rfl⟩ := Option.some.inj e'
  obtain ⟨hle, w1, a1, hw1, ha1, hr⟩ := hI
  obtain rfl : w1 = w' := by rw [hw1, hw']
  obtain rfl : a1 = a' := by rw [ha1, ha']
  rw [within_of h.shape] at hW
  rw [within_of hsh']
  obtain ⟨q1, q2, q3⟩ := hW
  have hA0 : 0 ≤ A := (norm3_nonneg _).trans (hA 0)
  have hgr : (![0, 0, -9.8] : V3) = gravity := by unfold gravity; norm_num
  set d := m.time - tp with hd
  have hd0 : 0 ≤ d := by rw [hd]; linarith
  -- the rate that the code integrates
  obtain ⟨w2, c, hc0, hc1, hex, hmean, hr2⟩ : ∃ (w2 : V3) (c : ℝ), 0 ≤ c ∧ c * d ≤ 1e-10 ∧ ExactAt (d • w2) ∧ meanK K w1 a1 d s.X = meanK K w2 a1 d s.X ∧
      ∀ t, tp ≤ t → t < m.time → norm3 (w2 - w t) ≤ εg + c ∧ norm3 (a1 - a t) ≤ εa := by
    by_cases hx : norm3 (d • w1) < 1e-10
    · refine ⟨0, norm3 w1, norm3_nonneg _, ?_, .inr (smul_zero _), meanK_small _ _ hx, fun t h1 h2 => ⟨?_, (hr t h1 h2).2⟩⟩
      · rw [norm3_smul, abs_of_nonneg hd0] at hx
        linarith
      · have := norm3_add_le (w1 - w t) (-w1)
        rw [show norm3 (-w1) = norm3 w1 from norm3_eq_of_nsq (nsq_neg _), show w1 - w t + -w1 = 0 - w t by abel] at this
        linarith [(hr t h1 h2).1]
    · exact ⟨w1, 0, le_rfl, by norm_num, .inl hx, rfl, fun t h1 h2 => by rw [add_zero]; exact hr t h1 h2⟩
  obtain ⟨R, v, q, hS, s1, s2, s3⟩ := Strapdown.exists w2 a1 ![0, 0, -9.8] (s.X.blk3 0 0) (s.X.blkV 0 3) (s.X.blkV 0 4)
  have hK := h.shape.k
  rw [← s1] at q1; rw [← s2] at q2; rw [← s3] at q3
  obtain ⟨r1, r2, r3⟩ := drift_interval hT hS (by rw [s1]; exact h.shape.x.rot) hle hA hr2 q1 q2 q3
  rw [← hd] at r1 r2 r3
  dsimp only
  rw [hmean, meanK_flow hex (by rw [← hgr]; exact hS) s1 s2 s3, mkSE_blk3, mkSE_blkV3 _ _ _ (by omega), mkSE_blkV4 _ _ _ (by omega)]
  simp only [if_true, one_ne_zero, if_false]
  refine ⟨fun x => (r1 x).trans (mul_le_mul_of_nonneg_right (by linarith) (norm3_nonneg _)), r2.trans ?_, r3.trans ?_⟩
  · have : (δR * d + (εg + c) * d ^ 2 / 2) ≤ (δR + 1e-10) * d + εg * d ^ 2 / 2 := by nlinarith
    have := mul_le_mul_of_nonneg_left this hA0
    linarith
  · have : (δR * d ^ 2 / 2 + (εg + c) * d ^ 3 / 6) ≤ (δR + 1e-10) * d ^ 2 / 2 + εg * d ^ 3 / 6 := by
      have : c * d * d ^ 2 ≤ 1e-10 * d ^ 2 := mul_le_mul_of_nonneg_right hc1 (by positivity)
      nlinarith [sq_nonneg d]
    have := mul_le_mul_of_nonneg_left this hA0
    linarith

/-- the bounds `S` seconds after the start, when `n` states have been published since -/
def DriftBound (T : Truth) (A εg εa δR δv δq : ℝ) (n : ℕ) (S t : ℝ) (s : RobotState) : Prop :=
  T.Within (δR + n * 1e-10 + εg * S) (δv + εa * S + A * ((δR + n * 1e-10) * S + εg * S ^ 2 / 2))
    (δq + δv * S + εa * S ^ 2 / 2 + A * ((δR + n * 1e-10) * S ^ 2 / 2 + εg * S ^ 3 / 6)) t s

theorem DriftBound.next {T : Truth} {w a : ℝ → V3} (hT : T.Moves w a) {A εg εa : ℝ} (hA : ∀ t, norm3 (a t) ≤ A) {δR δv δq : ℝ} {n : ℕ} {t0 : ℝ}
    {K p s m f rest tp} (h : PropReady K p s m f rest tp) {bg ba : V3} (hg : s.get_gyroscope_bias = some bg) (hb : s.get_accelerometer_bias = some ba)
    (hI : ReadsOne w a εg εa p.R_imu2body p.t_imu2body bg ba tp m) (h0 : t0 ≤ tp) (hW : DriftBound T A εg εa δR δv δq n (tp - t0) tp s) {b p' s'}
    (e : p.propagate s = some (b, p', s')) : DriftBound T A εg εa δR δv δq (n + 1) (m.time - t0) m.time s' := by
  obtain ⟨R, v, q, g1, g2, g3, k1, k2, k3⟩ := drift_prop hT hA h hg hb hI hW e
  have hA0 : 0 ≤ A := (norm3_nonneg _).trans (hA 0)
  have hle := hI.1
  refine ⟨R, v, q, g1, g2, g3, fun x => (k1 x).trans (le_of_eq ?_), k2.trans ?_, k3.trans ?_⟩
  · push_cast; ring
  · push_cast
    have : 0 ≤ A * (1e-10 * (tp - t0)) := mul_nonneg hA0 (mul_nonneg (by norm_num) (by linarith))
    nlinarith
  · push_cast
    have h1 : 0 ≤ A * (1e-10 * (tp - t0) ^ 2) := mul_nonneg hA0 (mul_nonneg (by norm_num) (sq_nonneg _))
    have h2 : 0 ≤ A * (1e-10 * ((tp - t0) * (m.time - tp))) := mul_nonneg hA0 (mul_nonneg (by norm_num) (mul_nonneg (by linarith) (by linarith)))
    have e1 : m.time - t0 = (tp - t0) + (m.time - tp) := by ring
    rw [e1]
    generalize tp - t0 = u at *
    generalize m.time - tp = d at *
    linarith

/-- dead reckoning with bounded errors -/
structure DriftInv (T : Truth) (w a : ℝ → V3) (A εg εa δR δv δq : ℝ) (n : ℕ) (t0 : ℝ) (bg ba : V3) (fut : List ImuMeas) (e : Estimator) : Prop where
  inv : EstInv fut e
  en : e.enabled = true
  idle : ∀ c ∈ e.corrs, c.queued = 0
  bgs : e.state.get_gyroscope_bias = some bg
  bas : e.state.get_accelerometer_bias = some ba
  at_ : ∃ tp m, t0 ≤ tp ∧ e.state.tProp = some tp ∧ e.prop.prev = some m ∧
    Reads w a εg εa e.prop.R_imu2body e.prop.t_imu2body bg ba tp (m :: (e.prop.buffer ++ fut)) ∧ DriftBound T A εg εa δR δv δq n (tp - t0) tp e.state

/-- one event: nothing is published, or the next state within its bounds -/
theorem DriftInv.step {T : Truth} {w a : ℝ → V3} (hT : T.Moves w a) {A εg εa : ℝ} (hA : ∀ t, norm3 (a t) ≤ A) {δR δv δq : ℝ} {n : ℕ} {t0 : ℝ} {bg ba : V3}
    {fut : List ImuMeas} {e e' : Estimator} {ev : EstEv} (i : DriftInv T w a A εg εa δR δv δq n t0 bg ba (imuArrivals [ev] ++ fut) e)
    (hd : DeadReckoning ev) (he : e.step ev = some e') :
    (publishedBy e ev = [] ∧ DriftInv T w a A εg εa δR δv δq n t0 bg ba fut e') ∨
    (∃ s t, publishedBy e ev = [s] ∧ DriftInv T w a A εg εa δR δv δq (n + 1) t0 bg ba fut e' ∧ s.t = some t ∧ s.tProp = some t ∧ t0 ≤ t ∧
      DriftBound T A εg εa δR δv δq (n + 1) (t - t0) t s) := by
  obtain ⟨e2, h2, inv⟩ := step_inv ev i.inv
  rw [he] at h2
  obtain rfl := Option.some.inj h2
  obtain ⟨tp, m, h0, ht, hm, hI, hW⟩ := i.at_
  cases ev with
  | vel _ _ => exact hd.elim
  | leg _ _ => exact hd.elim
  | clear => exact hd.elim
  | imu x =>
    obtain rfl := Option.some.inj he
    refine .inl ⟨rfl, inv, i.en, i.idle, i.bgs, i.bas, tp, m, h0, ht, hm, ?_, hW⟩
    have := hI
    simp only [imuArrivals] at this
    simpa using this
  | consume =>
    obtain rfl := Option.some.inj he
    exact .inl ⟨rfl, inv, i.en, i.idle, i.bgs, i.bas, tp, m, h0, ht, hm, hI, hW⟩
  | log =>
    obtain ⟨l, -, rfl⟩ := Option.map_eq_some_iff.mp he
    exact .inl ⟨rfl, inv, i.en, i.idle, i.bgs, i.bas, tp, m, h0, ht, hm, hI, hW⟩
  | tick =>
    have hp := (i.inv.run i.en).1
    obtain ⟨bu, hb⟩ : ∃ bu, e.prop.buffer = bu := ⟨_, rfl⟩
    cases bu with
    | nil =>
      have e1 : e.step .tick = some e := by
        show e.tick = some e
        unfold Estimator.tick Estimator.runOnce
        rw [hp]
        simp only [i.en, if_true, Option.bind_eq_bind, C36_empty e.prop e.state hb, Option.bind_some, correctAll_idle i.idle]
        have h1 := i.en
        cases e
        simp only at h1 hp
        subst h1 hp
        rfl
      have hpub : publishedBy e .tick = [] := by unfold publishedBy; rw [e1]; simp
      rw [e1] at he
      have := Option.some.inj he
      subst this
      exact .inl ⟨hpub, inv, i.en, i.idle, i.bgs, i.bas, tp, m, h0, ht, hm, hI, hW⟩
    | cons f rest =>
      obtain ⟨K, g⟩ := i.inv.good
      have hsq := g.q.psd.sq
      have hr : PropReady K e.prop e.state m f rest tp := ⟨g.shape, g.world, g.q.r, by rw [← hsq]; exact g.q.r, hb, hm, ht⟩
      obtain ⟨X, P, e3⟩ := C36_step hr
      have hn := DriftBound.next hT hA hr i.bgs i.bas hI.1 h0 hW e3
      set s' : RobotState := { e.state with t := some m.time, tProp := some m.time, X := X, P := P } with hs'
      have e1 : e.step .tick = some { e with
          prop := { e.prop with prev := some f, buffer := rest }
          state := s'
          outQ := e.outQ ++ [s']
          log := e.log.push s' } := by
        show e.tick = some _
        unfold Estimator.tick Estimator.runOnce
        rw [hp]
        simp only [i.en, if_true, Option.bind_eq_bind, e3, Option.bind_some, correctAll_idle i.idle, Bool.or_false]
      have hpub : publishedBy e .tick = [s'] := by unfold publishedBy; rw [e1]; simp
      rw [e1] at he
      have he := Option.some.inj he
      refine .inr ⟨s', m.time, hpub, ?_, rfl, rfl, h0.trans hI.1.1, hn⟩
      rw [← he] at inv ⊢
      refine ⟨inv, i.en, i.idle, i.bgs, i.bas, m.time, f, h0.trans hI.1.1, rfl, rfl, ?_, hn⟩
      have := hI.2
      rw [hb] at this
      exact this

theorem drift_run {T : Truth} {w a : ℝ → V3} (hT : T.Moves w a) {A εg εa : ℝ} (hA : ∀ t, norm3 (a t) ≤ A) {δR δv δq t0 : ℝ} {bg ba : V3} (evs : List EstEv) :
    ∀ {n : ℕ} {e : Estimator}, DriftInv T w a A εg εa δR δv δq n t0 bg ba (imuArrivals evs) e → (∀ ev ∈ evs, DeadReckoning ev) →
      ∀ (k : ℕ) s, (published e evs)[k]? = some s → ∃ t, s.t = some t ∧ s.tProp = some t ∧ t0 ≤ t ∧ DriftBound T A εg εa δR δv δq (n + (k + 1)) (t - t0) t s := by
  induction evs with
  | nil => intro n e _ _ k s hs; simp [published] at hs
  | cons ev evs ih =>
    intro n e i hd k s hs
    have i' : DriftInv T w a A εg εa δR δv δq n t0 bg ba (imuArrivals [ev] ++ imuArrivals evs) e := by
      rw [← imuArrivals_cons]; exact i
    have hd' : ∀ ev ∈ evs, DeadReckoning ev := fun v hv => hd v (by simp [hv])
    obtain ⟨e1, h1, -⟩ := step_inv ev i'.inv
    rw [published_cons h1] at hs
    rcases DriftInv.step hT hA i' (hd ev (by simp)) h1 with ⟨hp, i1⟩ | ⟨s1, t, hp, i1, ht, ht', hle, hb⟩
    · rw [hp, List.nil_append] at hs
      exact ih i1 hd' k s hs
    · rw [hp] at hs
      cases k with
      | zero =>
        obtain rfl : s1 = s := by simpa using hs
        exact ⟨t, ht, ht', hle, hb⟩
      | succ k =>
        obtain ⟨t', q1, q1', q2, q3⟩ := ih i1 hd' k s (by simpa using hs)
        exact ⟨t', q1, q1', q2, by rw [show n + (k + 1 + 1) = n + 1 + (k + 1) by ring]; exact q3⟩

/-- **C152**: dead reckoning drifts no faster than the errors of the IMU.  Let the body move in any way (its specific force bounded by `A`), and take
an estimator in use that runs and has no correction data waiting, and whose estimate is, at its time `tp`, off by at most `δR` in orientation, `δv` in
velocity and `δq` in position.  From there on let no correction arrive, and let the IMU readings be off by at most `εg` in rate and `εa` in specific
force.  Then the `k`-th state published is stamped with a time `t = tp + S`, `S ≥ 0`, and is off from the truth at `t` by at most
`r + εg S` in orientation, `δv + εa S + A (r S + εg S²/2)` in velocity and `δq + δv S + εa S²/2 + A (r S²/2 + εg S³/6)` in position, where
`r = δR + k·1e-10` (the `1e-10` is the tolerance below which the code takes a turn to be none). -/
theorem C152_drift {et h g ic cs} {e0 e : Estimator} {evs0 evs : List EstEv} (hc : Estimator.ctor et h g ic cs = some e0)
    (u : Usable ic cs (imuArrivals (evs0 ++ evs))) (hr : e0.run evs0 = some e) (hen : e.enabled = true) (hidle : ∀ c ∈ e.corrs, c.queued = 0)
    {T : Truth} {w a : ℝ → V3} (hT : T.Moves w a) {A εg εa δR δv δq : ℝ} (hA : ∀ t, norm3 (a t) ≤ A)
    {tp : ℝ} (htp : e.state.tProp = some tp) (hW : T.Within δR δv δq tp e.state)
    {bg ba : V3} (hbg : e.state.get_gyroscope_bias = some bg) (hba : e.state.get_accelerometer_bias = some ba)
    {m : ImuMeas} (hm : e.prop.prev = some m) (hI : Reads w a εg εa e.prop.R_imu2body e.prop.t_imu2body bg ba tp (m :: (e.prop.buffer ++ imuArrivals evs)))
    (hd : ∀ ev ∈ evs, DeadReckoning ev) (k : ℕ) (s : RobotState) (hs : (published e evs)[k]? = some s) :
    ∃ S : ℝ, 0 ≤ S ∧ s.t = some (tp + S) ∧ s.tProp = some (tp + S) ∧
      T.Within (δR + (k + 1) * 1e-10 + εg * S)
        (δv + εa * S + A * ((δR + (k + 1) * 1e-10) * S + εg * S ^ 2 / 2))
        (δq + δv * S + εa * S ^ 2 / 2 + A * ((δR + (k + 1) * 1e-10) * S ^ 2 / 2 + εg * S ^ 3 / 6)) (tp + S) s := by
  obtain ⟨e', h1, inv⟩ := run_estInv evs0 (fut := imuArrivals evs) (e := e0) (by rw [← imuArrivals_append]; exact (ctor_inv u hc).1)
  rw [hr] at h1
  obtain rfl := Option.some.inj h1
  obtain ⟨t, q1, q1', q2, q3⟩ := drift_run hT hA evs (n := 0) ⟨inv, hen, hidle, hbg, hba, tp, m, le_rfl, htp, hm, hI, by unfold DriftBound; simpa using hW⟩ hd k s hs
  refine ⟨t - tp, by linarith, by rw [q1]; congr 1; ring, by rw [q1']; congr 1; ring, ?_⟩
  rw [show tp + (t - tp) = t by ring]
  unfold DriftBound at q3
  simpa using q3

/-! ### a concrete case: the robot drives forward and accelerates by `ε`, which its IMU does not notice -/

theorem fwd_moves (v ε : ℝ) : (fwdTruth v ε).Moves (fun _ => 0) (fun _ => ![ε, 0, 9.8]) := by
  have hv : ∀ t, HasDerivAt (fun s : ℝ => v + ε * s) ε t := fun t => by simpa using ((hasDerivAt_id t).const_mul ε).const_add v
  have hq : ∀ t, HasDerivAt (fun s : ℝ => v * s + ε * s ^ 2 / 2) (v + ε * t) t := fun t => by
    have h1 := hasDerivAt_id t
    refine HasDerivAt.congr_deriv ((h1.const_mul v).add (((h1.pow 2).const_mul ε).div_const 2)) ?_
    simp only [id_eq, Nat.cast_ofNat, Nat.reduceSub]
    ring
  refine ⟨fwd_rot v ε, fun i j => continuous_const, fun i => ?_, fun i => ?_, fun t i j => ?_, fun t i => ?_, fun t i => ?_⟩
  · fin_cases i
    · exact continuous_iff_continuousAt.mpr fun t => (hv t).continuousAt
    · exact continuous_const
    · exact continuous_const
  · fin_cases i
    · exact continuous_iff_continuousAt.mpr fun t => (hq t).continuousAt
    · exact continuous_const
    · exact continuous_const
  · have : ((fwdTruth v ε).R t * skew 0) i j = 0 := by rw [skew_zero]; simp
    rw [this]
    exact hasDerivWithinAt_const _ _ _
  · have e : (((fwdTruth v ε).R t).mulVec ![ε, 0, 9.8] + ![0, 0, -9.8] : V3) i = (![ε, 0, 0] : V3) i := by fin_cases i <;> simp [fwdTruth]
    rw [e]
    fin_cases i
    · exact (hv t).hasDerivWithinAt
    · exact hasDerivWithinAt_const _ _ _
    · exact hasDerivWithinAt_const _ _ _
  · fin_cases i
    · exact (hq t).hasDerivWithinAt
    · exact hasDerivWithinAt_const _ _ _
    · exact hasDerivWithinAt_const _ _ _

theorem fwd_reads {ε : ℝ} (hε : 0 ≤ ε) (l : List ℝ) : ∀ t0, (t0 :: l).Pairwise (· ≤ ·) →
    Reads (fun _ => 0) (fun _ => ![ε, 0, 9.8]) 0 ε 1 0 0 0 t0 (l.map (fwdImu 0)) := by
  induction l with
  | nil => intro _ _; trivial
  | cons t l ih =>
    intro t0 h
    have h' := List.pairwise_cons.mp h
    refine ⟨⟨h'.1 t (by simp), 0, ![0, 0, 9.8], by simp [fwdImu], by simp [fwdImu], fun _ _ _ => ⟨by simp [norm3], ?_⟩⟩, ih t h'.2⟩
    have : (![0, 0, 9.8] - ![ε, 0, 9.8] : V3) = ![-ε, 0, 0] := by funext i; fin_cases i <;> simp
    rw [this]
    simp [norm3, Real.sqrt_sq hε]

theorem fwd_arrivals (a : ℝ) (ts : List ℝ) : imuArrivals (ts.flatMap fun x => [EstEv.imu (fwdImu a x), .tick]) = ts.map (fwdImu a) := by
  induction ts with
  | nil => rfl
  | cons x l ih => simpa [imuArrivals] using ih

/-- every turn publishes a state -/
theorem pub_len {K g} (a : ℝ) (ts : List ℝ) : ∀ {e : Estimator}, Dead K g e → (∃ m, e.prop.prev = some m) → (∃ tp, e.state.tProp = some tp) →
    e.prop.buffer = [] → (published e (ts.flatMap fun x => [EstEv.imu (fwdImu a x), .tick])).length = ts.length := by
  induction ts with
  | nil => intro e _ _ _ _; rfl
  | cons x l ih =>
    intro e d hm ht hb
    obtain ⟨m, hm⟩ := hm
    obtain ⟨tp, ht⟩ := ht
    set e1 : Estimator := { e with prop := { e.prop with buffer := e.prop.buffer ++ [fwdImu a x] } } with he1
    have st1 : e.step (.imu (fwdImu a x)) = some e1 := rfl
    have d1 : Dead K g e1 := ⟨d.en, d.pend, d.idle, d.shape, d.world, d.q, d.bias, d.cov⟩
    obtain ⟨e2, st2, d2, b2, m2, t2, o2, -⟩ := tick_dead (e := e1) d1 (f := fwdImu a x) (rest := []) (by rw [he1]; simp [hb]) hm ht
    have := ih d2 ⟨_, m2⟩ ⟨_, t2⟩ b2
    simp only [List.flatMap_cons, List.cons_append, List.nil_append]
    rw [published_cons st1, published_cons st2]
    have h0 : publishedBy e (.imu (fwdImu a x)) = [] := rfl
    have h1 : publishedBy e1 .tick = [e2.state] := by unfold publishedBy; rw [st2]; simp [o2]
    rw [h0, h1]
    simp [this]

/-- **C152**, the bounds on velocity and position are attained: the robot accelerates by `ε`, the IMU says it does not.  All the hypotheses of
`C152_drift` hold, with `εg = 0`, `εa = ε` and a true estimate to begin with, and for every state published the error is `ε S` in velocity and `ε S²/2` in
position. -/
theorem C152_attained {ε : ℝ} (hε : 0 ≤ ε) (ts : List ℝ) (hts : (0 :: ts).Pairwise (· ≤ ·)) :
    ∃ (T : Truth) (w a : ℝ → V3) (e0 e : Estimator) (evs0 evs : List EstEv) (m : ImuMeas), T.Moves w a ∧ (∀ t, norm3 (a t) ≤ ε + 9.8) ∧
      Estimator.ctor .rightInvariant ⟨fun _ => 0, 0⟩ {} fwdConfig [.vel {}] = some e0 ∧ Usable fwdConfig [.vel {}] (imuArrivals (evs0 ++ evs)) ∧
      e0.run evs0 = some e ∧ e.enabled = true ∧ (∀ c ∈ e.corrs, c.queued = 0) ∧ e.state.tProp = some 0 ∧ T.Within 0 0 0 0 e.state ∧
      e.state.get_gyroscope_bias = some 0 ∧ e.state.get_accelerometer_bias = some 0 ∧ e.prop.prev = some m ∧
      Reads w a 0 ε e.prop.R_imu2body e.prop.t_imu2body 0 0 0 (m :: (e.prop.buffer ++ imuArrivals evs)) ∧ (∀ ev ∈ evs, DeadReckoning ev) ∧
      (published e evs).length = ts.length ∧
      ∀ s ∈ published e evs, ∃ S v q, s.t = some S ∧ s.get_velocity = some v ∧ s.get_position = some q ∧
        norm3 (v - T.v S) = ε * S ∧ norm3 (q - T.q S) = ε * S ^ 2 / 2 := by
  obtain ⟨e0, e, c, h0, h1, hen, hp, hc, c1, c2, c3, c4, c5, c6, k1, k2, k3, k4, k5, k6, k7, k8, k9, k10⟩ := fwd_start 1 0
  set evs := ts.flatMap fun x => [EstEv.imu (fwdImu 0 x), .tick] with hevs
  have himu : imuArrivals evs = ts.map (fwdImu 0) := fwd_arrivals 0 ts
  have hu : Usable fwdConfig [.vel {}] (imuArrivals ([.tick, .imu (fwdImu 0 0), .vel 0 (fwdVel 1 0 0), .tick] ++ evs)) := by
    refine ⟨by norm_num, by simp, .inl rfl, .inl rfl, ?_⟩
    have : imuArrivals ([.tick, .imu (fwdImu 0 0), .vel 0 (fwdVel 1 0 0), .tick] ++ evs) = (0 :: ts).map (fwdImu 0) := by
      simp only [List.cons_append, List.nil_append, imuArrivals, himu, List.map_cons]
    rw [this, List.pairwise_map]
    exact hts
  have hidle : ∀ c ∈ e.corrs, c.queued = 0 := by
    intro d hd
    rw [hc] at hd
    obtain rfl : d = .vel c := by simpa [velOnly] using hd
    show c.buffer.length = 0
    rw [c1]; rfl
  have hdead : ∀ ev ∈ evs, DeadReckoning ev := by
    intro ev hev
    obtain ⟨x, -, hx⟩ := List.mem_flatMap.mp hev
    rcases List.mem_cons.mp hx with rfl | hx
    · trivial
    · obtain rfl : ev = .tick := by simpa using hx
      trivial
  have hW : (fwdTruth 1 ε).Within 0 0 0 0 e.state :=
    ⟨_, _, _, k2.1, k2.2.1, k2.2.2, fun x => by simp [fwdTruth, norm3_zero], by simp [fwdTruth, norm3_zero], by simp [fwdTruth, norm3_zero]⟩
  have hI : Reads (fun _ => 0) (fun _ => ![ε, 0, 9.8]) 0 ε e.prop.R_imu2body e.prop.t_imu2body 0 0 0 (fwdImu 0 0 :: (e.prop.buffer ++ imuArrivals evs)) := by
    rw [k6, k7, k8, himu, List.nil_append]
    exact fwd_reads hε (0 :: ts) 0 (List.pairwise_cons.mpr ⟨by simpa using (List.pairwise_cons.mp hts).1, hts⟩)
  have hA : ∀ _ : ℝ, norm3 ![ε, 0, 9.8] ≤ ε + 9.8 := by
    intro _
    have := norm3_add_le ![ε, 0, 0] ![0, 0, 9.8]
    have e1 : (![ε, 0, 0] + ![0, 0, 9.8] : V3) = ![ε, 0, 9.8] := by funext i; fin_cases i <;> simp
    have e2 : norm3 ![ε, 0, 0] = ε := by simp [norm3, Real.sqrt_sq hε]
    have e3 : norm3 ![0, 0, 9.8] = 9.8 := by simp [norm3]; rw [Real.sqrt_sq (by norm_num)]
    rwa [e1, e2, e3] at this
  refine ⟨fwdTruth 1 ε, _, _, e0, e, [.tick, .imu (fwdImu 0 0), .vel 0 (fwdVel 1 0 0), .tick], evs, fwdImu 0 0, fwd_moves 1 ε, hA, h0, hu, h1, hen,
    hidle, k1, hW, k3, k4, k5, hI, hdead, ?_, ?_⟩
  · obtain ⟨K, tp, m, d, ht, hm, -⟩ := dead_of_use h0 (evs := [.tick, .imu (fwdImu 0 0), .vel 0 (fwdVel 1 0 0), .tick])
      ⟨by norm_num, by simp, .inl rfl, .inl rfl, by simp [imuArrivals]⟩ h1 hen hidle rfl
    exact pub_len 0 ts d ⟨m, hm⟩ ⟨tp, ht⟩ k6
  · intro s hs
    obtain ⟨k, hk⟩ := List.mem_iff_getElem?.mp hs
    obtain ⟨S, hS, s1, s2, -⟩ := C152_drift h0 hu h1 hen hidle (fwd_moves 1 ε) hA k1 hW k3 k4 k5 hI hdead k s hk
    obtain ⟨t, t1, t2, -⟩ := C138_stays_partial h0 hu h1 hen hc (fwd_rot 1 0) (.inr (fwd_steady 1)) k1 k2 k3 k4 k5 (by
        rw [k6, k7, k8, himu, List.nil_append]
        exact fwd_imus 1 0 (0 :: ts) 0 (List.pairwise_cons.mpr ⟨by simpa using (List.pairwise_cons.mp hts).1, hts⟩)) (by
        intro d hd x hx
        obtain rfl : d = c := by simpa using hd
        rw [c1] at hx
        simp at hx) (fun k x hx => absurd (hdead _ hx) (fun h => h)) (fun h => (hdead _ h).elim) s hs
    rw [s2] at t1
    obtain rfl := Option.some.inj t1
    refine ⟨0 + S, _, _, s1, t2.2.1, t2.2.2, ?_, ?_⟩
    · rw [zero_add]
      have : ((fwdTruth 1 0).v S - (fwdTruth 1 ε).v S : V3) = ![-(ε * S), 0, 0] := by funext i; fin_cases i <;> simp [fwdTruth]
      rw [this]
      simp [norm3]
      rw [Real.sqrt_sq (by positivity)]
    · rw [zero_add]
      have : ((fwdTruth 1 0).q S - (fwdTruth 1 ε).q S : V3) = ![-(ε * S ^ 2 / 2), 0, 0] := by funext i; fin_cases i <;> simp [fwdTruth]
      rw [this]
      simp only [norm3]
      simp
      rw [Real.sqrt_sq (by positivity)]

end Drift
