import Verif.Spec.Cover
import Verif.Props.Noise
import Verif.Props.DriftRate

/-!
# C162: dead reckoning keeps the error covered, however large it is
-/
set_option linter.unusedSimpArgs false
set_option linter.unnecessarySeqFocus false
namespace Drift
open Mat Matrix Finset RobotState

/-- the motion part of the transition matrix does not depend on the error of the biases, and no part of the result depends on the biases if they are
not estimated -/
theorem phiK_low {K : ℕ} (hK : 2 ≤ K) (p : ImuProp) (w a : V3) (dt : ℝ) (X : Mat) {i j : ℕ} (hi : 3 * K + 3 ≤ i) (hi' : i < 3 * K + 9) (hj : j < 3 * K + 3) :
    (phiK K p w a dt X).e i j = 0 := by
  have e1 : K + 1 ≤ i / 3 := by omega
  have e2 : j / 3 ≤ K := by omega
  have hL : ∀ (en : Bool) (a : V3) (G0 G1 G2 p25 p35 : M3) (I J : ℕ), K + 1 ≤ I → J ≤ K → phiLF K en a dt G0 G1 G2 p25 p35 I J = 0 := by
    intro en a G0 G1 G2 p25 p35 I J hI hJ
    unfold phiLF phiLB
    cases en
    · rw [if_neg (by simp)]; ifs
    · rw [if_pos rfl]; ifs
  have hR : ∀ (en : Bool) (a : V3) (G0 G1 G2 p25 p35 : M3) (I J : ℕ), K + 1 ≤ I → J ≤ K → phiRF K en a dt G0 G1 G2 p25 p35 X I J = 0 := by
    intro en a G0 G1 G2 p25 p35 I J hI hJ
    unfold phiRF phiRB
    cases en
    · dsimp only; rw [if_neg (by simp)]; ifs
    · dsimp only; rw [if_pos rfl]; ifs
  unfold phiK
  cases p.errorType
  · show (ofBlk _ _ _).e i j = 0
    rw [ofBlk_e _ (by omega) (by omega)]
    exact congrFun (congrFun (hL _ _ _ _ _ _ _ _ _ e1 e2) _) _
  · show (ofBlk _ _ _).e i j = 0
    rw [ofBlk_e _ (by omega) (by omega)]
    exact congrFun (congrFun (hR _ _ _ _ _ _ _ _ _ e1 e2) _) _

theorem phiK_right {K : ℕ} (hK : 2 ≤ K) {p : ImuProp} (hp : p.enableBias = false) (w a : V3) (dt : ℝ) (X : Mat) {i j : ℕ} (hi : i < 3 * K + 9)
    (hj : 3 * K + 3 ≤ j) (hj' : j < 3 * K + 9) : (phiK K p w a dt X).e i j = 0 := by
  have e2 : K + 1 ≤ j / 3 := by omega
  have hL : ∀ (a : V3) (G0 G1 G2 p25 p35 : M3) (I J : ℕ), K + 1 ≤ J → phiLF K false a dt G0 G1 G2 p25 p35 I J = 0 := by
    intro a G0 G1 G2 p25 p35 I J hJ
    unfold phiLF
    rw [if_neg (by simp), if_pos hJ]
  have hR : ∀ (a : V3) (G0 G1 G2 p25 p35 : M3) (I J : ℕ), K + 1 ≤ J → phiRF K false a dt G0 G1 G2 p25 p35 X I J = 0 := by
    intro a G0 G1 G2 p25 p35 I J hJ
    unfold phiRF
    dsimp only
    rw [if_neg (by simp), if_pos hJ]
  unfold phiK
  rw [hp]
  cases p.errorType
  · show (ofBlk _ _ _).e i j = 0
    rw [ofBlk_e _ (by omega) (by omega)]
    exact congrFun (congrFun (hL _ _ _ _ _ _ _ _ e2) _) _
  · show (ofBlk _ _ _).e i j = 0
    rw [ofBlk_e _ (by omega) (by omega)]
    exact congrFun (congrFun (hR _ _ _ _ _ _ _ _ e2) _) _

/-- a linear function of the propagated error is a linear function of the error before -/
theorem sum_pull_lead {n : ℕ} {Φ ξ : Mat} (hr : Φ.rows = n + 6) (hξ : ξ.rows = n) (hc : ξ.cols = 1) (h0 : ∀ i j, n ≤ i → i < n + 6 → j < n → Φ.e i j = 0)
    (x : ℕ → ℝ) : ∑ i ∈ range n, x i * (Φ.blockP 0 0 n n * ξ).e i 0 = ∑ j ∈ range n, pull Φ x j * ξ.e j 0 := by
  have h1 : ∀ i ∈ range n, x i * (Φ.blockP 0 0 n n * ξ).e i 0 = ∑ j ∈ range n, x i * Φ.e i j * ξ.e j 0 := by
    intro i hi
    have hi := mem_range.mp hi
    rw [mul_e, mul_sum]
    show ∑ j ∈ range n, _ = _
    refine sum_congr rfl fun j hj => ?_
    have hj := mem_range.mp hj
    unfold blockP
    rw [ofFn_e_of_lt hi hj, zero_add, zero_add, mul_assoc]
  rw [sum_congr rfl h1, sum_comm]
  refine sum_congr rfl fun j hj => ?_
  have hj := mem_range.mp hj
  unfold pull
  rw [hr, ← sum_mul, sum_range_add]
  rw [show ∑ k ∈ range 6, x (n + k) * Φ.e (n + k) j = 0 from sum_eq_zero fun k hk => by
    rw [h0 _ _ (by omega) (by have := mem_range.mp hk; omega) hj, mul_zero], add_zero]

/-- one propagation -/
theorem cover_prop {T : Truth} {κ : ℝ} {K p s m f rest tp} (h : PropReady K p s m f rest tp) (hQ : QcOK K s.Qc) (hN : ImuNoisePSD p) {bg ba : V3}
    (hg : s.get_gyroscope_bias = some bg) (hb : s.get_accelerometer_bias = some ba) (hI : T.Imu p.R_imu2body p.t_imu2body bg ba tp m)
    (hC : T.Covered p.errorType p.enableBias κ tp s) {b p' s'} (e : p.propagate s = some (b, p', s')) :
    T.Covered p.errorType p.enableBias κ m.time s' := by
  obtain ⟨ξ, E, hr, hc, hE, hx, hat, hcov⟩ := hC
  have hK := h.shape.k
  have hXr := h.shape.x.rows
  have hξr : ξ.rows = 3 + 3 * K := by omega
  have hξr' : ξ.rows = 3 * K + 3 := by omega
  have hsh' := C34_on_group h e
  obtain ⟨hle, w, a, R, v, q, hw, ha, hS, hdt, hT⟩ := hI
  have hwa : RatesOf p m bg ba w a := by
    constructor
    · rw [hw]; abel
    · rw [ha]; abel
  have t0 := hT tp (le_refl _) hle
  have t1 := hT m.time hle (le_refl _)
  rw [sub_self] at t0
  obtain ⟨bg', ba', w', a', Φ, g1, g2, g3, g4, g5⟩ := C96_process_noise h hQ e
  rw [hg] at g1; rw [hb] at g2
  obtain rfl := Option.some.inj g1
  obtain rfl := Option.some.inj g2
  obtain rfl : w' = w := g3.1.trans hwa.1.symm
  obtain rfl : a' = a := g3.2.trans hwa.2.symm
  have hΦ := stateTransitionMatrix_eq (p := p) h.shape h.world w' a' (m.time - tp)
  rw [hΦ] at g4
  obtain rfl := Option.some.inj g4
  -- the moved state is propagated to the moved state
  obtain ⟨E', s₂, q₂, k1, k2, k3⟩ : ∃ E' s₂ q₂, exp_SEK3 ((phiK K p w' a' (m.time - tp) s.X).blockP 0 0 (3 * K + 3) (3 * K + 3) * ξ) = some E' ∧
      p.propagate (movedBy p.errorType E s) = some (true, q₂, s₂) ∧ s₂.X = (movedBy p.errorType E' s').X := by
    cases he : p.errorType with
    | rightInvariant =>
      obtain ⟨E1, Φ, E', q₁, s₁, q₂, s₂, k1, k2, k3, k4, k5, k6⟩ := C94_right h he hg hb hwa hξr hc hx
      rw [hE] at k1; obtain rfl := Option.some.inj k1
      rw [hΦ] at k2; obtain rfl := Option.some.inj k2
      rw [e] at k4
      obtain ⟨-, -, rfl⟩ := Option.some.inj k4
      exact ⟨E', s₂, q₂, k3, k5, k6⟩
    | leftInvariant =>
      obtain ⟨E1, Φ, E', q₁, s₁, q₂, s₂, k1, k2, k3, k4, k5, k6⟩ := C94_left h he hg hb hwa hξr hc hx
      rw [hE] at k1; obtain rfl := Option.some.inj k1
      rw [hΦ] at k2; obtain rfl := Option.some.inj k2
      rw [e] at k4
      obtain ⟨-, -, rfl⟩ := Option.some.inj k4
      exact ⟨E', s₂, q₂, k3, k5, k6⟩
  have hEs : IsSEK K E := by
    rw [exp_SEK3_eq hξr hc] at hE
    rw [← Option.some.inj hE]
    exact sek_isSEK (Gam0_isRot _)
  have h2 : PropReady K p (movedBy p.errorType E s) m f rest tp := by
    refine ⟨⟨?_, hK, h.shape.thr, h.shape.thc, h.shape.pr, h.shape.pc⟩, h.world, h.qr, h.qc, h.buf, h.prev, h.time⟩
    unfold movedBy
    cases p.errorType
    · exact h.shape.x.mul hEs
    · exact hEs.mul h.shape.x
  obtain ⟨p3, s3, e3, r1, r2, r3⟩ := C32_strapdown h2 hg hb hwa hdt hS (by rw [← t0.1]; exact hat.1) (by rw [← t0.2.1]; exact hat.2.1)
    (by rw [← t0.2.2]; exact hat.2.2)
  rw [k2] at e3
  obtain ⟨-, -, rfl⟩ := Option.some.inj e3
  -- shape of the propagated error
  set Φ := phiK K p w' a' (m.time - tp) s.X with hΦd
  have hrow : (Φ.blockP 0 0 (3 * K + 3) (3 * K + 3) * ξ).rows = 3 * K + 3 := by simp
  refine ⟨Φ.blockP 0 0 (3 * K + 3) (3 * K + 3) * ξ, E', ?_, by simpa using hc, k1, ?_, ?_, ?_⟩
  · have := hsh'.x.rows
    rw [hrow]; omega
  · have key : ∃ G : M3, IsRot G ∧ (Φ.blockP 0 0 (3 * K + 3) (3 * K + 3) * ξ).blkV 0 0 = G.mulVec (ξ.blkV 0 0) := by
      rw [hΦd]
      unfold phiK
      cases he : p.errorType with
      | leftInvariant =>
        obtain ⟨-, -, l3⟩ := lead_mul (f := phiLF K p.enableBias a' (m.time - tp) (Gam0 ((m.time - tp) • w')) (Gam1 ((m.time - tp) • w'))
          (Gam2 ((m.time - tp) • w')) (ImuProp.phi25 w' a' (m.time - tp) (Gam0 ((m.time - tp) • w'))ᵀ (Gam2 ((m.time - tp) • w'))ᵀ)
          (ImuProp.phi35 w' a' (m.time - tp) (Gam0 ((m.time - tp) • w'))ᵀ ((gamma_SO3 (-((m.time - tp) • w')) 3).getD 0))) hξr hc
        have := l3 0 (by omega)
        rw [phiL_lead hK (x := fun k => ξ.blkV (3 * k) 0) (by omega), if_neg (by omega), if_neg (by omega)] at this
        exact ⟨_, (Gam0_isRot _).transpose, this⟩
      | rightInvariant =>
        obtain ⟨-, -, l3⟩ := lead_mul (f := phiRF K p.enableBias a' (m.time - tp) (Gam0 ((m.time - tp) • w')) (Gam1 ((m.time - tp) • w'))
          (Gam2 ((m.time - tp) • w')) (ImuProp.phi25 w' a' (m.time - tp) (Gam0 ((m.time - tp) • w'))ᵀ (Gam2 ((m.time - tp) • w'))ᵀ)
          (ImuProp.phi35 w' a' (m.time - tp) (Gam0 ((m.time - tp) • w'))ᵀ ((gamma_SO3 (-((m.time - tp) • w')) 3).getD 0)) s.X) hξr hc
        have := l3 0 (by omega)
        rw [phiR_lead hK (x := fun k => ξ.blkV (3 * k) 0) (by omega), if_neg (by omega), if_neg (by omega)] at this
        exact ⟨1, IsRot.one, by rw [one_mulVec]; exact this⟩
    obtain ⟨G, hG, hk⟩ := key
    rw [hk]
    rcases hx with hx | hx
    · left
      rwa [norm3_eq_of_nsq (nsq_rot hG _)]
    · right
      rw [hx, mulVec_zero]
  · refine ⟨?_, ?_, ?_⟩
    · rw [t1.1, ← r1]; unfold get_rotation; rw [k3]
    · rw [t1.2.1, ← r2]; unfold get_velocity; rw [k3]
    · rw [t1.2.2, ← r3]; unfold get_position; rw [k3]
  · intro x hx0
    rw [hrow] at hx0 ⊢
    have hrows : Φ.rows = 3 * K + 9 := by rw [hΦd]; simp
    rw [sum_pull_lead (by rw [hrows]) hξr' hc (fun i j h1 h2 h3 => phiK_low hK p w' a' _ s.X h1 h2 h3)]
    have hch : ∃ n, Channels K p.errorType s.X (pull Φ x) n := by
      cases p.errorType with
      | leftInvariant => exact ⟨_, rfl⟩
      | rightInvariant => exact ⟨_, _, adjoint_AdM h.shape.x.rows h.shape.x.cols, rfl⟩
    obtain ⟨n, hn⟩ := hch
    rw [g5 x n hx0 hn, ← quad_qcK hK p hQ]
    have hq : 0 ≤ quad (qcK K p s.Qc) n := (qcK_psd hK ⟨hN.1, hN.2.1, hN.2.2.1, hN.2.2.2⟩ hQ).2 n
    have := hcov (pull Φ x) (by
      intro hen i hi
      rw [hξr'] at hi
      unfold pull
      refine sum_eq_zero fun k hk => ?_
      have hk := mem_range.mp hk
      rw [hrows] at hk
      by_cases hi' : i < 3 * K + 9
      · rw [phiK_right hK hen w' a' _ s.X hk hi hi', mul_zero]
      · rw [e_of_ge_cols _ (by rw [hΦd]; simp; omega), mul_zero])
    rw [hξr'] at this
    have h4 : 0 ≤ κ ^ 2 * ((m.time - tp) * quad (qcK K p s.Qc) n) := mul_nonneg (sq_nonneg _) (mul_nonneg (by linarith) hq)
    linarith

/-- dead reckoning with an IMU without error, from an estimate with an error that is covered -/
structure CoverInv (T : Truth) (κ : ℝ) (et : ErrorType) (en : Bool) (bg ba : V3) (fut : List ImuMeas) (e : Estimator) : Prop where
  inv : EstInv fut e
  on : e.enabled = true
  ety : e.prop.errorType = et
  ebi : e.prop.enableBias = en
  idle : ∀ c ∈ e.corrs, c.queued = 0
  bgs : e.state.get_gyroscope_bias = some bg
  bas : e.state.get_accelerometer_bias = some ba
  at_ : ∃ tp m, e.state.tProp = some tp ∧ e.prop.prev = some m ∧
    T.Imus e.prop.R_imu2body e.prop.t_imu2body bg ba tp (m :: (e.prop.buffer ++ fut)) ∧ T.Covered et en κ tp e.state

/-- one event: nothing is published, or a state whose error is covered -/
theorem CoverInv.step {T : Truth} {κ : ℝ} {et : ErrorType} {en : Bool} {bg ba : V3} {fut : List ImuMeas} {e e' : Estimator} {ev : EstEv}
    (i : CoverInv T κ et en bg ba (imuArrivals [ev] ++ fut) e) (hd : DeadReckoning ev) (he : e.step ev = some e') :
    CoverInv T κ et en bg ba fut e' ∧ ∀ s ∈ publishedBy e ev, ∃ t, s.t = some t ∧ s.tProp = some t ∧ T.Covered et en κ t s := by
  obtain ⟨e2, h2, inv⟩ := step_inv ev i.inv
  rw [he] at h2
  obtain rfl := Option.some.inj h2
  obtain ⟨tp, m, ht, hm, hI, hW⟩ := i.at_
  cases ev with
  | vel _ _ => exact hd.elim
  | leg _ _ => exact hd.elim
  | clear => exact hd.elim
  | imu x =>
    obtain rfl := Option.some.inj he
    refine ⟨⟨inv, i.on, i.ety, i.ebi, i.idle, i.bgs, i.bas, tp, m, ht, hm, ?_, hW⟩, by intro s hs; simp [publishedBy] at hs⟩
    have := hI
    simp only [imuArrivals] at this
    simpa using this
  | consume =>
    obtain rfl := Option.some.inj he
    exact ⟨⟨inv, i.on, i.ety, i.ebi, i.idle, i.bgs, i.bas, tp, m, ht, hm, hI, hW⟩, by intro s hs; simp [publishedBy] at hs⟩
  | log =>
    obtain ⟨l, -, rfl⟩ := Option.map_eq_some_iff.mp he
    exact ⟨⟨inv, i.on, i.ety, i.ebi, i.idle, i.bgs, i.bas, tp, m, ht, hm, hI, hW⟩, by intro s hs; simp [publishedBy] at hs⟩
  | tick =>
    have hp := (i.inv.run i.on).1
    obtain ⟨bu, hb⟩ : ∃ bu, e.prop.buffer = bu := ⟨_, rfl⟩
    cases bu with
    | nil =>
      have e1 : e.step .tick = some e := by
        show e.tick = some e
        unfold Estimator.tick Estimator.runOnce
        rw [hp]
        simp only [i.on, if_true, Option.bind_eq_bind, C36_empty e.prop e.state hb, Option.bind_some, correctAll_idle i.idle]
        have h1 := i.on
        cases e
        simp only at h1 hp
        subst h1 hp
        rfl
      have hpub : publishedBy e .tick = [] := by unfold publishedBy; rw [e1]; simp
      rw [e1] at he
      have := Option.some.inj he
      subst this
      exact ⟨⟨inv, i.on, i.ety, i.ebi, i.idle, i.bgs, i.bas, tp, m, ht, hm, hI, hW⟩, by rw [hpub]; simp⟩
    | cons f rest =>
      obtain ⟨K, g⟩ := i.inv.good
      have hsq := g.q.psd.sq
      have hr : PropReady K e.prop e.state m f rest tp := ⟨g.shape, g.world, g.q.r, by rw [← hsq]; exact g.q.r, hb, hm, ht⟩
      obtain ⟨X, P, e3⟩ := C36_step hr
      have hn := cover_prop hr g.q i.inv.noise i.bgs i.bas hI.1 (by rw [i.ety, i.ebi]; exact hW) e3
      rw [i.ety, i.ebi] at hn
      set s' : RobotState := { e.state with t := some m.time, tProp := some m.time, X := X, P := P } with hs'
      have e1 : e.step .tick = some { e with
          prop := { e.prop with prev := some f, buffer := rest }
          state := s'
          outQ := e.outQ ++ [s']
          log := e.log.push s' } := by
        show e.tick = some _
        unfold Estimator.tick Estimator.runOnce
        rw [hp]
        simp only [i.on, if_true, Option.bind_eq_bind, e3, Option.bind_some, correctAll_idle i.idle, Bool.or_false]
      have hpub : publishedBy e .tick = [s'] := by unfold publishedBy; rw [e1]; simp
      rw [e1] at he
      have he := Option.some.inj he
      refine ⟨?_, ?_⟩
      · rw [← he] at inv ⊢
        refine ⟨inv, i.on, i.ety, i.ebi, i.idle, i.bgs, i.bas, m.time, f, rfl, rfl, ?_, hn⟩
        have := hI.2
        rw [hb] at this
        exact this
      · rw [hpub]
        intro s hs
        obtain rfl : s = s' := by simpa using hs
        exact ⟨m.time, rfl, rfl, hn⟩

theorem cover_run {T : Truth} {κ : ℝ} {et : ErrorType} {en : Bool} {bg ba : V3} (evs : List EstEv) :
    ∀ {e : Estimator}, CoverInv T κ et en bg ba (imuArrivals evs) e → (∀ ev ∈ evs, DeadReckoning ev) →
      ∀ s ∈ published e evs, ∃ t, s.t = some t ∧ s.tProp = some t ∧ T.Covered et en κ t s := by
  induction evs with
  | nil => intro e _ _ s hs; simp [published] at hs
  | cons ev evs ih =>
    intro e i hd s hs
    have i' : CoverInv T κ et en bg ba (imuArrivals [ev] ++ imuArrivals evs) e := by
      rw [← imuArrivals_cons]; exact i
    obtain ⟨e1, h1, -⟩ := step_inv ev i'.inv
    obtain ⟨i1, hp⟩ := CoverInv.step i' (hd ev (by simp)) h1
    rw [published_cons h1] at hs
    rcases List.mem_append.mp hs with h | h
    · exact hp s h
    · exact ih i1 (fun v hv => hd v (by simp [hv])) s h

/-- in every history the propagation uses the error that the estimator was made with -/
theorem type_of_use {et h g ic cs} {e0 e : Estimator} {evs : List EstEv} (hc : Estimator.ctor et h g ic cs = some e0) (hr : e0.run evs = some e) :
    e.prop.errorType = et := by
  have n := noise_run evs hr
  unfold Estimator.ctor ImuProp.ctor at hc
  simp only [Option.bind_eq_bind, Option.bind_eq_some_iff] at hc
  obtain ⟨p, ⟨q, -, bg, -, ba, -, t, -, hp⟩, corrs, -, he⟩ := hc
  rw [← Option.some.inj he, ← Option.some.inj hp] at n
  exact n.et

/-- **C162**: while there are no corrections, the reported covariance covers the error of the estimate, however large it is.  Take an estimator in use
that runs and has no correction data waiting; let its error at its propagation time `tp` be covered by its covariance to `κ` standard deviations (any
error: metres, or a heading that is half a turn off), let its biases be true, and from there on let no correction arrive and let the IMU be without
error.  Then every published state, at its stamp, has an error that its covariance covers to `κ` standard deviations, with the same `κ`: there is no
linearisation error that could make the filter overconfident.  (The IMU noise that the filter adds only enlarges the covariance.) -/
theorem C162_covered {et h g ic cs} {e0 e : Estimator} {evs0 evs : List EstEv} (hc : Estimator.ctor et h g ic cs = some e0)
    (u : Usable ic cs (imuArrivals (evs0 ++ evs))) (hr : e0.run evs0 = some e) (hen : e.enabled = true) (hidle : ∀ c ∈ e.corrs, c.queued = 0)
    {T : Truth} {κ tp : ℝ} (htp : e.state.tProp = some tp) (hC : T.Covered et (ic.enable_imu_bias_update.getD false) κ tp e.state)
    {bg ba : V3} (hbg : e.state.get_gyroscope_bias = some bg) (hba : e.state.get_accelerometer_bias = some ba)
    {m : ImuMeas} (hm : e.prop.prev = some m) (hI : T.Imus e.prop.R_imu2body e.prop.t_imu2body bg ba tp (m :: (e.prop.buffer ++ imuArrivals evs)))
    (hd : ∀ ev ∈ evs, DeadReckoning ev) :
    ∀ s ∈ published e evs, ∃ t, s.t = some t ∧ s.tProp = some t ∧ T.Covered et (ic.enable_imu_bias_update.getD false) κ t s := by
  obtain ⟨e', h1, inv⟩ := run_estInv evs0 (fut := imuArrivals evs) (e := e0) (by rw [← imuArrivals_append]; exact (ctor_inv u hc).1)
  rw [hr] at h1
  obtain rfl := Option.some.inj h1
  exact cover_run evs ⟨inv, hen, type_of_use hc hr, (C96_configured hc hr).2.2.2.2, hidle, hbg, hba, tp, m, htp, hm, hI, hC⟩ hd

/-! ### a concrete case: a robot that drives faster than its filter thinks, by any amount -/

/-- a covariance without correlations gives a linear function at least the variance of each of its blocks -/
theorem quad_ge_block {P : Mat} (hP : PSD P) (hd : BlockDiag3 P) {k : ℕ} (hr : 3 * k + 3 ≤ P.rows) (hc : 3 * k + 3 ≤ P.cols) (x : ℕ → ℝ) :
    at3 x k ⬝ᵥ (P.blk3 (3 * k) (3 * k)).mulVec (at3 x k) ≤ quad P x := by
  have h1 : quad P x = quad P (spread k (at3 x k)) + quad P (fun i => if i / 3 = k then 0 else x i) := by
    unfold quad
    rw [← sum_add_distrib]
    refine sum_congr rfl fun i _ => ?_
    rw [← sum_add_distrib]
    refine sum_congr rfl fun j _ => ?_
    have hs : ∀ i, spread k (at3 x k) i = if i / 3 = k then x i else 0 := by
      intro i
      unfold spread at3
      by_cases h : i / 3 = k
      · rw [dif_pos (by omega), if_pos h]
        show x (3 * k + (i - 3 * k)) = x i
        congr 1
        omega
      · rw [dif_neg (by omega), if_neg h]
    rw [hs, hs]
    by_cases hij : i / 3 = j / 3
    · simp only [hij]
      split_ifs <;> ring
    · rw [hd i j hij]; ring
  rw [h1, quad_spread hr hc]
  linarith [hP.2 fun i => if i / 3 = k then 0 else x i]

theorem fwd_covered (v c : ℝ) {s : RobotState} {h : Heap} (hs : InitOK h s) (hat : (fwdTruth v 0).At 0 s)
    (hv : s.get_velocity_covariance = some ((0.01 : ℝ) • (1 : M3))) : (fwdTruth (v + c) 0).Covered .rightInvariant false (10 * |c|) 0 s := by
  have hg := hs.good.shape
  have hXr := hg.x.rows; have hXc := hg.x.cols
  have hPr := hg.pr; have hPc := hg.pc
  obtain ⟨a1, a2, a3⟩ := hat
  set ξ : Mat := ofFn 9 1 fun i _ => if i = 3 then c else 0 with hξ
  have b0 : ξ.blkV 0 0 = 0 := by
    funext i
    rw [blkV_apply, hξ, ofFn_e_of_lt (by omega) (by omega), if_neg (by omega)]; rfl
  have b3 : ∀ k < 2, ξ.blkV (3 + 3 * k) 0 = if k = 0 then ![c, 0, 0] else 0 := by
    intro k hk
    funext i
    rw [blkV_apply, hξ, ofFn_e_of_lt (by omega) (by omega)]
    by_cases h0 : k = 0
    · subst h0
      rw [if_pos rfl]
      fin_cases i <;> simp
    · rw [if_neg h0, if_neg (by omega)]; rfl
  have hE := exp_SEK3_eq (v := ξ) (K := 2) rfl rfl
  rw [b0, show Gam0 (0 : V3) = 1 by unfold Gam0; rw [if_pos (by rw [norm3_zero]; exact TOLERANCE_pos)]] at hE
  refine ⟨ξ, _, by rw [hXr]; rfl, rfl, hE, .inr b0, ?_, ?_⟩
  · have g1 : s.X.blk3 0 0 = (fwdTruth v 0).R 0 := by
      unfold get_rotation at a1; rw [blk3?_eq (by omega) (by omega)] at a1; exact Option.some.inj a1
    have g2 : s.X.blkV 0 3 = (fwdTruth v 0).v 0 := by
      unfold get_velocity at a2; rw [blkV?_eq (by omega) (by omega)] at a2; exact Option.some.inj a2
    have g3 : s.X.blkV 0 4 = (fwdTruth v 0).q 0 := by
      unfold get_position at a3; rw [blkV?_eq (by omega) (by omega)] at a3; exact Option.some.inj a3
    have hG1 : Gam1 (0 : V3) = 1 := by unfold Gam1; rw [if_pos (by rw [norm3_zero]; exact TOLERANCE_pos)]
    have hX : (movedBy .rightInvariant (mkSE 2 1 fun k => (Gam1 0).mulVec (ξ.blkV (3 + 3 * k) 0)) s).X =
        mkSE 2 (1 * s.X.blk3 0 0) fun k => (1 : M3).mulVec (s.X.blkV 0 (3 + k)) + (Gam1 0).mulVec (ξ.blkV (3 + 3 * k) 0) := by
      show mkSE 2 1 _ * s.X = _
      conv_lhs => rw [hg.x.eq_mk]
      rw [mkSE_mul]
    refine ⟨?_, ?_, ?_⟩
    · unfold get_rotation
      rw [hX, blk3?_eq (by simp) (by simp), mkSE_blk3, one_mul, g1]
      rfl
    · unfold get_velocity
      rw [hX, blkV?_eq (by simp) (by simp), mkSE_blkV3 _ _ _ (by omega), one_mulVec, hG1, one_mulVec, b3 0 (by omega), if_pos rfl, g2]
      congr 1
      funext i
      fin_cases i <;> simp [fwdTruth]
    · unfold get_position
      rw [hX, blkV?_eq (by simp) (by simp), mkSE_blkV4 _ _ _ (by omega), one_mulVec, hG1, one_mulVec, b3 1 (by omega), if_neg one_ne_zero, g3]
      congr 1
      funext i
      fin_cases i <;> simp [fwdTruth]
  · intro x _
    have hsum : ∑ i ∈ range ξ.rows, x i * ξ.e i 0 = x 3 * c := by
      show ∑ i ∈ range 9, x i * ξ.e i 0 = _
      rw [sum_eq_single 3]
      · rw [hξ, ofFn_e_of_lt (by omega) (by omega), if_pos rfl]
      · intro i hi h3
        rw [hξ, ofFn_e_of_lt (mem_range.mp hi) (by omega), if_neg h3, mul_zero]
      · simp
    rw [hsum]
    have hq : (0.01 : ℝ) * x 3 ^ 2 ≤ quad s.P x := by
      have h1 := quad_ge_block hs.good.psd hs.bd (k := 1) (by omega) (by omega) x
      have h2 : s.P.blk3 (3 * 1) (3 * 1) = (0.01 : ℝ) • (1 : M3) := by
        unfold get_velocity_covariance at hv
        rw [blk3?_eq (by omega) (by omega)] at hv
        exact Option.some.inj hv
      rw [h2, smul_mulVec, one_mulVec, dotProduct_smul] at h1
      refine le_trans ?_ h1
      simp only [dotProduct, Fin.sum_univ_three, at3, smul_eq_mul]
      show _ ≤ (0.01 : ℝ) * (x 3 * x 3 + x 4 * x 4 + x 5 * x 5)
      nlinarith [sq_nonneg (x 4), sq_nonneg (x 5)]
    have : (10 * |c|) ^ 2 = 100 * c ^ 2 := by rw [mul_pow, sq_abs]; norm_num
    rw [this]
    nlinarith [sq_nonneg c]

/-- The hypotheses of `C162_covered` are met: the robot drives with a speed of `v + c`, for any `c`, while its filter was told `v`; its IMU is without
error.  All the states published (one for each reading) have an error that they cover to `10 |c|` standard deviations (of `0.1`). -/
theorem C162_any_speed (v c : ℝ) (ts : List ℝ) (hts : (0 :: ts).Pairwise (· ≤ ·)) :
    ∃ (e0 e : Estimator) (evs0 evs : List EstEv) (m : ImuMeas), Estimator.ctor .rightInvariant ⟨fun _ => 0, 0⟩ {} fwdConfig [.vel {}] = some e0 ∧
      Usable fwdConfig [.vel {}] (imuArrivals (evs0 ++ evs)) ∧ e0.run evs0 = some e ∧ e.enabled = true ∧ (∀ c ∈ e.corrs, c.queued = 0) ∧
      e.state.tProp = some 0 ∧ (fwdTruth (v + c) 0).Covered .rightInvariant false (10 * |c|) 0 e.state ∧
      e.state.get_gyroscope_bias = some 0 ∧ e.state.get_accelerometer_bias = some 0 ∧ e.prop.prev = some m ∧
      (fwdTruth (v + c) 0).Imus e.prop.R_imu2body e.prop.t_imu2body 0 0 0 (m :: (e.prop.buffer ++ imuArrivals evs)) ∧ (∀ ev ∈ evs, DeadReckoning ev) ∧
      (published e evs).length = ts.length ∧
      ∀ s ∈ published e evs, ∃ t, s.t = some t ∧ s.tProp = some t ∧ (fwdTruth (v + c) 0).Covered .rightInvariant false (10 * |c|) t s := by
  obtain ⟨e0, e, d, h0, h1, hen, hp, hc, c1, c2, c3, c4, c5, c6, k1, k2, k3, k4, k5, k6, k7, k8, k9, k10⟩ := fwd_start v 0
  set evs := ts.flatMap fun x => [EstEv.imu (fwdImu 0 x), .tick] with hevs
  have himu : imuArrivals evs = ts.map (fwdImu 0) := fwd_arrivals 0 ts
  have hu : Usable fwdConfig [.vel {}] (imuArrivals ([.tick, .imu (fwdImu 0 0), .vel 0 (fwdVel v 0 0), .tick] ++ evs)) := by
    refine ⟨by norm_num, by simp, .inl rfl, .inl rfl, ?_⟩
    have : imuArrivals ([.tick, .imu (fwdImu 0 0), .vel 0 (fwdVel v 0 0), .tick] ++ evs) = (0 :: ts).map (fwdImu 0) := by
      simp only [List.cons_append, List.nil_append, imuArrivals, himu, List.map_cons]
    rw [this, List.pairwise_map]
    exact hts
  have hidle : ∀ c ∈ e.corrs, c.queued = 0 := by
    intro x hd
    rw [hc] at hd
    obtain rfl : x = .vel d := by simpa [velOnly] using hd
    show d.buffer.length = 0
    rw [c1]; rfl
  have hdead : ∀ ev ∈ evs, DeadReckoning ev := by
    intro ev hev
    obtain ⟨x, -, hx⟩ := List.mem_flatMap.mp hev
    rcases List.mem_cons.mp hx with rfl | hx
    · trivial
    · obtain rfl : ev = .tick := by simpa using hx
      trivial
  have hC := fwd_covered v c k9 k2 k10
  have hI : (fwdTruth (v + c) 0).Imus e.prop.R_imu2body e.prop.t_imu2body 0 0 0 (fwdImu 0 0 :: (e.prop.buffer ++ imuArrivals evs)) := by
    rw [k6, k7, k8, himu, List.nil_append]
    exact fwd_imus (v + c) 0 (0 :: ts) 0 (List.pairwise_cons.mpr ⟨by simpa using (List.pairwise_cons.mp hts).1, hts⟩)
  refine ⟨e0, e, _, evs, fwdImu 0 0, h0, hu, h1, hen, hidle, k1, hC, k3, k4, k5, hI, hdead, ?_, ?_⟩
  · obtain ⟨K, tp, m, d, ht, hm, -⟩ := dead_of_use h0 (evs := [.tick, .imu (fwdImu 0 0), .vel 0 (fwdVel v 0 0), .tick])
      ⟨by norm_num, by simp, .inl rfl, .inl rfl, by simp [imuArrivals]⟩ h1 hen hidle rfl
    exact pub_len 0 ts d ⟨m, hm⟩ ⟨tp, ht⟩ k6
  · exact C162_covered h0 hu h1 hen hidle k1 hC k3 k4 k5 hI hdead

end Drift
