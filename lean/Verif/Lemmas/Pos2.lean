import Verif.Lemmas.Pos1
import Verif.Lemmas.Stand4
import Verif.Props.Tilt
import Verif.Spec.PosGrowth

/-! # Lemmas: a linear function of the errors of rotation, velocity and position through the turns of the main loop (C161) -/
set_option linter.unusedSimpArgs false
namespace Drift
open Mat Matrix Finset RobotState ImuProp

/-- the linear function that reads `a` from the rotation error, `b` from the velocity error and `c` from the position error -/
def posL (a b c : V3) : ℕ → ℝ := fun i => spread 0 a i + spread 1 b i + spread 2 c i

theorem posL_at3 (a b c : V3) (j : ℕ) : at3 (posL a b c) j = if j = 0 then a else if j = 1 then b else if j = 2 then c else 0 := by
  have e : at3 (posL a b c) j = at3 (spread 0 a) j + at3 (spread 1 b) j + at3 (spread 2 c) j := rfl
  rw [e, spread_at3, spread_at3, spread_at3]
  by_cases h0 : j = 0
  · subst h0; simp
  · by_cases h1 : j = 1
    · subst h1; simp
    · by_cases h2 : j = 2
      · subst h2; simp
      · simp [h0, h1, h2]

theorem posL_high (a b c : V3) {i : ℕ} (h : 9 ≤ i) : posL a b c i = 0 := by
  rw [at3_e (posL a b c) i, posL_at3, if_neg (by omega), if_neg (by omega), if_neg (by omega)]; rfl

theorem posL_sub (a b c y : V3) : (fun i => posL a b c i - spread 1 y i) = posL a (b - y) c := by
  funext i
  rw [at3_e (posL a (b - y) c) i, posL_at3]
  have e := congrFun (spread_at3 1 y (i / 3)) ⟨i % 3, Nat.mod_lt _ (by norm_num)⟩
  have e' := congrFun (posL_at3 a b c (i / 3)) ⟨i % 3, Nat.mod_lt _ (by norm_num)⟩
  rw [at3_e (posL a b c) i, at3_e (spread 1 y) i, e, e']
  by_cases h0 : i / 3 = 0
  · simp [h0]
  · by_cases h1 : i / 3 = 1
    · simp [h1]
    · by_cases h2 : i / 3 = 2
      · simp [h2]
      · simp [h0, h1, h2]

theorem at3_pull_posL {M : Mat} {n : ℕ} (h : M.rows = 3 * n) (hn : 3 ≤ n) (a b c : V3) (k : ℕ) :
    at3 (pull M (posL a b c)) k = (M.blk3 0 (3 * k))ᵀ.mulVec a + (M.blk3 3 (3 * k))ᵀ.mulVec b + (M.blk3 6 (3 * k))ᵀ.mulVec c := by
  have e : pull M (posL a b c) = fun k => pull M (spread 0 a) k + pull M (spread 1 b) k + pull M (spread 2 c) k := by
    unfold posL
    rw [pull_add' M (fun i => spread 0 a i + spread 1 b i) (spread 2 c), pull_add' M (spread 0 a) (spread 1 b)]
  have e3 : at3 (pull M (posL a b c)) k = at3 (pull M (spread 0 a)) k + at3 (pull M (spread 1 b)) k + at3 (pull M (spread 2 c)) k := by rw [e]; rfl
  rw [e3, at3_pull_spread h (by omega), at3_pull_spread h (by omega), at3_pull_spread h (by omega)]

/-- what the functional becomes under the transition matrix, without bias estimation -/
theorem pull_phi_pos {K : ℕ} {p : ImuProp} (hK : 2 ≤ K) (het : p.errorType = .rightInvariant) (hen : p.enableBias = false) (w a' : V3) (dt : ℝ) (X : Mat)
    (a b c : V3) {i : ℕ} (hi : i < 3 * K + 9) :
    pull (phiK K p w a' dt X) (posL a b c) i = posL (back dt a b c) (b + dt • c) c i := by
  rw [at3_e (pull _ _) i, at3_e (posL _ _ _) i]
  refine congrFun ?_ _
  obtain ⟨k, hk⟩ : ∃ k, i / 3 = k := ⟨_, rfl⟩
  have hk' : k < K + 3 := by omega
  rw [hk, at3_pull_posL (n := K + 3) (by simp; ring) (by omega), posL_at3]
  have hphi : ∀ j, j < K + 3 → (phiK K p w a' dt X).blk3 (3 * j) (3 * k) = if K + 1 ≤ k then 0 else phiRB dt j k := by
    intro j hj
    unfold phiK
    rw [het]
    dsimp only
    rw [ofBlk_blk3 _ hj hk']
    unfold phiRF
    dsimp only
    rw [hen, if_neg (by simp)]
  have h0 := hphi 0 (by omega)
  have h1 := hphi 1 (by omega)
  have h2 := hphi 2 (by omega)
  rw [show 3 * 0 = 0 from rfl] at h0
  rw [show 3 * 1 = 3 from rfl] at h1
  rw [show 3 * 2 = 6 from rfl] at h2
  rw [h0, h1, h2]
  by_cases hk1 : K + 1 ≤ k
  · simp [hk1, show k ≠ 0 by omega, show k ≠ 1 by omega, show k ≠ 2 by omega]
  · simp only [if_neg hk1]
    unfold phiRB back
    by_cases c0 : k = 0
    · subst c0
      simp [transpose_smul, smul_mulVec, smul_smul]
      norm_num [div_eq_mul_inv]
    · by_cases c1 : k = 1
      · subst c1
        simp [transpose_smul, smul_mulVec]
      · by_cases c2 : k = 2
        · subst c2
          simp
        · simp [c0, c1, c2, Ne.symm c0, Ne.symm c1, Ne.symm c2]

/-! ### without legs the contact noise is zero -/

theorem correct_qc {K : ℕ} {h h' : Heap} {s s' : RobotState} (g : Good K h s) {c c' : Corr} {m : M3} (hv : c.vcov = some m) {b : Bool}
    (e : c.correct h s = some (b, c', h', s')) : s'.Qc = s.Qc := by
  cases c with
  | leg l => simp [Corr.vcov] at hv
  | vel v =>
    simp only [Corr.correct, Option.map_eq_some_iff] at e
    obtain ⟨⟨b1, v1, s1⟩, e1, e2⟩ := e
    obtain ⟨rfl, rfl, rfl, rfl⟩ := e2
    have key : ∀ {m s2}, v.apply m s = some s2 → s2.Qc = s.Qc := by
      intro m s2 h2
      obtain ⟨R, w, -, -, h1⟩ := (velApply_iff g.shape g.world v m).mp h2
      obtain ⟨-, W, -, rfl⟩ := (correctRight_iff (g.shape.setT (some m.time))).mp h1
      rfl
    unfold VelCorr.correct at e1
    split at e1
    · obtain ⟨rfl, -, rfl⟩ := Option.some.inj e1; rfl
    · simp only [Option.bind_eq_bind, Option.bind_eq_some_iff] at e1
      obtain ⟨tp, -, e1⟩ := e1
      split_ifs at e1
      · obtain ⟨rfl, -, rfl⟩ := Option.some.inj e1; rfl
      · split at e1
        · obtain ⟨rfl, -, rfl⟩ := Option.some.inj e1; rfl
        · simp only [Option.bind_eq_some_iff] at e1
          obtain ⟨s2, h2, e1⟩ := e1
          obtain ⟨-, -, rfl⟩ := Option.some.inj e1
          exact key h2

theorem correctAll_qc (cs : List Corr) : ∀ {K : ℕ} {h h' : Heap} {s s' : RobotState} (_ : Good K h s) (_ : CorrsOK s cs) {tp : ℝ}
    (_ : s.tProp = some tp) (_ : ∀ c ∈ cs, ∃ m, c.vcov = some m) {b : Bool} {cs' : List Corr}
    (_ : Estimator.correctAll cs h s = some (b, cs', h', s')), s'.Qc = s.Qc := by
  induction cs with
  | nil =>
    intro K h h' s s' g hc tp ht hcv b cs' e
    obtain ⟨rfl, -, -, rfl⟩ := Option.some.inj e
    rfl
  | cons c cs ih =>
    intro K h h' s s' g hc tp ht hcv b cs' e
    have hcd := List.pairwise_cons.mp hc.disj
    obtain ⟨b1, c1, h1, s1, K1, e1, g1, st⟩ := corr_correct g (hc.each c (by simp)) ht
    have hok1 : CorrsOK s1 cs := by
      refine ⟨fun d hd => (hc.each d (by simp [hd])).keep fun id a ha => ?_, hcd.2⟩
      exact st.keep a ((hc.each d (by simp [hd])).ids.mem id a ha) fun id' q => hcd.1 d hd id' id a q ha
    simp only [Estimator.correctAll, Option.bind_eq_bind, e1, Option.bind_some, Option.bind_eq_some_iff] at e
    obtain ⟨⟨b2, cs2, h2, s2⟩, e2, e⟩ := e
    obtain ⟨rfl, -, -, rfl⟩ := Option.some.inj e
    obtain ⟨m, hm⟩ := hcv c (by simp)
    rw [ih g1 hok1 (st.tp.trans ht) (fun d hd => hcv d (by simp [hd])) e2, correct_qc g hm e1]

theorem setInitial_qc {c c' : Corr} {s s' : RobotState} {b : Bool} (e : c.setInitial s = some (b, c', s')) : s'.Qc = s.Qc := by
  cases c with
  | vel v =>
    simp only [Corr.setInitial, Option.map_eq_some_iff] at e
    obtain ⟨⟨b1, v1, s1⟩, e1, e2⟩ := e
    obtain ⟨-, -, rfl⟩ := e2
    unfold VelCorr.setInitial at e1
    split at e1
    · obtain ⟨-, -, rfl⟩ := Option.some.inj e1; rfl
    · simp only [Option.bind_eq_bind, Option.bind_eq_some_iff, set_velocity, Option.map_eq_some_iff] at e1
      obtain ⟨_, -, _, ⟨_, -, rfl⟩, e1⟩ := e1
      obtain ⟨-, -, rfl⟩ := Option.some.inj e1; rfl
  | leg l =>
    simp only [Corr.setInitial, Option.map_eq_some_iff] at e
    obtain ⟨⟨b1, v1, s1⟩, e1, e2⟩ := e
    obtain ⟨-, -, rfl⟩ := e2
    unfold LegCorr.setInitial at e1
    split at e1
    · obtain ⟨-, -, rfl⟩ := Option.some.inj e1; rfl
    · simp only [Option.bind_eq_bind, Option.bind_eq_some_iff, set_velocity, Option.map_eq_some_iff] at e1
      obtain ⟨w, -, R, -, s2, ⟨_, -, rfl⟩, e1⟩ := e1
      obtain ⟨-, -, rfl⟩ := Option.some.inj e1; rfl

theorem initCorrs_qc (todo : List Corr) : ∀ {done d t : List Corr} {s s' : RobotState}, Estimator.initCorrs done todo s = some (d, t, s') →
    s'.Qc = s.Qc := by
  induction todo with
  | nil =>
    intro done d t s s' e
    obtain ⟨rfl, rfl, rfl⟩ := Option.some.inj e
    rfl
  | cons c cs ih =>
    intro done d t s s' e
    simp only [Estimator.initCorrs, Option.bind_eq_bind, Option.bind_eq_some_iff] at e
    obtain ⟨⟨b, c1, s1⟩, e1, e⟩ := e
    have hc := setInitial_qc e1
    simp only at e
    split_ifs at e
    · rw [ih e, hc]
    · obtain ⟨rfl, rfl, rfl⟩ := Option.some.inj e
      exact hc

theorem initFrom_qc {e e' : Estimator} {k : ℕ} (h : e.initFrom k = some e') : e'.state.Qc = e.state.Qc := by
  unfold Estimator.initFrom at h
  simp only [Option.bind_eq_bind, Option.bind_eq_some_iff] at h
  obtain ⟨⟨d, t, s⟩, e1, h⟩ := h
  have hv := initCorrs_qc _ e1
  cases t with
  | nil =>
    rw [(finishInit_qc h).2]
    exact hv
  | cons c cs =>
    simp only at h
    rw [← Option.some.inj h]
    exact hv

theorem step_qc {fut : List ImuMeas} {e e' : Estimator} {ev : EstEv} (i : EstInv (imuArrivals [ev] ++ fut) e) (hcv : ∀ c ∈ e.corrs, ∃ m, c.vcov = some m)
    (hq : ∀ i j, e.state.Qc.e i j = 0) (h : e.step ev = some e') : ∀ i j, e'.state.Qc.e i j = 0 := by
  cases ev with
  | imu m => rw [← Option.some.inj h]; exact hq
  | vel k m => rw [← Option.some.inj h]; exact hq
  | leg k m => rw [← Option.some.inj h]; exact hq
  | clear =>
    have h : (match e.pending with | none => some e.clear | some _ => some e) = some e' := h
    split at h
    · rw [← Option.some.inj h]
      intro i j
      show (zero 15 15).e i j = 0
      simp
    · rw [← Option.some.inj h]; exact hq
  | log =>
    have h : e.log.iter.map _ = some e' := h
    simp only [Option.map_eq_some_iff] at h
    obtain ⟨a, -, rfl⟩ := h
    exact hq
  | consume => rw [← Option.some.inj h]; exact hq
  | tick =>
    have i : EstInv fut e := i
    have h : e.tick = some e' := h
    unfold Estimator.tick at h
    split at h
    · rw [initFrom_qc h]; exact hq
    · cases hen : e.enabled with
      | true =>
        rw [hen, if_pos rfl] at h
        obtain ⟨K, g⟩ := i.good
        obtain ⟨-, tp, m, htp, hm, hle, -⟩ := i.run hen
        obtain ⟨b0, p', s1, e1, g1, q1, q2⟩ := prop_good g i.noise hm htp hle
        have hs1 : s1.colMap = e.state.colMap ∧ ∃ tp', s1.tProp = some tp' := by
          obtain ⟨bu, hb⟩ : ∃ bu, e.prop.buffer = bu := ⟨_, rfl⟩
          cases bu with
          | nil => obtain ⟨-, -, rfl⟩ := q1 hb; exact ⟨rfl, tp, htp⟩
          | cons f rest => obtain ⟨-, -, -, h2, h3⟩ := q2 f rest hb; exact ⟨h3, _, h2⟩
        obtain ⟨hcm, tp', htp'⟩ := hs1
        have hc1 : CorrsOK s1 e.corrs := ⟨fun c hc => (i.corrs.each c hc).keep (by rw [hcm]; exact (i.corrs.each c hc).ids.mem), i.corrs.disj⟩
        simp only [Estimator.runOnce, e1, Option.bind_eq_bind, Option.bind_some, Option.bind_eq_some_iff] at h
        obtain ⟨⟨b', cs, hh, s2⟩, e2, h⟩ := h
        have k1 := correctAll_qc e.corrs g1 hc1 htp' hcv e2
        have k2 := prop_qc g hm htp e1
        have : e'.state = s2 := by
          simp only at h
          split at h
          · rw [← Option.some.inj h]
          · rw [← Option.some.inj h]
        rw [this, k1, k2]
        exact hq
      | false =>
        rw [hen, if_neg (by simp)] at h
        split at h
        · unfold Estimator.initState at h
          simp only [Option.bind_eq_bind, Option.bind_eq_some_iff] at h
          obtain ⟨⟨b, p, s⟩, e1, h⟩ := h
          have k := setInitialState_qc e1
          simp only at h
          split at h
          · rw [initFrom_qc h]
            show ∀ i j, s.Qc.e i j = 0
            rw [k]; exact hq
          · rw [← Option.some.inj h]
            show ∀ i j, s.Qc.e i j = 0
            rw [k]; exact hq
        · unfold Estimator.initBias at h
          simp only [Option.map_eq_some_iff] at h
          obtain ⟨q, -, rfl⟩ := h
          exact hq

/-- the invariants of a history together -/
structure PosInv (σ sg sa : ℝ) (fut : List ImuMeas) (e : Estimator) : Prop where
  tilt : TiltInv σ sg sa fut e
  qc : ∀ i j, e.state.Qc.e i j = 0

theorem PosInv.step {σ sg sa : ℝ} {fut : List ImuMeas} {e e' : Estimator} {ev : EstEv} (i : PosInv σ sg sa (imuArrivals [ev] ++ fut) e)
    (h : e.step ev = some e') : PosInv σ sg sa fut e' :=
  ⟨i.tilt.step h, step_qc i.tilt.inv (fun c hc => by obtain ⟨r, hr, -⟩ := i.tilt.cfg.cov c hc; exact ⟨_, hr⟩) i.qc h⟩

theorem run_posInv {σ sg sa : ℝ} (evs : List EstEv) : ∀ {fut : List ImuMeas} {e e' : Estimator}, PosInv σ sg sa (imuArrivals evs ++ fut) e →
    e.run evs = some e' → PosInv σ sg sa fut e' := by
  induction evs with
  | nil => intro fut e e' i h; cases h; exact i
  | cons ev evs ih =>
    intro fut e e' i h
    simp only [Estimator.run, Option.bind_eq_some_iff] at h
    obtain ⟨e1, h1, h2⟩ := h
    rw [imuArrivals_cons, List.append_assoc] at i
    exact ih (i.step h1) h2

theorem ctor_pos {σ : ℝ} {h : Heap} {g : EstConfig} {ic : ImuPropConfig} {cs : List CorrConfig} {imu : List ImuMeas} {e0 : Estimator} (u : Usable ic cs imu)
    (hc : Estimator.ctor .rightInvariant h g ic cs = some e0) (hb : ic.enable_imu_bias_update.getD false = false)
    (hcs : ∀ c ∈ cs, ∃ v : VelConfig, c = .vel v ∧ |v.velocity_std.getD 0.1| ≤ σ) :
    PosInv σ (ic.gyroscope_std.getD 0.1) (ic.accelerometer_std.getD 0.1) imu e0 := by
  refine ⟨ctor_tilt u hc hb hcs, ?_⟩
  unfold Estimator.ctor at hc
  simp only [Option.bind_eq_bind, Option.bind_eq_some_iff] at hc
  obtain ⟨p, -, corrs, hm, he⟩ := hc
  rw [← Option.some.inj he]
  intro i j
  show (zero 15 15).e i j = 0
  simp

/-- the functional through one IMU step of the right-invariant filter without bias estimation -/
theorem prop_pos {K : ℕ} {h : Heap} {s s' : RobotState} (g : Good K h s) {p p' : ImuProp} {sg sa V D : ℝ} (het : p.errorType = .rightInvariant)
    (hen : p.enableBias = false) (hg : p.gyroCov = sg ^ 2 • (1 : M3)) (ha : p.accelCov = sa ^ 2 • (1 : M3))
    (hQ : ∀ i j, s.Qc.e i j = 0) (hV : norm3 (s.X.blkV 0 3) ≤ V) (hD : norm3 (s.X.blkV 0 4) ≤ D)
    {m f : ImuMeas} {rest : List ImuMeas} {tp : ℝ} (hb : p.buffer = f :: rest) (hm : p.prev = some m) (ht : s.tProp = some tp) (hle : tp ≤ m.time)
    {bb : Bool} (e : p.propagate s = some (bb, p', s')) (a b c : V3) {a1 b1 : V3}
    (ha1 : a1 = back (m.time - tp) a b c) (hb1 : b1 = b + (m.time - tp) • c) :
    quad s'.P (posL a b c) ≤ quad s.P (posL a1 b1 c) + (m.time - tp) * footRate sg sa 0 V D (norm3 a1) (norm3 b1) (norm3 c) := by
  have hsq := g.q.psd.sq
  have hr : PropReady K p s m f rest tp := ⟨g.shape, g.world, g.q.r, by rw [← hsq]; exact g.q.r, hb, hm, ht⟩
  obtain ⟨bg, ba, w, a', Φ, -, -, -, hΦ, key⟩ := C96_process_noise hr g.q e
  have hK := g.shape.k
  rw [stateTransitionMatrix_eq g.shape g.world] at hΦ
  obtain rfl := Option.some.inj hΦ
  have hpull := fun {i : ℕ} (hi : i < 3 * K + 9) => pull_phi_pos hK het hen w a' (m.time - tp) s.X a b c hi
  rw [← ha1, ← hb1] at hpull
  have hx := key (posL a b c) (pull (bd (AdM K s.X) (3 * K + 9)) (pull (phiK K p w a' (m.time - tp) s.X) (posL a b c)))
    (fun _ i hi => posL_high _ _ _ (by omega)) (by
    unfold Channels; rw [het]; exact ⟨_, adjoint_AdM g.shape.x.rows g.shape.x.cols, rfl⟩)
  rw [hx, quad_ext g.shape.pr g.shape.pc fun i hi => hpull hi]
  refine add_le_add le_rfl (mul_le_mul_of_nonneg_left ?_ (by linarith))
  clear hx key
  obtain ⟨n, hn⟩ : ∃ n, pull (bd (AdM K s.X) (3 * K + 9)) (pull (phiK K p w a' (m.time - tp) s.X) (posL a b c)) = n := ⟨_, rfl⟩
  rw [hn]
  have hn' : n = pull (bd (AdM K s.X) (3 * K + 9)) (posL a1 b1 c) := by
    funext k
    rw [← hn]
    unfold pull
    refine sum_congr rfl fun i hi => ?_
    have hi' : i < 3 * K + 9 := mem_range.mp hi
    congr 1
    exact hpull hi'
  have hn3 : ∀ k, k < K + 3 → at3 n k = if k < K + 1 then
      (adjF (s.X.blk3 0 0) (fun k => s.X.blkV 0 (3 + k)) 0 k)ᵀ.mulVec a1 + (adjF (s.X.blk3 0 0) (fun k => s.X.blkV 0 (3 + k)) 1 k)ᵀ.mulVec b1 +
        (adjF (s.X.blk3 0 0) (fun k => s.X.blkV 0 (3 + k)) 2 k)ᵀ.mulVec c else 0 := by
    intro k hk
    have e0 := bd_blk (K := K) s.X (j := 0) (by omega) hk
    have e1 := bd_blk (K := K) s.X (j := 1) (by omega) hk
    have e2 := bd_blk (K := K) s.X (j := 2) (by omega) hk
    rw [hn', at3_pull_posL (n := K + 3) (by show 3 * K + 9 = _; ring) (by omega)]
    rw [show 3 * 0 = 0 from rfl] at e0
    rw [show 3 * 1 = 3 from rfl] at e1
    rw [show 3 * 2 = 6 from rfl] at e2
    rw [e0, e1, e2]
    split_ifs
    · rfl
    · simp
  obtain ⟨R, hRd⟩ : ∃ R, s.X.blk3 0 0 = R := ⟨_, rfl⟩
  rw [hRd] at hn3
  have n0 : at3 n 0 = Rᵀ.mulVec (a1 + (skew (s.X.blkV 0 3))ᵀ.mulVec b1 + (skew (s.X.blkV 0 4))ᵀ.mulVec c) := by
    rw [hn3 0 (by omega), if_pos (by omega)]
    unfold adjF
    rw [if_pos rfl, if_neg (by omega), if_pos rfl, if_neg (by omega), if_pos rfl]
    simp only [transpose_mul, mulVec_add, mulVec_mulVec]
  have n1 : at3 n 1 = Rᵀ.mulVec b1 := by
    rw [hn3 1 (by omega), if_pos (by omega)]
    unfold adjF
    simp
  have hR : IsRot Rᵀ := by
    obtain ⟨h1, h2, h3⟩ := g.shape.x.rot
    rw [hRd] at h1 h2 h3
    exact ⟨by rw [transpose_transpose]; exact h2, by rw [transpose_transpose]; exact h1, by rw [det_transpose]; exact h3⟩
  have hqc : quad s.Qc n = 0 := by
    unfold quad
    exact Finset.sum_eq_zero fun i _ => Finset.sum_eq_zero fun j _ => by rw [hQ]; ring
  have hf : footRate sg sa 0 V D (norm3 a1) (norm3 b1) (norm3 c) = sg ^ 2 * (norm3 a1 + V * norm3 b1 + D * norm3 c) ^ 2 + sa ^ 2 * norm3 b1 ^ 2 := by
    unfold footRate; ring
  rw [hf]
  unfold noiseRate
  rw [hen, if_neg (by simp), n0, n1, hg, ha, hqc]
  simp only [smul_mulVec, one_mulVec, dotProduct_smul, nsq_dot, smul_eq_mul, nsq_rot hR]
  rw [add_zero, add_zero]
  refine add_le_add (mul_le_mul_of_nonneg_left ?_ (sq_nonneg _)) (by rw [norm3_sq])
  rw [← norm3_sq]
  refine pow_le_pow_left₀ (norm3_nonneg _) (le_trans (norm3_add_le _ _) (add_le_add (le_trans (norm3_add_le _ _) (add_le_add le_rfl ?_)) ?_)) 2
  · exact le_trans (norm3_skew_le _ _) (mul_le_mul_of_nonneg_right hV (norm3_nonneg _))
  · exact le_trans (norm3_skew_le _ _) (mul_le_mul_of_nonneg_right hD (norm3_nonneg _))

theorem correct_pos {K : ℕ} {h h' : Heap} {s s' : RobotState} (g : Good K h s) {c c' : Corr} (hc : CorrOK s c) (hty : c.type = .rightInvariant) {r : ℝ}
    (hv : c.vcov = some (r ^ 2 • (1 : M3))) {b : Bool} (e : c.correct h s = some (b, c', h', s')) (x y w : V3) :
    quad s'.P (posL x y w) ≤ quad s.P (posL x y w) ∧ (b = true → ∀ z : V3, quad s'.P (posL x y w) ≤ quad s.P (posL x (y - z) w) + r ^ 2 * nsq z) := by
  cases c with
  | leg l => simp [Corr.vcov] at hv
  | vel v =>
    have hv : v.cov = r ^ 2 • (1 : M3) := Option.some.inj hv
    have hpd : PD (of3 v.cov) := hc.param
    simp only [Corr.correct, Option.map_eq_some_iff] at e
    obtain ⟨⟨b1, v1, s1⟩, e1, e2⟩ := e
    obtain ⟨rfl, rfl, rfl, rfl⟩ := e2
    have key : ∀ {m s2}, v.apply m s = some s2 → ∀ z : V3, quad s2.P (posL x y w) ≤ quad s.P (posL x (y - z) w) + r ^ 2 * nsq z := by
      intro m s2 h2 z
      have hK := g.shape.k
      have := any_vel g.shape g.world g.psd hpd hty h2 (x := posL x y w) (fun i hi => posL_high _ _ _ (by omega)) z
      rw [posL_sub, hv, Matrix.mul_smul, Matrix.mul_one, Matrix.smul_mul, g.shape.x.rot.2.1, smul_mulVec, one_mulVec, dotProduct_smul, nsq_dot] at this
      exact this
    unfold VelCorr.correct at e1
    split at e1
    · obtain ⟨rfl, -, rfl⟩ := Option.some.inj e1; exact ⟨le_refl _, by simp⟩
    · simp only [Option.bind_eq_bind, Option.bind_eq_some_iff] at e1
      obtain ⟨tp, -, e1⟩ := e1
      split_ifs at e1
      · obtain ⟨rfl, -, rfl⟩ := Option.some.inj e1; exact ⟨le_refl _, by simp⟩
      · split at e1
        · obtain ⟨rfl, -, rfl⟩ := Option.some.inj e1; exact ⟨le_refl _, by simp⟩
        · simp only [Option.bind_eq_some_iff] at e1
          obtain ⟨s2, h2, e1⟩ := e1
          obtain ⟨-, -, rfl⟩ := Option.some.inj e1
          refine ⟨?_, fun _ => key h2⟩
          have := key h2 0
          simpa [nsq] using this

theorem correctAll_pos {σ : ℝ} (cs : List Corr) : ∀ {K : ℕ} {h h' : Heap} {s s' : RobotState} (_ : Good K h s) (_ : CorrsOK s cs) {tp : ℝ}
    (_ : s.tProp = some tp) (_ : ∀ c ∈ cs, c.type = .rightInvariant) (_ : ∀ c ∈ cs, ∃ r : ℝ, c.vcov = some (r ^ 2 • (1 : M3)) ∧ r ^ 2 ≤ σ ^ 2)
    {b : Bool} {cs' : List Corr} (_ : Estimator.correctAll cs h s = some (b, cs', h', s')) (x y w : V3),
    quad s'.P (posL x y w) ≤ quad s.P (posL x y w) ∧ (b = true → ∀ z : V3, quad s'.P (posL x y w) ≤ quad s.P (posL x (y - z) w) + σ ^ 2 * nsq z) := by
  induction cs with
  | nil =>
    intro K h h' s s' g hc tp ht hty hcv b cs' e x y w
    obtain ⟨rfl, -, -, rfl⟩ := Option.some.inj e
    exact ⟨le_refl _, by simp⟩
  | cons c cs ih =>
    intro K h h' s s' g hc tp ht hty hcv b cs' e x y w
    have hcd := List.pairwise_cons.mp hc.disj
    obtain ⟨b1, c1, h1, s1, K1, e1, g1, st⟩ := corr_correct g (hc.each c (by simp)) ht
    have hok1 : CorrsOK s1 cs := by
      refine ⟨fun d hd => (hc.each d (by simp [hd])).keep fun id a ha => ?_, hcd.2⟩
      exact st.keep a ((hc.each d (by simp [hd])).ids.mem id a ha) fun id' q => hcd.1 d hd id' id a q ha
    simp only [Estimator.correctAll, Option.bind_eq_bind, e1, Option.bind_some, Option.bind_eq_some_iff] at e
    obtain ⟨⟨b2, cs2, h2, s2⟩, e2, e⟩ := e
    obtain ⟨rfl, -, -, rfl⟩ := Option.some.inj e
    obtain ⟨r, hr, hrs⟩ := hcv c (by simp)
    have k1 := fun x y w => correct_pos g (hc.each c (by simp)) (hty c (by simp)) hr e1 x y w
    have k2 := fun x y w => ih g1 hok1 (st.tp.trans ht) (fun d hd => hty d (by simp [hd])) (fun d hd => hcv d (by simp [hd])) e2 x y w
    refine ⟨le_trans (k2 x y w).1 (k1 x y w).1, fun hb z => ?_⟩
    cases b2 with
    | true => exact le_trans ((k2 x y w).2 rfl z) (add_le_add (k1 x (y - z) w).1 le_rfl)
    | false =>
      have hb1 : b1 = true := by simpa using hb
      refine le_trans (k2 x y w).1 (le_trans ((k1 x y w).2 hb1 z) (add_le_add le_rfl (mul_le_mul_of_nonneg_right hrs (nsq_nonneg z))))

/-- one turn of the main loop -/
theorem tick_pos {σ sg sa V D : ℝ} {fut : List ImuMeas} {e e' : Estimator} (pi : PosInv σ sg sa fut e) (hen : e.enabled = true)
    (hV : SpeedLe V e.state) (hD : FarLe D e.state) (h : e.step .tick = some e') :
    e'.enabled = true ∧ ∃ tp tp', e.state.tProp = some tp ∧ e'.state.tProp = some tp' ∧ tp ≤ tp' ∧ ∀ x y w : V3,
      quad e'.state.P (posL x y w) ≤ quad e.state.P (posL (back (tp' - tp) x y w) (y + (tp' - tp) • w) w) +
        (tp' - tp) * footRate sg sa 0 V D (norm3 (back (tp' - tp) x y w)) (norm3 (y + (tp' - tp) • w)) (norm3 w) ∧
      (Measures e → ∀ z : V3, quad e'.state.P (posL x y w) ≤
        quad e.state.P (posL (back (tp' - tp) x (y - z) w) (y - z + (tp' - tp) • w) w) +
        (tp' - tp) * footRate sg sa 0 V D (norm3 (back (tp' - tp) x (y - z) w)) (norm3 (y - z + (tp' - tp) • w)) (norm3 w) + σ ^ 2 * nsq z) := by
  have i := pi.tilt.inv
  have cfg := pi.tilt.cfg
  obtain ⟨K, g⟩ := i.good
  obtain ⟨hpend, tp, m, htp, hm, hle, ht⟩ := i.run hen
  have h : e.tick = some e' := h
  unfold Estimator.tick at h
  rw [hpend, hen] at h
  have h : e.runOnce = some e' := h
  obtain ⟨b0, p', s1, e1, g1, q1, q2⟩ := prop_good g i.noise hm htp hle
  have x1 := g.shape.x.rows; have x2 := g.shape.x.cols; have hK := g.shape.k
  have hV' : norm3 (e.state.X.blkV 0 3) ≤ V := by
    obtain ⟨v, hv, hn⟩ := hV
    have : e.state.get_velocity = some (e.state.X.blkV 0 3) := blkV?_eq (by omega) (by omega)
    rw [this] at hv
    rw [Option.some.inj hv]; exact hn
  have hD' : norm3 (e.state.X.blkV 0 4) ≤ D := by
    obtain ⟨v, hv, hn⟩ := hD
    have : e.state.get_position = some (e.state.X.blkV 0 4) := blkV?_eq (by omega) (by omega)
    rw [this] at hv
    rw [Option.some.inj hv]; exact hn
  have hs1 : s1.colMap = e.state.colMap ∧ ∃ tp', s1.tProp = some tp' ∧ tp ≤ tp' ∧ ∀ x y w : V3,
      quad s1.P (posL x y w) ≤ quad e.state.P (posL (back (tp' - tp) x y w) (y + (tp' - tp) • w) w) +
        (tp' - tp) * footRate sg sa 0 V D (norm3 (back (tp' - tp) x y w)) (norm3 (y + (tp' - tp) • w)) (norm3 w) := by
    obtain ⟨bu, hb⟩ : ∃ bu, e.prop.buffer = bu := ⟨_, rfl⟩
    cases bu with
    | nil =>
      obtain ⟨-, rfl, rfl⟩ := q1 hb
      exact ⟨rfl, tp, htp, le_refl _, fun x y w => by simp [back_zero]⟩
    | cons f rest =>
      obtain ⟨-, -, -, h2, h3⟩ := q2 f rest hb
      exact ⟨h3, m.time, h2, hle, fun x y w => prop_pos g cfg.ty cfg.en cfg.g cfg.a pi.qc hV' hD' hb hm htp hle e1 x y w rfl rfl⟩
  obtain ⟨hcm, tp', htp', hle', hq⟩ := hs1
  have hc1 : CorrsOK s1 e.corrs := ⟨fun c hc => (i.corrs.each c hc).keep (by rw [hcm]; exact (i.corrs.each c hc).ids.mem), i.corrs.disj⟩
  obtain ⟨b', bs, cs', h', s2, K', e2, cr, hbs, -, -, htp2, -⟩ := correctAll_spec e.corrs g1 hc1 htp'
  have he' : e'.state = s2 ∧ e'.enabled = true := by
    simp only [Estimator.runOnce, e1, e2, Option.bind_eq_bind, Option.bind_some] at h
    split at h
    · rw [← Option.some.inj h]; exact ⟨rfl, hen⟩
    · rw [← Option.some.inj h]; exact ⟨rfl, hen⟩
  refine ⟨he'.2, tp, tp', htp, by rw [he'.1, htp2, htp'], hle', fun x y w => ?_⟩
  have k := correctAll_pos (σ := σ) e.corrs g1 hc1 htp' cfg.cty cfg.cov e2 x y w
  rw [he'.1]
  refine ⟨le_trans k.1 (hq x y w), fun hM z => ?_⟩
  obtain ⟨b3, p3, s3, bs3, cs3, h3, s4, r1, r2, r3⟩ := hM
  rw [e1] at r1
  obtain ⟨-, -, rfl⟩ := Option.some.inj r1
  obtain ⟨b4, r4, r5⟩ := corrRun_iff _ r2
  rw [e2] at r4
  obtain ⟨rfl, -, -, -⟩ := Option.some.inj r4
  exact le_trans (k.2 (r5.mpr r3) z) (add_le_add (hq x (y - z) w) le_rfl)

theorem SpeedBound.tail {V : ℝ} {e e1 : Estimator} {ev : EstEv} {evs : List EstEv} (h : SpeedBound V e (ev :: evs)) (h1 : e.step ev = some e1) :
    SpeedBound V e1 evs := by
  intro pre e2 hp hr
  refine h (ev :: pre) e2 ?_ ?_
  · obtain ⟨t, ht⟩ := hp
    exact ⟨t, by simp [ht]⟩
  · simp [Estimator.run, h1, hr]

theorem FarBound.tail {V : ℝ} {e e1 : Estimator} {ev : EstEv} {evs : List EstEv} (h : FarBound V e (ev :: evs)) (h1 : e.step ev = some e1) :
    FarBound V e1 evs := by
  intro pre e2 hp hr
  refine h (ev :: pre) e2 ?_ ?_
  · obtain ⟨t, ht⟩ := hp
    exact ⟨t, by simp [ht]⟩
  · simp [Estimator.run, h1, hr]

/-- a history without `clear` -/
theorem run_pos {σ sg sa V D : ℝ} (hV0 : 0 ≤ V) (hD0 : 0 ≤ D) (evs : List EstEv) : ∀ {fut : List ImuMeas} {e e' : Estimator},
    PosInv σ sg sa (imuArrivals evs ++ fut) e → e.enabled = true → NoClear evs → SpeedBound V e evs → FarBound D e evs → e.run evs = some e' →
    e'.enabled = true ∧ ∃ tp tp', e.state.tProp = some tp ∧ e'.state.tProp = some tp' ∧ tp ≤ tp' ∧ ∀ (x y w : V3) (A B : ℝ),
      (∀ τ, 0 ≤ τ → τ ≤ tp' - tp → norm3 (back τ x y w) ≤ A) → (∀ τ, 0 ≤ τ → τ ≤ tp' - tp → norm3 (y + τ • w) ≤ B) →
      quad e'.state.P (posL x y w) ≤ quad e.state.P (posL (back (tp' - tp) x y w) (y + (tp' - tp) • w) w) +
        (tp' - tp) * footRate sg sa 0 V D A B (norm3 w) := by
  induction evs with
  | nil =>
    intro fut e e' i hen hn hs hf h
    obtain rfl := Option.some.inj h
    obtain ⟨-, tp, m, htp, -⟩ := i.tilt.inv.run hen
    exact ⟨hen, tp, tp, htp, htp, le_refl _, fun x y w A B _ _ => by simp [back_zero]⟩
  | cons ev evs ih =>
    intro fut e e' i hen hn hs hf h
    simp only [Estimator.run, Option.bind_eq_some_iff] at h
    obtain ⟨e1, h1, h2⟩ := h
    rw [imuArrivals_cons, List.append_assoc] at i
    have i1 := i.step h1
    have hs1 : SpeedBound V e1 evs := hs.tail h1
    have hf1 : FarBound D e1 evs := hf.tail h1
    have hs0 : SpeedLe V e.state := hs [] e (List.nil_prefix) rfl
    have hf0 : FarLe D e.state := hf [] e (List.nil_prefix) rfl
    have hn1 : NoClear evs := fun hh => hn (by simp [hh])
    have st : e1.enabled = true ∧ ∃ tp tp1, e.state.tProp = some tp ∧ e1.state.tProp = some tp1 ∧ tp ≤ tp1 ∧ ∀ x y w : V3,
        quad e1.state.P (posL x y w) ≤ quad e.state.P (posL (back (tp1 - tp) x y w) (y + (tp1 - tp) • w) w) +
          (tp1 - tp) * footRate sg sa 0 V D (norm3 (back (tp1 - tp) x y w)) (norm3 (y + (tp1 - tp) • w)) (norm3 w) := by
      obtain ⟨-, tp, m, htp, -⟩ := i.tilt.inv.run hen
      have same : e1.enabled = true → e1.state = e.state → e1.enabled = true ∧ ∃ tp tp1, e.state.tProp = some tp ∧ e1.state.tProp = some tp1 ∧ tp ≤ tp1 ∧
          ∀ x y w : V3, quad e1.state.P (posL x y w) ≤ quad e.state.P (posL (back (tp1 - tp) x y w) (y + (tp1 - tp) • w) w) +
          (tp1 - tp) * footRate sg sa 0 V D (norm3 (back (tp1 - tp) x y w)) (norm3 (y + (tp1 - tp) • w)) (norm3 w) := by
        intro q1 q2
        exact ⟨q1, tp, tp, htp, by rw [q2, htp], le_refl _, fun x y w => by rw [q2]; simp [back_zero]⟩
      cases ev with
      | imu m => rw [← Option.some.inj h1] at same ⊢; exact same hen rfl
      | vel k m => rw [← Option.some.inj h1] at same ⊢; exact same hen rfl
      | leg k m => rw [← Option.some.inj h1] at same ⊢; exact same hen rfl
      | clear => exact absurd (by simp) hn
      | log =>
        have h1 : e.log.iter.map _ = some e1 := h1
        simp only [Option.map_eq_some_iff] at h1
        obtain ⟨l, -, hl⟩ := h1
        rw [← hl] at same ⊢
        exact same hen rfl
      | consume => rw [← Option.some.inj h1] at same ⊢; exact same hen rfl
      | tick =>
        have i : PosInv σ sg sa (imuArrivals evs ++ fut) e := by simpa [imuArrivals] using i
        obtain ⟨q1, tp, tp1, q2, q3, q4, q5⟩ := tick_pos i hen hs0 hf0 h1
        exact ⟨q1, tp, tp1, q2, q3, q4, fun x y w => (q5 x y w).1⟩
    obtain ⟨hen1, tp, tp1, htp, htp1, hle, hst⟩ := st
    obtain ⟨hen', tp1', tp', htp1', htp', hle', hr⟩ := ih i1 hen1 hn1 hs1 hf1 h2
    rw [htp1] at htp1'
    obtain rfl := Option.some.inj htp1'
    refine ⟨hen', tp, tp', htp, htp', le_trans hle hle', fun x y w A B hA hB => ?_⟩
    have k1 := hr x y w A B (fun τ h0 h1 => hA τ h0 (by linarith)) fun τ h0 h1 => hB τ h0 (by linarith)
    have k2 := hst (back (tp' - tp1) x y w) (y + (tp' - tp1) • w) w
    rw [back_add, add_assoc y, ← add_smul, show tp' - tp1 + (tp1 - tp) = tp' - tp by ring] at k2
    have k3 := footRate_mono (sg := sg) (sa := sa) (sc := 0) (norm3_nonneg _) hV0 hD0 (norm3_nonneg _) (norm3_nonneg w) (hA (tp' - tp) (by linarith) le_rfl)
      (hB (tp' - tp) (by linarith) le_rfl)
    have k4 := mul_le_mul_of_nonneg_left k3 (show 0 ≤ tp1 - tp by linarith)
    have : (tp' - tp) * footRate sg sa 0 V D A B (norm3 w) =
      (tp1 - tp) * footRate sg sa 0 V D A B (norm3 w) + (tp' - tp1) * footRate sg sa 0 V D A B (norm3 w) := by ring
    linarith

end Drift
