import Verif.Lemmas.SmallRate
import Verif.Spec.Bias
import Verif.Props.Imu

/-!
# Properties C38, C41 - C44: small-rate transition matrix and bias initialisation of
`src/filter/inekf/propagation/imu_propagation.cpp`
-/
set_option linter.unusedSimpArgs false
namespace Drift
open Mat Matrix Finset RobotState ImuProp Filter Topology

/-- reading a block of `ofBlk` -/
theorem ofBlk_at {a b : ℕ} (f : ℕ → ℕ → M3) {r c : ℕ} (i j : ℕ) (hr : r = 3 * i) (hc : c = 3 * j) (hi : i < a)
    (hj : j < b) : (ofBlk a b f).blk3 r c = f i j := by subst hr hc; exact ofBlk_blk3 f hi hj

/-! ### C38 -/

theorem skew_ne_zero {a : V3} (h : a ≠ 0) : skew a ≠ 0 := by
  intro h0
  apply h
  have e := fun i j => congrFun (congrFun h0 i) j
  have e1 := e 2 1
  have e2 := e 0 2
  have e3 := e 1 0
  simp [skew] at e1 e2 e3
  ext i; fin_cases i <;> simp [e1, e2, e3]

/-- **C38** is false.  With bias estimation in the left-invariant setting, for every `|w| < 1e-6` the
velocity/gyro-bias and position/gyro-bias blocks of the transition matrix are *zero* (the factors `1/2` and
`1/6` are integer divisions), while the general formula of the code, which is used for `|w| ≥ 1e-6`, tends
to `dt²/2 a^` and `dt³/6 a^`, which are not zero for `a ≠ 0`, `dt ≠ 0`. -/
theorem C38_small_rate_false {K : ℕ} {p : ImuProp} {s : RobotState} (hs : Shape K s)
    (hw : s.stateType = .worldCentric) (he : p.errorType = .leftInvariant) (hb : p.enableBias = true)
    {a : V3} {dt : ℝ} (ha : a ≠ 0) (hdt : dt ≠ 0) :
    (∀ w, norm3 w < 1e-6 → ∃ Φ, p.stateTransitionMatrix w a dt s = some Φ ∧
        Φ.blk3 3 (3 * K + 3) = 0 ∧ Φ.blk3 6 (3 * K + 3) = 0) ∧
    (∀ w, 1e-6 ≤ norm3 w → ∃ Φ, p.stateTransitionMatrix w a dt s = some Φ ∧
        Φ.blk3 3 (3 * K + 3)
          = phi25Gen w a dt ((gamma_SO3 (dt • w) 0).getD 0)ᵀ ((gamma_SO3 (dt • w) 2).getD 0)ᵀ ∧
        Φ.blk3 6 (3 * K + 3)
          = phi35Gen w a dt ((gamma_SO3 (dt • w) 0).getD 0)ᵀ ((gamma_SO3 (-(dt • w)) 3).getD 0)) ∧
    Tendsto (fun w => phi25Gen w a dt ((gamma_SO3 (dt • w) 0).getD 0)ᵀ ((gamma_SO3 (dt • w) 2).getD 0)ᵀ)
      (𝓝[≠] 0) (𝓝 ((dt ^ 2 / 2) • skew a)) ∧
    Tendsto (fun w => phi35Gen w a dt ((gamma_SO3 (dt • w) 0).getD 0)ᵀ ((gamma_SO3 (-(dt • w)) 3).getD 0))
      (𝓝[≠] 0) (𝓝 ((dt ^ 3 / 6) • skew a)) ∧
    (dt ^ 2 / 2) • skew a ≠ 0 ∧ (dt ^ 3 / 6) • skew a ≠ 0 := by
  have hK := hs.k
  have hsk := skew_ne_zero ha
  refine ⟨fun w h => ⟨_, stateTransitionMatrix_eq hs hw w a dt, ?_, ?_⟩,
    fun w h => ⟨_, stateTransitionMatrix_eq hs hw w a dt, ?_, ?_⟩, ?_, ?_, ?_, ?_⟩
  · unfold phiK; rw [he]; dsimp only
    rw [ofBlk_at _ 1 (K + 1) rfl (by ring) (by omega) (by omega)]
    unfold phiLF; rw [hb, if_pos rfl, if_neg (by omega), if_neg (by omega), if_neg (by omega), if_pos (by omega)]
    unfold phi25; rw [if_pos h]; norm_num
  · unfold phiK; rw [he]; dsimp only
    rw [show (6 : ℕ) = 3 * 2 from rfl, show 3 * K + 3 = 3 * (K + 1) by ring,
      ofBlk_blk3 _ (by omega) (by omega)]
    unfold phiLF; rw [hb, if_pos rfl, if_neg (by omega), if_neg (by omega), if_pos (by omega)]
    unfold phi35; rw [if_pos h]; norm_num
  · unfold phiK; rw [he]; dsimp only
    rw [ofBlk_at _ 1 (K + 1) rfl (by ring) (by omega) (by omega)]
    unfold phiLF; rw [hb, if_pos rfl, if_neg (by omega), if_neg (by omega), if_neg (by omega), if_pos (by omega)]
    unfold phi25; rw [if_neg (not_lt.mpr h), gamma_SO3_zero, gamma_SO3_two]; rfl
  · unfold phiK; rw [he]; dsimp only
    rw [show (6 : ℕ) = 3 * 2 from rfl, show 3 * K + 3 = 3 * (K + 1) by ring,
      ofBlk_blk3 _ (by omega) (by omega)]
    unfold phiLF; rw [hb, if_pos rfl, if_neg (by omega), if_neg (by omega), if_pos (by omega)]
    unfold phi35; rw [if_neg (not_lt.mpr h), gamma_SO3_zero]; rfl
  · simpa only [gamma_SO3_zero, gamma_SO3_two, Option.getD_some] using phi25Gen_tendsto a dt
  · simpa only [gamma_SO3_zero, Option.getD_some] using phi35Gen_tendsto a dt
  · exact smul_ne_zero (by positivity) hsk
  · exact smul_ne_zero (by positivity) hsk

example : (![0, 0, 9.8] : V3) ≠ 0 ∧ (0.01 : ℝ) ≠ 0 ∧
    Shape 2 { RobotState.init with tProp := some 0 } ∧
    (exProp .leftInvariant true).errorType = .leftInvariant ∧ (exProp .leftInvariant true).enableBias = true := by
  refine ⟨fun h => ?_, by norm_num, (exReady .leftInvariant true).shape, rfl, rfl⟩
  have := congrFun h 2
  simp at this
  norm_num at this

/-- **C38**, the part that holds: the three other bias blocks of the transition matrix (rotation/gyro bias,
velocity/accelerometer bias, position/accelerometer bias) are continuous at zero rate, with the correct
limits `-dt I`, `-dt I`, `-dt²/2 I`. -/
theorem C38_other_columns_partial {K : ℕ} {p : ImuProp} {s : RobotState} (hs : Shape K s)
    (hw : s.stateType = .worldCentric) (he : p.errorType = .leftInvariant) (hb : p.enableBias = true)
    (a : V3) (dt : ℝ) :
    (∀ᶠ w in 𝓝[≠] (0 : V3), ∃ Φ, p.stateTransitionMatrix w a dt s = some Φ ∧
      Φ.blk3 0 (3 * K + 3) = (-dt) • (1 : M3) ∧ Φ.blk3 3 (3 * K + 6) = (-dt) • (1 : M3) ∧
      Φ.blk3 6 (3 * K + 6) = (-(dt ^ 2 / 2)) • (1 : M3)) ∧
    ∃ Φ, p.stateTransitionMatrix 0 a dt s = some Φ ∧
      Φ.blk3 0 (3 * K + 3) = (-dt) • (1 : M3) ∧ Φ.blk3 3 (3 * K + 6) = (-dt) • (1 : M3) ∧
      Φ.blk3 6 (3 * K + 6) = (-(dt ^ 2 / 2)) • (1 : M3) := by
  have hK := hs.k
  have key : ∀ w : V3, norm3 (dt • w) < TOLERANCE → ∃ Φ, p.stateTransitionMatrix w a dt s = some Φ ∧
      Φ.blk3 0 (3 * K + 3) = (-dt) • (1 : M3) ∧ Φ.blk3 3 (3 * K + 6) = (-dt) • (1 : M3) ∧
      Φ.blk3 6 (3 * K + 6) = (-(dt ^ 2 / 2)) • (1 : M3) := by
    intro w h
    refine ⟨_, stateTransitionMatrix_eq hs hw w a dt, ?_, ?_, ?_⟩
    · unfold phiK; rw [he]; dsimp only
      rw [show (0 : ℕ) = 3 * 0 from rfl, show 3 * K + 3 = 3 * (K + 1) by ring,
        ofBlk_blk3 _ (by omega) (by omega)]
      unfold phiLF; rw [hb, if_pos rfl]; ifs
      unfold Gam1; rw [if_pos h]; simp
    · unfold phiK; rw [he]; dsimp only
      rw [ofBlk_at _ 1 (K + 2) rfl (by ring) (by omega) (by omega)]
      unfold phiLF; rw [hb, if_pos rfl]; ifs
      unfold Gam1; rw [if_pos h]; simp
    · unfold phiK; rw [he]; dsimp only
      rw [show (3 * K + 6) = 3 * (K + 2) by ring, show (6 : ℕ) = 3 * 2 from rfl,
        ofBlk_blk3 _ (by omega) (by omega)]
      unfold phiLF; rw [hb, if_pos rfl]; ifs
      unfold Gam2 Gam0; rw [if_pos h, if_pos h]
      simp only [transpose_one, Matrix.neg_mul, Matrix.one_mul, smul_neg, smul_smul, neg_smul]
      congr 2; ring
  refine ⟨?_, key 0 (by simp [norm3_zero, TOLERANCE]; norm_num)⟩
  filter_upwards [eventually_small dt] with w h using key w h

/-! ### C42 -/

theorem biasSample_eq (p : ImuProp) (m : ImuMeas) : p.biasSample m = (gyroSample p m, accelSample p m) := by
  unfold ImuProp.biasSample accelSample gyroSample gravity
  norm_num

theorem foldl_pair (l : List (V3 × V3)) (x : V3 × V3) :
    l.foldl (fun (acc : V3 × V3) v => (acc.1 + v.1, acc.2 + v.2)) x
      = (x.1 + (l.map Prod.fst).sum, x.2 + (l.map Prod.snd).sum) := by
  induction l generalizing x with
  | nil => simp
  | cons a l ih => rw [List.foldl_cons, ih]; simp [add_assoc]

theorem toSizeT_of_nonneg {N : ℕ} (h : N < 2 ^ 64) : toSizeT (N : ℤ) = N := by
  unfold toSizeT; omega

/-- what is known of the propagation object `p` after a history with arrivals `arr`, started at `p0` -/
structure BiasInv (p0 p : ImuProp) (N : ℕ) (arr consumed : List ImuMeas) : Prop where
  static : p.staticInit = true
  size : p.initBiasSize = N
  R : p.R_imu2body = p0.R_imu2body
  t : p.t_imu2body = p0.t_imu2body
  ori : p.useImuOri = p0.useImuOri
  queue : p0.buffer ++ arr = consumed ++ p.buffer
  vec : p.biasInitVec = consumed.map p0.biasSample
  le : consumed.length ≤ N
  done : p.biasInitialized = true → consumed.length = N ∧
    p.bg0 = mean (consumed.map (gyroSample p0)) ∧ p.ba0 = mean (consumed.map (accelSample p0))

theorem BiasInv.call {p0 p : ImuProp} {N : ℕ} {arr consumed : List ImuMeas} (h : BiasInv p0 p N arr consumed)
    (h0 : 1 ≤ N) (h1 : N < 2 ^ 31) :
    ∃ p' consumed', p.initImuBias = some p' ∧ BiasInv p0 p' N arr consumed' ∧
      p'.buffer = (if consumed.length < N then p.buffer.tail else p.buffer) ∧
      (p'.biasInitialized = true ↔ p.biasInitialized = true ∨ consumed.length = N) := by
  unfold ImuProp.initImuBias
  rw [h.static, if_neg (by simp), h.size, toSizeT_of_nonneg (by omega), h.vec, List.length_map]
  by_cases hl : consumed.length < N
  · rw [if_pos hl]
    cases hb : p.buffer with
    | nil => exact ⟨p, consumed, rfl, h, by simp [hb, hl], by simp; omega⟩
    | cons m rest =>
      refine ⟨_, consumed ++ [m], rfl, ⟨rfl, rfl, h.R, h.t, h.ori, ?_, ?_, ?_, ?_⟩, ?_, ?_⟩
      · rw [h.queue, hb]; simp
      · have e : p.biasSample m = p0.biasSample m := by
          unfold ImuProp.biasSample; rw [h.R, h.t, h.ori]
        simp [h.vec, e]
      · simp; omega
      · intro hd
        have := (h.done hd).1
        omega
      · simp [hl]
      · constructor
        · exact fun hd => Or.inl hd
        · rintro (hd | hd)
          · exact hd
          · omega
  · have hN : consumed.length = N := by have := h.le; omega
    rw [if_neg hl, if_neg (by omega)]
    refine ⟨_, consumed, rfl, ⟨rfl, rfl, h.R, h.t, h.ori, h.queue, rfl, h.le, ?_⟩, ?_, ?_⟩
    · intro _
      refine ⟨hN, ?_, ?_⟩
      · simp only [foldl_pair, mean, List.map_map, List.length_map, zero_add]
        congr 3
      · simp only [foldl_pair, mean, List.map_map, List.length_map, zero_add]
        congr 3
        funext m; simp [biasSample_eq]
    · simp [hl]
    · simp [hN]

theorem BiasInv.arrive {p0 p : ImuProp} {N : ℕ} {arr consumed : List ImuMeas} (h : BiasInv p0 p N arr consumed)
    (m : ImuMeas) : BiasInv p0 { p with buffer := p.buffer ++ [m] } N (arr ++ [m]) consumed :=
  ⟨h.static, h.size, h.R, h.t, h.ori, by rw [← List.append_assoc, h.queue, List.append_assoc], h.vec, h.le, h.done⟩

theorem BiasInv.run {p0 p : ImuProp} {N : ℕ} (h0 : 1 ≤ N) (h1 : N < 2 ^ 31) (evs : List BiasEv) :
    ∀ {arr consumed : List ImuMeas} {p : ImuProp}, BiasInv p0 p N arr consumed →
    ∃ p' consumed', biasRun p evs = some p' ∧ BiasInv p0 p' N (arr ++ arrivals evs) consumed' := by
  induction evs with
  | nil => intro arr consumed p h; exact ⟨p, consumed, rfl, by simpa [arrivals] using h⟩
  | cons e es ih =>
    intro arr consumed p h
    cases e with
    | arrive m =>
      obtain ⟨p', c', e', h'⟩ := ih (h.arrive m)
      exact ⟨p', c', e', by simpa [arrivals] using h'⟩
    | call =>
      obtain ⟨p1, c1, e1, i1, -, -⟩ := h.call h0 h1
      obtain ⟨p', c', e', h'⟩ := ih i1
      refine ⟨p', c', ?_, h'⟩
      unfold biasRun biasStep
      rw [e1]; exact e'

theorem BiasFresh.inv {p0 : ImuProp} {N : ℕ} (h : BiasFresh p0 N) : BiasInv p0 p0 N [] [] :=
  ⟨h.static, h.size, rfl, rfl, rfl, by simp, by simp [h.empty], by simp, by simp [h.flag]⟩

/-- **C42**.  Start from a freshly constructed propagation object with static initialisation and
`init_bias_size = N ≥ 1` (an `int`), and let measurements arrive and `InitImuBias` be called in any order,
any number of times.  Then the measurements consumed are a prefix of the arrivals, in order, at most `N`
of them; when the biases are reported initialised, exactly `N` have been consumed and the biases are the
arithmetic means of the gravity-compensated samples.  The next call consumes one queued measurement while
fewer than `N` have been consumed and none afterwards; after it the biases are reported initialised iff
they were before or all `N` measurements had already been consumed. -/
theorem C42_average {p0 : ImuProp} {N : ℕ} (hf : BiasFresh p0 N) (h0 : 1 ≤ N) (h1 : N < 2 ^ 31)
    (evs : List BiasEv) :
    ∃ p consumed, biasRun p0 evs = some p ∧
      p0.buffer ++ arrivals evs = consumed ++ p.buffer ∧ consumed.length ≤ N ∧
      (p.biasInitialized = true → consumed.length = N ∧
        p.bg0 = mean (consumed.map (gyroSample p0)) ∧ p.ba0 = mean (consumed.map (accelSample p0))) ∧
      ∃ p', p.initImuBias = some p' ∧
        p'.buffer = (if consumed.length < N then p.buffer.tail else p.buffer) ∧
        (p'.biasInitialized = true ↔ p.biasInitialized = true ∨ consumed.length = N) := by
  obtain ⟨p, c, e, h⟩ := BiasInv.run (p := p0) h0 h1 evs hf.inv
  obtain ⟨p', c', e', -, h2, h3⟩ := h.call h0 h1
  exact ⟨p, c, e, by simpa using h.queue, h.le, h.done, p', e', h2, h3⟩

/-- **C42**, progress: after `N` arrivals and `N + 1` calls, in this order, the biases are initialised. -/
theorem C42_terminates {p0 : ImuProp} {N : ℕ} (hf : BiasFresh p0 N) (h0 : 1 ≤ N) (h1 : N < 2 ^ 31)
    (ms : List ImuMeas) (hm : N ≤ (p0.buffer ++ ms).length) :
    ∃ p, biasRun p0 (ms.map BiasEv.arrive ++ List.replicate (N + 1) BiasEv.call) = some p ∧
      p.biasInitialized = true := by
  have hra : ∀ (evs evs' : List BiasEv) (p : ImuProp), biasRun p (evs ++ evs') =
      (biasRun p evs).bind fun q => biasRun q evs' := by
    intro evs
    induction evs with
    | nil => intro evs' p; rfl
    | cons e es ih =>
      intro evs' p
      simp only [List.cons_append, biasRun, ih]
      cases biasStep p e <;> rfl
  have hcalls : ∀ k, ∀ {p : ImuProp} {arr c : List ImuMeas}, BiasInv p0 p N arr c → N ≤ (p0.buffer ++ arr).length →
      c.length + k = N →
      ∃ q, biasRun p (List.replicate (k + 1) BiasEv.call) = some q ∧ q.biasInitialized = true := by
    intro k
    induction k with
    | zero =>
      intro p arr c h hN hk
      obtain ⟨p', c', e', -, -, h3⟩ := h.call h0 h1
      refine ⟨p', ?_, h3.mpr (Or.inr (by omega))⟩
      simp [biasRun, biasStep, e']
    | succ k ih =>
      intro p arr c h hN hk
      obtain ⟨p', c', e', h', h2, -⟩ := h.call h0 h1
      have hlen : c'.length + k = N := by
        have q1 := congrArg List.length h.queue
        have q2 := congrArg List.length h'.queue
        rw [h2, if_pos (by omega)] at q2
        simp only [List.length_append, List.length_tail] at q1 q2 hN
        omega
      obtain ⟨q, hq, hi⟩ := ih h' hN hlen
      refine ⟨q, ?_, hi⟩
      rw [List.replicate_succ, biasRun]
      unfold biasStep
      rw [e']; exact hq
  have harr : arrivals (ms.map BiasEv.arrive) = ms := by
    induction ms with
    | nil => rfl
    | cons m ms ih => 
      rw [List.map_cons, arrivals]
      congr 1
      clear hm
      clear ih
      induction ms with
      | nil => rfl
      | cons a l ih => rw [List.map_cons, arrivals, ih]
  have hrun : ∀ (l : List ImuMeas) {p : ImuProp} {arr c : List ImuMeas}, BiasInv p0 p N arr c →
      ∃ q, biasRun p (l.map BiasEv.arrive) = some q ∧ BiasInv p0 q N (arr ++ l) c := by
    intro l
    induction l with
    | nil => intro p arr c h; exact ⟨p, rfl, by simpa using h⟩
    | cons a l ih =>
      intro p arr c h
      obtain ⟨q, e, i⟩ := ih (h.arrive a)
      exact ⟨q, e, by simpa using i⟩
  obtain ⟨q, e, i⟩ := hrun ms hf.inv
  obtain ⟨q', e', i'⟩ := hcalls N i (by simpa using hm) (by simp)
  exact ⟨q', by rw [hra, e]; exact e', i'⟩

/-- a propagation object for the examples: static initialisation with `N` samples -/
noncomputable def exBias (N : ℤ) : ImuProp :=
  { exProp .leftInvariant false with
    buffer := []
    prev := none
    staticInit := true
    initBiasSize := N
    biasInitialized := false }

example (N : ℕ) : BiasFresh (exBias N) N := ⟨rfl, rfl, rfl, rfl⟩

/-! ### C43 -/

theorem mean_const {l : List V3} {b : V3} (hl : l ≠ []) (h : ∀ v ∈ l, v = b) : mean l = b := by
  have : l.sum = (l.length : ℝ) • b := by
    clear hl
    induction l with
    | nil => simp
    | cons a l ih =>
      rw [List.sum_cons, ih (fun v hv => h v (List.mem_cons_of_mem _ hv)), h a List.mem_cons_self, List.length_cons]
      push_cast; rw [add_smul, one_smul, add_comm]
  unfold mean
  rw [this, smul_smul, inv_mul_cancel₀, one_smul]
  have : l.length ≠ 0 := by simpa using hl
  exact_mod_cast this

/-- **C43**.  IMU mounted at the body origin with identity rotation, at rest: every measurement reports
the true gyroscope bias `bg`, and the true accelerometer bias `ba` plus the reaction to gravity in the
orientation assumed by the initialisation (identity, i.e. level, or the reported orientation when
`use_imu_ori_to_init` is set).  Then whenever the biases are reported initialised they equal `bg`, `ba`. -/
theorem C43_recovers_bias {p0 : ImuProp} {N : ℕ} (hf : BiasFresh p0 N) (h0 : 1 ≤ N) (h1 : N < 2 ^ 31)
    (hR : p0.R_imu2body = 1) (ht : p0.t_imu2body = 0) {bg ba : V3} (evs : List BiasEv)
    (hs : ∀ m ∈ p0.buffer ++ arrivals evs, ∃ R : M3, IsRot R ∧
      R = (if p0.useImuOri then m.quat.toRot else 1) ∧
      m.angVel = bg ∧ m.linAcc = ba - Rᵀ.mulVec ![0, 0, -9.8]) :
    ∃ p, biasRun p0 evs = some p ∧ (p.biasInitialized = true → p.bg0 = bg ∧ p.ba0 = ba) := by
  obtain ⟨p, c, e, hq, -, hd, -⟩ := C42_average hf h0 h1 evs
  refine ⟨p, e, fun hi => ?_⟩
  obtain ⟨hl, e1, e2⟩ := hd hi
  have hne : c ≠ [] := by rintro rfl; simp at hl; omega
  have hc : ∀ m ∈ c, m ∈ p0.buffer ++ arrivals evs := fun m hm => by rw [hq]; exact List.mem_append_left _ hm
  rw [e1, e2]
  refine ⟨mean_const (by simpa using hne) ?_, mean_const (by simpa using hne) ?_⟩
  · intro v hv
    obtain ⟨m, hm, rfl⟩ := List.mem_map.mp hv
    obtain ⟨R, -, -, hw, -⟩ := hs m (hc m hm)
    unfold gyroSample
    rw [hR, hw, Matrix.one_mulVec]
  · intro v hv
    obtain ⟨m, hm, rfl⟩ := List.mem_map.mp hv
    obtain ⟨R, hrot, hRe, hw, ha⟩ := hs m (hc m hm)
    have hR2 : (if p0.useImuOri = true then p0.R_imu2body * m.quat.toRot else 1) = R := by
      rw [hR, Matrix.one_mul, hRe]
    unfold accelSample
    dsimp only
    rw [hR2, hR, ht, ha]
    have hz : crossProduct (gyroSample p0 m) (crossProduct (gyroSample p0 m) 0) = 0 := by simp
    rw [hz, sub_zero, Matrix.one_mulVec, Matrix.mulVec_sub, Matrix.mulVec_mulVec, hrot.2.1, Matrix.one_mulVec,
      sub_add_cancel, Matrix.mulVec_mulVec, hrot.1, Matrix.one_mulVec]

example : ∃ evs : List BiasEv, (∀ m ∈ (exBias 2).buffer ++ arrivals evs, ∃ R : M3, IsRot R ∧
      R = (if (exBias 2).useImuOri then m.quat.toRot else 1) ∧
      m.angVel = ![1, 0, 0] ∧ m.linAcc = ![0, 0, 1] - Rᵀ.mulVec ![0, 0, -9.8]) ∧ arrivals evs ≠ [] := by
  refine ⟨[.arrive ⟨0, ![1, 0, 0], ![0, 0, 10.8], Quat.id⟩], ?_, by simp [arrivals]⟩
  intro m hm
  simp only [exBias, arrivals, List.nil_append, List.mem_singleton] at hm
  subst hm
  refine ⟨1, ⟨by simp, by simp, by simp⟩, by simp [exBias, exProp], rfl, ?_⟩
  ext i; fin_cases i <;> simp <;> norm_num

/-! ### C44, C41 -/

/-- **C44** is false: with an empty configuration (all documented defaults: static initialisation, size 0)
the first call of `InitImuBias` averages zero samples, whatever is queued: the biases are NaN. -/
theorem C44_default_false (buffer : List ImuMeas) (et : ErrorType) :
    ∃ p, ImuProp.ctor buffer et {} = some p ∧ p.initImuBias = none := by
  refine ⟨_, rfl, ?_⟩
  unfold ImuProp.initImuBias
  simp [toSizeT]

/-- **C44**, the part that holds: with `static_bias_initialization: false`, or with a positive
`init_bias_size`, no history of arrivals and calls divides by zero. -/
theorem C44_defined_partial {p0 : ImuProp} (h : p0.staticInit = false ∨ ∃ N : ℕ, BiasFresh p0 N ∧ 1 ≤ N ∧ N < 2 ^ 31)
    (evs : List BiasEv) : ∃ p, biasRun p0 evs = some p := by
  rcases h with h | ⟨N, hf, h0, h1⟩
  · induction evs generalizing p0 with
    | nil => exact ⟨p0, rfl⟩
    | cons e es ih =>
      cases e with
      | arrive m => exact ih (p0 := { p0 with buffer := p0.buffer ++ [m] }) h
      | call =>
        have e : p0.initImuBias = some { p0 with biasInitialized := true } := by
          unfold ImuProp.initImuBias; rw [if_pos h]
        unfold biasRun biasStep
        rw [e]
        exact ih (p0 := { p0 with biasInitialized := true }) h
  · obtain ⟨p, -, e, -⟩ := C42_average hf h0 h1 evs
    exact ⟨p, e⟩

/-- **C41**: with a negative `init_bias_size` (an `int` compared with a `size_t`) the biases are never
reported initialised in fewer than `2^63` calls. -/
theorem C41_negative_size_never_ready {p0 : ImuProp} {N : ℤ} (hf : BiasFresh p0 N) (h0 : N < 0) (h1 : -2 ^ 31 ≤ N)
    (evs : List BiasEv) (hl : evs.length < 2 ^ 63) :
    ∃ p, biasRun p0 evs = some p ∧ p.biasInitialized = false := by
  have hsz : 2 ^ 63 ≤ toSizeT N := by unfold toSizeT; omega
  have key : ∀ (es : List BiasEv) (p : ImuProp), p.staticInit = true → p.initBiasSize = N → p.biasInitialized = false →
      p.biasInitVec.length + es.length < 2 ^ 63 → ∃ q, biasRun p es = some q ∧ q.biasInitialized = false := by
    intro es
    induction es with
    | nil => intro p _ _ h _; exact ⟨p, rfl, h⟩
    | cons e es ih =>
      intro p hs hn hi hle
      simp only [List.length_cons] at hle
      cases e with
      | arrive m => exact ih { p with buffer := p.buffer ++ [m] } hs hn hi (by simp; omega)
      | call =>
        unfold biasRun biasStep ImuProp.initImuBias
        rw [if_neg (by simp [hs]), if_pos (by rw [hn]; omega)]
        cases hb : p.buffer with
        | nil => exact ih p hs hn hi (by omega)
        | cons m rest =>
          have := ih { p with buffer := rest, biasInitVec := p.biasInitVec ++ [p.biasSample m], prev := some m }
            hs hn hi (by simp; omega)
          simpa using this
  exact key evs p0 hf.static hf.size hf.flag (by rw [hf.empty]; simpa using hl)

example : BiasFresh (exBias (-1)) (-1) := ⟨rfl, rfl, rfl, rfl⟩

end Drift
