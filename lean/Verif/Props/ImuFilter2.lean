import Verif.Lemmas.Filter8
import Verif.Props.ImuFilter

/-!
# Properties C66, C68, C69, C72, C73: stalls, ignored sensors and unsafe configurations of the gyro filter
-/
set_option linter.unusedSimpArgs false
namespace Drift
open Matrix GyroFilter

/-! ### C66 -/

/-- **C66** is false: once the front of the IMU queue is older than the threshold, it is neither used nor removed:
whatever happens later (more measurements with later stamps, any number of runs, in any order), it stays at the
front and the filter never outputs anything again. -/
theorem C66_stale_front_blocks_forever (f : GyroFilter) (m : ImuMeas) (q : List ImuMeas)
    (hi : f.initialized = true) (hm : f.method = .singleImu) (hq : f.imu = some (m :: q))
    (hold : f.cfg.tThres < f.lastProp - m.time)
    (hg : ∀ gq, f.gyro = some gq → ∀ g ∈ gq, f.lastProp ≤ g.time)
    (l : List Op) (hl : ∀ o ∈ l, o.running) (hlt : ∀ g, Op.gyroData g ∈ l → f.lastProp ≤ g.time) :
    ∃ f', runOps l f = some f' ∧ (∃ q', f'.imu = some (m :: q')) ∧ f'.out <:+ f.out := by
  obtain ⟨f', h1, h2, h3⟩ := Blocked.ops (m := m) (T := f.lastProp) l f
    ⟨hi, hm, ⟨q, hq⟩, hold, le_refl _, hg⟩ hl hlt
  exact ⟨f', h1, h2.front, h3⟩

/-- the hypotheses are met: gyro samples at 1 and 2, then an IMU sample stamped 1.5 arrives (0.5 s late) -/
example : ∃ f m q, runOps [.addGyro, .addImu, .run, .gyroData ⟨1, 0, 0, Quat.id⟩, .run, .gyroData ⟨2, 0, 0, Quat.id⟩,
      .run, .imuData ⟨1.5, 0, 0, Quat.id⟩] (mk1 (exFCfg false)) = some f ∧
    f.initialized = true ∧ f.method = .singleImu ∧ f.imu = some (m :: q) ∧
    f.cfg.tThres < f.lastProp - m.time ∧ (∀ gq, f.gyro = some gq → ∀ g ∈ gq, f.lastProp ≤ g.time) := by
  refine ⟨_, ⟨1.5, 0, 0, Quat.id⟩, [], rfl, ?_⟩
  have e : ∀ f : GyroFilter, f.initialized = true → f.method = .singleImu → f.imu = some [] →
      f.runOnce = some f.propagate := by
    intro f h1 h2 h3
    obtain ⟨p1, p2, p3, p4, p5, _⟩ := propagate_frame f
    unfold runOnce correctStep
    rw [if_pos h1, p5, h2]
    dsimp only
    unfold singleImu
    rw [p2, h3]
  simp [runOps, step, mk1, addGyro, addImu, base, runOnce, initializeFilter, chooseMethod, exFCfg, propagate,
    correctStep, singleImu]
  norm_num

/-- **C66** is false in a second way: a single IMU without a gyro for propagation (the default) never produces any
output at all, for every history with stamps above -1 (`last_propagate_time_` stays -1 and the test requires
`last_propagate_time_ >= stamp`). -/
theorem C66_single_imu_alone_never_outputs (c : FCfg) (f : GyroFilter) (l : List Op) (hl : ∀ o ∈ l, o.running)
    (ht : ∀ m, Op.imuData m ∈ l → -1 < m.time) (h : runOps (.addImu :: l) (mk1 c) = some f) : f.out = [] := by
  rw [runOps] at h
  simp only [step, Option.bind_some] at h
  refine (Quiet.ops l _ f ?_ hl ht h).out
  unfold addImu mk1 base
  simp only [if_pos]
  exact ⟨rfl, rfl, rfl, rfl, fun q e m hm => by
      obtain rfl := Option.some.inj e
      simp at hm, fun h => by simp at h, by simp [chooseMethod], rfl⟩

open Classical in
/-- the IMU stamps in `(a, b]` -/
noncomputable def GyroFilter.between (I : List ImuMeas) (a b : ℝ) : List ImuMeas :=
  I.filter fun m => decide (a < m.time ∧ m.time ≤ b)

/-- the stamp of the last propagation after consuming `G` -/
def GyroFilter.lastStamp (t : ℝ) (G : List ImuMeas) : ℝ := (G.getLast?.map ImuMeas.time).getD t

private theorem lastStamp_cons (t : ℝ) (g : ImuMeas) (G : List ImuMeas) :
    lastStamp t (g :: G) = lastStamp g.time G := by
  unfold lastStamp
  cases G with
  | nil => rfl
  | cons h G => simp [List.getLast?_cons_cons, List.getLast?_cons]

private theorem lastStamp_le {R : ℝ → ℝ → Prop} (hR : ∀ a b, R a b → a ≤ b) : ∀ (G : List ImuMeas) (t : ℝ),
    (t :: G.map ImuMeas.time).IsChain R → t ≤ lastStamp t G
  | [], t, _ => le_refl _
  | g :: G, t, h => by
    rw [lastStamp_cons]
    rw [List.map_cons, List.isChain_cons_cons] at h
    exact (hR _ _ h.1).trans (lastStamp_le hR G _ h.2)

open Classical in
/-- **C66**, the part that holds: the single-IMU filter keeps up provided the data are paced, i.e. consecutive gyro
stamps are at most the threshold apart and at most one queued IMU stamp lies between two consecutive gyro stamps.
Then consuming the gyro queue consumes exactly the IMU measurements up to the last gyro stamp, each giving one
output with its stamp, in order; the later ones stay queued.
(Missing: without pacing, which the code neither enforces nor documents, the filter stalls, see
`C66_stale_front_blocks_forever`.) -/
theorem C66_paced_partial : ∀ (G I : List ImuMeas) (f : GyroFilter), SingleReady G I f →
    (I.map ImuMeas.time).Pairwise (· ≤ ·) → (∀ m ∈ I, f.lastProp < m.time) →
    (f.lastProp :: G.map ImuMeas.time).IsChain
      (fun a b => a ≤ b ∧ b - a ≤ f.cfg.tThres ∧ (between I a b).length ≤ 1) →
    ∃ f', runN G.length f = some f' ∧ f'.gyro = some [] ∧
      f'.imu = some (I.dropWhile fun m => decide (m.time ≤ lastStamp f.lastProp G)) ∧
      f'.out.map ImuMeas.time = f.out.map ImuMeas.time ++
        (I.takeWhile fun m => decide (m.time ≤ lastStamp f.lastProp G)).map ImuMeas.time
  | [], I, f, h, _, hI, _ => by
    refine ⟨f, rfl, h.gyro, ?_, ?_⟩
    · rw [h.imu]
      cases I with
      | nil => rfl
      | cons m I =>
        rw [List.dropWhile_cons_of_neg]
        exact fun k => absurd (of_decide_eq_true k) (not_le.mpr (hI m List.mem_cons_self))
    · cases I with
      | nil => simp
      | cons m I =>
        rw [List.takeWhile_cons_of_neg]
        · simp
        · exact fun k => absurd (of_decide_eq_true k) (not_le.mpr (hI m List.mem_cons_self))
  | g :: G, I, f, h, hs, hI, hc => by
    rw [List.map_cons, List.isChain_cons_cons] at hc
    obtain ⟨⟨c1, c2, c3⟩, hc⟩ := hc
    obtain ⟨p1, p2, p3, p4, p5, p6, p7, p8, p9, p10⟩ := propagate_frame f
    obtain ⟨g1, g2⟩ := propagate_gyro f
    rw [h.gyro] at g1 g2
    have hrun : f.runOnce = f.propagate.singleImu := by
      unfold runOnce correctStep
      rw [if_pos h.init, p5, h.method]
    have hT : g.time ≤ lastStamp g.time G := lastStamp_le (fun a b k => k.1) G _ hc
    have hpP := propagate_psd h.psd
    rw [lastStamp_cons]
    -- the IMU front is not consumed in this run
    have stay : f.propagate.singleImu = some f.propagate → (∀ m ∈ I, g.time < m.time) →
        ∃ f', runN (g :: G).length f = some f' ∧ f'.gyro = some [] ∧
          f'.imu = some (I.dropWhile fun m => decide (m.time ≤ lastStamp g.time G)) ∧
          f'.out.map ImuMeas.time = f.out.map ImuMeas.time ++
            (I.takeWhile fun m => decide (m.time ≤ lastStamp g.time G)).map ImuMeas.time := by
      intro e hI'
      have hl : f.propagate.lastProp = g.time := g2
      obtain ⟨f', k1, k2, k3, k4⟩ := C66_paced_partial G I f.propagate
        ⟨p8.trans h.init, p5.trans h.method, g1, p2.trans h.imu, hpP, by rw [p1]; exact h.noisy⟩ hs
        (by rw [hl]; exact hI') (by rw [hl, p1]; exact hc)
      rw [hl] at k3 k4
      refine ⟨f', ?_, k2, k3, by rw [k4, p9]⟩
      show f.runOnce.bind _ = _
      rw [hrun, e]; exact k1
    cases I with
    | nil =>
      refine stay ?_ (by simp)
      unfold singleImu
      rw [p2, h.imu]
    | cons m q =>
      rw [List.map_cons, List.pairwise_cons] at hs
      by_cases hm : m.time ≤ g.time
      · -- consumed
        have hmI := hI m List.mem_cons_self
        obtain ⟨x, P, hP', e⟩ := correctImu_total (f := { f.propagate with imu := some q }) hpP
          (by show Noisy f.propagate.cfg; rw [p1]; exact h.noisy) m
        have hlast : f.propagate.lastProp = g.time := g2
        have e2 : f.propagate.singleImu = some (push { f.propagate with
            imu := some q
            x := x
            P := P } { m with angVel := hd x }) := by
          unfold singleImu
          rw [p2, h.imu]
          dsimp only
          rw [if_pos ⟨by rw [hlast, p1]; linarith, by rw [hlast]; exact hm⟩, e]
          rfl
        have hq : ∀ m' ∈ q, g.time < m'.time := by
          intro m' hm'
          by_contra hcon
          rw [not_lt] at hcon
          have hb : between (m :: q) f.lastProp g.time = m :: between q f.lastProp g.time := by
            unfold between
            rw [List.filter_cons_of_pos]
            simpa using ⟨hmI, hm⟩
          have hb2 : m' ∈ between q f.lastProp g.time := by
            unfold between
            rw [List.mem_filter]
            exact ⟨hm', by simpa using ⟨hI m' (List.mem_cons_of_mem _ hm'), hcon⟩⟩
          rw [hb, List.length_cons] at c3
          have := List.length_pos_of_mem hb2
          omega
        obtain ⟨f', k1, k2, k3, k4⟩ := C66_paced_partial G q (push { f.propagate with
            imu := some q
            x := x
            P := P } { m with angVel := hd x })
          ⟨p8.trans h.init, p5.trans h.method, g1, rfl, hP', by show Noisy f.propagate.cfg; rw [p1]; exact h.noisy⟩
          hs.2 (by
            show ∀ m' ∈ q, f.propagate.lastProp < m'.time
            rw [hlast]; exact hq) (by
            show (f.propagate.lastProp :: _).IsChain fun a b => a ≤ b ∧ b - a ≤ f.propagate.cfg.tThres ∧ _
            rw [hlast, p1]
            refine List.IsChain.imp ?_ hc
            rintro a b ⟨d1, d2, d3⟩
            refine ⟨d1, d2, le_trans ?_ d3⟩
            unfold between
            exact ((List.sublist_cons_self m q).filter _).length_le)
        have hlast2 : (push { f.propagate with
            imu := some q
            x := x
            P := P } { m with angVel := hd x }).lastProp = g.time := hlast
        rw [hlast2] at k3 k4
        have hmT : m.time ≤ lastStamp g.time G := hm.trans hT
        refine ⟨f', ?_, k2, ?_, ?_⟩
        · show f.runOnce.bind _ = _
          rw [hrun, e2]; exact k1
        · rw [List.dropWhile_cons_of_pos (by simpa using hmT)]; exact k3
        · rw [List.takeWhile_cons_of_pos (by simpa using hmT), k4]
          simp [push, p9]
      · rw [not_le] at hm
        refine stay ?_ ?_
        · unfold singleImu
          rw [p2, h.imu]
          dsimp only
          rw [if_neg]
          have hlast : f.propagate.lastProp = g.time := g2
          rw [hlast]
          rintro ⟨_, k⟩
          exact absurd k (not_le.mpr hm)
        · intro m' hm'
          rcases List.mem_cons.mp hm' with rfl | k
          · exact hm
          · exact hm.trans_le (hs.1 _ (List.mem_map_of_mem k))

/-- the hypotheses are met after the first gyro sample: gyro at 10, then 10.01, 10.02, 10.03 queued together with IMU
stamps 10.01, 10.025 and 10.04 -/
example : ∃ f, runOps [.addGyro, .addImu, .run, .gyroData ⟨10, 0, 0, Quat.id⟩, .run,
      .gyroData ⟨10.01, 0, 0, Quat.id⟩, .gyroData ⟨10.02, 0, 0, Quat.id⟩, .gyroData ⟨10.03, 0, 0, Quat.id⟩,
      .imuData ⟨10.01, 0, 0, Quat.id⟩, .imuData ⟨10.025, 0, 0, Quat.id⟩, .imuData ⟨10.04, 0, 0, Quat.id⟩]
      (mk1 (exFCfg false)) = some f ∧
    ∃ G I, SingleReady G I f ∧ G.length = 3 ∧ I.length = 3 ∧ (I.map ImuMeas.time).Pairwise (· ≤ ·) ∧
      (∀ m ∈ I, f.lastProp < m.time) ∧ (f.lastProp :: G.map ImuMeas.time).IsChain
      (fun a b => a ≤ b ∧ b - a ≤ f.cfg.tThres ∧ (between I a b).length ≤ 1) := by
  refine ⟨_, rfl, [⟨10.01, 0, 0, Quat.id⟩, ⟨10.02, 0, 0, Quat.id⟩, ⟨10.03, 0, 0, Quat.id⟩],
    [⟨10.01, 0, 0, Quat.id⟩, ⟨10.025, 0, 0, Quat.id⟩, ⟨10.04, 0, 0, Quat.id⟩], ⟨?_, ?_, ?_, ?_, ?_, ?_⟩, rfl, rfl, ?_, ?_, ?_⟩
  · simp [runOps, step, mk1, addGyro, addImu, base, runOnce, initializeFilter, chooseMethod, exFCfg, propagate,
      correctStep, singleImu]
  · simp [runOps, step, mk1, addGyro, addImu, base, runOnce, initializeFilter, chooseMethod, exFCfg, propagate,
      correctStep, singleImu]
  · simp [runOps, step, mk1, addGyro, addImu, base, runOnce, initializeFilter, chooseMethod, exFCfg, propagate,
      correctStep, singleImu]
  · simp [runOps, step, mk1, addGyro, addImu, base, runOnce, initializeFilter, chooseMethod, exFCfg, propagate,
      correctStep, singleImu]
  · refine C65_covariance_psd (exFCfg false) (mk1 (exFCfg false)) _ (Or.inl rfl) [.addGyro, .addImu, .run, .gyroData ⟨10, 0, 0, Quat.id⟩, .run,
      .gyroData ⟨10.01, 0, 0, Quat.id⟩, .gyroData ⟨10.02, 0, 0, Quat.id⟩, .gyroData ⟨10.03, 0, 0, Quat.id⟩,
      .imuData ⟨10.01, 0, 0, Quat.id⟩, .imuData ⟨10.025, 0, 0, Quat.id⟩, .imuData ⟨10.04, 0, 0, Quat.id⟩] rfl
  · exact exFCfg_noisy false
  · norm_num
  · simp [runOps, step, mk1, addGyro, addImu, base, runOnce, initializeFilter, chooseMethod, exFCfg, propagate,
      correctStep, singleImu]
    norm_num
  · simp [runOps, step, mk1, addGyro, addImu, base, runOnce, initializeFilter, chooseMethod, exFCfg, propagate,
      correctStep, singleImu, between, List.filter_cons]
    norm_num

/-! ### C68 -/

/-- a measurement of the IMU registered first -/
def GyroFilter.Op.isFirstImu : Op → Bool
  | .imuData _ => true
  | _ => false
/-- the measurements of the IMU registered first in a history -/
def GyroFilter.firstImuData (l : List Op) : List ImuMeas :=
  l.filterMap fun o => match o with
    | .imuData m => some m
    | _ => none

/-- **C68** is false: with two or more IMUs, after initialisation the measurements of the IMU registered first are never
consumed (its queue only grows) and have no effect whatsoever: deleting all of them from the history leads to the same
filter, except for that queue. -/
theorem C68_first_imu_ignored : ∀ (l : List Op) (f : GyroFilter), MultiReady f → (∀ o ∈ l, o.running) →
    ∃ f', runOps l f = some f' ∧ f'.imu = f.imu.map (· ++ firstImuData l) ∧
      runOps (l.filter fun o => !o.isFirstImu) f = some { f' with imu := f.imu }
  | [], f, h, _ => ⟨f, rfl, by simp [firstImuData], rfl⟩
  | o :: l, f, h, ho => by
    have hol := fun o ho' => ho o (List.mem_cons_of_mem _ ho')
    have ho1 := ho o List.mem_cons_self
    have generic : ∀ g, f.step o = some g → MultiReady g → g.imu = f.imu → o.isFirstImu = false →
        firstImuData (o :: l) = firstImuData l →
        ∃ f', runOps (o :: l) f = some f' ∧ f'.imu = f.imu.map (· ++ firstImuData (o :: l)) ∧
          runOps ((o :: l).filter fun o => !o.isFirstImu) f = some { f' with imu := f.imu } := by
      intro g e hg hi hb hd
      obtain ⟨f', k1, k2, k3⟩ := C68_first_imu_ignored l g hg hol
      refine ⟨f', by rw [runOps, e]; exact k1, by rw [hd, ← hi]; exact k2, ?_⟩
      rw [List.filter_cons_of_pos (by rw [hb]; rfl), runOps, e, Option.bind_some, k3, hi]
    cases o with
    | run =>
      obtain ⟨g, e, hg, _, hi, _⟩ := h.run
      exact generic g e hg hi rfl rfl
    | clear => exact absurd ho1 (by simp [Op.running])
    | addGyro => exact absurd ho1 (by simp [Op.running])
    | addImu => exact absurd ho1 (by simp [Op.running])
    | addAngVel => exact absurd ho1 (by simp [Op.running])
    | gyroData m => exact generic _ rfl ⟨h.init, h.method, h.psd, h.noisy⟩ rfl rfl rfl
    | imuDataN i m => exact generic _ rfl ⟨h.init, h.method, h.psd, h.noisy⟩ rfl rfl rfl
    | encData m => exact generic _ rfl ⟨h.init, h.method, h.psd, h.noisy⟩ rfl rfl rfl
    | popOut => exact generic _ rfl ⟨h.init, h.method, h.psd, h.noisy⟩ rfl rfl rfl
    | imuData m =>
      obtain ⟨f', k1, k2, k3⟩ := C68_first_imu_ignored l { f with imu := f.imu.map (· ++ [m]) }
        ⟨h.init, h.method, h.psd, h.noisy⟩ hol
      obtain ⟨f₂, j1, j2, j3⟩ := C68_first_imu_ignored l f h hol
      refine ⟨f', k1, ?_, ?_⟩
      · rw [k2]
        show Option.map _ (f.imu.map _) = f.imu.map fun x => x ++ m :: firstImuData l
        rw [Option.map_map]
        congr 1
        funext x
        simp
      · rw [List.filter_cons_of_neg (by simp [Op.isFirstImu]), j3]
        have key := runOps_withImu l f h hol (f.imu.map (· ++ [m]))
        rw [j1] at key
        rw [k1] at key
        obtain ⟨X, hX⟩ := key
        rw [Option.map_some, Option.some.injEq] at hX
        rw [hX]
where
  runOps_withImu : ∀ (l : List Op) (f : GyroFilter), MultiReady f → (∀ o ∈ l, o.running) →
      ∀ X, ∃ Y, runOps l { f with imu := X } = (runOps l f).map fun r => { r with imu := Y }
  | [], f, _, _, X => ⟨X, rfl⟩
  | o :: l, f, h, ho, X => by
    have hol := fun o ho' => ho o (List.mem_cons_of_mem _ ho')
    have ho1 := ho o List.mem_cons_self
    have generic : ∀ g Z, f.step o = some g → MultiReady g → step { f with imu := X } o = some { g with imu := Z } →
        ∃ Y, runOps (o :: l) { f with imu := X } = (runOps (o :: l) f).map fun r => { r with imu := Y } := by
      intro g Z e hg e2
      obtain ⟨Y, hY⟩ := runOps_withImu l g hg hol Z
      exact ⟨Y, by rw [runOps, runOps, e, e2]; exact hY⟩
    cases o with
    | run =>
      obtain ⟨g, e, hg, _⟩ := h.run
      refine generic g X e hg ?_
      show runOnce _ = _
      rw [multi_run_withImu h X, e]
      rfl
    | clear => exact absurd ho1 (by simp [Op.running])
    | addGyro => exact absurd ho1 (by simp [Op.running])
    | addImu => exact absurd ho1 (by simp [Op.running])
    | addAngVel => exact absurd ho1 (by simp [Op.running])
    | gyroData m => exact generic _ _ rfl ⟨h.init, h.method, h.psd, h.noisy⟩ rfl
    | imuDataN i m => exact generic _ _ rfl ⟨h.init, h.method, h.psd, h.noisy⟩ rfl
    | encData m => exact generic _ _ rfl ⟨h.init, h.method, h.psd, h.noisy⟩ rfl
    | popOut => exact generic _ _ rfl ⟨h.init, h.method, h.psd, h.noisy⟩ rfl
    | imuData m => exact generic _ _ rfl ⟨h.init, h.method, h.psd, h.noisy⟩ rfl

/-- **C68**, the part that holds: the queues of all the other IMUs are consumed: `n` runs remove the first `n`
measurements of each.  (Missing: the first IMU, see `C68_first_imu_ignored`.) -/
theorem C68_others_consumed_partial : ∀ (n : ℕ) (f : GyroFilter), MultiReady f →
    ∃ f', runN n f = some f' ∧ f'.imus = f.imus.map (List.drop n) ∧ f'.imu = f.imu
  | 0, f, h => ⟨f, rfl, by rw [show List.drop 0 = (id : List ImuMeas → _) from rfl, List.map_id], rfl⟩
  | n + 1, f, h => by
    obtain ⟨g, e, hg, k1, k2, _⟩ := h.run
    obtain ⟨f', j1, j2, j3⟩ := C68_others_consumed_partial n g hg
    refine ⟨f', ?_, ?_, j3.trans k2⟩
    · show f.runOnce.bind _ = _
      rw [e]; exact j1
    · rw [j2, k1, List.map_map]
      congr 1
      funext q
      simp [List.drop_tail]

/-- the hypotheses are met after registering three IMUs and the initialising run -/
theorem ex_reaches_multi (c : FCfg) (hs : c.staticBias = false) (hn : Noisy c) :
    ∃ f, runOps [.addGyro, .addImu, .addImu, .addImu, .run] (mk1 c) = some f ∧ MultiReady f ∧ f.imu = some [] ∧
      f.imus = [[], []] ∧ f.gyro = some [] ∧ f.cfg = c ∧ f.out = [] := by
  refine ⟨{ base c with
    gyro := some []
    imu := some []
    imus := [[], []]
    numImu := 3
    method := .multiImu
    initialized := true }, ?_, ⟨rfl, rfl, diag6_psd _ _, hn⟩, rfl, rfl, rfl, rfl, rfl⟩
  simp [runOps, step, mk1, addGyro, addImu, runOnce, initializeFilter, chooseMethod, base, hs]

example : ∃ f f', runOps [.addGyro, .addImu, .addImu, .addImu, .run] (mk1 (exFCfg false)) = some f ∧
    runOps [.imuData ⟨1, 0, 0, Quat.id⟩, .run, .imuData ⟨2, 0, 0, Quat.id⟩, .run] f = some f' ∧
    f'.imu = some [⟨1, 0, 0, Quat.id⟩, ⟨2, 0, 0, Quat.id⟩] := by
  obtain ⟨f, h, hm, hi, _⟩ := ex_reaches_multi (exFCfg false) rfl (exFCfg_noisy _)
  obtain ⟨f', h1, h2, _⟩ := C68_first_imu_ignored [.imuData ⟨1, 0, 0, Quat.id⟩, .run, .imuData ⟨2, 0, 0, Quat.id⟩, .run]
    f hm (by simp [Op.running])
  exact ⟨f, f', h, h1, by rw [h2, hi]; rfl⟩

/-! ### C69 -/

/-- **C69** is false: if one IMU delivers an acceptable measurement and the next one a measurement that is too old, the
output of the first is pushed a second time. -/
theorem C69_duplicate_output (f : GyroFilter) (h : MultiReady f) (m₁ m₂ : ImuMeas) (q₁ q₂ : List ImuMeas)
    (hq : f.imus = [m₁ :: q₁, m₂ :: q₂]) (h1 : f.propagate.Fresh m₁.time) (h2 : ¬ f.propagate.Fresh m₂.time) :
    ∃ f' o, f.runOnce = some f' ∧ f'.out = f.out ++ [o, o] ∧ o.time = m₁.time ∧ o.linAcc = m₁.linAcc := by
  obtain ⟨p1, p2, p3, p4, p5, p6, p7, p8, p9, p10⟩ := propagate_frame f
  obtain ⟨x, P, hP', e⟩ := correctImu_total (propagate_psd h.psd) (by rw [p1]; exact h.noisy) m₁
  have e1 : f.runOnce = f.propagate.multiImu := by
    unfold runOnce correctStep
    rw [if_pos h.init, p5, h.method]
  have e2 : multiLoop f.propagate.imus none f.propagate = some ([q₁, q₂],
      ((push { f.propagate with x := x, P := P } { m₁ with angVel := hd x }).push { m₁ with angVel := hd x })) := by
    rw [p3, hq, multiLoop, if_pos h1, e]
    simp only [Option.map_some, Option.bind_some]
    rw [multiLoop, if_neg (by exact h2)]
    simp only [Option.bind_some, multiLoop, Option.map_some]
  refine ⟨{ ((push { f.propagate with x := x, P := P } { m₁ with angVel := hd x }).push { m₁ with angVel := hd x }) with
    imus := [q₁, q₂] }, { m₁ with angVel := hd x }, ?_, ?_, rfl, rfl⟩
  · rw [e1]
    unfold multiImu
    rw [e2]
    rfl
  · show (f.propagate.out ++ [_]) ++ [_] = _
    rw [p9]; simp

/-- the hypotheses are met: gyro at 10, the second IMU at 10, the third at 5 -/
example : ∃ f, runOps [.addGyro, .addImu, .addImu, .addImu, .run, .gyroData ⟨10, 0, 0, Quat.id⟩,
      .imuDataN 0 ⟨10, 0, 0, Quat.id⟩, .imuDataN 1 ⟨5, 0, 0, Quat.id⟩] (mk1 (exFCfg false)) = some f ∧
    MultiReady f ∧ f.imus = [[⟨10, 0, 0, Quat.id⟩], [⟨5, 0, 0, Quat.id⟩]] ∧ f.propagate.Fresh 10 ∧ ¬ f.propagate.Fresh 5 := by
  obtain ⟨f, h, hm, h1, h2, h3, h4, h5⟩ := ex_reaches_multi (exFCfg false) rfl (exFCfg_noisy _)
  refine ⟨{ f with
    gyro := some [⟨10, 0, 0, Quat.id⟩]
    imus := [[⟨10, 0, 0, Quat.id⟩], [⟨5, 0, 0, Quat.id⟩]] }, ?_, ⟨hm.init, hm.method, hm.psd, hm.noisy⟩, rfl, ?_, ?_⟩
  · show runOps ([.addGyro, .addImu, .addImu, .addImu, .run] ++ [.gyroData ⟨10, 0, 0, Quat.id⟩,
      .imuDataN 0 ⟨10, 0, 0, Quat.id⟩, .imuDataN 1 ⟨5, 0, 0, Quat.id⟩]) (mk1 (exFCfg false)) = _
    rw [runOps_append, h, Option.bind_some]
    simp [runOps, step, h2, h3]
  · right
    show (10 : ℝ) - 10 ≤ f.cfg.tThres
    rw [h4]; norm_num [exFCfg]
  · rintro (k | k)
    · have k' : (10 : ℝ) = -1 := k
      norm_num at k'
    · have k' : (10 : ℝ) - 5 ≤ f.cfg.tThres := k
      rw [h4] at k'; norm_num [exFCfg] at k'

/-- **C69**, the part that holds: if no front is too old, one run outputs exactly one measurement for each non-empty
queue, in registration order, with its stamp and acceleration.  (Missing: when some front is too old, outputs are
repeated, see `C69_duplicate_output`.) -/
theorem C69_one_output_each_partial (f : GyroFilter) (h : MultiReady f)
    (hf : ∀ q ∈ f.imus, ∀ m ∈ q.head?, f.propagate.Fresh m.time) :
    ∃ f' outs, f.runOnce = some f' ∧ f'.out = f.out ++ outs ∧ f'.imus = f.imus.map List.tail ∧
      outs.map ImuMeas.time = (f.imus.filterMap List.head?).map ImuMeas.time ∧
      outs.map ImuMeas.linAcc = (f.imus.filterMap List.head?).map ImuMeas.linAcc := by
  obtain ⟨f', e, _, k1, _, _, _, _, k⟩ := h.run
  obtain ⟨outs, j1, j2, j3⟩ := k hf
  exact ⟨f', outs, e, j1, k1, j2, j3⟩

/-- the hypotheses are met whenever no gyro is used (then nothing is ever too old) -/
example : ∃ f, runOps [.addImu, .addImu, .addImu, .run, .imuDataN 0 ⟨10, 0, 0, Quat.id⟩,
      .imuDataN 1 ⟨5, 0, 0, Quat.id⟩] (mk1 (exFCfg false)) = some f ∧
    MultiReady f ∧ (∀ q ∈ f.imus, ∀ m ∈ q.head?, f.propagate.Fresh m.time) := by
  refine ⟨{ base (exFCfg false) with
    imu := some []
    imus := [[⟨10, 0, 0, Quat.id⟩], [⟨5, 0, 0, Quat.id⟩]]
    numImu := 3
    method := .multiImu
    initialized := true }, ?_, ⟨rfl, rfl, diag6_psd _ _, exFCfg_noisy _⟩, fun _ _ _ _ => Or.inl rfl⟩
  simp [runOps, step, mk1, addGyro, addImu, runOnce, initializeFilter, chooseMethod, base, exFCfg]

/-! ### C72 -/

/-- **C72** is false: with an encoder as the only correction sensor (a supported combination) and static bias
initialisation, the first run dereferences the IMU buffer pointer that was never set. -/
theorem C72_encoder_static_undefined (c : FCfg) (hs : c.staticBias = true) (hn : 0 < c.initBiasSize)
    (h63 : c.initBiasSize < 2 ^ 63) : runOps [.addGyro, .addAngVel, .run] (mk1 c) = none := by
  have ht := toSize_of_pos hn.le h63
  simp [runOps, step, mk1, addGyro, addAngVel, runOnce, initializeFilter, base, hs, ht, hn, collectBias]

/-- **C72** is false: with `init_bias_size: 0` the bias is 0/0. -/
theorem C72_zero_size_undefined (c : FCfg) (hs : c.staticBias = true) (hn : c.initBiasSize = 0) :
    runOps [.addImu, .run] (mk1 c) = none := by
  simp [runOps, step, mk1, addImu, runOnce, initializeFilter, base, hs, hn, toSize, finishInit]

/-- **C72** is false: with a negative `init_bias_size` the comparison converts it to an enormous unsigned number, so no
history of at most 2^63 events finishes the initialisation, and nothing is output. -/
theorem C72_negative_size_never_starts (c : FCfg) (hs : c.staticBias = true) (hn : c.initBiasSize < 0)
    (h63 : -2 ^ 63 ≤ c.initBiasSize) (reg l : List Op) (hreg : ∀ o ∈ reg, o.isAdd = true) (hl : ∀ o ∈ l, o.running)
    (hlen : l.length ≤ 2 ^ 63) (f : GyroFilter) (hf : runOps (reg ++ l) (mk1 c) = some f) :
    f.initialized = false ∧ f.out = [] := by
  obtain ⟨f₁, e, r⟩ := Registered.add reg 0 0 _ (registered_mk1 c) hreg
  rw [runOps_append, e, Option.bind_some] at hf
  have ht : 2 ^ 63 ≤ toSize c.initBiasSize := by
    unfold toSize
    have : c.initBiasSize % 2 ^ 64 = c.initBiasSize + 2 ^ 64 := by
      rw [← Int.add_emod_right, Int.emod_eq_of_lt (by omega) (by omega)]
    rw [this]
    omega
  have := Collecting.ops l (n := toSize c.initBiasSize) (f := f₁) (f' := f)
    ⟨by rw [r.cfg]; exact hs, r.init, r.target, regs_out reg (mk1 c) f₁ hreg rfl e⟩ (by
      rw [regs_biasVec reg (mk1 c) f₁ hreg rfl e]
      simp only [List.length_nil, Nat.zero_add]
      omega) hl hf
  exact ⟨this.init, this.out⟩

/-- **C72** is false: the constructor used by the estimator never sets the number of samples, so static bias
initialisation reads an uninitialised variable. -/
theorem C72_estimator_static_undefined (c : FCfg) (hs : c.staticBias = true) : runOps [.run] (mk5 c) = none := by
  simp [runOps, step, mk5, runOnce, initializeFilter, base, hs]

/-- `clear()` dereferences the encoder buffer pointer even when no encoder was registered. -/
theorem C72_clear_undefined (c : FCfg) : runOps [.addImu, .clear] (mk1 c) = none := by
  simp [runOps, step, mk1, addImu, clear, base]

/-- **C72**, the part that holds: after registering any supported combination of sensors (in any order, with or
without a gyro), with nonzero measurement noises, and for static bias initialisation at least one IMU and a positive
number of samples, no history of measurements, runs and consumer pops is undefined.
(Missing: the cases refuted above.) -/
theorem C72_defined_partial (c : FCfg) (hn : Noisy c) (reg l : List Op) (hreg : ∀ o ∈ reg, o.isAdd = true)
    (hs : Supported (reg.countP Op.isAddImu) (reg.countP Op.isAddAngVel))
    (hst : c.staticBias = true → 0 < reg.countP Op.isAddImu ∧ 0 < c.initBiasSize ∧ c.initBiasSize < 2 ^ 63)
    (hl : ∀ o ∈ l, o.running) : ∃ f, runOps (reg ++ l) (mk1 c) = some f := by
  obtain ⟨f, e, r⟩ := Registered.add reg 0 0 _ (registered_mk1 c) hreg
  rw [Nat.zero_add, Nat.zero_add] at r
  obtain ⟨f', e', _⟩ := Safe.ops l f (r.safe hs hn fun k => ⟨(hst k).1, by
    rw [toSize_of_pos (hst k).2.1.le (hst k).2.2]
    have := (hst k).2.1
    omega⟩) hl
  exact ⟨f', by rw [runOps_append, e]; exact e'⟩

example : ∃ f, runOps ([.addImu, .addGyro, .addImu] ++ [.imuData ⟨1, 0, 0, Quat.id⟩, .run, .run]) (mk1 (exFCfg true)) =
    some f :=
  C72_defined_partial _ (exFCfg_noisy _) _ _ (by simp [Op.isAdd]) (Or.inr (Or.inr (Or.inr (by decide))))
    (fun _ => by simp [exFCfg, List.countP_cons, Op.isAddImu]) (by simp [Op.running])

/-- **C72**: static initialisation averages the first `init_bias_size` gyro readings of the (first) IMU: they are
consumed, one per run, and in the run after the last one the filter starts with zero angular velocity and this bias;
nothing is output meanwhile. -/
theorem C72_bias_is_mean (c : FCfg) (reg : List Op) (Q R : List ImuMeas) (hreg : ∀ o ∈ reg, o.isAdd = true)
    (hs : Supported (reg.countP Op.isAddImu) (reg.countP Op.isAddAngVel)) (hi : 0 < reg.countP Op.isAddImu)
    (hst : c.staticBias = true) (hn : (Q.length : ℤ) = c.initBiasSize) (h0 : 0 < c.initBiasSize)
    (h63 : c.initBiasSize < 2 ^ 63) (f : GyroFilter) (hf : runOps reg (mk1 c) = some f) :
    ∃ f', runN (Q.length + 1) { f with imu := some (Q ++ R) } = some f' ∧ f'.initialized = true ∧ f'.out = f.out ∧
      (∀ i, hd f'.x i = 0) ∧ ∀ i, tl f'.x i = (Q.map fun m => m.angVel i).sum / Q.length := by
  obtain ⟨f₁, e, r⟩ := Registered.add reg 0 0 _ (registered_mk1 c) hreg
  rw [hf] at e
  obtain rfl := Option.some.inj e
  rw [Nat.zero_add, Nat.zero_add] at r
  have ht : f.biasTarget = some Q.length := by
    rw [r.target, toSize_of_pos h0.le h63, ← hn, Int.toNat_natCast]
  have hv : f.biasVec = [] := by
    refine regs_biasVec reg (mk1 c) f hreg rfl hf
  obtain ⟨f', k1, k2, k3, k4, k5, k6, k7, k8, k9, k10⟩ := collect_runs Q.length Q R { f with imu := some (Q ++ R) }
    (by show f.cfg.staticBias = true; rw [r.cfg]; exact hst) r.init ht (by
      show f.biasVec.length + _ = _
      rw [hv]; simp) rfl
  have hneed : f'.Need f'.chooseMethod := by
    rw [k8]
    have h1 : f.Need f.chooseMethod := r.need hs
    exact h1.mono (fun _ => by rw [k5]; rfl) fun h => by rw [k7]; exact h
  obtain ⟨g, j1, j2, j3, j4, j5, j6, j7⟩ := finish_run (n := Q.length) (f := f') (by rw [k2]; show f.cfg.staticBias = true; rw [r.cfg]; exact hst)
    k3 k4 (by rw [k6]; show (f.biasVec ++ _).length = _; rw [hv]; simp) (by omega) hneed
  refine ⟨g, ?_, j2, j4.trans k9, ?_, ?_⟩
  · rw [runN_add, k1, Option.bind_some]
    show f'.runOnce.bind _ = _
    rw [j1]; rfl
  · intro i
    rw [j3]
    fin_cases i <;> simp [hd, join]
  · intro i
    rw [j3, k6]
    show tl (join 0 (mean (f.biasVec ++ Q.map ImuMeas.angVel))) i = _
    rw [hv, List.nil_append]
    have e1 : ∀ v, tl (join 0 v) = v := by
      intro v; funext j; fin_cases j <;> simp [tl, join]
    rw [e1]
    unfold mean
    rw [List.length_map, Pi.smul_apply, foldl_apply, smul_eq_mul, List.map_map]
    simp [div_eq_inv_mul, Function.comp_def]

/-- the hypotheses are met -/
example : ∃ c : FCfg, c.staticBias = true ∧ c.initBiasSize < 0 ∧ ∃ f, runOps ([.addImu] ++ [.imuData ⟨1, 0, 0, Quat.id⟩, .run])
    (mk1 c) = some f ∧ f.imu = some [] := by
  refine ⟨{ exFCfg true with initBiasSize := -1 }, rfl, by simp, ?_⟩
  simp [runOps, step, mk1, addImu, runOnce, initializeFilter, base, toSize, collectBias, exFCfg]

/-! ### C73 -/

/-- **C73** is false: with an encoder as the only correction sensor and no gyro for propagation (a combination accepted
without complaint), no history of measurements and runs ever yields an output. -/
theorem C73_encoder_alone_never_outputs (c : FCfg) (f : GyroFilter) (l : List Op) (hl : ∀ o ∈ l, o.running)
    (h : runOps (.addAngVel :: l) (mk1 c) = some f) : f.out = [] := by
  rw [runOps] at h
  simp only [step, Option.bind_some] at h
  have key : ∀ (l : List Op) (g : GyroFilter), EncQuiet g → (∀ o ∈ l, o.running) → runOps l g = some f → f.out = [] := by
    intro l
    induction l with
    | nil => intro g hg _ e; obtain rfl := Option.some.inj e; exact hg.out
    | cons o l ih =>
      intro g hg ho e
      rw [runOps, Option.bind_eq_some_iff] at e
      obtain ⟨g', e1, e2⟩ := e
      exact ih g' (hg.step (ho o List.mem_cons_self) e1) (fun o ho' => ho o (List.mem_cons_of_mem _ ho')) e2
  refine key l _ ⟨rfl, rfl, rfl, rfl, rfl, fun h => by simp [addAngVel, mk1, base] at h, rfl⟩ hl h

/-- the hypotheses are met -/
example : ∃ f, runOps (.addAngVel :: [.run, .encData ⟨1, 0⟩, .run]) (mk1 (exFCfg false)) = some f ∧ f.enc = some [] := by
  simp [runOps, step, mk1, addAngVel, runOnce, initializeFilter, base, exFCfg, chooseMethod, propagate, correctStep,
    angVelCorr]

/-- **C73** is false: the filter created by the estimator (which registers an IMU and an encoder) never outputs anything
unless `correction_method` is 0 in the yaml file, because the numbers of sensors stay 0. -/
theorem C73_estimator_filter_never_outputs (c : FCfg) (hm : c.method ≠ .imuPlusAngVel) (f : GyroFilter) (l : List Op)
    (hl : ∀ o ∈ l, o.running) (ht : ∀ m, Op.imuData m ∈ l → -1 < m.time) (h : runOps l (mk5 c) = some f) :
    f.out = [] := by
  refine (Quiet.ops l _ f ⟨rfl, rfl, rfl, rfl, fun q e m hm => ?_, fun h => by simp [mk5, base] at h, ?_, rfl⟩ hl ht h).out
  · obtain rfl := Option.some.inj e
    simp at hm
  · simpa [chooseMethod, mk5, base] using hm

/-- the hypotheses are met -/
example : ∃ f, runOps [.run, .imuData ⟨1, 0, 0, Quat.id⟩, .encData ⟨1, 0⟩, .run]
    (mk5 { exFCfg false with method := .singleImu }) = some f ∧ f.out = [] := by
  simp [runOps, step, mk5, runOnce, initializeFilter, base, exFCfg, chooseMethod, propagate, correctStep, singleImu]
  norm_num

/-- **C73**, the part that holds for the encoder-only combination with a gyro: once one gyro sample has been
propagated, every queued encoder measurement yields exactly one output, with its stamp, in order, one per run.
(For the other combinations see `C66_paced_partial`, `C67_random_walk_outputs` and `C69_one_output_each_partial`.) -/
theorem C73_encoder_with_gyro_partial : ∀ (E : List AngVelMeas) (f : GyroFilter), f.initialized = true →
    f.method = .angVel → f.enc = some E → f.latest.isSome → f.P.PosSemidef → Noisy f.cfg →
    ∃ f', runN E.length f = some f' ∧ f'.enc = some [] ∧
      f'.out.map ImuMeas.time = f.out.map ImuMeas.time ++ E.map AngVelMeas.time
  | [], f, _, _, he, _, _, _ => ⟨f, rfl, he, by simp⟩
  | a :: E, f, hi, hm, he, hl, hP, hn => by
    obtain ⟨p1, p2, p3, p4, p5, p6, p7, p8, p9, p10⟩ := propagate_frame f
    have hl' : f.propagate.latest.isSome := by
      unfold propagate
      dsimp only
      split
      · exact hl
      · exact hl
      · rw [if_pos hm]; rfl
    obtain ⟨m, hm'⟩ := Option.isSome_iff_exists.mp hl'
    obtain ⟨x, P, hP', e⟩ := correctEnc_total (propagate_psd hP) (by rw [p1]; exact hn) m a
    obtain ⟨f', k1, k2, k3⟩ := C73_encoder_with_gyro_partial E { (push { f.propagate with
        x := x
        P := P } { m with
        angVel := hd x
        time := a.time }) with enc := some E } (p8.trans hi) (p5.trans hm) rfl hl' hP'
      (by show Noisy f.propagate.cfg; rw [p1]; exact hn)
    refine ⟨f', ?_, k2, ?_⟩
    · show f.runOnce.bind _ = _
      have er : f.runOnce = some { (push { f.propagate with
        x := x
        P := P } { m with
        angVel := hd x
        time := a.time }) with enc := some E } := by
        unfold runOnce correctStep
        rw [if_pos hi, p5, hm]
        dsimp only
        rw [angVelCorr_some (p4.trans he) hm', e]
        rfl
      rw [er]
      exact k1
    · rw [k3]
      show (f.propagate.out ++ [_]).map _ ++ _ = _
      rw [p9]; simp

/-- the hypotheses are met after one gyro sample -/
example : ∃ f, runOps [.addGyro, .addAngVel, .run, .gyroData ⟨1, 0, 0, Quat.id⟩, .run, .encData ⟨1, 0⟩, .encData ⟨2, 0⟩]
    (mk1 (exFCfg false)) = some f ∧ f.initialized = true ∧ f.method = .angVel ∧ f.enc = some [⟨1, 0⟩, ⟨2, 0⟩] ∧
    f.latest.isSome ∧ f.P.PosSemidef ∧ Noisy f.cfg := by
  have h : ∃ f, runOps [.addGyro, .addAngVel, .run, .gyroData ⟨1, 0, 0, Quat.id⟩, .run, .encData ⟨1, 0⟩, .encData ⟨2, 0⟩]
    (mk1 (exFCfg false)) = some f ∧ f.initialized = true ∧ f.method = .angVel ∧ f.enc = some [⟨1, 0⟩, ⟨2, 0⟩] ∧
    f.latest.isSome ∧ f.cfg = exFCfg false := by
    simp [runOps, step, mk1, addGyro, addAngVel, runOnce, initializeFilter, base, exFCfg, chooseMethod, propagate,
      correctStep, angVelCorr]
  obtain ⟨f, h1, h2, h3, h4, h5, h6⟩ := h
  exact ⟨f, h1, h2, h3, h4, h5, C65_covariance_psd _ _ f (Or.inl rfl) _ h1, by rw [h6]; exact exFCfg_noisy _⟩

end Drift
