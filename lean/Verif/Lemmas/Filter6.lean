import Verif.Lemmas.Filter5

/-! Helper lemmas for the gyro filter: configurations that never output, blocked queues, pacing. -/
namespace Drift
open Matrix
namespace GyroFilter

/-- A filter that has nothing to output and never will (without a gyro and without the IMU + encoder method). -/
structure Quiet (f : GyroFilter) : Prop where
  gyro : f.gyro = none
  imus : f.imus = []
  lastProp : f.lastProp = -1
  latest : f.latest = none
  imu : ∀ q, f.imu = some q → ∀ m ∈ q, -1 < m.time
  method : f.initialized = true → f.method ≠ .imuPlusAngVel
  choose : f.chooseMethod ≠ .imuPlusAngVel
  out : f.out = []

theorem Quiet.propagate {f : GyroFilter} (h : Quiet f) : Quiet f.propagate := by
  unfold GyroFilter.propagate
  rw [h.gyro]
  exact ⟨rfl, h.imus, h.lastProp, h.latest, h.imu, h.method, h.choose, h.out⟩

theorem Quiet.correct {f f' : GyroFilter} (h : Quiet f) (hi : f.initialized = true) (hr : f.correctStep = some f') : Quiet f' := by
  unfold correctStep at hr
  split at hr
  · rename_i hm; exact absurd hm (h.method hi)
  · unfold singleImu at hr
    split at hr
    · simp at hr
    · obtain rfl := Option.some.inj hr; exact h
    · rename_i m q e
      rw [if_neg] at hr
      · obtain rfl := Option.some.inj hr; exact h
      · rw [h.lastProp]
        rintro ⟨_, h2⟩
        have := h.imu _ e m List.mem_cons_self
        linarith
  · unfold multiImu at hr
    rw [h.imus, multiLoop, Option.map_some] at hr
    obtain rfl := Option.some.inj hr
    exact ⟨h.gyro, rfl, h.lastProp, h.latest, h.imu, h.method, h.choose, h.out⟩
  · unfold angVelCorr at hr
    rw [h.latest] at hr
    split at hr
    · simp at hr
    · obtain rfl := Option.some.inj hr; exact h
    · obtain rfl := Option.some.inj hr
      exact ⟨h.gyro, h.imus, h.lastProp, rfl, h.imu, h.method, h.choose, h.out⟩
  · obtain rfl := Option.some.inj hr; exact h

/-- fields that initialisation leaves alone -/
theorem initialize_frame {f f' : GyroFilter} (h : f.initializeFilter = some f') :
    f'.numImu = f.numImu ∧ f'.numAngVel = f.numAngVel ∧ f'.method = f.method ∧ f'.lastProp = f.lastProp ∧
      f'.latest = f.latest ∧ f'.out = f.out ∧ f'.imus.length = f.imus.length ∧
      f'.biasTarget = f.biasTarget ∧ (f.gyro = none → f'.gyro = none) ∧ (f.gyro.isSome → f'.gyro.isSome) ∧
      (f.imu.isSome → f'.imu.isSome) ∧ (f.enc.isSome → f'.enc.isSome) := by
  unfold initializeFilter at h
  split_ifs at h
  · rw [Option.bind_eq_some_iff] at h
    obtain ⟨n, _, h⟩ := h
    split_ifs at h
    · unfold collectBias at h
      split at h
      · simp at h
      · obtain rfl := Option.some.inj h; exact ⟨rfl, rfl, rfl, rfl, rfl, rfl, rfl, rfl, id, id, id, id⟩
      · dsimp only at h
        split at h
        · obtain rfl := Option.some.inj h
          exact ⟨rfl, rfl, rfl, rfl, rfl, rfl, rfl, rfl, id, id, fun _ => rfl, id⟩
        · obtain rfl := Option.some.inj h
          exact ⟨rfl, rfl, rfl, rfl, rfl, rfl, rfl, rfl, id, id, fun _ => rfl, id⟩
        · rename_i hg
          obtain rfl := Option.some.inj h
          exact ⟨rfl, rfl, rfl, rfl, rfl, rfl, rfl, rfl, fun k => by rw [k] at hg; simp at hg,
            fun _ => rfl, fun _ => rfl, id⟩
    · unfold finishInit at h
      split_ifs at h
      rw [Option.bind_eq_some_iff] at h
      obtain ⟨g, h1, h⟩ := h
      rw [Option.map_eq_some_iff] at h
      obtain ⟨g', h2, rfl⟩ := h
      have a : g.numImu = f.numImu ∧ g.numAngVel = f.numAngVel ∧ g.method = f.method ∧ g.lastProp = f.lastProp ∧
          g.latest = f.latest ∧ g.out = f.out ∧ g.imus.length = f.imus.length ∧ g.biasTarget = f.biasTarget ∧
          g.gyro = f.gyro.map (fun _ => []) ∧ (f.imu.isSome → g.imu.isSome) ∧ g.enc = f.enc := by
        unfold clearImuQueues at h1
        split at h1
        · rw [Option.map_eq_some_iff] at h1
          obtain ⟨_, _, rfl⟩ := h1
          exact ⟨rfl, rfl, rfl, rfl, rfl, rfl, rfl, rfl, rfl, fun _ => rfl, rfl⟩
        · rw [Option.map_eq_some_iff] at h1
          obtain ⟨_, _, rfl⟩ := h1
          exact ⟨rfl, rfl, rfl, rfl, rfl, rfl, rfl, rfl, rfl, fun _ => rfl, rfl⟩
        · obtain rfl := Option.some.inj h1
          exact ⟨rfl, rfl, rfl, rfl, rfl, rfl, by simp, rfl, rfl, id, rfl⟩
        · obtain rfl := Option.some.inj h1
          exact ⟨rfl, rfl, rfl, rfl, rfl, rfl, rfl, rfl, rfl, id, rfl⟩
      have b : g'.numImu = g.numImu ∧ g'.numAngVel = g.numAngVel ∧ g'.method = g.method ∧
          g'.lastProp = g.lastProp ∧ g'.latest = g.latest ∧ g'.out = g.out ∧ g'.imus = g.imus ∧
          g'.biasTarget = g.biasTarget ∧ g'.gyro = g.gyro ∧ g'.imu = g.imu ∧ (g.enc.isSome → g'.enc.isSome) := by
        unfold clearEncQueue at h2
        split at h2
        · rw [Option.map_eq_some_iff] at h2
          obtain ⟨_, _, rfl⟩ := h2
          exact ⟨rfl, rfl, rfl, rfl, rfl, rfl, rfl, rfl, rfl, rfl, fun _ => rfl⟩
        · rw [Option.map_eq_some_iff] at h2
          obtain ⟨_, _, rfl⟩ := h2
          exact ⟨rfl, rfl, rfl, rfl, rfl, rfl, rfl, rfl, rfl, rfl, fun _ => rfl⟩
        · obtain rfl := Option.some.inj h2
          exact ⟨rfl, rfl, rfl, rfl, rfl, rfl, rfl, rfl, rfl, rfl, id⟩
      obtain ⟨a1, a2, a3, a4, a5, a6, a7, a8, a9, a10, a11⟩ := a
      obtain ⟨b1, b2, b3, b4, b5, b6, b7, b8, b9, b10, b11⟩ := b
      refine ⟨b1.trans a1, b2.trans a2, b3.trans a3, b4.trans a4, b5.trans a5, b6.trans a6,
        by rw [← a7, ← b7], b8.trans a8, fun k => ?_, fun k => ?_, fun k => ?_, fun k => ?_⟩
      · show g'.gyro = none
        rw [b9, a9, k]; rfl
      · show g'.gyro.isSome
        rw [b9, a9, Option.isSome_map]; exact k
      · show g'.imu.isSome
        rw [b10]; exact a10 k
      · exact b11 (by rw [a11]; exact k)
  · obtain rfl := Option.some.inj h
    exact ⟨rfl, rfl, rfl, rfl, rfl, rfl, rfl, rfl, id, id, id, id⟩

theorem chooseMethod_congr {f g : GyroFilter} (h1 : f.numImu = g.numImu) (h2 : f.numAngVel = g.numAngVel)
    (h3 : f.method = g.method) : f.chooseMethod = g.chooseMethod := by
  unfold chooseMethod; rw [h1, h2, h3]

theorem chooseMethod_idem (f : GyroFilter) :
    chooseMethod { f with method := f.chooseMethod } = f.chooseMethod := by
  unfold chooseMethod
  dsimp only
  split_ifs <;> rfl

theorem Quiet.run {f f' : GyroFilter} (h : Quiet f) (hr : f.runOnce = some f') : Quiet f' := by
  unfold runOnce at hr
  split_ifs at hr with hi
  · exact h.propagate.correct ((propagate_frame f).2.2.2.2.2.2.2.1.trans hi) hr
  · obtain ⟨k1, k2, k3, k4, k5, k6, k7, k8, k9, _⟩ := initialize_frame hr
    dsimp only at k1 k2 k3 k4 k5 k6 k7 k8 k9
    have hh : Holds (fun _ => True) (fun m => -1 < m.time) (fun _ => True) (fun _ => True) f' := by
      refine initializeFilter_holds ?_ hr
      refine ⟨fun _ _ _ _ => trivial, h.imu, ?_, fun _ _ _ _ => trivial, fun m e => ?_, fun _ _ => trivial⟩
      · show ∀ q ∈ f.imus, _
        rw [h.imus]; simp
      · have e' : f.latest = some m := e
        rw [h.latest] at e'; simp at e'
    refine ⟨k9 h.gyro, List.length_eq_zero_iff.mp (by rw [k7, h.imus]; rfl), k4.trans h.lastProp,
      k5.trans h.latest, hh.imu, fun _ => by rw [k3]; exact h.choose, ?_, k6.trans h.out⟩
    rw [chooseMethod_congr (g := { f with method := f.chooseMethod }) k1 k2 k3, chooseMethod_idem f]
    exact h.choose

theorem Quiet.step {f f' : GyroFilter} {o : Op} (h : Quiet f) (ho : o.running)
    (ht : ∀ m, o = .imuData m → -1 < m.time) (hs : f.step o = some f') : Quiet f' := by
  cases o with
  | run => exact h.run hs
  | clear => exact absurd ho (by simp [Op.running])
  | addGyro => exact absurd ho (by simp [Op.running])
  | addImu => exact absurd ho (by simp [Op.running])
  | addAngVel => exact absurd ho (by simp [Op.running])
  | gyroData m =>
    simp only [GyroFilter.step, Option.some.injEq] at hs
    subst hs
    exact ⟨by show f.gyro.map _ = none; rw [h.gyro]; rfl, h.imus, h.lastProp, h.latest, h.imu, h.method, h.choose, h.out⟩
  | imuData m =>
    simp only [GyroFilter.step, Option.some.injEq] at hs
    subst hs
    refine ⟨h.gyro, h.imus, h.lastProp, h.latest, fun q e m' hm' => ?_, h.method, h.choose, h.out⟩
    dsimp only at e
    rw [Option.map_eq_some_iff] at e
    obtain ⟨q0, e0, rfl⟩ := e
    rcases List.mem_append.mp hm' with k | k
    · exact h.imu q0 e0 m' k
    · rw [List.mem_singleton.mp k]; exact ht m rfl
  | imuDataN i m =>
    simp only [GyroFilter.step, Option.some.injEq] at hs
    subst hs
    exact ⟨h.gyro, by show f.imus.modify _ _ = []; rw [h.imus]; simp, h.lastProp, h.latest, h.imu, h.method, h.choose,
      h.out⟩
  | encData a =>
    simp only [GyroFilter.step, Option.some.injEq] at hs
    subst hs
    exact ⟨h.gyro, h.imus, h.lastProp, h.latest, h.imu, h.method, h.choose, h.out⟩
  | popOut =>
    simp only [GyroFilter.step, Option.some.injEq] at hs
    subst hs
    exact ⟨h.gyro, h.imus, h.lastProp, h.latest, h.imu, h.method, h.choose, by
      show f.out.tail = []
      rw [h.out]; rfl⟩

theorem Quiet.ops : ∀ (l : List Op) (f f' : GyroFilter), Quiet f → (∀ o ∈ l, o.running) →
    (∀ m, Op.imuData m ∈ l → -1 < m.time) → runOps l f = some f' → Quiet f'
  | [], f, f', h, _, _, hr => by
    rw [runOps] at hr
    obtain rfl := Option.some.inj hr
    exact h
  | o :: l, f, f', h, ho, ht, hr => by
    rw [runOps, Option.bind_eq_some_iff] at hr
    obtain ⟨g, h1, h2⟩ := hr
    exact Quiet.ops l g f' (h.step (ho o List.mem_cons_self) (fun m e => ht m (e ▸ List.mem_cons_self)) h1)
      (fun o ho' => ho o (List.mem_cons_of_mem _ ho')) (fun m hm => ht m (List.mem_cons_of_mem _ hm)) h2

/-! ### A stale front blocks the single IMU configuration -/

/-- the front `m` of the IMU queue is older than the threshold and time only moves on -/
structure Blocked (m : ImuMeas) (T : ℝ) (f : GyroFilter) : Prop where
  init : f.initialized = true
  method : f.method = .singleImu
  front : ∃ q, f.imu = some (m :: q)
  old : f.cfg.tThres < T - m.time
  time : T ≤ f.lastProp
  gyro : ∀ q, f.gyro = some q → ∀ g ∈ q, T ≤ g.time

theorem Blocked.run {m : ImuMeas} {T : ℝ} {f : GyroFilter} (h : Blocked m T f) :
    f.runOnce = some f.propagate ∧ Blocked m T f.propagate ∧ f.propagate.out = f.out := by
  obtain ⟨p1, p2, p3, p4, p5, p6, p7, p8, p9, p10⟩ := propagate_frame f
  obtain ⟨g1, g2⟩ := propagate_gyro f
  obtain ⟨q, hq⟩ := h.front
  have hT : T ≤ f.propagate.lastProp := by
    rw [g2]
    obtain ⟨gy, hgy⟩ : ∃ gy, f.gyro = gy := ⟨_, rfl⟩
    rw [hgy]
    rcases gy with _ | _ | ⟨g, gs⟩
    · exact h.time
    · exact h.time
    · exact h.gyro _ hgy g List.mem_cons_self
  have hb : Blocked m T f.propagate := by
    refine ⟨p8.trans h.init, p5.trans h.method, ⟨q, p2.trans hq⟩, by rw [p1]; exact h.old, hT, fun q' e => ?_⟩
    rw [g1, Option.map_eq_some_iff] at e
    obtain ⟨q0, e0, rfl⟩ := e
    exact fun g hg => h.gyro q0 e0 g (List.mem_of_mem_tail hg)
  refine ⟨?_, hb, p9⟩
  unfold runOnce correctStep
  rw [if_pos h.init, hb.method]
  dsimp only
  unfold singleImu
  rw [p2.trans hq]
  dsimp only
  rw [if_neg]
  rintro ⟨h1, _⟩
  have := hb.old
  linarith

theorem Blocked.step {m : ImuMeas} {T : ℝ} {f : GyroFilter} {o : Op} (h : Blocked m T f) (ho : o.running)
    (ht : ∀ g, o = .gyroData g → T ≤ g.time) :
    ∃ f', f.step o = some f' ∧ Blocked m T f' ∧ f'.out <:+ f.out := by
  cases o with
  | run =>
    obtain ⟨h1, h2, h3⟩ := h.run
    exact ⟨_, h1, h2, by rw [h3]⟩
  | clear => exact absurd ho (by simp [Op.running])
  | addGyro => exact absurd ho (by simp [Op.running])
  | addImu => exact absurd ho (by simp [Op.running])
  | addAngVel => exact absurd ho (by simp [Op.running])
  | gyroData g =>
    refine ⟨_, rfl, ⟨h.init, h.method, h.front, h.old, h.time, fun q e g' hg' => ?_⟩, List.suffix_refl _⟩
    dsimp only at e
    rw [Option.map_eq_some_iff] at e
    obtain ⟨q0, e0, rfl⟩ := e
    rcases List.mem_append.mp hg' with k | k
    · exact h.gyro q0 e0 g' k
    · rw [List.mem_singleton.mp k]; exact ht g rfl
  | imuData m' =>
    obtain ⟨q, hq⟩ := h.front
    exact ⟨_, rfl, ⟨h.init, h.method, ⟨q ++ [m'], by show f.imu.map _ = _; rw [hq]; rfl⟩, h.old, h.time, h.gyro⟩,
      List.suffix_refl _⟩
  | imuDataN i m' => exact ⟨_, rfl, ⟨h.init, h.method, h.front, h.old, h.time, h.gyro⟩, List.suffix_refl _⟩
  | encData a => exact ⟨_, rfl, ⟨h.init, h.method, h.front, h.old, h.time, h.gyro⟩, List.suffix_refl _⟩
  | popOut => exact ⟨_, rfl, ⟨h.init, h.method, h.front, h.old, h.time, h.gyro⟩, List.tail_suffix _⟩

theorem Blocked.ops {m : ImuMeas} {T : ℝ} : ∀ (l : List Op) (f : GyroFilter), Blocked m T f →
    (∀ o ∈ l, o.running) → (∀ g, Op.gyroData g ∈ l → T ≤ g.time) →
    ∃ f', runOps l f = some f' ∧ Blocked m T f' ∧ f'.out <:+ f.out
  | [], f, h, _, _ => ⟨f, rfl, h, List.suffix_refl _⟩
  | o :: l, f, h, ho, ht => by
    obtain ⟨g, h1, h2, h3⟩ := h.step (ho o List.mem_cons_self) (fun m e => ht m (e ▸ List.mem_cons_self))
    obtain ⟨f', k1, k2, k3⟩ := Blocked.ops l g h2 (fun o ho' => ho o (List.mem_cons_of_mem _ ho'))
      (fun m hm => ht m (List.mem_cons_of_mem _ hm))
    exact ⟨f', by rw [runOps, h1]; exact k1, k2, k3.trans h3⟩

end GyroFilter
end Drift
