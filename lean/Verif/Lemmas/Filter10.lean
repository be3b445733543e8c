import Verif.Lemmas.Filter9

/-! Helper lemmas for the gyro filter: invariants that are kept for the data actually delivered. -/
namespace Drift
open Matrix
namespace GyroFilter

/-- Everything the filter has queued satisfies: gyro samples `G`, IMU samples `M`, angular velocities `A`; the rates of
the outputs `Q`, the collected bias samples `B`. -/
structure Fed (G M : ImuMeas → Prop) (A : AngVelMeas → Prop) (Q B : V3 → Prop) (f : GyroFilter) : Prop where
  bias : ∀ v ∈ f.biasVec, B v
  gyro : ∀ q, f.gyro = some q → ∀ m ∈ q, G m
  imu : ∀ q, f.imu = some q → ∀ m ∈ q, M m
  imus : ∀ q ∈ f.imus, ∀ m ∈ q, M m
  enc : ∀ q, f.enc = some q → ∀ a ∈ q, A a
  out : ∀ o ∈ f.out, Q o.angVel

/-- `I` is preserved by the corrections with such data -/
def KeptOn (M : ImuMeas → Prop) (A : AngVelMeas → Prop) (I : GyroFilter → Prop) : Prop :=
  ∀ (f f' : GyroFilter), I f →
    (∀ m, M m → f.kalman (Himu f.cfg.flatGround) (noise3 f.cfg.imuStd) m.angVel = some f' → I f') ∧
    (∀ a, A a → f.kalman (Henc f.cfg.flatGround) (noise3 f.cfg.encStd) (rotInv f.cfg *ᵥ a.angVel) = some f' → I f')

variable {I : GyroFilter → Prop} {G M : ImuMeas → Prop} {A : AngVelMeas → Prop} {Q B : V3 → Prop}

theorem correctImu_on (hk : KeptOn M A I) {f : GyroFilter} {m : ImuMeas} (hm : M m)
    {r : ImuMeas × GyroFilter} (hI : I f) (h : f.correctImu m = some r) : I r.2 := by
  unfold correctImu at h
  rw [Option.map_eq_some_iff] at h
  obtain ⟨f', h1, rfl⟩ := h
  exact (hk f f' hI).1 m hm h1

theorem correctEnc_on (hk : KeptOn M A I) {f : GyroFilter} {m : ImuMeas} {a : AngVelMeas} (ha : A a)
    {r : ImuMeas × GyroFilter} (hI : I f) (h : f.correctEnc m a = some r) : I r.2 := by
  unfold correctEnc at h
  rw [Option.map_eq_some_iff] at h
  obtain ⟨f', h1, rfl⟩ := h
  exact (hk f f' hI).2 a ha h1

theorem Fed.push {f : GyroFilter} (h : Fed G M A Q B f) {o : ImuMeas} (ho : Q o.angVel) : Fed G M A Q B (f.push o) :=
  ⟨h.bias, h.gyro, h.imu, h.imus, h.enc, fun p hp => by
    rcases List.mem_append.mp hp with hp | hp
    · exact h.out p hp
    · rw [List.mem_singleton.mp hp]; exact ho⟩

theorem Fed.withXP {f : GyroFilter} (h : Fed G M A Q B f) (x : V6) (P : M66) : Fed G M A Q B { f with x := x, P := P } :=
  ⟨h.bias, h.gyro, h.imu, h.imus, h.enc, h.out⟩

theorem correctImu_fed (hk : KeptOn M A I) (hq : ∀ g, I g → Q (hd g.x))
    {f : GyroFilter} {m : ImuMeas} {r : ImuMeas × GyroFilter} (hI : I f) (h : Fed G M A Q B f) (hm : M m)
    (hr : f.correctImu m = some r) : I r.2 ∧ Q r.1.angVel ∧ Fed G M A Q B r.2 := by
  have hI' := correctImu_on hk hm hI hr
  obtain ⟨x, P, e1, e2⟩ := correctImu_frame hr
  have hQ : Q r.1.angVel := by
    have := hq r.2 hI'
    rw [e1] at this
    rw [e2]; exact this
  exact ⟨hI', hQ, by rw [e1]; exact h.withXP x P⟩

theorem correctEnc_fed (hk : KeptOn M A I) (hq : ∀ g, I g → Q (hd g.x))
    {f : GyroFilter} {m : ImuMeas} {a : AngVelMeas} {r : ImuMeas × GyroFilter} (hI : I f) (h : Fed G M A Q B f)
    (ha : A a) (hr : f.correctEnc m a = some r) : I r.2 ∧ Q r.1.angVel ∧ Fed G M A Q B r.2 := by
  have hI' := correctEnc_on hk ha hI hr
  obtain ⟨x, P, e1, e2⟩ := correctEnc_frame hr
  have hQ : Q r.1.angVel := by
    have := hq r.2 hI'
    rw [e1] at this
    rw [e2]; exact this
  exact ⟨hI', hQ, by rw [e1]; exact h.withXP x P⟩

theorem multiLoop_fed (hc : CoreOnly I) (hk : KeptOn M A I) (hq : ∀ g, I g → Q (hd g.x)) :
    ∀ (qs : List (List ImuMeas)) (fu : Option ImuMeas) (f : GyroFilter) (r : List (List ImuMeas) × GyroFilter),
      I f → Fed G M A Q B f → (∀ q ∈ qs, ∀ m ∈ q, M m) → (∀ o, fu = some o → Q o.angVel) →
      multiLoop qs fu f = some r → I r.2 ∧ Fed G M A Q B r.2 ∧ ∀ q ∈ r.1, ∀ m ∈ q, M m
  | [], fu, f, r, hI, hh, hqs, hfu, h => by
    rw [multiLoop] at h
    obtain rfl := Option.some.inj h
    exact ⟨hI, hh, by simp⟩
  | [] :: qs, fu, f, r, hI, hh, hqs, hfu, h => by
    rw [multiLoop, Option.map_eq_some_iff] at h
    obtain ⟨r', h1, rfl⟩ := h
    obtain ⟨k0, k1, k2⟩ := multiLoop_fed hc hk hq qs fu f r' hI hh
      (fun q hq => hqs q (List.mem_cons_of_mem _ hq)) hfu h1
    refine ⟨k0, k1, fun q hq m hm => ?_⟩
    rcases List.mem_cons.mp hq with rfl | hq
    · simp at hm
    · exact k2 q hq m hm
  | (m :: q) :: qs, fu, f, r, hI, hh, hqs, hfu, h => by
    rw [multiLoop, Option.bind_eq_some_iff] at h
    obtain ⟨p, hp, h⟩ := h
    rw [Option.map_eq_some_iff] at h
    obtain ⟨r', h1, rfl⟩ := h
    have hm : M m := hqs _ List.mem_cons_self m List.mem_cons_self
    have hp2 : I p.2 ∧ Fed G M A Q B p.2 ∧ ∀ o, p.1 = some o → Q o.angVel := by
      split_ifs at hp with hf
      · rw [Option.map_eq_some_iff] at hp
        obtain ⟨r0, h0, rfl⟩ := hp
        obtain ⟨k1, k2, k3⟩ := correctImu_fed hk hq hI hh hm h0
        exact ⟨k1, k3, fun o ho => by rw [← Option.some.inj ho]; exact k2⟩
      · obtain rfl := Option.some.inj hp
        exact ⟨hI, hh, hfu⟩
    obtain ⟨j1, j2, j3⟩ := hp2
    obtain ⟨p1, p2⟩ := p
    dsimp only at h1 j1 j2 j3
    have key : ∀ g, I g → Fed G M A Q B g → multiLoop qs p1 g = some r' →
        I r'.2 ∧ Fed G M A Q B r'.2 ∧ ∀ q' ∈ q :: r'.1, ∀ m ∈ q', M m := by
      intro g g1 g2 g3
      obtain ⟨k0, k1, k2⟩ := multiLoop_fed hc hk hq qs p1 g r' g1 g2
        (fun q hq => hqs q (List.mem_cons_of_mem _ hq)) j3 g3
      refine ⟨k0, k1, fun q' hq' m' hm' => ?_⟩
      rcases List.mem_cons.mp hq' with rfl | hq'
      · exact hqs _ List.mem_cons_self m' (List.mem_cons_of_mem _ hm')
      · exact k2 q' hq' m' hm'
    cases p1 with
    | none => exact key p2 j1 j2 h1
    | some o => exact key (p2.push o) (hc p2 _ rfl rfl rfl rfl rfl j1) (j2.push (j3 o rfl)) h1

theorem fuseImu_fed (hc : CoreOnly I) (hk : KeptOn M A I) (hq : ∀ g, I g → Q (hd g.x)) {f f' : GyroFilter} {m : ImuMeas}
    {q : List ImuMeas} (hI : I f) (hh : Fed G M A Q B f) (hm : M m) (hqq : ∀ m ∈ q, M m)
    (h : f.fuseImu m q = some f') : I f' ∧ Fed G M A Q B f' := by
  unfold fuseImu at h
  rw [Option.map_eq_some_iff] at h
  obtain ⟨g, h1, rfl⟩ := h
  have hI1 : I { f with latest := some m } := hc f _ rfl rfl rfl rfl rfl hI
  have hh1 : Fed G M A Q B { f with latest := some m } := ⟨hh.bias, hh.gyro, hh.imu, hh.imus, hh.enc, hh.out⟩
  have hg : I g ∧ Fed G M A Q B g := by
    split_ifs at h1 with hf
    · rw [Option.map_eq_some_iff] at h1
      obtain ⟨r0, h0, rfl⟩ := h1
      obtain ⟨k1, k2, k3⟩ := correctImu_fed hk hq hI1 hh1 hm h0
      exact ⟨hc r0.2 _ rfl rfl rfl rfl rfl k1, k3.push k2⟩
    · obtain rfl := Option.some.inj h1
      exact ⟨hI1, hh1⟩
  exact ⟨hc g _ rfl rfl rfl rfl rfl hg.1, hg.2.bias, hg.2.gyro, fun q' e => by rw [← Option.some.inj e]; exact hqq, hg.2.imus,
    hg.2.enc, hg.2.out⟩

theorem fuseEnc_fed (hc : CoreOnly I) (hk : KeptOn M A I) (hq : ∀ g, I g → Q (hd g.x))
    {f f' : GyroFilter} {a : AngVelMeas}
    {q : List AngVelMeas} (hI : I f) (hh : Fed G M A Q B f) (ha : A a) (hqq : ∀ a ∈ q, A a)
    (h : f.fuseEnc a q = some f') : I f' ∧ Fed G M A Q B f' := by
  unfold fuseEnc at h
  split at h
  · obtain rfl := Option.some.inj h
    exact ⟨hc f _ rfl rfl rfl rfl rfl hI, hh.bias, hh.gyro, hh.imu, hh.imus,
      fun q' e => by rw [← Option.some.inj e]; exact hqq, hh.out⟩
  · rename_i m hm
    rw [Option.map_eq_some_iff] at h
    obtain ⟨g, h1, rfl⟩ := h
    have hg : I g ∧ Fed G M A Q B g := by
      split_ifs at h1 with hf
      · rw [Option.map_eq_some_iff] at h1
        obtain ⟨r0, h0, rfl⟩ := h1
        obtain ⟨k1, k2, k3⟩ := correctEnc_fed hk hq hI hh ha h0
        exact ⟨hc r0.2 _ rfl rfl rfl rfl rfl k1, k3.push k2⟩
      · obtain rfl := Option.some.inj h1
        exact ⟨hI, hh⟩
    exact ⟨hc g _ rfl rfl rfl rfl rfl hg.1, hg.2.bias, hg.2.gyro, hg.2.imu, hg.2.imus,
      fun q' e => by rw [← Option.some.inj e]; exact hqq, hg.2.out⟩

theorem correctStep_fed (hc : CoreOnly I) (hk : KeptOn M A I) (hq : ∀ g, I g → Q (hd g.x)) {f f' : GyroFilter}
    (hI : I f) (hh : Fed G M A Q B f) (h : f.correctStep = some f') : I f' ∧ Fed G M A Q B f' := by
  unfold correctStep at h
  split at h
  · unfold imuPlusAngVel at h
    split at h
    · obtain rfl := Option.some.inj h; exact ⟨hI, hh⟩
    · rename_i m q _ e _
      exact fuseImu_fed hc hk hq hI hh (mem_tail_of hh.imu e).1 (mem_tail_of hh.imu e).2 h
    · rename_i a q _ _ e
      exact fuseEnc_fed hc hk hq hI hh (mem_tail_of hh.enc e).1 (mem_tail_of hh.enc e).2 h
    · rename_i m q a q' _ _ e e'
      split_ifs at h
      · exact fuseImu_fed hc hk hq hI hh (mem_tail_of hh.imu e).1 (mem_tail_of hh.imu e).2 h
      · exact fuseEnc_fed hc hk hq hI hh (mem_tail_of hh.enc e').1 (mem_tail_of hh.enc e').2 h
    · simp at h
  · unfold singleImu at h
    split at h
    · simp at h
    · obtain rfl := Option.some.inj h; exact ⟨hI, hh⟩
    · rename_i m q e
      split_ifs at h
      · rw [Option.map_eq_some_iff] at h
        obtain ⟨r0, h0, rfl⟩ := h
        have hh1 : Fed G M A Q B { f with imu := some q } :=
          ⟨hh.bias, hh.gyro, fun q' e' => by rw [← Option.some.inj e']; exact (mem_tail_of hh.imu e).2, hh.imus, hh.enc, hh.out⟩
        have hI1 : I { f with imu := some q } := hc f _ rfl rfl rfl rfl rfl hI
        obtain ⟨k1, k2, k3⟩ := correctImu_fed hk hq hI1 hh1 (mem_tail_of hh.imu e).1 h0
        exact ⟨hc r0.2 _ rfl rfl rfl rfl rfl k1, k3.push k2⟩
      · obtain rfl := Option.some.inj h; exact ⟨hI, hh⟩
  · unfold multiImu at h
    rw [Option.map_eq_some_iff] at h
    obtain ⟨r0, h0, rfl⟩ := h
    obtain ⟨k0, k1, k2⟩ := multiLoop_fed hc hk hq _ _ _ _ hI hh hh.imus (by simp) h0
    exact ⟨hc r0.2 _ rfl rfl rfl rfl rfl k0, k1.bias, k1.gyro, k1.imu, k2, k1.enc, k1.out⟩
  · unfold angVelCorr at h
    split at h
    · simp at h
    · obtain rfl := Option.some.inj h; exact ⟨hI, hh⟩
    · rename_i a q e
      split at h
      · obtain rfl := Option.some.inj h
        exact ⟨hc f _ rfl rfl rfl rfl rfl hI, hh.bias, hh.gyro, hh.imu, hh.imus,
          fun q' e' => by rw [← Option.some.inj e']; exact (mem_tail_of hh.enc e).2, hh.out⟩
      · rename_i m hm
        rw [Option.map_eq_some_iff] at h
        obtain ⟨r0, h0, rfl⟩ := h
        obtain ⟨k1, k2, k3⟩ := correctEnc_fed hk hq hI hh (mem_tail_of hh.enc e).1 h0
        have k := k3.push k2
        exact ⟨hc r0.2 _ rfl rfl rfl rfl rfl k1, k.bias, k.gyro, k.imu, k.imus,
          fun q' e' => by rw [← Option.some.inj e']; exact (mem_tail_of hh.enc e).2, k.out⟩
  · obtain rfl := Option.some.inj h; exact ⟨hI, hh⟩

theorem propagate_fed {f : GyroFilter} (hh : Fed G M A Q B f) : Fed G M A Q B f.propagate := by
  unfold propagate
  split
  · exact ⟨hh.bias, hh.gyro, hh.imu, hh.imus, hh.enc, hh.out⟩
  · exact hh
  · rename_i m q e
    exact ⟨hh.bias, fun q' e' => by rw [← Option.some.inj e']; exact (mem_tail_of hh.gyro e).2, hh.imu, hh.imus, hh.enc, hh.out⟩

theorem clearImuQueues_fed {f f' : GyroFilter} (hh : Fed G M A Q B f) (h : f.clearImuQueues = some f') :
    Fed G M A Q B f' := by
  have nil : ∀ q : List ImuMeas, some ([] : List ImuMeas) = some q → ∀ m ∈ q, M m := fun q e m hm => by
    rw [← Option.some.inj e] at hm; simp at hm
  unfold clearImuQueues at h
  split at h
  · rw [Option.map_eq_some_iff] at h
    obtain ⟨_, _, rfl⟩ := h
    exact ⟨hh.bias, hh.gyro, nil, hh.imus, hh.enc, hh.out⟩
  · rw [Option.map_eq_some_iff] at h
    obtain ⟨_, _, rfl⟩ := h
    exact ⟨hh.bias, hh.gyro, nil, hh.imus, hh.enc, hh.out⟩
  · obtain rfl := Option.some.inj h
    refine ⟨hh.bias, hh.gyro, hh.imu, fun q hq m hm => ?_, hh.enc, hh.out⟩
    rw [List.mem_map] at hq
    obtain ⟨_, _, rfl⟩ := hq
    simp at hm
  · obtain rfl := Option.some.inj h; exact hh

theorem clearEncQueue_fed {f f' : GyroFilter} (hh : Fed G M A Q B f) (h : f.clearEncQueue = some f') :
    Fed G M A Q B f' := by
  have nil : ∀ q : List AngVelMeas, some ([] : List AngVelMeas) = some q → ∀ m ∈ q, A m := fun q e m hm => by
    rw [← Option.some.inj e] at hm; simp at hm
  unfold clearEncQueue at h
  split at h
  · rw [Option.map_eq_some_iff] at h
    obtain ⟨_, _, rfl⟩ := h
    exact ⟨hh.bias, hh.gyro, hh.imu, hh.imus, nil, hh.out⟩
  · rw [Option.map_eq_some_iff] at h
    obtain ⟨_, _, rfl⟩ := h
    exact ⟨hh.bias, hh.gyro, hh.imu, hh.imus, nil, hh.out⟩
  · obtain rfl := Option.some.inj h; exact hh

theorem finishInit_fed {f f' : GyroFilter} (hh : Fed G M A Q B f) (h : f.finishInit = some f') :
    Fed G M A Q B f' := by
  unfold finishInit at h
  split_ifs at h with h0
  rw [Option.bind_eq_some_iff] at h
  obtain ⟨g, h1, h⟩ := h
  rw [Option.map_eq_some_iff] at h
  obtain ⟨g', h2, rfl⟩ := h
  have k1 : Fed G M A Q B g := by
    refine clearImuQueues_fed ?_ h1
    refine ⟨hh.bias, fun q e m hm => ?_, hh.imu, hh.imus, hh.enc, hh.out⟩
    dsimp only at e
    rw [Option.map_eq_some_iff] at e
    obtain ⟨_, _, rfl⟩ := e
    simp at hm
  have k2 := clearEncQueue_fed k1 h2
  exact ⟨k2.bias, k2.gyro, k2.imu, k2.imus, k2.enc, k2.out⟩

theorem collectBias_fed (hB : ∀ m, M m → B m.angVel) {f f' : GyroFilter} (hh : Fed G M A Q B f) (h : f.collectBias = some f') :
    Fed G M A Q B f' := by
  unfold collectBias at h
  split at h
  · simp at h
  · obtain rfl := Option.some.inj h; exact hh
  · rename_i m q e
    have hi : ∀ q', some q = some q' → ∀ m ∈ q', M m := fun q' e' => by
      rw [← Option.some.inj e']; exact (mem_tail_of hh.imu e).2
    have hbv : ∀ v ∈ f.biasVec ++ [m.angVel], B v := fun v hv => by
      rcases List.mem_append.mp hv with hv | hv
      · exact hh.bias v hv
      · rw [List.mem_singleton.mp hv]; exact hB m (mem_tail_of hh.imu e).1
    dsimp only at h
    split at h
    · obtain rfl := Option.some.inj h; exact ⟨hbv, hh.gyro, hi, hh.imus, hh.enc, hh.out⟩
    · obtain rfl := Option.some.inj h; exact ⟨hbv, hh.gyro, hi, hh.imus, hh.enc, hh.out⟩
    · rename_i g gq e2
      obtain rfl := Option.some.inj h
      exact ⟨hbv, fun q' e' => by rw [← Option.some.inj e']; exact (mem_tail_of hh.gyro e2).2, hi, hh.imus, hh.enc,
        hh.out⟩

theorem initializeFilter_fed (hB : ∀ m, M m → B m.angVel) {f f' : GyroFilter} (hh : Fed G M A Q B f) (h : f.initializeFilter = some f') :
    Fed G M A Q B f' := by
  unfold initializeFilter at h
  split_ifs at h
  · rw [Option.bind_eq_some_iff] at h
    obtain ⟨n, _, h⟩ := h
    split_ifs at h
    · exact collectBias_fed hB hh h
    · exact finishInit_fed hh h
  · obtain rfl := Option.some.inj h
    exact ⟨hh.bias, hh.gyro, hh.imu, hh.imus, hh.enc, hh.out⟩

/-- `I` of an initialised filter -/
def Up (I : GyroFilter → Prop) (f : GyroFilter) : Prop := I f ∧ f.initialized = true

theorem up_core (hc : CoreOnly I) : CoreOnly (Up I) := fun a b h1 h2 h3 h4 h5 h =>
  ⟨hc a b h1 h2 h3 h4 h5 h.1, h5 ▸ h.2⟩

theorem up_kept (hk : KeptOn M A I) : KeptOn M A (Up I) := by
  have hin : ∀ {f f' : GyroFilter} {H : M36} {R : M3} {y : V3}, f.kalman H R y = some f' →
      f'.initialized = f.initialized := by
    intro f f' H R y h
    obtain ⟨-, rfl⟩ := kalman_some h
    rfl
  intro f f' hI
  exact ⟨fun m hm h => ⟨(hk f f' hI.1).1 m hm h, (hin h).trans hI.2⟩,
    fun m hm h => ⟨(hk f f' hI.1).2 m hm h, (hin h).trans hI.2⟩⟩

/-- One event keeps `I` and the provenance facts. -/
theorem step_fed (hB : ∀ m, M m → B m.angVel) (hc : CoreOnly I) (hk : KeptOn M A (Up I))
    (hq : ∀ g, I g → g.initialized = true → Q (hd g.x))
    (hp : ∀ f, I f → Fed G M A Q B f → I f.propagate)
    (hi : ∀ f f', I f → Fed G M A Q B f → f.initialized = false → f.initializeFilter = some f' → I f')
    {f f' : GyroFilter} {o : Op} (ho : OpOK G M A o) (hI : I f) (hh : Fed G M A Q B f)
    (h : f.step o = some f') : I f' ∧ Fed G M A Q B f' := by
  have nilI : ∀ q : List ImuMeas, some ([] : List ImuMeas) = some q → ∀ m ∈ q, M m := fun q e m hm => by
    rw [← Option.some.inj e] at hm; simp at hm
  have nilG : ∀ q : List ImuMeas, some ([] : List ImuMeas) = some q → ∀ m ∈ q, G m := fun q e m hm => by
    rw [← Option.some.inj e] at hm; simp at hm
  have nilA : ∀ q : List AngVelMeas, some ([] : List AngVelMeas) = some q → ∀ m ∈ q, A m := fun q e m hm => by
    rw [← Option.some.inj e] at hm; simp at hm
  cases o with
  | run =>
    simp only [step, runOnce] at h
    split_ifs at h with hin
    · have hu : Up I f.propagate := ⟨hp f hI hh, (propagate_core f).2.2.1.trans hin⟩
      obtain ⟨k1, k2⟩ := correctStep_fed (up_core hc) hk (fun g hg => hq g hg.1 hg.2) hu (propagate_fed hh) h
      exact ⟨k1.1, k2⟩
    · have hI1 : I { f with method := f.chooseMethod } := hc f _ rfl rfl rfl rfl rfl hI
      have hh1 : Fed G M A Q B { f with method := f.chooseMethod } := ⟨hh.bias, hh.gyro, hh.imu, hh.imus, hh.enc, hh.out⟩
      exact ⟨hi _ f' hI1 hh1 (by simpa using hin) h, initializeFilter_fed hB hh1 h⟩
  | clear =>
    simp only [step, GyroFilter.clear, Option.bind_eq_some_iff, Option.map_eq_some_iff] at h
    obtain ⟨_, _, _, _, rfl⟩ := h
    exact ⟨hc f _ rfl rfl rfl rfl rfl hI, hh.bias, hh.gyro, nilI, hh.imus, nilA, by simp⟩
  | addGyro =>
    simp only [step, Option.some.injEq] at h
    subst h
    exact ⟨hc f _ rfl rfl rfl rfl rfl hI, hh.bias, nilG, hh.imu, hh.imus, hh.enc, hh.out⟩
  | addImu =>
    simp only [step, Option.some.injEq] at h
    subst h
    unfold addImu
    dsimp only
    split_ifs
    · exact ⟨hc f _ rfl rfl rfl rfl rfl hI, hh.bias, hh.gyro, nilI, hh.imus, hh.enc, hh.out⟩
    · refine ⟨hc f _ rfl rfl rfl rfl rfl hI, hh.bias, hh.gyro, hh.imu, fun q hq m hm => ?_, hh.enc, hh.out⟩
      rcases List.mem_append.mp hq with hq | hq
      · exact hh.imus q hq m hm
      · rw [List.mem_singleton.mp hq] at hm; simp at hm
  | addAngVel =>
    simp only [step, Option.some.injEq] at h
    subst h
    exact ⟨hc f _ rfl rfl rfl rfl rfl hI, hh.bias, hh.gyro, hh.imu, hh.imus, nilA, hh.out⟩
  | gyroData m =>
    simp only [step, Option.some.injEq] at h
    subst h
    refine ⟨hc f _ rfl rfl rfl rfl rfl hI, hh.bias, fun q e m' hm' => ?_, hh.imu, hh.imus, hh.enc, hh.out⟩
    dsimp only at e
    rw [Option.map_eq_some_iff] at e
    obtain ⟨q0, e0, rfl⟩ := e
    rcases List.mem_append.mp hm' with k | k
    · exact hh.gyro q0 e0 m' k
    · rw [List.mem_singleton.mp k]; exact ho
  | imuData m =>
    simp only [step, Option.some.injEq] at h
    subst h
    refine ⟨hc f _ rfl rfl rfl rfl rfl hI, hh.bias, hh.gyro, fun q e m' hm' => ?_, hh.imus, hh.enc, hh.out⟩
    dsimp only at e
    rw [Option.map_eq_some_iff] at e
    obtain ⟨q0, e0, rfl⟩ := e
    rcases List.mem_append.mp hm' with k | k
    · exact hh.imu q0 e0 m' k
    · rw [List.mem_singleton.mp k]; exact ho
  | imuDataN i m =>
    simp only [step, Option.some.injEq] at h
    subst h
    refine ⟨hc f _ rfl rfl rfl rfl rfl hI, hh.bias, hh.gyro, hh.imu, fun q hq m' hm' => ?_, hh.enc, hh.out⟩
    dsimp only at hq
    obtain ⟨j, hj, e⟩ := List.mem_iff_getElem.mp hq
    rw [List.getElem_modify] at e
    rw [List.length_modify] at hj
    split_ifs at e with hij
    · subst e
      rcases List.mem_append.mp hm' with k | k
      · exact hh.imus _ (List.getElem_mem hj) m' k
      · rw [List.mem_singleton.mp k]; exact ho
    · subst e
      exact hh.imus _ (List.getElem_mem hj) m' hm'
  | encData a =>
    simp only [step, Option.some.injEq] at h
    subst h
    refine ⟨hc f _ rfl rfl rfl rfl rfl hI, hh.bias, hh.gyro, hh.imu, hh.imus, fun q e m' hm' => ?_, hh.out⟩
    dsimp only at e
    rw [Option.map_eq_some_iff] at e
    obtain ⟨q0, e0, rfl⟩ := e
    rcases List.mem_append.mp hm' with k | k
    · exact hh.enc q0 e0 m' k
    · rw [List.mem_singleton.mp k]; exact ho
  | popOut =>
    simp only [step, Option.some.injEq] at h
    subst h
    exact ⟨hc f _ rfl rfl rfl rfl rfl hI, hh.bias, hh.gyro, hh.imu, hh.imus, hh.enc, fun o ho' => hh.out o (List.mem_of_mem_tail ho')⟩

/-- A history keeps `I` and the provenance facts. -/
theorem runOps_fed (hB : ∀ m, M m → B m.angVel) (hc : CoreOnly I) (hk : KeptOn M A (Up I))
    (hq : ∀ g, I g → g.initialized = true → Q (hd g.x))
    (hp : ∀ f, I f → Fed G M A Q B f → I f.propagate)
    (hi : ∀ f f', I f → Fed G M A Q B f → f.initialized = false → f.initializeFilter = some f' → I f') :
    ∀ (l : List Op) (f f' : GyroFilter), (∀ o ∈ l, OpOK G M A o) → I f → Fed G M A Q B f →
      runOps l f = some f' → I f' ∧ Fed G M A Q B f'
  | [], f, f', _, hI, hh, h => by
    rw [runOps] at h
    obtain rfl := Option.some.inj h
    exact ⟨hI, hh⟩
  | o :: l, f, f', ho, hI, hh, h => by
    rw [runOps, Option.bind_eq_some_iff] at h
    obtain ⟨g, h1, h2⟩ := h
    obtain ⟨k1, k2⟩ := step_fed hB hc hk hq hp hi (ho o List.mem_cons_self) hI hh h1
    exact runOps_fed hB hc hk hq hp hi l g f' (fun o ho' => ho o (List.mem_cons_of_mem _ ho')) k1 k2 h2

end GyroFilter
end Drift
