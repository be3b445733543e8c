import Verif.Lemmas.Filter2

/-! Helper lemmas for the gyro filter: where the outputs come from. -/
namespace Drift
open Matrix
namespace GyroFilter

/-- Everything the filter holds satisfies: gyro samples `G`, IMU samples `M`, angular velocities `A`,
outputs `Q`. -/
structure Holds (G M : ImuMeas → Prop) (A : AngVelMeas → Prop) (Q : ImuMeas → Prop) (f : GyroFilter) : Prop where
  gyro : ∀ q, f.gyro = some q → ∀ m ∈ q, G m
  imu : ∀ q, f.imu = some q → ∀ m ∈ q, M m
  imus : ∀ q ∈ f.imus, ∀ m ∈ q, M m
  enc : ∀ q, f.enc = some q → ∀ a ∈ q, A a
  latest : ∀ m, f.latest = some m → M m
  out : ∀ o ∈ f.out, Q o

variable {I : GyroFilter → Prop} {G M : ImuMeas → Prop} {A : AngVelMeas → Prop} {Q : ImuMeas → Prop}

theorem correctImu_frame {f : GyroFilter} {m : ImuMeas} {r : ImuMeas × GyroFilter}
    (h : f.correctImu m = some r) :
    ∃ x P, r.2 = { f with x := x, P := P } ∧ r.1 = { m with angVel := hd x } := by
  unfold correctImu at h
  rw [Option.map_eq_some_iff] at h
  obtain ⟨f', h1, rfl⟩ := h
  obtain ⟨_, rfl⟩ := kalman_some h1
  exact ⟨_, _, rfl, rfl⟩

theorem correctEnc_frame {f : GyroFilter} {m : ImuMeas} {a : AngVelMeas} {r : ImuMeas × GyroFilter}
    (h : f.correctEnc m a = some r) :
    ∃ x P, r.2 = { f with x := x, P := P } ∧ r.1 = { m with angVel := hd x, time := a.time } := by
  unfold correctEnc at h
  rw [Option.map_eq_some_iff] at h
  obtain ⟨f', h1, rfl⟩ := h
  obtain ⟨_, rfl⟩ := kalman_some h1
  exact ⟨_, _, rfl, rfl⟩

theorem Holds.push {f : GyroFilter} (h : Holds G M A Q f) {o : ImuMeas} (ho : Q o) : Holds G M A Q (f.push o) :=
  ⟨h.gyro, h.imu, h.imus, h.enc, h.latest, fun p hp => by
    rcases List.mem_append.mp hp with hp | hp
    · exact h.out p hp
    · rw [List.mem_singleton.mp hp]; exact ho⟩

theorem correctImu_holds (hk : KeptByKalman I) (hq : ∀ g m, I g → M m → Q { m with angVel := hd g.x })
    {f : GyroFilter} {m : ImuMeas} {r : ImuMeas × GyroFilter} (hI : I f) (h : Holds G M A Q f) (hm : M m)
    (hr : f.correctImu m = some r) : Holds G M A Q (r.2.push r.1) ∧ Q r.1 ∧ Holds G M A Q r.2 := by
  have hI' := correctImu_inv hk hI hr
  obtain ⟨x, P, e1, e2⟩ := correctImu_frame hr
  have hQ : Q r.1 := by
    have := hq r.2 m hI' hm
    rw [e1] at this
    rw [e2]; exact this
  have h2 : Holds G M A Q r.2 := by rw [e1]; exact ⟨h.gyro, h.imu, h.imus, h.enc, h.latest, h.out⟩
  exact ⟨h2.push hQ, hQ, h2⟩

theorem correctEnc_holds (hk : KeptByKalman I)
    (hq : ∀ g m a, I g → M m → A a → Q { m with angVel := hd g.x, time := a.time })
    {f : GyroFilter} {m : ImuMeas} {a : AngVelMeas} {r : ImuMeas × GyroFilter} (hI : I f) (h : Holds G M A Q f)
    (hm : M m) (ha : A a) (hr : f.correctEnc m a = some r) : Holds G M A Q (r.2.push r.1) := by
  have hI' := correctEnc_inv hk hI hr
  obtain ⟨x, P, e1, e2⟩ := correctEnc_frame hr
  have hQ : Q r.1 := by
    have := hq r.2 m a hI' hm ha
    rw [e1] at this
    rw [e2]; exact this
  have h2 : Holds G M A Q r.2 := by rw [e1]; exact ⟨h.gyro, h.imu, h.imus, h.enc, h.latest, h.out⟩
  exact h2.push hQ

theorem multiLoop_holds (hc : CoreOnly I) (hk : KeptByKalman I)
    (hq : ∀ g m, I g → M m → Q { m with angVel := hd g.x }) :
    ∀ (qs : List (List ImuMeas)) (fu : Option ImuMeas) (f : GyroFilter) (r : List (List ImuMeas) × GyroFilter),
      I f → Holds G M A Q f → (∀ q ∈ qs, ∀ m ∈ q, M m) → (∀ o, fu = some o → Q o) →
      multiLoop qs fu f = some r → Holds G M A Q r.2 ∧ ∀ q ∈ r.1, ∀ m ∈ q, M m
  | [], fu, f, r, hI, hh, hqs, hfu, h => by
    rw [multiLoop] at h
    obtain rfl := Option.some.inj h
    exact ⟨hh, by simp⟩
  | [] :: qs, fu, f, r, hI, hh, hqs, hfu, h => by
    rw [multiLoop, Option.map_eq_some_iff] at h
    obtain ⟨r', h1, rfl⟩ := h
    obtain ⟨k1, k2⟩ := multiLoop_holds hc hk hq qs fu f r' hI hh
      (fun q hq => hqs q (List.mem_cons_of_mem _ hq)) hfu h1
    refine ⟨k1, fun q hq m hm => ?_⟩
    rcases List.mem_cons.mp hq with rfl | hq
    · simp at hm
    · exact k2 q hq m hm
  | (m :: q) :: qs, fu, f, r, hI, hh, hqs, hfu, h => by
    rw [multiLoop, Option.bind_eq_some_iff] at h
    obtain ⟨p, hp, h⟩ := h
    rw [Option.map_eq_some_iff] at h
    obtain ⟨r', h1, rfl⟩ := h
    have hm : M m := hqs _ List.mem_cons_self m List.mem_cons_self
    have hp2 : I p.2 ∧ Holds G M A Q p.2 ∧ ∀ o, p.1 = some o → Q o := by
      split_ifs at hp with hf
      · rw [Option.map_eq_some_iff] at hp
        obtain ⟨r0, h0, rfl⟩ := hp
        obtain ⟨_, k2, k3⟩ := correctImu_holds hk hq hI hh hm h0
        exact ⟨correctImu_inv hk hI h0, k3, fun o ho => by rw [← Option.some.inj ho]; exact k2⟩
      · obtain rfl := Option.some.inj hp
        exact ⟨hI, hh, hfu⟩
    obtain ⟨j1, j2, j3⟩ := hp2
    obtain ⟨p1, p2⟩ := p
    dsimp only at h1 j1 j2 j3
    have key : ∀ g, I g → Holds G M A Q g → multiLoop qs p1 g = some r' →
        Holds G M A Q r'.2 ∧ ∀ q' ∈ q :: r'.1, ∀ m ∈ q', M m := by
      intro g g1 g2 g3
      obtain ⟨k1, k2⟩ := multiLoop_holds hc hk hq qs p1 g r' g1 g2
        (fun q hq => hqs q (List.mem_cons_of_mem _ hq)) j3 g3
      refine ⟨k1, fun q' hq' m' hm' => ?_⟩
      rcases List.mem_cons.mp hq' with rfl | hq'
      · exact hqs _ List.mem_cons_self m' (List.mem_cons_of_mem _ hm')
      · exact k2 q' hq' m' hm'
    cases p1 with
    | none => exact key p2 j1 j2 h1
    | some o => exact key (p2.push o) (hc p2 _ rfl rfl rfl rfl rfl j1) (j2.push (j3 o rfl)) h1

theorem fuseImu_holds (hc : CoreOnly I) (hk : KeptByKalman I)
    (hq : ∀ g m, I g → M m → Q { m with angVel := hd g.x }) {f f' : GyroFilter} {m : ImuMeas}
    {q : List ImuMeas} (hI : I f) (hh : Holds G M A Q f) (hm : M m) (hqq : ∀ m ∈ q, M m)
    (h : f.fuseImu m q = some f') : Holds G M A Q f' := by
  unfold fuseImu at h
  rw [Option.map_eq_some_iff] at h
  obtain ⟨g, h1, rfl⟩ := h
  have hI1 : I { f with latest := some m } := hc f _ rfl rfl rfl rfl rfl hI
  have hh1 : Holds G M A Q { f with latest := some m } :=
    ⟨hh.gyro, hh.imu, hh.imus, hh.enc, fun m' e => by rw [← Option.some.inj e]; exact hm, hh.out⟩
  have hg : Holds G M A Q g := by
    split_ifs at h1 with hf
    · rw [Option.map_eq_some_iff] at h1
      obtain ⟨r0, h0, rfl⟩ := h1
      exact (correctImu_holds hk hq hI1 hh1 hm h0).1
    · obtain rfl := Option.some.inj h1
      exact hh1
  exact ⟨hg.gyro, fun q' e => by rw [← Option.some.inj e]; exact hqq, hg.imus, hg.enc, hg.latest, hg.out⟩

theorem fuseEnc_holds (hk : KeptByKalman I)
    (hq : ∀ g m a, I g → M m → A a → Q { m with angVel := hd g.x, time := a.time })
    {f f' : GyroFilter} {a : AngVelMeas}
    {q : List AngVelMeas} (hI : I f) (hh : Holds G M A Q f) (ha : A a) (hqq : ∀ a ∈ q, A a)
    (h : f.fuseEnc a q = some f') : Holds G M A Q f' := by
  unfold fuseEnc at h
  split at h
  · obtain rfl := Option.some.inj h
    exact ⟨hh.gyro, hh.imu, hh.imus, fun q' e => by rw [← Option.some.inj e]; exact hqq, hh.latest, hh.out⟩
  · rename_i m hm
    rw [Option.map_eq_some_iff] at h
    obtain ⟨g, h1, rfl⟩ := h
    have hg : Holds G M A Q g := by
      split_ifs at h1 with hf
      · rw [Option.map_eq_some_iff] at h1
        obtain ⟨r0, h0, rfl⟩ := h1
        exact correctEnc_holds hk hq hI hh (hh.latest m hm) ha h0
      · obtain rfl := Option.some.inj h1
        exact hh
    exact ⟨hg.gyro, hg.imu, hg.imus, fun q' e => by rw [← Option.some.inj e]; exact hqq, hg.latest, hg.out⟩

theorem mem_tail_of {α : Type*} {P : α → Prop} {o : Option (List α)} (h : ∀ q, o = some q → ∀ m ∈ q, P m)
    {a : α} {l : List α} (e : o = some (a :: l)) : P a ∧ ∀ m ∈ l, P m :=
  ⟨h _ e a List.mem_cons_self, fun m hm => h _ e m (List.mem_cons_of_mem _ hm)⟩

theorem correctStep_holds (hc : CoreOnly I) (hk : KeptByKalman I)
    (hq : ∀ g m, I g → M m → Q { m with angVel := hd g.x })
    (hq' : ∀ g m a, I g → M m → A a → Q { m with angVel := hd g.x, time := a.time }) {f f' : GyroFilter}
    (hI : I f) (hh : Holds G M A Q f) (h : f.correctStep = some f') : Holds G M A Q f' := by
  unfold correctStep at h
  split at h
  · unfold imuPlusAngVel at h
    split at h
    · obtain rfl := Option.some.inj h; exact hh
    · rename_i m q _ e _
      exact fuseImu_holds hc hk hq hI hh (mem_tail_of hh.imu e).1 (mem_tail_of hh.imu e).2 h
    · rename_i a q _ _ e
      exact fuseEnc_holds hk hq' hI hh (mem_tail_of hh.enc e).1 (mem_tail_of hh.enc e).2 h
    · rename_i m q a q' _ _ e e'
      split_ifs at h
      · exact fuseImu_holds hc hk hq hI hh (mem_tail_of hh.imu e).1 (mem_tail_of hh.imu e).2 h
      · exact fuseEnc_holds hk hq' hI hh (mem_tail_of hh.enc e').1 (mem_tail_of hh.enc e').2 h
    · simp at h
  · unfold singleImu at h
    split at h
    · simp at h
    · obtain rfl := Option.some.inj h; exact hh
    · rename_i m q e
      split_ifs at h
      · rw [Option.map_eq_some_iff] at h
        obtain ⟨r0, h0, rfl⟩ := h
        have hh1 : Holds G M A Q { f with imu := some q } :=
          ⟨hh.gyro, fun q' e' => by rw [← Option.some.inj e']; exact (mem_tail_of hh.imu e).2, hh.imus, hh.enc,
            hh.latest, hh.out⟩
        have hI1 : I { f with imu := some q } := hc f _ rfl rfl rfl rfl rfl hI
        exact (correctImu_holds hk hq hI1 hh1 (mem_tail_of hh.imu e).1 h0).1
      · obtain rfl := Option.some.inj h; exact hh
  · unfold multiImu at h
    rw [Option.map_eq_some_iff] at h
    obtain ⟨r0, h0, rfl⟩ := h
    obtain ⟨k1, k2⟩ := multiLoop_holds hc hk hq _ _ _ _ hI hh hh.imus (by simp) h0
    exact ⟨k1.gyro, k1.imu, k2, k1.enc, k1.latest, k1.out⟩
  · unfold angVelCorr at h
    split at h
    · simp at h
    · obtain rfl := Option.some.inj h; exact hh
    · rename_i a q e
      split at h
      · obtain rfl := Option.some.inj h
        exact ⟨hh.gyro, hh.imu, hh.imus, fun q' e' => by rw [← Option.some.inj e']; exact (mem_tail_of hh.enc e).2,
          hh.latest, hh.out⟩
      · rename_i m hm
        rw [Option.map_eq_some_iff] at h
        obtain ⟨r0, h0, rfl⟩ := h
        have k := correctEnc_holds hk hq' hI hh (hh.latest m hm) (mem_tail_of hh.enc e).1 h0
        exact ⟨k.gyro, k.imu, k.imus, fun q' e' => by rw [← Option.some.inj e']; exact (mem_tail_of hh.enc e).2,
          k.latest, k.out⟩
  · obtain rfl := Option.some.inj h; exact hh

theorem propagate_holds (hGM : ∀ m, G m → M m) {f : GyroFilter} (hh : Holds G M A Q f) :
    Holds G M A Q f.propagate := by
  unfold propagate
  split
  · exact ⟨hh.gyro, hh.imu, hh.imus, hh.enc, hh.latest, hh.out⟩
  · exact hh
  · rename_i m q e
    refine ⟨fun q' e' => by rw [← Option.some.inj e']; exact (mem_tail_of hh.gyro e).2, hh.imu, hh.imus, hh.enc,
      fun m' e' => ?_, hh.out⟩
    dsimp only at e'
    split_ifs at e'
    · rw [← Option.some.inj e']; exact hGM _ (mem_tail_of hh.gyro e).1
    · exact hh.latest m' e'

theorem clearImuQueues_holds {f f' : GyroFilter} (hh : Holds G M A Q f) (h : f.clearImuQueues = some f') :
    Holds G M A Q f' := by
  have nil : ∀ q : List ImuMeas, some ([] : List ImuMeas) = some q → ∀ m ∈ q, M m := fun q e m hm => by
    rw [← Option.some.inj e] at hm; simp at hm
  unfold clearImuQueues at h
  split at h
  · rw [Option.map_eq_some_iff] at h
    obtain ⟨_, _, rfl⟩ := h
    exact ⟨hh.gyro, nil, hh.imus, hh.enc, hh.latest, hh.out⟩
  · rw [Option.map_eq_some_iff] at h
    obtain ⟨_, _, rfl⟩ := h
    exact ⟨hh.gyro, nil, hh.imus, hh.enc, hh.latest, hh.out⟩
  · obtain rfl := Option.some.inj h
    refine ⟨hh.gyro, hh.imu, fun q hq m hm => ?_, hh.enc, hh.latest, hh.out⟩
    rw [List.mem_map] at hq
    obtain ⟨_, _, rfl⟩ := hq
    simp at hm
  · obtain rfl := Option.some.inj h; exact hh

theorem clearEncQueue_holds {f f' : GyroFilter} (hh : Holds G M A Q f) (h : f.clearEncQueue = some f') :
    Holds G M A Q f' := by
  have nil : ∀ q : List AngVelMeas, some ([] : List AngVelMeas) = some q → ∀ m ∈ q, A m := fun q e m hm => by
    rw [← Option.some.inj e] at hm; simp at hm
  unfold clearEncQueue at h
  split at h
  · rw [Option.map_eq_some_iff] at h
    obtain ⟨_, _, rfl⟩ := h
    exact ⟨hh.gyro, hh.imu, hh.imus, nil, hh.latest, hh.out⟩
  · rw [Option.map_eq_some_iff] at h
    obtain ⟨_, _, rfl⟩ := h
    exact ⟨hh.gyro, hh.imu, hh.imus, nil, hh.latest, hh.out⟩
  · obtain rfl := Option.some.inj h; exact hh

theorem finishInit_holds {f f' : GyroFilter} (hh : Holds G M A Q f) (h : f.finishInit = some f') :
    Holds G M A Q f' := by
  unfold finishInit at h
  split_ifs at h with h0
  rw [Option.bind_eq_some_iff] at h
  obtain ⟨g, h1, h⟩ := h
  rw [Option.map_eq_some_iff] at h
  obtain ⟨g', h2, rfl⟩ := h
  have k1 : Holds G M A Q g := by
    refine clearImuQueues_holds ?_ h1
    refine ⟨fun q e m hm => ?_, hh.imu, hh.imus, hh.enc, hh.latest, hh.out⟩
    dsimp only at e
    rw [Option.map_eq_some_iff] at e
    obtain ⟨_, _, rfl⟩ := e
    simp at hm
  have k2 := clearEncQueue_holds k1 h2
  exact ⟨k2.gyro, k2.imu, k2.imus, k2.enc, k2.latest, k2.out⟩

theorem collectBias_holds {f f' : GyroFilter} (hh : Holds G M A Q f) (h : f.collectBias = some f') :
    Holds G M A Q f' := by
  unfold collectBias at h
  split at h
  · simp at h
  · obtain rfl := Option.some.inj h; exact hh
  · rename_i m q e
    have hi : ∀ q', some q = some q' → ∀ m ∈ q', M m := fun q' e' => by
      rw [← Option.some.inj e']; exact (mem_tail_of hh.imu e).2
    dsimp only at h
    split at h
    · obtain rfl := Option.some.inj h; exact ⟨hh.gyro, hi, hh.imus, hh.enc, hh.latest, hh.out⟩
    · obtain rfl := Option.some.inj h; exact ⟨hh.gyro, hi, hh.imus, hh.enc, hh.latest, hh.out⟩
    · rename_i g gq e2
      obtain rfl := Option.some.inj h
      exact ⟨fun q' e' => by rw [← Option.some.inj e']; exact (mem_tail_of hh.gyro e2).2, hi, hh.imus, hh.enc,
        hh.latest, hh.out⟩

theorem initializeFilter_holds {f f' : GyroFilter} (hh : Holds G M A Q f) (h : f.initializeFilter = some f') :
    Holds G M A Q f' := by
  unfold initializeFilter at h
  split_ifs at h
  · rw [Option.bind_eq_some_iff] at h
    obtain ⟨n, _, h⟩ := h
    split_ifs at h
    · exact collectBias_holds hh h
    · exact finishInit_holds hh h
  · obtain rfl := Option.some.inj h
    exact ⟨hh.gyro, hh.imu, hh.imus, hh.enc, hh.latest, hh.out⟩

/-- what an event may deliver -/
def OpOK (G M : ImuMeas → Prop) (A : AngVelMeas → Prop) : Op → Prop
  | .gyroData m => G m
  | .imuData m => M m
  | .imuDataN _ m => M m
  | .encData a => A a
  | _ => True

/-- One event keeps `I` and the provenance facts. -/
theorem step_holds (hGM : ∀ m, G m → M m) (hc : CoreOnly I) (hk : KeptByKalman I)
    (hq : ∀ g m, I g → M m → Q { m with angVel := hd g.x })
    (hq' : ∀ g m a, I g → M m → A a → Q { m with angVel := hd g.x, time := a.time })
    (hp : ∀ f, I f → Holds G M A Q f → I f.propagate)
    (hi : ∀ f f', I f → f.initialized = false → f.initializeFilter = some f' → I f')
    {f f' : GyroFilter} {o : Op} (ho : OpOK G M A o) (hI : I f) (hh : Holds G M A Q f)
    (h : f.step o = some f') : I f' ∧ Holds G M A Q f' := by
  have nilI : ∀ q : List ImuMeas, some ([] : List ImuMeas) = some q → ∀ m ∈ q, M m := fun q e m hm => by
    rw [← Option.some.inj e] at hm; simp at hm
  have nilG : ∀ q : List ImuMeas, some ([] : List ImuMeas) = some q → ∀ m ∈ q, G m := fun q e m hm => by
    rw [← Option.some.inj e] at hm; simp at hm
  have nilA : ∀ q : List AngVelMeas, some ([] : List AngVelMeas) = some q → ∀ m ∈ q, A m := fun q e m hm => by
    rw [← Option.some.inj e] at hm; simp at hm
  cases o with
  | run =>
    simp only [step, runOnce] at h
    split_ifs at h with hin
    · exact ⟨correctStep_inv hc hk (hp f hI hh) h,
        correctStep_holds hc hk hq hq' (hp f hI hh) (propagate_holds hGM hh) h⟩
    · have hI1 : I { f with method := f.chooseMethod } := hc f _ rfl rfl rfl rfl rfl hI
      refine ⟨hi _ f' hI1 (by simpa using hin) h, initializeFilter_holds ?_ h⟩
      exact ⟨hh.gyro, hh.imu, hh.imus, hh.enc, hh.latest, hh.out⟩
  | clear =>
    simp only [step, GyroFilter.clear, Option.bind_eq_some_iff, Option.map_eq_some_iff] at h
    obtain ⟨_, _, _, _, rfl⟩ := h
    exact ⟨hc f _ rfl rfl rfl rfl rfl hI, hh.gyro, nilI, hh.imus, nilA, hh.latest, by simp⟩
  | addGyro =>
    simp only [step, Option.some.injEq] at h
    subst h
    exact ⟨hc f _ rfl rfl rfl rfl rfl hI, nilG, hh.imu, hh.imus, hh.enc, hh.latest, hh.out⟩
  | addImu =>
    simp only [step, Option.some.injEq] at h
    subst h
    unfold addImu
    dsimp only
    split_ifs
    · exact ⟨hc f _ rfl rfl rfl rfl rfl hI, hh.gyro, nilI, hh.imus, hh.enc, hh.latest, hh.out⟩
    · refine ⟨hc f _ rfl rfl rfl rfl rfl hI, hh.gyro, hh.imu, fun q hq m hm => ?_, hh.enc, hh.latest, hh.out⟩
      rcases List.mem_append.mp hq with hq | hq
      · exact hh.imus q hq m hm
      · rw [List.mem_singleton.mp hq] at hm; simp at hm
  | addAngVel =>
    simp only [step, Option.some.injEq] at h
    subst h
    exact ⟨hc f _ rfl rfl rfl rfl rfl hI, hh.gyro, hh.imu, hh.imus, nilA, hh.latest, hh.out⟩
  | gyroData m =>
    simp only [step, Option.some.injEq] at h
    subst h
    refine ⟨hc f _ rfl rfl rfl rfl rfl hI, fun q e m' hm' => ?_, hh.imu, hh.imus, hh.enc, hh.latest, hh.out⟩
    dsimp only at e
    rw [Option.map_eq_some_iff] at e
    obtain ⟨q0, e0, rfl⟩ := e
    rcases List.mem_append.mp hm' with k | k
    · exact hh.gyro q0 e0 m' k
    · rw [List.mem_singleton.mp k]; exact ho
  | imuData m =>
    simp only [step, Option.some.injEq] at h
    subst h
    refine ⟨hc f _ rfl rfl rfl rfl rfl hI, hh.gyro, fun q e m' hm' => ?_, hh.imus, hh.enc, hh.latest, hh.out⟩
    dsimp only at e
    rw [Option.map_eq_some_iff] at e
    obtain ⟨q0, e0, rfl⟩ := e
    rcases List.mem_append.mp hm' with k | k
    · exact hh.imu q0 e0 m' k
    · rw [List.mem_singleton.mp k]; exact ho
  | imuDataN i m =>
    simp only [step, Option.some.injEq] at h
    subst h
    refine ⟨hc f _ rfl rfl rfl rfl rfl hI, hh.gyro, hh.imu, fun q hq m' hm' => ?_, hh.enc, hh.latest, hh.out⟩
    dsimp only at hq
    obtain ⟨j, hj, e⟩ := List.mem_iff_getElem.mp hq
    rw [List.getElem_modify] at e
    rw [List.length_modify] at hj
    split_ifs at e with hij
    · subst e
      rcases List.mem_append.mp hm' with k | k
      · exact hh.imus _ (List.getElem_mem hj) m' k
      · rw [List.mem_singleton.mp k]; exact ho
    · subst e
      exact hh.imus _ (List.getElem_mem hj) m' hm'
  | encData a =>
    simp only [step, Option.some.injEq] at h
    subst h
    refine ⟨hc f _ rfl rfl rfl rfl rfl hI, hh.gyro, hh.imu, hh.imus, fun q e m' hm' => ?_, hh.latest, hh.out⟩
    dsimp only at e
    rw [Option.map_eq_some_iff] at e
    obtain ⟨q0, e0, rfl⟩ := e
    rcases List.mem_append.mp hm' with k | k
    · exact hh.enc q0 e0 m' k
    · rw [List.mem_singleton.mp k]; exact ho
  | popOut =>
    simp only [step, Option.some.injEq] at h
    subst h
    exact ⟨hc f _ rfl rfl rfl rfl rfl hI, hh.gyro, hh.imu, hh.imus, hh.enc, hh.latest,
      fun o ho' => hh.out o (List.mem_of_mem_tail ho')⟩

/-- A history keeps `I` and the provenance facts. -/
theorem runOps_holds (hGM : ∀ m, G m → M m) (hc : CoreOnly I) (hk : KeptByKalman I)
    (hq : ∀ g m, I g → M m → Q { m with angVel := hd g.x })
    (hq' : ∀ g m a, I g → M m → A a → Q { m with angVel := hd g.x, time := a.time })
    (hp : ∀ f, I f → Holds G M A Q f → I f.propagate)
    (hi : ∀ f f', I f → f.initialized = false → f.initializeFilter = some f' → I f') :
    ∀ (l : List Op) (f f' : GyroFilter), (∀ o ∈ l, OpOK G M A o) → I f → Holds G M A Q f →
      runOps l f = some f' → I f' ∧ Holds G M A Q f'
  | [], f, f', _, hI, hh, h => by
    rw [runOps] at h
    obtain rfl := Option.some.inj h
    exact ⟨hI, hh⟩
  | o :: l, f, f', ho, hI, hh, h => by
    rw [runOps, Option.bind_eq_some_iff] at h
    obtain ⟨g, h1, h2⟩ := h
    obtain ⟨k1, k2⟩ := step_holds hGM hc hk hq hq' hp hi (ho o List.mem_cons_self) hI hh h1
    exact runOps_holds hGM hc hk hq hq' hp hi l g f' (fun o ho' => ho o (List.mem_cons_of_mem _ ho')) k1 k2 h2

end GyroFilter
end Drift
