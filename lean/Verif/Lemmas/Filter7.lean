import Verif.Lemmas.Filter6

/-! Helper lemmas for the gyro filter: the multi-IMU loop, definedness of every run. -/
namespace Drift
open Matrix
namespace GyroFilter

/-- the multi-IMU loop: pops every non-empty queue once and leaves everything else but estimate and output -/
theorem multiLoop_total : ∀ (qs : List (List ImuMeas)) (fu : Option ImuMeas) (f : GyroFilter),
    f.P.PosSemidef → Noisy f.cfg →
    ∃ f' , multiLoop qs fu f = some (qs.map List.tail, f') ∧ Frame f f' ∧ f'.P.PosSemidef ∧ f'.imu = f.imu ∧
      f'.enc = f.enc ∧ f'.latest = f.latest ∧ f'.biasTarget = f.biasTarget ∧
      ((∀ q ∈ qs, ∀ m ∈ q.head?, f.Fresh m.time) →
        ∃ outs, f'.out = f.out ++ outs ∧ outs.map ImuMeas.time = (qs.filterMap List.head?).map ImuMeas.time ∧
          outs.map ImuMeas.linAcc = (qs.filterMap List.head?).map ImuMeas.linAcc)
  | [], fu, f, hP, hn => ⟨f, rfl, ⟨rfl, rfl, rfl, rfl, rfl, rfl, rfl, rfl, rfl⟩, hP, rfl, rfl, rfl, rfl,
      fun _ => ⟨[], by simp, by simp, by simp⟩⟩
  | [] :: qs, fu, f, hP, hn => by
    obtain ⟨f', h1, h2, h3, h4, h5, h6, h7, h8⟩ := multiLoop_total qs fu f hP hn
    refine ⟨f', by rw [multiLoop, h1]; rfl, h2, h3, h4, h5, h6, h7, fun hf => ?_⟩
    obtain ⟨outs, k1, k2, k3⟩ := h8 fun q hq => hf q (List.mem_cons_of_mem _ hq)
    exact ⟨outs, k1, k2, k3⟩
  | (m :: q) :: qs, fu, f, hP, hn => by
    by_cases hfr : f.Fresh m.time
    · obtain ⟨x, P, hP', e⟩ := correctImu_total hP hn m
      obtain ⟨f', h1, h2, h3, h4, h5, h6, h7, h8⟩ := multiLoop_total qs (some { m with angVel := hd x })
        (push { f with x := x, P := P } { m with angVel := hd x }) hP' hn
      refine ⟨f', ?_, ⟨h2.cfg, h2.gyro, h2.imus, h2.lastProp, h2.method, h2.numImu, h2.numAngVel, h2.prev,
        h2.initialized⟩, h3, h4, h5, h6, h7, fun hf => ?_⟩
      · rw [multiLoop, if_pos hfr, e]
        simp only [Option.map_some, Option.bind_some]
        rw [h1]
        rfl
      · obtain ⟨outs, k1, k2, k3⟩ := h8 fun q hq => hf q (List.mem_cons_of_mem _ hq)
        refine ⟨{ m with angVel := hd x } :: outs, by rw [k1]; simp [push], ?_, ?_⟩
        · simpa using k2
        · simpa using k3
    · cases fu with
      | none =>
        obtain ⟨f', h1, h2, h3, h4, h5, h6, h7, h8⟩ := multiLoop_total qs none f hP hn
        refine ⟨f', ?_, h2, h3, h4, h5, h6, h7, fun hf => ?_⟩
        · rw [multiLoop, if_neg hfr]
          simp only [Option.bind_some]
          rw [h1]
          rfl
        · exact absurd (hf _ List.mem_cons_self m rfl) hfr
      | some o =>
        obtain ⟨f', h1, h2, h3, h4, h5, h6, h7, h8⟩ := multiLoop_total qs (some o) (f.push o) hP hn
        refine ⟨f', ?_, ⟨h2.cfg, h2.gyro, h2.imus, h2.lastProp, h2.method, h2.numImu, h2.numAngVel, h2.prev,
          h2.initialized⟩, h3, h4, h5, h6, h7, fun hf => ?_⟩
        · rw [multiLoop, if_neg hfr]
          simp only [Option.bind_some]
          rw [h1]
          rfl
        · exact absurd (hf _ List.mem_cons_self m rfl) hfr

/-- the buffers a correction method uses -/
def Need (f : GyroFilter) : FMethod → Prop
  | .imuPlusAngVel => f.imu.isSome ∧ f.enc.isSome
  | .singleImu => f.imu.isSome
  | .angVel => f.enc.isSome
  | _ => True

theorem Need.mono {f g : GyroFilter} {m : FMethod} (h : f.Need m) (h1 : f.imu.isSome → g.imu.isSome)
    (h2 : f.enc.isSome → g.enc.isSome) : g.Need m := by
  cases m with
  | imuPlusAngVel => exact ⟨h1 h.1, h2 h.2⟩
  | singleImu => exact h1 h
  | angVel => exact h2 h
  | _ => trivial

/-- nothing the next event does is undefined -/
structure Safe (f : GyroFilter) : Prop where
  psd : f.P.PosSemidef
  noisy : Noisy f.cfg
  static : f.cfg.staticBias = true → f.imu.isSome ∧ ∃ n, f.biasTarget = some n ∧ 0 < n
  choose : f.Need f.chooseMethod
  method : f.initialized = true → f.Need f.method

/-- fields that never change while running -/
structure Keeps (f f' : GyroFilter) : Prop where
  cfg : f'.cfg = f.cfg
  target : f'.biasTarget = f.biasTarget
  numImu : f'.numImu = f.numImu
  numAngVel : f'.numAngVel = f.numAngVel
  imu : f.imu.isSome → f'.imu.isSome
  enc : f.enc.isSome → f'.enc.isSome

theorem correctStep_total {f : GyroFilter} (hP : f.P.PosSemidef) (hn : Noisy f.cfg) (hm : f.Need f.method) :
    ∃ f', f.correctStep = some f' ∧ f'.P.PosSemidef ∧ Keeps f f' ∧ f'.method = f.method ∧
      f'.initialized = f.initialized := by
  obtain ⟨me, hme⟩ : ∃ me, f.method = me := ⟨_, rfl⟩
  unfold correctStep
  rw [hme] at hm ⊢
  cases me with
  | imuPlusAngVel =>
    obtain ⟨h1, h2⟩ := hm
    obtain ⟨I, hI⟩ := Option.isSome_iff_exists.mp h1
    obtain ⟨E, hE⟩ := Option.isSome_iff_exists.mp h2
    have ki : ∀ m q, ∃ f', f.fuseImu m q = some f' ∧ f'.P.PosSemidef ∧ Keeps f f' ∧ f'.method = f.method ∧
        f'.initialized = f.initialized := by
      intro m q
      have hbt : ∀ f', f.fuseImu m q = some f' → f'.biasTarget = f.biasTarget := by
        intro f' e
        unfold fuseImu at e
        rw [Option.map_eq_some_iff] at e
        obtain ⟨g, e1, rfl⟩ := e
        split_ifs at e1
        · rw [Option.map_eq_some_iff] at e1
          obtain ⟨r, e2, rfl⟩ := e1
          obtain ⟨x, P, e3, _⟩ := correctImu_frame e2
          show r.2.biasTarget = _
          rw [e3]
        · obtain rfl := Option.some.inj e1; rfl
      obtain ⟨f', e, fr, k1, k2, k3, _⟩ := fuseImu_total hP hn m q
      exact ⟨f', e, k1, ⟨fr.cfg, hbt f' e, fr.numImu, fr.numAngVel, fun _ => by rw [k2]; rfl, fun h => by rwa [k3]⟩,
        fr.method, fr.initialized⟩
    have ke : ∀ a q, ∃ f', f.fuseEnc a q = some f' ∧ f'.P.PosSemidef ∧ Keeps f f' ∧ f'.method = f.method ∧
        f'.initialized = f.initialized := by
      intro a q
      have hbt : ∀ f', f.fuseEnc a q = some f' → f'.biasTarget = f.biasTarget := by
        intro f' e
        unfold fuseEnc at e
        split at e
        · obtain rfl := Option.some.inj e; rfl
        · rw [Option.map_eq_some_iff] at e
          obtain ⟨g, e1, rfl⟩ := e
          split_ifs at e1
          · rw [Option.map_eq_some_iff] at e1
            obtain ⟨r, e2, rfl⟩ := e1
            obtain ⟨x, P, e3, _⟩ := correctEnc_frame e2
            show r.2.biasTarget = _
            rw [e3]
          · obtain rfl := Option.some.inj e1; rfl
      obtain ⟨f', e, fr, k1, k2, k3, _⟩ := fuseEnc_total hP hn a q
      exact ⟨f', e, k1, ⟨fr.cfg, hbt f' e, fr.numImu, fr.numAngVel, fun h => by rwa [k2], fun _ => by rw [k3]; rfl⟩,
        fr.method, fr.initialized⟩
    have hr : Keeps f f := ⟨rfl, rfl, rfl, rfl, id, id⟩
    simp only [hme] at ki ke
    dsimp only
    unfold imuPlusAngVel
    rw [hI, hE]
    rcases I with _ | ⟨m, I⟩ <;> rcases E with _ | ⟨a, E⟩
    · exact ⟨f, rfl, hP, hr, hme, rfl⟩
    · exact ke a E
    · exact ki m I
    · dsimp only
      split_ifs
      · exact ki m I
      · exact ke a E
  | singleImu =>
    obtain ⟨I, hI⟩ := Option.isSome_iff_exists.mp hm
    dsimp only
    rw [← hme]
    unfold singleImu
    rcases I with _ | ⟨m, I⟩
    · exact ⟨f, by rw [hI], hP, ⟨rfl, rfl, rfl, rfl, id, id⟩, rfl, rfl⟩
    · rw [hI]
      dsimp only
      split_ifs
      · obtain ⟨x, P, hP', e⟩ := correctImu_total (f := { f with imu := some I }) hP hn m
        rw [e]
        exact ⟨_, rfl, hP', ⟨rfl, rfl, rfl, rfl, fun _ => rfl, id⟩, rfl, rfl⟩
      · exact ⟨f, rfl, hP, ⟨rfl, rfl, rfl, rfl, id, id⟩, rfl, rfl⟩
  | multiImu =>
    obtain ⟨f', h1, h2, h3, h4, h5, h6, h7, _⟩ := multiLoop_total f.imus none f hP hn
    refine ⟨{ f' with imus := f.imus.map List.tail }, ?_, h3, ⟨h2.cfg, h7, h2.numImu, h2.numAngVel,
      fun h => by show f'.imu.isSome; rwa [h4], fun h => by show f'.enc.isSome; rwa [h5]⟩,
      h2.method.trans hme, h2.initialized⟩
    dsimp only
    unfold multiImu
    rw [h1]; rfl
  | angVel =>
    obtain ⟨E, hE⟩ := Option.isSome_iff_exists.mp hm
    dsimp only
    rw [← hme]
    unfold angVelCorr
    rcases E with _ | ⟨a, E⟩
    · exact ⟨f, by rw [hE], hP, ⟨rfl, rfl, rfl, rfl, id, id⟩, rfl, rfl⟩
    · rw [hE]
      dsimp only
      obtain ⟨la, hla⟩ : ∃ la, f.latest = la := ⟨_, rfl⟩
      cases la with
      | none =>
        rw [hla]
        exact ⟨_, rfl, hP, ⟨rfl, rfl, rfl, rfl, id, fun _ => rfl⟩, rfl, rfl⟩
      | some m =>
        obtain ⟨x, P, hP', e⟩ := correctEnc_total hP hn m a
        rw [hla]
        dsimp only
        rw [e]
        exact ⟨_, rfl, hP', ⟨rfl, rfl, rfl, rfl, id, fun _ => rfl⟩, rfl, rfl⟩
  | invalid => exact ⟨f, rfl, hP, ⟨rfl, rfl, rfl, rfl, id, id⟩, hme, rfl⟩

theorem Safe.of_keeps {f f' : GyroFilter} (h : Safe f) (hk : Keeps f f') (hP : f'.P.PosSemidef)
    (hc : f'.chooseMethod = f.chooseMethod) (hm : f'.initialized = true → f'.Need f'.method) : Safe f' := by
  refine ⟨hP, hk.cfg ▸ h.noisy, fun hs => ?_, ?_, hm⟩
  · rw [hk.cfg] at hs
    obtain ⟨h1, n, h2, h3⟩ := h.static hs
    exact ⟨hk.imu h1, n, hk.target.trans h2, h3⟩
  · rw [hc]
    exact h.choose.mono hk.imu hk.enc

theorem Safe.run {f : GyroFilter} (h : Safe f) : ∃ f', f.runOnce = some f' ∧ Safe f' := by
  obtain ⟨ini, hini⟩ : ∃ ini, f.initialized = ini := ⟨_, rfl⟩
  cases ini with
  | true =>
    obtain ⟨p1, p2, p3, p4, p5, p6, p7, p8, p9, p10⟩ := propagate_frame f
    have pt : f.propagate.biasTarget = f.biasTarget := by
      unfold propagate; split <;> rfl
    have hm : f.propagate.Need f.propagate.method := by
      rw [p5]
      exact (h.method hini).mono (fun k => by rwa [p2]) (fun k => by rwa [p4])
    obtain ⟨f', e, hP', k, k2, k3⟩ := correctStep_total (propagate_psd h.psd) (by rw [p1]; exact h.noisy) hm
    refine ⟨f', by unfold runOnce; rw [if_pos hini]; exact e, h.of_keeps ⟨k.cfg.trans p1, k.target.trans pt,
      k.numImu.trans p6, k.numAngVel.trans p7, fun h => k.imu (by rwa [p2]), fun h => k.enc (by rwa [p4])⟩ hP'
      (chooseMethod_congr (k.numImu.trans p6) (k.numAngVel.trans p7) (k2.trans p5)) fun _ => ?_⟩
    rw [k2]
    exact hm.mono k.imu k.enc
  | false =>
    have hi : ∃ f', initializeFilter { f with method := f.chooseMethod } = some f' := by
      unfold initializeFilter
      dsimp only
      split_ifs with hs
      · obtain ⟨h1, n, h2, h3⟩ := h.static hs
        rw [h2, Option.bind_some]
        split_ifs with hl
        · obtain ⟨I, hI⟩ := Option.isSome_iff_exists.mp h1
          unfold collectBias
          dsimp only
          rw [hI]
          rcases I with _ | ⟨m, I⟩
          · exact ⟨_, rfl⟩
          · dsimp only
            split <;> exact ⟨_, rfl⟩
        · unfold finishInit
          dsimp only
          rw [if_neg (by omega)]
          have hc := h.choose
          obtain ⟨me, hme⟩ : ∃ me, f.chooseMethod = me := ⟨_, rfl⟩
          rw [hme] at hc ⊢
          cases me with
          | imuPlusAngVel =>
            obtain ⟨I, hI⟩ := Option.isSome_iff_exists.mp hc.1
            obtain ⟨E, hE⟩ := Option.isSome_iff_exists.mp hc.2
            simp [clearImuQueues, clearEncQueue, hI, hE]
          | singleImu =>
            obtain ⟨I, hI⟩ := Option.isSome_iff_exists.mp hc
            simp [clearImuQueues, clearEncQueue, hI]
          | multiImu => simp [clearImuQueues, clearEncQueue]
          | angVel =>
            obtain ⟨E, hE⟩ := Option.isSome_iff_exists.mp hc
            simp [clearImuQueues, clearEncQueue, hE]
          | invalid => simp [clearImuQueues, clearEncQueue]
      · exact ⟨_, rfl⟩
    obtain ⟨f', hf'⟩ := hi
    obtain ⟨e1, e2⟩ := initialize_core hf'
    obtain ⟨k1, k2, k3, k4, k5, k6, k7, k8, k9, k10, k11, k12⟩ := initialize_frame hf'
    dsimp only at e1 e2 k1 k2 k3 k4 k5 k6 k7 k8 k9 k10 k11 k12
    have hcm : f'.chooseMethod = f.chooseMethod := by
      rw [chooseMethod_congr (g := { f with method := f.chooseMethod }) k1 k2 k3, chooseMethod_idem f]
    refine ⟨f', by unfold runOnce; rw [if_neg (by rw [hini]; simp)]; exact hf',
      h.of_keeps ⟨e1, k8, k1, k2, k11, k12⟩ (by rw [e2]; exact h.psd) hcm fun _ => ?_⟩
    rw [k3]
    exact h.choose.mono k11 k12

theorem Safe.step {f : GyroFilter} (h : Safe f) (o : Op) (ho : o.running) : ∃ f', f.step o = some f' ∧ Safe f' := by
  cases o with
  | run => exact h.run
  | clear => exact absurd ho (by simp [Op.running])
  | addGyro => exact absurd ho (by simp [Op.running])
  | addImu => exact absurd ho (by simp [Op.running])
  | addAngVel => exact absurd ho (by simp [Op.running])
  | gyroData m => exact ⟨_, rfl, h.psd, h.noisy, h.static, h.choose, h.method⟩
  | imuDataN i m => exact ⟨_, rfl, h.psd, h.noisy, h.static, h.choose, h.method⟩
  | popOut => exact ⟨_, rfl, h.psd, h.noisy, h.static, h.choose, h.method⟩
  | imuData m =>
    refine ⟨_, rfl, h.of_keeps ⟨rfl, rfl, rfl, rfl, fun k => ?_, id⟩ h.psd rfl fun k => (h.method k).mono ?_ id⟩
    · simpa using k
    · intro k; simpa using k
  | encData m =>
    refine ⟨_, rfl, h.of_keeps ⟨rfl, rfl, rfl, rfl, id, fun k => ?_⟩ h.psd rfl fun k => (h.method k).mono id ?_⟩
    · simpa using k
    · intro k; simpa using k

theorem Safe.ops : ∀ (l : List Op) (f : GyroFilter), Safe f → (∀ o ∈ l, o.running) →
    ∃ f', runOps l f = some f' ∧ Safe f'
  | [], f, h, _ => ⟨f, rfl, h⟩
  | o :: l, f, h, ho => by
    obtain ⟨g, h1, h2⟩ := h.step o (ho o List.mem_cons_self)
    obtain ⟨f', k1, k2⟩ := Safe.ops l g h2 fun o ho' => ho o (List.mem_cons_of_mem _ ho')
    exact ⟨f', by rw [runOps, h1]; exact k1, k2⟩

end GyroFilter
end Drift
