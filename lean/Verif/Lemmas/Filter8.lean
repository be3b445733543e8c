import Verif.Lemmas.Filter7

/-! Helper lemmas for the gyro filter: the multi-IMU configuration, registration, static initialisation. -/
namespace Drift
open Matrix
namespace GyroFilter

theorem correctImu_withImu (f : GyroFilter) (X : Option (List ImuMeas)) (m : ImuMeas) :
    correctImu { f with imu := X } m = (f.correctImu m).map fun r => (r.1, { r.2 with imu := X }) := by
  unfold correctImu kalman
  dsimp only
  split_ifs <;> rfl

theorem multiLoop_withImu (X : Option (List ImuMeas)) : ∀ (qs : List (List ImuMeas)) (fu : Option ImuMeas)
    (f : GyroFilter), multiLoop qs fu { f with imu := X } =
      (multiLoop qs fu f).map fun r => (r.1, { r.2 with imu := X })
  | [], fu, f => rfl
  | [] :: qs, fu, f => by
    rw [multiLoop, multiLoop, multiLoop_withImu X qs fu f, Option.map_map, Option.map_map]
    rfl
  | (m :: q) :: qs, fu, f => by
    have hF : Fresh { f with imu := X } m.time ↔ f.Fresh m.time := Iff.rfl
    rw [multiLoop, multiLoop]
    by_cases hf : f.Fresh m.time
    · rw [if_pos hf, if_pos (c := Fresh { f with imu := X } m.time) (hF.mpr hf), correctImu_withImu]
      obtain ⟨r, hr⟩ : ∃ r, f.correctImu m = r := ⟨_, rfl⟩
      rw [hr]
      cases r with
      | none => rfl
      | some r =>
        simp only [Option.map_some, Option.bind_some]
        have := multiLoop_withImu X qs (some r.1) (r.2.push r.1)
        show Option.map _ (multiLoop qs (some r.1) { r.2.push r.1 with imu := X }) = _
        rw [this, Option.map_map, Option.map_map]
        rfl
    · rw [if_neg hf, if_neg (c := Fresh { f with imu := X } m.time) (fun k => hf (hF.mp k))]
      simp only [Option.bind_some]
      cases fu with
      | none =>
        have := multiLoop_withImu X qs none f
        dsimp only at this ⊢
        rw [this, Option.map_map, Option.map_map]
        rfl
      | some o =>
        have := multiLoop_withImu X qs (some o) (f.push o)
        show Option.map _ (multiLoop qs (some o) { f.push o with imu := X }) = _
        rw [this, Option.map_map, Option.map_map]
        rfl

theorem propagate_withImu (f : GyroFilter) (X : Option (List ImuMeas)) :
    propagate { f with imu := X } = { f.propagate with imu := X } := by
  unfold propagate
  dsimp only
  split <;> rfl

theorem multi_run_withImu {f : GyroFilter} (h : MultiReady f) (X : Option (List ImuMeas)) :
    runOnce { f with imu := X } = f.runOnce.map fun r => { r with imu := X } := by
  obtain ⟨p1, p2, p3, p4, p5, p6, p7, p8, p9, p10⟩ := propagate_frame f
  have e1 : runOnce { f with imu := X } = multiImu { f.propagate with imu := X } := by
    unfold runOnce correctStep
    rw [if_pos (c := ({ f with imu := X } : GyroFilter).initialized = true) h.init, propagate_withImu]
    dsimp only
    rw [p5, h.method]
  have e2 : runOnce f = multiImu f.propagate := by
    unfold runOnce correctStep
    rw [if_pos h.init, p5, h.method]
  rw [e1, e2]
  unfold multiImu
  dsimp only
  rw [multiLoop_withImu, Option.map_map, Option.map_map]
  rfl

/-- One run of the multi-IMU configuration. -/
theorem MultiReady.run {f : GyroFilter} (h : MultiReady f) :
    ∃ f', f.runOnce = some f' ∧ MultiReady f' ∧ f'.imus = f.imus.map List.tail ∧ f'.imu = f.imu ∧
      f'.cfg = f.cfg ∧ f'.lastProp = f.propagate.lastProp ∧ f'.gyro = f.propagate.gyro ∧
      ((∀ q ∈ f.imus, ∀ m ∈ q.head?, f.propagate.Fresh m.time) →
        ∃ outs, f'.out = f.out ++ outs ∧ outs.map ImuMeas.time = (f.imus.filterMap List.head?).map ImuMeas.time ∧
          outs.map ImuMeas.linAcc = (f.imus.filterMap List.head?).map ImuMeas.linAcc) := by
  obtain ⟨p1, p2, p3, p4, p5, p6, p7, p8, p9, p10⟩ := propagate_frame f
  obtain ⟨f', h1, h2, h3, h4, h5, h6, h7, h8⟩ := multiLoop_total f.imus none f.propagate (propagate_psd h.psd)
    (by rw [p1]; exact h.noisy)
  refine ⟨{ f' with imus := f.imus.map List.tail }, ?_, ⟨h2.initialized.trans (p8.trans h.init),
    h2.method.trans (p5.trans h.method), h3, ?_⟩, rfl, h4.trans p2, h2.cfg.trans p1, h2.lastProp, h2.gyro, ?_⟩
  · unfold runOnce correctStep
    rw [if_pos h.init, p5, h.method]
    dsimp only
    unfold multiImu
    rw [p3, h1]
    rfl
  · show Noisy f'.cfg
    rw [h2.cfg, p1]; exact h.noisy
  · intro hf
    obtain ⟨outs, k1, k2, k3⟩ := h8 hf
    exact ⟨outs, by rw [p9] at k1; exact k1, k2, k3⟩

/-! ### Registration -/

/-- what registration establishes -/
structure Registered (c : FCfg) (i k : ℕ) (f : GyroFilter) : Prop where
  cfg : f.cfg = c
  P : f.P = diag6 c.angVelStd c.biasStd
  init : f.initialized = false
  numImu : f.numImu = i
  numAngVel : f.numAngVel = k
  imu : 0 < i → f.imu.isSome
  enc : 0 < k → f.enc.isSome
  target : f.biasTarget = some (toSize c.initBiasSize)

theorem Registered.add {c : FCfg} : ∀ (l : List Op) (i k : ℕ) (f : GyroFilter), Registered c i k f →
    (∀ o ∈ l, o.isAdd = true) → ∃ f', runOps l f = some f' ∧
      Registered c (i + l.countP Op.isAddImu) (k + l.countP Op.isAddAngVel) f'
  | [], i, k, f, h, _ => ⟨f, rfl, h⟩
  | o :: l, i, k, f, h, ho => by
    have ho1 := ho o List.mem_cons_self
    have hol := fun o ho' => ho o (List.mem_cons_of_mem _ ho')
    cases o with
    | addGyro =>
      obtain ⟨f', e, r⟩ := Registered.add l i k f.addGyro
        ⟨h.cfg, h.P, h.init, h.numImu, h.numAngVel, h.imu, h.enc, h.target⟩ hol
      exact ⟨f', by rw [runOps]; exact e, by
        simpa only [List.countP_cons, Op.isAddImu, Op.isAddAngVel, Bool.false_eq_true, if_false, add_zero] using r⟩
    | addImu =>
      obtain ⟨f', e, r⟩ := Registered.add l (i + 1) k f.addImu (by
        unfold addImu
        dsimp only
        split_ifs with h1
        · exact ⟨h.cfg, h.P, h.init, by show f.numImu + 1 = i + 1; rw [h.numImu], h.numAngVel, fun _ => rfl, h.enc,
            h.target⟩
        · refine ⟨h.cfg, h.P, h.init, by show f.numImu + 1 = i + 1; rw [h.numImu], h.numAngVel, fun _ => h.imu ?_, h.enc,
            h.target⟩
          rw [h.numImu] at h1; omega) hol
      refine ⟨f', by rw [runOps]; exact e, ?_⟩
      have e1 : i + List.countP Op.isAddImu (Op.addImu :: l) = i + 1 + List.countP Op.isAddImu l := by
        rw [List.countP_cons_of_pos rfl]; omega
      have e2 : List.countP Op.isAddAngVel (Op.addImu :: l) = List.countP Op.isAddAngVel l :=
        List.countP_cons_of_neg (by simp [Op.isAddAngVel])
      rw [e1, e2]; exact r
    | addAngVel =>
      obtain ⟨f', e, r⟩ := Registered.add l i (k + 1) f.addAngVel
        ⟨h.cfg, h.P, h.init, h.numImu, by show f.numAngVel + 1 = k + 1; rw [h.numAngVel], h.imu, fun _ => rfl, h.target⟩ hol
      refine ⟨f', by rw [runOps]; exact e, ?_⟩
      have e1 : k + List.countP Op.isAddAngVel (Op.addAngVel :: l) = k + 1 + List.countP Op.isAddAngVel l := by
        rw [List.countP_cons_of_pos rfl]; omega
      have e2 : List.countP Op.isAddImu (Op.addAngVel :: l) = List.countP Op.isAddImu l :=
        List.countP_cons_of_neg (by simp [Op.isAddImu])
      rw [e1, e2]; exact r
    | gyroData m => simp [Op.isAdd] at ho1
    | imuData m => simp [Op.isAdd] at ho1
    | imuDataN i m => simp [Op.isAdd] at ho1
    | encData m => simp [Op.isAdd] at ho1
    | popOut => simp [Op.isAdd] at ho1
    | run => simp [Op.isAdd] at ho1
    | clear => simp [Op.isAdd] at ho1

theorem registered_mk1 (c : FCfg) : Registered c 0 0 (mk1 c) :=
  ⟨rfl, rfl, rfl, rfl, rfl, fun h => absurd h (lt_irrefl _), fun h => absurd h (lt_irrefl _), rfl⟩

theorem Registered.need {c : FCfg} {i k : ℕ} {f : GyroFilter} (h : Registered c i k f) (hs : Supported i k) :
    f.Need f.chooseMethod := by
  unfold chooseMethod
  rw [h.numImu, h.numAngVel]
  rcases hs with ⟨rfl, rfl⟩ | ⟨rfl, rfl⟩ | ⟨rfl, rfl⟩ | ⟨h1, rfl⟩
  · exact h.enc (by omega)
  · exact h.imu (by omega)
  · exact ⟨h.imu (by omega), h.enc (by omega)⟩
  · rw [if_neg (by omega), if_neg (by omega), if_neg (by omega), if_pos ⟨h1, rfl⟩]
    trivial

theorem Registered.safe {c : FCfg} {i k : ℕ} {f : GyroFilter} (h : Registered c i k f) (hs : Supported i k)
    (hn : Noisy c) (hst : c.staticBias = true → 0 < i ∧ 0 < toSize c.initBiasSize) : Safe f := by
  refine ⟨by rw [h.P]; exact diag6_psd _ _, by rw [h.cfg]; exact hn, fun hb => ?_, ?_, fun hi => by
    rw [h.init] at hi; simp at hi⟩
  · rw [h.cfg] at hb
    obtain ⟨h1, h2⟩ := hst hb
    exact ⟨h.imu h1, _, h.target, h2⟩
  · exact h.need hs

theorem toSize_of_pos {n : ℤ} (h1 : 0 ≤ n) (h2 : n < 2 ^ 63) : toSize n = n.toNat := by
  unfold toSize
  rw [Int.emod_eq_of_lt h1 (by omega)]

theorem regs_biasVec : ∀ (l : List Op) (f f' : GyroFilter), (∀ o ∈ l, o.isAdd = true) → f.biasVec = [] →
    runOps l f = some f' → f'.biasVec = []
  | [], f, f', _, h, e => by obtain rfl := Option.some.inj e; exact h
  | o :: l, f, f', ho, h, e => by
    have ho1 := ho o List.mem_cons_self
    rw [runOps, Option.bind_eq_some_iff] at e
    obtain ⟨g, e1, e2⟩ := e
    refine regs_biasVec l g f' (fun o ho' => ho o (List.mem_cons_of_mem _ ho')) ?_ e2
    cases o with
    | addGyro => obtain rfl := Option.some.inj e1; exact h
    | addImu =>
      obtain rfl := Option.some.inj e1
      unfold addImu
      dsimp only
      split_ifs <;> exact h
    | addAngVel => obtain rfl := Option.some.inj e1; exact h
    | gyroData m => simp [Op.isAdd] at ho1
    | imuData m => simp [Op.isAdd] at ho1
    | imuDataN i m => simp [Op.isAdd] at ho1
    | encData m => simp [Op.isAdd] at ho1
    | popOut => simp [Op.isAdd] at ho1
    | run => simp [Op.isAdd] at ho1
    | clear => simp [Op.isAdd] at ho1

theorem regs_out : ∀ (l : List Op) (f f' : GyroFilter), (∀ o ∈ l, o.isAdd = true) → f.out = [] →
    runOps l f = some f' → f'.out = []
  | [], f, f', _, h, e => by obtain rfl := Option.some.inj e; exact h
  | o :: l, f, f', ho, h, e => by
    have ho1 := ho o List.mem_cons_self
    rw [runOps, Option.bind_eq_some_iff] at e
    obtain ⟨g, e1, e2⟩ := e
    refine regs_out l g f' (fun o ho' => ho o (List.mem_cons_of_mem _ ho')) ?_ e2
    cases o with
    | addGyro => obtain rfl := Option.some.inj e1; exact h
    | addImu =>
      obtain rfl := Option.some.inj e1
      unfold addImu
      dsimp only
      split_ifs <;> exact h
    | addAngVel => obtain rfl := Option.some.inj e1; exact h
    | gyroData m => simp [Op.isAdd] at ho1
    | imuData m => simp [Op.isAdd] at ho1
    | imuDataN i m => simp [Op.isAdd] at ho1
    | encData m => simp [Op.isAdd] at ho1
    | popOut => simp [Op.isAdd] at ho1
    | run => simp [Op.isAdd] at ho1
    | clear => simp [Op.isAdd] at ho1

theorem foldl_apply (l : List V3) (i : Fin 3) : (l.foldl (· + ·) (0 : V3) : V3) i = (l.map fun v => v i).sum := by
  have : ∀ (l : List V3) (a : V3), (l.foldl (· + ·) a : V3) i = a i + (l.map fun v => v i).sum := by
    intro l
    induction l with
    | nil => intro a; simp
    | cons v l ih => intro a; rw [List.foldl_cons, ih]; simp [add_assoc]
  rw [this]; simp

/-! ### Static initialisation -/

/-- collecting: as long as samples are missing each run takes one IMU sample -/
theorem collect_run {f : GyroFilter} {m : ImuMeas} {q : List ImuMeas} {n : ℕ} (hs : f.cfg.staticBias = true)
    (hi : f.initialized = false) (ht : f.biasTarget = some n) (hl : f.biasVec.length < n)
    (hq : f.imu = some (m :: q)) :
    ∃ g pv, f.runOnce = some { f with
      method := f.chooseMethod
      imu := some q
      biasVec := f.biasVec ++ [m.angVel]
      gyro := g
      prev := pv } := by
  unfold runOnce initializeFilter
  rw [if_neg (by rw [hi]; simp)]
  dsimp only
  rw [if_pos hs, ht, Option.bind_some, if_pos hl]
  unfold collectBias
  dsimp only
  rw [hq]
  dsimp only
  split
  · exact ⟨_, _, rfl⟩
  · exact ⟨_, _, rfl⟩
  · exact ⟨_, _, rfl⟩

theorem collect_runs (n : ℕ) : ∀ (Q R : List ImuMeas) (f : GyroFilter), f.cfg.staticBias = true →
    f.initialized = false → f.biasTarget = some n → f.biasVec.length + Q.length = n → f.imu = some (Q ++ R) →
    ∃ f', runN Q.length f = some f' ∧ f'.cfg = f.cfg ∧ f'.initialized = false ∧ f'.biasTarget = some n ∧
      f'.imu = some R ∧ f'.biasVec = f.biasVec ++ Q.map ImuMeas.angVel ∧ f'.enc = f.enc ∧
      f'.chooseMethod = f.chooseMethod ∧ f'.out = f.out ∧ f'.P = f.P
  | [], R, f, hs, hi, ht, hl, hq => ⟨f, rfl, rfl, hi, ht, hq, by simp, rfl, rfl, rfl, rfl⟩
  | m :: Q, R, f, hs, hi, ht, hl, hq => by
    rw [List.length_cons] at hl
    obtain ⟨g, pv, e⟩ := collect_run hs hi ht (by omega) hq
    obtain ⟨f', k1, k2, k3, k4, k5, k6, k7, k8, k9, k10⟩ := collect_runs n Q R { f with
      method := f.chooseMethod
      imu := some (Q ++ R)
      biasVec := f.biasVec ++ [m.angVel]
      gyro := g
      prev := pv } hs hi ht (by simp; omega) rfl
    refine ⟨f', ?_, k2, k3, k4, k5, ?_, k7, ?_, k9, k10⟩
    · show f.runOnce.bind _ = _
      rw [e]; exact k1
    · rw [k6]; simp
    · rw [k8]
      exact (chooseMethod_congr (g := { f with method := f.chooseMethod }) rfl rfl rfl).trans (chooseMethod_idem f)

theorem finish_run {f : GyroFilter} {n : ℕ} (hs : f.cfg.staticBias = true) (hi : f.initialized = false)
    (ht : f.biasTarget = some n) (hl : f.biasVec.length = n) (hn : 0 < n) (hc : f.Need f.chooseMethod) :
    ∃ f', f.runOnce = some f' ∧ f'.initialized = true ∧ f'.x = join 0 (mean f.biasVec) ∧ f'.out = f.out ∧
      f'.P = f.P ∧ f'.cfg = f.cfg ∧ f'.method = f.chooseMethod := by
  unfold runOnce initializeFilter
  rw [if_neg (by rw [hi]; simp)]
  dsimp only
  rw [if_pos hs, ht, Option.bind_some, if_neg (by omega)]
  unfold finishInit
  dsimp only
  rw [if_neg (by omega)]
  obtain ⟨me, hme⟩ : ∃ me, f.chooseMethod = me := ⟨_, rfl⟩
  rw [hme] at hc ⊢
  cases me with
  | imuPlusAngVel =>
    obtain ⟨I, hI⟩ := Option.isSome_iff_exists.mp hc.1
    obtain ⟨E, hE⟩ := Option.isSome_iff_exists.mp hc.2
    simp [clearImuQueues, clearEncQueue, hI, hE]
  | singleImu =>
    obtain ⟨I, hI⟩ := Option.isSome_iff_exists.mp hc
    simp [clearImuQueues, clearEncQueue, hI]
  | multiImu => simp [clearImuQueues, clearEncQueue]
  | angVel =>
    obtain ⟨E, hE⟩ := Option.isSome_iff_exists.mp hc
    simp [clearImuQueues, clearEncQueue, hE]
  | invalid => simp [clearImuQueues, clearEncQueue]

/-- still collecting samples for the static initialisation -/
structure Collecting (n : ℕ) (f : GyroFilter) : Prop where
  static : f.cfg.staticBias = true
  init : f.initialized = false
  target : f.biasTarget = some n
  out : f.out = []

theorem Collecting.step {n : ℕ} {f f' : GyroFilter} {o : Op} (h : Collecting n f) (hl : f.biasVec.length < n)
    (ho : o.running) (hs : f.step o = some f') : Collecting n f' ∧ f'.biasVec.length ≤ f.biasVec.length + 1 := by
  cases o with
  | run =>
    have e : runOnce f = some f' := hs
    unfold runOnce initializeFilter at e
    rw [if_neg (by rw [h.init]; simp)] at e
    dsimp only at e
    rw [if_pos h.static, h.target, Option.bind_some, if_pos hl] at e
    unfold collectBias at e
    dsimp only at e
    split at e
    · simp at e
    · obtain rfl := Option.some.inj e
      exact ⟨⟨h.static, h.init, (by first | rfl | exact h.target), h.out⟩, by show f.biasVec.length ≤ _; omega⟩
    · split at e <;>
      · obtain rfl := Option.some.inj e
        exact ⟨⟨h.static, h.init, (by first | rfl | exact h.target), h.out⟩, by simp⟩
  | clear => exact absurd ho (by simp [Op.running])
  | addGyro => exact absurd ho (by simp [Op.running])
  | addImu => exact absurd ho (by simp [Op.running])
  | addAngVel => exact absurd ho (by simp [Op.running])
  | gyroData m => obtain rfl := Option.some.inj hs; exact ⟨⟨h.static, h.init, h.target, h.out⟩, Nat.le_succ _⟩
  | imuData m => obtain rfl := Option.some.inj hs; exact ⟨⟨h.static, h.init, h.target, h.out⟩, Nat.le_succ _⟩
  | imuDataN i m => obtain rfl := Option.some.inj hs; exact ⟨⟨h.static, h.init, h.target, h.out⟩, Nat.le_succ _⟩
  | encData a => obtain rfl := Option.some.inj hs; exact ⟨⟨h.static, h.init, h.target, h.out⟩, Nat.le_succ _⟩
  | popOut =>
    obtain rfl := Option.some.inj hs
    exact ⟨⟨h.static, h.init, h.target, by show f.out.tail = []; rw [h.out]; rfl⟩, Nat.le_succ _⟩

theorem Collecting.ops : ∀ (l : List Op) {n : ℕ} {f f' : GyroFilter}, Collecting n f →
    f.biasVec.length + l.length ≤ n → (∀ o ∈ l, o.running) → runOps l f = some f' → Collecting n f'
  | [], n, f, f', h, _, _, e => by obtain rfl := Option.some.inj e; exact h
  | o :: l, n, f, f', h, hl, ho, e => by
    rw [List.length_cons] at hl
    rw [runOps, Option.bind_eq_some_iff] at e
    obtain ⟨g, e1, e2⟩ := e
    obtain ⟨h1, h2⟩ := h.step (by omega) (ho o List.mem_cons_self) e1
    exact Collecting.ops l h1 (by omega) (fun o ho' => ho o (List.mem_cons_of_mem _ ho')) e2

/-- an encoder as the only correction sensor, without a gyro -/
structure EncQuiet (f : GyroFilter) : Prop where
  gyro : f.gyro = none
  latest : f.latest = none
  imu : f.imu = none
  numImu : f.numImu = 0
  numAngVel : f.numAngVel = 1
  method : f.initialized = true → f.method = .angVel
  out : f.out = []

theorem EncQuiet.step {f f' : GyroFilter} {o : Op} (h : EncQuiet f) (ho : o.running) (hs : f.step o = some f') :
    EncQuiet f' := by
  cases o with
  | run =>
    have e : runOnce f = some f' := hs
    unfold runOnce at e
    split_ifs at e with hi
    · have hp : EncQuiet f.propagate := by
        unfold propagate
        rw [h.gyro]
        exact ⟨rfl, h.latest, h.imu, h.numImu, h.numAngVel, h.method, h.out⟩
      unfold correctStep at e
      rw [hp.method ((propagate_frame f).2.2.2.2.2.2.2.1.trans hi)] at e
      dsimp only at e
      unfold angVelCorr at e
      rw [hp.latest] at e
      split at e
      · simp at e
      · obtain rfl := Option.some.inj e; exact hp
      · obtain rfl := Option.some.inj e
        exact ⟨hp.gyro, rfl, hp.imu, hp.numImu, hp.numAngVel, hp.method, hp.out⟩
    · have hc : f.chooseMethod = .angVel := by
        unfold chooseMethod
        rw [h.numImu, h.numAngVel]; rfl
      unfold initializeFilter at e
      dsimp only at e
      split_ifs at e with hb
      · rw [Option.bind_eq_some_iff] at e
        obtain ⟨n, _, e⟩ := e
        split_ifs at e
        · unfold collectBias at e
          dsimp only at e
          rw [h.imu] at e
          simp at e
        · unfold finishInit at e
          dsimp only at e
          split_ifs at e
          rw [Option.bind_eq_some_iff] at e
          obtain ⟨f2, e2, e3⟩ := e
          rw [Option.map_eq_some_iff] at e3
          obtain ⟨f3, e3, rfl⟩ := e3
          unfold clearImuQueues at e2
          dsimp only at e2
          rw [hc] at e2
          dsimp only at e2
          obtain rfl := Option.some.inj e2
          unfold clearEncQueue at e3
          dsimp only at e3
          rw [Option.map_eq_some_iff] at e3
          obtain ⟨_, _, rfl⟩ := e3
          exact ⟨by show f.gyro.map _ = none; rw [h.gyro]; rfl, h.latest, h.imu, h.numImu, h.numAngVel, fun _ => rfl,
            h.out⟩
      · obtain rfl := Option.some.inj e
        exact ⟨h.gyro, h.latest, h.imu, h.numImu, h.numAngVel, fun _ => hc, h.out⟩
  | clear => exact absurd ho (by simp [Op.running])
  | addGyro => exact absurd ho (by simp [Op.running])
  | addImu => exact absurd ho (by simp [Op.running])
  | addAngVel => exact absurd ho (by simp [Op.running])
  | gyroData m =>
    obtain rfl := Option.some.inj hs
    exact ⟨by show f.gyro.map _ = none; rw [h.gyro]; rfl, h.latest, h.imu, h.numImu, h.numAngVel, h.method, h.out⟩
  | imuData m =>
    obtain rfl := Option.some.inj hs
    exact ⟨h.gyro, h.latest, by show f.imu.map _ = none; rw [h.imu]; rfl, h.numImu, h.numAngVel, h.method, h.out⟩
  | imuDataN i m => obtain rfl := Option.some.inj hs; exact ⟨h.gyro, h.latest, h.imu, h.numImu, h.numAngVel, h.method, h.out⟩
  | encData a => obtain rfl := Option.some.inj hs; exact ⟨h.gyro, h.latest, h.imu, h.numImu, h.numAngVel, h.method, h.out⟩
  | popOut =>
    obtain rfl := Option.some.inj hs
    exact ⟨h.gyro, h.latest, h.imu, h.numImu, h.numAngVel, h.method, by show f.out.tail = []; rw [h.out]; rfl⟩

theorem angVelCorr_some {f : GyroFilter} {a : AngVelMeas} {q : List AngVelMeas} {m : ImuMeas}
    (h1 : f.enc = some (a :: q)) (h2 : f.latest = some m) :
    f.angVelCorr = (f.correctEnc m a).map fun r => { (r.2.push r.1) with enc := some q } := by
  unfold angVelCorr
  rw [h1]
  dsimp only
  rw [h2]

theorem runN_add : ∀ (a b : ℕ) (f : GyroFilter), runN (a + b) f = (runN a f).bind (runN b)
  | 0, b, f => by simp [runN]
  | a + 1, b, f => by
    rw [Nat.add_right_comm]
    show f.runOnce.bind _ = (f.runOnce.bind _).bind _
    rw [Option.bind_assoc]
    congr 1
    funext g
    exact runN_add a b g

end GyroFilter
end Drift
