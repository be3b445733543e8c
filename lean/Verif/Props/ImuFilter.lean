import Verif.Lemmas.Filter5
import Mathlib.Data.List.Sort

/-!
# Properties C65, C67, C70, C71: `src/imu_filter/imu_ang_vel_ekf.cpp`
-/
set_option linter.unusedSimpArgs false
namespace Drift
open Matrix GyroFilter

/-! ### C65 -/

/-- **C65**: after every history of registrations, measurements, runs, output reads and `clear()`, the 6x6
covariance is symmetric positive semidefinite -- for every configuration, also with zero noise parameters. -/
theorem C65_covariance_psd (c : FCfg) (f₀ f : GyroFilter) (h0 : Fresh0 c f₀) (l : List Op)
    (h : runOps l f₀ = some f) : f.P.PosSemidef := by
  refine runOps_inv (I := fun f => f.P.PosSemidef) (fun _ _ _ hI hs => step_psd hI hs) l f₀ f ?_ h
  rcases h0 with rfl | rfl <;> exact diag6_psd _ _

/-- **C65**: a correction never increases the covariance (in the Loewner order). -/
theorem C65_correction_informative (f : GyroFilter) (hP : f.P.PosSemidef) (m : ImuMeas) (a : AngVelMeas)
    (r : ImuMeas × GyroFilter) (h : f.correctImu m = some r ∨ f.correctEnc m a = some r) :
    (f.P - r.2.P).PosSemidef := by
  rcases h with h | h
  · unfold correctImu at h
    rw [Option.map_eq_some_iff] at h
    obtain ⟨f', h1, rfl⟩ := h
    obtain ⟨hd, rfl⟩ := kalman_some h1
    exact (kalman_cov hP (noise3_psd _) hd).2
  · unfold correctEnc at h
    rw [Option.map_eq_some_iff] at h
    obtain ⟨f', h1, rfl⟩ := h
    obtain ⟨hd, rfl⟩ := kalman_some h1
    exact (kalman_cov hP (noise3_psd _) hd).2

/-- a concrete configuration used in the examples (the values of config/husky_gyro_filter/imu_filter.yaml, with the
identity mounting) -/
noncomputable def exFCfg (static : Bool) : FCfg where
  rotImu2body := Quat.id
  tThres := 0.03
  method := .imuPlusAngVel
  initBiasSize := 250
  angVelStd := 0.1
  biasStd := 0.1
  filterStd := 0.1
  filterBiasStd := 0.1
  imuStd := 0.1
  encStd := 0.1
  flatGround := false
  staticBias := static
  prior := ![0.00124314, -0.00037725, -0.00254523]

theorem exFCfg_noisy (b : Bool) : Noisy (exFCfg b) := by
  constructor <;> simp [exFCfg] <;> norm_num

/-- An initialised filter in the IMU + angular velocity configuration is reached by registering the sensors and
running once. -/
theorem ex_reaches_plus (c : FCfg) (hs : c.staticBias = false) (hn : Noisy c) (I : List ImuMeas)
    (E : List AngVelMeas) :
    ∃ f, runOps ([.addImu, .addAngVel, .run] ++ I.map .imuData ++ E.map .encData) (mk1 c) = some f ∧
      PlusReady I E f ∧ f.gyro = none ∧ f.lastProp = -1 ∧ f.latest = none ∧ f.out = [] := by
  have h1 : runOps [.addImu, .addAngVel, .run] (mk1 c) = some { base c with
      imu := some []
      enc := some []
      numImu := 1
      numAngVel := 1
      method := .imuPlusAngVel
      initialized := true } := by
    simp [runOps, step, mk1, addImu, addAngVel, runOnce, initializeFilter, chooseMethod, base, hs]
  have h2 : ∀ (I : List ImuMeas) (J : List ImuMeas) (f : GyroFilter), f.imu = some J →
      runOps (I.map .imuData) f = some { f with imu := some (J ++ I) } := by
    intro I
    induction I with
    | nil => intro J f hf; rw [List.append_nil, ← hf]; rfl
    | cons m I ih =>
      intro J f hf
      simp only [List.map_cons, runOps, step, Option.bind_some, hf, Option.map_some]
      rw [ih (J ++ [m]) _ rfl, List.append_assoc]; rfl
  have h3 : ∀ (I : List AngVelMeas) (J : List AngVelMeas) (f : GyroFilter), f.enc = some J →
      runOps (I.map .encData) f = some { f with enc := some (J ++ I) } := by
    intro I
    induction I with
    | nil => intro J f hf; rw [List.append_nil, ← hf]; rfl
    | cons m I ih =>
      intro J f hf
      simp only [List.map_cons, runOps, step, Option.bind_some, hf, Option.map_some]
      rw [ih (J ++ [m]) _ rfl, List.append_assoc]; rfl
  rw [runOps_append, runOps_append, h1, Option.bind_some, h2 I [] _ rfl, Option.bind_some, h3 E [] _ rfl]
  exact ⟨_, rfl, ⟨rfl, rfl, rfl, rfl, diag6_psd _ _, hn⟩, rfl, rfl, rfl, rfl⟩

example : ∃ f, runOps ([.addImu, .addAngVel, .run] ++ [ImuMeas.mk 1 0 0 Quat.id].map .imuData
    ++ [AngVelMeas.mk 2 0].map .encData) (mk1 (exFCfg false)) = some f ∧ f.P.PosSemidef := by
  obtain ⟨f, h, _⟩ := ex_reaches_plus (exFCfg false) rfl (exFCfg_noisy _) _ _
  exact ⟨f, h, C65_covariance_psd _ _ f (Or.inl rfl) _ h⟩

/-! ### C67 -/

/-- **C67**: in the IMU + angular velocity configuration `n` runs consume exactly the first `n` readings of the
merge of the two queues by time stamp, each once, and leave the rest queued in order; the stamps of the outputs
are (a subsequence of) the stamps of the consumed readings, in this order. -/
theorem C67_consumes_in_time_order {I : List ImuMeas} {E : List AngVelMeas} {f : GyroFilter}
    (h : PlusReady I E f) (n : ℕ) :
    ∃ f' I' E' outs, runN n f = some f' ∧ PlusReady I' E' f' ∧
      mergeByTime I' E' = (mergeByTime I E).drop n ∧
      I = imuPart ((mergeByTime I E).take n) ++ I' ∧ E = encPart ((mergeByTime I E).take n) ++ E' ∧
      f'.out = f.out ++ outs ∧
      List.Sublist (outs.map ImuMeas.time) (((mergeByTime I E).take n).map Reading.time) := by
  induction n generalizing f I E with
  | zero => exact ⟨f, I, E, [], rfl, h, rfl, rfl, rfl, by simp, by simp⟩
  | succ n ih =>
    rcases plus_step h with ⟨hm, hr⟩ | ⟨r, rest, I1, E1, f1, hm, hrest, hr, h1, hc, hg, hl, hcfg⟩
    · obtain ⟨p1, p2, p3, p4, p5, p6, p7, p8, p9, p10⟩ := propagate_frame f
      have hp : PlusReady I E f.propagate := ⟨p8.trans h.init, p5.trans h.method, p2.trans h.imu,
        p4.trans h.enc, propagate_psd h.psd, by rw [p1]; exact h.noisy⟩
      obtain ⟨f', I', E', outs, k1, k2, k3, k4, k5, k6, k7⟩ := ih hp
      refine ⟨f', I', E', outs, by rw [runN, hr]; exact k1, k2, ?_, ?_, ?_, by rw [k6, p9], ?_⟩
      · rw [k3, hm]; simp
      · rw [hm] at k4 ⊢; simpa using k4
      · rw [hm] at k5 ⊢; simpa using k5
      · rw [hm] at k7 ⊢; simpa using k7
    · obtain ⟨f', I', E', outs, k1, k2, k3, k4, k5, k6, k7⟩ := ih h1
      obtain ⟨hI, hE⟩ := merge_parts I E
      obtain ⟨hI1, hE1⟩ := merge_parts I1 E1
      have hout : f1.out = f.out ∨ ∃ o : ImuMeas, f1.out = f.out ++ [o] ∧ o.time = r.time := by
        rcases r with m | a
        · obtain ⟨_, c2, c3⟩ := hc
          by_cases hf : f.propagate.Fresh m.time
          · obtain ⟨w, hw⟩ := c2 hf
            exact Or.inr ⟨_, hw, rfl⟩
          · exact Or.inl (c3 hf)
        · obtain ⟨_, c2, c3⟩ := hc
          obtain ⟨la, hla⟩ : ∃ la, f.latest = la := ⟨_, rfl⟩
          cases la with
          | none => exact Or.inl (c3 (Or.inl hla))
          | some m =>
            by_cases hf : f.propagate.Fresh a.time
            · obtain ⟨w, hw⟩ := c2 m hla hf
              exact Or.inr ⟨_, hw, rfl⟩
            · exact Or.inl (c3 (Or.inr hf))
      have hparts : I = imuPart (r :: (mergeByTime I1 E1).take n) ++ I' ∧
          E = encPart (r :: (mergeByTime I1 E1).take n) ++ E' := by
        rw [hm, hrest] at hI hE
        rcases r with m | a
        · rw [imuPart_cons_inl, hI1] at hI
          rw [encPart_cons_inl, hE1] at hE
          rw [imuPart_cons_inl, encPart_cons_inl, List.cons_append, ← k4, ← k5]
          exact ⟨hI.symm, hE.symm⟩
        · rw [imuPart_cons_inr, hI1] at hI
          rw [encPart_cons_inr, hE1] at hE
          rw [imuPart_cons_inr, encPart_cons_inr, List.cons_append, ← k4, ← k5]
          exact ⟨hI.symm, hE.symm⟩
      have ht : (mergeByTime I E).take (n + 1) = r :: (mergeByTime I1 E1).take n := by
        rw [hm, hrest, List.take_succ_cons]
      rcases hout with ho | ⟨o, ho, hot⟩
      · refine ⟨f', I', E', outs, by rw [runN, hr]; exact k1, k2, ?_, ?_, ?_, by rw [k6, ho], ?_⟩
        · rw [k3, hm, hrest, List.drop_succ_cons]
        · rw [ht]; exact hparts.1
        · rw [ht]; exact hparts.2
        · rw [ht, List.map_cons]; exact k7.cons _
      · refine ⟨f', I', E', o :: outs, by rw [runN, hr]; exact k1, k2, ?_, ?_, ?_, by rw [k6, ho]; simp, ?_⟩
        · rw [k3, hm, hrest, List.drop_succ_cons]
        · rw [ht]; exact hparts.1
        · rw [ht]; exact hparts.2
        · rw [ht, List.map_cons, List.map_cons, hot]; exact k7.cons_cons _

/-- **C67**: if both queues are sorted by time, so is the order of consumption. -/
theorem C67_merge_sorted : ∀ (I : List ImuMeas) (E : List AngVelMeas),
    (I.map ImuMeas.time).Pairwise (· ≤ ·) → (E.map AngVelMeas.time).Pairwise (· ≤ ·) →
    ((mergeByTime I E).map Reading.time).Pairwise (· ≤ ·) := by
  have hmem : ∀ (I : List ImuMeas) (E : List AngVelMeas) (t : ℝ), t ∈ (mergeByTime I E).map Reading.time →
      t ∈ I.map ImuMeas.time ∨ t ∈ E.map AngVelMeas.time := by
    intro I E
    induction I, E using mergeByTime.induct with
    | case1 E => intro t ht; rw [mergeByTime, List.map_map] at ht; exact Or.inr ht
    | case2 m I => intro t ht; rw [mergeByTime, ← List.map_cons (f := Sum.inl), List.map_map] at ht; exact Or.inl ht
    | case3 m I a E hma ih =>
      intro t ht
      rw [mergeByTime, if_pos hma, List.map_cons, List.mem_cons] at ht
      rcases ht with rfl | ht
      · exact Or.inl (by simp [Reading.time])
      · rcases ih t ht with k | k
        · exact Or.inl (List.mem_cons_of_mem _ k)
        · exact Or.inr k
    | case4 m I a E hma ih =>
      intro t ht
      rw [mergeByTime, if_neg hma, List.map_cons, List.mem_cons] at ht
      rcases ht with rfl | ht
      · exact Or.inr (by simp [Reading.time])
      · rcases ih t ht with k | k
        · exact Or.inl k
        · exact Or.inr (List.mem_cons_of_mem _ k)
  intro I E
  induction I, E using mergeByTime.induct with
  | case1 E => intro _ h; rw [mergeByTime, List.map_map]; exact h
  | case2 m I => intro h _; rw [mergeByTime, ← List.map_cons (f := Sum.inl), List.map_map]; exact h
  | case3 m I a E hma ih =>
    intro h1 h2
    rw [List.map_cons, List.pairwise_cons] at h1
    have h2' := h2
    rw [List.map_cons, List.pairwise_cons] at h2'
    rw [mergeByTime, if_pos hma, List.map_cons, List.pairwise_cons]
    refine ⟨fun t ht => ?_, ih h1.2 h2⟩
    rcases hmem _ _ t ht with k | k
    · exact h1.1 t k
    · rw [List.map_cons, List.mem_cons] at k
      rcases k with rfl | k
      · exact hma
      · exact le_trans hma (h2'.1 t k)
  | case4 m I a E hma ih =>
    intro h1 h2
    rw [List.map_cons, List.pairwise_cons] at h2
    have h1' := h1
    rw [List.map_cons, List.pairwise_cons] at h1'
    rw [mergeByTime, if_neg hma, List.map_cons, List.pairwise_cons]
    refine ⟨fun t ht => ?_, ih h1 h2.2⟩
    have hma' : a.time ≤ m.time := le_of_lt (not_le.mp hma)
    rcases hmem _ _ t ht with k | k
    · rw [List.map_cons, List.mem_cons] at k
      rcases k with rfl | k
      · exact hma'
      · exact le_trans hma' (h1'.1 t k)
    · exact h2.1 t k

/-- **C67**: without a propagation gyro no reading is ever too old, so every consumed reading produces exactly one
output with its stamp -- except encoder readings older than the first IMU reading, which are dropped because there
is no IMU measurement to complete them with. -/
theorem C67_random_walk_outputs {I : List ImuMeas} {E : List AngVelMeas} {f : GyroFilter}
    (h : PlusReady I E f) (hg : f.gyro = none) (hl : f.lastProp = -1) (n : ℕ) :
    ∃ f' outs, runN n f = some f' ∧ f'.out = f.out ++ outs ∧
      outs.map ImuMeas.time =
        (match f.latest with
          | none => ((mergeByTime I E).take n).dropWhile Reading.isEnc
          | some _ => (mergeByTime I E).take n).map Reading.time := by
  induction n generalizing f I E with
  | zero => exact ⟨f, [], rfl, by simp, by cases f.latest <;> simp⟩
  | succ n ih =>
    obtain ⟨g1, g2⟩ := propagate_gyro f
    rw [hg] at g1 g2
    simp only [Option.getD_none, List.head?_nil, Option.map_none] at g1 g2
    rw [hl] at g2
    rcases plus_step h with ⟨hm, hr⟩ | ⟨r, rest, I1, E1, f1, hm, hrest, hr, h1, hc, hg1, hl1, hcfg⟩
    · obtain ⟨p1, p2, p3, p4, p5, p6, p7, p8, p9, p10⟩ := propagate_frame f
      have hp : PlusReady I E f.propagate := ⟨p8.trans h.init, p5.trans h.method, p2.trans h.imu,
        p4.trans h.enc, propagate_psd h.psd, by rw [p1]; exact h.noisy⟩
      obtain ⟨f', outs, k1, k2, k3⟩ := ih hp g1 g2
      refine ⟨f', outs, by rw [runN, hr]; exact k1, by rw [k2, p9], ?_⟩
      rw [k3, p10 (by rw [h.method]; simp), hm]
      cases f.latest <;> simp
    · obtain ⟨f', outs, k1, k2, k3⟩ := ih h1 (hg1.trans g1) (hl1.trans g2)
      have ht : (mergeByTime I E).take (n + 1) = r :: (mergeByTime I1 E1).take n := by
        rw [hm, hrest, List.take_succ_cons]
      have hfr : ∀ t, f.propagate.Fresh t := fun t => Or.inl g2
      rcases r with m | a
      · obtain ⟨c1, c2, _⟩ := hc
        obtain ⟨w, hw⟩ := c2 (hfr _)
        refine ⟨f', { m with angVel := w } :: outs, by rw [runN, hr]; exact k1, by rw [k2, hw]; simp, ?_⟩
        rw [c1] at k3
        rw [ht, List.map_cons, k3]
        cases f.latest <;> simp [Reading.isEnc, Reading.time]
      · obtain ⟨c1, c2, c3⟩ := hc
        obtain ⟨la, hla⟩ : ∃ la, f.latest = la := ⟨_, rfl⟩
        cases la with
        | none =>
          refine ⟨f', outs, by rw [runN, hr]; exact k1, by rw [k2, c3 (Or.inl hla)], ?_⟩
          rw [c1, hla] at k3
          rw [ht, k3, hla]
          rfl
        | some m =>
          obtain ⟨w, hw⟩ := c2 m hla (hfr _)
          refine ⟨f', { m with angVel := w, time := a.time } :: outs, by rw [runN, hr]; exact k1,
            by rw [k2, hw]; simp, ?_⟩
          rw [c1, hla] at k3
          rw [ht, List.map_cons, k3, hla]
          simp [Reading.time]

/-- three readings: an IMU sample at 1, encoder samples at 0.5 and 1.5 -/
example : ∃ f I E, PlusReady I E f ∧ f.gyro = none ∧ f.lastProp = -1 ∧
    (mergeByTime I E).map Reading.time = [0.5, 1, 1.5] := by
  obtain ⟨f, _, h1, h2, h3, _⟩ := ex_reaches_plus (exFCfg false) rfl (exFCfg_noisy _) [⟨1, 0, 0, Quat.id⟩]
    [⟨0.5, 0⟩, ⟨1.5, 0⟩]
  refine ⟨f, _, _, h1, h2, h3, ?_⟩
  have e1 : ¬ ((1 : ℝ) ≤ 0.5) := by norm_num
  have e2 : (1 : ℝ) ≤ 1.5 := by norm_num
  simp [mergeByTime, e1, e2, Reading.time]

/-! ### C70 -/

/-- **C70**: with `flat_ground: false`, for every initialised filter `f` reached by a history and every further
history of runs, measurements and even registrations or `clear()`: the roll and pitch rate estimates differ from
their values in `f` exactly by the change of the gyro sample (`prev` is the last gyro sample used for
propagation), and the roll and pitch biases never change.  No correction touches them. -/
theorem C70_roll_pitch_telescope (c : FCfg) (hflat : c.flatGround = false) (f₀ f f' : GyroFilter)
    (h0 : Fresh0 c f₀) (l l' : List Op) (h : runOps l f₀ = some f) (hi : f.initialized = true)
    (h' : runOps l' f = some f') :
    f'.x 0 - f.x 0 = f'.prev 0 - f.prev 0 ∧ f'.x 1 - f.x 1 = f'.prev 1 - f.prev 1 ∧
      f'.x 3 = f.x 3 ∧ f'.x 4 = f.x 4 := by
  have hd : YawDec f := runOps_yawDec (by
    rcases h0 with rfl | rfl <;> exact ⟨hflat, diag6_decoupled _ _⟩) h
  have hy : YawOnly (fun i => ![f.x 0 - f.prev 0, f.x 1 - f.prev 1, 0] i) (fun i => ![f.x 3, f.x 4, 0] i) f :=
    ⟨hd.flat, hd.dec, rfl, rfl, rfl, rfl⟩
  obtain ⟨hy', _⟩ := runOps_yawOnly hy hi h'
  have e0 : f'.x 0 - f'.prev 0 = f.x 0 - f.prev 0 := hy'.r0
  have e1 : f'.x 1 - f'.prev 1 = f.x 1 - f.prev 1 := hy'.r1
  exact ⟨by linarith, by linarith, hy'.b0, hy'.b1⟩

/-- **C70**: without static initialisation the roll and pitch rates of every output are those of a raw gyro sample
(or zero, before the first one): they are never corrected, not even by the bias prior of the configuration. -/
theorem C70_outputs_raw_roll_pitch (c : FCfg) (hflat : c.flatGround = false) (hs : c.staticBias = false)
    (f₀ f : GyroFilter) (h0 : Fresh0 c f₀) (l : List Op) (h : runOps l f₀ = some f) :
    ∀ o ∈ f.out, ∃ w : V3, (w = 0 ∨ ∃ m, GyroIn l m ∧ w = m.angVel) ∧ o.angVel 0 = w 0 ∧ o.angVel 1 = w 1 := by
  let W : V3 → Prop := fun w => w = 0 ∨ ∃ m, GyroIn l m ∧ w = m.angVel
  let I : GyroFilter → Prop := fun f => YawOnly 0 c.prior f ∧ W f.prev ∧ f.cfg.staticBias = false
  let Q : ImuMeas → Prop := fun o => ∃ w, W w ∧ o.angVel 0 = w 0 ∧ o.angVel 1 = w 1
  have hQ : ∀ (g : GyroFilter) (m : ImuMeas), I g → Q { m with angVel := hd g.x } := by
    rintro g m ⟨h1, h2, _⟩
    refine ⟨g.prev, h2, ?_, ?_⟩
    · exact sub_eq_zero.mp h1.r0
    · exact sub_eq_zero.mp h1.r1
  have key := runOps_holds (I := I) (G := GyroIn l) (M := fun _ => True) (A := fun _ => True) (Q := Q)
    (fun _ _ => trivial)
    (fun f g h1 h2 h3 h4 h5 hI => ⟨yawOnly_core _ _ f g h1 h2 h3 h4 h5 hI.1, h4 ▸ hI.2.1, h1 ▸ hI.2.2⟩)
    (fun f f' y hI hk => ⟨yawOnly_kalman _ _ f f' y hI.1 hk, by
      rcases hk with hk | hk <;> (obtain ⟨_, rfl⟩ := kalman_some hk; exact hI.2)⟩)
    (fun g m hI _ => hQ g m hI)
    (fun g m a hI _ _ => hQ g { m with time := a.time } hI)
    (fun f hI hh => by
      refine ⟨yawOnly_propagate _ _ hI.1, ?_, by rw [(propagate_core f).1]; exact hI.2.2⟩
      obtain ⟨_, _, _, _, ⟨_, hp⟩ | ⟨m, q, hg, hp, _⟩⟩ := propagate_core f
      · rw [hp]; exact hI.2.1
      · rw [hp]; exact Or.inr ⟨m, hh.gyro _ hg m List.mem_cons_self, rfl⟩)
    (fun f f' hI _ hi => by
      unfold initializeFilter at hi
      rw [hI.2.2] at hi
      obtain rfl := Option.some.inj hi
      exact ⟨yawOnly_core _ _ f f rfl rfl rfl rfl rfl hI.1 |> fun k => ⟨k.flat, k.dec, k.r0, k.r1, k.b0, k.b1⟩,
        hI.2.1, hI.2.2⟩)
    l f₀ f (fun o ho => by cases o <;> first | exact ho | trivial)
    (by
      have hx : ∀ g, g = base c → YawOnly 0 c.prior g := by
        rintro g rfl
        refine ⟨hflat, diag6_decoupled _ _, ?_, ?_, ?_, ?_⟩ <;> simp [base, hs, join]
      rcases h0 with rfl | rfl
      · exact ⟨hx _ rfl, Or.inl rfl, hs⟩
      · obtain ⟨a1, a2, a3, a4, a5, a6⟩ := hx _ rfl
        exact ⟨⟨a1, a2, a3, a4, a5, a6⟩, Or.inl rfl, hs⟩)
    (by
      rcases h0 with rfl | rfl
      · exact ⟨fun q e => by simp [mk1, base] at e, fun _ _ _ _ => trivial, fun _ _ _ _ => trivial,
          fun _ _ _ _ => trivial, fun _ _ => trivial, fun o ho => by simp [mk1, base] at ho⟩
      · exact ⟨fun q e => by simp [mk5, base] at e, fun _ _ _ _ => trivial, fun _ _ _ _ => trivial,
          fun _ _ _ _ => trivial, fun _ _ => trivial, fun o ho => by simp [mk5, base] at ho⟩)
    h
  exact key.2.out

/-! ### C71 -/

/-- **C71**: every output ever produced carries the acceleration and the orientation of an IMU measurement that was
delivered to the filter, and the stamp of a delivered measurement. -/
theorem C71_passes_acceleration (c : FCfg) (f₀ f : GyroFilter) (h0 : Fresh0 c f₀) (l : List Op)
    (h : runOps l f₀ = some f) :
    ∀ o ∈ f.out, ∃ m, ImuIn l m ∧ o.linAcc = m.linAcc ∧ o.quat = m.quat ∧
      (o.time = m.time ∨ ∃ a, EncIn l a ∧ o.time = a.time) := by
  have key := runOps_holds (I := fun _ => True) (G := GyroIn l) (M := ImuIn l) (A := EncIn l)
    (Q := fun o => ∃ m, ImuIn l m ∧ o.linAcc = m.linAcc ∧ o.quat = m.quat ∧
      (o.time = m.time ∨ ∃ a, EncIn l a ∧ o.time = a.time))
    (fun m hm => Or.inl hm) (fun _ _ _ _ _ _ _ _ => trivial) (fun _ _ _ _ _ => trivial)
    (fun g m _ hm => ⟨m, hm, rfl, rfl, Or.inl rfl⟩)
    (fun g m a _ hm ha => ⟨m, hm, rfl, rfl, Or.inr ⟨a, ha, rfl⟩⟩)
    (fun _ _ _ => trivial) (fun _ _ _ _ _ => trivial) l f₀ f
    (fun o ho => by
      cases o with
      | gyroData m => exact ho
      | imuData m => exact Or.inr (Or.inl ho)
      | imuDataN i m => exact Or.inr (Or.inr ⟨i, ho⟩)
      | encData a => exact ho
      | _ => trivial)
    trivial
    (by
      rcases h0 with rfl | rfl
      · exact ⟨fun q e => by simp [mk1, base] at e, fun q e => by simp [mk1, base] at e,
          fun q e => by simp [mk1, base] at e, fun q e => by simp [mk1, base] at e,
          fun q e => by simp [mk1, base] at e, fun o ho => by simp [mk1, base] at ho⟩
      · exact ⟨fun q e => by simp [mk5, base] at e, fun q e m hm => by
            obtain rfl := Option.some.inj (show some [] = some q from e)
            simp at hm,
          fun q e => by simp [mk5, base] at e, fun q e m hm => by
            obtain rfl := Option.some.inj (show some [] = some q from e)
            simp at hm,
          fun q e => by simp [mk5, base] at e, fun o ho => by simp [mk5, base] at ho⟩)
    h
  exact key.2.out

/-- outputs do occur: one IMU sample, three runs -/
example : ∃ f, runOps (([.addImu, .addAngVel, .run] ++ [ImuMeas.mk 1 0 ![0, 0, 9.81] Quat.id].map .imuData
    ++ [].map .encData) ++ [.run]) (mk1 (exFCfg false)) = some f ∧ f.out.length = 1 := by
  obtain ⟨f, h, hp, hg, hl, hla, ho⟩ := ex_reaches_plus (exFCfg false) rfl (exFCfg_noisy _)
    [⟨1, 0, ![0, 0, 9.81], Quat.id⟩] []
  obtain ⟨f', outs, k1, k2, k3⟩ := C67_random_walk_outputs hp hg hl 1
  refine ⟨f', ?_, ?_⟩
  · rw [runOps_append, h]
    exact k1
  · rw [k2, ho, List.nil_append, ← List.length_map (f := ImuMeas.time), k3, hla]
    simp [mergeByTime, Reading.isEnc]

end Drift
