import Verif.Lemmas.GyroThr6
import Verif.Props.ImuFilter2

/-!
# Properties of the gyro filter thread: C133 and C134
-/
namespace Drift
open GyroFilter
namespace GyroThr

theorem SetUp.safe {f : GyroFilter} (h : SetUp f) : Safe f := by
  cases h with
  | estimator c hn hs =>
    refine ⟨diag6_psd _ _, hn, fun h => absurd (show c.staticBias = true from h) (by simp [hs]), ?_, fun h => ?_⟩
    · obtain ⟨me, hme⟩ : ∃ me, (mk5 c).chooseMethod = me := ⟨_, rfl⟩
      rw [hme]
      cases me <;> first | exact ⟨rfl, rfl⟩ | rfl | trivial
    · exact absurd (show false = true from h) (by simp)
  | registered c hn reg hreg hs hst f hf =>
    obtain ⟨f', e, r⟩ := Registered.add reg 0 0 _ (registered_mk1 c) hreg
    rw [Nat.zero_add, Nat.zero_add] at r
    rw [hf] at e
    obtain rfl := Option.some.inj e
    exact r.safe hs hn fun k => ⟨(hst k).1, by
      rw [toSize_of_pos (hst k).2.1.le (hst k).2.2]
      have := (hst k).2.1
      omega⟩

theorem running_of_res {o : Op} (h : res o ≠ none) : o.running := by
  cases o <;> first | trivial | exact absurd rfl h

theorem Explains.running {evs : List Op} {ms : List Mark} (h : Explains evs ms) : ∀ o ∈ evs, o.running := by
  induction h with
  | nil => simp
  | ev ho _ ih =>
    intro x hx
    rcases List.mem_cons.mp hx with rfl | hx
    · exact running_of_res ho
    · exact ih x hx
  | @call pre post during evs ms hd hn _ ih =>
    intro x hx
    simp only [List.mem_append, List.mem_cons] at hx
    rcases hx with (hx | rfl | hx) | hx
    · exact running_of_res (hn x (by simp [hx]))
    · trivial
    · exact running_of_res (hn x (by simp [hx]))
    · exact ih x hx

end GyroThr

open GyroThr

/-! ### C133 -/

/-- **C133**: Take any execution, with any interleaving of the filter thread's critical sections with callbacks and the
estimator (and without `clear`), from any state of the filter.  Whenever the filter thread is between two runs, the state
of the filter and all its queues is the one of a history in which every run happens at once, at a moment between its
actual beginning and its return, and in which each queue sees the same accesses in the same order; and the estimator has
taken the same measurements in the same order. -/
theorem C133_atomic (f₀ : GyroFilter) (l : List Act) (y : Sys) (hc : ∀ a ∈ l, a.isClear = false)
    (hr : (Sys.init f₀).run l = some y) (hi : y.pc = .idle) :
    ∃ evs, Explains evs (trace (.init f₀) l) ∧ runOps evs f₀ = some y.f ∧ takenIn f₀ evs = takenBy (.init f₀) l := by
  have h := sim_init l y hc hr
  obtain ⟨f, pc, cl⟩ := y
  dsimp only at h hi
  generalize takenBy (.init f₀) l = tk at h
  generalize trace (.init f₀) l = ms at h
  cases h with
  | idle he hr' => exact ⟨_, he, hr', rfl⟩
  | mid he hr' hp hm => exact absurd hi hp

/-- **C133**: if the filter thread meets undefined behaviour (a queue that was never registered, `pop()` of an empty queue,
a division by zero) in some interleaving, then also a history of whole runs with the same accesses does: checking whole runs
is enough. -/
theorem C133_undefined (f₀ : GyroFilter) (l : List Act) (y : Sys) (hc : ∀ a ∈ l, a.isClear = false)
    (hr : (Sys.init f₀).run l = some y) (hs : ¬ CanGoOn y) :
    ∃ evs, Explains evs (trace (.init f₀) l ++ if y.pc.isIdle then [.call, .ret] else [.ret]) ∧ runOps evs f₀ = none := by
  have h := sim_init l y hc hr
  obtain ⟨f, pc, cl⟩ := y
  dsimp only at h ⊢
  generalize takenBy (.init f₀) l = tk at h
  generalize trace (.init f₀) l = ms at h
  cases h with
  | @idle evs _ _ he hr' =>
    refine ⟨evs ++ [.run], ?_, ?_⟩
    · have := he.append (Explains.call (pre := []) (post := []) (during := []) (fun _ => rfl) (by simp) .nil)
      simpa [PC.isIdle] using this
    · have hst : start f = none := by
        by_contra hne
        obtain ⟨r, hr⟩ := Option.ne_none_iff_exists'.mp hne
        refine hs ⟨⟨r.1, r.2, cl⟩, ?_⟩
        simp [PC.isIdle, Sys.act, hr]
      rw [runOps_append, hr', Option.bind_some, runOps]
      have : f.runOnce = none := by rw [← start_fin, hst]; rfl
      show f.runOnce.bind _ = none
      rw [this]; rfl
  | @mid evs fA _ _ ms during tk pre post g he hr' hp hm =>
    have hpi : pc.isIdle = false := by
      cases h : pc.isIdle with
      | false => rfl
      | true => exact absurd (isIdle_iff.mp h) hp
    have hst : mstep f pc = none := by
      by_contra hne
      obtain ⟨r, hr⟩ := Option.ne_none_iff_exists'.mp hne
      refine hs ⟨⟨r.1, r.2, cl⟩, ?_⟩
      simp [hpi, Sys.act, hr]
    refine ⟨evs ++ (pre ++ .run :: post), ?_, ?_⟩
    · rw [hpi]
      have := he.append (Explains.call hm.order hm.vis .nil)
      simpa using this
    · have hpre : runOps pre fA = some (apps pre fA) := apps_runOps pre fA fun o ho => hm.vis o (by simp [ho])
      rw [runOps_append, hr', Option.bind_some, runOps_append, hpre, Option.bind_some, runOps]
      show ((apps pre fA).runOnce).bind _ = none
      rw [hm.stuck hp hst]; rfl

/-- **C133**: as the filter is set up, by the estimator or with any supported combination of sensors, the filter thread never
meets undefined behaviour, whatever the interleaving. -/
theorem C133_defined (f₀ : GyroFilter) (h0 : SetUp f₀) (l : List Act) (y : Sys) (hc : ∀ a ∈ l, a.isClear = false)
    (hr : (Sys.init f₀).run l = some y) : CanGoOn y := by
  by_contra hs
  obtain ⟨evs, h1, h2⟩ := C133_undefined f₀ l y hc hr hs
  obtain ⟨f', h3, _⟩ := Safe.ops evs f₀ h0.safe h1.running
  rw [h2] at h3
  simp at h3

/-- **C133**: no run waits for anything: with `n` further IMU queues each run returns after at most `2 n + 5` critical
sections, whatever the other threads do meanwhile. -/
theorem C133_returns (f₀ : GyroFilter) (l : List Act) (y : Sys) (hr : (Sys.init f₀).run l = some y) :
    l.countP Act.isFilter ≤ (2 * f₀.imus.length + 5) * l.countP Act.isCall := by
  have := (steps_bound f₀.imus.length l _ y hr rfl).1
  simp only [Sys.init, rank] at this
  omega

/-! ### C134 -/

/-- the filter after its first run: no static bias, IMU and angular velocity configuration -/
noncomputable def exGyroStarted (c : FCfg) : GyroFilter := { mk5 c with initialized := true }

theorem exGyroStart (c : FCfg) (hs : c.staticBias = false) : start (mk5 c) = some (exGyroStarted c, .idle) := by
  have h : (mk5 c).chooseMethod = (mk5 c).method := rfl
  unfold start
  rw [if_neg (by simp [mk5, base]), h]
  unfold startInit
  rw [if_neg (by show ¬ c.staticBias = true; rw [hs]; simp)]
  rfl

theorem gyro_act_call (f : GyroFilter) (cl : CPC) :
    Sys.act ⟨f, .idle, cl⟩ .call = (start f).map fun r => ⟨r.1, r.2, cl⟩ := rfl

/-- the same with a measurement in the IMU queue, after the propagation -/
noncomputable def exGyroWaiting (c : FCfg) (m : ImuMeas) : GyroFilter :=
  { exGyroStarted c with imu := some [m], P := diag6 c.angVelStd c.biasStd + diag6 c.filterStd c.filterBiasStd }

/-- the beginning of both interleavings below: a first run, a measurement `m`, and a second run up to its output section -/
theorem ex_gyro_prefix (c : FCfg) (hn : Noisy c) (hs : c.staticBias = false) (hm : c.method = .imuPlusAngVel) (m : ImuMeas) :
    ∃ x P, (Sys.init (mk5 c)).run [.call, .ev (.imuData m), .call, .filter, .filter] =
      some ⟨{ exGyroStarted c with imu := some [m], latest := some m, x := x, P := P }, .push { m with angVel := hd x } .popImu, .no⟩ := by
  have hP : (diag6 c.angVelStd c.biasStd + diag6 c.filterStd c.filterBiasStd).PosSemidef :=
    (diag6_psd _ _).add (diag6_psd _ _)
  obtain ⟨x, P, _, e⟩ := correctImu_total (f := { exGyroWaiting c m with latest := some m }) hP hn m
  refine ⟨x, P, ?_⟩
  have e1 : (Sys.init (mk5 c)).act .call = some ⟨exGyroStarted c, .idle, .no⟩ := by
    show (start (mk5 c)).map _ = _
    rw [exGyroStart c hs]; rfl
  have e2 : (⟨exGyroStarted c, .idle, .no⟩ : Sys).act (.ev (.imuData m)) = some ⟨{ exGyroStarted c with imu := some [m] }, .idle, .no⟩ := rfl
  have e3 : (⟨{ exGyroStarted c with imu := some [m] }, .idle, .no⟩ : Sys).act .call = some ⟨exGyroWaiting c m, .frontImu, .no⟩ := by
    have : corrPC (exGyroStarted c).method = .frontImu := by
      show corrPC c.method = _
      rw [hm]; rfl
    rw [gyro_act_call]
    have h : start { exGyroStarted c with imu := some [m] } = some (exGyroWaiting c m, corrPC (exGyroStarted c).method) := by
      rfl
    rw [h, this]; rfl
  have e4 : (⟨exGyroWaiting c m, .frontImu, .no⟩ : Sys).act .filter = some ⟨exGyroWaiting c m, .frontEnc (some m), .no⟩ := rfl
  have e5 : (⟨exGyroWaiting c m, .frontEnc (some m), .no⟩ : Sys).act .filter = some
      ⟨{ exGyroStarted c with imu := some [m], latest := some m, x := x, P := P }, .push { m with angVel := hd x } .popImu, .no⟩ := by
    show (useImu (exGyroWaiting c m) m).map _ = _
    unfold useImu
    dsimp only
    have hf : GyroFilter.Fresh { exGyroWaiting c m with latest := some m } m.time := Or.inl rfl
    rw [if_pos hf, e]; rfl
  simp only [Sys.run, e1, e2, e3, e4, e5, Option.bind_some]

/-- C133: an execution with accesses of other threads during a run, ending between two runs; one of them (of the queue
the run has already looked at) has to be explained as happening after the run, the other one (of the output queue) takes the
result of the run. -/
example (c : FCfg) (hn : Noisy c) (hs : c.staticBias = false) (hm : c.method = .imuPlusAngVel) (m m' : ImuMeas) :
    SetUp (mk5 c) ∧ ∃ y, (Sys.init (mk5 c)).run ([.call, .ev (.imuData m), .call, .filter, .filter] ++
        [.ev (.imuData m'), .filter, .ev .popOut, .filter]) = some y ∧ y.pc = .idle ∧ y.f.imu = some [m'] ∧
      ∃ evs, Explains evs (trace (.init (mk5 c)) ([.call, .ev (.imuData m), .call, .filter, .filter] ++
        [.ev (.imuData m'), .filter, .ev .popOut, .filter])) ∧ runOps evs (mk5 c) = some y.f := by
  refine ⟨.estimator c hn hs, ?_⟩
  obtain ⟨x, P, h⟩ := ex_gyro_prefix c hn hs hm m
  have hr : (Sys.init (mk5 c)).run ([.call, .ev (.imuData m), .call, .filter, .filter] ++
        [.ev (.imuData m'), .filter, .ev .popOut, .filter]) =
      some ⟨{ exGyroStarted c with imu := some [m'], latest := some m, x := x, P := P }, .idle, .no⟩ := by
    rw [run_append, h, Option.bind_some]; rfl
  obtain ⟨evs, h1, h2, _⟩ := C133_atomic (mk5 c) _ _ (by simp [Act.isClear]) hr rfl
  exact ⟨_, hr, rfl, rfl, evs, h1, h2⟩

/-- **C134** is false: the filter as `InekfEstimator::add_imu_ang_vel_ekf` creates it, a measurement has arrived, the filter
thread has used it and is about to remove it from the queue, and the main thread calls `clear`: the filter thread then calls
`pop()` on an empty queue. -/
theorem C134_false (c : FCfg) (hn : Noisy c) (hs : c.staticBias = false) (hm : c.method = .imuPlusAngVel) (m : ImuMeas) :
    ∃ y, (Sys.init (mk5 c)).run ([.call, .ev (.imuData m), .call, .filter, .filter] ++ [.clear, .clear, .filter]) = some y ∧
      y.pc = .popImu ∧ y.f.imu = some [] ∧ ¬ CanGoOn y := by
  obtain ⟨x, P, h⟩ := ex_gyro_prefix c hn hs hm m
  refine ⟨⟨push { exGyroStarted c with imu := some [], latest := some m, x := x, P := P } { m with angVel := hd x }, .popImu, .enc⟩,
    ?_, rfl, rfl, ?_⟩
  · rw [run_append, h, Option.bind_some]; rfl
  · rintro ⟨y', hy⟩
    simp [PC.isIdle, Sys.act, mstep, GyroFilter.push] at hy

/-- **C134** is false even when nothing undefined happens: `clear` begins after the measurement `m` has arrived and returns
before `m'` arrives; afterwards the output queue contains a result for `m`, stamped with its time, and `m'` has been thrown
away unused. -/
theorem C134_stale (c : FCfg) (hn : Noisy c) (hs : c.staticBias = false) (hm : c.method = .imuPlusAngVel) (m m' : ImuMeas) :
    ∃ y o, (Sys.init (mk5 c)).run ([.call, .ev (.imuData m), .call, .filter, .filter] ++
        [.clear, .clear, .clear, .clear, .ev (.imuData m'), .filter, .filter]) = some y ∧
      y.pc = .idle ∧ y.cl = .no ∧ y.f.out = [o] ∧ o.time = m.time ∧ y.f.imu = some [] := by
  obtain ⟨x, P, h⟩ := ex_gyro_prefix c hn hs hm m
  refine ⟨⟨{ push { exGyroStarted c with imu := some [], enc := some [], latest := some m, x := x, P := P, out := [] }
    { m with angVel := hd x } with imu := some [] }, .idle, .no⟩, { m with angVel := hd x }, ?_, rfl, rfl, rfl, rfl, rfl⟩
  rw [run_append, h, Option.bind_some]; rfl

example : Noisy (exFCfg false) ∧ (exFCfg false).staticBias = false ∧ (exFCfg false).method = .imuPlusAngVel :=
  ⟨exFCfg_noisy _, rfl, rfl⟩

/-- **C134**, the part that holds (1): as the filter is set up, with `clear` called at any moments, the only thing that can
go wrong in the filter thread is that: `pop()` on a queue that has been emptied between the look at its front and the
`pop()`, which happens only with the sensor combinations that use the angular velocity. -/
theorem C134_only_pops_partial (f₀ : GyroFilter) (h0 : SetUp f₀) (l : List Act) (y : Sys) (hr : (Sys.init f₀).run l = some y)
    (hs : ¬ CanGoOn y) : (y.pc = .popImu ∧ y.f.imu = some []) ∨ (y.pc = .popEnc ∧ y.f.enc = some []) := by
  have h : GOk y.f y.pc := run_gok l (Sys.init f₀) y ⟨h0.safe, fun k => absurd rfl k, trivial⟩ hr
  by_cases hp : y.pc = .idle
  · exfalso
    obtain ⟨r, h1, _⟩ := start_gok h.safe
    refine hs ⟨{ y with f := r.1, pc := r.2 }, ?_⟩
    rw [hp]
    simp [PC.isIdle, Sys.act, hp, h1]
  · rcases mstep_gok h hp with ⟨r, h1, _⟩ | h1 | h1
    · exfalso
      have hpi : y.pc.isIdle = false := by
        cases h : y.pc.isIdle with
        | false => rfl
        | true => exact absurd (isIdle_iff.mp h) hp
      refine hs ⟨{ y with f := r.1, pc := r.2 }, ?_⟩
      rw [hpi]
      simp [Sys.act, h1]
    · exact Or.inl h1
    · exact Or.inr h1

/-- **C134**, the part that holds (2): a `clear` that falls between two runs takes effect at one moment between its beginning
and its return, although callbacks and the estimator work on the queues while it empties them one by one.
(Missing: a `clear` during a run, refuted above.) -/
theorem C134_between_runs_partial (y y' : Sys) (l : List Act) (hcl : y.cl = .no) (hr : y.run l = some y')
    (hl : ∀ a ∈ l, a.isCall = false ∧ a.isFilter = false) (hc : l.countP Act.isClear = 4) :
    ∃ pre post, SameOrder (pre ++ post) (accesses (trace y l)) ∧ (∀ o ∈ pre ++ post, res o ≠ none) ∧
      runOps (pre ++ .clear :: post) y.f = some y'.f ∧ takenIn y.f (pre ++ .clear :: post) = takenBy y l ∧
      y'.pc = y.pc ∧ y'.cl = .no := by
  have h0 : Clr y.f 0 y.f [] [] [] [] :=
    ⟨rfl, fun _ => rfl, by simp, by simp, by simp, by omega, by omega, rfl⟩
  obtain ⟨pre, post, h, h1, h2⟩ := clr_run l y y' 0 [] [] [] [] h0 hcl hr hl (by omega)
  rw [hc] at h h1
  simp only [List.nil_append] at h
  refine ⟨pre, post, h.order, h.vis, ?_, ?_, h2, h1⟩
  all_goals
    have hpre : runOps pre y.f = some (apps pre y.f) := apps_runOps pre y.f fun o ho => h.vis o (by simp [ho])
    have hclr : (apps pre y.f).step .clear = some (stage 4 (apps pre y.f)) := by
      obtain ⟨I, hI⟩ := Option.isSome_iff_exists.mp ((apps_isSome pre y.f).1.mpr (h.imu (by omega)))
      obtain ⟨E, hE⟩ := Option.isSome_iff_exists.mp ((apps_isSome pre y.f).2.mpr (h.enc (by omega)))
      show (apps pre y.f).clear = _
      unfold GyroFilter.clear
      rw [bind_of_some hI, hE]; rfl
    have hv : ∀ o ∈ post, res o ≠ none := fun o ho => h.vis o (by simp [ho])
  · rw [runOps_append, hpre, Option.bind_some, runOps, hclr, Option.bind_some, apps_runOps post _ hv]
    exact congrArg some h.eq.symm
  · rw [takenIn_append pre _ y.f _ hpre, takenIn, hclr]
    dsimp only
    rw [takenIn_apps post _ hv (by rw [nopop_count h.nopop]; omega), nopop_count h.nopop]
    simp [taken, h.tk]

/-- C134: a `clear` between two runs with a measurement arriving while it empties the queues -/
example (c : FCfg) (m : ImuMeas) : ∃ y', (Sys.init (mk5 c)).run
    [.ev (.imuData m), .clear, .clear, .ev (.imuData m), .ev (.encData ⟨1, 0⟩), .clear, .clear] = some y' ∧
    y'.f.imu = some [m] ∧ y'.f.enc = some [] := ⟨_, rfl, rfl, rfl⟩

end Drift
