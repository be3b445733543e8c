import Verif.Props.Estimator2
import Verif.Lemmas.Thr6

/-!
# The estimator as a concurrent program
-/
namespace Drift
open RobotState
open Thr

/-! ### C123 -/

/-- **C123**: whatever the interleaving of the main thread's critical sections with sensor callbacks, publisher and
logging thread, each call takes effect at one moment between its beginning and its return: there is a history of whole
calls that ends in the same state, in which the publisher got the same states, and that explains everything that could
be seen. -/
theorem C123_linearizable {e0 : Estimator} {acts : List Act} {y : Sys} (h : (Sys.init e0).run acts = some y) (hi : y.pc = .idle) :
    ∃ evs, e0.run evs = some y.e ∧ takenIn e0 evs = takenBy (Sys.init e0) acts ∧ Explains evs (trace (Sys.init e0) acts) := by
  obtain ⟨evs, h1, h2⟩ := (sim acts (Sys.init e0) [] y h hi).1 rfl
  obtain ⟨h3, h4⟩ := grun_spec h1
  exact ⟨evs, h3, by simpa [Sys.init] using h4.symm, h2⟩

/-- **C123**: the history has the same calls in the same order and for each queue the same accesses in the same order. -/
theorem C123_same_order {evs : List EstEv} {ms : List Mark} (h : Explains evs ms) : SameOrder evs (begun ms) := h.sameOrder

/-- **C123**: so everything that is proved about an estimator in use (`InUse`: reached by a history of whole calls) holds
between the calls of the concurrent program. -/
theorem C123_in_use {et hp c ic cs e0} (hc : Estimator.ctor et hp c ic cs = some e0) {acts : List Act} {y : Sys}
    (h : (Sys.init e0).run acts = some y) (hi : y.pc = .idle)
    (u : Usable ic cs (imuArrivals (begun (trace (Sys.init e0) acts)))) : InUse y.e := by
  obtain ⟨evs, h1, -, h3⟩ := C123_linearizable h hi
  exact ⟨et, hp, c, ic, cs, e0, evs, by rw [imuArrivals_eq _ _ h3.sameOrder]; exact u, hc, h1⟩

theorem thr_safe {et hp c ic cs e0} (hc : Estimator.ctor et hp c ic cs = some e0) {H : List EstEv}
    (u : Usable ic cs (imuArrivals H)) : Safe e0 H :=
  fun evs h => (C58_safe hc evs (by rw [h]; exact u)).imp fun _ h => h.1

/-- **C123**: no interleaving leads to undefined behaviour (a queue that is emptied between a test and `front()`, a null
or uninitialised value, an index out of range; data races are the subject of C124): at every moment, inside calls too, whatever a thread comes to and no
mutex prevents, it can do. -/
theorem C123_no_ub {et hp c ic cs e0} (hc : Estimator.ctor et hp c ic cs = some e0) {acts : List Act} {y : Sys}
    (h : (Sys.init e0).run acts = some y) (u : Usable ic cs (imuArrivals (begun (trace (Sys.init e0) acts)))) {a : Act}
    (hr : Ready y a) : ∃ y', y.act a = some y' := by
  have hP := (PInv.init e0).run acts h
  rw [List.nil_append] at hP
  obtain ⟨h1, h2⟩ := hP.defined (thr_safe hc u)
  exact ready_possible ((LockInv.init e0).run acts h) h1 h2 hr

/-- The hypotheses are met, and the interleaving matters: while `InitState` has tested that the IMU queue is not empty
and not yet taken the measurement, a second measurement arrives. -/
example (et : ErrorType) (m m' : ImuMeas) (hm : m.time ≤ m'.time) : ∃ e0 y,
    Estimator.ctor et ⟨fun _ => 0, 0⟩ {} { static_bias_initialization := some false } [] = some e0 ∧
    (Sys.init e0).run [.lock (.imu m), .work (.imu m), .unlock .imu, .call .tick, .main, .call .tick, .main,
      .lock (.imu m'), .work (.imu m'), .unlock .imu] = some y ∧ Ready y .main ∧ y.e.prop.buffer = [m, m'] ∧
    Usable { static_bias_initialization := some false } [] (imuArrivals (begun (trace (Sys.init e0)
      [.lock (.imu m), .work (.imu m), .unlock .imu, .call .tick, .main, .call .tick, .main,
      .lock (.imu m'), .work (.imu m'), .unlock .imu]))) := by
  refine ⟨_, _, rfl, by simp [Sys.run, Sys.act, Sys.init, res, Estimator.step, setOwn, start, lockOf, mstep, Estimator.initBias,
    ImuProp.initImuBias]; rfl, ?_, ?_, ?_⟩
  · right
    simp [lockOf, setOwn]
  · simp
  · refine ⟨by simp, by simp, .inl rfl, .inl rfl, ?_⟩
    simp [trace, mark, Sys.act, Sys.init, res, Estimator.step, setOwn, start, lockOf, mstep, Estimator.initBias,
      ImuProp.initImuBias, begun, imuArrivals, PC.isIdle, hm]

/-! ### C124 -/

/-- **C124**: no deadlock: at every moment the holder of a mutex can go on without waiting for anything. -/
theorem C124_no_deadlock {e0 : Estimator} {acts : List Act} {y : Sys} (h : (Sys.init e0).run acts = some y) {r : Res} {o : Holder}
    (ho : y.own r = some o) : Ready y (nextOf r o) := by
  have i := (LockInv.init e0).run acts h
  cases o with
  | main =>
    simp only [nextOf, Ready]
    cases hp : y.ph with
    | enter => exact absurd ho (i.enter hp r)
    | inside =>
      obtain ⟨r', h1, -⟩ := i.inside hp
      right
      refine ⟨?_, by simp⟩
      intro h2; rw [h2] at h1; cases h1
    | leave r' => exact Or.inl ⟨r', rfl⟩
  | other ev => exact ⟨r, i.other r ev ho, ho⟩
  | otherDone => exact ho

/-- **C124**: and after at most two such actions it has released the mutex. -/
theorem C124_released {et hp c ic cs e0} (hc : Estimator.ctor et hp c ic cs = some e0) {acts : List Act} {y : Sys}
    (h : (Sys.init e0).run acts = some y) (u : Usable ic cs (imuArrivals (begun (trace (Sys.init e0) acts)))) {r : Res} {o : Holder}
    (ho : y.own r = some o) : ∃ l y', l.length ≤ 2 ∧ y.run l = some y' ∧ y'.own r = none := by
  have i := (LockInv.init e0).run acts h
  obtain ⟨y1, h1⟩ := C123_no_ub hc h u (C124_no_deadlock h ho)
  obtain ⟨e, pc, ph, own⟩ := y
  simp only at ho
  cases o with
  | main =>
    simp only [nextOf] at h1
    cases ph with
    | enter => exact absurd ho (i.enter rfl r)
    | inside =>
      obtain ⟨r', q1, q2, q3⟩ := i.inside rfl
      obtain rfl := q3 r ho
      simp only at q1
      simp only [Sys.act, q1, Option.map_eq_some_iff] at h1
      obtain ⟨q, hq, rfl⟩ := h1
      refine ⟨[.main, .main], ⟨q.1, q.2, .enter, setOwn own r none⟩, by simp, ?_, setOwn_same _ _ _⟩
      simp [Sys.run, Sys.act, q1, hq]
    | leave r' =>
      obtain ⟨q1, q2⟩ := i.leave r' rfl
      obtain rfl := q2 r ho
      refine ⟨[.main], ⟨e, pc, .enter, setOwn own r none⟩, by simp, ?_, setOwn_same _ _ _⟩
      simp [Sys.run, Sys.act]
  | other ev =>
    have hr := i.other r ev ho
    simp only [nextOf, Sys.act, hr, ho, if_true, Option.map_eq_some_iff] at h1
    obtain ⟨x, hx, rfl⟩ := h1
    refine ⟨[.work ev, .unlock r], ⟨x, pc, ph, setOwn (setOwn own r (some .otherDone)) r none⟩, by simp, ?_, setOwn_same _ _ _⟩
    simp [Sys.run, Sys.act, hr, ho, hx, setOwn_same]
  | otherDone =>
    refine ⟨[.unlock r], ⟨e, pc, ph, setOwn own r none⟩, by simp, ?_, setOwn_same _ _ _⟩
    simp [Sys.run, Sys.act, ho]

/-- **C124**, what holds of race freedom: when another thread is inside its critical section of a queue, the next step
of the main thread and the access of that thread can be exchanged, unless the main thread is about to look at that queue
without its mutex. -/
theorem C124_race_free_partial {e0 : Estimator} {acts : List Act} {y : Sys} (h : (Sys.init e0).run acts = some y) {r : Res} {ev : EstEv}
    (ho : y.own r = some (.other ev)) (hp : ¬ Peeks y.pc r) :
    ((y.act .main).bind fun y' => y'.act (.work ev)) = (y.act (.work ev)).bind fun y' => y'.act .main :=
  diamond ((LockInv.init e0).run acts h) ho hp

/-- the hypotheses are met: a callback is pushing an IMU measurement while the main thread is about to take one -/
example (et : ErrorType) (m m' : ImuMeas) : ∃ e0 y,
    Estimator.ctor et ⟨fun _ => 0, 0⟩ {} { static_bias_initialization := some false } [] = some e0 ∧
    (Sys.init e0).run [.lock (.imu m), .work (.imu m), .unlock .imu, .call .tick, .main, .call .tick, .main,
      .lock (.imu m')] = some y ∧ y.own .imu = some (.other (.imu m')) ∧ ¬ Peeks y.pc .imu := by
  refine ⟨_, _, rfl, by simp [Sys.run, Sys.act, Sys.init, res, Estimator.step, setOwn, start, lockOf, mstep, Estimator.initBias,
    ImuProp.initImuBias]; rfl, ?_, ?_⟩
  · simp [setOwn]
  · simp [Peeks]

/-- **C124 is false**: `set_initial_state` (and `initialize` of the corrections) tests `empty()` without the mutex.  As
soon as the biases are known, a callback can be inside its critical section, about to push the first IMU measurement,
while the main thread looks at the same queue; what the main thread does then depends on who comes first. -/
theorem C124_data_race {et hp c ic cs e0} (hc : Estimator.ctor et hp c ic cs = some e0)
    (hs : ic.static_bias_initialization = some false) (m : ImuMeas) :
    ∃ y, (Sys.init e0).run [.call .tick, .main, .call .tick, .lock (.imu m)] = some y ∧
      Peeks y.pc .imu ∧ y.own .imu = some (.other (.imu m)) ∧
      (((y.act .main).bind fun y' => y'.act (.work (.imu m))).map Sys.pc = some .idle) ∧
      (((y.act (.work (.imu m))).bind fun y' => y'.act .main).map Sys.pc = some .initPop) := by
  have hf : e0.pending = none ∧ e0.enabled = false ∧ e0.prop.staticInit = false ∧ e0.prop.biasInitialized = false ∧
      e0.prop.buffer = [] := by
    unfold Estimator.ctor at hc
    simp only [Option.bind_eq_bind, Option.bind_eq_some_iff] at hc
    obtain ⟨p, hp', corrs, -, hc⟩ := hc
    have hpf : p.staticInit = false ∧ p.biasInitialized = false ∧ p.buffer = [] := by
      unfold ImuProp.ctor at hp'
      simp only [Option.bind_eq_bind, Option.bind_eq_some_iff] at hp'
      obtain ⟨q, -, bg, -, ba, -, t, -, hp'⟩ := hp'
      rw [← Option.some.inj hp']
      simp [hs]
    rw [← Option.some.inj hc]
    exact ⟨rfl, rfl, hpf⟩
  obtain ⟨f1, f2, f3, f4, f5⟩ := hf
  refine ⟨⟨{ e0 with prop := { e0.prop with biasInitialized := true } }, .initPeek, .enter,
    setOwn (fun _ => none) .imu (some (.other (.imu m)))⟩, ?_, trivial, by simp [setOwn], ?_, ?_⟩
  · simp [Sys.run, Sys.act, Sys.init, start, f1, f2, f4, lockOf, f3, mstep, Estimator.initBias, ImuProp.initImuBias, res, f5]
  · simp [Sys.act, lockOf, mstep, f5, res, setOwn, Estimator.step]
  · simp [Sys.act, lockOf, mstep, f5, res, setOwn, Estimator.step]

/-- the hypotheses are met -/
example (et : ErrorType) : ∃ e0, Estimator.ctor et ⟨fun _ => 0, 0⟩ {} { static_bias_initialization := some false } [] = some e0 := ⟨_, rfl⟩

/-! ### C125 -/

/-- **C125**: a call of the main thread makes at most so many steps: three for each critical section, where there are at
most two for each correction, one for each queued or arriving measurement, and four more. -/
theorem C125_bounded_partial {y y' : Sys} {op : EstEv} {rest : List Act} (hph : y.ph = .enter)
    (h : y.run (.call op :: rest) = some y') (hc : ∀ a ∈ rest, isCall a = false) :
    rest.countP isMain ≤ 3 * (2 * y.e.corrs.length + waiting y.e + 4 + rest.countP isArrival) + 1 := by
  simp only [Sys.run, Option.bind_eq_some_iff] at h
  obtain ⟨y1, h1, h2⟩ := h
  obtain ⟨p1, p2, p3⟩ := act_call h1
  have h3 := nu_run rest h2 hc
  have h4 := mu_start p3
  have hph1 : y1.ph = .enter := by
    obtain ⟨e, pc, ph, own⟩ := y
    simp only [Sys.act] at h1
    cases pc <;> cases ph <;> simp only [reduceCtorEq, Option.map_eq_some_iff] at h1
    obtain ⟨pc', -, rfl⟩ := h1
    rfl
  have h5 : nu y1 = 3 * mu y.e y1.pc + 1 := by simp [nu, p2, hph1, phase]
  omega

/-- the steps of one arrival of a velocity measurement and of the main thread taking it -/
def starveRound (m : VelMeas) : List Act := [.lock (.vel 0 m), .work (.vel 0 m), .unlock (.corr 0), .main, .main, .main]

theorem setOwn_none_none (own : Res → Option Holder) (r : Res) (o : Option Holder) (h : own r = none) :
    setOwn (setOwn own r o) r none = own := by
  funext q
  simp only [setOwn]
  by_cases hq : q = r
  · subst hq; simp [h]
  · simp [hq]

theorem starve_round {e : Estimator} {c : VelCorr} {rest : List Corr} {tp : ℝ} (hcs : e.corrs = .vel c :: rest) (hb : c.buffer = [])
    (ht : e.state.tProp = some tp) {m : VelMeas} (hm : m.time - tp < -c.tDiffThres) (hm0 : m.time < tp) (b again : Bool) :
    (Sys.mk e (.corr 0 b again) .enter fun _ => none).run (starveRound m) =
      some ⟨e, .corr 0 b true, .enter, fun _ => none⟩ := by
  have h1 : e.step (.vel 0 m) = some { e with corrs := .vel { c with buffer := [m] } :: rest } := by
    simp [Estimator.step, hcs, Corr.pushVel, hb]
  have h0 : ¬ (again = false ∧ m.time - tp ≥ 0) := by rintro ⟨-, h⟩; linarith
  have h2 : corrSect again (.vel { c with buffer := [m] }) e.heap e.state = some (.again (.vel { c with buffer := [] })) := by
    simp only [corrSect, velSect, ht, Option.bind_eq_bind, Option.bind_some]
    rw [if_neg h0, if_pos hm]
  have h3 : mstep { e with corrs := .vel { c with buffer := [m] } :: rest } (.corr 0 b again) = some (e, .corr 0 b true) := by
    have hc : ({ c with buffer := [] } : VelCorr) = c := by rw [← hb]
    simp only [mstep, List.getElem?_cons_zero, h2, Option.map_some, List.set_cons_zero, hc, Option.some.injEq, Prod.mk.injEq, and_true]
    rw [← hcs]
  have h4 : lockOf { e with corrs := .vel { c with buffer := [m] } :: rest } (.corr 0 b again) = some (.corr 0) := by
    simp [lockOf]
  have a1 : (Sys.mk e (.corr 0 b again) .enter fun _ => none).act (.lock (.vel 0 m)) =
      some ⟨e, .corr 0 b again, .enter, setOwn (fun _ => none) (.corr 0) (some (.other (.vel 0 m)))⟩ := by
    simp [Sys.act, res]
  have a2 : (Sys.mk e (.corr 0 b again) .enter (setOwn (fun _ => none) (.corr 0) (some (.other (.vel 0 m))))).act (.work (.vel 0 m)) =
      some ⟨{ e with corrs := .vel { c with buffer := [m] } :: rest }, .corr 0 b again, .enter,
        setOwn (setOwn (fun _ => none) (.corr 0) (some (.other (.vel 0 m)))) (.corr 0) (some .otherDone)⟩ := by
    simp [Sys.act, res, setOwn_same, h1]
  have e3 : setOwn (setOwn (setOwn (fun _ => none) (.corr 0) (some (.other (.vel 0 m)))) (.corr 0) (some .otherDone)) (.corr 0) none
      = fun _ => none := by
    funext q; simp only [setOwn]; split_ifs <;> rfl
  simp only [starveRound, Sys.run, a1, Option.bind_some, a2]
  have a3 : (Sys.mk { e with corrs := .vel { c with buffer := [m] } :: rest } (.corr 0 b again) .enter
        (setOwn (setOwn (fun _ => none) (.corr 0) (some (.other (.vel 0 m)))) (.corr 0) (some .otherDone))).act (.unlock (.corr 0)) =
      some ⟨{ e with corrs := .vel { c with buffer := [m] } :: rest }, .corr 0 b again, .enter, fun _ => none⟩ := by
    simp only [Sys.act, setOwn_same, e3]
  rw [a3, Option.bind_some]
  have a4 : (Sys.mk { e with corrs := .vel { c with buffer := [m] } :: rest } (.corr 0 b again) .enter (fun _ => none)).act .main =
      some ⟨{ e with corrs := .vel { c with buffer := [m] } :: rest }, .corr 0 b again, .inside,
        setOwn (fun _ => none) (.corr 0) (some .main)⟩ := by
    simp only [Sys.act, h4]
  rw [a4, Option.bind_some]
  have a5 : (Sys.mk { e with corrs := .vel { c with buffer := [m] } :: rest } (.corr 0 b again) .inside
        (setOwn (fun _ => none) (.corr 0) (some .main))).act .main =
      some ⟨e, .corr 0 b true, .leave (.corr 0), setOwn (fun _ => none) (.corr 0) (some .main)⟩ := by
    simp only [Sys.act, h4, h3, Option.map_some]
  rw [a5, Option.bind_some]
  have a6 : (Sys.mk e (.corr 0 b true) (.leave (.corr 0)) (setOwn (fun _ => none) (.corr 0) (some .main))).act .main =
      some ⟨e, .corr 0 b true, .enter, fun _ => none⟩ := by
    simp only [Sys.act]
    rw [setOwn_none_none (fun _ => none) (.corr 0) (some .main) rfl]
  rw [a6, Option.bind_some]

theorem thr_run_append (l l' : List Act) : ∀ y : Sys, y.run (l ++ l') = (y.run l).bind fun y' => y'.run l' := by
  induction l with
  | nil => intro y; rfl
  | cons a l ih =>
    intro y
    simp only [List.cons_append, Sys.run]
    cases y.act a with
    | none => rfl
    | some y' => simp [ih]

/-- **C125 is false without a bound on arrivals**: if velocity measurements that are older than the threshold keep
arriving (a sensor whose clock or transport is late), one call of `RunOnce` can make any number of steps without
returning, and the filter neither propagates nor publishes. -/
theorem C125_starved {e : Estimator} {c : VelCorr} {rest : List Corr} {tp : ℝ} (hen : e.enabled = true) (hpe : e.pending = none)
    (hq : e.prop.buffer = []) (hcs : e.corrs = .vel c :: rest) (hb : c.buffer = []) (ht : e.state.tProp = some tp) {m : VelMeas}
    (hm : m.time - tp < -c.tDiffThres) (hm0 : m.time < tp) (N : ℕ) :
    ∃ (l : List Act) (y : Sys), (∀ a ∈ l, isCall a = false) ∧ N ≤ l.countP isMain ∧
      (Sys.init e).run (.call .tick :: l) = some y ∧ y.pc ≠ .idle ∧ y.e = e := by
  have hp : e.prop.propagate e.state = some (false, e.prop, e.state) := by simp [ImuProp.propagate, hq]
  have h1 : (Sys.init e).run [.call .tick, .main, .main, .main] = some ⟨e, .corr 0 false false, .enter, fun _ => none⟩ := by
    have hs : start e .tick = some .prop := by simp [start, hpe, hen]
    simp [Sys.run, Sys.act, Sys.init, hs, lockOf, mstep, hp, setOwn_none_none]
  have key : ∀ N again, ∃ (l : List Act) (y : Sys), (∀ a ∈ l, isCall a = false) ∧ N ≤ l.countP isMain ∧
      (Sys.mk e (.corr 0 false again) .enter fun _ => none).run l = some y ∧ y.pc ≠ .idle ∧ y.e = e := by
    intro N
    induction N with
    | zero => intro again; exact ⟨[], _, by simp, by simp, rfl, by simp, rfl⟩
    | succ N ih =>
      intro again
      obtain ⟨l, y, q1, q2, q3, q4⟩ := ih true
      refine ⟨starveRound m ++ l, y, ?_, ?_, ?_, q4⟩
      · intro a ha
        rcases List.mem_append.mp ha with ha | ha
        · simp only [starveRound, List.mem_cons, List.not_mem_nil, or_false] at ha
          rcases ha with rfl | rfl | rfl | rfl | rfl | rfl <;> rfl
        · exact q1 a ha
      · rw [List.countP_append]
        have : (starveRound m).countP isMain = 3 := rfl
        omega
      · rw [thr_run_append, starve_round hcs hb ht hm hm0, Option.bind_some, q3]
  obtain ⟨l, y, q1, q2, q3, q4⟩ := key N false
  refine ⟨[.main, .main, .main] ++ l, y, ?_, ?_, ?_, q4⟩
  · intro a ha
    rcases List.mem_append.mp ha with ha | ha
    · simp only [List.mem_cons, List.not_mem_nil, or_false] at ha
      rcases ha with rfl | rfl | rfl <;> rfl
    · exact q1 a ha
  · rw [List.countP_append]; omega
  · rw [← List.cons_append, thr_run_append, h1, Option.bind_some, q3]

/-- an estimator in use meets the hypotheses of `C125_starved` (default threshold 0.3 s, measurement 1 s old) -/
example (et : ErrorType) (m : ImuMeas) (v : VelMeas) : ∃ e c rest tp, InUse e ∧ e.enabled = true ∧ e.pending = none ∧
    e.prop.buffer = [] ∧ e.corrs = .vel c :: rest ∧ c.buffer = [] ∧ e.state.tProp = some tp ∧
    (tp - 1) - tp < -c.tDiffThres ∧ tp - 1 < tp := by
  obtain ⟨e0, h0⟩ : ∃ e0, Estimator.ctor et ⟨fun _ => 0, 0⟩ {} { static_bias_initialization := some false } [.vel {}, .leg {}] = some e0 := ⟨_, rfl⟩
  have u : Usable { static_bias_initialization := some false } [.vel {}, .leg {}] (imuArrivals [.tick, .imu m, .vel 0 v, .leg 1 ⟨0, [], id⟩]) :=
    exUsable _ (by simp [imuArrivals])
  obtain ⟨e, he⟩ : ∃ e, e0.run [.tick, .imu m, .vel 0 v, .leg 1 ⟨0, [], id⟩] = some e := (C58_safe h0 _ u).imp fun _ h => h.1
  have hu := exInUse h0 u he
  rw [← Option.some.inj h0] at he
  simp only [Estimator.run, Estimator.step, Estimator.tick, Estimator.initBias, ImuProp.initImuBias, Option.getD_some, if_true,
    Option.map_some, Option.bind_some, if_false, Bool.false_eq_true] at he
  have he := Option.some.inj he
  have f1 : e.enabled = false := by rw [← he]
  have f2 : e.pending = none := by rw [← he]
  have f3 : e.prop.buffer = [m] := by rw [← he]; rfl
  have f4 : e.prop.biasInitialized = true := by rw [← he]
  obtain ⟨c, l, f5, f6, f7⟩ : ∃ c l, e.corrs = [.vel c, .leg l] ∧ c.tDiffThres = 0.3 ∧ 0 < c.buffer.length ∧ 0 < l.buffer.length := by
    rw [← he]
    exact ⟨_, _, rfl, rfl, by simp, by simp⟩
  obtain ⟨s', q, -, -, -, -, ht, -⟩ := C45_all_data hu f1 f2 f3 (by
    rw [f5]; intro x hx; simp at hx; rcases hx with rfl | rfl <;> simp only [Corr.queued] <;> omega)
  refine ⟨_, { c with buffer := [] }, [.leg { l with buffer := [] }], m.time, hu.tick (e' := { e with
        prop := { e.prop with buffer := [], prev := some m }
        corrs := e.corrs.map Corr.drained
        state := s'
        outQ := e.outQ ++ [s']
        enabled := true
        pending := none }) ?_, rfl, rfl, rfl, ?_, rfl, ht, ?_, by linarith⟩
  · show e.tick = _
    unfold Estimator.tick
    rw [f2, f1, f4, ← q]; rfl
  · simp [f5, Corr.drained]
  · simp only [f6]; norm_num

/-- the hypotheses of `C125_bounded_partial` are met by a whole call with an arrival inside it -/
example (et : ErrorType) (m : ImuMeas) : ∃ e0 y,
    Estimator.ctor et ⟨fun _ => 0, 0⟩ {} { static_bias_initialization := some false } [] = some e0 ∧
    (Sys.init e0).run (.call .tick :: [.lock (.imu m), .main, .work (.imu m), .unlock .imu]) = some y ∧ y.pc = .idle := by
  refine ⟨_, _, rfl, by simp [Sys.run, Sys.act, Sys.init, res, Estimator.step, setOwn, start, lockOf, mstep, Estimator.initBias,
    ImuProp.initImuBias]; rfl, rfl⟩

end Drift
