import Verif.Lemmas.Shut4

/-!
# C135: the shipped programs end when ROS is shut down
-/
set_option linter.unusedSimpArgs false
namespace Drift.Shut

/-- **C135**, nothing goes wrong on the way: a shipped program, with any history of well-formed messages, threads and a
shutdown at any time, in any order, runs into no undefined behaviour up to its end (and after).  What it has done up to any moment is
what the program does in some history of `Model/System` with an initial segment of the messages, so that C105 to C107 hold until the
end: also what is published during the shutdown is meaningful. -/
theorem C135_defined (P : Program) (hP : P ∈ Program.shipped) (mlog : M4 → M4) (ff : Bool) (h : Heap) (evs : List Ev)
    (hw : WellFormed P (messages evs)) (ho : OdomDistinct P (messages evs)) (hs : PropSorted P (messages evs)) :
    ∃ s0 r played, P.start h = some s0 ∧ boot P h = some (Run.begin s0) ∧ (Run.begin s0).run mlog ff evs = some r ∧
      s0.run mlog played = some r.sys ∧ delivered played <+: messages evs := by
  obtain ⟨s0, h1, i⟩ := start_ok (sound_shipped P hP) h ho hs
  obtain ⟨r, pl, a, b, c, -⟩ := defined_run (sound_shipped P hP) (mlog := mlog) (ff := ff) evs (r := Run.begin s0) (fun _ => i)
    (fun hf => by simp [Run.begin] at hf) hw
  exact ⟨s0, r, pl, h1, by rw [boot, h1]; rfl, a, b, c⟩

/-- **C135**, the order of destruction is right: an object is destroyed only after the threads that work on it have returned,
and none is destroyed before the main thread has left its loop.  For every program, every history. -/
theorem C135_threads_first {P : Program} {h : Heap} {mlog : M4 → M4} {ff : Bool} {evs : List Ev} {r0 r : Run} (h0 : boot P h = some r0)
    (h1 : r0.run mlog ff evs = some r) (o : Obj) (hg : r.gone o = true) :
    (∀ t, uses t = o → r.ended t = true) ∧ r.todo ≠ none ∧ r.ok = false := by
  simp only [boot, Option.map_eq_some_iff] at h0
  obtain ⟨s0, -, rfl⟩ := h0
  have i := (inv_begin s0).run evs h1
  obtain ⟨td, ht⟩ : ∃ td, r.todo = td := ⟨_, rfl⟩
  cases td with
  | none => have := i.loop ht o; rw [hg] at this; cases this
  | some l =>
    obtain ⟨a, f, k, b, c, d⟩ := i.out l ht
    refine ⟨fun t htu => ?_, by rw [ht]; simp, a⟩
    rcases join_before f _ _ k t (htu ▸ d o hg) with h2 | ⟨h2, rfl⟩ | ⟨h2, rfl⟩
    · exact c _ h2
    · exact i.nolog h2
    · exact i.nofilter h2

/-- **C135**, the programs end: if, at some moment after the shutdown, `InitState` is not waiting for a correction that has
received no data, then the program ends as soon as every thread has had 18 turns, in any order, whatever else happens. -/
theorem C135_ends_partial {P : Program} {h : Heap} {mlog : M4 → M4} {ff : Bool} {evs rest : List Ev} {r0 r r' : Run} (h0 : boot P h = some r0)
    (h1 : r0.run mlog ff evs = some r) (hok : r.ok = false) (hs : r.served) (hr : Rounds 18 rest) (h2 : r.run mlog ff rest = some r') :
    r'.over ∧ ∀ t, r'.ended t = true := by
  simp only [boot, Option.map_eq_some_iff] at h0
  obtain ⟨s0, -, rfl⟩ := h0
  have i := (inv_begin s0).run evs h1
  obtain ⟨ls, hl, rfl, hx⟩ := hr
  have ov := down_rounds ls ⟨i, hok, hs⟩ hx (by rw [hl]; exact r.left_le i) h2
  refine ⟨ov, fun t => ?_⟩
  have i' := i.run _ h2
  obtain ⟨-, f, k, b, c, -⟩ := i'.out _ ov
  have hk : (unwind f r'.sys.est.log.enabled r'.sys.filter.isSome).take k = unwind f r'.sys.est.log.enabled r'.sys.filter.isSome := by
    rw [eq_comm, List.drop_eq_nil_iff] at b
    exact List.take_of_length_le b
  rw [hk] at c
  have aux : ∀ f lg fl : Bool, ∀ t ∈ threads, Act.join t ∈ unwind f lg fl ∨ (lg = false ∧ t = .log) ∨ (fl = false ∧ t = .filter) := by decide
  rcases aux f r'.sys.est.log.enabled r'.sys.filter.isSome t (mem_threads t) with h3 | ⟨h3, rfl⟩ | ⟨h3, rfl⟩
  · exact c _ h3
  · exact i'.nolog h3
  · exact i'.nofilter h3

/-- **C135**, the exception is real: if `InitState` is waiting and one of the corrections that it has still to initialise has no
data when the spinner has stopped, the program never ends, whatever happens. -/
theorem C135_hangs {mlog : M4 → M4} {ff : Bool} {rest : List Ev} {r r' : Run} (hsp : r.ended .spin = true) (hs : ¬ r.served)
    (h2 : r.run mlog ff rest = some r') : ¬ r'.over ∧ r'.todo = none := by
  unfold Run.served at hs
  push Not at hs
  obtain ⟨i, hw, j, c, hij, hc, hd⟩ := hs
  have := stuck_run rest ⟨hw.1, hsp, ⟨i, hij, hw.2⟩, ⟨c, hc, hd⟩⟩ h2
  exact ⟨by unfold Run.over; rw [this.loop]; simp, this.loop⟩

/-- an IMU message has arrived, the main loop has made two turns; Ctrl-C -/
noncomputable def exHang : List Ev :=
  [.msg 0 (.imu ⟨⟨10, 0⟩, 0, ![0, 0, 9.81], ⟨0, 0, 0, 0⟩⟩), .main, .main, .shutdown, .thread .spin]

theorem exHang_ok : WellFormed .girona500 (messages exHang) ∧ OdomDistinct .girona500 (messages exHang) ∧ PropSorted .girona500 (messages exHang) := by
  refine ⟨?_, ?_, ?_⟩
  · intro i m x hm hx
    simp only [exHang, messages, List.filterMap_cons, List.filterMap_nil, List.mem_cons, SysEv.msg.injEq, List.not_mem_nil, or_false] at hm
    obtain ⟨rfl, rfl⟩ := hm
    simp only [Program.girona500, Program.plain, List.getElem?_cons_zero, Option.some.injEq] at hx
    subst hx
    norm_num [MsgOK, OriOK]
  · intro i x hx ho
    rcases i with _ | _ | i <;>
      simp only [Program.girona500, Program.plain, List.getElem?_cons_zero, List.getElem?_cons_succ, Option.some.injEq, List.getElem?_nil, reduceCtorEq] at hx <;>
      · subst hx; simp [SubKind.isOdom] at ho
  · have : propStamps .girona500 (messages exHang) = [_] := rfl
    unfold PropSorted
    rw [this]
    exact List.pairwise_singleton _ _

theorem main_tick {mlog : M4 → M4} {ff : Bool} {r r' : Run} (ht : r.todo = none) (hok : r.ok = true) (h : r.step mlog ff .main = some r') :
    r.sys.est.tick = some r'.sys.est ∧ r'.todo = none ∧ r'.ok = true ∧ r'.ended = r.ended := by
  obtain ⟨sys, ok, todo, ended, stopped, gone⟩ := r
  dsimp only at ht hok
  subst ht hok
  simp only [Run.step, Bool.true_or, if_true, System.step, Estimator.step, Option.map_eq_some_iff] at h
  obtain ⟨s, ⟨e, h1, rfl⟩, rfl⟩ := h
  exact ⟨h1, rfl, rfl, rfl⟩

theorem exHang_wait {mlog : M4 → M4} {ff : Bool} {h : Heap} {s0 : System} {r : Run} (h0 : Program.girona500.start h = some s0)
    (h1 : (Run.begin s0).run mlog ff exHang = some r) :
    r.ok = false ∧ r.ended .spin = true ∧ ¬ r.served := by
  simp only [Program.start, Option.bind_eq_bind, Option.bind_eq_some_iff] at h0
  obtain ⟨⟨sub, w⟩, hwr, e, he, h0⟩ := h0
  obtain rfl := Option.some.inj h0
  unfold Estimator.ctor at he
  simp only [Option.bind_eq_bind, Option.bind_eq_some_iff] at he
  obtain ⟨p, hp, corrs, hcs, he⟩ := he
  obtain ⟨f1, f2, f3, f4⟩ : p.buffer = [] ∧ p.staticInit = false ∧ p.biasInitialized = false ∧ p.useImuOri = false := by
    unfold ImuProp.ctor at hp
    simp only [Option.bind_eq_bind, Option.bind_eq_some_iff] at hp
    obtain ⟨q, -, bg, -, ba, -, t, -, hp⟩ := hp
    rw [← Option.some.inj hp]
    exact ⟨rfl, rfl, rfl, rfl⟩
  obtain ⟨c, hc, hcb⟩ : ∃ c : VelCorr, corrs = [.vel c] ∧ c.buffer = [] := by
    simp only [Program.girona500, Program.plain, List.mapM_cons, List.mapM_nil, CorrConfig.build, VelCorr.ctor, Option.bind_eq_bind, Option.bind_eq_some_iff, Option.pure_def, Option.map_eq_some_iff] at hcs
    obtain ⟨x, ⟨y, ⟨q, -, hy⟩, rfl⟩, l, hl, hcs⟩ := hcs
    obtain rfl := Option.some.inj hl
    obtain rfl := Option.some.inj hcs
    obtain rfl := Option.some.inj hy
    exact ⟨_, rfl, rfl⟩
  obtain ⟨g1, g2, g3, g4⟩ : e.pending = none ∧ e.enabled = false ∧ e.prop = p ∧ e.corrs = [.vel c] := by
    rw [← Option.some.inj he, hc]
    exact ⟨rfl, rfl, rfl, rfl⟩
  clear he hp hcs h0
  simp [Program.girona500, Program.plain, Program.wire, RosSub.add, RosSub.init, SubKind.two] at hwr
  obtain ⟨rfl, rfl⟩ := hwr
  simp only [exHang, Run.run, Option.bind_eq_some_iff] at h1
  obtain ⟨r1, a1, r2, a2, r3, a3, r4, a4, r5, a5, a6⟩ := h1
  obtain rfl := Option.some.inj a6
  obtain ⟨m, b1⟩ : ∃ m, r1.sys.est = { e with prop := { e.prop with buffer := e.prop.buffer ++ [m] } } ∧ r1.todo = none ∧ r1.ok = true ∧ r1.ended .spin = false := by
    simp [Run.step, Run.begin, System.step, RosSub.step, RosSub.callback, Ros.convert, RosSub.push, Ros.imuCb, ImuMeas.set_quaternion, System.fresh, System.feedAll, System.feed, Estimator.step] at a1
    rw [← a1]
    exact ⟨_, rfl, rfl, rfl, rfl⟩
  obtain ⟨b1, b2, b3, b4⟩ := b1
  obtain ⟨c1, c2, c3, c4⟩ := main_tick b2 b3 a2
  obtain ⟨d1, d2, d3, d4⟩ := main_tick c2 c3 a3
  have k1 : r2.sys.est = { e with prop := { e.prop with buffer := e.prop.buffer ++ [m], biasInitialized := true } } := by
    rw [b1] at c1
    simp only [Estimator.tick, g1, g2, g3, f3, Bool.false_eq_true, if_false, Estimator.initBias, ImuProp.initImuBias, f2, if_true, Option.map_some, Option.some.injEq] at c1
    rw [← c1, g3, g1, g2]
    dsimp only
    rw [f2]
  obtain ⟨e2, k2⟩ : ∃ e2, r2.sys.est = e2 := ⟨_, rfl⟩
  rw [k2] at d1 k1
  have l1 : e2.pending = none := by rw [k1]; exact g1
  have l2 : e2.enabled = false := by rw [k1]; exact g2
  have l3 : e2.prop.biasInitialized = true := by rw [k1]
  have l4 : e2.prop.buffer = [m] := by rw [k1]; show e.prop.buffer ++ [m] = _; rw [g3, f1]; rfl
  have l5 : e2.corrs = [.vel c] := by rw [k1]; exact g4
  simp only [Estimator.tick, l1, l2, l3, Bool.false_eq_true, if_false, if_true, Estimator.initState, Option.bind_eq_bind, Option.bind_eq_some_iff] at d1
  obtain ⟨⟨b, p', st⟩, x1, x2⟩ := d1
  have hb : b = true := by
    unfold ImuProp.setInitialState at x1
    rw [l4] at x1
    simp only [Option.bind_eq_bind, Option.bind_eq_some_iff] at x1
    obtain ⟨_, -, _, -, _, -, _, -, _, -, _, -, x1⟩ := x1
    exact (congrArg Prod.fst (Option.some.inj x1)).symm
  subst hb
  simp [Estimator.initFrom, l5, Estimator.initCorrs, Corr.setInitial, VelCorr.setInitial, hcb] at x2
  have y1 : r3.sys.est.pending = some 0 := by rw [← x2]
  have y2 : r3.sys.est.corrs[0]? = some (.vel c) := by rw [← x2]; rfl
  simp only [Run.step, Option.some.injEq] at a4
  subst a4
  have hsp : r3.ended .spin = false := by rw [d4, c4]; exact b4
  simp only [Run.step, hsp, Run.leaves, Bool.not_false, if_true, Bool.false_eq_true, if_false, Option.some.injEq] at a5
  subst a5
  refine ⟨rfl, ?_, fun hs => ?_⟩
  · exact Function.update_self (f := r3.ended) Thread.spin true
  exact hs 0 ⟨d2, y1⟩ 0 _ (le_refl _) y2 hcb

/-- **C135** is false: the program for the underwater robot has received an IMU message and made two turns of its loop; Ctrl-C.  Whatever
happens afterwards, it does not end. -/
theorem C135_false (mlog : M4 → M4) (ff : Bool) (h : Heap) : ∃ P ∈ Program.shipped, ∃ r0 r, boot P h = some r0 ∧ r0.run mlog ff exHang = some r ∧
    WellFormed P (messages exHang) ∧ OdomDistinct P (messages exHang) ∧ PropSorted P (messages exHang) ∧ r.ok = false ∧
    ∀ rest r', r.run mlog ff rest = some r' → ¬ r'.over := by
  have hP : Program.girona500 ∈ Program.shipped := by simp [Program.shipped]
  obtain ⟨x1, x2, x3⟩ := exHang_ok
  obtain ⟨s0, r, -, h1, h2, h3, -, -⟩ := C135_defined .girona500 hP mlog ff h exHang x1 x2 x3
  obtain ⟨y1, y2, y3⟩ := exHang_wait h1 h3
  exact ⟨_, hP, _, r, h2, h3, x1, x2, x3, y1, fun rest r' hr => (C135_hangs y2 y3 hr).1⟩

/-- one turn of every thread -/
def exRound : List Ev := [.main, .thread .pose, .thread .path, .thread .log, .thread .filter, .thread .spin]

theorem exRound_round : Round exRound := ⟨by simp [exRound], fun t => by cases t <;> simp [exRound]⟩

/-- the hypotheses of `C135_ends_partial` are met: Ctrl-C at the very beginning, then 18 turns of every thread; for every
shipped program -/
theorem C135_ends_example (P : Program) (hP : P ∈ Program.shipped) (mlog : M4 → M4) (ff : Bool) (h : Heap) : ∃ r0 r r', boot P h = some r0 ∧
    r0.run mlog ff [.shutdown] = some r ∧ r.ok = false ∧ r.served ∧ Rounds 18 (List.replicate 18 exRound).flatten ∧
    r.run mlog ff (List.replicate 18 exRound).flatten = some r' ∧ r'.over := by
  have hm : ∀ n, messages (List.replicate n exRound).flatten = [] := by
    intro n
    induction n with
    | zero => rfl
    | succ n ih =>
      rw [List.replicate_succ, List.flatten_cons, messages, List.filterMap_append]
      exact ih
  have hm' : messages ([.shutdown] ++ (List.replicate 18 exRound).flatten) = [] := hm 18
  obtain ⟨s0, r', -, h1, h2, h3, -, -⟩ := C135_defined P hP mlog ff h ([.shutdown] ++ (List.replicate 18 exRound).flatten)
    (by rw [hm']; intro i m x hx; cases hx) (by rw [hm']; intro i x _ _; exact .nil) (by rw [hm']; exact List.Pairwise.nil)
  have h4 := h3
  rw [run_append, Option.bind_eq_some_iff] at h4
  obtain ⟨r, h5, h6⟩ := h4
  have h7 : r = { Run.begin s0 with ok := false } := (Option.some.inj h5).symm
  have hp : s0.est.pending = none := by
    simp only [Program.start, Option.bind_eq_bind, Option.bind_eq_some_iff] at h1
    obtain ⟨⟨sub, w⟩, -, e, he, h1⟩ := h1
    rw [← Option.some.inj h1]
    unfold Estimator.ctor at he
    simp only [Option.bind_eq_bind, Option.bind_eq_some_iff] at he
    obtain ⟨p, -, cs, -, he⟩ := he
    rw [← Option.some.inj he]
  have hr : Rounds 18 (List.replicate 18 exRound).flatten := ⟨List.replicate 18 exRound, List.length_replicate, rfl, fun x hx => by
    rw [List.eq_of_mem_replicate hx]; exact exRound_round⟩
  have hs : r.served := by
    intro i hw
    have := hw.2
    rw [h7] at this
    have : s0.est.pending = some i := this
    rw [hp] at this; cases this
  have hok : r.ok = false := by rw [h7]
  exact ⟨_, r, r', h2, h5, hok, hs, hr, h6, (C135_ends_partial h2 h5 hok hs hr h6).1⟩

end Drift.Shut
