import Verif.Lemmas.Wheel
import Verif.Spec.Wheel

/-!
# Properties C74-C76, C78: the wheel odometry baseline
-/
namespace Drift
open Matrix Mat

/-- a velocity and an angular velocity used in the examples -/
noncomputable def exPair (t : ℝ) : VelMeas × AngVelMeas := (⟨t, ![1, 0, 0]⟩, ⟨t, ![0, 0, 0.1]⟩)

/-! ### C74 -/

/-- **C74**: for every interleaving of the encoder callback and the thread running `RunOnce`, the processed pairs are
the first delivered messages, in order, each once: velocity and angular velocity always come from the same message. -/
theorem C74_pairs_same_message (o : Odo) (l : List OAct) (s : OSys) (D N : List (VelMeas × AngVelMeas))
    (h : OSys.Exec (OSys.init o) l s D N) : N <+: D := by
  have i := OSys.inv_exec h
  refine OSys.prefix_of_maps ?_ ?_
  · rw [i.v, List.append_assoc, List.append_assoc]; exact List.prefix_append _ _
  · rw [i.w, List.append_assoc, List.append_assoc]; exact List.prefix_append _ _

/-- **C74**: nothing is lost: whenever both threads are idle, the delivered messages that were not processed are
exactly those still queued (in both queues). -/
theorem C74_nothing_lost (o : Odo) (l : List OAct) (s : OSys) (D N : List (VelMeas × AngVelMeas))
    (h : OSys.Exec (OSys.init o) l s D N) (hc : s.cb = .idle) (hr : s.run = .idle) :
    D.map Prod.fst = N.map Prod.fst ++ s.velQ ∧ D.map Prod.snd = N.map Prod.snd ++ s.angQ := by
  have i := OSys.inv_exec h
  have h1 := i.v
  have h2 := i.w
  rw [hc, hr] at h1 h2
  simpa [OSys.runV, OSys.runW, OSys.cbV, OSys.cbW] using And.intro h1 h2

/-- **C74**: at every moment at which a queue is popped it is not empty. -/
theorem C74_never_pops_empty (o : Odo) (l : List OAct) (s : OSys) (D N : List (VelMeas × AngVelMeas))
    (h : OSys.Exec (OSys.init o) l s D N) :
    (s.run = .takeV → s.velQ ≠ []) ∧ (∀ v, s.run = .takeW v → s.angQ ≠ []) := by
  have i := OSys.inv_exec h
  exact ⟨fun k => (i.take k).1, i.takew⟩

/-- **C74**: mutual exclusion: the callback never touches a queue (push) while `RunOnce` holds its mutex, and
`RunOnce` never touches one (test, pop) without holding its mutex. -/
theorem C74_exclusive (o : Odo) (l : List OAct) (s : OSys) (D N : List (VelMeas × AngVelMeas))
    (h : OSys.Exec (OSys.init o) l s D N) :
    (∀ v w, s.cb = .holdV v w → s.ownV = some .cb) ∧ (∀ w, s.cb = .holdW w → s.ownW = some .cb) ∧
      (s.run = .check → s.ownV = some .run ∧ s.ownW = some .run) ∧ (s.run = .takeV → s.ownV = some .run) ∧
      (∀ v, s.run = .takeW v → s.ownW = some .run) := by
  have i := OSys.inv_exec h
  refine ⟨fun v w k => i.ownV.1.mpr ?_, fun w k => i.ownW.1.mpr ?_, fun k => ⟨i.ownV.2.mpr ?_, i.ownW.2.mpr ?_⟩,
    fun k => i.ownV.2.mpr ?_, fun v k => i.ownW.2.mpr ?_⟩ <;> rw [k] <;> rfl

/-- **C74**: no deadlock: in every reachable state in which some thread is in the middle of its operation, one of the
two threads can make a step there. -/
theorem C74_no_deadlock (o : Odo) (l : List OAct) (s : OSys) (D N : List (VelMeas × AngVelMeas))
    (h : OSys.Exec (OSys.init o) l s D N) (hb : s.cb ≠ .idle ∨ s.run ≠ .idle) :
    (s.cb ≠ .idle ∧ ∃ s', s.act .cb = some s') ∨ (s.run ≠ .idle ∧ ∃ s', s.act .run = some s') := by
  have i := OSys.inv_exec h
  obtain ⟨odo, velQ, angQ, oV, oW, cb, run⟩ := s
  obtain ⟨-, -, ⟨hV1, hV2⟩, ⟨hW1, hW2⟩, -, -, -⟩ := i
  dsimp only at hb hV1 hV2 hW1 hW2
  simp only [OSys.act]
  rcases oV with _ | (_ | _) <;> rcases oW with _ | (_ | _) <;> cases cb <;> cases run <;>
    simp_all [OSys.cbHasV, OSys.cbHasW, OSys.runHasV, OSys.runHasW, OSys.cbStep, OSys.runStep] <;>
    (try split) <;> (try split_ifs) <;> simp

/-- **C74**: no livelock: every step of a busy thread brings both operations closer to completion, whatever the other
thread does (`todo` is the number of steps still to be made). -/
theorem C74_progress (s s' : OSys) (hok : s.run = .takeV → s.velQ ≠ []) (hok2 : ∀ v, s.run = .takeW v → s.angQ ≠ []) :
    (s.cb ≠ .idle → s.act .cb = some s' → s'.todo < s.todo) ∧
      (s.run ≠ .idle → s.act .run = some s' → s'.todo < s.todo) := by
  obtain ⟨odo, velQ, angQ, oV, oW, cb, run⟩ := s
  constructor
  · intro hb ha
    cases cb <;> simp only [OSys.act, OSys.cbStep, reduceCtorEq, Option.some.injEq] at ha <;>
      (try split_ifs at ha) <;> (try obtain rfl := Option.some.inj ha) <;> (try subst ha) <;> simp [OSys.todo]
  · intro hb ha
    cases run
    · exact absurd rfl hb
    all_goals simp only [OSys.act, OSys.runStep, reduceCtorEq, Option.some.injEq] at ha
    · split_ifs at ha; obtain rfl := Option.some.inj ha; simp [OSys.todo]
    · split_ifs at ha; obtain rfl := Option.some.inj ha; simp [OSys.todo]
    · split_ifs at ha <;> obtain rfl := Option.some.inj ha <;> simp [OSys.todo]
    · subst ha; simp [OSys.todo]
    · subst ha; simp [OSys.todo]
    · cases velQ with
      | nil => exact absurd rfl (hok rfl)
      | cons v q => obtain rfl := Option.some.inj ha; simp [OSys.todo]
    · subst ha; simp [OSys.todo]
    · cases angQ with
      | nil => exact absurd rfl (hok2 _ rfl)
      | cons v q => obtain rfl := Option.some.inj ha; simp [OSys.todo]
    · subst ha; simp [OSys.todo]

/-- **C74**: the result of any interleaving is that of processing the pairs one after the other. -/
theorem C74_sequential (o : Odo) (l : List OAct) (s : OSys) (D N : List (VelMeas × AngVelMeas))
    (h : OSys.Exec (OSys.init o) l s D N) : s.odo = o.processAll N := by
  generalize hs : OSys.init o = s0 at h
  induction h with
  | nil => subst hs; rfl
  | @snoc l s' D N h a s'' ha ih =>
    subst hs
    have i := OSys.inv_exec h
    obtain ⟨odo, velQ, angQ, oV, oW, cb, run⟩ := s'
    obtain ⟨-, -, -, -, ht, hu, htw⟩ := i
    dsimp only at ih ht hu htw
    rw [Odo.processAll_append, ← ih]
    cases a with
    | deliver v w =>
      cases cb <;> simp only [OSys.act, reduceCtorEq, Option.some.injEq] at ha
      subst ha
      simp [OSys.processedBy, Odo.processAll]
    | cb =>
      cases cb <;> simp only [OSys.act, OSys.cbStep, reduceCtorEq, Option.some.injEq] at ha <;>
        (try split_ifs at ha) <;> (try obtain rfl := Option.some.inj ha) <;> (try subst ha) <;>
        simp [OSys.processedBy, Odo.processAll]
    | run =>
      cases run <;> simp only [OSys.act, OSys.runStep, reduceCtorEq, Option.some.injEq] at ha
      · subst ha; simp [OSys.processedBy, Odo.processAll]
      · split_ifs at ha; obtain rfl := Option.some.inj ha; simp [OSys.processedBy, Odo.processAll]
      · split_ifs at ha; obtain rfl := Option.some.inj ha; simp [OSys.processedBy, Odo.processAll]
      · split_ifs at ha <;> obtain rfl := Option.some.inj ha <;> simp [OSys.processedBy, Odo.processAll]
      · subst ha; simp [OSys.processedBy, Odo.processAll]
      · subst ha; simp [OSys.processedBy, Odo.processAll]
      · cases velQ with
        | nil => exact absurd rfl (ht rfl).1
        | cons v q => obtain rfl := Option.some.inj ha; simp [OSys.processedBy, Odo.processAll]
      · subst ha; simp [OSys.processedBy, Odo.processAll]
      · cases angQ with
        | nil => exact absurd rfl (htw _ rfl)
        | cons v q => obtain rfl := Option.some.inj ha; simp [OSys.processedBy, Odo.processAll]
      · subst ha
        simp [OSys.processedBy, Odo.processAll]

/-- an interleaving in which `RunOnce` sees the velocity of a message before its angular velocity has arrived, gives up,
and processes the pair later -/
example (o : Odo) (v : VelMeas) (w : AngVelMeas) : ∃ s,
    OSys.Exec (OSys.init o) [.deliver v w, .cb, .cb, .cb, .run, .run, .run, .run, .run, .run, .cb, .cb, .cb, .run, .run,
      .run, .run, .run, .run, .run, .run] s [(v, w)] [(v, w)] := by
  have e0 := OSys.Exec.nil (OSys.init o)
  have e1 := e0.snoc (.deliver v w) ⟨some o, [], [], none, none, .wantV v w, .idle⟩ (by simp [OSys.act, OSys.runStep, OSys.cbStep, OSys.init])
  have e2 := e1.snoc (.cb) ⟨some o, [], [], some .cb, none, .holdV v w, .idle⟩ (by simp [OSys.act, OSys.runStep, OSys.cbStep, OSys.init])
  have e3 := e2.snoc (.cb) ⟨some o, [v], [], some .cb, none, .doneV w, .idle⟩ (by simp [OSys.act, OSys.runStep, OSys.cbStep, OSys.init])
  have e4 := e3.snoc (.cb) ⟨some o, [v], [], none, none, .wantW w, .idle⟩ (by simp [OSys.act, OSys.runStep, OSys.cbStep, OSys.init])
  have e5 := e4.snoc (.run) ⟨some o, [v], [], none, none, .wantW w, .wantV⟩ (by simp [OSys.act, OSys.runStep, OSys.cbStep, OSys.init])
  have e6 := e5.snoc (.run) ⟨some o, [v], [], some .run, none, .wantW w, .wantW⟩ (by simp [OSys.act, OSys.runStep, OSys.cbStep, OSys.init])
  have e7 := e6.snoc (.run) ⟨some o, [v], [], some .run, some .run, .wantW w, .check⟩ (by simp [OSys.act, OSys.runStep, OSys.cbStep, OSys.init])
  have e8 := e7.snoc (.run) ⟨some o, [v], [], some .run, some .run, .wantW w, .emptyV⟩ (by simp [OSys.act, OSys.runStep, OSys.cbStep, OSys.init])
  have e9 := e8.snoc (.run) ⟨some o, [v], [], none, some .run, .wantW w, .emptyW⟩ (by simp [OSys.act, OSys.runStep, OSys.cbStep, OSys.init])
  have e10 := e9.snoc (.run) ⟨some o, [v], [], none, none, .wantW w, .idle⟩ (by simp [OSys.act, OSys.runStep, OSys.cbStep, OSys.init])
  have e11 := e10.snoc (.cb) ⟨some o, [v], [], none, some .cb, .holdW w, .idle⟩ (by simp [OSys.act, OSys.runStep, OSys.cbStep, OSys.init])
  have e12 := e11.snoc (.cb) ⟨some o, [v], [w], none, some .cb, .doneW, .idle⟩ (by simp [OSys.act, OSys.runStep, OSys.cbStep, OSys.init])
  have e13 := e12.snoc (.cb) ⟨some o, [v], [w], none, none, .idle, .idle⟩ (by simp [OSys.act, OSys.runStep, OSys.cbStep, OSys.init])
  have e14 := e13.snoc (.run) ⟨some o, [v], [w], none, none, .idle, .wantV⟩ (by simp [OSys.act, OSys.runStep, OSys.cbStep, OSys.init])
  have e15 := e14.snoc (.run) ⟨some o, [v], [w], some .run, none, .idle, .wantW⟩ (by simp [OSys.act, OSys.runStep, OSys.cbStep, OSys.init])
  have e16 := e15.snoc (.run) ⟨some o, [v], [w], some .run, some .run, .idle, .check⟩ (by simp [OSys.act, OSys.runStep, OSys.cbStep, OSys.init])
  have e17 := e16.snoc (.run) ⟨some o, [v], [w], some .run, some .run, .idle, .takeV⟩ (by simp [OSys.act, OSys.runStep, OSys.cbStep, OSys.init])
  have e18 := e17.snoc (.run) ⟨some o, [], [w], some .run, some .run, .idle, .unlockV v⟩ (by simp [OSys.act, OSys.runStep, OSys.cbStep, OSys.init])
  have e19 := e18.snoc (.run) ⟨some o, [], [w], none, some .run, .idle, .takeW v⟩ (by simp [OSys.act, OSys.runStep, OSys.cbStep, OSys.init])
  have e20 := e19.snoc (.run) ⟨some o, [], [], none, some .run, .idle, .unlockW v w⟩ (by simp [OSys.act, OSys.runStep, OSys.cbStep, OSys.init])
  have e21 := e20.snoc (.run) ⟨o.process v w, [], [], none, none, .idle, .idle⟩ (by simp [OSys.act, OSys.runStep, OSys.cbStep, OSys.init])
  refine ⟨⟨o.process v w, [], [], none, none, .idle, .idle⟩, ?_⟩
  simpa only [OSys.processedBy, OSys.deliveredBy, OSys.init, List.nil_append, List.append_nil, List.cons_append] using e21

/-! ### C75 -/

/-- **C75** is false: after every integration step the state matrix has the row (1,1,1,1,1) where the identity row should
be, so it is never an element of SE_2(3). -/
theorem C75_false (o o' : Odo) (v w : V3) (dt : ℝ) (h : o.integrate v w dt = some o') : ¬ IsSEK 2 o'.state.X := by
  intro hs
  have h30 : o'.state.X.e 3 0 = 1 := by
    unfold Odo.integrate at h
    simp only [Option.bind_eq_bind, Option.bind_eq_some_iff] at h
    obtain ⟨R, _, _, _, p, _, E, _, X1, h1, X2, h2, X3, h3, t, _, h⟩ := h
    obtain rfl := Option.some.inj h
    have e1 : X1 = (Mat.ones 5 5).setBlockP 0 0 (of3 (R * E)) := by
      simp [setBlock?] at h1; exact h1.symm
    subst e1
    unfold setBlock? at h2
    split_ifs at h2
    obtain rfl := Option.some.inj h2
    unfold setBlock? at h3
    split_ifs at h3
    obtain rfl := Option.some.inj h3
    exact (Odo.X5_blocks (R * E) (R.mulVec v) (p + dt • R.mulVec v)).2.2.2.2.2
  have := hs.bot 3 0 (le_refl _) (by norm_num) (by norm_num)
  rw [h30] at this
  norm_num at this

/-- **C75**, the part that holds: processing is always defined, and the rotation block stays a rotation matrix, for every
history.  (Missing: the bottom rows, see `C75_false`.) -/
theorem C75_rotation_partial (b : Bool) (r : Option ℝ) (l : List (VelMeas × AngVelMeas)) :
    ∃ o, (Odo.ctor b r).processAll l = some o ∧ o.state.X.rows = 5 ∧ o.state.X.cols = 5 ∧ IsRot (o.state.X.blk3 0 0) := by
  have key : ∀ (l : List (VelMeas × AngVelMeas)) (o : Odo), o.Good → (o.prevT ≠ 0 → o.state.t = some o.prevT) →
      ∃ o', o.processAll l = some o' ∧ o'.Good := by
    intro l
    induction l with
    | nil => exact fun o hg _ => ⟨o, rfl, hg⟩
    | cons m l ih =>
      intro o hg hp
      obtain ⟨o1, e, hg1, h1, h2, _⟩ := Odo.process_good hg hp m.1 m.2
      obtain ⟨o', e', hg'⟩ := ih o1 hg1 fun _ => by rw [h2, h1]
      exact ⟨o', by rw [Odo.processAll, e]; exact e', hg'⟩
  obtain ⟨o, e, hg⟩ := key l _ (Odo.ctor_good b r) fun h => absurd rfl h
  exact ⟨o, e, hg.rows, hg.cols, hg.rot⟩

/-- **C75**, the part that holds: with non-zero stamps the pose (rotation block, position column) is the dead reckoning
of the measurements after the first from the identity. -/
theorem C75_dead_reckoning_partial (b : Bool) (r : Option ℝ) (m : VelMeas × AngVelMeas) (l : List (VelMeas × AngVelMeas))
    (hm : m.1.time ≠ 0) (hl : ∀ m' ∈ l, m'.1.time ≠ 0) :
    ∃ o t', (Odo.ctor b r).processAll (m :: l) = some o ∧
      Reckons m.1.time 1 0 l t' (o.state.X.blk3 0 0) (o.state.X.blkV 0 4) := by
  have key : ∀ (l : List (VelMeas × AngVelMeas)) (o : Odo), o.Good → o.prevT ≠ 0 → o.state.t = some o.prevT →
      (∀ m' ∈ l, m'.1.time ≠ 0) →
      ∃ o' t', o.processAll l = some o' ∧ Reckons o.prevT (o.state.X.blk3 0 0) (o.state.X.blkV 0 4) l t'
        (o'.state.X.blk3 0 0) (o'.state.X.blkV 0 4) := by
    intro l
    induction l with
    | nil => exact fun o _ _ _ _ => ⟨o, _, rfl, .nil _ _ _⟩
    | cons m l ih =>
      intro o hg h0 hp hl
      obtain ⟨o1, e, hg1, h1, h2, _, _, _, h3⟩ := Odo.process_good hg (fun _ => hp) m.1 m.2
      obtain ⟨hX, _⟩ := h3 h0
      obtain ⟨o', t', e', hr⟩ := ih o1 hg1 (by rw [h1]; exact hl m List.mem_cons_self) (by rw [h2, h1])
        fun m' hm' => hl m' (List.mem_cons_of_mem _ hm')
      refine ⟨o', t', by rw [Odo.processAll, e]; exact e', .cons m (Gam0 ((m.1.time - o.prevT) • m.2.angVel)) ?_ ?_⟩
      · unfold exp_SO3; rw [gamma_SO3_zero]
      · obtain ⟨_, _, b1, _, b2, _⟩ := Odo.X5_blocks (o.state.X.blk3 0 0 * Gam0 ((m.1.time - o.prevT) • m.2.angVel))
          ((o.state.X.blk3 0 0).mulVec m.1.vel)
          (o.state.X.blkV 0 4 + (m.1.time - o.prevT) • (o.state.X.blk3 0 0).mulVec m.1.vel)
        rw [hX, b1, b2, h1] at hr
        exact hr
  obtain ⟨o1, e, hg1, h1, h2, _, _, h3, _⟩ := Odo.process_good (Odo.ctor_good b r) (fun h => absurd rfl h) m.1 m.2
  obtain ⟨hX, _⟩ := h3 rfl
  obtain ⟨o, t', e', hr⟩ := key l o1 hg1 (by rw [h1]; exact hm) (by rw [h2, h1]) hl
  refine ⟨o, t', by rw [Odo.processAll, e]; exact e', ?_⟩
  have hR : (Odo.ctor b r).state.X.blk3 0 0 = 1 := by
    funext i j
    fin_cases i <;> fin_cases j <;> simp [Odo.ctor, RobotState.init, blk3, Mat.one, Mat.eye, Mat.ofFn]
  have hp : (Odo.ctor b r).state.X.blkV 0 4 = 0 := by
    funext i
    fin_cases i <;> simp [Odo.ctor, RobotState.init, blkV, Mat.one, Mat.eye, Mat.ofFn]
  rw [hX, hR, hp, h1] at hr
  exact hr

/-- the hypotheses are met -/
example : ∃ o t', (Odo.ctor true none).processAll [exPair 1, exPair 2, exPair 3] = some o ∧
    Reckons 1 1 0 [exPair 2, exPair 3] t' (o.state.X.blk3 0 0) (o.state.X.blkV 0 4) :=
  C75_dead_reckoning_partial true none (exPair 1) _ (by simp [exPair]) (by simp [exPair])

/-! ### C76 -/

/-- **C76**: after every non-empty history the state time is the stamp of the last velocity measurement. -/
theorem C76_clock (b : Bool) (r : Option ℝ) (l : List (VelMeas × AngVelMeas)) (m : VelMeas × AngVelMeas) :
    ∃ o, (Odo.ctor b r).processAll (l ++ [m]) = some o ∧ o.state.t = some m.1.time := by
  have key : ∀ (l : List (VelMeas × AngVelMeas)) (o : Odo), o.Good → (o.prevT ≠ 0 → o.state.t = some o.prevT) →
      ∃ o', o.processAll (l ++ [m]) = some o' ∧ o'.state.t = some m.1.time := by
    intro l
    induction l with
    | nil =>
      intro o hg hp
      obtain ⟨o1, e, _, _, h2, _⟩ := Odo.process_good hg hp m.1 m.2
      exact ⟨o1, by rw [List.nil_append, Odo.processAll, e]; rfl, h2⟩
    | cons m' l ih =>
      intro o hg hp
      obtain ⟨o1, e, hg1, h1, h2, _⟩ := Odo.process_good hg hp m'.1 m'.2
      obtain ⟨o', e', hg'⟩ := ih o1 hg1 fun _ => by rw [h2, h1]
      exact ⟨o', by rw [List.cons_append, Odo.processAll, e]; exact e', hg'⟩
  exact key l _ (Odo.ctor_good b r) fun h => absurd rfl h

/-- The stamp 0 doubles as "no measurement yet": the motion after a measurement stamped 0 is dropped (only the clock
follows), for every velocity. -/
theorem C76_zero_stamp_drops_motion (b : Bool) (r : Option ℝ) (l : List (VelMeas × AngVelMeas))
    (m₀ m : VelMeas × AngVelMeas) (h0 : m₀.1.time = 0) :
    ∃ o o', (Odo.ctor b r).processAll (l ++ [m₀]) = some o ∧ o.process m.1 m.2 = some o' ∧
      o'.state.X = o.state.X ∧ o'.state.t = some m.1.time := by
  have key : ∀ (l : List (VelMeas × AngVelMeas)) (o : Odo), o.Good → (o.prevT ≠ 0 → o.state.t = some o.prevT) →
      ∃ o', o.processAll (l ++ [m₀]) = some o' ∧ o'.Good ∧ o'.prevT = 0 := by
    intro l
    induction l with
    | nil =>
      intro o hg hp
      obtain ⟨o1, e, hg1, h1, h2, _⟩ := Odo.process_good hg hp m₀.1 m₀.2
      exact ⟨o1, by rw [List.nil_append, Odo.processAll, e]; rfl, hg1, by rw [h1, h0]⟩
    | cons m' l ih =>
      intro o hg hp
      obtain ⟨o1, e, hg1, h1, h2, _⟩ := Odo.process_good hg hp m'.1 m'.2
      obtain ⟨o', e', hg'⟩ := ih o1 hg1 fun _ => by rw [h2, h1]
      exact ⟨o', by rw [List.cons_append, Odo.processAll, e]; exact e', hg'⟩
  obtain ⟨o, e, hg, hz⟩ := key l _ (Odo.ctor_good b r) fun h => absurd rfl h
  obtain ⟨o', e', _, _, h2, _, _, h3, _⟩ := Odo.process_good hg (fun k => absurd hz k) m.1 m.2
  exact ⟨o, o', e, e', (h3 hz).1, h2⟩

/-! ### C78 -/

/-- **C78**: the rows of the pose file are spaced by at least the period of the configured rate, the first at least one
period after time 0; nothing is written when logging is disabled. -/
theorem C78_log_rate (b : Bool) (r : Option ℝ) (l : List (VelMeas × AngVelMeas)) :
    ∃ o, (Odo.ctor b r).processAll l = some o ∧
      (0 :: o.rows.map OdoRow.time).IsChain (fun s t => 1 / r.getD 10 ≤ t - s) ∧ (b = false → o.rows = []) := by
  have key : ∀ (l : List (VelMeas × AngVelMeas)) (o : Odo), o.Good → (o.prevT ≠ 0 → o.state.t = some o.prevT) →
      o.lastPub = ((0 :: o.rows.map OdoRow.time).getLast (by simp)) →
      (0 :: o.rows.map OdoRow.time).IsChain (fun s t => 1 / o.rate ≤ t - s) → (o.enabled = false → o.rows = []) →
      ∃ o', o.processAll l = some o' ∧ (0 :: o'.rows.map OdoRow.time).IsChain (fun s t => 1 / o.rate ≤ t - s) ∧
        (o.enabled = false → o'.rows = []) := by
    intro l
    induction l with
    | nil => exact fun o _ _ _ h1 h2 => ⟨o, rfl, h1, h2⟩
    | cons m l ih =>
      intro o hg hp hlast hch hen
      obtain ⟨o1, e, hg1, h1, h2, he, hr, h3, h4⟩ := Odo.process_good hg hp m.1 m.2
      have rest : (o1.lastPub = ((0 :: o1.rows.map OdoRow.time).getLast (by simp))) →
          ((0 :: o1.rows.map OdoRow.time).IsChain fun s t => 1 / o.rate ≤ t - s) → (o.enabled = false → o1.rows = []) →
          ∃ o', o.processAll (m :: l) = some o' ∧ (0 :: o'.rows.map OdoRow.time).IsChain (fun s t => 1 / o.rate ≤ t - s) ∧
            (o.enabled = false → o'.rows = []) := by
        intro k1 k2 k3
        obtain ⟨o', e', c1, c2⟩ := ih o1 hg1 (fun _ => by rw [h2, h1]) k1 (by rw [hr]; exact k2) (by rw [he]; exact k3)
        exact ⟨o', by rw [Odo.processAll, e]; exact e', by rw [hr] at c1; exact c1, by rw [he] at c2; exact c2⟩
      have same : o1.rows = o.rows → o1.lastPub = o.lastPub → _ := fun a b => rest (by
        rw [b, hlast]; simp only [a]) (by rw [a]; exact hch) (by rw [a]; exact hen)
      by_cases h0 : o.prevT = 0
      · exact same (h3 h0).2.1 (h3 h0).2.2
      · obtain ⟨_, hrow⟩ := h4 h0
        rcases hrow with ⟨_, a, b⟩ | ⟨a, _, b, c, d⟩
        · exact same a b
        · refine rest ?_ ?_ ?_
          · rw [d]
            simp only [c, List.map_append, List.map_cons, List.map_nil]
            rw [List.getLast_cons (by simp), List.getLast_append_singleton]
          · rw [c, List.map_append, List.map_cons, List.map_nil, ← List.cons_append, List.isChain_append]
            refine ⟨hch, List.isChain_singleton _, ?_⟩
            intro x hx y hy
            rw [List.getLast?_eq_getLast_of_ne_nil (by simp), ← hlast] at hx
            simp at hx hy
            subst hx hy
            exact b
          · intro k; rw [k] at a; simp at a
  obtain ⟨o, e, h1, h2⟩ := key l (Odo.ctor b r) (Odo.ctor_good b r) (fun h => absurd rfl h) rfl
    (List.isChain_singleton _) (fun _ => rfl)
  exact ⟨o, e, h1, h2⟩

/-- **C78**: the last message writes a row exactly when logging is on, the previous stamp is not zero and the message is
at least one period later than the last row (time 0 before the first); the row holds the stamp of the message and the
pose after it. -/
theorem C78_row_content (l : List (VelMeas × AngVelMeas)) (b : Bool) (r : Option ℝ)
    (m₀ m : VelMeas × AngVelMeas) :
    ∃ o o', (Odo.ctor b r).processAll (l ++ [m₀]) = some o ∧ (Odo.ctor b r).processAll (l ++ [m₀] ++ [m]) = some o' ∧
      (b = true ∧ m₀.1.time ≠ 0 ∧ r.getD 10 ≠ 0 ∧
          1 / r.getD 10 ≤ m.1.time - ((o.rows.map OdoRow.time).getLast?.getD 0) →
        o'.rows = o.rows ++ [⟨m.1.time, o'.state.X.blkV 0 4, o'.state.X.blk3 0 0⟩]) ∧
      (¬ (b = true ∧ m₀.1.time ≠ 0 ∧ r.getD 10 ≠ 0 ∧
          1 / r.getD 10 ≤ m.1.time - ((o.rows.map OdoRow.time).getLast?.getD 0)) → o'.rows = o.rows) := by
  have key : ∀ (l : List (VelMeas × AngVelMeas)) (o : Odo), o.Good → (o.prevT ≠ 0 → o.state.t = some o.prevT) →
      o.lastPub = (o.rows.map OdoRow.time).getLast?.getD 0 →
      ∃ o', o.processAll (l ++ [m₀]) = some o' ∧ o'.Good ∧ o'.prevT = m₀.1.time ∧ o'.state.t = some m₀.1.time ∧
        o'.lastPub = (o'.rows.map OdoRow.time).getLast?.getD 0 ∧ o'.enabled = o.enabled ∧ o'.rate = o.rate := by
    have step : ∀ (o : Odo) (m : VelMeas × AngVelMeas), o.Good → (o.prevT ≠ 0 → o.state.t = some o.prevT) →
        o.lastPub = (o.rows.map OdoRow.time).getLast?.getD 0 →
        ∃ o', o.process m.1 m.2 = some o' ∧ o'.Good ∧ o'.prevT = m.1.time ∧ o'.state.t = some m.1.time ∧
          o'.lastPub = (o'.rows.map OdoRow.time).getLast?.getD 0 ∧ o'.enabled = o.enabled ∧ o'.rate = o.rate := by
      intro o m hg hp hl
      obtain ⟨o1, e, hg1, h1, h2, he, hr, h3, h4⟩ := Odo.process_good hg hp m.1 m.2
      refine ⟨o1, e, hg1, h1, h2, ?_, he, hr⟩
      by_cases h0 : o.prevT = 0
      · rw [(h3 h0).2.1, (h3 h0).2.2, hl]
      · rcases (h4 h0).2 with ⟨_, a, c⟩ | ⟨_, _, _, a, c⟩
        · rw [a, c, hl]
        · rw [a, c]; simp
    intro l
    induction l with
    | nil =>
      intro o hg hp hl
      obtain ⟨o1, e, h⟩ := step o m₀ hg hp hl
      exact ⟨o1, by rw [List.nil_append, Odo.processAll, e]; rfl, h⟩
    | cons m' l ih =>
      intro o hg hp hl
      obtain ⟨o1, e, hg1, h1, h2, h3, he, hr⟩ := step o m' hg hp hl
      obtain ⟨o', e', k1, k2, k3, k4, ke, kr⟩ := ih o1 hg1 (fun _ => by rw [h2, h1]) h3
      exact ⟨o', by rw [List.cons_append, Odo.processAll, e]; exact e', k1, k2, k3, k4, by rw [ke, he], by rw [kr, hr]⟩
  obtain ⟨o, e, hg, h1, h2, h3, he, hr⟩ := key l (Odo.ctor b r) (Odo.ctor_good b r) (fun h => absurd rfl h) rfl
  obtain ⟨o', e', _, _, _, _, _, h4, h5⟩ := Odo.process_good hg (fun _ => by rw [h2, h1]) m.1 m.2
  refine ⟨o, o', e, ?_, ?_, ?_⟩
  · rw [Odo.processAll_append, e]
    show o.processAll [m] = _
    rw [Odo.processAll, e']; rfl
  · rintro ⟨k1, k2, k3, k4⟩
    rcases (h5 (by rw [h1]; exact k2)).2 with ⟨a, _⟩ | ⟨_, _, _, a, _⟩
    · exact absurd ⟨by rw [he]; exact k1, by rw [hr]; exact k3, by rw [h3, hr]; exact k4⟩ a
    · exact a
  · intro hn
    by_cases h0 : o.prevT = 0
    · exact (h4 h0).2.1
    · rcases (h5 h0).2 with ⟨_, a, _⟩ | ⟨a1, a2, a3, _⟩
      · exact a
      · exact absurd ⟨by rw [he] at a1; exact a1, by rw [← h1]; exact h0, by rw [hr] at a2; exact a2,
          by rw [h3, hr] at a3; exact a3⟩ hn

/-- rows are really written: two messages one second apart with the default rate -/
example : ∃ o, (Odo.ctor true none).processAll [exPair 1, exPair 2] = some o ∧ o.rows.length = 1 := by
  obtain ⟨o, o', e, e', h, _⟩ := C78_row_content [] true none (exPair 1) (exPair 2)
  have h0 : o.rows = [] := by
    have : o = { Odo.ctor true none with prevT := 1, state := { (Odo.ctor true none).state with t := some 1 } } := by
      have e2 : (Odo.ctor true none).processAll [exPair 1] =
          some { Odo.ctor true none with prevT := 1, state := { (Odo.ctor true none).state with t := some 1 } } := by
        simp [Odo.processAll, Odo.process, Odo.ctor, exPair]
      rw [List.nil_append, e2] at e
      exact (Option.some.inj e).symm
    rw [this]; rfl
  refine ⟨o', e', ?_⟩
  rw [h ⟨rfl, by simp [exPair], by simp, by rw [h0]; simp [exPair]; norm_num⟩, h0]
  rfl

end Drift
