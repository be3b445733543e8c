import Verif.Lemmas.Thr4

/-!
# Invariants of executions with mutexes
-/
namespace Drift
open RobotState
namespace Thr

/-! ### Prefixes of executions -/

/-- the present state is explained, up to the call in progress -/
def PInv (e0 : Estimator) (H : List EstEv) (y : Sys) : Prop :=
  (y.pc = .idle ∧ ∃ evs o, grun (e0, []) evs = some (y.e, o) ∧ SameOrder evs H) ∨
  (y.pc ≠ .idle ∧ ∃ evs g0 op H0 H1 o, grun (e0, []) evs = some g0 ∧ SameOrder evs H0 ∧ Mid g0 op y.e o y.pc H1 ∧ H = H0 ++ op :: H1)

theorem SameOrder.call {pre post during : List EstEv} (op : EstEv) (ho : res op = none) (hd : SameOrder (pre ++ post) during)
    (hn : ∀ a ∈ during, res a ≠ none) : SameOrder (pre ++ op :: post) (op :: during) := by
  have := (Explains.call (op := op) (evs := []) (ms := []) ho hd hn .nil).sameOrder
  have hb : ∀ (l : List EstEv), begun (l.map .ev ++ [.ret]) = l := by
    intro l
    induction l with
    | nil => rfl
    | cons a l ihl => simp [begun, ihl]
  simpa [begun, hb] using this

theorem Mid.op {g0 op e o pc H} (h : Mid g0 op e o pc H) : res op = none ∧ ∀ a ∈ H, res a ≠ none := by
  obtain ⟨_, _, _, _, _, _, _, h2, _, _, _, _, h7⟩ := h
  exact ⟨(start_ne h2).2, h7⟩

theorem PInv.act {e0 : Estimator} {H : List EstEv} {y y' : Sys} {a : Act} (h : PInv e0 H y) (ha : y.act a = some y') :
    PInv e0 (H ++ begun (mark y a)) y' := by
  have same : y'.e = y.e → y'.pc = y.pc → mark y a = [] → PInv e0 (H ++ begun (mark y a)) y' := by
    intro e1 e2 e3
    rw [e3]
    simp only [begun, List.append_nil]
    unfold PInv at h ⊢
    rw [e1, e2]; exact h
  cases a with
  | call op =>
    obtain ⟨p1, p2, p3⟩ := act_call ha
    rcases h with ⟨-, evs, o, h1, h2⟩ | ⟨hne, -⟩
    · right
      refine ⟨(start_ne p3).1, evs, (y.e, o), op, H, [], o, h1, h2, by rw [p2]; exact Mid.start p3, by simp [mark, begun]⟩
    · exact absurd p1 hne
  | main =>
    rcases act_main ha with ⟨e1, e2⟩ | hm
    · exact same e1 e2 (by simp [mark, ha, e2])
    · have hb : begun (mark y .main) = [] := by
        simp only [mark, ha]
        split_ifs <;> rfl
      rw [hb, List.append_nil]
      rcases h with ⟨hid, -⟩ | ⟨hne, evs, g0, op, H0, H1, o, h1, h2, h3, h4⟩
      · exact absurd hid (mstep_ne hm)
      · have hM := h3.main hm
        by_cases hid : y'.pc = .idle
        · left
          have hM2 := hM
          rw [hid] at hM2
          obtain ⟨pre, post, r1, r2⟩ := hM2.ret
          refine ⟨hid, evs ++ (pre ++ op :: post), o, by rw [grun_append, h1]; exact r1, ?_⟩
          rw [h4]
          exact h2.append (SameOrder.call op h3.op.1 r2 h3.op.2)
        · right
          exact ⟨hid, evs, g0, op, H0, H1, o, h1, h2, hM, h4⟩
  | lock ev => obtain ⟨e1, e2⟩ := act_lock ha; exact same e1 e2 rfl
  | work ev =>
    obtain ⟨⟨r, hr⟩, hs, hpc⟩ := act_work ha
    rcases h with ⟨hid, evs, o, h1, h2⟩ | ⟨hne, evs, g0, op, H0, H1, o, h1, h2, h3, h4⟩
    · left
      refine ⟨hpc.trans hid, evs ++ [ev], o ++ taken y.e ev, ?_, h2.append (.refl _)⟩
      rw [grun_append, h1]; simp [grun, gstep, hs]
    · right
      refine ⟨by rw [hpc]; exact hne, evs, g0, op, H0, H1 ++ [ev], _, h1, h2, by rw [hpc]; exact h3.work hr hs, ?_⟩
      rw [h4]; simp [mark, begun]
  | unlock r => obtain ⟨e1, e2⟩ := act_unlock ha; exact same e1 e2 rfl

theorem begun_append (l l' : List Mark) : begun (l ++ l') = begun l ++ begun l' := by
  induction l with
  | nil => rfl
  | cons a l ih => cases a <;> simp [begun, ih]

theorem PInv.run {e0 : Estimator} (acts : List Act) : ∀ {H : List EstEv} {y y' : Sys}, PInv e0 H y → y.run acts = some y' →
    PInv e0 (H ++ begun (trace y acts)) y' := by
  induction acts with
  | nil => intro H y y' h hr; obtain rfl := Option.some.inj hr; simpa [trace, begun] using h
  | cons a l ih =>
    intro H y y' h hr
    simp only [Sys.run, Option.bind_eq_some_iff] at hr
    obtain ⟨y1, h1, h2⟩ := hr
    have := ih (h.act h1) h2
    simp only [trace, h1, begun_append]
    rwa [List.append_assoc] at this

theorem PInv.init (e0 : Estimator) : PInv e0 [] (Sys.init e0) := Or.inl ⟨rfl, [], [], rfl, .refl _⟩

/-! ### Definedness -/

theorem mstep_logger_before {e e' : Estimator} {pc pc' : PC} (hm : mstep e pc = some (e', pc')) (hd : pc' ≠ .idle) : e'.log = e.log := by
  by_cases hl : lockOf e pc = some .log
  · have hn := mstep_next hm
    cases pc <;> simp only [lockOf] at hl <;> (try simp at hl) <;> simp only at hn <;>
      (try (subst hn; exact absurd rfl hd)) <;> split_ifs at hl <;> simp at hl
  · exact mstep_logger hl hm

theorem MR.logger {e pc e' pc'} (h : MR e pc e' pc') (hd : pc' ≠ .idle) : e'.log = e.log := by
  induction h with
  | refl => rfl
  | tail h hm ih => rw [mstep_logger_before hm hd, ih (mstep_ne hm)]

theorem done_log {pc : PC} (h : pc ≠ .idle) : ¬ Done pc .log := by cases pc <;> simp_all [Done]

theorem step_total {e : Estimator} {ev : EstEv} {r : Res} (hr : res ev = some r) (h : r ≠ .log) :
    ∃ x, e.step ev = some x ∧ x.log = e.log := by
  cases ev <;> simp only [res, Option.some.injEq, reduceCtorEq] at hr <;> subst hr <;>
    first | exact ⟨_, rfl, rfl⟩ | exact absurd rfl h

theorem grun_logger {A : List EstEv} (hA : ∀ a ∈ A, ∃ r, res a = some r ∧ r ≠ .log) {e e' : Estimator} {o o' : List RobotState}
    (h : grun (e, o) A = some (e', o')) : e'.log = e.log := by
  induction A generalizing e o with
  | nil => obtain ⟨rfl, -⟩ := Prod.mk.inj (Option.some.inj h); rfl
  | cons a A ih =>
    simp only [grun, Option.bind_eq_some_iff, gstep, Option.map_eq_some_iff] at h
    obtain ⟨_, ⟨x, hx, rfl⟩, h2⟩ := h
    obtain ⟨r, hr, hl⟩ := hA a (by simp)
    obtain ⟨x', hx', hlog⟩ := step_total (e := e) hr hl
    rw [hx] at hx'
    obtain rfl := Option.some.inj hx'
    rw [ih (fun b hb => hA b (List.mem_cons_of_mem _ hb)) h2, hlog]

/-- undefinedness of the next step is not caused by accesses to finished queues -/
theorem after_def {pc : PC} (A : List EstEv) (hpc : pc ≠ .idle) (hA : ∀ a ∈ A, ∃ r, res a = some r ∧ Done pc r) {e : Estimator}
    {o : List RobotState} {b : Estimator} {o' : List RobotState} (h : grun (e, o) A = some (b, o'))
    {q : Estimator × PC} (hm : mstep e pc = some q) : ∃ q', mstep b pc = some q' := by
  induction A generalizing e o q with
  | nil =>
    obtain ⟨rfl, rfl⟩ := Prod.mk.inj (Option.some.inj h)
    exact ⟨q, hm⟩
  | cons a A ih =>
    simp only [grun, Option.bind_eq_some_iff, gstep, Option.map_eq_some_iff] at h
    obtain ⟨_, ⟨x, hx, rfl⟩, h2⟩ := h
    obtain ⟨r, hr, hd⟩ := hA a (by simp)
    obtain ⟨hl, hp⟩ := done_indep (e := e) hd hpc
    have hrl : r ≠ .log := fun h' => done_log hpc (h' ▸ hd)
    obtain ⟨z, hz, -⟩ := step_total (e := q.1) hr hrl
    have hc := mstep_comm hr hl hp
    rw [hx, Option.bind_some, hm, Option.bind_some, hz] at hc
    exact ih (fun b hb => hA b (List.mem_cons_of_mem _ hb)) h2 hc

theorem imuArrivals_eq (evs : List EstEv) : ∀ evs', SameOrder evs evs' → imuArrivals evs = imuArrivals evs' := by
  have key : ∀ l : List EstEv, imuArrivals l = imuArrivals (l.filter fun ev => decide (res ev = some .imu)) := by
    intro l
    induction l with
    | nil => rfl
    | cons a l ih => cases a <;> simp [imuArrivals, ih, res]
  intro evs' h
  rw [key evs, key evs', h.2 .imu]

/-- the atomic histories with these orders are defined -/
def Safe (e0 : Estimator) (H : List EstEv) : Prop := ∀ evs, imuArrivals evs = imuArrivals H → ∃ e, e0.run evs = some e

theorem est_run_app (e : Estimator) (l l' : List EstEv) : e.run (l ++ l') = (e.run l).bind fun e' => e'.run l' := by
  induction l generalizing e with
  | nil => rfl
  | cons a l ih =>
    simp only [List.cons_append, Estimator.run]
    cases e.step a with
    | none => rfl
    | some g' => simp [ih]

theorem imuArr_app (l l' : List EstEv) : imuArrivals (l ++ l') = imuArrivals l ++ imuArrivals l' := by
  induction l with
  | nil => rfl
  | cons a l ih => cases a <;> simp [imuArrivals, ih]

theorem PInv.defined {e0 : Estimator} {H : List EstEv} {y : Sys} (h : PInv e0 H y) (hs : Safe e0 H) :
    (y.pc ≠ .idle → ∃ q, mstep y.e y.pc = some q) ∧ ∃ x, y.e.step .log = some x := by
  rcases h with ⟨hid, evs, o, h1, h2⟩ | ⟨hne, evs, g0, op, H0, H1, o, h1, h2, h3, h4⟩
  · refine ⟨fun h => absurd hid h, ?_⟩
    obtain ⟨e, he⟩ := hs (evs ++ [.log]) (by rw [← imuArrivals_eq _ _ h2, imuArr_app]; simp [imuArrivals])
    rw [est_run_app, (grun_spec h1).1] at he
    simp only [Option.bind_some, Estimator.run] at he
    obtain ⟨x, hx, -⟩ := Option.bind_eq_some_iff.mp he
    exact ⟨x, hx⟩
  · have hop := h3.op
    obtain ⟨pre, A, e1, e2, o1, pc0, r1, r2, r3, r4, r5, r6, r7⟩ := h3
    have hord : imuArrivals (evs ++ (pre ++ op :: A)) = imuArrivals H := by
      apply imuArrivals_eq
      rw [h4]
      exact h2.append (SameOrder.call op hop.1 r6 hop.2)
    have hg1 : g0.1.run pre = some e1 := (grun_spec r1).1
    have hg0 : e0.run evs = some g0.1 := (grun_spec h1).1
    refine ⟨fun _ => ?_, ?_⟩
    · obtain ⟨e, he⟩ := hs _ hord
      rw [est_run_app, hg0, Option.bind_some, est_run_app, hg1] at he
      simp only [Option.bind_some, Estimator.run] at he
      obtain ⟨x, hx, -⟩ := Option.bind_eq_some_iff.mp he
      have hf : full e2 y.pc = some x := by rw [← r3.full, full_start r2]; exact hx
      rw [full_step _ hne] at hf
      obtain ⟨q, hq, -⟩ := Option.bind_eq_some_iff.mp hf
      exact after_def A hne r5 r4 hq
    · obtain ⟨e, he⟩ := hs (evs ++ (pre ++ .log :: op :: A)) (by
        rw [← hord]; simp [imuArr_app, imuArrivals])
      rw [est_run_app, hg0, Option.bind_some, est_run_app, hg1] at he
      simp only [Option.bind_some, Estimator.run] at he
      obtain ⟨x, hx, -⟩ := Option.bind_eq_some_iff.mp he
      have hl : y.e.log = e1.log := by
        rw [grun_logger (fun a ha => (r5 a ha).imp fun r h => ⟨h.1, fun h' => done_log hne (h' ▸ h.2)⟩) r4, r3.logger hne]
      simp only [Estimator.step, Option.map_eq_some_iff] at hx ⊢
      obtain ⟨l, hl2, -⟩ := hx
      exact ⟨_, l, by rw [hl]; exact hl2, rfl⟩

/-! ### The mutexes -/

/-- who holds what -/
structure LockInv (y : Sys) : Prop where
  enter : y.ph = .enter → ∀ r, y.own r ≠ some .main
  inside : y.ph = .inside → ∃ r, lockOf y.e y.pc = some r ∧ y.own r = some .main ∧ ∀ r', y.own r' = some .main → r' = r
  leave : ∀ r, y.ph = .leave r → y.own r = some .main ∧ ∀ r', y.own r' = some .main → r' = r
  other : ∀ r ev, y.own r = some (.other ev) → res ev = some r

theorem lockOf_step {e x : Estimator} {ev : EstEv} {r : Res} (hr : res ev = some r) (hs : e.step ev = some x) (pc : PC) :
    lockOf x pc = lockOf e pc := by
  cases ev <;> simp only [res, Option.some.injEq, reduceCtorEq] at hr <;> simp only [Estimator.step] at hs
  · obtain rfl := Option.some.inj hs; rfl
  · obtain rfl := Option.some.inj hs; cases pc <;> simp [lockOf]
  · obtain rfl := Option.some.inj hs; cases pc <;> simp [lockOf]
  · simp only [Option.map_eq_some_iff] at hs
    obtain ⟨l, hl, rfl⟩ := hs
    cases pc <;> simp [lockOf, (iter_enabled hl).1]
  · obtain rfl := Option.some.inj hs; rfl

theorem LockInv.init (e : Estimator) : LockInv (Sys.init e) where
  enter := by simp [Sys.init]
  inside := by simp [Sys.init]
  leave := by simp [Sys.init]
  other := by simp [Sys.init]

theorem setOwn_same (own : Res → Option Holder) (r : Res) (o : Option Holder) : setOwn own r o r = o := by simp [setOwn]
theorem setOwn_ne (own : Res → Option Holder) {r r' : Res} (h : r' ≠ r) (o : Option Holder) : setOwn own r o r' = own r' := by
  simp [setOwn, h]

theorem LockInv.act {y y' : Sys} {a : Act} (i : LockInv y) (h : y.act a = some y') : LockInv y' := by
  obtain ⟨e, pc, ph, own⟩ := y
  obtain ⟨i1, i2, i3, i4⟩ := i
  simp only at i1 i2 i3 i4
  cases a with
  | call op =>
    simp only [Sys.act] at h
    cases pc <;> cases ph <;> simp only [reduceCtorEq, Option.map_eq_some_iff] at h
    obtain ⟨pc', h1, rfl⟩ := h
    exact ⟨i1, by simp, by simp, i4⟩
  | main =>
    simp only [Sys.act] at h
    cases ph with
    | enter =>
      simp only at h
      cases hl : lockOf e pc with
      | none =>
        rw [hl] at h
        simp only [Option.map_eq_some_iff] at h
        obtain ⟨q, hq, rfl⟩ := h
        exact ⟨i1, by simp, by simp, i4⟩
      | some r =>
        rw [hl] at h
        simp only at h
        cases ho : own r with
        | some x => rw [ho] at h; cases h
        | none =>
          rw [ho] at h; obtain rfl := Option.some.inj h
          refine ⟨by simp, fun _ => ⟨r, hl, setOwn_same _ _ _, fun r' h' => ?_⟩, by simp, fun r' ev h' => ?_⟩
          · by_contra hne
            dsimp only at h'; rw [setOwn_ne _ hne] at h'
            exact i1 rfl r' h'
          · by_cases hne : r' = r
            · subst hne; dsimp only at h'; rw [setOwn_same] at h'; cases h'
            · dsimp only at h'; rw [setOwn_ne _ hne] at h'; exact i4 r' ev h'
    | inside =>
      simp only at h
      cases hl : lockOf e pc with
      | none => rw [hl] at h; cases h
      | some r =>
        rw [hl] at h
        simp only [Option.map_eq_some_iff] at h
        obtain ⟨q, hq, rfl⟩ := h
        obtain ⟨r1, h1, h2, h3⟩ := i2 rfl
        rw [hl] at h1
        obtain rfl := Option.some.inj h1
        refine ⟨by simp, by simp, fun r' hr' => ?_, i4⟩
        simp only [Phase.leave.injEq] at hr'
        subst hr'
        exact ⟨h2, h3⟩
    | leave r =>
      obtain rfl := Option.some.inj h
      obtain ⟨h1, h2⟩ := i3 r rfl
      refine ⟨fun _ r' h' => ?_, by simp, by simp, fun r' ev h' => ?_⟩
      · by_cases hne : r' = r
        · subst hne; dsimp only at h'; rw [setOwn_same] at h'; cases h'
        · dsimp only at h'; rw [setOwn_ne _ hne] at h'; exact hne (h2 r' h')
      · by_cases hne : r' = r
        · subst hne; dsimp only at h'; rw [setOwn_same] at h'; cases h'
        · dsimp only at h'; rw [setOwn_ne _ hne] at h'; exact i4 r' ev h'
  | lock ev =>
    simp only [Sys.act] at h
    cases hr : res ev with
    | none => rw [hr] at h; cases h
    | some r =>
      rw [hr] at h
      simp only at h
      cases ho : own r with
      | some x => rw [ho] at h; cases h
      | none =>
        rw [ho] at h; obtain rfl := Option.some.inj h
        have key : ∀ r', setOwn own r (some (.other ev)) r' = some .main ↔ own r' = some .main := by
          intro r'
          by_cases hne : r' = r
          · subst hne; rw [setOwn_same, ho]; simp
          · rw [setOwn_ne _ hne]
        refine ⟨fun h1 r' h' => i1 h1 r' ((key r').mp h'), fun h1 => ?_, fun r' h1 => ?_, fun r' ev' h' => ?_⟩
        · obtain ⟨r1, q1, q2, q3⟩ := i2 h1
          exact ⟨r1, q1, (key r1).mpr q2, fun r' h' => q3 r' ((key r').mp h')⟩
        · obtain ⟨q2, q3⟩ := i3 r' h1
          exact ⟨(key r').mpr q2, fun r' h' => q3 r' ((key r').mp h')⟩
        · by_cases hne : r' = r
          · subst hne
            simp only [setOwn_same, Option.some.injEq, Holder.other.injEq] at h'
            rw [← h']; exact hr
          · simp only [setOwn_ne _ hne] at h'; exact i4 r' ev' h'
  | work ev =>
    simp only [Sys.act] at h
    cases hr : res ev with
    | none => rw [hr] at h; cases h
    | some r =>
      rw [hr] at h
      simp only at h
      cases ho : own r with
      | none => rw [ho] at h; cases h
      | some x =>
        rw [ho] at h
        cases x <;> simp only [reduceCtorEq] at h
        split_ifs at h
        simp only [Option.map_eq_some_iff] at h
        obtain ⟨e', h1, rfl⟩ := h
        have hlk := lockOf_step hr h1 pc
        have key : ∀ r', setOwn own r (some .otherDone) r' = some .main ↔ own r' = some .main := by
          intro r'
          by_cases hne : r' = r
          · subst hne; rw [setOwn_same, ho]; simp
          · rw [setOwn_ne _ hne]
        refine ⟨fun h1 r' h' => i1 h1 r' ((key r').mp h'), fun h1 => ?_, fun r' h1 => ?_, fun r' ev' h' => ?_⟩
        · obtain ⟨r1, q1, q2, q3⟩ := i2 h1
          exact ⟨r1, by rw [← q1]; exact hlk, (key r1).mpr q2, fun r' h' => q3 r' ((key r').mp h')⟩
        · obtain ⟨q2, q3⟩ := i3 r' h1
          exact ⟨(key r').mpr q2, fun r' h' => q3 r' ((key r').mp h')⟩
        · by_cases hne : r' = r
          · subst hne
            simp [setOwn_same] at h'
          · simp only [setOwn_ne _ hne] at h'; exact i4 r' ev' h'
  | unlock r =>
    simp only [Sys.act] at h
    cases ho : own r with
    | none => rw [ho] at h; cases h
    | some x =>
      rw [ho] at h
      cases x <;> simp only [reduceCtorEq] at h
      obtain rfl := Option.some.inj h
      have key : ∀ r', setOwn own r none r' = some .main ↔ own r' = some .main := by
        intro r'
        by_cases hne : r' = r
        · subst hne; rw [setOwn_same, ho]; simp
        · rw [setOwn_ne _ hne]
      refine ⟨fun h1 r' h' => i1 h1 r' ((key r').mp h'), fun h1 => ?_, fun r' h1 => ?_, fun r' ev' h' => ?_⟩
      · obtain ⟨r1, q1, q2, q3⟩ := i2 h1
        exact ⟨r1, q1, (key r1).mpr q2, fun r' h' => q3 r' ((key r').mp h')⟩
      · obtain ⟨q2, q3⟩ := i3 r' h1
        exact ⟨(key r').mpr q2, fun r' h' => q3 r' ((key r').mp h')⟩
      · by_cases hne : r' = r
        · subst hne; simp [setOwn_same] at h'
        · simp only [setOwn_ne _ hne] at h'; exact i4 r' ev' h'

theorem LockInv.run (acts : List Act) : ∀ {y y' : Sys}, LockInv y → y.run acts = some y' → LockInv y' := by
  induction acts with
  | nil => intro y y' h hr; obtain rfl := Option.some.inj hr; exact h
  | cons a l ih =>
    intro y y' h hr
    simp only [Sys.run, Option.bind_eq_some_iff] at hr
    obtain ⟨y1, h1, h2⟩ := hr
    exact ih (h.act h1) h2

/-- what is ready and defined is possible -/
theorem ready_possible {y : Sys} (i : LockInv y) (h1 : y.pc ≠ .idle → ∃ q, mstep y.e y.pc = some q)
    (h2 : ∃ x, y.e.step .log = some x) {a : Act} (hr : Ready y a) : ∃ y', y.act a = some y' := by
  obtain ⟨e, pc, ph, own⟩ := y
  obtain ⟨i1, i2, i3, i4⟩ := i
  simp only at i1 i2 i3 i4 h1 h2
  cases a with
  | call op =>
    obtain ⟨rfl, rfl, hop⟩ := hr
    simp only [Sys.act]
    rcases hop with rfl | ⟨rfl, hp⟩
    · exact ⟨_, rfl⟩
    · simp only at hp
      simp [start, hp]
  | main =>
    simp only [Ready] at hr
    cases ph with
    | enter =>
      rcases hr with ⟨r, hr⟩ | ⟨hpc, hr⟩
      · cases hr
      · simp only [Sys.act]
        cases hl : lockOf e pc with
        | none => obtain ⟨q, hq⟩ := h1 hpc; exact ⟨_, by simp [hq]; rfl⟩
        | some r => simp [hr rfl r hl]
    | inside =>
      obtain ⟨r, hl, -⟩ := i2 rfl
      have hpc : pc ≠ .idle := by rintro rfl; cases hl
      obtain ⟨q, hq⟩ := h1 hpc
      exact ⟨_, by simp [Sys.act, hl, hq]; rfl⟩
    | leave r => exact ⟨_, rfl⟩
  | lock ev =>
    obtain ⟨r, hr, ho⟩ := hr
    simp only at ho
    exact ⟨_, by simp [Sys.act, hr, ho]; rfl⟩
  | work ev =>
    obtain ⟨r, hr, ho⟩ := hr
    simp only at ho
    have : ∃ x, e.step ev = some x := by
      by_cases hl : r = .log
      · subst hl
        cases ev <;> simp [res] at hr
        exact h2
      · exact (step_total hr hl).imp fun _ h => h.1
    obtain ⟨x, hx⟩ := this
    exact ⟨_, by simp [Sys.act, hr, ho, hx]; rfl⟩
  | unlock r =>
    simp only [Ready] at hr
    exact ⟨_, by simp [Sys.act, hr]; rfl⟩

end Thr
end Drift
