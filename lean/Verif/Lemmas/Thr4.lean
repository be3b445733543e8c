import Verif.Lemmas.Thr3

/-!
# Every interleaving is explained by a history of whole calls: the simulation
-/
namespace Drift
open RobotState
namespace Thr

/-- steps of the main thread inside a call -/
inductive MR : Estimator → PC → Estimator → PC → Prop
  | refl (e pc) : MR e pc e pc
  | tail {e pc e1 pc1 e2 pc2} (h : MR e pc e1 pc1) (hm : mstep e1 pc1 = some (e2, pc2)) : MR e pc e2 pc2

theorem mstep_ne {e : Estimator} {pc : PC} {q : Estimator × PC} (h : mstep e pc = some q) : pc ≠ .idle := by
  rintro rfl; cases h

theorem MR.full {e pc e' pc'} (h : MR e pc e' pc') : Thr.full e pc = Thr.full e' pc' := by
  induction h with
  | refl => rfl
  | tail h hm ih => rw [ih, full_step _ (mstep_ne hm), hm]; rfl

theorem outQ_before {e e' : Estimator} {pc pc' : PC} (hm : mstep e pc = some (e', pc')) (hd : ¬ Done pc' .out) : e'.outQ = e.outQ := by
  by_cases hl : lockOf e pc = some .out
  · have hn := mstep_next hm
    cases pc <;> simp only [lockOf] at hl <;> (try simp at hl) <;> simp only at hn <;>
      (try (subst hn; exact absurd trivial hd)) <;> split_ifs at hl <;> simp at hl
  · exact mstep_outQ hl hm

theorem MR.before {e pc0 e2 pc} (h : MR e pc0 e2 pc) {ev : EstEv} {r : Res} (hr : res ev = some r) (hd : ¬ Done pc r)
    {x2 : Estimator} (hs : e2.step ev = some x2) :
    ∃ x, e.step ev = some x ∧ MR x pc0 x2 pc ∧ taken e ev = taken e2 ev := by
  induction h generalizing x2 with
  | refl => exact ⟨x2, hs, .refl _ _, rfl⟩
  | tail h hm ih =>
    obtain ⟨x1, h1, h2⟩ := Thr.before hm hr hd hs
    obtain ⟨x, h3, h4, h5⟩ := ih (fun h' => hd (done_mono hm h')) h1
    refine ⟨x, h3, h4.tail h2, h5.trans ?_⟩
    by_cases ho : r = .out
    · subst ho; exact (taken_congr (outQ_before hm hd) ev).symm
    · rw [taken_ne hr ho, taken_ne hr ho]

/-- a step of the main thread could as well have come before accesses to queues with which the call is done -/
theorem after {pc pc' : PC} (A : List EstEv) (hpc : pc ≠ .idle) (hA : ∀ a ∈ A, ∃ r, res a = some r ∧ Done pc r) {e : Estimator}
    {o : List RobotState} {b : Estimator} {o' : List RobotState} {c : Estimator} (h : grun (e, o) A = some (b, o'))
    (hm : mstep b pc = some (c, pc')) : ∃ d, mstep e pc = some (d, pc') ∧ grun (d, o) A = some (c, o') := by
  induction A generalizing e o with
  | nil =>
    obtain ⟨rfl, rfl⟩ := Prod.mk.inj (Option.some.inj h)
    exact ⟨c, hm, rfl⟩
  | cons a A ih =>
    simp only [grun, Option.bind_eq_some_iff, gstep, Option.map_eq_some_iff] at h
    obtain ⟨_, ⟨x, hx, rfl⟩, h2⟩ := h
    obtain ⟨d, h3, h4⟩ := ih (fun b hb => hA b (List.mem_cons_of_mem _ hb)) h2
    obtain ⟨r, hr, hd⟩ := hA a (by simp)
    obtain ⟨hl, hp⟩ := done_indep (e := e) hd hpc
    have hc := mstep_comm hr hl hp
    rw [hx, Option.bind_some, h3] at hc
    obtain ⟨q, hq, hq2⟩ := Option.bind_eq_some_iff.mp hc.symm
    simp only [Option.map_eq_some_iff, Prod.mk.injEq] at hq2
    obtain ⟨z, hz, rfl, rfl⟩ := hq2
    refine ⟨q.1, hq, ?_⟩
    have ht : taken q.1 a = taken e a := by
      by_cases ho : r = .out
      · subst ho; exact taken_congr (mstep_outQ hl hq) a
      · rw [taken_ne hr ho, taken_ne hr ho]
    simp only [grun, gstep, hz, Option.map_some, Option.bind_some, ht]
    exact h4

theorem start_ne {e : Estimator} {op : EstEv} {pc : PC} (h : start e op = some pc) : pc ≠ .idle ∧ res op = none := by
  cases op <;> simp only [start, reduceCtorEq] at h
  · obtain rfl := Option.some.inj h
    refine ⟨?_, rfl⟩
    cases e.pending with
    | some i => simp
    | none => simp only; split_ifs <;> simp
  · refine ⟨?_, rfl⟩
    cases hp : e.pending with
    | some i => rw [hp] at h; cases h
    | none => rw [hp] at h; obtain rfl := Option.some.inj h; simp

theorem start_step {e x : Estimator} {ev : EstEv} {r : Res} (hr : res ev = some r) (hs : e.step ev = some x) (op : EstEv) :
    start x op = start e op := by
  cases ev <;> simp only [res, Option.some.injEq, reduceCtorEq] at hr <;> simp only [Estimator.step] at hs
  · obtain rfl := Option.some.inj hs; rfl
  · obtain rfl := Option.some.inj hs; rfl
  · obtain rfl := Option.some.inj hs; rfl
  · simp only [Option.map_eq_some_iff] at hs; obtain ⟨_, -, rfl⟩ := hs; rfl
  · obtain rfl := Option.some.inj hs; rfl

theorem SameOrder.refl (l : List EstEv) : SameOrder l l := ⟨rfl, fun _ => rfl⟩

theorem SameOrder.trans {a b c : List EstEv} (h : SameOrder a b) (h' : SameOrder b c) : SameOrder a c :=
  ⟨h.1.trans h'.1, fun r => (h.2 r).trans (h'.2 r)⟩

theorem SameOrder.append {a b a' b' : List EstEv} (h : SameOrder a b) (h' : SameOrder a' b') : SameOrder (a ++ a') (b ++ b') := by
  refine ⟨?_, fun r => ?_⟩
  · rw [List.filter_append, List.filter_append, h.1, h'.1]
  · rw [List.filter_append, List.filter_append, h.2 r, h'.2 r]

theorem SameOrder.move {ev : EstEv} {r : Res} (hr : res ev = some r) {A : List EstEv}
    (hA : ∀ a ∈ A, ∃ r', res a = some r' ∧ r' ≠ r) : SameOrder (ev :: A) (A ++ [ev]) := by
  refine ⟨?_, fun q => ?_⟩
  · rw [List.filter_append, List.filter_cons_of_neg (by simp [hr]), List.filter_cons_of_neg (by simp [hr])]; simp
  · by_cases hq : q = r
    · subst hq
      have : A.filter (fun a => decide (res a = some q)) = [] := by
        rw [List.filter_eq_nil_iff]
        intro a ha
        obtain ⟨r', h1, h2⟩ := hA a ha
        simp [h1, h2]
      rw [List.filter_append, this]
      simp [hr, this]
    · have : (decide (res ev = some q)) = false := by simp [hr, Ne.symm hq]
      simp [List.filter_append, this]

/-- inside a call `op` that began in `g0`; `H` is what other threads did since -/
def Mid (g0 : G) (op : EstEv) (e : Estimator) (o : List RobotState) (pc : PC) (H : List EstEv) : Prop :=
  ∃ (pre A : List EstEv) (e1 e2 : Estimator) (o1 : List RobotState) (pc0 : PC),
    grun g0 pre = some (e1, o1) ∧ start e1 op = some pc0 ∧ MR e1 pc0 e2 pc ∧ grun (e2, o1) A = some (e, o) ∧
    (∀ a ∈ A, ∃ r, res a = some r ∧ Done pc r) ∧ SameOrder (pre ++ A) H ∧ ∀ a ∈ H, res a ≠ none

theorem Mid.start {e : Estimator} {o : List RobotState} {op : EstEv} {pc : PC} (h : Thr.start e op = some pc) : Mid (e, o) op e o pc [] :=
  ⟨[], [], e, e, o, pc, rfl, h, .refl _ _, rfl, by simp, .refl _, by simp⟩

open Classical in
theorem Mid.work {g0 op e o pc H} (h : Mid g0 op e o pc H) {ev : EstEv} {r : Res} (hr : res ev = some r) {x : Estimator}
    (hs : e.step ev = some x) : Mid g0 op x (o ++ taken e ev) pc (H ++ [ev]) := by
  obtain ⟨pre, A, e1, e2, o1, pc0, h1, h2, h3, h4, h5, h6, h7⟩ := h
  have h7' : ∀ a ∈ H ++ [ev], res a ≠ none := by
    intro a ha
    rcases List.mem_append.mp ha with ha | ha
    · exact h7 a ha
    · rw [List.mem_singleton.mp ha, hr]; simp
  by_cases hd : Done pc r
  · refine ⟨pre, A ++ [ev], e1, e2, o1, pc0, h1, h2, h3, ?_, ?_, ?_, h7'⟩
    · rw [grun_append, h4]; simp [grun, gstep, hs]
    · intro a ha
      rcases List.mem_append.mp ha with ha | ha
      · exact h5 a ha
      · rw [List.mem_singleton.mp ha]; exact ⟨r, hr, hd⟩
    · rw [← List.append_assoc]; exact h6.append (.refl _)
  · have hA : ∀ a ∈ A, ∃ r', res a = some r' ∧ r' ≠ r := by
      intro a ha
      obtain ⟨r', h8, h9⟩ := h5 a ha
      exact ⟨r', h8, fun h' => hd (h' ▸ h9)⟩
    obtain ⟨g', h8, h9⟩ := grun_comm hr A hA h4 (show gstep (e, o) ev = some (x, o ++ taken e ev) by simp [gstep, hs])
    simp only [gstep, Option.map_eq_some_iff] at h8
    obtain ⟨x2, h10, rfl⟩ := h8
    obtain ⟨x1, h11, h12, h13⟩ := h3.before hr hd h10
    refine ⟨pre ++ [ev], A, x1, x2, o1 ++ taken e2 ev, pc0, ?_, (start_step hr h11 op).trans h2, h12, h9, h5, ?_, h7'⟩
    · rw [grun_append, h1]; simp [grun, gstep, h11, h13]
    · have := (SameOrder.refl pre).append (SameOrder.move hr hA)
      rw [List.append_assoc, List.singleton_append]
      refine this.trans ?_
      rw [← List.append_assoc]; exact h6.append (.refl _)

theorem Mid.main {g0 op e o pc H} (h : Mid g0 op e o pc H) {e' : Estimator} {pc' : PC} (hm : mstep e pc = some (e', pc')) :
    Mid g0 op e' o pc' H := by
  obtain ⟨pre, A, e1, e2, o1, pc0, h1, h2, h3, h4, h5, h6, h7⟩ := h
  obtain ⟨d, h8, h9⟩ := after A (mstep_ne hm) h5 h4 hm
  exact ⟨pre, A, e1, d, o1, pc0, h1, h2, h3.tail h8, h9, fun a ha => (h5 a ha).imp fun r h => ⟨h.1, done_mono h8 h.2⟩, h6, h7⟩

theorem taken_op {e : Estimator} {op : EstEv} (h : res op = none) : taken e op = [] := by
  cases op <;> simp_all [res, taken]

theorem Mid.ret {g0 op e o H} (h : Mid g0 op e o .idle H) :
    ∃ pre post, grun g0 (pre ++ op :: post) = some (e, o) ∧ SameOrder (pre ++ post) H := by
  obtain ⟨pre, A, e1, e2, o1, pc0, h1, h2, h3, h4, h5, h6, h7⟩ := h
  refine ⟨pre, A, ?_, h6⟩
  have h8 : e1.step op = some e2 := by rw [← full_start h2, h3.full]; rfl
  rw [grun_append, h1]
  simp only [Option.bind_some, grun, gstep, h8, Option.map_some, taken_op (start_ne h2).2, List.append_nil]
  exact h4

/-! ### One action -/

theorem act_call {y y' : Sys} {op : EstEv} (h : y.act (.call op) = some y') :
    y.pc = .idle ∧ y'.e = y.e ∧ start y.e op = some y'.pc := by
  obtain ⟨e, pc, ph, own⟩ := y
  simp only [Sys.act] at h
  cases pc <;> cases ph <;> simp only [reduceCtorEq, Option.map_eq_some_iff] at h
  obtain ⟨pc', h1, rfl⟩ := h
  exact ⟨rfl, rfl, h1⟩

theorem act_main {y y' : Sys} (h : y.act .main = some y') :
    (y'.e = y.e ∧ y'.pc = y.pc) ∨ mstep y.e y.pc = some (y'.e, y'.pc) := by
  obtain ⟨e, pc, ph, own⟩ := y
  simp only [Sys.act] at h
  cases ph with
  | enter =>
    simp only at h
    cases hl : lockOf e pc with
    | none =>
      rw [hl] at h
      simp only [Option.map_eq_some_iff] at h
      obtain ⟨q, hq, rfl⟩ := h
      exact Or.inr hq
    | some r =>
      rw [hl] at h
      simp only at h
      cases ho : own r with
      | none => rw [ho] at h; obtain rfl := Option.some.inj h; exact Or.inl ⟨rfl, rfl⟩
      | some x => rw [ho] at h; cases h
  | inside =>
    simp only at h
    cases hl : lockOf e pc with
    | none => rw [hl] at h; cases h
    | some r =>
      rw [hl] at h
      simp only [Option.map_eq_some_iff] at h
      obtain ⟨q, hq, rfl⟩ := h
      exact Or.inr hq
  | leave r => obtain rfl := Option.some.inj h; exact Or.inl ⟨rfl, rfl⟩

theorem act_work {y y' : Sys} {ev : EstEv} (h : y.act (.work ev) = some y') :
    (∃ r, res ev = some r) ∧ y.e.step ev = some y'.e ∧ y'.pc = y.pc := by
  obtain ⟨e, pc, ph, own⟩ := y
  simp only [Sys.act] at h
  cases hr : res ev with
  | none => rw [hr] at h; cases h
  | some r =>
    rw [hr] at h
    simp only at h
    cases ho : own r with
    | none => rw [ho] at h; cases h
    | some x =>
      rw [ho] at h
      cases x <;> simp only [reduceCtorEq] at h
      split_ifs at h
      simp only [Option.map_eq_some_iff] at h
      obtain ⟨e', h1, rfl⟩ := h
      exact ⟨⟨r, rfl⟩, h1, rfl⟩

theorem act_lock {y y' : Sys} {ev : EstEv} (h : y.act (.lock ev) = some y') : y'.e = y.e ∧ y'.pc = y.pc := by
  obtain ⟨e, pc, ph, own⟩ := y
  simp only [Sys.act] at h
  cases hr : res ev with
  | none => rw [hr] at h; cases h
  | some r =>
    rw [hr] at h
    simp only at h
    cases ho : own r with
    | none => rw [ho] at h; obtain rfl := Option.some.inj h; exact ⟨rfl, rfl⟩
    | some x => rw [ho] at h; cases h

theorem act_unlock {y y' : Sys} {r : Res} (h : y.act (.unlock r) = some y') : y'.e = y.e ∧ y'.pc = y.pc := by
  obtain ⟨e, pc, ph, own⟩ := y
  simp only [Sys.act] at h
  cases ho : own r with
  | none => rw [ho] at h; cases h
  | some x =>
    rw [ho] at h
    cases x <;> simp only [reduceCtorEq] at h
    obtain rfl := Option.some.inj h; exact ⟨rfl, rfl⟩

theorem isIdle_iff (pc : PC) : pc.isIdle = true ↔ pc = .idle := by cases pc <;> simp [PC.isIdle]

/-! ### The simulation -/

/-- what the simulation shows of an execution from `y` to `y'` -/
def Sim (y : Sys) (o : List RobotState) (acts : List Act) (y' : Sys) : Prop :=
    (y.pc = .idle → ∃ evs, grun (y.e, o) evs = some (y'.e, o ++ takenBy y acts) ∧ Explains evs (trace y acts)) ∧
    (∀ g0 op H, y.pc ≠ .idle → Mid g0 op y.e o y.pc H → ∃ pre post H1 ms evs,
      trace y acts = H1.map .ev ++ .ret :: ms ∧ grun g0 (pre ++ op :: post ++ evs) = some (y'.e, o ++ takenBy y acts) ∧
      SameOrder (pre ++ post) (H ++ H1) ∧ (∀ a ∈ H ++ H1, res a ≠ none) ∧ Explains evs ms)

theorem sim (acts : List Act) : ∀ (y : Sys) (o : List RobotState) (y' : Sys), y.run acts = some y' → y'.pc = .idle →
    Sim y o acts y' := by
  induction acts with
  | nil =>
    intro y o y' h hi
    obtain rfl := Option.some.inj h
    exact ⟨fun _ => ⟨[], by simp [grun, takenBy], .nil⟩, fun _ _ _ h1 => absurd hi h1⟩
  | cons a acts ih =>
    intro y o y' h hi
    simp only [Sys.run, Option.bind_eq_some_iff] at h
    obtain ⟨y1, h1, h2⟩ := h
    have htr : trace y (a :: acts) = mark y a ++ trace y1 acts := by simp only [trace, h1]
    have htk : takenBy y (a :: acts) = takenAt y a ++ takenBy y1 acts := by simp only [takenBy, h1]
    -- steps that change neither the estimator nor the place of the main thread
    have same : y1.e = y.e → y1.pc = y.pc → mark y a = [] → takenAt y a = [] → Sim y o (a :: acts) y' := fun e1 e2 e3 e4 => by
      have := ih y1 o y' h2 hi
      unfold Sim at this ⊢
      rw [htr, htk, e3, e4, List.nil_append, List.nil_append, ← e1, ← e2]
      exact this
    cases a with
    | call op =>
      obtain ⟨p1, p2, p3⟩ := act_call h1
      refine ⟨fun _ => ?_, fun _ _ _ hne => absurd p1 hne⟩
      have hne := (start_ne p3).1
      obtain ⟨pre, post, H1, ms, evs, q1, q2, q3, q4, q5⟩ := (ih y1 o y' h2 hi).2 (y.e, o) op [] hne (by rw [p2]; exact Mid.start p3)
      refine ⟨pre ++ op :: post ++ evs, by rw [htk]; exact q2, ?_⟩
      rw [htr, q1]
      exact Explains.call (start_ne p3).2 (by simpa using q3) (by simpa using q4) q5
    | main =>
      rcases act_main h1 with ⟨e1, e2⟩ | hm
      · exact same e1 e2 (by simp [mark, h1, e2]) rfl
      · refine ⟨fun hid => absurd hid (mstep_ne hm), fun g0 op H hne hM => ?_⟩
        have hM' := hM.main hm
        by_cases hid : y1.pc = .idle
        · have hmk : mark y .main = [.ret] := by
            have : y.pc.isIdle = false := by
              have := mt (isIdle_iff y.pc).mp hne
              simpa using this
            simp [mark, h1, (isIdle_iff y1.pc).mpr hid, this]
          rw [hid] at hM'
          obtain ⟨pre, post, r1, r2⟩ := hM'.ret
          obtain ⟨evs, r3, r4⟩ := (ih y1 o y' h2 hi).1 hid
          refine ⟨pre, post, [], trace y1 acts, evs, by rw [htr, hmk]; rfl, ?_, by simpa using r2, ?_, r4⟩
          · rw [grun_append, r1, htk]; exact r3
          · obtain ⟨_, _, _, _, _, _, _, _, _, _, _, _, h7⟩ := hM
            simpa using h7
        · have hmk : mark y .main = [] := by
            have : y1.pc.isIdle = false := by
              have := mt (isIdle_iff y1.pc).mp hid
              simpa using this
            simp [mark, h1, this]
          obtain ⟨pre, post, H1, ms, evs, q⟩ := (ih y1 o y' h2 hi).2 g0 op H hid hM'
          refine ⟨pre, post, H1, ms, evs, ?_⟩
          rw [htr, hmk, htk]; exact q
    | lock ev => obtain ⟨e1, e2⟩ := act_lock h1; exact same e1 e2 rfl rfl
    | work ev =>
      obtain ⟨⟨r, hr⟩, hs, hpc⟩ := act_work h1
      refine ⟨fun hid => ?_, fun g0 op H hne hM => ?_⟩
      · obtain ⟨evs, r3, r4⟩ := (ih y1 (o ++ taken y.e ev) y' h2 hi).1 (hpc.trans hid)
        refine ⟨ev :: evs, ?_, by rw [htr]; exact .ev r4⟩
        simp only [grun, gstep, hs, Option.map_some, Option.bind_some, htk]
        rw [r3, List.append_assoc]; rfl
      · obtain ⟨pre, post, H1, ms, evs, q1, q2, q3, q4, q5⟩ :=
          (ih y1 (o ++ taken y.e ev) y' h2 hi).2 g0 op (H ++ [ev]) (by rw [hpc]; exact hne) (by rw [hpc]; exact hM.work hr hs)
        refine ⟨pre, post, ev :: H1, ms, evs, by rw [htr, q1]; rfl, ?_, by simpa using q3, by simpa using q4, q5⟩
        rw [q2, htk, List.append_assoc]; rfl
    | unlock r => obtain ⟨e1, e2⟩ := act_unlock h1; exact same e1 e2 rfl rfl

/-- an explanation keeps all orders -/
theorem Explains.sameOrder {evs : List EstEv} {ms : List Mark} (h : Explains evs ms) : SameOrder evs (begun ms) := by
  induction h with
  | nil => exact .refl _
  | ev h ih => exact (SameOrder.refl [_]).append ih
  | @call op pre post during evs ms ho hd hn h ih =>
    have hb : ∀ (l : List EstEv) ms', begun (l.map .ev ++ .ret :: ms') = l ++ begun ms' := by
      intro l ms'
      induction l with
      | nil => rfl
      | cons a l ihl => simp [begun, ihl]
    have : begun (.call op :: during.map .ev ++ .ret :: ms) = ([op] ++ during) ++ begun ms := by
      simp only [List.cons_append, begun, hb, List.nil_append]
    rw [this]
    refine SameOrder.append ?_ ih
    have hnp : ∀ a ∈ pre, res a ≠ none := by
      intro a ha hr
      have h1 : a ∈ (pre ++ post).filter (fun ev => decide (res ev = none)) :=
        List.mem_filter.mpr ⟨List.mem_append_left _ ha, by simp [hr]⟩
      rw [hd.1] at h1
      exact hn a (List.mem_filter.mp h1).1 hr
    refine ⟨?_, fun r => ?_⟩
    · have e1 : pre.filter (fun ev => decide (res ev = none)) = [] := by
        rw [List.filter_eq_nil_iff]; intro a ha; simp [hnp a ha]
      have e2 := hd.1
      rw [List.filter_append, e1, List.nil_append] at e2
      rw [List.filter_append, List.filter_append, e1, ← e2]
      simp [ho]
    · have hro : decide (res op = some r) = false := by simp [ho]
      have e2 := hd.2 r
      rw [List.filter_append] at e2
      rw [List.filter_append, List.filter_append, ← e2]
      simp [ho]

end Thr
end Drift
