import Verif.Lemmas.Thr2

/-!
# Every interleaving is explained by a history of whole calls
-/
namespace Drift
open RobotState
namespace Thr

/-- an estimator with the states its publisher got -/
abbrev G := Estimator × List RobotState

noncomputable def gstep (g : G) (ev : EstEv) : Option G := (g.1.step ev).map fun x => (x, g.2 ++ taken g.1 ev)

noncomputable def grun : G → List EstEv → Option G
  | g, [] => some g
  | g, ev :: evs => (gstep g ev).bind fun g' => grun g' evs

theorem grun_append (g : G) (l l' : List EstEv) : grun g (l ++ l') = (grun g l).bind fun g' => grun g' l' := by
  induction l generalizing g with
  | nil => rfl
  | cons a l ih =>
    simp only [List.cons_append, grun]
    cases gstep g a with
    | none => rfl
    | some g' => simp [ih]

theorem grun_spec {g g' : G} {evs : List EstEv} (h : grun g evs = some g') :
    g.1.run evs = some g'.1 ∧ g'.2 = g.2 ++ takenIn g.1 evs := by
  induction evs generalizing g with
  | nil => obtain rfl := Option.some.inj h; exact ⟨rfl, by simp [takenIn]⟩
  | cons a l ih =>
    simp only [grun, Option.bind_eq_some_iff] at h
    obtain ⟨g1, h1, h2⟩ := h
    simp only [gstep, Option.map_eq_some_iff] at h1
    obtain ⟨x, hx, rfl⟩ := h1
    obtain ⟨h3, h4⟩ := ih h2
    refine ⟨by simp [Estimator.run, hx, h3], ?_⟩
    rw [h4]; simp [takenIn, hx]

theorem taken_ne {e : Estimator} {ev : EstEv} {r : Res} (hr : res ev = some r) (h : r ≠ .out) : taken e ev = [] := by
  cases ev <;> simp [res] at hr <;> subst hr <;> first | rfl | exact absurd rfl h

theorem step_outQ {e x : Estimator} {ev : EstEv} {r : Res} (hr : res ev = some r) (h : r ≠ .out) (hs : e.step ev = some x) :
    x.outQ = e.outQ := by
  cases ev <;> simp only [res, Option.some.injEq, reduceCtorEq] at hr <;> subst hr <;> simp only [Estimator.step] at hs
  · obtain rfl := Option.some.inj hs; rfl
  · obtain rfl := Option.some.inj hs; rfl
  · obtain rfl := Option.some.inj hs; rfl
  · simp only [Option.map_eq_some_iff] at hs; obtain ⟨_, -, rfl⟩ := hs; rfl
  · exact absurd rfl h

theorem taken_congr {e e' : Estimator} (h : e.outQ = e'.outQ) (ev : EstEv) : taken e ev = taken e' ev := by
  cases ev <;> simp [taken, h]

/-- accesses to different queues commute -/
theorem gstep_comm {g g1 g2 : G} {a b : EstEv} {r r' : Res} (ha : res a = some r) (hb : res b = some r') (h : r ≠ r')
    (h1 : gstep g a = some g1) (h2 : gstep g1 b = some g2) : ∃ g1', gstep g b = some g1' ∧ gstep g1' a = some g2 := by
  obtain ⟨e, o⟩ := g
  simp only [gstep, Option.map_eq_some_iff] at h1
  obtain ⟨x, hx, rfl⟩ := h1
  simp only [gstep, Option.map_eq_some_iff] at h2
  obtain ⟨z, hz, rfl⟩ := h2
  have hc := step_comm e ha hb h
  rw [hx, Option.bind_some, hz] at hc
  obtain ⟨w, hw, hw2⟩ := Option.bind_eq_some_iff.mp hc.symm
  refine ⟨(w, o ++ taken e b), by simp [gstep, hw], ?_⟩
  simp only [gstep, hw2, Option.map_some, Option.some.injEq, Prod.mk.injEq, true_and]
  by_cases ho : r = .out
  · have ho' : r' ≠ .out := fun h' => h (ho.trans h'.symm)
    rw [taken_ne hb ho', taken_ne hb ho', taken_congr (step_outQ hb ho' hw) a]
    simp
  · rw [taken_ne ha ho, taken_ne ha ho, taken_congr (step_outQ ha ho hx) b]
    simp

/-- move one access to the front of accesses to other queues -/
theorem grun_comm {r : Res} {ev : EstEv} (hr : res ev = some r) (A : List EstEv) (hA : ∀ a ∈ A, ∃ r', res a = some r' ∧ r' ≠ r)
    {g g1 g2 : G} (h1 : grun g A = some g1) (h2 : gstep g1 ev = some g2) :
    ∃ g', gstep g ev = some g' ∧ grun g' A = some g2 := by
  induction A generalizing g with
  | nil => obtain rfl := Option.some.inj h1; exact ⟨g2, h2, rfl⟩
  | cons a A ih =>
    simp only [grun, Option.bind_eq_some_iff] at h1
    obtain ⟨g3, h3, h4⟩ := h1
    obtain ⟨g', h5, h6⟩ := ih (fun b hb => hA b (List.mem_cons_of_mem _ hb)) h4
    obtain ⟨r', hr', hne⟩ := hA a (by simp)
    obtain ⟨g'', h7, h8⟩ := gstep_comm hr' hr hne h3 h5
    exact ⟨g'', h7, by simp [grun, h8, h6]⟩

/-- the queues with which the present call is done -/
def Done : PC → Res → Prop
  | .idle, _ => True
  | .corr _ _ _, .imu => True
  | .corr i _ _, .corr j => j < i
  | .initCorrPeek _, .imu => True
  | .initCorrPeek i, .corr j => j < i
  | .initCorr _, .imu => True
  | .initCorr i, .corr j => j < i
  | .clearCorr _, .imu => True
  | .clearCorr i, .corr j => j < i
  | .out, .imu => True
  | .out, .corr _ => True
  | .finish, .imu => True
  | .finish, .corr _ => True
  | .clearOut, .imu => True
  | .clearOut, .corr _ => True
  | .log, .log => False
  | .log, _ => True
  | .clearLog, .log => False
  | .clearLog, _ => True
  | _, _ => False

theorem done_indep {e : Estimator} {pc : PC} {r : Res} (h : Done pc r) (hpc : pc ≠ .idle) : lockOf e pc ≠ some r ∧ ¬ Peeks pc r := by
  cases pc <;> cases r <;> simp_all [Done, lockOf, Peeks] <;> omega

/-- one step of the main thread with the publisher's record -/
noncomputable def gm (g : G) (pc : PC) : Option (G × PC) := (mstep g.1 pc).map fun q => ((q.1, g.2), q.2)

/-- what a step of the main thread can lead to -/
theorem mstep_next {e e' : Estimator} {pc pc' : PC} (h : mstep e pc = some (e', pc')) :
    match pc with
    | .idle => False
    | .prop => ∃ b, pc' = .corr 0 b false
    | .corr i b again => (e.corrs[i]? = none ∧ e' = e ∧ pc' = if b then .out else .idle) ∨
        (∃ b', pc' = .corr (i + 1) b' false) ∨
        ∃ c c', e.corrs[i]? = some c ∧ corrSect again c e.heap e.state = some (.again c') ∧
          e' = { e with corrs := e.corrs.set i c' } ∧ pc' = .corr i b true
    | .out => pc' = .log
    | .log => pc' = .idle
    | .bias => pc' = .idle
    | .initPeek => e' = e ∧ ((e.prop.buffer = [] ∧ pc' = .idle) ∨ (e.prop.buffer ≠ [] ∧ pc' = .initPop))
    | .initPop => pc' = .initCorrPeek 0
    | .initCorrPeek i => (e' = e ∧ pc' = .finish ∧ e.corrs[i]? = none) ∨ pc' = .idle ∨
        (e' = e ∧ pc' = .initCorr i ∧ ∃ c, e.corrs[i]? = some c ∧ corrEmpty c = false)
    | .initCorr i => pc' = .initCorrPeek (i + 1)
    | .finish => pc' = .idle
    | .clearProp => pc' = .clearCorr 0
    | .clearCorr i => pc' = .clearOut ∨ pc' = .clearCorr (i + 1)
    | .clearOut => pc' = .clearLog
    | .clearLog => pc' = .idle := by
  cases pc with
  | idle => cases h
  | prop =>
    simp only [mstep, Option.map_eq_some_iff, Prod.mk.injEq] at h
    obtain ⟨r, -, -, rfl⟩ := h
    exact ⟨_, rfl⟩
  | corr i b again =>
    simp only [mstep] at h
    cases hc : e.corrs[i]? with
    | none =>
      rw [hc] at h
      simp only [Option.some.injEq, Prod.mk.injEq] at h
      exact Or.inl ⟨hc, h.1.symm, h.2.symm⟩
    | some c =>
      rw [hc] at h
      simp only [Option.map_eq_some_iff] at h
      obtain ⟨r, hr, h⟩ := h
      cases r with
      | done b' c' hp s => simp only [Prod.mk.injEq] at h; exact Or.inr (Or.inl ⟨_, h.2.symm⟩)
      | again c' =>
        simp only [Prod.mk.injEq] at h
        exact Or.inr (Or.inr ⟨c, c', hc, hr, h.1.symm, h.2.symm⟩)
  | out => simp only [mstep, Option.some.injEq, Prod.mk.injEq] at h; exact h.2.symm
  | log => simp only [mstep, Option.some.injEq, Prod.mk.injEq] at h; exact h.2.symm
  | bias => simp only [mstep, Option.map_eq_some_iff, Prod.mk.injEq] at h; obtain ⟨_, -, -, rfl⟩ := h; rfl
  | initPeek =>
    simp only [mstep, Option.some.injEq, Prod.mk.injEq] at h
    refine ⟨h.1.symm, ?_⟩
    cases hb : e.prop.buffer with
    | nil => left; rw [hb] at h; exact ⟨rfl, by simpa using h.2.symm⟩
    | cons a l => right; rw [hb] at h; exact ⟨by simp, by simpa using h.2.symm⟩
  | initPop =>
    simp only [mstep] at h
    cases hb : e.prop.buffer with
    | nil => rw [hb] at h; cases h
    | cons a l =>
      rw [hb] at h
      simp only [Option.map_eq_some_iff, Prod.mk.injEq] at h; obtain ⟨_, -, -, rfl⟩ := h; rfl
  | initCorrPeek i =>
    simp only [mstep] at h
    cases hc : e.corrs[i]? with
    | none =>
      rw [hc] at h
      simp only [Option.some.injEq, Prod.mk.injEq] at h
      exact Or.inl ⟨h.1.symm, h.2.symm, hc⟩
    | some c =>
      rw [hc] at h
      simp only [Option.some.injEq] at h
      split_ifs at h with hemp
      · simp only [Prod.mk.injEq] at h; exact Or.inr (Or.inl h.2.symm)
      · simp only [Prod.mk.injEq] at h; exact Or.inr (Or.inr ⟨h.1.symm, h.2.symm, c, hc, by simpa using hemp⟩)
  | initCorr i =>
    simp only [mstep] at h
    cases hc : e.corrs[i]? with
    | none => rw [hc] at h; cases h
    | some c =>
      rw [hc] at h
      simp only at h
      split_ifs at h
      simp only [Option.map_eq_some_iff, Prod.mk.injEq] at h; obtain ⟨_, -, -, rfl⟩ := h; rfl
  | finish => simp only [mstep, Option.map_eq_some_iff, Prod.mk.injEq] at h; obtain ⟨_, -, -, rfl⟩ := h; rfl
  | clearProp => simp only [mstep, Option.some.injEq, Prod.mk.injEq] at h; exact h.2.symm
  | clearCorr i =>
    simp only [mstep] at h
    cases hc : e.corrs[i]? with
    | none => rw [hc] at h; simp only [Option.some.injEq, Prod.mk.injEq] at h; exact Or.inl h.2.symm
    | some c => rw [hc] at h; simp only [Option.some.injEq, Prod.mk.injEq] at h; exact Or.inr h.2.symm
  | clearOut => simp only [mstep, Option.some.injEq, Prod.mk.injEq] at h; exact h.2.symm
  | clearLog => simp only [mstep, Option.some.injEq, Prod.mk.injEq] at h; exact h.2.symm

theorem done_mono {e e' : Estimator} {pc pc' : PC} {r : Res} (h : mstep e pc = some (e', pc')) (hd : Done pc r) : Done pc' r := by
  have hn := mstep_next h
  cases pc with
  | idle => exact hn.elim
  | corr i b again =>
    rcases hn with ⟨-, -, rfl⟩ | ⟨b', rfl⟩ | ⟨_, _, -, -, -, rfl⟩
    · cases b <;> cases r <;> simp_all [Done]
    · cases r <;> simp_all [Done]; omega
    · cases r <;> simp_all [Done]
  | initCorrPeek i =>
    rcases hn with ⟨-, rfl, -⟩ | rfl | ⟨-, rfl, -⟩ <;> cases r <;> simp_all [Done]
  | clearCorr i =>
    rcases hn with rfl | rfl <;> cases r <;> simp_all [Done]; omega
  | initPeek => rcases hn with ⟨-, ⟨-, rfl⟩ | ⟨-, rfl⟩⟩ <;> cases r <;> simp_all [Done]
  | prop => obtain ⟨b, rfl⟩ := hn; cases r <;> simp_all [Done]
  | initCorr i => simp only at hn; subst hn; cases r <;> simp_all [Done]; omega
  | _ => simp only at hn; subst hn; cases r <;> simp_all [Done]

theorem corrEmpty_push (c : Corr) (m : VelMeas) (m' : LegMeas) (h : corrEmpty c = false) :
    corrEmpty (c.pushVel m) = false ∧ corrEmpty (c.pushLeg m') = false := by
  cases c <;> simp_all [corrEmpty, Corr.pushVel, Corr.pushLeg]

theorem corrSect_push {again : Bool} {c c' : Corr} {h : Heap} {s : RobotState} (hs : corrSect again c h s = some (.again c'))
    (m : VelMeas) (m' : LegMeas) : corrSect again (c.pushVel m) h s = some (.again (c'.pushVel m)) ∧
      corrSect again (c.pushLeg m') h s = some (.again (c'.pushLeg m')) := by
  cases c with
  | vel c =>
    obtain ⟨et, bu, cov, th, R, sc⟩ := c
    cases bu with
    | nil => simp [corrSect, velSect] at hs
    | cons front rest =>
      cases ht : s.tProp with
      | none => simp [corrSect, velSect, ht] at hs
      | some tp =>
        simp only [corrSect, velSect, ht, Option.bind_eq_bind, Option.bind_some] at hs
        split_ifs at hs with h0 h1
        · simp at hs
        · simp only [Option.some.injEq, Sect.again.injEq] at hs
          subst hs
          constructor <;>
            simp only [corrSect, velSect, Corr.pushVel, Corr.pushLeg, ht, Option.bind_eq_bind, Option.bind_some, List.cons_append] <;>
            rw [if_neg h0, if_pos h1]
        · simp [Option.bind_eq_some_iff] at hs
  | leg c =>
    obtain ⟨et, bu, es, ks, cn, th, ids⟩ := c
    cases bu with
    | nil => simp [corrSect, legSect] at hs
    | cons front rest =>
      cases ht : s.tProp with
      | none => simp [corrSect, legSect, ht] at hs
      | some tp =>
        simp only [corrSect, legSect, ht, Option.bind_eq_bind, Option.bind_some] at hs
        split_ifs at hs with h1
        · simp only [Option.some.injEq, Sect.again.injEq] at hs
          subst hs
          constructor <;>
            simp only [corrSect, legSect, Corr.pushVel, Corr.pushLeg, ht, Option.bind_eq_bind, Option.bind_some, List.cons_append] <;>
            rw [if_pos h1]
        · simp [Option.bind_eq_some_iff] at hs

/-- an access to a queue with which the call is not done after a step could as well have come before the step -/
theorem before {e e' x' : Estimator} {pc pc' : PC} {ev : EstEv} {r : Res} (hm : mstep e pc = some (e', pc')) (hr : res ev = some r)
    (hd : ¬ Done pc' r) (hs : e'.step ev = some x') : ∃ x, e.step ev = some x ∧ mstep x pc = some (x', pc') := by
  by_cases hind : lockOf e pc ≠ some r ∧ ¬ Peeks pc r
  · have hc := mstep_comm hr hind.1 hind.2
    rw [hm] at hc
    simp only [Option.bind_some, hs, Option.map_some] at hc
    exact Option.bind_eq_some_iff.mp hc
  · have hn := mstep_next hm
    cases pc with
    | idle => exact hn.elim
    | prop =>
      obtain ⟨b, rfl⟩ := hn
      cases r <;> simp_all [Done, lockOf, Peeks]
    | corr i b again =>
      have hri : r = .corr i ∧ i < e.corrs.length := by
        cases r with
        | corr j =>
          simp only [lockOf, Peeks, not_false_eq_true, and_true, not_not, ne_eq] at hind
          split_ifs at hind with hi
          · simp only [Option.some.injEq, Res.corr.injEq] at hind; exact ⟨by rw [hind], hi⟩
        | _ => exact absurd ⟨by simp [lockOf]; try split_ifs <;> simp, by simp [Peeks]⟩ hind
      obtain ⟨rfl, hi⟩ := hri
      rcases hn with ⟨h1, -⟩ | ⟨b', rfl⟩ | ⟨c, c', hc, hsc, rfl, rfl⟩
      · rw [List.getElem?_eq_none_iff] at h1; omega
      · exact absurd (by simp [Done]) hd
      · cases ev <;> simp only [res, Option.some.injEq, reduceCtorEq, Res.corr.injEq] at hr
        · subst hr
          rename_i j m
          simp only [Estimator.step, Option.some.injEq] at hs
          subst hs
          refine ⟨_, rfl, ?_⟩
          have hg : (e.corrs.modify j (Corr.pushVel m))[j]? = some (c.pushVel m) := by simp [List.getElem?_modify, hc]
          simp only [mstep, hg, (corrSect_push hsc m ⟨0, [], id⟩).1, Option.map_some, Option.some.injEq, Prod.mk.injEq, and_true]
          congr 1
          apply List.ext_getElem?; intro k
          simp only [List.getElem?_set, List.getElem?_modify, List.length_modify]
          by_cases hk : j = k
          · subst hk; simp [hi]
          · simp [hk]
        · subst hr
          rename_i j m
          simp only [Estimator.step, Option.some.injEq] at hs
          subst hs
          refine ⟨_, rfl, ?_⟩
          have hg : (e.corrs.modify j (Corr.pushLeg m))[j]? = some (c.pushLeg m) := by simp [List.getElem?_modify, hc]
          simp only [mstep, hg, (corrSect_push hsc ⟨0, 0⟩ m).2, Option.map_some, Option.some.injEq, Prod.mk.injEq, and_true]
          congr 1
          apply List.ext_getElem?; intro k
          simp only [List.getElem?_set, List.getElem?_modify, List.length_modify]
          by_cases hk : j = k
          · subst hk; simp [hi]
          · simp [hk]
    | initPeek =>
      cases r <;> simp only [lockOf, Peeks, ne_eq, reduceCtorEq, not_false_eq_true, and_true, not_true_eq_false, and_false] at hind
      obtain ⟨rfl, hn⟩ := hn
      rcases hn with ⟨-, rfl⟩ | ⟨hb, rfl⟩
      · exact absurd trivial hd
      · cases ev <;> simp only [res, Option.some.injEq, reduceCtorEq] at hr
        simp only [Estimator.step, Option.some.injEq] at hs
        subst hs
        exact ⟨_, rfl, by simp [mstep]⟩
    | initCorrPeek i =>
      cases r <;> simp only [lockOf, Peeks, ne_eq, reduceCtorEq, not_false_eq_true, and_true, not_true_eq_false, and_false,
        true_and, not_not] at hind
      subst hind
      rcases hn with ⟨-, rfl, -⟩ | rfl | ⟨rfl, rfl, c, hc, hemp⟩
      · exact absurd trivial hd
      · exact absurd trivial hd
      · cases ev <;> simp only [res, Option.some.injEq, reduceCtorEq, Res.corr.injEq] at hr
        · subst hr
          rename_i j m
          simp only [Estimator.step, Option.some.injEq] at hs
          subst hs
          refine ⟨_, rfl, ?_⟩
          have hg : (e'.corrs.modify j (Corr.pushVel m))[j]? = some (c.pushVel m) := by simp [List.getElem?_modify, hc]
          simp [mstep, hg, (corrEmpty_push c m ⟨0, [], id⟩ hemp).1]
        · subst hr
          rename_i j m
          simp only [Estimator.step, Option.some.injEq] at hs
          subst hs
          refine ⟨_, rfl, ?_⟩
          have hg : (e'.corrs.modify j (Corr.pushLeg m))[j]? = some (c.pushLeg m) := by simp [List.getElem?_modify, hc]
          simp [mstep, hg, (corrEmpty_push c ⟨0, 0⟩ m hemp).2]
    | clearCorr i =>
      rcases hn with rfl | rfl
      · cases r <;> simp_all [Done, lockOf, Peeks]
      · cases r <;> simp only [lockOf, Peeks] at hind <;> simp_all [Done]
    | initCorr i =>
      simp only at hn; subst hn
      cases r <;> simp_all [Done, lockOf, Peeks]
    | _ => simp only at hn; subst hn; cases r <;> simp_all [Done, lockOf, Peeks]

end Thr
end Drift
