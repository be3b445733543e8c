import Verif.Lemmas.Sys8

/-! # Lemmas: routing of the data, message by message -/
set_option linter.unusedSimpArgs false
namespace Drift
open Mat Matrix RobotState

/-- what the subscriber remembers of the history, and where its queues lead -/
structure Route (P : Program) (past : List SysEv) (s : RosSub) (w : List (ℕ × Port)) : Prop where
  wires : w = wiresOf s.subs P.topics
  prev : ∀ (i : ℕ) (b : Bound), s.subs[i]? = some b → b.kind.isOdom = true → s.prevOdom b.src = (lastOdom i past).map Ros.odomOf
  mount : ∀ x ∈ P.topics, ∀ tr rot, x.1 = .odom tr rot → s.srcToBody = Ros.mount tr rot

theorem lastOdom_quiet {i : ℕ} {ev : SysEv} (past : List SysEv) (h : ∀ m, ev ≠ .msg i (.odom m)) : lastOdom i (past ++ [ev]) = lastOdom i past := by
  unfold lastOdom
  rw [List.filterMap_append]
  rw [List.filterMap_cons, List.filterMap_nil]
  cases ev with
  | msg j m =>
    cases m with
    | odom m =>
      have : j ≠ i := by rintro rfl; exact h m rfl
      simp [this]
    | _ => simp
  | _ => simp

theorem lastOdom_odom {i : ℕ} (m : OdomMsg) (past : List SysEv) : lastOdom i (past ++ [.msg i (.odom m)]) = some m := by
  unfold lastOdom
  rw [List.filterMap_append]
  simp

theorem topic_of {P : Program} {s : RosSub} (hk : s.subs.map Bound.kind = P.topics.map (·.1)) {i : ℕ} {b : Bound} (hb : s.subs[i]? = some b) :
    ∃ x, P.topics[i]? = some x ∧ x.1 = b.kind := by
  have := congrArg (·[i]?) hk
  simp only [List.getElem?_map, hb, Option.map_some] at this
  rw [eq_comm, Option.map_eq_some_iff] at this
  exact this

theorem no_topic {P : Program} {s : RosSub} (hk : s.subs.map Bound.kind = P.topics.map (·.1)) {i : ℕ} (hb : s.subs[i]? = none) :
    P.topics[i]? = none := by
  have := congrArg (·[i]?) hk
  simp only [List.getElem?_map, hb, Option.map_none] at this
  rw [eq_comm, Option.map_eq_none_iff] at this
  exact this

theorem deliver_route {P : Program} {mlog : M4 → M4} {i : ℕ} {m : RosMsg} {fut past : List SysEv} {s s' : RosSub} {w : List (ℕ × Port)}
    (h : SubInv P (.msg i m :: fut) s w) (r : Route P past s w) (hm : ∀ x, P.topics[i]? = some x → MsgOK x.1 m)
    (hs : s.step mlog (.deliver i m) = some s') :
    System.fresh w s' = reaches mlog P past i m ∧ Route P (past ++ [.msg i m]) { s' with queues := s'.queues.map fun _ => [] } w := by
  have silent : ∀ q : ℕ, s.queues[q]?.getD [] = [] := by
    intro q
    cases hq : s.queues[q]? with
    | none => rfl
    | some l => exact h.queues l (List.mem_of_getElem? hq)
  simp only [RosSub.step] at hs
  obtain ⟨bo, hb⟩ : ∃ bo, s.subs[i]? = bo := ⟨_, rfl⟩
  rw [hb] at hs
  cases bo with
  | none =>
    obtain rfl := Option.some.inj hs
    refine ⟨?_, r.wires, fun j c hc ho => ?_, r.mount⟩
    · unfold reaches
      rw [no_topic h.kinds hb]
      unfold System.fresh
      simp [silent]
    · have hji : i ≠ j := by rintro rfl; simp only at hc; rw [hb] at hc; cases hc
      rw [lastOdom_quiet _ (by rintro m' e; injection e with e1 e2; exact hji e1)]
      exact r.prev j c hc ho
  | some b =>
    obtain ⟨x, hx, hxk⟩ := topic_of h.kinds hb
    have hM := hm x hx
    have hbq : b.q ∈ b.qs := by unfold Bound.qs; split_ifs <;> simp
    have hbq2 : b.kind.two = true → b.q2 ∈ b.qs := by intro ht; unfold Bound.qs; simp [ht]
    have hlt := (h.wired.lt i b hb).1
    have hnd := (h.wired.lt i b hb).2.2.1
    -- the queues of the other subscriptions
    have other : ∀ (s' : RosSub), (∀ q : ℕ, q ∉ b.qs → s'.queues[q]?.getD [] = []) → ∀ (j : ℕ) c, s.subs[j]? = some c → j ≠ i →
        s'.queues[c.q]?.getD [] = [] ∧ (∀ y, P.topics[j]? = some y → y.1.two = true → s'.queues[c.q2]?.getD [] = []) := by
      intro s' hq j c hc hj
      have hd := (h.wired.disj j i c b hj hc hb).1
      refine ⟨hq _ (hd _ (by unfold Bound.qs; split_ifs <;> simp)), fun y hy ht => hq _ (hd _ ?_)⟩
      obtain ⟨y', hy', hyk⟩ := topic_of h.kinds hc
      rw [hy] at hy'
      obtain rfl := Option.some.inj hy'
      rw [hyk] at ht
      unfold Bound.qs; simp [ht]
    by_cases ho : b.kind.isOdom = true
    · obtain ⟨tr, rot, hkk⟩ : ∃ tr rot, b.kind = .odom tr rot := by
        cases hkk : b.kind <;> rw [hkk] at ho <;> simp [SubKind.isOdom] at ho
        exact ⟨_, _, rfl⟩
      obtain ⟨k, p1, p2⟩ := x
      simp only at hxk
      rw [hkk] at hxk
      subst hxk
      cases m with
      | odom om =>
        simp only at hs
        rw [RosSub.callback_odom mlog s b hkk om, r.prev i b hb ho] at hs
        have hmt := r.mount _ (List.mem_of_getElem? hx) tr rot rfl
        -- the memory afterwards
        have mem : ∀ s' : RosSub, s'.subs = s.subs → s'.prevOdom = Function.update s.prevOdom b.src (some (Ros.odomOf om)) → s'.srcToBody = s.srcToBody →
            Route P (past ++ [.msg i (.odom om)]) { s' with queues := s'.queues.map fun _ => [] } w := by
          intro s' e1 e2 e3
          refine ⟨by rw [e1]; exact r.wires, fun j c hc ho' => ?_, by rw [e3]; exact r.mount⟩
          simp only [e1] at hc
          simp only [e2]
          by_cases hij : i = j
          · subst hij
            rw [hb] at hc
            obtain rfl := Option.some.inj hc
            rw [lastOdom_odom, Function.update_self]
            rfl
          · have hsrc := h.wired.srcDisj i j b c hij hb hc ho ho'
            rw [Function.update_of_ne (Ne.symm hsrc), lastOdom_quiet _ (by rintro m' e; injection e with e1 e2; exact hij e1)]
            exact r.prev j c hc ho'
        unfold reaches
        rw [hx]
        simp only
        obtain ⟨lo, hlo⟩ : ∃ lo, lastOdom i past = lo := ⟨_, rfl⟩
        rw [hlo] at hs ⊢
        cases lo with
        | none =>
          simp only [Option.map_none] at hs
          obtain rfl := Option.some.inj hs
          refine ⟨?_, mem _ rfl rfl rfl⟩
          unfold System.fresh
          simp [silent]
        | some m0 =>
          simp only [Option.map_some, Option.bind_eq_bind, Option.bind_eq_some_iff] at hs
          obtain ⟨T, hT, v, hv, hs⟩ := hs
          rw [hmt] at hT
          obtain rfl := Option.some.inj hs
          refine ⟨?_, mem _ rfl rfl rfl⟩
          rw [hT]
          simp only [hv, Option.toList_some, List.map_cons, List.map_nil]
          rw [r.wires, fresh_wiresOf s.subs P.topics _ i b _ hb hx]
          · simp only [SubKind.two, Bool.false_eq_true, if_false, List.append_nil, RosSub.push, List.getElem?_modify, if_true]
            rw [List.getElem?_eq_getElem (hlt _ hbq)]
            have := silent b.q
            rw [List.getElem?_eq_getElem (hlt _ hbq)] at this
            simp only [Option.getD_some] at this
            simp [this]
          · refine other _ (fun q hq => ?_)
            have hne : b.q ≠ q := by rintro rfl; exact hq hbq
            simp only [RosSub.push, List.getElem?_modify, if_neg hne]
            simpa using silent q
      | _ => simp [MsgOK] at hM
    · have hof : b.kind.isOdom = false := by simpa using ho
      simp only at hs
      rw [RosSub.callback_plain mlog s b hof] at hs
      simp only [Option.map_eq_some_iff] at hs
      obtain ⟨p, hp, rfl⟩ := hs
      obtain ⟨k, p1, p2⟩ := x
      simp only at hxk
      subst hxk
      have hreach : reaches mlog P past i m = p.1.map (fun x => (p1, x)) ++ p.2.map fun x => (p2, x) := by
        unfold reaches
        rw [hx]
        obtain ⟨a, c⟩ := p
        cases hkk : b.kind <;> rw [hkk] at hp hof <;> first
          | (simp [SubKind.isOdom] at hof; done)
          | simp only [hp]
      refine ⟨?_, ?_, ?_, ?_⟩
      · rw [hreach, r.wires, fresh_wiresOf s.subs P.topics _ i b _ hb hx]
        · have e0 := silent b.q
          rw [List.getElem?_eq_getElem (hlt _ hbq)] at e0
          simp only [Option.getD_some] at e0
          by_cases ht : b.kind.two = true
          · have hne : b.q ≠ b.q2 := by
              unfold Bound.qs at hnd
              rw [if_pos ht] at hnd
              simpa using hnd
            have e2 := silent b.q2
            rw [List.getElem?_eq_getElem (hlt _ (hbq2 ht))] at e2
            simp only [Option.getD_some] at e2
            simp only [ht, if_true, RosSub.push, List.getElem?_modify, if_neg hne, if_neg hne.symm]
            rw [List.getElem?_eq_getElem (hlt _ hbq), List.getElem?_eq_getElem (hlt _ (hbq2 ht))]
            simp [e0, e2]
          · have h2 := RosSub.convert_two (by simpa using ht) hp
            simp only [ht, Bool.false_eq_true, if_false, RosSub.push, List.getElem?_modify, h2, List.append_nil]
            rw [List.getElem?_eq_getElem (hlt _ hbq)]
            split_ifs <;> simp [e0]
        · refine other _ (fun q hq => ?_)
          have hne' : b.q ≠ q := by rintro rfl; exact hq hbq
          by_cases ht : b.kind.two = true
          · have hne2 : b.q2 ≠ q := by rintro rfl; exact hq (hbq2 ht)
            simp only [RosSub.push, List.getElem?_modify, if_neg hne', if_neg hne2]
            simpa using silent q
          · have := RosSub.convert_two (by simpa using ht) hp
            simp only [RosSub.push, List.getElem?_modify, if_neg hne', this, List.append_nil]
            split_ifs <;> simpa using silent q
      · exact r.wires
      · intro j c hc ho'
        have hne : ∀ m', SysEv.msg i m ≠ .msg j (.odom m') := by
          rintro m' e
          injection e with e1 e2
          subst e1
          have hc' : s.subs[i]? = some c := hc
          rw [hb] at hc'
          obtain rfl := Option.some.inj hc'
          rw [hof] at ho'; simp at ho'
        rw [lastOdom_quiet _ hne]
        exact r.prev j c hc ho'
      · exact r.mount

end Drift
