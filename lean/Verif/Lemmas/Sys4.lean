import Verif.Lemmas.Sys3

/-! # Lemmas: the subscriber of a running program -/
set_option linter.unusedSimpArgs false
namespace Drift
open Mat Matrix RobotState

/-- a topic of a program is registered with usable parameters -/
def KindOK : SubKind → Prop
  | .diff2 _ b => b ≠ 0
  | .fetch2 _ b => b ≠ 0
  | .odom tr rot => ∃ T, Ros.mount tr rot = some T ∧ T.det ≠ 0
  | _ => True

/-- the consumers of topic `x` -/
def topicPorts (x : SubKind × Port × Port) : List Port := if x.1.two then [x.2.1, x.2.2] else [x.2.1]

/-- the subscriptions and wires after registering the topics `ts` -/
structure Wires (ts : List (SubKind × Port × Port)) (s : RosSub) (w : List (ℕ × Port)) : Prop where
  wired : s.Wired
  kinds : s.subs.map Bound.kind = ts.map (·.1)
  wlt : ∀ y ∈ w, y.1 < s.queues.length
  ports : ∀ (i : ℕ) (b : Bound) x, s.subs[i]? = some b → ts[i]? = some x → ∀ y ∈ w, y.1 ∈ b.qs → y.2 ∈ topicPorts x
  mount : (∃ b ∈ s.subs, b.kind.isOdom = true) → ∃ T, s.srcToBody = some T ∧ T.det ≠ 0
  prev : ∀ n, s.prevOdom n = none

theorem wires_add {ts : List (SubKind × Port × Port)} {s : RosSub} {w : List (ℕ × Port)} (h : Wires ts s w)
    (x : SubKind × Port × Port) (hx : KindOK x.1) :
    ∃ s' hd, s.add x.1 = some (s', hd) ∧ Wires (ts ++ [x]) s' (w ++ (hd.q, x.2.1) :: if x.1.two then [(hd.q2, x.2.2)] else []) := by
  obtain ⟨k, p, p2⟩ := x
  have H : ∃ r, s.add k = some r := by
    unfold RosSub.add
    cases k <;> simp only [SubKind.two, if_true, Bool.false_eq_true, if_false] <;> first
      | exact ⟨_, rfl⟩
      | (obtain ⟨T, hT, -⟩ := hx
         simp only [hT, Option.bind_eq_bind, Option.bind_some]
         exact ⟨_, rfl⟩)
  obtain ⟨⟨s', hd⟩, e⟩ := H
  refine ⟨s', hd, e, ?_⟩
  have W := RosSub.wired_add h.wired e
  obtain ⟨b, n, hs, hk, hq, -, -, hbq, -, -, -, e1, -, e2, hcase⟩ := RosSub.add_spec e
  have hql : s'.queues.length = s.queues.length + b.qs.length := by rw [hq]; simp
  have hlen : s.subs.length = ts.length := by simpa using congrArg List.length h.kinds
  have hbqs : b.q ∈ b.qs := by unfold Bound.qs; split_ifs <;> simp
  -- the new wires
  have new : ∀ y ∈ ((hd.q, p) :: if k.two then [(hd.q2, p2)] else [] : List (ℕ × Port)), y.1 ∈ b.qs ∧ y.2 ∈ topicPorts (k, p, p2) := by
    intro y hy
    unfold Bound.qs topicPorts
    rw [hk]
    simp only
    rcases List.mem_cons.mp hy with rfl | hy
    · rw [e1]
      split_ifs <;> simp
    · by_cases ht : k.two = true
      · rw [if_pos ht] at hy ⊢
        rw [List.mem_singleton.mp hy, (e2 ht).1]
        simp [ht]
      · rw [if_neg ht] at hy
        simp at hy
  refine ⟨W, ?_, ?_, ?_, ?_, ?_⟩
  · rw [hs]; simp [h.kinds, hk]
  · intro y hy
    rcases List.mem_append.mp hy with hy | hy
    · have := h.wlt y hy; omega
    · have := hbq _ (new y hy).1; omega
  · intro i c x' hc hx' y hy hyc
    rw [hs] at hc
    rcases RosSub.getElem?_snoc hc with ⟨hc, hi⟩ | ⟨hi, rfl⟩
    · rw [List.getElem?_append_left (by omega)] at hx'
      have hcl := (h.wired.lt i c hc).1 _ hyc
      rcases List.mem_append.mp hy with hy | hy
      · exact h.ports i c x' hc hx' y hy hyc
      · have := hbq _ (new y hy).1; omega
    · rw [hi, hlen, List.getElem?_append_right le_rfl] at hx'
      have hx'' : (k, p, p2) = x' := by simpa using hx'
      rcases List.mem_append.mp hy with hy | hy
      · have := h.wlt y hy
        have := hbq _ hyc
        omega
      · rw [← hx'']; exact (new y hy).2
  · rintro ⟨c, hc, ho⟩
    rcases hcase with ⟨hno, -, -, hm⟩ | ⟨tr, rot, T, hk', hT, -, -, -, hm⟩
    · rw [hm]
      rw [hs] at hc
      rcases List.mem_append.mp hc with hc | hc
      · exact h.mount ⟨c, hc, ho⟩
      · rw [List.mem_singleton.mp hc, hk, hno] at ho; simp at ho
    · simp only [hk'] at hx
      obtain ⟨T', hT', hd'⟩ := hx
      rw [hT] at hT'
      rw [hm]
      exact ⟨T, rfl, by rw [Option.some.inj hT']; exact hd'⟩
  · intro m
    rcases hcase with ⟨-, -, hp, -⟩ | ⟨tr, rot, T, -, -, -, -, hp, -⟩
    · rw [hp]; exact h.prev m
    · rw [hp]
      by_cases hm : m = s.srcId
      · subst hm; simp
      · rw [Function.update_of_ne hm]; exact h.prev m

theorem wire_ok (ts : List (SubKind × Port × Port)) : ∀ {done : List (SubKind × Port × Port)} {s : RosSub} {w : List (ℕ × Port)},
    Wires done s w → (∀ x ∈ ts, KindOK x.1) → ∃ s' w', Program.wire ts s w = some (s', w') ∧ Wires (done ++ ts) s' w' := by
  induction ts with
  | nil => intro done s w h _; exact ⟨s, w, rfl, by simpa using h⟩
  | cons x ts ih =>
    intro done s w h hx
    obtain ⟨s1, hd, e, h1⟩ := wires_add h x (hx x (by simp))
    obtain ⟨s2, w2, e2, h2⟩ := ih h1 (fun y hy => hx y (by simp [hy]))
    refine ⟨s2, w2, ?_, by simpa using h2⟩
    obtain ⟨k, p, p2⟩ := x
    simp only [Program.wire, e, Option.bind_eq_bind, Option.bind_some]
    exact e2

theorem wires_init : Wires [] RosSub.init [] :=
  ⟨RosSub.wired_init, rfl, by simp, by simp [RosSub.init], by simp [RosSub.init], fun _ => rfl⟩

/-! ### the pose of an odometry message is invertible -/

theorem pose4_det (R : M3) (p : V3) : (Ros.pose4 R p).det = R.det := by
  rw [Matrix.det_succ_row_zero]
  simp [Ros.pose4, Fin.sum_univ_succ, Matrix.det_fin_three, Matrix.submatrix, Fin.succAbove]
  ring

theorem toRot_det (q : Quat) : q.toRot.det =
    (1 - 2 * (q.x ^ 2 + q.y ^ 2 + q.z ^ 2)) ^ 2 + 4 * q.w ^ 2 * (q.x ^ 2 + q.y ^ 2 + q.z ^ 2) := by
  unfold Quat.toRot
  rw [Matrix.det_fin_three]
  simp
  ring

theorem toRot_det_ne {q : Quat} (h : OriOK q) : q.toRot.det ≠ 0 := by
  rw [toRot_det]
  rcases h with ⟨h1, h2, h3, h4⟩ | h
  · rw [h1, h2, h3, h4]; norm_num
  · intro e
    set v := q.x ^ 2 + q.y ^ 2 + q.z ^ 2 with hv
    have hv0 : 0 ≤ v := by positivity
    have h1 : (1 - 2 * v) ^ 2 = 0 := by nlinarith [sq_nonneg (1 - 2 * v), mul_nonneg (sq_nonneg q.w) hv0]
    have h2 : 1 - 2 * v = 0 := by simpa using h1
    have h3 : v = 1 / 2 := by linarith
    have h4 : q.w ^ 2 = 0 := by rw [h1, h3] at e; linarith
    rw [show q.w ^ 2 + q.x ^ 2 + q.y ^ 2 + q.z ^ 2 - 1 = q.w ^ 2 + v - 1 by rw [hv]; ring, h4, h3] at h
    norm_num [abs_lt] at h

theorem odomOf_det {m : OdomMsg} (h : OriOK m.ori) : (Ros.odomOf m).1.det ≠ 0 := by
  unfold Ros.odomOf
  rw [pose4_det]
  exact toRot_det_ne h

/-! ### a message -/

theorem convert_defined {k : SubKind} {m : RosMsg} (hk : KindOK k) (hm : MsgOK k m) (ho : k.isOdom = false) :
    ∃ p, Ros.convert k m = some p := by
  have imu : ∀ (m : ImuMsg), OriOK m.ori → ∃ r, Ros.imuCb m = some r := by
    intro m h
    unfold Ros.imuCb ImuMeas.set_quaternion
    simp only
    by_cases h0 : m.ori.w ^ 2 + m.ori.x ^ 2 + m.ori.y ^ 2 + m.ori.z ^ 2 ≠ 0
    · rw [if_pos h0]
      rcases h with ⟨h1, h2, h3, h4⟩ | h
      · exact absurd (by rw [h1, h2, h3, h4]; norm_num) h0
      · refine ⟨_, if_neg (not_le.mpr ?_)⟩
        simpa only [← pow_two] using h
    · rw [if_neg h0]; exact ⟨_, rfl⟩
  have w4 : ∀ (m : JointMsg) (r : ℝ), 4 ≤ m.vel.length → ∃ w, Ros.wheels4 m r = some w := by
    intro m r h
    unfold Ros.wheels4
    rw [List.getElem?_eq_getElem (by omega), List.getElem?_eq_getElem (by omega), List.getElem?_eq_getElem (by omega), List.getElem?_eq_getElem (by omega)]
    exact ⟨_, rfl⟩
  have w2 : ∀ (m : JointMsg) (r : ℝ), ¬ m.vel.length ≤ 2 → ∃ w, Ros.wheels2 m r = some w := by
    intro m r h
    unfold Ros.wheels2
    rw [List.getElem?_eq_getElem (by omega), List.getElem?_eq_getElem (by omega)]
    exact ⟨_, rfl⟩
  unfold Ros.convert
  split
  · obtain ⟨r, hr⟩ := imu _ hm
    rw [hr]; exact ⟨_, rfl⟩
  · rename_i m off
    obtain ⟨r, hr⟩ := imu { m with angVel := fun i => m.angVel i + off i } hm
    unfold Ros.fetchImuCb
    rw [hr]; exact ⟨_, rfl⟩
  · exact ⟨_, rfl⟩
  · exact ⟨_, rfl⟩
  · rename_i r m
    obtain ⟨w, hw⟩ := w4 m r hm
    unfold Ros.diff1Cb
    rw [hw]; exact ⟨_, rfl⟩
  · rename_i r b m
    obtain ⟨w, hw⟩ := w4 m r hm
    unfold Ros.diff2Cb
    rw [hw]
    simp only [Option.bind_eq_bind, Option.bind_some]
    rw [if_neg hk]; exact ⟨_, rfl⟩
  · rename_i r m
    unfold Ros.fetch1Cb
    split_ifs with hl
    · exact ⟨_, rfl⟩
    · obtain ⟨w, hw⟩ := w2 m r hl
      rw [hw]; exact ⟨_, rfl⟩
  · rename_i r b m
    unfold Ros.fetch2Cb
    split_ifs with hl hb
    · exact ⟨_, rfl⟩
    · exact absurd hb hk
    · obtain ⟨w, hw⟩ := w2 m r hl
      rw [hw]; exact ⟨_, rfl⟩
  · rename_i c e
    obtain ⟨h1, h2, h3⟩ := hm
    unfold Ros.kinCb Ros.readN
    rw [if_pos h1, if_pos h2, if_pos h3]; exact ⟨_, rfl⟩
  · exact ⟨_, rfl⟩

/-- the subscriber of a running program; `fut` are the events still to come -/
structure SubInv (P : Program) (fut : List SysEv) (s : RosSub) (w : List (ℕ × Port)) : Prop where
  wired : s.Wired
  kinds : s.subs.map Bound.kind = P.topics.map (·.1)
  queues : ∀ q ∈ s.queues, q = []
  ports : ∀ (i : ℕ) (b : Bound) x, s.subs[i]? = some b → P.topics[i]? = some x → ∀ y ∈ w, y.1 ∈ b.qs → y.2 ∈ topicPorts x
  mount : (∃ b ∈ s.subs, b.kind.isOdom = true) → ∃ T, s.srcToBody = some T ∧ T.det ≠ 0
  odom : ∀ (i : ℕ) (b : Bound), s.subs[i]? = some b → b.kind.isOdom = true → (stampsAt i fut).IsChain (· ≠ ·)
  prev : ∀ (i : ℕ) (b : Bound) prev, s.subs[i]? = some b → b.kind.isOdom = true → s.prevOdom b.src = some prev →
    prev.1.det ≠ 0 ∧ (prev.2 :: stampsAt i fut).IsChain (· ≠ ·)

theorem SubInv.quiet {P : Program} {ev : SysEv} {fut : List SysEv} {s : RosSub} {w : List (ℕ × Port)} (h : SubInv P (ev :: fut) s w)
    (hv : ∀ i m, ev ≠ .msg i m) : SubInv P fut s w := by
  have e : ∀ i, stampsAt i (ev :: fut) = stampsAt i fut := by
    intro i
    cases ev with
    | msg j m => exact absurd rfl (hv j m)
    | _ => rfl
  exact ⟨h.wired, h.kinds, h.queues, h.ports, h.mount, fun i b => e i ▸ h.odom i b, fun i b p => e i ▸ h.prev i b p⟩

theorem stampsAt_msg (i j : ℕ) (m : RosMsg) (fut : List SysEv) :
    stampsAt i (.msg j m :: fut) = if j = i then m.sec :: stampsAt i fut else stampsAt i fut := by
  unfold stampsAt
  rw [List.filterMap_cons]
  split_ifs with h
  · simp [h]
  · simp [h]

theorem chain_tail {t : ℝ} {l : List ℝ} (h : (t :: l).IsChain (· ≠ ·)) : l.IsChain (· ≠ ·) := by
  cases l with
  | nil => exact .nil
  | cons a l => exact (List.isChain_cons_cons.mp h).2

theorem stampsAt_tail {i : ℕ} {ev : SysEv} {fut : List SysEv} (h : (stampsAt i (ev :: fut)).IsChain (· ≠ ·)) : (stampsAt i fut).IsChain (· ≠ ·) := by
  cases ev with
  | msg j m =>
    rw [stampsAt_msg] at h
    split_ifs at h
    · exact chain_tail h
    · exact h
  | _ => exact h

/-- a callback is defined, and pushes only into the queues of its topic -/
theorem deliver_ok {P : Program} {mlog : M4 → M4} {i : ℕ} {m : RosMsg} {fut : List SysEv} {s : RosSub} {w : List (ℕ × Port)}
    (h : SubInv P (.msg i m :: fut) s w) (hk : ∀ x ∈ P.topics, KindOK x.1) (hm : ∀ x, P.topics[i]? = some x → MsgOK x.1 m) :
    ∃ s', s.step mlog (.deliver i m) = some s' ∧
      SubInv P fut { s' with queues := s'.queues.map fun _ => [] } w ∧
      (∀ y ∈ System.fresh w s', ∃ x, P.topics[i]? = some x ∧ y.1 ∈ topicPorts x) := by
  have silent : ∀ q : ℕ, s.queues[q]?.getD [] = [] := by
    intro q
    cases hq : s.queues[q]? with
    | none => rfl
    | some l => exact h.queues l (List.mem_of_getElem? hq)
  obtain ⟨bo, hb⟩ : ∃ bo, s.subs[i]? = bo := ⟨_, rfl⟩
  cases bo with
  | none =>
    refine ⟨s, by simp only [RosSub.step, hb], ?_, ?_⟩
    · refine ⟨⟨fun j c hc => ?_, h.wired.disj, h.wired.src, h.wired.srcDisj⟩, h.kinds, by simp, h.ports, h.mount, fun j b hj ho => stampsAt_tail (h.odom j b hj ho), fun j b p hj ho hp => ?_⟩
      · obtain ⟨a1, a2, a3⟩ := h.wired.lt j c hc
        exact ⟨by simpa using a1, a2, a3⟩
      · have hji : i ≠ j := by rintro rfl; rw [hb] at hj; cases hj
        have := h.prev j b p hj ho hp
        rwa [stampsAt_msg, if_neg hji] at this
    · intro y hy
      simp only [System.fresh, List.mem_flatMap, List.mem_map] at hy
      obtain ⟨z, -, e, he, -⟩ := hy
      rw [silent z.1] at he
      simp at he
  | some b =>
    have hx : ∃ x, P.topics[i]? = some x ∧ x.1 = b.kind := by
      have := congrArg (·[i]?) h.kinds
      simp only [List.getElem?_map, hb, Option.map_some] at this
      rw [eq_comm, Option.map_eq_some_iff] at this
      exact this
    obtain ⟨x, hx, hxk⟩ := hx
    have hM := hm x hx
    have hK := hk x (List.mem_of_getElem? hx)
    rw [hxk] at hM hK
    -- what remains to be shown
    suffices H : ∃ s', s.callback mlog b m = some s' ∧ s'.subs = s.subs ∧ s'.queues.length = s.queues.length ∧ s'.nMutex = s.nMutex ∧
        s'.srcId = s.srcId ∧ s'.srcToBody = s.srcToBody ∧
        (∀ q : ℕ, q ∉ b.qs → s'.queues[q]?.getD [] = []) ∧
        ((b.kind.isOdom = false ∧ s'.prevOdom = s.prevOdom) ∨
          (b.kind.isOdom = true ∧ ∃ o : M4 × ℝ, o.1.det ≠ 0 ∧ o.2 = m.sec ∧ s'.prevOdom = Function.update s.prevOdom b.src (some o))) by
      obtain ⟨s', c0, c1, c2, c3, c4, c5, c6, c7⟩ := H
      refine ⟨s', by simp only [RosSub.step, hb]; exact c0, ?_, ?_⟩
      · refine ⟨⟨fun j c hc => ?_, fun j k c d hjk hc hd => ?_, fun j c hc ho => ?_, fun j k c d hjk hc hd => ?_⟩, ?_, by simp, fun j c x' hc => ?_, ?_, fun j c hj ho => ?_, fun j c p hj ho hp => ?_⟩
        · rw [c1] at hc
          obtain ⟨a1, a2, a3⟩ := h.wired.lt j c hc
          refine ⟨?_, ?_, a3⟩
          · simp only [List.length_map, c2]; exact a1
          · simp only [c3]; exact a2
        · rw [c1] at hc hd
          exact h.wired.disj j k c d hjk hc hd
        · rw [c1] at hc
          simp only [c4]
          exact h.wired.src j c hc ho
        · rw [c1] at hc hd
          exact h.wired.srcDisj j k c d hjk hc hd
        · simp only [c1]; exact h.kinds
        · rw [c1] at hc
          exact h.ports j c x' hc
        · simp only [c1, c5]; exact h.mount
        · rw [c1] at hj
          exact stampsAt_tail (h.odom j c hj ho)
        · rw [c1] at hj
          have old : i ≠ j → s.prevOdom c.src = some p → p.1.det ≠ 0 ∧ (p.2 :: stampsAt j fut).IsChain (· ≠ ·) := by
            intro hij hp
            have := h.prev j c p hj ho hp
            rwa [stampsAt_msg, if_neg hij] at this
          rcases c7 with ⟨hno, c7⟩ | ⟨hod, o, o1, o2, c7⟩
          · refine old ?_ (by rw [← c7]; exact hp)
            rintro rfl
            rw [hb] at hj
            rw [← Option.some.inj hj, hno] at ho
            simp at ho
          · by_cases hij : i = j
            · subst hij
              rw [hb] at hj
              have hbc : b = c := Option.some.inj hj
              subst hbc
              have hp' : s'.prevOdom b.src = some p := hp
              rw [c7, Function.update_self] at hp'
              rw [← Option.some.inj hp', o2]
              have := h.odom i b hb hod
              rw [stampsAt_msg, if_pos rfl] at this
              exact ⟨o1, this⟩
            · have hsrc := h.wired.srcDisj i j b c hij hb hj hod ho
              have hp' : s'.prevOdom c.src = some p := hp
              rw [c7, Function.update_of_ne (Ne.symm hsrc)] at hp'
              exact old hij hp'
      · intro y hy
        refine ⟨x, hx, ?_⟩
        simp only [System.fresh, List.mem_flatMap, List.mem_map] at hy
        obtain ⟨z, hz, e, he, rfl⟩ := hy
        by_cases hzq : z.1 ∈ b.qs
        · exact h.ports i b x hb hx z hz hzq
        · rw [c6 _ hzq] at he
          simp at he
    -- the callback
    have hbq : b.q ∈ b.qs := by unfold Bound.qs; split_ifs <;> simp
    by_cases ho : b.kind.isOdom = true
    · obtain ⟨tr, rot, hkk⟩ : ∃ tr rot, b.kind = .odom tr rot := by
        cases hkk : b.kind <;> rw [hkk] at ho <;> simp [SubKind.isOdom] at ho
        exact ⟨_, _, rfl⟩
      rw [hkk] at hM
      cases m with
      | odom om =>
        have hM' : OriOK om.ori := hM
        rw [RosSub.callback_odom mlog s b hkk om]
        obtain ⟨po, hpo⟩ : ∃ po, s.prevOdom b.src = po := ⟨_, rfl⟩
        rw [hpo]
        cases po with
        | none => exact ⟨_, rfl, rfl, rfl, rfl, rfl, rfl, fun q _ => silent q, .inr ⟨ho, _, odomOf_det hM', rfl, rfl⟩⟩
        | some p =>
          obtain ⟨hd, hch⟩ := h.prev i b p hb ho hpo
          rw [stampsAt_msg, if_pos rfl] at hch
          have hne : p.2 ≠ om.stamp.toSec := (List.isChain_cons_cons.mp hch).1
          obtain ⟨T, hT, hTd⟩ := h.mount ⟨b, List.mem_of_getElem? hb, ho⟩
          simp only [hT, Option.bind_some]
          have hv : ∃ v, Ros.odomVel mlog T p (Ros.odomOf om) = some v := by
            unfold Ros.odomVel Ros.inv4
            rw [if_neg hTd, if_neg hd]
            simp only [Option.bind_eq_bind, Option.bind_some]
            rw [if_neg (by unfold Ros.odomOf; exact fun e => hne (by linarith))]
            exact ⟨_, rfl⟩
          obtain ⟨v, hv⟩ := hv
          rw [hv]
          refine ⟨_, rfl, rfl, by simp [RosSub.push], rfl, rfl, rfl, fun q hq => ?_, .inr ⟨ho, _, odomOf_det hM', rfl, rfl⟩⟩
          have hne' : b.q ≠ q := by rintro rfl; exact hq hbq
          simp only [RosSub.push, List.getElem?_modify, if_neg hne']
          simpa using silent q
      | _ => simp [MsgOK] at hM
    · have hof : b.kind.isOdom = false := by simpa using ho
      obtain ⟨p, hp⟩ := convert_defined hK hM hof
      rw [RosSub.callback_plain mlog s b hof, hp]
      refine ⟨_, rfl, rfl, by simp [RosSub.push], rfl, rfl, rfl, fun q hq => ?_, .inl ⟨hof, rfl⟩⟩
      have hne' : b.q ≠ q := by rintro rfl; exact hq hbq
      by_cases ht : b.kind.two = true
      · have hne2 : b.q2 ≠ q := by
          rintro rfl
          refine hq ?_
          unfold Bound.qs
          simp [ht]
        simp only [RosSub.push, List.getElem?_modify, if_neg hne', if_neg hne2]
        simpa using silent q
      · have := RosSub.convert_two (by simpa using ht) hp
        simp only [RosSub.push, List.getElem?_modify, if_neg hne', this, List.append_nil]
        split_ifs <;> simpa using silent q

end Drift
