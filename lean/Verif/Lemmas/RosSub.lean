import Verif.Spec.Ros

/-!
# Invariant of the ROS subscriber
-/
namespace Drift
open Matrix

theorem forSub_append (D E : List (ℕ × RosMsg)) (i) : forSub (D ++ E) i = forSub D i ++ forSub E i := by
  simp [forSub, List.filterMap_append]

theorem taken_append (D E : List (ℕ × RosMeas)) (i) : taken (D ++ E) i = taken D i ++ taken E i := by
  simp [taken, List.filterMap_append]

theorem forSub_eq_nil {D : List (ℕ × RosMsg)} {i : ℕ} (h : ∀ x ∈ D, x.1 ≠ i) : forSub D i = [] := by
  unfold forSub
  rw [List.filterMap_eq_nil_iff]
  intro x hx
  simp [h x hx]

theorem taken_eq_nil {D : List (ℕ × RosMeas)} {i : ℕ} (h : ∀ x ∈ D, x.1 ≠ i) : taken D i = [] := by
  unfold taken
  rw [List.filterMap_eq_nil_iff]
  intro x hx
  simp [h x hx]

namespace RosSub

theorem push_subs (s : RosSub) (q ms) : (s.push q ms).subs = s.subs := rfl

theorem push_len (s : RosSub) (q ms) : (s.push q ms).queues.length = s.queues.length := by simp [push]

theorem ever_push (s : RosSub) (P q ms x) (hq : q < s.queues.length) :
    everQueued (s.push q ms) P x = if x = q then everQueued s P x ++ ms else everQueued s P x := by
  unfold everQueued push
  simp only [List.getElem?_modify]
  by_cases h : x = q
  · subst h
    simp [List.getElem?_eq_getElem hq]
  · simp [h, Ne.symm (show x ≠ q from h)]

theorem ever_push_nil (s : RosSub) (P q x) : everQueued (s.push q []) P x = everQueued s P x := by
  unfold everQueued push
  simp only [List.getElem?_modify, List.append_nil]
  by_cases h : q = x <;> simp [h]

theorem ever_pop (s : RosSub) (P q x) :
    everQueued { s with queues := s.queues.modify q List.tail } (P ++ s.popped (.pop q)) x = everQueued s P x := by
  unfold everQueued popped
  simp only [List.getElem?_modify, taken_append]
  rw [List.append_assoc]
  congr 1
  by_cases h : x = q
  · subst h
    cases hs : s.queues[x]? with
    | none => simp [taken]
    | some l =>
      cases l with
      | nil => simp [taken]
      | cons a l => simp [taken]
  · rw [taken_eq_nil]
    · simp [Ne.symm (show x ≠ q from h)]
    · intro y hy
      simp only [Option.mem_toList, Option.map_eq_some_iff] at hy
      obtain ⟨a, _, rfl⟩ := hy
      exact fun e => h e.symm

theorem ever_append_queues (s : RosSub) (P x) (l : List (List RosMeas)) (hx : x < s.queues.length) (n sb po st si) :
    everQueued ⟨s.queues ++ l, n, sb, po, st, si⟩ P x = everQueued s P x := by
  unfold everQueued
  simp only [List.getElem?_append_left hx]

theorem ever_congr {s s' : RosSub} (h : s'.queues = s.queues) (P x) : everQueued s' P x = everQueued s P x := by
  unfold everQueued; rw [h]

/-- queue and mutex numbers of subscriptions -/
structure Wired (s : RosSub) : Prop where
  lt : ∀ (i : ℕ) (b : Bound), s.subs[i]? = some b → (∀ x ∈ b.qs, x < s.queues.length) ∧ (∀ x ∈ b.ms, x < s.nMutex) ∧
    b.qs.Nodup ∧ b.ms.Nodup
  disj : ∀ (i j : ℕ) (b c : Bound), i ≠ j → s.subs[i]? = some b → s.subs[j]? = some c →
    (∀ x ∈ b.qs, x ∉ c.qs) ∧ (∀ x ∈ b.ms, x ∉ c.ms)
  src : ∀ (i : ℕ) (b : Bound), s.subs[i]? = some b → b.kind.isOdom = true → b.src < s.srcId
  srcDisj : ∀ (i j : ℕ) (b c : Bound), i ≠ j → s.subs[i]? = some b → s.subs[j]? = some c → b.kind.isOdom = true →
    c.kind.isOdom = true → b.src ≠ c.src

theorem wired_init : Wired init :=
  ⟨by simp [init], by simp [init], by simp [init], by simp [init]⟩

/-- what `add` does, whatever is registered -/
theorem add_spec {s s' : RosSub} {k : SubKind} {h : SubHandle} (e : s.add k = some (s', h)) :
    ∃ b n, s'.subs = s.subs ++ [b] ∧ b.kind = k ∧ s'.queues = s.queues ++ List.replicate b.qs.length [] ∧
      n = b.ms.length ∧ s'.nMutex = s.nMutex + n ∧
      (∀ x ∈ b.qs, s.queues.length ≤ x ∧ x < s.queues.length + b.qs.length) ∧
      (∀ x ∈ b.ms, s.nMutex ≤ x ∧ x < s.nMutex + n) ∧ b.qs.Nodup ∧ b.ms.Nodup ∧
      h.q = b.q ∧ h.m = b.m ∧ (k.two = true → h.q2 = b.q2 ∧ h.m2 = b.m2) ∧
      ((k.isOdom = false ∧ s'.srcId = s.srcId ∧ s'.prevOdom = s.prevOdom ∧ s'.srcToBody = s.srcToBody) ∨
       (∃ tr rot T, k = .odom tr rot ∧ Ros.mount tr rot = some T ∧ b.src = s.srcId ∧ s'.srcId = s.srcId + 1 ∧
        s'.prevOdom = Function.update s.prevOdom s.srcId none ∧ s'.srcToBody = some T)) := by
  unfold add at e
  cases k with
  | diff2 r t =>
    simp only [SubKind.two, if_true] at e
    obtain ⟨rfl, rfl⟩ := Prod.mk.inj (Option.some.inj e)
    refine ⟨_, 2, rfl, rfl, ?_, ?_, rfl, ?_⟩ <;> simp [Bound.qs, Bound.ms, SubKind.two, SubKind.isOdom] <;> omega
  | fetch2 r t =>
    simp only [SubKind.two, if_true] at e
    obtain ⟨rfl, rfl⟩ := Prod.mk.inj (Option.some.inj e)
    refine ⟨_, 2, rfl, rfl, ?_, ?_, rfl, ?_⟩ <;> simp [Bound.qs, Bound.ms, SubKind.two, SubKind.isOdom] <;> omega
  | odom tr rot =>
    simp only [SubKind.two, Bool.false_eq_true, if_false, Option.bind_eq_bind, Option.bind_eq_some_iff] at e
    obtain ⟨T, hT, e⟩ := e
    obtain ⟨rfl, rfl⟩ := Prod.mk.inj (Option.some.inj e)
    refine ⟨_, 1, rfl, rfl, ?_, ?_, rfl, ?_⟩ <;> simp [Bound.qs, Bound.ms, SubKind.two, SubKind.isOdom, hT]
  | _ =>
    simp only [SubKind.two, Bool.false_eq_true, if_false] at e
    obtain ⟨rfl, rfl⟩ := Prod.mk.inj (Option.some.inj e)
    refine ⟨_, 1, rfl, rfl, ?_, ?_, rfl, ?_⟩ <;> simp [Bound.qs, Bound.ms, SubKind.two, SubKind.isOdom]

theorem getElem?_snoc {α : Type} {l : List α} {a b : α} {i : ℕ} (h : (l ++ [a])[i]? = some b) :
    (l[i]? = some b ∧ i < l.length) ∨ (i = l.length ∧ b = a) := by
  rcases lt_or_ge i l.length with hi | hi
  · rw [List.getElem?_append_left hi] at h
    exact Or.inl ⟨h, hi⟩
  · rw [List.getElem?_append_right hi] at h
    rcases Nat.eq_zero_or_pos (i - l.length) with h0 | h0
    · rw [h0] at h
      simp at h
      exact Or.inr ⟨by omega, h.symm⟩
    · rw [List.getElem?_eq_none (by simp; omega)] at h
      simp at h

theorem wired_add {s s' : RosSub} {k : SubKind} {h : SubHandle} (w : Wired s) (e : s.add k = some (s', h)) : Wired s' := by
  obtain ⟨b, n, hs, hk, hq, hn, hm, hbq, hbm, hnd, hnd2, _, _, _, hcase⟩ := add_spec e
  have hql : s'.queues.length = s.queues.length + b.qs.length := by rw [hq]; simp
  constructor
  · intro i c hc
    rw [hs] at hc
    rcases getElem?_snoc hc with ⟨hc, _⟩ | ⟨_, rfl⟩
    · obtain ⟨a1, a2, a3, a4⟩ := w.lt i c hc
      exact ⟨fun x hx => by have := a1 x hx; omega, fun x hx => by have := a2 x hx; omega, a3, a4⟩
    · exact ⟨fun x hx => by have := hbq x hx; omega, fun x hx => by have := hbm x hx; omega, hnd, hnd2⟩
  · intro i j c d hij hc hd
    rw [hs] at hc hd
    have hc0 := getElem?_snoc hc
    have hd0 := getElem?_snoc hd
    clear hc hd
    rcases hc0 with ⟨hc, _⟩ | ⟨hi, hcb⟩ <;> rcases hd0 with ⟨hd, _⟩ | ⟨hj, hdb⟩
    · exact w.disj i j c d hij hc hd
    · subst hdb
      obtain ⟨a1, a2, _⟩ := w.lt i c hc
      exact ⟨fun x hx hy => by have := a1 x hx; have := hbq x hy; omega,
        fun x hx hy => by have := a2 x hx; have := hbm x hy; omega⟩
    · subst hcb
      obtain ⟨a1, a2, _⟩ := w.lt j d hd
      exact ⟨fun x hy hx => by have := a1 x hx; have := hbq x hy; omega,
        fun x hy hx => by have := a2 x hx; have := hbm x hy; omega⟩
    · omega
  · intro i c hc ho
    rw [hs] at hc
    rcases getElem?_snoc hc with ⟨hc, _⟩ | ⟨_, rfl⟩
    · have := w.src i c hc ho
      rcases hcase with ⟨_, h1, _⟩ | ⟨_, _, _, _, _, _, h1, _⟩ <;> omega
    · rcases hcase with ⟨h0, _⟩ | ⟨_, _, _, _, _, h1, h2, _⟩
      · rw [hk, h0] at ho; simp at ho
      · omega
  · intro i j c d hij hc hd hco hdo
    rw [hs] at hc hd
    have hc0 := getElem?_snoc hc
    have hd0 := getElem?_snoc hd
    clear hc hd
    rcases hc0 with ⟨hc, _⟩ | ⟨hi, hcb⟩ <;> rcases hd0 with ⟨hd, _⟩ | ⟨hj, hdb⟩
    · exact w.srcDisj i j c d hij hc hd hco hdo
    · subst hdb
      rcases hcase with ⟨h0, _⟩ | ⟨_, _, _, _, _, h1, h2, _⟩
      · rw [hk, h0] at hdo; simp at hdo
      · have := w.src i c hc hco; omega
    · subst hcb
      rcases hcase with ⟨h0, _⟩ | ⟨_, _, _, _, _, h1, h2, _⟩
      · rw [hk, h0] at hco; simp at hco
      · have := w.src j d hd hdo; omega
    · omega

/-- the callback of an odometry subscription -/
theorem callback_odom (mlog) (s : RosSub) (b : Bound) {tr rot} (hb : b.kind = .odom tr rot) (m : OdomMsg) :
    s.callback mlog b (.odom m) = match s.prevOdom b.src with
      | none => some { s with prevOdom := Function.update s.prevOdom b.src (some (Ros.odomOf m)) }
      | some prev => s.srcToBody.bind fun T => (Ros.odomVel mlog T prev (Ros.odomOf m)).bind fun v =>
          some (RosSub.push { s with prevOdom := Function.update s.prevOdom b.src (some (Ros.odomOf m)) } b.q
            [.vel v]) := by
  unfold callback
  rw [hb]
  rfl

/-- the callback of the other subscriptions -/
theorem callback_plain (mlog) (s : RosSub) (b : Bound) (hb : b.kind.isOdom = false) (msg : RosMsg) :
    s.callback mlog b msg = (Ros.convert b.kind msg).map fun p => (s.push b.q p.1).push b.q2 p.2 := by
  unfold callback
  cases hk : b.kind <;> rw [hk] at hb <;> simp [SubKind.isOdom] at hb <;>
    cases hc : Ros.convert _ msg <;> simp_all

theorem convert_two {k : SubKind} {m : RosMsg} {p} (hk : k.two = false) (e : Ros.convert k m = some p) : p.2 = [] := by
  unfold Ros.convert at e
  split at e <;> simp [SubKind.two] at hk <;>
    first
    | (simp only [Option.map_eq_some_iff] at e; obtain ⟨a, _, rfl⟩ := e; first | rfl | (cases a <;> rfl))
    | (obtain rfl := Option.some.inj e; rfl)

theorem odomVel_spec {mlog T} {m m' : OdomMsg} {v : VelMeas}
    (e : Ros.odomVel mlog T (Ros.odomOf m) (Ros.odomOf m') = some v) : IsOdomVel mlog T m m' v := by
  unfold Ros.odomVel at e
  simp only [Option.bind_eq_bind, Option.bind_eq_some_iff] at e
  obtain ⟨Ti, h1, Pi, h2, e⟩ := e
  unfold Ros.inv4 at h1 h2
  split_ifs at h1 with d1
  split_ifs at h2 with d2
  split_ifs at e with d3
  obtain rfl := Option.some.inj h1
  obtain rfl := Option.some.inj h2
  obtain rfl := Option.some.inj e
  have d3' : m'.stamp.toSec - m.stamp.toSec ≠ 0 := d3
  refine ⟨rfl, fun k => d3' (by rw [k]; ring), ?_⟩
  have hX : (bodyPose T m)⁻¹ * bodyPose T m' = T⁻¹ * (Ros.odomOf m).1⁻¹ * (Ros.odomOf m').1 * T := by
    unfold bodyPose Ros.odomOf
    rw [Matrix.mul_inv_rev]
    simp only [Matrix.mul_assoc]
  intro i
  rw [hX]
  fin_cases i
  · exact div_mul_cancel₀ _ d3'
  · exact div_mul_cancel₀ _ d3'
  · exact div_mul_cancel₀ _ d3'

/-- the invariant -/
structure Inv (mlog : M4 → M4) (l : List SubOp) (s : RosSub) (D : List (ℕ × RosMsg)) (P : List (ℕ × RosMeas)) : Prop where
  wired : Wired s
  dLt : ∀ x ∈ D, x.1 < s.subs.length
  pLt : ∀ x ∈ P, x.1 < s.queues.length
  plain : ∀ (i : ℕ) (b : Bound), s.subs[i]? = some b → b.kind.isOdom = false →
    ∃ ps, List.Forall₂ (fun m p => Ros.convert b.kind m = some p) (forSub D i) ps ∧
      everQueued s P b.q = ps.flatMap Prod.fst ∧ (b.kind.two = true → everQueued s P b.q2 = ps.flatMap Prod.snd)
  odom : ∀ (i : ℕ) (b : Bound), s.subs[i]? = some b → b.kind.isOdom = true →
    ∃ ms vs, forSub D i = ms.map RosMsg.odom ∧ everQueued s P b.q = vs.map RosMeas.vel ∧
      OdomVels mlog (RegisteredMount l) ms vs ∧ s.prevOdom b.src = ms.getLast?.map Ros.odomOf
  mnt : ∀ T, s.srcToBody = some T → RegisteredMount l T

theorem OdomVels_mono {mlog A B ms vs} (h : OdomVels mlog A ms vs) (hAB : ∀ T, A T → B T) : OdomVels mlog B ms vs := by
  induction h with
  | nil => exact .nil
  | one m => exact .one m
  | snoc _ m' v T hT hv ih => exact .snoc ih m' v T (hAB T hT) hv

theorem OdomVels.of_nil {mlog A vs} (h : OdomVels mlog A [] vs) : vs = [] := by
  generalize hm : ([] : List OdomMsg) = ms at h
  cases h with
  | nil => rfl
  | one m => rfl
  | snoc => simp at hm

theorem mount_snoc {l T} (o) (h : RegisteredMount l T) : RegisteredMount (l ++ [o]) T := by
  obtain ⟨tr, rot, h1, h2⟩ := h
  exact ⟨tr, rot, List.mem_append_left _ h1, h2⟩

theorem inv_init (mlog) : Inv mlog [] init [] [] :=
  ⟨wired_init, by simp, by simp, by simp [init], by simp [init], by simp [init]⟩

theorem inv_add {mlog l s D P k s'} (I : Inv mlog l s D P) (e : s.step mlog (.add k) = some s') :
    Inv mlog (l ++ [.add k]) s' D P := by
  simp only [step, Option.map_eq_some_iff] at e
  obtain ⟨⟨t, h⟩, e, rfl⟩ := e
  have W := wired_add I.wired e
  obtain ⟨b, n, hs, hk, hq, hn, hm, hbq, hbm, hnd, hnd2, _, _, _, hcase⟩ := add_spec e
  have hql : t.queues.length = s.queues.length + b.qs.length := by rw [hq]; simp
  have hsl : t.subs.length = s.subs.length + 1 := by rw [hs]; simp
  have hev : ∀ x, x < s.queues.length → everQueued t P x = everQueued s P x := fun x hx => by
    unfold everQueued; rw [hq, List.getElem?_append_left hx]
  have hev2 : ∀ x, s.queues.length ≤ x → everQueued t P x = [] := fun x hx => by
    unfold everQueued
    rw [taken_eq_nil fun y hy => by have := I.pLt y hy; omega, hq, List.getElem?_append_right hx]
    rw [List.nil_append]
    cases hc : (List.replicate b.qs.length ([] : List RosMeas))[x - s.queues.length]? with
    | none => rfl
    | some a =>
      rw [List.getElem?_replicate] at hc
      split_ifs at hc
      obtain rfl := Option.some.inj hc
      rfl
  have hD : forSub D s.subs.length = [] := forSub_eq_nil fun y hy => by have := I.dLt y hy; omega
  have hbq0 : b.q ∈ b.qs := by unfold Bound.qs; split_ifs <;> simp
  refine ⟨W, fun x hx => by have := I.dLt x hx; show x.1 < t.subs.length; omega,
    fun x hx => by have := I.pLt x hx; show x.1 < t.queues.length; omega, ?_, ?_, ?_⟩
  · intro i c hc ho
    rw [hs] at hc
    rcases getElem?_snoc hc with ⟨hc, _⟩ | ⟨rfl, rfl⟩
    · obtain ⟨ps, h1, h2, h3⟩ := I.plain i c hc ho
      have hlt := (I.wired.lt i c hc).1
      refine ⟨ps, h1, ?_, ?_⟩
      · rw [hev _ (hlt _ (by unfold Bound.qs; split_ifs <;> simp)), h2]
      · intro h2'
        rw [hev _ (hlt _ (by unfold Bound.qs; rw [if_pos h2']; simp)), h3 h2']
    · rw [hD]
      exact ⟨[], .nil, hev2 _ (hbq _ hbq0).1, fun h2' => hev2 _ (hbq _ (by unfold Bound.qs; rw [if_pos h2']; simp)).1⟩
  · intro i c hc ho
    rw [hs] at hc
    rcases getElem?_snoc hc with ⟨hc, _⟩ | ⟨rfl, rfl⟩
    · obtain ⟨ms, vs, h1, h2, h3, h4⟩ := I.odom i c hc ho
      have hlt := (I.wired.lt i c hc).1
      refine ⟨ms, vs, h1, ?_, OdomVels_mono h3 fun T => mount_snoc _, ?_⟩
      · rw [hev _ (hlt _ (by unfold Bound.qs; split_ifs <;> simp)), h2]
      · rcases hcase with ⟨_, _, h, _⟩ | ⟨_, _, _, _, _, _, _, h, _⟩
        · rw [h, h4]
        · have := I.wired.src i c hc ho
          rw [h, Function.update_of_ne (by omega), h4]
    · rw [hD]
      refine ⟨[], [], rfl, hev2 _ (hbq _ hbq0).1, .nil, ?_⟩
      rcases hcase with ⟨h0, _⟩ | ⟨_, _, _, _, _, hsrc, _, h, _⟩
      · rw [hk, h0] at ho; simp at ho
      · rw [h, hsrc, Function.update_self]; rfl
  · intro T hT
    rcases hcase with ⟨_, _, _, h⟩ | ⟨tr, rot, T', hk', hmount, _, _, _, h⟩
    · rw [h] at hT
      exact mount_snoc _ (I.mnt T hT)
    · rw [h] at hT
      obtain rfl := Option.some.inj hT
      exact ⟨tr, rot, by rw [hk']; simp, hmount⟩

theorem inv_pop {mlog l s D P q} (I : Inv mlog l s D P) :
    Inv mlog (l ++ [.pop q]) { s with queues := s.queues.modify q List.tail } D (P ++ s.popped (.pop q)) := by
  have hl : (s.queues.modify q List.tail).length = s.queues.length := by simp
  refine ⟨⟨?_, I.wired.disj, I.wired.src, I.wired.srcDisj⟩, I.dLt, ?_, ?_, ?_, fun T hT => mount_snoc _ (I.mnt T hT)⟩
  · intro i b hb
    rw [hl]
    exact I.wired.lt i b hb
  · intro x hx
    rw [hl]
    rcases List.mem_append.1 hx with hx | hx
    · exact I.pLt x hx
    · unfold popped at hx
      simp only [Option.mem_toList, Option.map_eq_some_iff, Option.bind_eq_some_iff] at hx
      obtain ⟨a, ⟨l', h1, _⟩, rfl⟩ := hx
      exact (List.getElem?_eq_some_iff.1 h1).1
  · intro i b hb ho
    obtain ⟨ps, h1, h2, h3⟩ := I.plain i b hb ho
    exact ⟨ps, h1, by rw [ever_pop, h2], fun k => by rw [ever_pop, h3 k]⟩
  · intro i b hb ho
    obtain ⟨ms, vs, h1, h2, h3, h4⟩ := I.odom i b hb ho
    exact ⟨ms, vs, h1, by rw [ever_pop, h2], OdomVels_mono h3 fun T => mount_snoc _, h4⟩

theorem mem_qs (b : Bound) : b.q ∈ b.qs := by unfold Bound.qs; split_ifs <;> simp

theorem mem_qs2 {b : Bound} (h : b.kind.two = true) : b.q2 ∈ b.qs := by unfold Bound.qs; rw [if_pos h]; simp

theorem inv_deliver {mlog l s D P i m b s'} (I : Inv mlog l s D P) (hb : s.subs[i]? = some b) (hacc : b.kind.accepts m)
    (e : s.callback mlog b m = some s') : Inv mlog (l ++ [.deliver i m]) s' (D ++ [(i, m)]) P := by
  have hi : i < s.subs.length := (List.getElem?_eq_some_iff.1 hb).1
  have hself : forSub [(i, m)] i = [m] := by simp [forSub]
  have hother : ∀ j, j ≠ i → forSub (D ++ [(i, m)]) j = forSub D j := fun j hj => by
    rw [forSub_append, forSub_eq_nil (D := [(i, m)]) (by simp; exact fun k => hj k.symm), List.append_nil]
  have hbq := (I.wired.lt i b hb).1
  -- what the callback does to the queues
  cases ho : b.kind.isOdom with
  | false =>
    rw [callback_plain mlog s b ho] at e
    simp only [Option.map_eq_some_iff] at e
    obtain ⟨p, hp, rfl⟩ := e
    have hev : ∀ x, x ∉ b.qs → everQueued ((s.push b.q p.1).push b.q2 p.2) P x = everQueued s P x := by
      intro x hx
      cases h2 : b.kind.two with
      | false =>
        rw [convert_two h2 hp, ever_push_nil, ever_push _ _ _ _ _ (hbq _ (mem_qs b)),
          if_neg (show ¬ x = b.q from fun k => hx (k ▸ mem_qs b))]
      | true =>
        rw [ever_push _ _ _ _ _ (by rw [push_len]; exact hbq _ (mem_qs2 h2)), if_neg (show ¬ x = b.q2 from fun k => hx (k ▸ mem_qs2 h2)),
          ever_push _ _ _ _ _ (hbq _ (mem_qs b)), if_neg (show ¬ x = b.q from fun k => hx (k ▸ mem_qs b))]
    have hev1 : everQueued ((s.push b.q p.1).push b.q2 p.2) P b.q = everQueued s P b.q ++ p.1 := by
      cases h2 : b.kind.two with
      | false => rw [convert_two h2 hp, ever_push_nil, ever_push _ _ _ _ _ (hbq _ (mem_qs b)), if_pos rfl]
      | true =>
        have hne : b.q ≠ b.q2 := by
          have := (I.wired.lt i b hb).2.2.1
          unfold Bound.qs at this
          rw [if_pos h2] at this
          simpa using this
        rw [ever_push _ _ _ _ _ (by rw [push_len]; exact hbq _ (mem_qs2 h2)), if_neg hne,
          ever_push _ _ _ _ _ (hbq _ (mem_qs b)), if_pos rfl]
    have hev2 : b.kind.two = true → everQueued ((s.push b.q p.1).push b.q2 p.2) P b.q2 = everQueued s P b.q2 ++ p.2 := by
      intro h2
      have hne : b.q ≠ b.q2 := by
        have := (I.wired.lt i b hb).2.2.1
        unfold Bound.qs at this
        rw [if_pos h2] at this
        simpa using this
      rw [ever_push _ _ _ _ _ (by rw [push_len]; exact hbq _ (mem_qs2 h2)), if_pos rfl,
        ever_push _ _ _ _ _ (hbq _ (mem_qs b)), if_neg hne.symm]
    have hlen : ((s.push b.q p.1).push b.q2 p.2).queues.length = s.queues.length := by rw [push_len, push_len]
    refine ⟨⟨?_, I.wired.disj, I.wired.src, I.wired.srcDisj⟩, ?_, ?_, ?_, ?_, fun T hT => mount_snoc _ (I.mnt T hT)⟩
    · intro j c hc; rw [hlen]; exact I.wired.lt j c hc
    · intro x hx
      rcases List.mem_append.1 hx with hx | hx
      · exact I.dLt x hx
      · simp at hx; subst hx; exact hi
    · rw [hlen]; exact I.pLt
    · intro j c hc hco
      by_cases hj : j = i
      · subst hj
        have : c = b := Option.some.inj (hc.symm.trans hb)
        subst this
        obtain ⟨ps, h1, h2, h3⟩ := I.plain j c hc hco
        refine ⟨ps ++ [p], ?_, ?_, ?_⟩
        · rw [forSub_append, hself]
          exact List.rel_append h1 (.cons hp .nil)
        · rw [hev1, h2]; simp
        · intro k; rw [hev2 k, h3 k]; simp
      · obtain ⟨ps, h1, h2, h3⟩ := I.plain j c hc hco
        have hd := (I.wired.disj j i c b hj hc hb).1
        exact ⟨ps, by rw [hother j hj]; exact h1, by rw [hev _ (hd _ (mem_qs c)), h2],
          fun k => by rw [hev _ (hd _ (mem_qs2 k)), h3 k]⟩
    · intro j c hc hco
      by_cases hj : j = i
      · subst hj
        have : c = b := Option.some.inj (hc.symm.trans hb)
        subst this
        rw [ho] at hco; simp at hco
      · obtain ⟨ms, vs, h1, h2, h3, h4⟩ := I.odom j c hc hco
        have hd := (I.wired.disj j i c b hj hc hb).1
        exact ⟨ms, vs, by rw [hother j hj]; exact h1, by rw [hev _ (hd _ (mem_qs c)), h2],
          OdomVels_mono h3 fun T => mount_snoc _, h4⟩
  | true =>
    obtain ⟨tr, rot, hk⟩ : ∃ tr rot, b.kind = .odom tr rot := by
      revert ho; cases b.kind <;> simp [SubKind.isOdom]
    obtain ⟨om, rfl⟩ : ∃ om, m = .odom om := by
      rw [hk] at hacc; revert hacc; cases m <;> simp [SubKind.accepts]
    obtain ⟨ms, vs, h1, h2, h3, h4⟩ := I.odom i b hb ho
    rw [callback_odom mlog s b hk] at e
    -- new state: either nothing pushed or one velocity
    have key : ∃ vs', s'.subs = s.subs ∧ s'.nMutex = s.nMutex ∧ s'.srcId = s.srcId ∧ s'.srcToBody = s.srcToBody ∧
        s'.queues.length = s.queues.length ∧ s'.prevOdom = Function.update s.prevOdom b.src (some (Ros.odomOf om)) ∧
        (∀ x, x ≠ b.q → everQueued s' P x = everQueued s P x) ∧
        everQueued s' P b.q = (vs ++ vs').map RosMeas.vel ∧
        OdomVels mlog (RegisteredMount (l ++ [.deliver i (.odom om)])) (ms ++ [om]) (vs ++ vs') := by
      have h3' := OdomVels_mono (B := RegisteredMount (l ++ [.deliver i (.odom om)])) h3 fun T => mount_snoc _
      rcases List.eq_nil_or_concat ms with rfl | ⟨ms0, m0, rfl⟩
      · rw [h4] at e
        obtain rfl := Option.some.inj e
        refine ⟨[], rfl, rfl, rfl, rfl, rfl, rfl, fun _ _ => rfl, ?_, ?_⟩
        · rw [List.append_nil]; exact h2
        · rw [OdomVels.of_nil h3]
          exact .one om
      · rw [List.concat_eq_append] at h4 h3'
        rw [h4] at e
        simp only [List.getLast?_append, List.getLast?_singleton, Option.some_or, Option.map_some,
          Option.bind_eq_bind, Option.bind_eq_some_iff] at e
        obtain ⟨T, hT, v, hv, e⟩ := e
        obtain rfl := Option.some.inj e
        refine ⟨[v], rfl, rfl, rfl, rfl, by rw [push_len], rfl, fun x hx => ?_, ?_, ?_⟩
        · refine (ever_push _ P b.q _ x ?_).trans ?_
          · exact hbq _ (mem_qs b)
          · rw [if_neg hx]; rfl
        · refine (ever_push _ P b.q _ b.q ?_).trans ?_
          · exact hbq _ (mem_qs b)
          · rw [if_pos rfl, List.map_append, ← h2]; rfl
        · have := OdomVels.snoc h3' om v T (mount_snoc _ (I.mnt T hT)) (odomVel_spec hv)
          rw [List.concat_eq_append, List.append_assoc]
          exact this
    obtain ⟨vs', k1, k2, k3, k4, k5, k6, k7, k8, k9⟩ := key
    refine ⟨⟨?_, ?_, ?_, ?_⟩, ?_, ?_, ?_, ?_, ?_⟩
    · intro j c hc; rw [k5, k2]; rw [k1] at hc; exact I.wired.lt j c hc
    · rw [k1]; exact I.wired.disj
    · rw [k1, k3]; exact I.wired.src
    · rw [k1]; exact I.wired.srcDisj
    · intro x hx
      rw [k1]
      rcases List.mem_append.1 hx with hx | hx
      · exact I.dLt x hx
      · simp at hx; subst hx; exact hi
    · rw [k5]; exact I.pLt
    · intro j c hc hco
      rw [k1] at hc
      have hj : j ≠ i := fun hj => by
        subst hj
        have : c = b := Option.some.inj (hc.symm.trans hb)
        subst this
        rw [ho] at hco; simp at hco
      obtain ⟨ps, a1, a2, a3⟩ := I.plain j c hc hco
      have hd := (I.wired.disj j i c b hj hc hb).1
      exact ⟨ps, by rw [hother j hj]; exact a1, by rw [k7 c.q fun k => hd _ (mem_qs c) (k ▸ mem_qs b), a2],
        fun k => by rw [k7 c.q2 fun k' => hd _ (mem_qs2 k) (k' ▸ mem_qs b), a3 k]⟩
    · intro j c hc hco
      rw [k1] at hc
      by_cases hj : j = i
      · subst hj
        have : c = b := Option.some.inj (hc.symm.trans hb)
        subst this
        refine ⟨ms ++ [om], vs ++ vs', ?_, k8, k9, ?_⟩
        · rw [forSub_append, hself, h1]; simp
        · rw [k6, Function.update_self]; simp
      · obtain ⟨ms1, vs1, a1, a2, a3, a4⟩ := I.odom j c hc hco
        have hd := (I.wired.disj j i c b hj hc hb).1
        refine ⟨ms1, vs1, by rw [hother j hj]; exact a1, by rw [k7 c.q fun k => hd _ (mem_qs c) (k ▸ mem_qs b), a2],
          OdomVels_mono a3 fun T => mount_snoc _, ?_⟩
        rw [k6, Function.update_of_ne (I.wired.srcDisj j i c b hj hc hb hco ho), a4]
    · intro T hT
      rw [k4] at hT
      exact mount_snoc _ (I.mnt T hT)

theorem inv_exec {mlog l s D P} (h : Exec mlog init l s D P) : Inv mlog l s D P := by
  induction h with
  | nil => exact inv_init mlog
  | snoc h o s'' he ho ih =>
    have I := ih
    cases o with
    | add k => simpa [delivered, popped] using inv_add I ho
    | deliver i m =>
      obtain ⟨b, hb, hacc⟩ := he
      simp only [step, hb] at ho
      simpa [delivered, popped] using inv_deliver I hb hacc ho
    | pop q =>
      obtain rfl := Option.some.inj ho
      simpa [delivered] using inv_pop I

end RosSub
end Drift
