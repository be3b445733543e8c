import Verif.Lemmas.Shut2

/-!
# Lemmas for C135: after a shutdown the program makes progress in every round
-/
namespace Drift.Shut

theorem run_append {mlog : M4 → M4} {ff : Bool} (a b : List Ev) : ∀ r : Run, r.run mlog ff (a ++ b) = (r.run mlog ff a).bind fun r => r.run mlog ff b := by
  induction a with
  | nil => intro r; rfl
  | cons x a ih =>
    intro r
    simp only [List.cons_append, Run.run]
    cases r.step mlog ff x with
    | none => rfl
    | some r1 => exact ih r1

/-- how much is still to be done -/
def Run.left (r : Run) : ℕ :=
  (match r.todo with | none => 12 + r.sys.est.pending.isSome.toNat | some l => l.length) + (threads.map fun t => (!r.ended t).toNat).sum

theorem Run.left_le (r : Run) (i : Inv r) : r.left ≤ 18 := by
  unfold Run.left
  have h1 : (threads.map fun t => (!r.ended t).toNat).sum ≤ 5 := by
    simp only [threads, List.map_cons, List.map_nil, List.sum_cons, List.sum_nil]
    have := fun t => Bool.toNat_le (!r.ended t)
    have a := this .pose; have b := this .path; have c := this .log; have d := this .filter; have e := this .spin
    omega
  obtain ⟨td, ht⟩ : ∃ td, r.todo = td := ⟨_, rfl⟩
  rw [ht]
  cases td with
  | none =>
    have := Bool.toNat_le r.sys.est.pending.isSome
    dsimp only; omega
  | some l =>
    obtain ⟨-, ff, k, hl, -⟩ := i.out l ht
    have := unwind_length ff r.sys.est.log.enabled r.sys.filter.isSome
    have h3 : l.length ≤ 11 := by rw [hl, List.length_drop]; omega
    dsimp only; omega

/-- the situation after a shutdown -/
structure Down (r : Run) : Prop where
  inv : Inv r
  ok : r.ok = false
  served : r.served

/-- nothing relevant has changed -/
def Same (r r' : Run) : Prop := r'.todo = r.todo ∧ r'.ended = r.ended ∧ r'.stopped = r.stopped

/-- the event does not help -/
def Idle (r : Run) : Ev → Prop
  | .main => r.over ∨ ∃ t l, r.todo = some (.join t :: l) ∧ r.ended t = false
  | .thread t => r.ended t = true ∨ ((t = .log ∨ t = .filter) ∧ r.stopped t = false)
  | _ => True

theorem Idle.congr {r r' : Run} (h : Same r r') {ev : Ev} (hi : Idle r' ev) : Idle r ev := by
  obtain ⟨h1, h2, h3⟩ := h
  cases ev with
  | main => simp only [Idle, Run.over, h1, h2] at hi; exact hi
  | thread t => simp only [Idle, h2, h3] at hi; exact hi
  | _ => trivial

theorem served_fr {r : Run} {s : System} (h : r.served) (f : Fr r.sys s) : ({ r with sys := s } : Run).served := by
  intro i hw j c hij hc
  obtain ⟨c0, h1, h2⟩ := f.data j c hc
  exact h2 (h i ⟨hw.1, f.pend ▸ hw.2⟩ j c0 hij h1)

theorem left_sys (r : Run) (s : System) (h : s.est.pending = r.sys.est.pending) : ({ r with sys := s } : Run).left = r.left := by
  unfold Run.left
  dsimp only
  rw [h]

theorem ended_sum {e : Thread → Bool} {t : Thread} (h : e t = false) :
    (threads.map fun x => (!Function.update e t true x).toNat).sum < (threads.map fun x => (!e x).toNat).sum := by
  cases t <;> simp [threads, Function.update, h]

theorem down_step {mlog : M4 → M4} {ff : Bool} {r r' : Run} {ev : Ev} (d : Down r) (h : r.step mlog ff ev = some r') :
    Down r' ∧ (r'.left < r.left ∨ (r'.left = r.left ∧ Same r r' ∧ Idle r ev)) := by
  have i' := d.inv.step h
  cases ev with
  | shutdown =>
    obtain rfl := Option.some.inj h
    exact ⟨⟨i', rfl, d.served⟩, .inr ⟨rfl, ⟨rfl, rfl, rfl⟩, trivial⟩⟩
  | msg k m =>
    simp only [Run.step] at h
    split_ifs at h
    · obtain rfl := Option.some.inj h; exact ⟨d, .inr ⟨rfl, ⟨rfl, rfl, rfl⟩, trivial⟩⟩
    · rw [Option.map_eq_some_iff] at h
      obtain ⟨s, h1, rfl⟩ := h
      have f := step_fr (by simp) h1
      exact ⟨⟨i', d.ok, served_fr d.served f⟩, .inr ⟨left_sys r s f.pend, ⟨rfl, rfl, rfl⟩, trivial⟩⟩
  | thread t =>
    simp only [Run.step] at h
    split_ifs at h with h1 h2
    · obtain rfl := Option.some.inj h; exact ⟨d, .inr ⟨rfl, ⟨rfl, rfl, rfl⟩, .inl h1⟩⟩
    · obtain rfl := Option.some.inj h
      refine ⟨⟨i', d.ok, d.served⟩, .inl ?_⟩
      have := ended_sum (e := r.ended) (t := t) (by simpa using h1)
      unfold Run.left
      dsimp only
      omega
    · rw [Option.map_eq_some_iff] at h
      obtain ⟨s, h3, rfl⟩ := h
      have f := (body_fr h3).1
      refine ⟨⟨i', d.ok, served_fr d.served f⟩, .inr ⟨left_sys r s f.pend, ⟨rfl, rfl, rfl⟩, .inr ?_⟩⟩
      have := d.ok
      cases t <;> simp_all [Run.leaves]
  | main =>
    obtain ⟨sys, ok, todo, ended, stopped, gone⟩ := r
    have hok : ok = false := d.ok
    subst hok
    simp only [Run.step] at h
    rcases todo with _ | _ | ⟨a, l⟩
    · dsimp only at h
      split_ifs at h with h1
      · rw [Option.map_eq_some_iff] at h
        obtain ⟨s, h3, rfl⟩ := h
        simp only [Bool.false_or, Option.isSome_iff_exists] at h1
        obtain ⟨i, hi⟩ := h1
        have hn := tick_served hi (fun j c hij hc => d.served i ⟨rfl, hi⟩ j c hij hc) h3
        refine ⟨⟨i', rfl, fun i hw => ?_⟩, .inl ?_⟩
        · have := hw.2
          dsimp only at this
          rw [hn] at this; cases this
        · simp only [Run.left, hn, hi, Option.isSome_none, Option.isSome_some, Bool.toNat_true, Bool.toNat_false]
          omega
      · obtain rfl := Option.some.inj h
        refine ⟨⟨i', rfl, fun i hw => by have := hw.1; simp at this⟩, .inl ?_⟩
        have := unwind_length ff sys.est.log.enabled sys.filter.isSome
        simp only [Run.left]
        omega
    · obtain rfl := Option.some.inj h
      exact ⟨d, .inr ⟨rfl, ⟨rfl, rfl, rfl⟩, .inl rfl⟩⟩
    · cases a with
      | join t =>
        dsimp only at h
        split_ifs at h with h1
        · obtain rfl := Option.some.inj h
          refine ⟨⟨i', rfl, fun i hw => by have := hw.1; simp at this⟩, .inl ?_⟩
          simp only [Run.left, List.length_cons]; omega
        · obtain rfl := Option.some.inj h
          exact ⟨d, .inr ⟨rfl, ⟨rfl, rfl, rfl⟩, .inr ⟨t, l, rfl, by simpa using h1⟩⟩⟩
      | stop t =>
        obtain rfl := Option.some.inj h
        refine ⟨⟨i', rfl, fun i hw => by have := hw.1; simp at this⟩, .inl ?_⟩
        simp only [Run.left, List.length_cons]; omega
      | gone o =>
        obtain rfl := Option.some.inj h
        refine ⟨⟨i', rfl, fun i hw => by have := hw.1; simp at this⟩, .inl ?_⟩
        simp only [Run.left, List.length_cons]; omega

theorem down_run {mlog : M4 → M4} {ff : Bool} (evs : List Ev) : ∀ {r r' : Run}, Down r → r.run mlog ff evs = some r' →
    Down r' ∧ (r'.left < r.left ∨ (r'.left = r.left ∧ Same r r' ∧ ∀ ev ∈ evs, Idle r ev)) := by
  induction evs with
  | nil => intro r r' d h; obtain rfl := Option.some.inj h; exact ⟨d, .inr ⟨rfl, ⟨rfl, rfl, rfl⟩, by simp⟩⟩
  | cons ev evs ih =>
    intro r r' d h
    simp only [Run.run, Option.bind_eq_some_iff] at h
    obtain ⟨r1, h1, h2⟩ := h
    obtain ⟨d1, c1⟩ := down_step d h1
    obtain ⟨d2, c2⟩ := ih d1 h2
    refine ⟨d2, ?_⟩
    rcases c1 with c1 | ⟨c1, s1, i1⟩ <;> rcases c2 with c2 | ⟨c2, s2, i2⟩
    · left; omega
    · left; omega
    · left; omega
    · refine .inr ⟨by omega, ⟨s2.1.trans s1.1, s2.2.1.trans s1.2.1, s2.2.2.trans s1.2.2⟩, fun x hx => ?_⟩
      rcases List.mem_cons.mp hx with rfl | hx
      · exact i1
      · exact (i2 x hx).congr s1

/-- a round makes progress, or the program has ended -/
theorem down_round {mlog : M4 → M4} {ff : Bool} {evs : List Ev} {r r' : Run} (d : Down r) (hr : Round evs) (h : r.run mlog ff evs = some r') :
    Down r' ∧ (r'.left < r.left ∨ r'.over) := by
  obtain ⟨d', c⟩ := down_run evs d h
  refine ⟨d', ?_⟩
  rcases c with c | ⟨-, s, hi⟩
  · exact .inl c
  · right
    rcases hi _ hr.1 with ho | ⟨t, l, h1, h2⟩
    · exact s.1.trans ho
    · exfalso
      obtain ⟨-, f, k, h3, h4, -⟩ := d.inv.out _ h1
      rcases hi _ (hr.2 t) with h5 | ⟨h5, h6⟩
      · rw [h2] at h5; cases h5
      · have hk : (unwind f r.sys.est.log.enabled r.sys.filter.isSome)[k]? = some (.join t) := by
          have := congrArg (·[0]?) h3
          simp only [List.getElem?_cons_zero, List.getElem?_drop, Nat.add_zero] at this
          exact this.symm
        have := h4 _ (stop_before f _ _ k t hk h5)
        simp only [Did] at this
        rw [h6] at this; cases this

theorem over_step {mlog : M4 → M4} {ff : Bool} {r r' : Run} {ev : Ev} (ho : r.over) (h : r.step mlog ff ev = some r') : r'.over := by
  obtain ⟨sys, ok, todo, ended, stopped, gone⟩ := r
  have ho : todo = some [] := ho
  subst ho
  cases ev with
  | shutdown => obtain rfl := Option.some.inj h; rfl
  | msg k m =>
    simp only [Run.step] at h
    split_ifs at h
    · obtain rfl := Option.some.inj h; rfl
    · rw [Option.map_eq_some_iff] at h
      obtain ⟨s, h1, rfl⟩ := h; rfl
  | thread t =>
    simp only [Run.step] at h
    split_ifs at h
    · obtain rfl := Option.some.inj h; rfl
    · obtain rfl := Option.some.inj h; rfl
    · rw [Option.map_eq_some_iff] at h
      obtain ⟨s, h1, rfl⟩ := h; rfl
  | main => obtain rfl := Option.some.inj h; rfl

theorem over_run {mlog : M4 → M4} {ff : Bool} (evs : List Ev) : ∀ {r r' : Run}, r.over → r.run mlog ff evs = some r' → r'.over := by
  induction evs with
  | nil => intro r r' d h; obtain rfl := Option.some.inj h; exact d
  | cons ev evs ih =>
    intro r r' d h
    simp only [Run.run, Option.bind_eq_some_iff] at h
    obtain ⟨r1, h1, h2⟩ := h
    exact ih (over_step d h1) h2

theorem left_pos {r : Run} (h : r.left = 0) : r.over := by
  unfold Run.left at h
  obtain ⟨td, ht⟩ : ∃ td, r.todo = td := ⟨_, rfl⟩
  rw [ht] at h
  cases td with
  | none => dsimp only at h; omega
  | some l =>
    dsimp only at h
    have : l.length = 0 := by omega
    show r.todo = _
    rw [ht, List.length_eq_zero_iff.mp this]

theorem down_rounds {mlog : M4 → M4} {ff : Bool} (ls : List (List Ev)) : ∀ {r r' : Run}, Down r → (∀ x ∈ ls, Round x) → r.left ≤ ls.length →
    r.run mlog ff ls.flatten = some r' → r'.over := by
  induction ls with
  | nil =>
    intro r r' d _ hl h
    obtain rfl := Option.some.inj h
    exact left_pos (by simpa using hl)
  | cons x ls ih =>
    intro r r' d hx hl h
    rw [List.flatten_cons, run_append, Option.bind_eq_some_iff] at h
    obtain ⟨r1, h1, h2⟩ := h
    obtain ⟨d1, c⟩ := down_round d (hx x (by simp)) h1
    rcases c with c | c
    · exact ih d1 (fun y hy => hx y (by simp [hy])) (by simp only [List.length_cons] at hl; omega) h2
    · exact over_run _ c h2

/-! ### Waiting for ever -/

/-- `InitState` waits for a correction without data, and no more messages arrive -/
structure Stuck (j : ℕ) (r : Run) : Prop where
  loop : r.todo = none
  spin : r.ended .spin = true
  wait : ∃ i ≤ j, r.sys.est.pending = some i
  none : ∃ c, r.sys.est.corrs[j]? = some c ∧ ¬ c.hasData

theorem stuck_step {mlog : M4 → M4} {ff : Bool} {j : ℕ} {r r' : Run} {ev : Ev} (u : Stuck j r) (h : r.step mlog ff ev = some r') : Stuck j r' := by
  cases ev with
  | shutdown => obtain rfl := Option.some.inj h; exact ⟨u.loop, u.spin, u.wait, u.none⟩
  | msg k m =>
    simp only [Run.step, u.spin, if_true, Option.some.injEq] at h
    exact h ▸ u
  | thread t =>
    simp only [Run.step] at h
    split_ifs at h
    · obtain rfl := Option.some.inj h; exact u
    · obtain rfl := Option.some.inj h; exact ⟨u.loop, update_mono _ _ _ u.spin, u.wait, u.none⟩
    · rw [Option.map_eq_some_iff] at h
      obtain ⟨s, h1, rfl⟩ := h
      obtain ⟨f, hc⟩ := body_fr h1
      exact ⟨u.loop, u.spin, by rw [show ({ r with sys := s } : Run).sys.est.pending = r.sys.est.pending from f.pend]; exact u.wait,
        by rw [show ({ r with sys := s } : Run).sys.est.corrs = r.sys.est.corrs from hc]; exact u.none⟩
  | main =>
    obtain ⟨i, hi, hp⟩ := u.wait
    obtain ⟨c, hc, hd⟩ := u.none
    obtain ⟨sys, ok, todo, ended, stopped, gone⟩ := r
    have hl : todo = .none := u.loop
    subst hl
    dsimp only at hp
    simp only [Run.step, hp, Option.isSome_some, Bool.or_true, if_true, Option.map_eq_some_iff] at h
    obtain ⟨s, h1, rfl⟩ := h
    obtain ⟨i', h2, h3, h4⟩ := tick_stuck hp hi hc hd h1
    exact ⟨rfl, u.spin, ⟨i', h2, h3⟩, ⟨c, h4, hd⟩⟩

theorem stuck_run {mlog : M4 → M4} {ff : Bool} {j : ℕ} (evs : List Ev) : ∀ {r r' : Run}, Stuck j r → r.run mlog ff evs = some r' → Stuck j r' := by
  induction evs with
  | nil => intro r r' d h; obtain rfl := Option.some.inj h; exact d
  | cons ev evs ih =>
    intro r r' d h
    simp only [Run.run, Option.bind_eq_some_iff] at h
    obtain ⟨r1, h1, h2⟩ := h
    exact ih (stuck_step d h1) h2

end Drift.Shut
