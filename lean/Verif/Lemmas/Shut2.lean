import Verif.Lemmas.Shut1

/-!
# Lemmas for C135: the destructors
-/
namespace Drift.Shut

/-- an action has been carried out -/
def Did (r : Run) : Act → Prop
  | .join t => r.ended t = true
  | .stop t => r.stopped t = true
  | .gone o => r.gone o = true

/-- the main thread has carried out the first `k` actions of the destructors -/
structure Inv (r : Run) : Prop where
  nolog : r.sys.est.log.enabled = false → r.ended .log = true
  nofilter : r.sys.filter.isSome = false → r.ended .filter = true
  loop : r.todo = none → ∀ o, r.gone o = false
  out : ∀ l, r.todo = some l → r.ok = false ∧ ∃ (ff : Bool) (k : ℕ),
    l = (unwind ff r.sys.est.log.enabled r.sys.filter.isSome).drop k ∧
    (∀ a ∈ (unwind ff r.sys.est.log.enabled r.sys.filter.isSome).take k, Did r a) ∧
    ∀ o, r.gone o = true → Act.gone o ∈ (unwind ff r.sys.est.log.enabled r.sys.filter.isSome).take k

theorem did_mono {r r' : Run} (he : ∀ t, r.ended t = true → r'.ended t = true) (hs : ∀ t, r.stopped t = true → r'.stopped t = true)
    (hg : ∀ o, r.gone o = true → r'.gone o = true) (a : Act) (h : Did r a) : Did r' a := by
  cases a with
  | join t => exact he t h
  | stop t => exact hs t h
  | gone o => exact hg o h

theorem inv_begin (s : System) : Inv (Run.begin s) :=
  ⟨fun h => (by have h : s.est.log.enabled = false := h; simp [Run.begin, h]), fun h => (by have h : s.filter.isSome = false := h; simp [Run.begin, h]), fun _ _ => rfl, fun l h => by simp [Run.begin] at h⟩

/-- a step of the system only -/
theorem Inv.sys {r : Run} (i : Inv r) {s : System} (he : s.est.log.enabled = r.sys.est.log.enabled) (hf : s.filter.isSome = r.sys.filter.isSome) :
    Inv { r with sys := s } :=
  ⟨fun h => i.nolog (he ▸ h), fun h => i.nofilter (hf ▸ h), i.loop, fun l hl => by
    obtain ⟨a, ff, k, b, c, d⟩ := i.out l hl
    refine ⟨a, ff, k, ?_, ?_, ?_⟩
    · show l = (unwind ff s.est.log.enabled s.filter.isSome).drop k
      rw [he, hf]; exact b
    · show ∀ a ∈ (unwind ff s.est.log.enabled s.filter.isSome).take k, _
      rw [he, hf]; exact c
    · show ∀ o, _ → Act.gone o ∈ (unwind ff s.est.log.enabled s.filter.isSome).take k
      rw [he, hf]; exact d⟩

theorem body_fr {mlog : M4 → M4} {r : Run} {t : Thread} {s : System} (h : r.body mlog t = some s) : Fr r.sys s ∧ s.est.corrs = r.sys.est.corrs := by
  cases t with
  | pose =>
    have h : r.sys.step mlog .pose = some s := h
    exact ⟨step_fr (by simp) h, step_corrs (by simp) (by simp) h⟩
  | path =>
    have h : r.sys.step mlog .path = some s := h
    exact ⟨step_fr (by simp) h, step_corrs (by simp) (by simp) h⟩
  | log =>
    have h : r.sys.step mlog .log = some s := h
    exact ⟨step_fr (by simp) h, step_corrs (by simp) (by simp) h⟩
  | filter =>
    have h : r.sys.step mlog .filter = some s := h
    exact ⟨step_fr (by simp) h, step_corrs (by simp) (by simp) h⟩
  | spin => obtain rfl := Option.some.inj h; exact ⟨Fr.refl _, rfl⟩

theorem update_mono {α : Type} [DecidableEq α] (f : α → Bool) (a : α) : ∀ t, f t = true → Function.update f a true t = true := by
  intro t h
  by_cases hh : t = a
  · rw [hh, Function.update_self]
  · rw [Function.update_of_ne hh]; exact h

theorem Inv.act {r r' : Run} (i : Inv r) {a : Act} {l : List Act} (hl : r.todo = some (a :: l)) (h1 : r'.todo = some l) (h2 : r'.sys = r.sys)
    (h3 : r'.ok = r.ok) (he : r'.ended = r.ended) (hs : ∀ t, r.stopped t = true → r'.stopped t = true)
    (hg : ∀ o, r.gone o = true → r'.gone o = true) (hg' : ∀ o, r'.gone o = true → r.gone o = true ∨ a = .gone o) (ha : Did r' a) : Inv r' := by
  refine ⟨fun h => ?_, fun h => ?_, fun h => (by rw [h1] at h; cases h), fun l' hl' => ?_⟩
  · rw [h2] at h; rw [he]; exact i.nolog h
  · rw [h2] at h; rw [he]; exact i.nofilter h
  · rw [h1] at hl'
    obtain rfl := Option.some.inj hl'
    obtain ⟨a1, ff, k, b, c, d⟩ := i.out _ hl
    have hk : (unwind ff r.sys.est.log.enabled r.sys.filter.isSome)[k]? = some a := by
      have := congrArg (·[0]?) b
      simp only [List.getElem?_cons_zero, List.getElem?_drop, Nat.add_zero] at this
      exact this.symm
    refine ⟨h3.trans a1, ff, k + 1, ?_, ?_, ?_⟩
    · rw [h2, ← List.tail_drop, ← b]; rfl
    · rw [h2, List.take_add_one, hk]
      intro x hx
      simp only [Option.toList_some, List.mem_append, List.mem_singleton] at hx
      rcases hx with hx | rfl
      · exact did_mono (by rw [he]; exact fun _ h => h) hs hg x (c x hx)
      · exact ha
    · rw [h2, List.take_add_one, hk]
      intro o ho
      simp only [Option.toList_some, List.mem_append, List.mem_singleton]
      rcases hg' o ho with h | h
      · exact .inl (d o h)
      · exact .inr h.symm

theorem Inv.step {mlog : M4 → M4} {ff : Bool} {r r' : Run} {ev : Ev} (i : Inv r) (h : r.step mlog ff ev = some r') : Inv r' := by
  cases ev with
  | shutdown =>
    obtain rfl := Option.some.inj h
    exact ⟨i.nolog, i.nofilter, i.loop, fun l hl => ⟨rfl, (i.out l hl).2⟩⟩
  | msg k m =>
    simp only [Run.step] at h
    split_ifs at h
    · obtain rfl := Option.some.inj h; exact i
    · rw [Option.map_eq_some_iff] at h
      obtain ⟨s, h1, rfl⟩ := h
      have f := step_fr (by simp) h1
      exact i.sys f.en f.filt
  | thread t =>
    simp only [Run.step] at h
    split_ifs at h with h1 h2
    · obtain rfl := Option.some.inj h; exact i
    · obtain rfl := Option.some.inj h
      refine ⟨fun h => update_mono _ _ _ (i.nolog h), fun h => update_mono _ _ _ (i.nofilter h), i.loop, fun l hl => ?_⟩
      obtain ⟨a, ff, k, b, c, d⟩ := i.out l hl
      exact ⟨a, ff, k, b, fun a ha => did_mono (r' := { r with ended := Function.update r.ended t true }) (update_mono _ _) (fun _ h => h) (fun _ h => h) a (c a ha), d⟩
    · rw [Option.map_eq_some_iff] at h
      obtain ⟨s, h3, rfl⟩ := h
      have f := (body_fr h3).1
      exact i.sys f.en f.filt
  | main =>
    obtain ⟨sys, ok, todo, ended, stopped, gone⟩ := r
    simp only [Run.step] at h
    rcases todo with _ | _ | ⟨a, l⟩
    · dsimp only at h
      split_ifs at h with h1
      · rw [Option.map_eq_some_iff] at h
        obtain ⟨s, h3, rfl⟩ := h
        have f := tick_const h3
        exact i.sys f.1 f.2
      · obtain rfl := Option.some.inj h
        have hg := i.loop rfl
        refine ⟨i.nolog, i.nofilter, fun h => by simp at h, fun l hl => ?_⟩
        obtain rfl := Option.some.inj hl
        refine ⟨?_, ff, 0, by simp, by simp, fun o ho => ?_⟩
        · simp only [Bool.or_eq_true, not_or, Bool.not_eq_true] at h1
          exact h1.1
        · have : gone o = true := ho
          exact absurd this (by have := hg o; simpa using this)
    · obtain rfl := Option.some.inj h; exact i
    · cases a with
      | join t =>
        dsimp only at h
        split_ifs at h with h1
        · obtain rfl := Option.some.inj h
          exact i.act rfl rfl rfl rfl rfl (fun _ h => h) (fun _ h => h) (fun _ h => .inl h) h1
        · obtain rfl := Option.some.inj h; exact i
      | stop t =>
        obtain rfl := Option.some.inj h
        exact i.act rfl rfl rfl rfl rfl (update_mono _ _) (fun _ h => h) (fun _ h => .inl h) (Function.update_self ..)
      | gone o =>
        obtain rfl := Option.some.inj h
        refine i.act rfl rfl rfl rfl rfl (fun _ h => h) (update_mono _ _) (fun o' h => ?_) (Function.update_self ..)
        by_cases hh : o' = o
        · exact .inr (by rw [hh])
        · left
          have : Function.update gone o true o' = true := h
          rw [Function.update_of_ne hh] at this; exact this

theorem Inv.run {mlog : M4 → M4} {ff : Bool} (evs : List Ev) : ∀ {r r' : Run}, Inv r → r.run mlog ff evs = some r' → Inv r' := by
  induction evs with
  | nil => intro r r' i h; obtain rfl := Option.some.inj h; exact i
  | cons ev evs ih =>
    intro r r' i h
    simp only [Run.run, Option.bind_eq_some_iff] at h
    obtain ⟨r1, h1, h2⟩ := h
    exact ih (i.step h1) h2

def threads : List Thread := [.pose, .path, .log, .filter, .spin]

theorem mem_threads (t : Thread) : t ∈ threads := by cases t <;> decide

theorem unwind_length (ff lg fl : Bool) : (unwind ff lg fl).length ≤ 11 := by revert ff lg fl; decide

/-- before a thread is joined, it is told to stop -/
theorem stop_before (ff lg fl : Bool) (k : ℕ) (t : Thread) (h : (unwind ff lg fl)[k]? = some (.join t)) (h1 : t = .log ∨ t = .filter) :
    Act.stop t ∈ (unwind ff lg fl).take k := by
  have aux : ∀ ff lg fl : Bool, ∀ k < 11, ∀ t ∈ [Thread.log, Thread.filter], (unwind ff lg fl)[k]? = some (.join t) →
      Act.stop t ∈ (unwind ff lg fl).take k := by decide
  have hk : k < 11 := lt_of_lt_of_le (List.getElem?_eq_some_iff.mp h).1 (unwind_length ff lg fl)
  exact aux ff lg fl k hk t (by simpa using h1) h

/-- before an object is destroyed, its threads are joined -/
theorem join_before (ff lg fl : Bool) (k : ℕ) (t : Thread) (h : Act.gone (uses t) ∈ (unwind ff lg fl).take k) :
    Act.join t ∈ (unwind ff lg fl).take k ∨ (lg = false ∧ t = .log) ∨ (fl = false ∧ t = .filter) := by
  have aux : ∀ ff lg fl : Bool, ∀ k < 12, ∀ t ∈ threads, Act.gone (uses t) ∈ (unwind ff lg fl).take k →
    Act.join t ∈ (unwind ff lg fl).take k ∨ (lg = false ∧ t = .log) ∨ (fl = false ∧ t = .filter) := by decide
  rcases Nat.lt_or_ge k 12 with hk | hk
  · exact aux ff lg fl k hk t (mem_threads t) h
  · have e : (unwind ff lg fl).take k = (unwind ff lg fl).take 11 := by
      rw [List.take_of_length_le (le_trans (unwind_length ff lg fl) (by omega)), List.take_of_length_le (unwind_length ff lg fl)]
    rw [e] at h ⊢
    exact aux ff lg fl 11 (by omega) t (mem_threads t) h

end Drift.Shut
