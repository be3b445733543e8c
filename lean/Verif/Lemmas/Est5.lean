import Verif.Lemmas.Est4

/-! # Lemmas: logging -/
set_option linter.unusedSimpArgs false
namespace Drift
open Mat Matrix RobotState

/-- how a main-loop turn changes output queue, log and flags -/
inductive TickOut (e e' : Estimator) : Prop
  | quiet (o : e'.outQ = e.outQ) (l : e'.log = e.log) (en : e'.enabled = e.enabled)
  | init (o : e'.outQ = e.outQ ++ [e'.state]) (l : e'.log = e.log) (en : e.enabled = false ∨ e.pending ≠ none)
      (how : (e.pending = none ∧ e.prop.biasInitialized = true ∧ e.initState = some e') ∨ ∃ i, e.pending = some i ∧ e.initFrom i = some e')
  | run (o : e'.outQ = e.outQ ++ [e'.state]) (l : e'.log = e.log.push e'.state) (en : e.enabled = true ∧ e'.enabled = true)

theorem finishInit_out {e e' : Estimator} (h : e.finishInit = some e') :
    e'.outQ = e.outQ ++ [e'.state] ∧ e'.log = e.log ∧ e'.enabled = true ∧ e'.pending = none := by
  unfold Estimator.finishInit at h
  simp only [Option.bind_eq_bind, Option.bind_eq_some_iff] at h
  obtain ⟨s1, -, s2, -, s3, -, h⟩ := h
  rw [← Option.some.inj h]
  exact ⟨rfl, rfl, rfl, rfl⟩

theorem initFrom_out {e e' : Estimator} {i : ℕ} (h : e.initFrom i = some e') :
    (e'.outQ = e.outQ ∧ e'.log = e.log ∧ e'.enabled = e.enabled) ∨ (e'.outQ = e.outQ ++ [e'.state] ∧ e'.log = e.log ∧ e'.enabled = true) := by
  unfold Estimator.initFrom at h
  simp only [Option.bind_eq_bind, Option.bind_eq_some_iff] at h
  obtain ⟨⟨d, t, s⟩, -, h⟩ := h
  cases t with
  | nil => obtain ⟨h1, h2, h3, -⟩ := finishInit_out h; exact .inr ⟨h1, h2, h3⟩
  | cons c cs => simp only at h; rw [← Option.some.inj h]; exact .inl ⟨rfl, rfl, rfl⟩

theorem initState_out {e e' : Estimator} (h : e.initState = some e') :
    (e'.outQ = e.outQ ∧ e'.log = e.log ∧ e'.enabled = e.enabled) ∨ (e'.outQ = e.outQ ++ [e'.state] ∧ e'.log = e.log ∧ e'.enabled = true) := by
  unfold Estimator.initState at h
  simp only [Option.bind_eq_bind, Option.bind_eq_some_iff] at h
  obtain ⟨⟨b, p, s⟩, -, h⟩ := h
  cases b with
  | true =>
    simp only [if_true] at h
    have := initFrom_out h
    exact this
  | false => rw [← Option.some.inj h]; exact .inl ⟨rfl, rfl, rfl⟩

theorem tick_out {e e' : Estimator} (h : e.tick = some e') : TickOut e e' := by
  unfold Estimator.tick at h
  cases hp : e.pending with
  | some i =>
    rw [hp] at h
    rcases initFrom_out h with ⟨h1, h2, h3⟩ | ⟨h1, h2, h3⟩
    · exact .quiet h1 h2 h3
    · exact .init h1 h2 (.inr (by rw [hp]; simp)) (.inr ⟨i, hp, h⟩)
  | none =>
    rw [hp] at h
    simp only at h
    by_cases hen : e.enabled = true
    · rw [if_pos hen] at h
      unfold Estimator.runOnce at h
      simp only [Option.bind_eq_bind, Option.bind_eq_some_iff] at h
      obtain ⟨⟨b, p, s⟩, -, ⟨b', cs, hh, s'⟩, -, h⟩ := h
      simp only at h
      split_ifs at h
      · rw [← Option.some.inj h]; exact .run rfl rfl ⟨hen, hen⟩
      · rw [← Option.some.inj h]; exact .quiet rfl rfl rfl
    · rw [if_neg hen] at h
      by_cases hb : e.prop.biasInitialized = true
      · rw [if_pos hb] at h
        rcases initState_out h with ⟨h1, h2, h3⟩ | ⟨h1, h2, h3⟩
        · exact .quiet h1 h2 h3
        · exact .init h1 h2 (.inl (by simpa using hen)) (.inl ⟨hp, hb, h⟩)
      · rw [if_neg hb] at h
        unfold Estimator.initBias at h
        obtain ⟨p, -, rfl⟩ := Option.map_eq_some_iff.mp h
        exact .quiet rfl rfl rfl

/-! ### rows -/

theorem Spaced.append {d : ℝ} : ∀ {l : List LogRow} {r : LogRow}, Spaced d l → (∀ x, l.getLast? = some x → d ≤ r.time - x.time) → Spaced d (l ++ [r])
  | [], _, _, _ => trivial
  | [a], r, _, h => ⟨h a rfl, trivial⟩
  | a :: b :: l, r, h, hl => ⟨h.1, Spaced.append (l := b :: l) h.2 fun x hx => hl x (by rw [List.getLast?_cons_cons]; exact hx)⟩

/-- the invariant of the logger: what was written are rows of a subsequence `l` of the states pushed before
those still queued -/
structure LogInv (rate : ℝ) (ps : List RobotState) (g : Logger) : Prop where
  rate_eq : g.rate = rate
  rows : ∃ l, List.Sublist (l ++ g.queue) ps ∧ List.Forall₂ IsRow l g.written
  gaps : Spaced (1 / rate) g.written
  last : ∀ x, g.written.getLast? = some x → x.time = g.lastPub
  zero : rate = 0 → g.written = []

theorem logInv_mono {rate ps qs g} (h : List.Sublist ps qs) (i : LogInv rate ps g) : LogInv rate qs g :=
  ⟨i.rate_eq, i.rows.imp fun _ q => ⟨q.1.trans h, q.2⟩, i.gaps, i.last, i.zero⟩

theorem logInv_push {rate ps g} (s : RobotState) (i : LogInv rate ps g) : LogInv rate (ps ++ [s]) (g.push s) := by
  unfold Logger.push
  split_ifs
  · obtain ⟨l, h1, h2⟩ := i.rows
    refine ⟨i.rate_eq, ⟨l, ?_, h2⟩, i.gaps, i.last, i.zero⟩
    show List.Sublist (l ++ (g.queue ++ [s])) _
    rw [← List.append_assoc]
    exact h1.append (List.Sublist.refl _)
  · exact logInv_mono (List.sublist_append_left _ _) i

theorem logInv_clear {rate ps g} (i : LogInv rate ps g) : LogInv rate ps g.clear := by
  obtain ⟨l, h1, h2⟩ := i.rows
  have hl : List.Sublist (l ++ []) ps := by
    rw [List.append_nil]; exact (List.sublist_append_left _ _).trans h1
  unfold Logger.clear
  dsimp only
  split_ifs
  · exact ⟨i.rate_eq, ⟨l, hl, h2⟩, i.gaps, i.last, i.zero⟩
  · exact ⟨i.rate_eq, ⟨l, hl, h2⟩, i.gaps, i.last, i.zero⟩

theorem logInv_iter {rate ps g g'} (i : LogInv rate ps g) (h : Logger.iter g = some g') : LogInv rate ps g' := by
  unfold Logger.iter at h
  cases hq : g.queue with
  | nil => rw [hq] at h; cases h; exact i
  | cons s rest =>
    rw [hq] at h
    simp only [Option.bind_eq_bind, Option.bind_eq_some_iff] at h
    obtain ⟨t, ht, h⟩ := h
    obtain ⟨l, h1, h2⟩ := i.rows
    rw [hq] at h1
    by_cases hd : g.enabled = true ∧ Logger.due { g with queue := rest } t
    · rw [if_pos hd] at h
      simp only [Option.bind_eq_some_iff] at h
      obtain ⟨p, hp, R, hR, v, hv, b, hb, h⟩ := h
      rw [← Option.some.inj h]
      obtain ⟨-, hd0, hd⟩ := hd
      have hd : t - g.lastPub ≥ 1 / g.rate := hd
      rw [i.rate_eq] at hd
      refine ⟨i.rate_eq, ⟨l ++ [s], by simpa using h1, ?_⟩, ?_, by simp, fun h0 => ?_⟩
      · exact List.rel_append h2 (.cons ⟨ht, hp, hR, hv, hb⟩ .nil)
      · refine Spaced.append i.gaps fun x hx => ?_
        rw [i.last x hx]; exact hd
      · exact absurd (i.rate_eq.trans h0) hd0
    · rw [if_neg hd] at h
      rw [← Option.some.inj h]
      refine ⟨i.rate_eq, ⟨l, ?_, h2⟩, i.gaps, i.last, i.zero⟩
      refine List.Sublist.trans ?_ h1
      exact List.Sublist.append (List.Sublist.refl _) (List.sublist_cons_self _ _)

theorem logInv_run (evs : List EstEv) : ∀ {e e' : Estimator} {rate ps}, LogInv rate ps e.log → e.run evs = some e' →
    LogInv rate (ps ++ published e evs) e'.log := by
  induction evs with
  | nil => intro e e' rate ps i h; cases h; simpa [published] using i
  | cons ev evs ih =>
    intro e e' rate ps i h
    simp only [Estimator.run, Option.bind_eq_some_iff] at h
    obtain ⟨e1, h1, h2⟩ := h
    have key : LogInv rate (ps ++ publishedBy e ev) e1.log := by
      cases ev with
      | tick =>
        have hp : publishedBy e .tick = e1.outQ.drop e.outQ.length := by unfold publishedBy; rw [h1]
        have ht : e.tick = some e1 := h1
        rw [hp]
        cases tick_out ht with
        | quiet o l en => rw [l, o]; simpa using i
        | init o l en => rw [l]; exact logInv_mono (List.sublist_append_left _ _) i
        | run o l en =>
          rw [l, o]
          simpa using logInv_push e1.state i
      | imu m => cases h1; simpa [publishedBy] using i
      | vel k m => cases h1; simpa [publishedBy] using i
      | leg k m => cases h1; simpa [publishedBy] using i
      | consume => cases h1; simpa [publishedBy] using i
      | clear =>
        unfold Estimator.step at h1
        cases hp : e.pending with
        | none => rw [hp] at h1; cases h1; simpa [publishedBy, Estimator.clear] using logInv_clear i
        | some k => rw [hp] at h1; cases h1; simpa [publishedBy] using i
      | log =>
        simp only [Estimator.step, Option.map_eq_some_iff] at h1
        obtain ⟨l, h1, rfl⟩ := h1
        simpa [publishedBy] using logInv_iter i h1
    have hpub : published e (ev :: evs) = publishedBy e ev ++ published e1 evs := by
      rw [published, h1]
    rw [hpub, ← List.append_assoc]
    exact ih key h2

/-! ### file names -/

theorem digitChar_inj {a b : ℕ} (ha : a < 10) (hb : b < 10) (h : Nat.digitChar a = Nat.digitChar b) : a = b := by
  interval_cases a <;> interval_cases b <;> first | rfl | (exfalso; revert h; decide)

theorem digitChar_ne {a : ℕ} (ha : a < 10) : Nat.digitChar a ≠ '.' ∧ Nat.digitChar a ≠ '_' ∧ Nat.digitChar a ≠ 'b' := by
  interval_cases a <;> decide

theorem map_digitChar_inj : ∀ {l m : List ℕ}, (∀ a ∈ l, a < 10) → (∀ a ∈ m, a < 10) → l.map Nat.digitChar = m.map Nat.digitChar → l = m
  | [], [], _, _, _ => rfl
  | [], _ :: _, _, _, h => by simp at h
  | _ :: _, [], _, _, h => by simp at h
  | a :: l, b :: m, hl, hm, h => by
    simp only [List.map_cons, List.cons.injEq] at h
    rw [digitChar_inj (hl a (by simp)) (hm b (by simp)) h.1,
      map_digitChar_inj (fun x hx => hl x (by simp [hx])) (fun x hx => hm x (by simp [hx])) h.2]

theorem dec_inj {a b : ℕ} (h : Logger.dec a = Logger.dec b) : a = b := by
  unfold Logger.dec at h
  have h := List.reverse_injective h
  have := map_digitChar_inj (fun x hx => Nat.digits_lt_base (by norm_num) hx) (fun x hx => Nat.digits_lt_base (by norm_num) hx) h
  exact Nat.digits_inj_iff.mp this

theorem dec_mem {n : ℕ} {c : Char} (h : c ∈ Logger.dec n) : c ≠ '.' ∧ c ≠ '_' ∧ c ≠ 'b' := by
  unfold Logger.dec at h
  rw [List.mem_reverse, List.mem_map] at h
  obtain ⟨a, ha, rfl⟩ := h
  exact digitChar_ne (Nat.digits_lt_base (by norm_num) ha)

theorem dec_ne_nil {n : ℕ} (h : n ≠ 0) : Logger.dec n ≠ [] := by
  unfold Logger.dec
  simp [Nat.digits_ne_nil_iff_ne_zero.mpr h]

end Drift
