import Verif.Spec.Shutdown
import Verif.Props.Logging
import Verif.Lemmas.Sys6

/-!
# Lemmas for C135: what events do not change
-/
namespace Drift.Shut

/-- what no event but a turn of the main loop changes; queues only grow -/
structure Fr (s s' : System) : Prop where
  pend : s'.est.pending = s.est.pending
  en : s'.est.log.enabled = s.est.log.enabled
  filt : s'.filter.isSome = s.filter.isSome
  data : ∀ (j : ℕ) c', s'.est.corrs[j]? = some c' → ∃ c, s.est.corrs[j]? = some c ∧ (c.hasData → c'.hasData)

theorem Fr.refl (s : System) : Fr s s := ⟨rfl, rfl, rfl, fun _ c h => ⟨c, h, id⟩⟩

theorem Fr.trans {a b c : System} (h : Fr a b) (k : Fr b c) : Fr a c :=
  ⟨k.pend.trans h.pend, k.en.trans h.en, k.filt.trans h.filt, fun j c' hc => by
    obtain ⟨c1, h1, h2⟩ := k.data j c' hc
    obtain ⟨c2, h3, h4⟩ := h.data j c1 h1
    exact ⟨c2, h3, h2 ∘ h4⟩⟩

theorem hasData_pushVel (m : VelMeas) (c : Corr) (h : c.hasData) : (c.pushVel m).hasData := by
  cases c <;> simp_all [Corr.pushVel, Corr.hasData]
theorem hasData_pushLeg (m : LegMeas) (c : Corr) (h : c.hasData) : (c.pushLeg m).hasData := by
  cases c <;> simp_all [Corr.pushLeg, Corr.hasData]

theorem modify_data {f : Corr → Corr} (hf : ∀ c : Corr, c.hasData → (f c).hasData) (l : List Corr) (i : ℕ) (j : ℕ) (c' : Corr)
    (h : (l.modify i f)[j]? = some c') : ∃ c, l[j]? = some c ∧ (c.hasData → c'.hasData) := by
  rw [List.getElem?_modify, Option.map_eq_map, Option.map_eq_some_iff] at h
  obtain ⟨c, h1, h2⟩ := h
  refine ⟨c, h1, fun hc => ?_⟩
  rw [← h2]
  split_ifs
  · exact hf c hc
  · exact hc

theorem feed_fr {s s' : System} {p : Port} {m : RosMeas} (h : s.feed p m = some s') : Fr s s' := by
  unfold System.feed at h
  split at h
  · simp only [Estimator.step, Option.map_some, Option.some.injEq] at h
    subst h
    exact ⟨rfl, rfl, rfl, fun _ c h => ⟨c, h, id⟩⟩
  · simp only [Estimator.step, Option.map_some, Option.some.injEq] at h
    subst h
    exact ⟨rfl, rfl, rfl, fun j c' h => modify_data (hasData_pushVel _) _ _ j c' h⟩
  · simp only [Estimator.step, Option.map_some, Option.bind_eq_bind, Option.bind_eq_some_iff] at h
    obtain ⟨l, -, h⟩ := h
    obtain rfl := Option.some.inj h
    exact ⟨rfl, rfl, rfl, fun j c' h => modify_data (hasData_pushLeg _) _ _ j c' h⟩
  · obtain rfl := Option.some.inj h
    exact ⟨rfl, rfl, by simp, fun _ c h => ⟨c, h, id⟩⟩
  · obtain rfl := Option.some.inj h
    exact ⟨rfl, rfl, by simp, fun _ c h => ⟨c, h, id⟩⟩
  · obtain rfl := Option.some.inj h
    exact ⟨rfl, rfl, by simp, fun _ c h => ⟨c, h, id⟩⟩
  · obtain rfl := Option.some.inj h
    exact Fr.refl _

theorem feedAll_fr (l : List (Port × RosMeas)) : ∀ {s s' : System}, s.feedAll l = some s' → Fr s s' := by
  induction l with
  | nil => intro s s' h; obtain rfl := Option.some.inj h; exact Fr.refl _
  | cons x l ih =>
    intro s s' h
    simp only [System.feedAll, Option.bind_eq_some_iff] at h
    obtain ⟨s1, h1, h2⟩ := h
    exact (feed_fr h1).trans (ih h2)

theorem feedAll_imu (l : List ImuMeas) : ∀ {s s' : System}, s.feedAll (l.map fun m => (.imu, .imu m)) = some s' →
    s'.est.corrs = s.est.corrs := by
  induction l with
  | nil => intro s s' h; obtain rfl := Option.some.inj h; rfl
  | cons x l ih =>
    intro s s' h
    simp only [List.map_cons, System.feedAll, Option.bind_eq_some_iff] at h
    obtain ⟨s1, h1, h2⟩ := h
    rw [ih h2]
    simp only [System.feed, Estimator.step, Option.map_some, Option.some.injEq] at h1
    rw [← h1]

theorem step_fr {mlog : M4 → M4} {s s' : System} {ev : SysEv} (he : ev ≠ .tick) (h : s.step mlog ev = some s') : Fr s s' := by
  cases ev with
  | tick => exact absurd rfl he
  | msg i m =>
    simp only [System.step, Option.bind_eq_bind, Option.bind_eq_some_iff] at h
    obtain ⟨sub, -, h⟩ := h
    have := feedAll_fr _ h
    exact ⟨this.pend, this.en, this.filt, this.data⟩
  | filter =>
    unfold System.step at h
    obtain ⟨fo, hf⟩ : ∃ fo, s.filter = fo := ⟨_, rfl⟩
    cases fo with
    | none =>
      simp only [hf] at h
      obtain rfl := Option.some.inj h
      exact Fr.refl _
    | some f =>
      simp only [hf, Option.bind_eq_bind, Option.bind_eq_some_iff] at h
      obtain ⟨f', -, h⟩ := h
      have := feedAll_fr _ h
      exact ⟨this.pend, this.en, by rw [this.filt, hf]; rfl, this.data⟩
  | log =>
    simp only [System.step, Option.map_eq_some_iff, Estimator.step] at h
    obtain ⟨e, ⟨l, h1, rfl⟩, rfl⟩ := h
    exact ⟨rfl, (iter_files h1).2.2.1, rfl, fun _ c h => ⟨c, h, id⟩⟩
  | pose =>
    simp only [System.step, Option.map_eq_some_iff] at h
    obtain ⟨p, -, rfl⟩ := h
    exact ⟨rfl, rfl, rfl, fun _ c h => ⟨c, h, id⟩⟩
  | path =>
    obtain rfl := Option.some.inj h
    exact ⟨rfl, rfl, rfl, fun _ c h => ⟨c, h, id⟩⟩

/-- only messages and turns of the main loop touch the queues of the corrections -/
theorem step_corrs {mlog : M4 → M4} {s s' : System} {ev : SysEv} (he : ev ≠ .tick) (hm : ∀ i m, ev ≠ .msg i m)
    (h : s.step mlog ev = some s') : s'.est.corrs = s.est.corrs := by
  cases ev with
  | tick => exact absurd rfl he
  | msg i m => exact absurd rfl (hm i m)
  | filter =>
    unfold System.step at h
    obtain ⟨fo, hf⟩ : ∃ fo, s.filter = fo := ⟨_, rfl⟩
    cases fo with
    | none =>
      simp only [hf] at h
      obtain rfl := Option.some.inj h
      rfl
    | some f =>
      simp only [hf, Option.bind_eq_bind, Option.bind_eq_some_iff] at h
      obtain ⟨f', -, h⟩ := h
      have := feedAll_imu _ h
      exact this
  | log =>
    simp only [System.step, Option.map_eq_some_iff, Estimator.step] at h
    obtain ⟨e, ⟨l, h1, rfl⟩, rfl⟩ := h
    rfl
  | pose =>
    simp only [System.step, Option.map_eq_some_iff] at h
    obtain ⟨p, -, rfl⟩ := h
    rfl
  | path =>
    obtain rfl := Option.some.inj h
    rfl

theorem tick_const {mlog : M4 → M4} {s s' : System} (h : s.step mlog .tick = some s') :
    s'.est.log.enabled = s.est.log.enabled ∧ s'.filter.isSome = s.filter.isSome := by
  simp only [System.step, Option.map_eq_some_iff, Estimator.step] at h
  obtain ⟨e, h1, rfl⟩ := h
  exact ⟨(tick_log_files h1).2.2.1, rfl⟩

/-! ### `initialize` -/

theorem setInitial_data {c c' : Corr} {s s' : RobotState} {b : Bool} (h : c.setInitial s = some (b, c', s')) :
    (c.hasData ↔ b = true) ∧ (b = false → c' = c) := by
  cases c with
  | vel c =>
    simp only [Corr.setInitial, Option.map_eq_some_iff, VelCorr.setInitial] at h
    obtain ⟨⟨b1, c1, s1⟩, h1, h2⟩ := h
    obtain ⟨rfl, rfl, rfl⟩ : b1 = b ∧ Corr.vel c1 = c' ∧ s1 = s' := by simpa using h2
    obtain ⟨bu, hb⟩ : ∃ bu, c.buffer.getLast? = bu := ⟨_, rfl⟩
    rw [hb] at h1
    cases bu with
    | none =>
      obtain ⟨rfl, rfl, rfl⟩ : false = b1 ∧ c = c1 ∧ s = s1 := by simpa using h1
      rw [List.getLast?_eq_none_iff] at hb
      exact ⟨by simp [Corr.hasData, hb], fun _ => rfl⟩
    | some m =>
      simp only [Option.bind_eq_bind, Option.bind_eq_some_iff] at h1
      obtain ⟨R, -, t, -, h1⟩ := h1
      have : b1 = true := by have := congrArg Prod.fst (Option.some.inj h1); exact this.symm
      refine ⟨by simp only [this, Corr.hasData, iff_true]; intro hn; rw [hn] at hb; simp at hb, fun hf => by simp [this] at hf⟩
  | leg c =>
    simp only [Corr.setInitial, Option.map_eq_some_iff, LegCorr.setInitial] at h
    obtain ⟨⟨b1, c1, s1⟩, h1, h2⟩ := h
    obtain ⟨rfl, rfl, rfl⟩ : b1 = b ∧ Corr.leg c1 = c' ∧ s1 = s' := by simpa using h2
    obtain ⟨bu, hb⟩ : ∃ bu, c.buffer.getLast? = bu := ⟨_, rfl⟩
    rw [hb] at h1
    cases bu with
    | none =>
      obtain ⟨rfl, rfl, rfl⟩ : false = b1 ∧ c = c1 ∧ s = s1 := by simpa using h1
      rw [List.getLast?_eq_none_iff] at hb
      exact ⟨by simp [Corr.hasData, hb], fun _ => rfl⟩
    | some m =>
      simp only [Option.bind_eq_bind, Option.bind_eq_some_iff] at h1
      obtain ⟨w, -, R, -, t, -, h1⟩ := h1
      have : b1 = true := by have := congrArg Prod.fst (Option.some.inj h1); exact this.symm
      refine ⟨by simp only [this, Corr.hasData, iff_true]; intro hn; rw [hn] at hb; simp at hb, fun hf => by simp [this] at hf⟩

theorem initCorrs_all (l : List Corr) : ∀ {done done' todo : List Corr} {s s' : RobotState}, (∀ c ∈ l, c.hasData) →
    Estimator.initCorrs done l s = some (done', todo, s') → todo = [] := by
  induction l with
  | nil => intro done done' todo s s' _ h; simp only [Estimator.initCorrs, Option.some.injEq, Prod.mk.injEq] at h; exact h.2.1.symm
  | cons c l ih =>
    intro done done' todo s s' hd h
    simp only [Estimator.initCorrs, Option.bind_eq_bind, Option.bind_eq_some_iff] at h
    obtain ⟨⟨b, c', s1⟩, h1, h2⟩ := h
    have hb : b = true := (setInitial_data h1).1.mp (hd c (by simp))
    simp only [hb, if_true] at h2
    exact ih (fun c hc => hd c (by simp [hc])) h2

/-- the wait goes on as long as a correction has no data -/
theorem initCorrs_stuck (l : List Corr) : ∀ {done done' todo : List Corr} {s s' : RobotState} {j : ℕ} {c : Corr}, l[j]? = some c → ¬ c.hasData →
    Estimator.initCorrs done l s = some (done', todo, s') →
      ∃ k ≤ j, done'.length = done.length + k ∧ todo ≠ [] ∧ (done' ++ todo)[done.length + j]? = some c := by
  induction l with
  | nil => intro done done' todo s s' j c hj; simp at hj
  | cons c0 l ih =>
    intro done done' todo s s' j c hj hc h
    simp only [Estimator.initCorrs, Option.bind_eq_bind, Option.bind_eq_some_iff] at h
    obtain ⟨⟨b, c', s1⟩, h1, h2⟩ := h
    obtain ⟨a1, a2⟩ := setInitial_data h1
    cases b with
    | true =>
      simp only [if_true] at h2
      rcases j with _ | j
      · simp only [List.getElem?_cons_zero, Option.some.injEq] at hj
        exact absurd (a1.mpr rfl) (hj ▸ hc)
      · rw [List.getElem?_cons_succ] at hj
        obtain ⟨k, b1, b2, b3, b4⟩ := ih hj hc h2
        simp only [List.length_append, List.length_cons, List.length_nil] at b2 b4
        refine ⟨k + 1, by omega, by omega, b3, ?_⟩
        rw [← b4]; congr 1; omega
    | false =>
      simp only [Bool.false_eq_true, if_false, Option.some.injEq, Prod.mk.injEq] at h2
      obtain ⟨rfl, rfl, rfl⟩ := h2
      refine ⟨0, by omega, by omega, by simp, ?_⟩
      rw [a2 rfl, List.getElem?_append_right (by omega)]
      simpa using hj

theorem tick_served {mlog : M4 → M4} {s s' : System} {i : ℕ} (hp : s.est.pending = some i)
    (hd : ∀ (j : ℕ) c, i ≤ j → s.est.corrs[j]? = some c → c.hasData) (h : s.step mlog .tick = some s') : s'.est.pending = none := by
  simp only [System.step, Option.map_eq_some_iff, Estimator.step, Estimator.tick, hp] at h
  obtain ⟨e, h1, rfl⟩ := h
  unfold Estimator.initFrom at h1
  simp only [Option.bind_eq_bind, Option.bind_eq_some_iff] at h1
  obtain ⟨⟨done, todo, st⟩, h2, h1⟩ := h1
  have : todo = [] := initCorrs_all _ (fun c hc => by
    obtain ⟨j, hj⟩ := List.getElem?_of_mem hc
    rw [List.getElem?_drop] at hj
    exact hd (i + j) c (by omega) hj) h2
  subst this
  dsimp only at h1
  unfold Estimator.finishInit at h1
  simp only [Option.bind_eq_bind, Option.bind_eq_some_iff] at h1
  obtain ⟨a, -, b, -, c, -, h1⟩ := h1
  rw [← Option.some.inj h1]

theorem tick_stuck {mlog : M4 → M4} {s s' : System} {i j : ℕ} {c : Corr} (hp : s.est.pending = some i) (hij : i ≤ j)
    (hj : s.est.corrs[j]? = some c) (hc : ¬ c.hasData) (h : s.step mlog .tick = some s') :
    ∃ i' ≤ j, s'.est.pending = some i' ∧ s'.est.corrs[j]? = some c := by
  simp only [System.step, Option.map_eq_some_iff, Estimator.step, Estimator.tick, hp] at h
  obtain ⟨e, h1, rfl⟩ := h
  unfold Estimator.initFrom at h1
  simp only [Option.bind_eq_bind, Option.bind_eq_some_iff] at h1
  obtain ⟨⟨done, todo, st⟩, h2, h1⟩ := h1
  have hlt : j < s.est.corrs.length := (List.getElem?_eq_some_iff.mp hj).1
  have hl : (s.est.corrs.take i).length = i := by rw [List.length_take]; omega
  obtain ⟨k, b1, b2, b3, b4⟩ := initCorrs_stuck _ (j := j - i) (by rw [List.getElem?_drop, Nat.add_sub_cancel' hij]; exact hj) hc h2
  rw [hl] at b2 b4
  rw [Nat.add_sub_cancel' hij] at b4
  cases todo with
  | nil => exact absurd rfl b3
  | cons x xs =>
    dsimp only at h1
    rw [← Option.some.inj h1]
    exact ⟨done.length, by omega, rfl, b4⟩

end Drift.Shut
