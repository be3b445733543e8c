import Verif.Lemmas.LogThread2

namespace Drift.LogT
variable {α : Type}

/-! ### executions without `clear` -/

def LPC.inHand : LPC (ℕ × α) → List (ℕ × α)
  | .unlock s => [s]
  | .rate s => [s]
  | .write _ s => [s]
  | _ => []

def LPC.wrote (k : File) : LPC (ℕ × α) → List (ℕ × α)
  | .write j s => if k < j then [s] else []
  | _ => []

def MPC.noClear : MPC α → Bool
  | .clearLock => false
  | .clearPop => false
  | .clearUnlock => false
  | .close _ => false
  | .reopen _ => false
  | _ => true

structure Inv2 (time : α → ℝ) (rate : ℝ) (y : Sys α) : Prop where
  nc : y.M.noClear = true
  log : ∃ D, y.pushed = D ++ y.L.inHand ++ y.queue ∧
    (∀ Q, limited (fun s => time s.2) rate 0 (D ++ Q) = limited (fun s => time s.2) rate 0 D ++ limited (fun s => time s.2) rate y.last Q) ∧
    ∀ k, (y.out k).map Prod.snd = limited (fun s => time s.2) rate 0 D ++ y.L.wrote k
  due : ∀ j s, y.L = .write j s → rate ≠ 0 ∧ time s.2 - y.last ≥ 1 / rate

theorem inv2_init (time : α → ℝ) (rate : ℝ) : Inv2 time rate ({} : Sys α) :=
  ⟨rfl, ⟨[], rfl, fun Q => by simp [limited], fun k => by simp [limited, LPC.wrote]⟩, fun _ _ e => by cases e⟩

theorem put_open {y : Sys α} {k : File} {n : ℕ} (hf : y.file k = some n) (s : ℕ × α) (j : File) :
    (y.put k s j).map Prod.snd = (y.out j).map Prod.snd ++ (if j = k then [s] else []) := by
  unfold Sys.put
  rw [hf]
  by_cases h : j = k
  · subst h; simp
  · simp [h]

theorem inv2_logger {time : α → ℝ} {rate : ℝ} {y y' : Sys α} (i : Inv time rate y) (i2 : Inv2 time rate y) (h : y.stepL time rate = some y') : Inv2 time rate y' := by
  obtain ⟨D, h1, h2, h3⟩ := i2.log
  have hfile : y.L ≠ .exited → ∀ k, y.file k = some y.session := by
    intro hL k
    have hn := i2.nc
    have hd : y.M ≠ .done := fun e => hL (i.dn (.inr e))
    rw [i.file k]
    revert hn hd
    cases y.M <;> simp [MPC.noClear, MPC.fileOf]
  unfold Sys.stepL at h
  cases hL : y.L with
  | test =>
    rw [hL] at h h1 h3
    obtain rfl := Option.some.inj h
    refine ⟨i2.nc, ⟨D, ?_, h2, fun k => ?_⟩, fun j s e => ?_⟩
    · cases hs : y.stop <;> exact h1
    · cases hs : y.stop <;> exact h3 k
    · cases hs : y.stop <;> simp [hs] at e
  | lock =>
    rw [hL] at h h1 h3
    cases ho : y.owner with
    | some b => rw [ho] at h; cases h
    | none =>
      rw [ho] at h
      obtain rfl := Option.some.inj h
      exact ⟨i2.nc, ⟨D, h1, h2, h3⟩, fun j s e => by cases e⟩
  | look =>
    rw [hL] at h h1 h3
    cases hq : y.queue with
    | nil =>
      rw [hq] at h h1
      obtain rfl := Option.some.inj h
      exact ⟨i2.nc, ⟨D, h1, h2, h3⟩, fun j s e => by cases e⟩
    | cons s q =>
      rw [hq] at h h1
      obtain rfl := Option.some.inj h
      exact ⟨i2.nc, ⟨D, by simpa [LPC.inHand] using h1, h2, h3⟩, fun j s e => by cases e⟩
  | unlockEmpty =>
    rw [hL] at h h1 h3
    obtain rfl := Option.some.inj h
    exact ⟨i2.nc, ⟨D, h1, h2, h3⟩, fun j s e => by cases e⟩
  | unlock s =>
    rw [hL] at h h1 h3
    obtain rfl := Option.some.inj h
    exact ⟨i2.nc, ⟨D, h1, h2, h3⟩, fun j s e => by cases e⟩
  | rate s =>
    rw [hL] at h h1 h3
    obtain rfl := Option.some.inj h
    by_cases hc : rate ≠ 0 ∧ time s.2 - y.last ≥ 1 / rate
    · rw [if_pos hc]
      exact ⟨i2.nc, ⟨D, h1, h2, fun k => by simpa [LPC.wrote] using h3 k⟩, fun j x e => by cases e; exact hc⟩
    · rw [if_neg hc]
      have e0 : limited (fun s : ℕ × α => time s.2) rate 0 (D ++ [s]) = limited (fun s => time s.2) rate 0 D := by
        rw [h2 [s]]; simp only [limited]; rw [if_neg hc, List.append_nil]
      refine ⟨i2.nc, ⟨D ++ [s], by simpa [LPC.inHand] using h1, fun Q => ?_, fun k => ?_⟩, fun j x e => by cases e⟩
      · rw [e0, List.append_assoc, List.singleton_append, h2 (s :: Q)]
        simp only [limited]; rw [if_neg hc]
      · rw [e0]; exact h3 k
  | write k s =>
    have hd := i2.due k s hL
    have hf := hfile (by rw [hL]; simp) k
    rw [hL] at h h1 h3
    have key : ∀ k' : File, k'.val = k.val + 1 → Inv2 time rate { y with out := y.put k s, L := .write k' s } := by
      intro k' hk'
      refine ⟨i2.nc, ⟨D, h1, h2, fun j => ?_⟩, fun j x e => by cases e; exact hd⟩
      show (y.put k s j).map Prod.snd = _
      rw [put_open hf, h3 j, List.append_assoc]
      congr 1
      simp only [LPC.wrote]
      rcases lt_trichotomy j k with hj | hj | hj
      · rw [if_pos hj, if_neg (ne_of_lt hj), if_pos (by rw [Fin.lt_def] at *; omega)]; rfl
      · subst hj
        rw [if_neg (lt_irrefl _), if_pos rfl, if_pos (by rw [Fin.lt_def]; omega)]; rfl
      · rw [if_neg (not_lt.mpr hj.le), if_neg (ne_of_gt hj), if_neg (by rw [Fin.lt_def] at *; omega)]; rfl
    match k, key, h with
    | 0, key, h =>
      obtain rfl := Option.some.inj h
      exact key 1 rfl
    | 1, key, h =>
      obtain rfl := Option.some.inj h
      exact key 2 rfl
    | 2, key, h =>
      obtain rfl := Option.some.inj h
      have e0 : limited (fun s : ℕ × α => time s.2) rate 0 (D ++ [s]) = limited (fun s => time s.2) rate 0 D ++ [s] := by
        rw [h2 [s]]; simp only [limited]; rw [if_pos hd]
      refine ⟨i2.nc, ⟨D ++ [s], by simpa [LPC.inHand] using h1, fun Q => ?_, fun j => ?_⟩, fun j x e => by cases e⟩
      · rw [e0, List.append_assoc, List.singleton_append, h2 (s :: Q)]
        simp only [limited]; rw [if_pos hd]; simp
      · show (y.put 2 s j).map Prod.snd = _
        rw [put_open (hfile (by rw [hL]; simp) 2), h3 j, e0]
        simp only [LPC.wrote, List.append_nil]
        have hj := j.isLt
        by_cases h2 : j = 2
        · subst h2; simp
        · have : j < 2 := by rw [Fin.lt_def]; show j.val < 2; have : j.val ≠ 2 := fun e => h2 (Fin.ext e); omega
          rw [if_pos this, if_neg h2, List.append_nil]
  | exited => rw [hL] at h; cases h

theorem inv2_owner {time : α → ℝ} {rate : ℝ} {y y' : Sys α} (i2 : Inv2 time rate y) (h : y.stepM = some y') : Inv2 time rate y' := by
  obtain ⟨D, h1, h2, h3⟩ := i2.log
  have hn := i2.nc
  have hd := i2.due
  unfold Sys.stepM at h
  cases hM : y.M <;> rw [hM] at h hn
  case push s =>
    obtain rfl := Option.some.inj h
    exact ⟨rfl, ⟨D, by simp [h1], h2, h3⟩, hd⟩
  case pushLock s =>
    cases ho : y.owner with
    | some b => rw [ho] at h; cases h
    | none => rw [ho] at h; obtain rfl := Option.some.inj h; exact ⟨rfl, ⟨D, h1, h2, h3⟩, hd⟩
  case join =>
    cases hL : y.L <;> rw [hL] at h
    case exited =>
      obtain rfl := Option.some.inj h
      rw [hL] at h1 h3
      exact ⟨rfl, ⟨D, h1, h2, h3⟩, fun j s e => by cases e⟩
    all_goals cases h
  all_goals first | (cases hn; done) | (cases h; done) | (obtain rfl := Option.some.inj h; exact ⟨rfl, ⟨D, h1, h2, h3⟩, hd⟩)

theorem inv2_call {time : α → ℝ} {rate : ℝ} {y y' : Sys α} (i2 : Inv2 time rate y) {o : Op α} (hc : o ≠ .clear)
    (h : y.call o = some y') : Inv2 time rate y' := by
  obtain ⟨D, h1, h2, h3⟩ := i2.log
  have hd := i2.due
  unfold Sys.call at h
  cases hM : y.M <;> rw [hM] at h
  case idle =>
    obtain rfl := Option.some.inj h
    cases o with
    | log s => exact ⟨rfl, ⟨D, h1, h2, h3⟩, hd⟩
    | clear => exact absurd rfl hc
    | destroy => exact ⟨rfl, ⟨D, h1, h2, h3⟩, hd⟩
  all_goals cases h

theorem inv2_run {time : α → ℝ} {rate : ℝ} (as : List (Act α)) : ∀ {y y' : Sys α}, Inv time rate y → Inv2 time rate y → (Act.call .clear) ∉ as →
    y.run time rate as = some y' → Inv2 time rate y' := by
  induction as with
  | nil => intro y y' i i2 _ h; rw [← Option.some.inj h]; exact i2
  | cons a as ih =>
    intro y y' i i2 hn h
    obtain ⟨z, hz, h'⟩ := Option.bind_eq_some_iff.mp h
    have hn' : Act.call Op.clear ∉ as := fun e => hn (List.mem_cons_of_mem _ e)
    cases a with
    | logger => exact ih (inv_logger i hz) (inv2_logger i i2 hz) hn' h'
    | owner => exact ih (inv_owner i hz) (inv2_owner i2 hz) hn' h'
    | call o =>
      refine ih (inv_call i hz) (inv2_call i2 (fun e => hn ?_) hz) hn' h'
      subst e; simp

/-! ### progress -/

def LPC.rk : LPC (ℕ × α) → ℕ
  | .test => 0
  | .lock => 7
  | .look => 6
  | .unlockEmpty => 1
  | .unlock _ => 5
  | .rate _ => 4
  | .write j _ => 3 - j.val
  | .exited => 0

theorem step_rk {time : α → ℝ} {rate : ℝ} {y : Sys α} (i : Inv time rate y) (hM : y.M.locks = false) (h1 : y.L ≠ .exited) (h2 : y.L ≠ .test) :
    ∃ z, y.stepL time rate = some z ∧ z.L ≠ .exited ∧ z.L.rk < y.L.rk ∧ z.M = y.M ∧ z.stop = y.stop ∧ z.pushed = y.pushed ∧ z.queue.length ≤ y.queue.length ∧
      (y.L = .look → y.queue ≠ [] → z.queue.length < y.queue.length) ∧ (y.L = .lock → z.L = .look ∧ z.queue = y.queue) := by
  unfold Sys.stepL
  cases hL : y.L with
  | test => exact absurd hL h2
  | exited => exact absurd hL h1
  | lock =>
    have ho : y.owner = none := by
      have a := i.ownL; have b := i.ownM
      rw [hL] at a; rw [hM] at b
      cases h : y.owner with
      | none => rfl
      | some c => cases c <;> simp [h, LPC.locks] at a b
    simp only [ho]
    exact ⟨_, rfl, by simp, by simp [LPC.rk], rfl, rfl, rfl, le_rfl, fun e => (by cases e), fun _ => ⟨rfl, rfl⟩⟩
  | look =>
    cases hq : y.queue with
    | nil => exact ⟨_, rfl, by simp, by simp [LPC.rk], rfl, rfl, rfl, by simp, fun _ e => absurd rfl e, fun e => (by cases e)⟩
    | cons s q => exact ⟨_, rfl, by simp, by simp [LPC.rk], rfl, rfl, rfl, by simp, fun _ _ => by simp, fun e => (by cases e)⟩
  | unlockEmpty => exact ⟨_, rfl, by simp, by simp [LPC.rk], rfl, rfl, rfl, le_rfl, fun e => (by cases e), fun e => (by cases e)⟩
  | unlock s => exact ⟨_, rfl, by simp, by simp [LPC.rk], rfl, rfl, rfl, le_rfl, fun e => (by cases e), fun e => (by cases e)⟩
  | rate s =>
    refine ⟨_, rfl, ?_, ?_, rfl, rfl, rfl, le_rfl, fun e => (by cases e), fun e => (by cases e)⟩
    · dsimp only; split_ifs <;> simp
    · dsimp only; split_ifs <;> simp [LPC.rk]
  | write k s =>
    match k with
    | 0 => exact ⟨_, rfl, by simp, by simp [LPC.rk], rfl, rfl, rfl, le_rfl, fun e => (by cases e), fun e => (by cases e)⟩
    | 1 => exact ⟨_, rfl, by simp, by simp [LPC.rk], rfl, rfl, rfl, le_rfl, fun e => (by cases e), fun e => (by cases e)⟩
    | 2 => exact ⟨_, rfl, by simp, by simp [LPC.rk], rfl, rfl, rfl, le_rfl, fun e => (by cases e), fun e => (by cases e)⟩

theorem run_logger_succ {time : α → ℝ} {rate : ℝ} {y z : Sys α} (h : y.stepL time rate = some z) (n : ℕ) :
    y.run time rate (List.replicate (n + 1) .logger) = z.run time rate (List.replicate n .logger) := by
  rw [List.replicate_succ]
  show (y.stepL time rate).bind _ = _
  rw [h]; rfl

theorem run_append {time : α → ℝ} {rate : ℝ} (as bs : List (Act α)) : ∀ y : Sys α,
    y.run time rate (as ++ bs) = (y.run time rate as).bind fun z => z.run time rate bs := by
  induction as with
  | nil => intro y; rfl
  | cons a as ih =>
    intro y
    show (y.act time rate a).bind _ = ((y.act time rate a).bind _).bind _
    cases y.act time rate a with
    | none => rfl
    | some z => exact ih z

/-- the logging thread gets back to the top of its loop -/
theorem to_test {time : α → ℝ} {rate : ℝ} (r : ℕ) : ∀ {y : Sys α}, y.L.rk ≤ r → Inv time rate y → y.M.locks = false → y.L ≠ .exited →
    ∃ n ≤ r, ∃ z, y.run time rate (List.replicate n .logger) = some z ∧ z.L = .test ∧ z.M = y.M ∧ z.stop = y.stop ∧ z.pushed = y.pushed ∧
      z.queue.length ≤ y.queue.length ∧ (y.L = .lock ∨ y.L = .look → y.queue ≠ [] → z.queue.length < y.queue.length) := by
  induction r with
  | zero =>
    intro y hr i hM hx
    have hL : y.L = .test := by
      revert hr hx
      cases y.L with
      | write j s => intro hr; simp only [LPC.rk] at hr; have := j.isLt; omega
      | _ => simp [LPC.rk]
    exact ⟨0, le_rfl, y, rfl, hL, rfl, rfl, rfl, le_rfl, fun e => by rw [hL] at e; rcases e with e | e <;> cases e⟩
  | succ r ih =>
    intro y hr i hM hx
    by_cases hL : y.L = .test
    · exact ⟨0, Nat.zero_le _, y, rfl, hL, rfl, rfl, rfl, le_rfl, fun e => by rw [hL] at e; rcases e with e | e <;> cases e⟩
    · obtain ⟨z, hz, k1, k2, k3, k4, k5, k6, k7, k8⟩ := step_rk i hM hx hL
      obtain ⟨n, hn, w, hw, l1, l2, l3, l4, l5, l6⟩ := ih (y := z) (by omega) (inv_logger i hz) (by rw [k3]; exact hM) k1
      refine ⟨n + 1, by omega, w, by rw [run_logger_succ hz]; exact hw, l1, l2.trans k3, l3.trans k4, l4.trans k5, l5.trans k6, ?_⟩
      intro e hq
      rcases e with e | e
      · obtain ⟨a, b⟩ := k8 e
        have := l6 (.inr a) (by rw [b]; exact hq)
        rw [b] at this; exact this
      · exact lt_of_le_of_lt l5 (k7 e hq)

/-- while the owner does nothing, the logging thread works off the queue -/
theorem drain {time : α → ℝ} {rate : ℝ} (m : ℕ) : ∀ {y : Sys α}, y.queue.length ≤ m → Inv time rate y → y.M.locks = false → y.L ≠ .exited → y.stop = false →
    ∃ n z, y.run time rate (List.replicate n .logger) = some z ∧ z.L = .test ∧ z.queue = [] ∧ z.M = y.M ∧ z.stop = y.stop ∧ z.pushed = y.pushed := by
  induction m with
  | zero =>
    intro y hm i hM hx hs
    obtain ⟨n, -, z, h1, h2, h3, h4, h5, h6, -⟩ := to_test _ le_rfl i hM hx
    exact ⟨n, z, h1, h2, List.eq_nil_of_length_eq_zero (by omega), h3, h4, h5⟩
  | succ m ih =>
    intro y hm i hM hx hs
    obtain ⟨n, -, z, h1, h2, h3, h4, h5, h6, -⟩ := to_test _ le_rfl i hM hx
    have iz := inv_run _ i h1
    by_cases hq : z.queue = []
    · exact ⟨n, z, h1, h2, hq, h3, h4, h5⟩
    · have hst : z.stepL time rate = some { z with L := .lock } := by
        unfold Sys.stepL; rw [h2, h4, hs]; rfl
      have i1 := inv_logger iz hst
      obtain ⟨n', -, w, k1, k2, k3, k4, k5, k6, k7⟩ := to_test _ le_rfl i1 (by show z.M.locks = false; rw [h3]; exact hM) (by simp)
      have k7 := k7 (.inl rfl) hq
      have iw := inv_run _ i1 k1
      obtain ⟨n'', v, l1, l2, l3, l4, l5, l6⟩ := ih (y := w) (by simp only at k7; omega) iw (by rw [k3]; show z.M.locks = false; rw [h3]; exact hM) (by rw [k2]; simp)
        (by rw [k4]; show z.stop = false; rw [h4]; exact hs)
      refine ⟨n + (n' + 1 + n''), v, ?_, l2, l3, l4.trans (k3.trans h3), l5.trans (k4.trans h4), l6.trans (k5.trans h5)⟩
      rw [List.replicate_add, run_append, h1]
      show z.run time rate _ = _
      rw [List.replicate_add, run_append, run_logger_succ hst, k1]
      exact l1

theorem join_stop_run {time : α → ℝ} {rate : ℝ} (as : List (Act α)) : ∀ {y y' : Sys α}, (y.M = .join → y.stop = true) → y.run time rate as = some y' →
    (y'.M = .join → y'.stop = true) := by
  induction as with
  | nil => intro y y' i h; rw [← Option.some.inj h]; exact i
  | cons a as ih =>
    intro y y' i h
    obtain ⟨z, hz, h⟩ := Option.bind_eq_some_iff.mp h
    refine ih ?_ h
    cases a with
    | logger =>
      have hz : y.stepL time rate = some z := hz
      have : z.M = y.M ∧ z.stop = y.stop := by
        unfold Sys.stepL at hz
        cases hL : y.L <;> rw [hL] at hz
        case write k s =>
          match k, hz with
          | 0, hz => rw [← Option.some.inj hz]; exact ⟨rfl, rfl⟩
          | 1, hz => rw [← Option.some.inj hz]; exact ⟨rfl, rfl⟩
          | 2, hz => rw [← Option.some.inj hz]; exact ⟨rfl, rfl⟩
        case lock => cases ho : y.owner <;> rw [ho] at hz <;> first | (rw [← Option.some.inj hz]; exact ⟨rfl, rfl⟩) | cases hz
        case look => cases ho : y.queue <;> rw [ho] at hz <;> (rw [← Option.some.inj hz]; exact ⟨rfl, rfl⟩)
        all_goals first | (rw [← Option.some.inj hz]; exact ⟨rfl, rfl⟩) | cases hz
      rw [this.1, this.2]; exact i
    | owner =>
      have hz : y.stepM = some z := hz
      unfold Sys.stepM at hz
      cases hM : y.M <;> rw [hM] at hz
      case reopen k =>
        match k, hz with
        | 0, hz => rw [← Option.some.inj hz]; intro e; cases e
        | 1, hz => rw [← Option.some.inj hz]; intro e; cases e
        | 2, hz => rw [← Option.some.inj hz]; intro e; cases e
      case pushLock => cases ho : y.owner <;> rw [ho] at hz <;> first | (rw [← Option.some.inj hz]; intro e; cases e) | cases hz
      case clearLock => cases ho : y.owner <;> rw [ho] at hz <;> first | (rw [← Option.some.inj hz]; intro e; cases e) | cases hz
      case clearPop => cases ho : y.queue <;> rw [ho] at hz <;> (rw [← Option.some.inj hz]; intro e; cases e)
      case stop => rw [← Option.some.inj hz]; intro _; rfl
      case join => cases hL : y.L <;> rw [hL] at hz <;> first | (rw [← Option.some.inj hz]; intro e; cases e) | cases hz
      all_goals first | (rw [← Option.some.inj hz]; intro e; cases e; done) | (cases hz; done)
    | call o =>
      have hz : y.call o = some z := hz
      unfold Sys.call at hz
      cases hM : y.M <;> rw [hM] at hz
      case idle => rw [← Option.some.inj hz]; cases o <;> intro e <;> cases e
      all_goals cases hz

end Drift.LogT
