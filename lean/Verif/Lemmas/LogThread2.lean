import Verif.Lemmas.LogThread

namespace Drift.LogT
variable {α : Type}

/-- a step of the owner that changes neither the queue, nor the files, nor the session -/
theorem inv_owner_pc {time : α → ℝ} {rate : ℝ} {y : Sys α} (i : Inv time rate y) {o : Option Bool} {st : Bool} {M' : MPC α}
    (h1 : o = some true ↔ y.L.locks = true) (h2 : o = some false ↔ M'.locks = true) (h3 : M'.emptied = true → y.queue = [])
    (h4 : ∀ k, M'.fileOf y.session k = y.M.fileOf y.session k) (h5 : ∀ k, y.M.numOf y.session k ≤ M'.numOf y.session k)
    (h6 : st = true → M' = .join ∨ M' = .closeAll ∨ M' = .done) (h7 : y.L = .exited → st = true) (h8 : M' = .closeAll ∨ M' = .done → y.L = .exited) :
    Inv time rate { y with owner := o, stop := st, M := M' } :=
  ⟨h1, h2, i.tag, i.held, h3, fun k => (i.file k).trans (h4 k).symm, fun k r hr => (i.num k r hr).trans (h5 k), i.tags, i.first, i.firstH, i.ord,
    i.due, i.lastW, i.last, i.spaced, h6, h7, h8⟩

theorem not_stopped {time : α → ℝ} {rate : ℝ} {y : Sys α} (i : Inv time rate y) (h1 : y.M ≠ .join) (h2 : y.M ≠ .closeAll) (h3 : y.M ≠ .done) :
    y.stop = false ∧ y.L ≠ .exited := by
  have hs : y.stop = false := by
    cases hs : y.stop with
    | false => rfl
    | true => rcases i.stopd hs with h | h | h <;> contradiction
  exact ⟨hs, fun e => by have := i.exd e; rw [hs] at this; cases this⟩

/-- opening the next file of stream `j` -/
theorem inv_reopen {time : α → ℝ} {rate : ℝ} {y : Sys α} (i : Inv time rate y) (j : File) (hM : y.M = .reopen j) {M' : MPC α} {n' : ℕ}
    (h : (∃ j', M' = .close j' ∧ j'.val = j.val + 1 ∧ n' = y.session) ∨ (M' = .idle ∧ j = 2 ∧ n' = y.session + 1)) :
    Inv time rate { y with file := fun k => if k = j then some (y.session + 1) else y.file k, session := n', M := M' } := by
  obtain ⟨hs, hx⟩ := not_stopped i (by rw [hM]; simp) (by rw [hM]; simp) (by rw [hM]; simp)
  have hq : y.queue = [] := i.empt (by rw [hM]; rfl)
  have m := i.ownM; rw [hM] at m
  have hn' : y.session ≤ n' := by rcases h with ⟨_, _, _, rfl⟩ | ⟨_, _, rfl⟩ <;> omega
  have hnum : ∀ k, M'.numOf n' k = if k ≤ j then y.session + 1 else y.M.numOf y.session k := by
    intro k
    rcases h with ⟨j', rfl, hj, rfl⟩ | ⟨rfl, rfl, rfl⟩
    · simp only [MPC.numOf, hM]
      by_cases hk : k ≤ j
      · rw [if_pos hk, if_pos (by rw [Fin.lt_def]; rw [Fin.le_def] at hk; omega)]
      · rw [if_neg hk, if_neg (by rw [Fin.lt_def]; rw [Fin.le_def] at hk; omega), if_neg (by rw [Fin.lt_def]; rw [Fin.le_def] at hk; omega)]
    · simp only [MPC.numOf]
      rw [if_pos (by rw [Fin.le_def]; have := k.isLt; show k.val ≤ 2; omega)]
  have hnum0 : ∀ k, y.M.numOf y.session k ≤ y.session + 1 := by
    intro k; rw [hM]; simp only [MPC.numOf]; split_ifs <;> omega
  refine ⟨i.ownL, ?_, ?_, fun k s hk => (i.held k s hk).trans hn', ?_, ?_, ?_, i.tags, i.first, ?_, i.ord, i.due, i.lastW, i.last, i.spaced, ?_, fun e => absurd e hx, ?_⟩
  · show y.owner = some false ↔ M'.locks = true
    rw [m]
    rcases h with ⟨j', rfl, -⟩ | ⟨rfl, -⟩ <;> rfl
  · intro s hs'
    have : s ∈ y.queue := hs'
    rw [hq] at this; cases this
  · intro _; exact hq
  · intro k
    show (if k = j then some (y.session + 1) else y.file k) = M'.fileOf n' k
    by_cases hk : k = j
    · rw [if_pos hk]
      rcases h with ⟨j', rfl, hj, rfl⟩ | ⟨rfl, rfl, rfl⟩
      · simp only [MPC.fileOf]; rw [if_pos (by subst hk; rw [Fin.lt_def]; omega)]
      · rfl
    · rw [if_neg hk, i.file k, hM]
      have hv : k.val ≠ j.val := fun e => hk (Fin.ext e)
      rcases h with ⟨j', rfl, hj, rfl⟩ | ⟨rfl, rfl, rfl⟩
      · simp only [MPC.fileOf]
        by_cases h1 : k < j
        · rw [if_pos h1, if_pos (by rw [Fin.lt_def] at *; omega)]
        · rw [if_neg h1, if_neg hk, if_neg (by rw [Fin.lt_def] at *; omega)]
      · simp only [MPC.fileOf]
        have h1 : k < 2 := by have := k.isLt; rw [Fin.lt_def]; show k.val < 2; have : k.val ≠ 2 := hv; omega
        rw [if_pos h1]
  · intro k r hr
    show r.1 ≤ M'.numOf n' k
    rw [hnum]
    have := i.num k r hr
    have h0 := hnum0 k
    split_ifs <;> omega
  · intro k s hk r hr hf
    have hf : (if k = j then some (y.session + 1) else y.file k) = some r.1 := hf
    split_ifs at hf with hkj
    · have h1 := i.num k r hr
      rw [hM, hkj] at h1
      simp only [MPC.numOf, lt_irrefl, if_false] at h1
      have := Option.some.inj hf
      omega
    · exact i.firstH k s hk r hr hf
  · intro e; rw [show y.stop = true from e] at hs; cases hs
  · intro e
    rcases h with ⟨j', rfl, -⟩ | ⟨rfl, -⟩ <;> rcases e with e | e <;> cases e

theorem inv_close {time : α → ℝ} {rate : ℝ} {y : Sys α} (i : Inv time rate y) (j : File) (hM : y.M = .close j) :
    Inv time rate { y with file := fun k => if k = j then none else y.file k, M := .reopen j } := by
  obtain ⟨hs, hx⟩ := not_stopped i (by rw [hM]; simp) (by rw [hM]; simp) (by rw [hM]; simp)
  have hq : y.queue = [] := i.empt (by rw [hM]; rfl)
  have m := i.ownM; rw [hM] at m
  refine ⟨i.ownL, m, i.tag, i.held, fun _ => hq, ?_, ?_, i.tags, i.first, ?_, i.ord, i.due, i.lastW, i.last, i.spaced, ?_, fun e => absurd e hx, ?_⟩
  · intro k
    show (if k = j then none else y.file k) = _
    simp only [MPC.fileOf]
    by_cases hk : k = j
    · rw [if_pos hk, if_pos hk, if_neg (by rw [hk]; exact lt_irrefl _)]
    · rw [if_neg hk, if_neg hk, i.file k, hM]; rfl
  · intro k r hr
    have := i.num k r hr
    rw [hM] at this; exact this
  · intro k s hk r hr hf
    have hf : (if k = j then none else y.file k) = some r.1 := hf
    split_ifs at hf
    exact i.firstH k s hk r hr hf
  · intro e; rw [show y.stop = true from e] at hs; cases hs
  · intro e; rcases e with e | e <;> cases e

theorem inv_owner {time : α → ℝ} {rate : ℝ} {y y' : Sys α} (i : Inv time rate y) (h : y.stepM = some y') : Inv time rate y' := by
  unfold Sys.stepM at h
  cases hM : y.M with
  | idle => rw [hM] at h; cases h
  | done => rw [hM] at h; cases h
  | pushLock s =>
    obtain ⟨hs, hx⟩ := not_stopped i (by rw [hM]; simp) (by rw [hM]; simp) (by rw [hM]; simp)
    have l := i.ownL
    rw [hM] at h
    cases ho : y.owner with
    | some b => rw [ho] at h; cases h
    | none =>
      rw [ho] at h l
      obtain rfl := Option.some.inj h
      exact inv_owner_pc i (by simpa using l) (by simp [MPC.locks]) (by simp [MPC.emptied]) (by rw [hM]; intro k; rfl) (by rw [hM]; intro k; exact le_rfl)
        (by rw [hs]; simp) i.exd (by simp)
  | push s =>
    obtain ⟨hs, hx⟩ := not_stopped i (by rw [hM]; simp) (by rw [hM]; simp) (by rw [hM]; simp)
    have m := i.ownM
    rw [hM] at h m
    obtain rfl := Option.some.inj h
    have hf := i.file; rw [hM] at hf
    have hn := i.num; rw [hM] at hn
    refine ⟨i.ownL, m, ?_, i.held, by simp [MPC.emptied], hf, hn, i.tags, i.first, i.firstH, ?_, i.due, i.lastW, i.last, i.spaced, ?_, i.exd, ?_⟩
    · intro x hx
      rcases List.mem_append.mp hx with hx | hx
      · exact i.tag x hx
      · rw [List.mem_singleton] at hx; rw [hx]
    · intro k
      have := (i.ord k).append (List.Sublist.refl [(y.session, s)])
      simpa [List.append_assoc] using this
    · intro e; rw [show y.stop = true from e] at hs; cases hs
    · intro e; rcases e with e | e <;> cases e
  | pushUnlock =>
    obtain ⟨hs, hx⟩ := not_stopped i (by rw [hM]; simp) (by rw [hM]; simp) (by rw [hM]; simp)
    have m := i.ownM
    have l := i.ownL
    rw [hM] at h m
    have ho : y.owner = some false := m.mpr rfl
    rw [ho] at l
    obtain rfl := Option.some.inj h
    exact inv_owner_pc i (by simpa using l) (by simp [MPC.locks]) (by simp [MPC.emptied]) (by rw [hM]; intro k; rfl) (by rw [hM]; intro k; exact le_rfl)
        (by rw [hs]; simp) i.exd (by simp)
  | clearLock =>
    obtain ⟨hs, hx⟩ := not_stopped i (by rw [hM]; simp) (by rw [hM]; simp) (by rw [hM]; simp)
    have l := i.ownL
    rw [hM] at h
    cases ho : y.owner with
    | some b => rw [ho] at h; cases h
    | none =>
      rw [ho] at h l
      obtain rfl := Option.some.inj h
      exact inv_owner_pc i (by simpa using l) (by simp [MPC.locks]) (by simp [MPC.emptied]) (by rw [hM]; intro k; rfl) (by rw [hM]; intro k; exact le_rfl)
        (by rw [hs]; simp) i.exd (by simp)
  | clearPop =>
    obtain ⟨hs, hx⟩ := not_stopped i (by rw [hM]; simp) (by rw [hM]; simp) (by rw [hM]; simp)
    have m := i.ownM
    rw [hM] at h m
    cases hq : y.queue with
    | nil =>
      have hf := i.file; rw [hM] at hf
      have hn := i.num; rw [hM] at hn
      rw [hq] at h
      obtain rfl := Option.some.inj h
      have ho := i.ord
      rw [hq] at ho
      exact ⟨i.ownL, m, fun s hs => (by cases hs), i.held, fun _ => rfl, hf, hn, i.tags, i.first, i.firstH, ho, i.due, i.lastW, i.last, i.spaced,
        (fun e => by rw [show y.stop = true from e] at hs; cases hs), i.exd, (fun e => by rcases e with e | e <;> cases e)⟩
    | cons s q =>
      rw [hq] at h
      obtain rfl := Option.some.inj h
      have ht := i.tag; rw [hq] at ht
      have hf := i.file; rw [hM] at hf
      have hn := i.num; rw [hM] at hn
      refine ⟨i.ownL, m, fun x hx => ht x (List.mem_cons_of_mem _ hx), i.held, (fun e => by cases e), hf, hn, i.tags, i.first, i.firstH, ?_, i.due, i.lastW, i.last, i.spaced,
        (fun e => by rw [show y.stop = true from e] at hs; cases hs), i.exd, (fun e => by rcases e with e | e <;> cases e)⟩
      intro k
      have := i.ord k
      rw [hq] at this
      exact List.Sublist.trans (List.Sublist.append (List.Sublist.refl _) (List.sublist_cons_self _ _)) this
  | clearUnlock =>
    obtain ⟨hs, hx⟩ := not_stopped i (by rw [hM]; simp) (by rw [hM]; simp) (by rw [hM]; simp)
    have m := i.ownM
    have l := i.ownL
    have hq : y.queue = [] := i.empt (by rw [hM]; rfl)
    rw [hM] at h m
    have ho : y.owner = some false := m.mpr rfl
    rw [ho] at l
    obtain rfl := Option.some.inj h
    exact inv_owner_pc i (by simpa using l) (by simp [MPC.locks]) (fun _ => hq) (by rw [hM]; intro k; simp [MPC.fileOf]) (by rw [hM]; intro k; simp [MPC.numOf])
        (by rw [hs]; simp) i.exd (by simp)
  | close k =>
    rw [hM] at h
    obtain rfl := Option.some.inj h
    exact inv_close i k hM
  | reopen k =>
    rw [hM] at h
    match k, hM with
    | 0, hM =>
      obtain rfl := Option.some.inj h
      exact inv_reopen i 0 hM (.inl ⟨1, rfl, rfl, rfl⟩)
    | 1, hM =>
      obtain rfl := Option.some.inj h
      exact inv_reopen i 1 hM (.inl ⟨2, rfl, rfl, rfl⟩)
    | 2, hM =>
      obtain rfl := Option.some.inj h
      exact inv_reopen i 2 hM (.inr ⟨rfl, rfl, rfl⟩)
  | stop =>
    obtain ⟨hs, hx⟩ := not_stopped i (by rw [hM]; simp) (by rw [hM]; simp) (by rw [hM]; simp)
    have m := i.ownM
    rw [hM] at h m
    obtain rfl := Option.some.inj h
    exact inv_owner_pc i i.ownL m (by simp [MPC.emptied]) (by rw [hM]; intro k; rfl) (by rw [hM]; intro k; exact le_rfl) (by simp) (by simp) (by simp)
  | join =>
    have m := i.ownM
    rw [hM] at h m
    cases hL : y.L with
    | exited =>
      rw [hL] at h
      obtain rfl := Option.some.inj h
      have := inv_owner_pc i (o := y.owner) (st := y.stop) (M' := .closeAll) i.ownL m (by simp [MPC.emptied]) (by rw [hM]; intro k; rfl) (by rw [hM]; intro k; exact le_rfl) (by simp) i.exd (fun _ => hL)
      rw [hL] at this
      exact this
    | _ => rw [hL] at h; cases h
  | closeAll =>
    have m := i.ownM
    have hL := i.dn (.inl hM)
    have hn := i.num
    rw [hM] at h m hn
    obtain rfl := Option.some.inj h
    refine ⟨i.ownL, m, i.tag, i.held, by simp [MPC.emptied], fun k => rfl, hn, i.tags, i.first, ?_, i.ord, i.due, i.lastW, i.last, i.spaced, by simp, i.exd, fun _ => hL⟩
    intro k s hs r hr hf
    cases hf

theorem inv_call {time : α → ℝ} {rate : ℝ} {y y' : Sys α} (i : Inv time rate y) {o : Op α} (h : y.call o = some y') : Inv time rate y' := by
  unfold Sys.call at h
  cases hM : y.M with
  | idle =>
    obtain ⟨hs, hx⟩ := not_stopped i (by rw [hM]; simp) (by rw [hM]; simp) (by rw [hM]; simp)
    have m := i.ownM
    rw [hM] at h m
    obtain rfl := Option.some.inj h
    have g : ∀ M' : MPC α, (M' = .clearLock ∨ M' = .stop ∨ ∃ s, M' = .pushLock s) → Inv time rate { y with M := M' } := by
      intro M' hM'
      refine inv_owner_pc i (o := y.owner) (st := y.stop) i.ownL ?_ ?_ ?_ ?_ (by rw [hs]; simp) i.exd ?_
      · rw [m]; rcases hM' with rfl | rfl | ⟨s, rfl⟩ <;> rfl
      · rcases hM' with rfl | rfl | ⟨s, rfl⟩ <;> simp [MPC.emptied]
      · rw [hM]; rcases hM' with rfl | rfl | ⟨s, rfl⟩ <;> intro k <;> rfl
      · rw [hM]; rcases hM' with rfl | rfl | ⟨s, rfl⟩ <;> intro k <;> exact le_rfl
      · rcases hM' with rfl | rfl | ⟨s, rfl⟩ <;> simp
    cases o with
    | log s => exact g _ (.inr (.inr ⟨s, rfl⟩))
    | clear => exact g _ (.inl rfl)
    | destroy => exact g _ (.inr (.inl rfl))
  | _ => rw [hM] at h; cases h

theorem inv_run {time : α → ℝ} {rate : ℝ} (as : List (Act α)) : ∀ {y y' : Sys α}, Inv time rate y → y.run time rate as = some y' → Inv time rate y' := by
  induction as with
  | nil => intro y y' i h; rw [← Option.some.inj h]; exact i
  | cons a as ih =>
    intro y y' i h
    obtain ⟨z, hz, h⟩ := Option.bind_eq_some_iff.mp h
    refine ih ?_ h
    cases a with
    | logger => exact inv_logger i hz
    | owner => exact inv_owner i hz
    | call o => exact inv_call i hz

end Drift.LogT
