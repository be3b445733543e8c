import Verif.Model.LogThread
import Verif.Spec.LogThread
import Mathlib.Tactic

namespace Drift.LogT
variable {α : Type}

/-- the state the logging thread has in hand and that is not yet written to file `k` -/
def LPC.held (k : File) : LPC (ℕ × α) → List (ℕ × α)
  | .unlock s => [s]
  | .rate s => [s]
  | .write j s => if j ≤ k then [s] else []
  | _ => []

def LPC.locks : LPC (ℕ × α) → Bool
  | .look => true
  | .unlockEmpty => true
  | .unlock _ => true
  | _ => false

def MPC.locks : MPC α → Bool
  | .push _ => true
  | .pushUnlock => true
  | .clearPop => true
  | .clearUnlock => true
  | _ => false

/-- the queue has just been emptied -/
def MPC.emptied : MPC α → Bool
  | .clearUnlock => true
  | .close _ => true
  | .reopen _ => true
  | _ => false

/-- the file of stream `k` -/
def MPC.fileOf (session : ℕ) (k : File) : MPC α → Option ℕ
  | .close j => if k < j then some (session + 1) else some session
  | .reopen j => if k < j then some (session + 1) else if k = j then none else some session
  | .done => none
  | _ => some session

/-- the largest file number used so far for stream `k` -/
def MPC.numOf (session : ℕ) (k : File) : MPC α → ℕ
  | .close j => if k < j then session + 1 else session
  | .reopen j => if k < j then session + 1 else session
  | _ => session

structure Inv (time : α → ℝ) (rate : ℝ) (y : Sys α) : Prop where
  ownL : y.owner = some true ↔ y.L.locks = true
  ownM : y.owner = some false ↔ y.M.locks = true
  tag : ∀ s ∈ y.queue, s.1 = y.session
  held : ∀ k, ∀ s ∈ y.L.held k, s.1 ≤ y.session
  empt : y.M.emptied = true → y.queue = []
  file : ∀ k, y.file k = y.M.fileOf y.session k
  num : ∀ k, ∀ r ∈ y.out k, r.1 ≤ y.M.numOf y.session k
  tags : ∀ k, ∀ r ∈ y.out k, r.2.1 ≤ r.1
  first : ∀ k, (y.out k).Pairwise fun a b => b.1 = a.1 → b.2.1 = b.1
  firstH : ∀ k, ∀ s ∈ y.L.held k, ∀ r ∈ y.out k, y.file k = some r.1 → s.1 = r.1
  ord : ∀ k, ((y.out k).map Prod.snd ++ y.L.held k ++ y.queue).Sublist y.pushed
  due : 0 < rate → ∀ j s, y.L = .write j s → time s.2 - y.last ≥ 1 / rate
  lastW : 0 < rate → ∀ k, ∀ r ∈ y.out k, ∀ j s, y.L = .write j s → k < j → time r.2.2 ≤ time s.2
  last : 0 < rate → ∀ k, ∀ r ∈ y.out k, (∀ j s, y.L = .write j s → ¬ k < j) → time r.2.2 ≤ y.last
  spaced : 0 < rate → ∀ k, (y.out k).Pairwise fun a b => time b.2.2 - time a.2.2 ≥ 1 / rate
  stopd : y.stop = true → y.M = .join ∨ y.M = .closeAll ∨ y.M = .done
  exd : y.L = .exited → y.stop = true
  dn : y.M = .closeAll ∨ y.M = .done → y.L = .exited

theorem inv_init (time : α → ℝ) (rate : ℝ) : Inv time rate ({} : Sys α) := by
  constructor <;> simp [LPC.locks, MPC.locks, LPC.held, MPC.emptied, MPC.fileOf, MPC.numOf]

theorem put_other (y : Sys α) {k j : File} (h : j ≠ k) (s : ℕ × α) : y.put k s j = y.out j := by
  simp [Sys.put, h]


theorem put_mem {y : Sys α} {k j : File} {s : ℕ × α} {r : ℕ × ℕ × α} (h : r ∈ y.put k s j) :
    r ∈ y.out j ∨ (j = k ∧ y.file k = some r.1 ∧ r.2 = s) := by
  unfold Sys.put at h
  split_ifs at h with hj
  · subst hj
    cases hf : y.file j with
    | none => rw [hf] at h; exact .inl h
    | some n =>
      rw [hf] at h
      rcases List.mem_append.mp h with h | h
      · exact .inl h
      · rw [List.mem_singleton] at h; subst h; exact .inr ⟨rfl, rfl, rfl⟩
  · exact .inl h

theorem put_pairwise {y : Sys α} {k : File} {s : ℕ × α} {R : (ℕ × ℕ × α) → (ℕ × ℕ × α) → Prop} (h : ∀ j, (y.out j).Pairwise R)
    (hs : ∀ n, y.file k = some n → ∀ r ∈ y.out k, R r (n, s)) (j : File) : (y.put k s j).Pairwise R := by
  unfold Sys.put
  split_ifs with hj
  · subst hj
    cases hf : y.file j with
    | none => exact h j
    | some n =>
      refine List.pairwise_append.mpr ⟨h j, List.pairwise_singleton _ _, fun a ha b hb => ?_⟩
      rw [List.mem_singleton] at hb; subst hb
      exact hs n hf a ha
  · exact h j

theorem put_sub {y : Sys α} (k : File) (s : ℕ × α) (j : File) :
    ((y.put k s j).map Prod.snd).Sublist ((y.out j).map Prod.snd ++ (if j = k then [s] else [])) := by
  unfold Sys.put
  split_ifs with hj
  · subst hj
    cases hf : y.file j with
    | none => simp
    | some n => simp
  · simp

/-- writing a row -/
theorem inv_write {time : α → ℝ} {rate : ℝ} {y : Sys α} {k : File} {s : ℕ × α} {L' : LPC (ℕ × α)} {l' : ℝ} (i : Inv time rate y) (hL : y.L = .write k s)
    (h' : (L' = .test ∧ k = 2 ∧ l' = time s.2) ∨ (∃ k', L' = .write k' s ∧ k'.val = k.val + 1 ∧ l' = y.last)) :
    Inv time rate { y with out := y.put k s, L := L', last := l' } := by
  have hk : s ∈ y.L.held k := by rw [hL]; simp [LPC.held]
  have hh : ∀ j, L'.held j = if k < j then [s] else [] := by
    intro j
    rcases h' with ⟨rfl, rfl, -⟩ | ⟨k', rfl, hk', -⟩
    · simp only [LPC.held]; rw [if_neg (by have := j.isLt; rw [Fin.lt_def]; show ¬ 2 < j.val; omega)]
    · simp only [LPC.held]
      have : k' ≤ j ↔ k < j := by rw [Fin.le_def, Fin.lt_def]; omega
      simp only [this]
  have hh0 : ∀ j, y.L.held j = if k ≤ j then [s] else [] := by intro j; rw [hL]; rfl
  have hl : y.L.locks = false := by rw [hL]; rfl
  have hl' : L'.locks = false := by rcases h' with ⟨rfl, -, -⟩ | ⟨k', rfl, -, -⟩ <;> rfl
  have hsub : ∀ j, ∀ x ∈ L'.held j, x ∈ y.L.held j ∧ k < j := by
    intro j x hx
    rw [hh] at hx
    split_ifs at hx with hj
    · rw [hh0, if_pos hj.le]; exact ⟨hx, hj⟩
    · simp at hx
  refine ⟨?_, i.ownM, i.tag, fun j x hx => i.held j x (hsub j x hx).1, i.empt, i.file, ?_, ?_, ?_, ?_, ?_, ?_, ?_, ?_, ?_, i.stopd, ?_, ?_⟩
  · have := i.ownL; rw [hl] at this; show _ ↔ L'.locks = true; rw [hl']; exact this
  · intro j r hr
    rcases put_mem hr with hr | ⟨rfl, hf, -⟩
    · exact i.num j r hr
    · have := i.file j
      rw [hf] at this
      show r.1 ≤ y.M.numOf y.session j
      revert this
      cases y.M <;> simp only [MPC.fileOf, MPC.numOf] <;> first | (split_ifs <;> simp <;> omega) | (simp; try omega)
  · intro j r hr
    rcases put_mem hr with hr | ⟨rfl, hf, hs⟩
    · exact i.tags j r hr
    · rw [hs]
      have h1 := i.held j s hk
      have := i.file j
      rw [hf] at this
      revert this
      cases y.M <;> simp only [MPC.fileOf] <;> first | (split_ifs <;> simp <;> omega) | (simp; try omega)
  · exact put_pairwise i.first fun n hn r hr e => i.firstH k s hk r hr (by rw [hn, ← e]) |>.trans e.symm
  · intro j x hx r hr hf
    obtain ⟨h1, h2⟩ := hsub j x hx
    have hr : r ∈ y.put k s j := hr
    rw [put_other y (ne_of_gt h2)] at hr
    exact i.firstH j x h1 r hr hf
  · intro j
    have h0 := i.ord j
    refine List.Sublist.trans ?_ h0
    show (((y.put k s j).map Prod.snd) ++ L'.held j ++ y.queue).Sublist _
    rw [hh, hh0]
    refine List.Sublist.append ?_ (List.Sublist.refl _)
    refine List.Sublist.trans (List.Sublist.append (put_sub k s j) (List.Sublist.refl _)) ?_
    rcases lt_trichotomy k j with h | h | h
    · rw [if_neg (ne_of_gt h), if_pos h, if_pos h.le]; simp
    · subst h; simp
    · rw [if_neg (ne_of_lt h), if_neg (not_lt.mpr h.le), if_neg (not_le.mpr h)]; simp
  · intro hr j x e
    rcases h' with ⟨rfl, rfl, -⟩ | ⟨k', rfl, hk', rfl⟩
    · cases e
    · cases e; exact i.due hr k s hL
  · intro hr j r hm j' x e hj
    rcases h' with ⟨rfl, rfl, -⟩ | ⟨k', rfl, hk', rfl⟩
    · cases e
    · cases e
      rcases put_mem hm with hm | ⟨rfl, hf, hs⟩
      · by_cases hjk : j < k
        · exact i.lastW hr j r hm k s hL hjk
        · have := i.last hr j r hm (fun a b e => by rw [hL] at e; cases e; exact hjk)
          have h2 := i.due hr k s hL
          have : 0 < 1 / rate := by positivity
          linarith
      · rw [hs]
  · intro hr j r hm hn
    rcases h' with ⟨rfl, rfl, rfl⟩ | ⟨k', rfl, hk', rfl⟩
    · rcases put_mem hm with hm | ⟨rfl, hf, hs⟩
      · by_cases hjk : j < 2
        · exact i.lastW hr j r hm 2 s hL hjk
        · have := i.last hr j r hm (fun a b e => by rw [hL] at e; cases e; exact hjk)
          have h2 := i.due hr 2 s hL
          have : 0 < 1 / rate := by positivity
          show _ ≤ time s.2
          linarith
      · rw [hs]
    · have hnj : ¬ j < k' := hn k' s rfl
      rcases put_mem hm with hm | ⟨rfl, hf, hs⟩
      · refine i.last hr j r hm (fun a b e => ?_)
        rw [hL] at e; cases e
        rw [Fin.lt_def] at hnj ⊢; omega
      · exact absurd (by rw [Fin.lt_def]; omega) hnj
  · intro hr
    refine put_pairwise (i.spaced hr) fun n hn r hm => ?_
    have := i.last hr k r hm (fun a b e => by rw [hL] at e; cases e; exact lt_irrefl _)
    have h2 := i.due hr k s hL
    show time s.2 - _ ≥ _
    linarith
  · intro e
    rcases h' with ⟨rfl, -, -⟩ | ⟨k', rfl, -, -⟩ <;> cases e
  · intro e
    have := i.dn e
    rw [hL] at this; cases this

theorem inv_logger {time : α → ℝ} {rate : ℝ} {y y' : Sys α} (i : Inv time rate y) (h : y.stepL time rate = some y') : Inv time rate y' := by
  unfold Sys.stepL at h
  cases hL : y.L with
  | test =>
    rw [hL] at h
    obtain rfl := Option.some.inj h
    have o := i.ownL; rw [hL] at o
    refine ⟨?_, i.ownM, i.tag, ?_, i.empt, i.file, i.num, i.tags, i.first, ?_, ?_, ?_, ?_, ?_, i.spaced, i.stopd, ?_, ?_⟩
    · cases hs : y.stop <;> simpa [hs, LPC.locks] using o
    · intro k s hs
      cases h0 : y.stop <;> simp [h0, LPC.held] at hs
    · intro k s hs
      cases h0 : y.stop <;> simp [h0, LPC.held] at hs
    · intro k
      have := i.ord k
      rw [hL] at this
      cases h0 : y.stop <;> simpa [h0, LPC.held] using this
    · intro _ j s e
      cases h0 : y.stop <;> simp [h0] at e
    · intro _ k r _ j s e
      cases h0 : y.stop <;> simp [h0] at e
    · intro hr k r hm _
      exact i.last hr k r hm (fun a b e => by rw [hL] at e; cases e)
    · intro e
      cases h0 : y.stop
      · simp [h0] at e
      · rfl
    · intro e
      have := i.dn e
      rw [hL] at this; cases this
  | lock =>
    rw [hL] at h
    cases ho : y.owner with
    | some b => rw [ho] at h; cases h
    | none =>
      rw [ho] at h
      obtain rfl := Option.some.inj h
      have m := i.ownM; rw [ho] at m
      refine ⟨by simp [LPC.locks], ?_, i.tag, ?_, i.empt, i.file, i.num, i.tags, i.first, ?_, ?_, ?_, ?_, ?_, i.spaced, i.stopd, ?_, ?_⟩
      · simpa using m
      · intro k s hs; simp [LPC.held] at hs
      · intro k s hs; simp [LPC.held] at hs
      · intro k
        have := i.ord k
        rw [hL] at this; exact this
      · intro _ j s e; cases e
      · intro _ k r _ j s e; cases e
      · intro hr k r hm _
        exact i.last hr k r hm (fun a b e => by rw [hL] at e; cases e)
      · intro e; cases e
      · intro e
        have := i.dn e
        rw [hL] at this; cases this
  | look =>
    rw [hL] at h
    have o := i.ownL; rw [hL] at o
    cases hq : y.queue with
    | nil =>
      rw [hq] at h
      obtain rfl := Option.some.inj h
      refine ⟨by simpa [LPC.locks] using o, i.ownM, fun x hx => (by cases hx), ?_, fun _ => rfl, i.file, i.num, i.tags, i.first, ?_, ?_, ?_, ?_, ?_, i.spaced, i.stopd, ?_, ?_⟩
      · intro k s hs; simp [LPC.held] at hs
      · intro k s hs; simp [LPC.held] at hs
      · intro k
        have := i.ord k
        rw [hL, hq] at this; exact this
      · intro _ j s e; cases e
      · intro _ k r _ j s e; cases e
      · intro hr k r hm _
        exact i.last hr k r hm (fun a b e => by rw [hL] at e; cases e)
      · intro e; cases e
      · intro e
        have := i.dn e
        rw [hL] at this; cases this
    | cons s q =>
      rw [hq] at h
      obtain rfl := Option.some.inj h
      have ht := i.tag; rw [hq] at ht
      have hne : y.M.emptied = false := by
        cases he : y.M.emptied with
        | false => rfl
        | true => have := i.empt he; rw [hq] at this; cases this
      have hnd : y.M ≠ .done := fun e => by have := i.dn (.inr e); rw [hL] at this; cases this
      have hfile : ∀ k, y.M.fileOf y.session k = some y.session := by
        intro k
        revert hne hnd
        cases y.M <;> simp [MPC.emptied, MPC.fileOf]
      refine ⟨by simpa [LPC.locks] using o, i.ownM, fun x hx => ht x (List.mem_cons_of_mem _ hx), ?_, ?_, i.file, i.num, i.tags, i.first, ?_, ?_, ?_, ?_, ?_, i.spaced, i.stopd, ?_, ?_⟩
      · intro k x hs
        simp [LPC.held] at hs; subst hs
        exact (ht x (by simp)).le
      · intro he
        rw [show y.M.emptied = true from he] at hne; cases hne
      · intro k x hs r hr hf
        simp [LPC.held] at hs; subst hs
        have hf : y.file k = some r.1 := hf
        rw [i.file k, hfile k] at hf
        rw [ht x (by simp)]; exact Option.some.inj hf
      · intro k
        have := i.ord k
        rw [hL, hq] at this
        simpa [LPC.held] using this
      · intro _ j s e; cases e
      · intro _ k r _ j s e; cases e
      · intro hr k r hm _
        exact i.last hr k r hm (fun a b e => by rw [hL] at e; cases e)
      · intro e; cases e
      · intro e
        have := i.dn e
        rw [hL] at this; cases this
  | unlockEmpty =>
    rw [hL] at h
    obtain rfl := Option.some.inj h
    have o := i.ownL; rw [hL] at o
    have m := i.ownM
    have ho : y.owner = some true := o.mpr rfl
    rw [ho] at m
    refine ⟨by simp [LPC.locks], by simpa using m, i.tag, ?_, i.empt, i.file, i.num, i.tags, i.first, ?_, ?_, ?_, ?_, ?_, i.spaced, i.stopd, ?_, ?_⟩
    · intro k s hs; simp [LPC.held] at hs
    · intro k s hs; simp [LPC.held] at hs
    · intro k
      have := i.ord k
      rw [hL] at this; exact this
    · intro _ j s e; cases e
    · intro _ k r _ j s e; cases e
    · intro hr k r hm _
      exact i.last hr k r hm (fun a b e => by rw [hL] at e; cases e)
    · intro e; cases e
    · intro e
      have := i.dn e
      rw [hL] at this; cases this
  | unlock s =>
    rw [hL] at h
    obtain rfl := Option.some.inj h
    have o := i.ownL; rw [hL] at o
    have m := i.ownM
    have ho : y.owner = some true := o.mpr rfl
    rw [ho] at m
    refine ⟨by simp [LPC.locks], by simpa using m, i.tag, ?_, i.empt, i.file, i.num, i.tags, i.first, ?_, ?_, ?_, ?_, ?_, i.spaced, i.stopd, ?_, ?_⟩
    · intro k x hs; exact i.held k x (by rw [hL]; exact hs)
    · intro k x hs; exact i.firstH k x (by rw [hL]; exact hs)
    · intro k
      have := i.ord k
      rw [hL] at this; exact this
    · intro _ j s e; cases e
    · intro _ k r _ j s e; cases e
    · intro hr k r hm _
      exact i.last hr k r hm (fun a b e => by rw [hL] at e; cases e)
    · intro e; cases e
    · intro e
      have := i.dn e
      rw [hL] at this; cases this
  | rate s =>
    rw [hL] at h
    obtain rfl := Option.some.inj h
    have o := i.ownL; rw [hL] at o
    have hl := fun hr k r hm => i.last hr k r hm (fun a b e => by rw [hL] at e; cases e)
    have hd : y.M = .closeAll ∨ y.M = .done → False := fun e => by have := i.dn e; rw [hL] at this; cases this
    by_cases hc : rate ≠ 0 ∧ time s.2 - y.last ≥ 1 / rate
    · rw [if_pos hc]
      refine ⟨by simpa [LPC.locks] using o, i.ownM, i.tag, ?_, i.empt, i.file, i.num, i.tags, i.first, ?_, ?_, ?_, ?_, ?_, i.spaced, i.stopd, ?_, ?_⟩
      · intro k x hs; exact i.held k x (by rw [hL]; simpa [LPC.held] using hs)
      · intro k x hs; exact i.firstH k x (by rw [hL]; simpa [LPC.held] using hs)
      · intro k
        have := i.ord k
        rw [hL] at this; simpa [LPC.held] using this
      · intro _ j x e; cases e; exact hc.2
      · intro _ k r _ j x e hk; cases e; simp at hk
      · intro hr k r hm _; exact hl hr k r hm
      · intro e; cases e
      · intro e; exact (hd e).elim
    · rw [if_neg hc]
      refine ⟨by simpa [LPC.locks] using o, i.ownM, i.tag, ?_, i.empt, i.file, i.num, i.tags, i.first, ?_, ?_, ?_, ?_, ?_, i.spaced, i.stopd, ?_, ?_⟩
      · intro k x hs; simp [LPC.held] at hs
      · intro k x hs; simp [LPC.held] at hs
      · intro k
        have := i.ord k
        rw [hL] at this
        refine List.Sublist.trans ?_ this
        simp [LPC.held]
      · intro _ j x e; cases e
      · intro _ k r _ j x e hk; cases e
      · intro hr k r hm _; exact hl hr k r hm
      · intro e; cases e
      · intro e; exact (hd e).elim
  | write k s =>
    rw [hL] at h
    match k, hL with
    | 0, hL =>
      obtain rfl := Option.some.inj h
      exact inv_write i hL (.inr ⟨1, rfl, rfl, rfl⟩)
    | 1, hL =>
      obtain rfl := Option.some.inj h
      exact inv_write i hL (.inr ⟨2, rfl, rfl, rfl⟩)
    | 2, hL =>
      obtain rfl := Option.some.inj h
      exact inv_write i hL (.inl ⟨rfl, rfl, rfl⟩)
  | exited => rw [hL] at h; cases h

end Drift.LogT
