import Verif.Lemmas.LogThread3

/-!
# C99, C100: the logging thread against `clear()` and the destructor

`({} : Sys α)` is the estimator after construction; `run` is an arbitrary schedule of the two threads.
-/
namespace Drift.LogT
variable {α : Type}

/-- a schedule through a comparison of times that is positive -/
theorem run_via {time : α → ℝ} {rate : ℝ} {as bs : List (Act α)} {y x z : Sys α} {s : ℕ × α} (h1 : y.run time rate as = some x) (h2 : x.L = .rate s)
    (h3 : rate ≠ 0 ∧ time s.2 - x.last ≥ 1 / rate) (h4 : ({ x with L := .write 0 s } : Sys α).run time rate bs = some z) :
    y.run time rate (as ++ .logger :: bs) = some z := by
  rw [run_append, h1]
  have : x.stepL time rate = some { x with L := .write 0 s } := by
    unfold Sys.stepL
    simp only [h2]
    rw [if_pos h3]
  show (x.stepL time rate).bind _ = _
  rw [this]
  exact h4

/-! ## C99: the log of one session goes to the files of that session -/

/-- **C99** (false): a state of the first session ends up in the pose file opened by `clear()`. -/
theorem C99_false : ∃ (as : List (Act ℝ)) (y : Sys ℝ), ({} : Sys ℝ).run id 10 as = some y ∧ y.pushed = [(0, 1)] ∧
    y.out 0 = [(1, 0, 1)] :=
  ⟨(.call (.log 1) :: (List.replicate 3 .owner ++ List.replicate 4 .logger ++ .call .clear :: List.replicate 9 .owner)) ++ .logger :: List.replicate 3 .logger, _,
    run_via (s := (0, 1)) rfl rfl ⟨by norm_num, by norm_num⟩ rfl, rfl, rfl⟩

/-- **C99** (false): the pose of a state goes to the file of the old session, its velocities to those of the new one. -/
theorem C99_torn : ∃ (as : List (Act ℝ)) (y : Sys ℝ), ({} : Sys ℝ).run id 10 as = some y ∧ y.pushed = [(0, 1)] ∧
    y.out 0 = [(0, 0, 1)] ∧ y.out 1 = [(1, 0, 1)] ∧ y.out 2 = [(1, 0, 1)] :=
  ⟨(.call (.log 1) :: (List.replicate 3 .owner ++ List.replicate 4 .logger)) ++ .logger :: (.logger :: .call .clear :: (List.replicate 9 .owner ++ List.replicate 2 .logger)), _,
    run_via (s := (0, 1)) rfl rfl ⟨by norm_num, by norm_num⟩ rfl, rfl, rfl, rfl, rfl⟩

/-- **C99** (false): the pose of a state is lost (its file was just closed), its velocities are written. -/
theorem C99_lost_row : ∃ (as : List (Act ℝ)) (y : Sys ℝ), ({} : Sys ℝ).run id 10 as = some y ∧ y.pushed = [(0, 1)] ∧
    y.out 0 = [] ∧ y.out 1 = [(0, 0, 1)] ∧ y.out 2 = [(0, 0, 1)] ∧ y.M = .reopen 0 :=
  ⟨(.call (.log 1) :: (List.replicate 3 .owner ++ List.replicate 4 .logger)) ++ .logger :: (.call .clear :: (List.replicate 4 .owner ++ List.replicate 3 .logger)), _,
    run_via (s := (0, 1)) rfl rfl ⟨by norm_num, by norm_num⟩ rfl, rfl, rfl, rfl, rfl, rfl⟩

/-- **C99** (false): `clear()` closes (reopens) a file while the logging thread is writing to it: the two accesses
are not ordered by any lock. -/
theorem C99_data_race : ∃ (as : List (Act ℝ)) (y : Sys ℝ) (s : ℕ × ℝ), ({} : Sys ℝ).run id 10 as = some y ∧ y.L = .write 0 s ∧ y.M = .close 0 ∧
    (∃ z, y.stepL id 10 = some z) ∧ ∃ z, y.stepM = some z :=
  ⟨(.call (.log 1) :: (List.replicate 3 .owner ++ List.replicate 4 .logger)) ++ .logger :: (.call .clear :: List.replicate 3 .owner), _, (0, 1),
    run_via (s := (0, 1)) rfl rfl ⟨by norm_num, by norm_num⟩ rfl, rfl, rfl, ⟨_, rfl⟩, ⟨_, rfl⟩⟩

/-- **C99** (what holds, for every schedule, with any number of `clear()` calls): in each of the three logs every row is a
pushed state, in the order in which they were pushed and each at most once; a row never goes to a file of an earlier
session; within one file only the first row can be of an earlier session; and rows are at least `1 / rate` apart, also
across `clear()`. -/
theorem C99_sessions_partial {time : α → ℝ} {rate : ℝ} {as : List (Act α)} {y : Sys α} (h : ({} : Sys α).run time rate as = some y) (k : File) :
    ((y.out k).map Prod.snd).Sublist y.pushed ∧ (∀ r ∈ y.out k, r.2.1 ≤ r.1) ∧
    (y.out k).Pairwise (fun a b => b.1 = a.1 → b.2.1 = b.1) ∧
    (0 < rate → (y.out k).Pairwise fun a b => time b.2.2 - time a.2.2 ≥ 1 / rate) := by
  have i := inv_run as (inv_init time rate) h
  refine ⟨?_, i.tags k, i.first k, fun hr => i.spaced hr k⟩
  have := i.ord k
  rw [List.append_assoc] at this
  exact (List.sublist_append_left _ _).trans this

/-- a schedule with two states, a `clear()` and rows in both sessions meets the hypothesis -/
example : ∃ (as : List (Act ℝ)) (y : Sys ℝ), ({} : Sys ℝ).run id 10 as = some y ∧ y.out 0 = [(0, 0, 1), (1, 1, 2)] :=
  ⟨(.call (.log 1) :: (List.replicate 3 .owner ++ List.replicate 4 .logger)) ++ .logger :: ((List.replicate 3 .logger ++ .call .clear :: (List.replicate 9 .owner ++ .call (.log 2) ::
    (List.replicate 3 .owner ++ List.replicate 4 .logger))) ++ .logger :: List.replicate 3 .logger), _,
    run_via (s := (0, 1)) rfl rfl ⟨by norm_num, by norm_num⟩ (run_via (s := (1, 2)) rfl rfl ⟨by norm_num, by norm_num⟩ rfl), rfl⟩

/-! ## C100: destroying the estimator saves the logged path -/

/-- **C100** (false): the destructor announces "Saving logged path..." and returns; a state that was pushed, and due, is
in none of the files. -/
theorem C100_false : ∃ (as : List (Act ℝ)) (y : Sys ℝ), ({} : Sys ℝ).run id 10 as = some y ∧ y.M = .done ∧
    limited id 10 0 (y.pushed.map Prod.snd) = [1] ∧ ∀ k, y.out k = [] := by
  refine ⟨.call (.log 1) :: (List.replicate 3 .owner ++ .call .destroy :: .owner :: .logger :: List.replicate 2 .owner), _, rfl, rfl, ?_, fun k => rfl⟩
  show limited id 10 0 [(1 : ℝ)] = [1]
  norm_num [limited]

/-- **C100** (what holds, for every schedule without `clear()`): when the destructor returns, the states are those worked
off, `D`, followed by those still in the queue, which are lost; each of the three files has exactly the rate-limited log
of `D`.  -/
theorem C100_prefix_partial {time : α → ℝ} {rate : ℝ} {as : List (Act α)} {y : Sys α} (hc : Act.call .clear ∉ as)
    (h : ({} : Sys α).run time rate as = some y) (hd : y.M = .done) :
    ∃ D, y.pushed = D ++ y.queue ∧ ∀ k, (y.out k).map Prod.snd = limited (fun s => time s.2) rate 0 D := by
  have i := inv_run as (inv_init time rate) h
  obtain ⟨D, h1, -, h3⟩ := (inv2_run as (inv_init time rate) (inv2_init time rate) hc h).log
  rw [i.dn (.inr hd)] at h1 h3
  exact ⟨D, by simpa [LPC.inHand] using h1, fun k => by simpa [LPC.wrote] using h3 k⟩

/-- **C100** (the part that depends on the user): if the program waits long enough before it destroys the estimator, nothing
is lost: from every reachable state outside of a call there is a number of steps of the logging thread after which the
queue is empty; if the estimator is then destroyed, the files hold the rate-limited log of all states. -/
theorem C100_pause {time : α → ℝ} {rate : ℝ} {as : List (Act α)} {y : Sys α} (hc : Act.call .clear ∉ as)
    (h : ({} : Sys α).run time rate as = some y) (hM : y.M = .idle) :
    ∃ n z, y.run time rate (List.replicate n .logger ++ [.call .destroy, .owner, .logger, .owner, .owner]) = some z ∧ z.M = .done ∧
      z.pushed = y.pushed ∧ ∀ k, (z.out k).map Prod.snd = limited (fun s => time s.2) rate 0 y.pushed := by
  have i := inv_run as (inv_init time rate) h
  obtain ⟨hs, hx⟩ := not_stopped i (by rw [hM]; simp) (by rw [hM]; simp) (by rw [hM]; simp)
  obtain ⟨n, w, h1, h2, h3, h4, h5, h6⟩ := drain _ le_rfl i (by rw [hM]; rfl) hx hs
  have e : w.run time rate [.call .destroy, .owner, .logger, .owner, .owner] =
      some { w with stop := true, L := .exited, M := .done, file := fun _ => none } := by
    simp [Sys.run, Sys.act, Sys.call, Sys.stepM, Sys.stepL, h4, hM, h2]
  have e' := run_append (time := time) (rate := rate) (List.replicate n .logger) [.call .destroy, .owner, .logger, .owner, .owner] y
  rw [h1] at e'
  have e'' := e'.trans e
  refine ⟨n, _, e'', rfl, h6, ?_⟩
  have hall : ({} : Sys α).run time rate (as ++ (List.replicate n .logger ++ [.call .destroy, .owner, .logger, .owner, .owner])) =
      some { w with stop := true, L := .exited, M := .done, file := fun _ => none } := by
    rw [run_append, h]; exact e''
  obtain ⟨D, k1, k2⟩ := C100_prefix_partial (by simp [hc, List.mem_replicate]) hall rfl
  have hD : y.pushed = D := by
    rw [← h6]
    have : w.pushed = D ++ w.queue := k1
    rw [h3, List.append_nil] at this; exact this
  rw [hD]
  exact k2

/-- **C100**: the destructor returns.  When it waits for the logging thread, that thread needs at most eight more steps, is
never blocked, and then the destructor goes on. -/
theorem C100_terminates {time : α → ℝ} {rate : ℝ} {as : List (Act α)} {y : Sys α} (h : ({} : Sys α).run time rate as = some y) (hM : y.M = .join) :
    ∃ n ≤ 8, ∃ z, y.run time rate (List.replicate n .logger) = some z ∧ z.L = .exited ∧ z.M = .join ∧ ∃ w, z.stepM = some w ∧ w.M = .closeAll := by
  have i := inv_run as (inv_init time rate) h
  have hs : y.stop = true := join_stop_run as (fun e => by cases e) h hM
  have fin : ∀ z : Sys α, z.L = .exited → z.M = .join → ∃ w, z.stepM = some w ∧ w.M = .closeAll := by
    intro z h1 h2
    unfold Sys.stepM
    rw [h2, h1]
    exact ⟨_, rfl, rfl⟩
  by_cases hx : y.L = .exited
  · exact ⟨0, by omega, y, rfl, hx, hM, fin y hx hM⟩
  · obtain ⟨n, hn, z, h1, h2, h3, h4, -⟩ := to_test (time := time) (rate := rate) 7 (y := y)
      (by cases hL : y.L with
          | write j s => simp only [LPC.rk]; omega
          | _ => simp [LPC.rk]) i (by rw [hM]; rfl) hx
    have hst : z.stepL time rate = some { z with L := .exited } := by
      unfold Sys.stepL; rw [h2, h4, hs]; rfl
    refine ⟨n + 1, by omega, { z with L := .exited }, ?_, rfl, h3.trans hM, fin _ rfl (h3.trans hM)⟩
    rw [List.replicate_add, run_append, h1]
    show z.run time rate (List.replicate (0 + 1) .logger) = _
    rw [run_logger_succ hst]; rfl

/-- **C100**: no deadlock, in every schedule: until the destructor has returned, the logging thread can go on, or the owner
can go on, or the owner is outside of every call. -/
theorem C100_no_deadlock {time : α → ℝ} {rate : ℝ} {as : List (Act α)} {y : Sys α} (h : ({} : Sys α).run time rate as = some y) (hd : y.M ≠ .done) :
    y.M = .idle ∨ (∃ z, y.stepL time rate = some z) ∨ ∃ z, y.stepM = some z := by
  have i := inv_run as (inv_init time rate) h
  by_cases hx : y.L = .exited
  · have hst := i.stopd (i.exd hx)
    rcases hst with e | e | e
    · exact .inr (.inr (by unfold Sys.stepM; rw [e, hx]; exact ⟨_, rfl⟩))
    · exact .inr (.inr (by unfold Sys.stepM; rw [e]; exact ⟨_, rfl⟩))
    · exact absurd e hd
  · by_cases ht : y.L = .test
    · exact .inr (.inl (by unfold Sys.stepL; rw [ht]; exact ⟨_, rfl⟩))
    · by_cases hl : y.M.locks = true
      · right; right
        unfold Sys.stepM
        revert hl
        cases y.M with
        | clearPop => intro _; cases y.queue <;> exact ⟨_, rfl⟩
        | push s => intro _; exact ⟨_, rfl⟩
        | pushUnlock => intro _; exact ⟨_, rfl⟩
        | clearUnlock => intro _; exact ⟨_, rfl⟩
        | _ => intro e; cases e
      · obtain ⟨z, hz, -⟩ := step_rk i (by simpa using hl) hx ht
        exact .inr (.inl ⟨z, hz⟩)

/-- **C100**: `RunOnce` and `clear` wait for the log queue at most two steps of the logging thread. -/
theorem C100_short_wait {time : α → ℝ} {rate : ℝ} {as : List (Act α)} {y : Sys α} (h : ({} : Sys α).run time rate as = some y)
    (hM : (∃ s, y.M = .pushLock s) ∨ y.M = .clearLock) :
    ∃ n ≤ 2, ∃ z, y.run time rate (List.replicate n .logger) = some z ∧ z.M = y.M ∧ ∃ w, z.stepM = some w := by
  have i := inv_run as (inv_init time rate) h
  have hl : y.M.locks = false := by rcases hM with ⟨s, e⟩ | e <;> rw [e] <;> rfl
  have go : ∀ z : Sys α, z.owner = none → z.M = y.M → ∃ w, z.stepM = some w := by
    intro z h1 h2
    unfold Sys.stepM
    rw [h2, h1]
    rcases hM with ⟨s, e⟩ | e <;> rw [e] <;> exact ⟨_, rfl⟩
  have a := i.ownL; have b := i.ownM
  rw [hl] at b
  cases ho : y.owner with
  | none => exact ⟨0, by omega, y, rfl, rfl, go y ho rfl⟩
  | some c =>
    cases c with
    | false => simp [ho] at b
    | true =>
      have hL := a.mp ho
      have one : ∀ x : Sys α, x.M = y.M → (x.L = .unlockEmpty ∨ ∃ s, x.L = .unlock s) → ∃ z, x.run time rate (List.replicate 1 .logger) = some z ∧ z.M = y.M ∧ ∃ w, z.stepM = some w := by
        intro x hx hxl
        have : ∃ z, x.stepL time rate = some z ∧ z.M = x.M ∧ z.owner = none := by
          unfold Sys.stepL
          rcases hxl with e | ⟨s, e⟩ <;> rw [e] <;> exact ⟨_, rfl, rfl, rfl⟩
        obtain ⟨z, hz, k1, k2⟩ := this
        exact ⟨z, by rw [run_logger_succ hz 0]; rfl, k1.trans hx, go z k2 (k1.trans hx)⟩
      cases hy : y.L with
      | look =>
        have : ∃ x, y.stepL time rate = some x ∧ x.M = y.M ∧ (x.L = .unlockEmpty ∨ ∃ s, x.L = .unlock s) := by
          unfold Sys.stepL
          rw [hy]
          cases y.queue with
          | nil => exact ⟨_, rfl, rfl, .inl rfl⟩
          | cons s q => exact ⟨_, rfl, rfl, .inr ⟨s, rfl⟩⟩
        obtain ⟨x, hx, k1, k2⟩ := this
        obtain ⟨z, hz, l1, l2⟩ := one x k1 k2
        exact ⟨2, le_rfl, z, by rw [run_logger_succ hx 1]; exact hz, l1, l2⟩
      | unlockEmpty => obtain ⟨z, hz, l1, l2⟩ := one y rfl (.inl hy); exact ⟨1, by omega, z, hz, l1, l2⟩
      | unlock s => obtain ⟨z, hz, l1, l2⟩ := one y rfl (.inr ⟨s, hy⟩); exact ⟨1, by omega, z, hz, l1, l2⟩
      | _ => rw [hy] at hL; cases hL

/-- a schedule that reaches the end of the destructor with a row written and one state lost meets the hypotheses -/
example : ∃ (as : List (Act ℝ)) (y : Sys ℝ), Act.call .clear ∉ as ∧ ({} : Sys ℝ).run id 10 as = some y ∧ y.M = .done ∧ y.out 0 = [(0, 0, 1)] ∧
    y.queue = [(0, 2)] :=
  ⟨(.call (.log 1) :: (List.replicate 3 .owner ++ List.replicate 4 .logger ++ .call (.log 2) :: (List.replicate 3 .owner ++
    [.call .destroy, .owner]))) ++ .logger :: (List.replicate 4 .logger ++ List.replicate 2 .owner), _, by simp [List.replicate],
    run_via (s := (0, 1)) rfl rfl ⟨by norm_num, by norm_num⟩ rfl, rfl, rfl, rfl⟩

end Drift.LogT
