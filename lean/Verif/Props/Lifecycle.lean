import Verif.Spec.Lifecycle

/-!
# C136: the objects with threads can be constructed, started and destroyed
-/
namespace Drift.Life

theorem times_sub (n : ℕ) : times Sub.start n ⟨true, ⟨true⟩⟩ = if n = 0 then some ⟨true, ⟨true⟩⟩ else none := by
  cases n <;> rfl
theorem times_pub (n : ℕ) : times Pub.start n ⟨true, ⟨true⟩, ⟨true⟩⟩ = if n = 0 then some ⟨true, ⟨true⟩, ⟨true⟩⟩ else none := by
  cases n <;> rfl
theorem times_filt (n : ℕ) : times Filt.start n ⟨⟨true⟩⟩ = if n = 0 then some ⟨⟨true⟩⟩ else none := by
  cases n <;> rfl
theorem times_est (n : ℕ) : times Est.start n ⟨some true, ⟨true⟩⟩ = if n = 0 then some ⟨some true, ⟨true⟩⟩ else none := by
  cases n <;> rfl
theorem times_off (n : ℕ) : times Est.start n ⟨some false, {}⟩ = some ⟨some false, {}⟩ := by
  induction n with
  | zero => rfl
  | succ n ih => exact ih

/-- **C136**, exactly when it goes well: subscriber and publisher may be started at most once, the gyro filter must be started exactly once,
the logging thread of an estimator with a logger must not be started again, and an estimator constructed without configuration must not
be destroyed. -/
theorem C136_exactly (k : Kind) (n : ℕ) : lives k n = true ↔
    match k with
    | .sub => n ≤ 1
    | .pub => n ≤ 1
    | .filter => n = 1
    | .est logger => logger = true → n = 0
    | .estDefault => False := by
  cases k with
  | sub =>
    rcases n with _ | n
    · simp [lives, times, Sub.ctor, Sub.dtor, Th.dtor]
    · have : times Sub.start (n + 1) Sub.ctor = times Sub.start n ⟨true, ⟨true⟩⟩ := rfl
      simp only [lives, this, times_sub]
      by_cases hn : n = 0 <;> simp [hn, Sub.dtor, Th.join, Th.dtor]
  | pub =>
    rcases n with _ | n
    · simp [lives, times, Pub.ctor, Pub.dtor, Th.dtor]
    · have : times Pub.start (n + 1) Pub.ctor = times Pub.start n ⟨true, ⟨true⟩, ⟨true⟩⟩ := rfl
      simp only [lives, this, times_pub]
      by_cases hn : n = 0 <;> simp [hn, Pub.dtor, Th.join, Th.dtor]
  | filter =>
    rcases n with _ | n
    · simp [lives, times, Filt.ctor, Filt.dtor, Th.join]
    · have : times Filt.start (n + 1) Filt.ctor = times Filt.start n ⟨⟨true⟩⟩ := rfl
      simp only [lives, this, times_filt]
      by_cases hn : n = 0 <;> simp [hn, Filt.dtor, Th.join, Th.dtor]
  | est lg =>
    cases lg with
    | true =>
      have : Est.ctor true = some ⟨some true, ⟨true⟩⟩ := rfl
      simp only [lives, this, Option.bind_some, times_est]
      by_cases hn : n = 0 <;> simp [hn, Est.dtor, Th.join, Th.dtor]
    | false =>
      have : Est.ctor false = some ⟨some false, {}⟩ := rfl
      simp [lives, this, times_off, Est.dtor, Th.dtor]
  | estDefault =>
    rcases n with _ | n
    · simp [lives, times, Est.ctor0, Est.dtor]
    · simp [lives, times, Est.ctor0, Est.start]

/-- **C136**: used as the programs use them, all objects but the estimator without configuration live well. -/
theorem C136_intended_partial (k : Kind) (h : k ≠ .estDefault) : lives k (intended k) = true := by
  rw [C136_exactly]
  cases k <;> simp_all [intended]

/-- **C136** is false: a gyro filter that has been constructed but not started terminates the program when it is destroyed (for
example because the constructor of a later object has thrown, or in a test), and so does an estimator that has been constructed
without configuration; a second start of any thread does too. -/
theorem C136_false : lives .filter 0 = false ∧ lives .estDefault 0 = false ∧ lives .sub 2 = false ∧ lives .pub 2 = false ∧
    lives .filter 2 = false ∧ lives (.est true) 1 = false ∧ lives .sub 0 = true ∧ lives .pub 0 = true ∧ lives (.est true) 0 = true := by
  decide

end Drift.Life
