import Verif.Model.LieGroup
import Mathlib.Data.Nat.Factorial.Basic
import Mathlib.Tactic.IntervalCases

/-! Helper lemmas on the model of `factorial`. -/
namespace Drift
open Nat

theorem inInt_of_le {n : ℤ} (h0 : 0 ≤ n) (h : n < 2 ^ 31) : inInt n := ⟨by linarith [show (0:ℤ) ≤ 2^31 by norm_num], h⟩

/-- with enough fuel, the recursion computes `n!` while it fits `long int` -/
theorem factorialF_small (n : ℕ) (hn : n ≤ 20) (fuel : ℕ) (hf : n + 1 ≤ fuel) :
    factorialF fuel n = .ret (n ! : ℕ) := by
  induction n generalizing fuel with
  | zero =>
    obtain ⟨f, rfl⟩ : ∃ f, fuel = f + 1 := ⟨fuel - 1, by omega⟩
    simp [factorialF]
  | succ n ih =>
    obtain ⟨f, rfl⟩ : ∃ f, fuel = f + 1 := ⟨fuel - 1, by omega⟩
    by_cases h0 : n = 0
    · subst h0; simp [factorialF]
    · have h := ih (by omega) f (by omega)
      have e : ((n + 1 : ℕ) : ℤ) - 1 = (n : ℤ) := by push_cast; ring
      rw [factorialF, if_neg (by omega), if_pos (by rw [e]; constructor <;> omega), e, h]
      simp only
      have e2 : ((n ! : ℕ) : ℤ) * ((n + 1 : ℕ) : ℤ) = ((n + 1)! : ℕ) := by
        rw [Nat.factorial_succ]; push_cast; ring
      rw [e2, if_pos]
      have : (n + 1)! ≤ 20 ! := Nat.factorial_le hn
      have h20 : 20 ! = 2432902008176640000 := by decide
      constructor <;> [skip; skip] <;> (rw [h20] at this; omega)

/-- from 21 on, the product overflows -/
theorem factorialF_big (n : ℕ) (hn : 21 ≤ n) (hi : (n : ℤ) < 2 ^ 31) (fuel : ℕ) (hf : n + 1 ≤ fuel) :
    factorialF fuel n = .ub := by
  induction n, hn using Nat.le_induction generalizing fuel with
  | base =>
    obtain ⟨f, rfl⟩ : ∃ f, fuel = f + 1 := ⟨fuel - 1, by omega⟩
    have h := factorialF_small 20 le_rfl f (by omega)
    have h20 : 20 ! = 2432902008176640000 := by decide
    rw [h20] at h
    rw [factorialF, if_neg (by norm_num), if_pos (by constructor <;> norm_num)]
    rw [show ((21 : ℕ) : ℤ) - 1 = ((20 : ℕ) : ℤ) by norm_num, h]
    simp only
    rw [if_neg (by unfold inLong; norm_num)]
  | succ n hn ih =>
    obtain ⟨f, rfl⟩ : ∃ f, fuel = f + 1 := ⟨fuel - 1, by omega⟩
    have h := ih (by omega) f (by omega)
    have e : ((n + 1 : ℕ) : ℤ) - 1 = (n : ℤ) := by push_cast; ring
    rw [factorialF, if_neg (by omega), if_pos (by rw [e]; constructor <;> omega), e, h]

/-- for a negative argument no number of calls produces a value -/
theorem factorialF_neg (n : ℤ) (hn : n < 0) (fuel : ℕ) : ∀ x, factorialF fuel n ≠ .ret x := by
  induction fuel generalizing n with
  | zero => intro x; simp [factorialF]
  | succ f ih =>
    intro x
    rw [factorialF, if_neg (by omega)]
    split_ifs with h
    · have := ih (n - 1) (by omega)
      cases hh : factorialF f (n - 1) with
      | ret y => exact absurd hh (this y)
      | ub => simp
      | running => simp
    · simp

/-- more calls do not change a result already obtained -/
theorem factorialF_mono {fuel fuel' : ℕ} {n : ℤ} {r : Eval} (h : factorialF fuel n = r)
    (hr : r ≠ .running) (hle : fuel ≤ fuel') : factorialF fuel' n = r := by
  induction fuel generalizing n fuel' r with
  | zero => simp [factorialF] at h; exact absurd h.symm hr
  | succ f ih =>
    obtain ⟨f', rfl⟩ : ∃ f', fuel' = f' + 1 := ⟨fuel' - 1, by omega⟩
    rw [factorialF] at h ⊢
    split_ifs at h ⊢ with h1 h2
    · exact h
    · cases hh : factorialF f (n - 1) with
      | ret y => rw [hh] at h; rw [ih hh (by simp) (by omega)]; exact h
      | ub => rw [hh] at h; rw [ih hh (by simp) (by omega)]; exact h
      | running => rw [hh] at h; exact absurd h.symm hr
    · exact h

theorem factorial?_eq (n : ℕ) (hn : n ≤ 20) : factorial? n = some ((n ! : ℕ) : ℤ) := by
  unfold factorial?
  rw [Int.toNat_natCast, factorialF_small n hn _ (by omega)]

end Drift
