import Verif.Model.RoundedOdo
import Verif.Spec.RoundedOdo
import Verif.Props.Rounded2

/-!
# Rounding errors of the wheel odometry
-/
namespace Drift
namespace F64
open Matrix

theorem entry_le_norm (v : V3) (i : Fin 3) : |v i| ≤ Drift.norm3 v := by
  apply abs_le_of_sq_le_sq _ (norm3_nonneg v)
  rw [norm3_sq]
  fin_cases i <;> simp [nsq] <;> nlinarith [sq_nonneg (v 0), sq_nonneg (v 1), sq_nonneg (v 2)]

theorem rot_entry_le {X : M3} (hX : IsRot X) (v : V3) (i : Fin 3) : |(X *ᵥ v) i| ≤ Drift.norm3 v := by
  refine (entry_le_norm _ i).trans (le_of_eq ?_)
  have h1 : Drift.norm3 (X *ᵥ v) ^ 2 = Drift.norm3 v ^ 2 := by rw [norm3_sq, norm3_sq, nsq_rot hX]
  exact (sq_eq_sq₀ (norm3_nonneg _) (norm3_nonneg _)).mp h1

/-- the computed product of a matrix with a vector -/
theorem mulV_err (F : Fpu) {X : M3} {v : V3} {V : ℝ} (hV : 0 ≤ V) (hX : ∀ i j, |X i j| ≤ 111 / 100) (hv : ∀ j, |v j| ≤ V) (i : Fin 3) :
    |mulV F X v i - (X *ᵥ v) i| ≤ 12 * uu * (V + 1 / 10 ^ 70) := by
  have h := dot_err F (A := X) (B := fun k _ => v k) (i := i) (j := 0) (M := 111 / 100 * V + 1 / 10 ^ 70)
    (tiny_le.trans (by norm_num; linarith)) (fun k => by
      rw [abs_mul]
      have := mul_le_mul (hX i k) (hv k) (abs_nonneg _) (by norm_num)
      exact this.trans (by norm_num))
  have e1 : mulM F X (fun k _ => v k) i 0 = mulV F X v i := rfl
  have e2 : (X * (show M3 from fun k _ => v k)) i 0 = (X *ᵥ v) i := rfl
  rw [e1, e2] at h
  refine h.trans ?_
  have := mul_nonneg uu_pos.le hV
  have := mul_nonneg uu_pos.le (show (0 : ℝ) ≤ 1 / 10 ^ 70 by norm_num)
  nlinarith

/-- one step of the position -/
theorem pos_step (F : Fpu) {Y X : M3} {v : V3} {p q : V3} {dt k L : ℝ} (hk : 0 ≤ k) (hk1 : k ≤ 10 ^ 12) (hL : 0 ≤ L) (hdt : |dt| ≤ 10 ^ 9)
    (hY : ∀ i j, |Y i j| ≤ 111 / 100) (hX : IsRot X) (hD : ∀ i j, |Y i j - X i j| ≤ k * (1 / 2 ^ 40)) (i : Fin 3) (hq : |q i| ≤ L)
    (hp : |p i - q i| ≤ k * L * (1 / 2 ^ 38)) :
    |F.rn (p i + F.rn (mulV F Y v i * dt)) - (q + dt • X *ᵥ v) i| ≤ (k + 1) * (L + (|dt| * Drift.norm3 v + 1 / 10 ^ 60)) * (1 / 2 ^ 38) ∧
      |(q + dt • X *ᵥ v) i| ≤ L + (|dt| * Drift.norm3 v + 1 / 10 ^ 60) := by
  have hq' : (q + dt • X *ᵥ v) i = q i + (X *ᵥ v) i * dt := by
    rw [Pi.add_apply, Pi.smul_apply, smul_eq_mul, mul_comm dt]
  rw [hq']
  have hV0 := norm3_nonneg v
  have hXv := rot_entry_le hX v i
  have hm := mulV_err F hV0 hY (entry_le_norm v) i
  have hd : |(Y *ᵥ v) i - (X *ᵥ v) i| ≤ 3 * (k * (1 / 2 ^ 40)) * Drift.norm3 v := by
    have e : (Y *ᵥ v) i - (X *ᵥ v) i = (Y i 0 - X i 0) * v 0 + (Y i 1 - X i 1) * v 1 + (Y i 2 - X i 2) * v 2 := by
      simp only [mulVec, dotProduct, Fin.sum_univ_three]; ring
    have t : ∀ j, |(Y i j - X i j) * v j| ≤ k * (1 / 2 ^ 40) * Drift.norm3 v := fun j => by
      rw [abs_mul]; exact mul_le_mul (hD i j) (entry_le_norm v j) (abs_nonneg _) (by positivity)
    rw [e]
    refine (abs_add_le _ _).trans ?_
    have := abs_add_le ((Y i 0 - X i 0) * v 0) ((Y i 1 - X i 1) * v 1)
    linarith [t 0, t 1, t 2]
  generalize (Y *ᵥ v) i = a at *
  generalize (X *ᵥ v) i = b at *
  generalize mulV F Y v i = y at *
  generalize Drift.norm3 v = V at *
  generalize p i = p at *
  generalize q i = q at *
  have hd0 := abs_nonneg dt
  obtain ⟨s, hs⟩ : ∃ s, |dt| * V = s := ⟨_, rfl⟩
  have hs0 : 0 ≤ s := by rw [← hs]; positivity
  rw [hs]
  have u0 := uu_pos
  have uv : uu = 1 / 2 ^ 53 := rfl
  -- the product
  have h1 : |y * dt - b * dt| ≤ 3 * k * (1 / 2 ^ 40) * s + 12 * uu * (s + 1 / 10 ^ 61) := by
    rw [← sub_mul, abs_mul]
    have h2 : |y - b| ≤ 3 * (k * (1 / 2 ^ 40)) * V + 12 * uu * (V + 1 / 10 ^ 70) := by
      have := abs_add_le (y - a) (a - b)
      rw [sub_add_sub_cancel] at this
      linarith
    have h3 := mul_le_mul_of_nonneg_right h2 hd0
    refine h3.trans ?_
    have h4 : uu * |dt| * (1 / 10 ^ 70) ≤ uu * 10 ^ 9 * (1 / 10 ^ 70) :=
      mul_le_mul_of_nonneg_right (mul_le_mul_of_nonneg_left hdt u0.le) (by norm_num)
    rw [← hs]
    nlinarith
  have hb : |b * dt| ≤ s := by
    rw [abs_mul, mul_comm, ← hs]; exact mul_le_mul_of_nonneg_left hXv hd0
  have hks : k * s ≤ 10 ^ 12 * s := mul_le_mul_of_nonneg_right hk1 hs0
  have h5 : |y * dt| ≤ 4 * s + 1 / 10 ^ 61 := by
    have := abs_sub_abs_le_abs_sub (y * dt) (b * dt)
    rw [uv] at h1
    have e1 : 3 * k * (1 / 2 ^ 40) * s ≤ 28 / 10 * s := by nlinarith
    have e2 : 12 * (1 / 2 ^ 53 : ℝ) * (s + 1 / 10 ^ 61) ≤ 1 / 10 * s + 1 / 10 ^ 61 := by nlinarith
    linarith
  have h6 := rnb F.toRound (x := y * dt) (M := 4 * s + 1 / 10 ^ 61) (tiny_le.trans (by norm_num; linarith)) h5
  -- the sum
  have hkL : k * L ≤ 10 ^ 12 * L := mul_le_mul_of_nonneg_right hk1 hL
  obtain ⟨z, hz⟩ : ∃ z, F.rn (y * dt) = z := ⟨_, rfl⟩
  rw [hz] at h6 ⊢
  have h7 : |p + z| ≤ 5 * (L + (s + 1 / 10 ^ 60)) := by
    rw [uv] at h6
    rw [abs_le] at *
    norm_num at *
    constructor <;> linarith
  have h8 := rnb F.toRound (x := p + z) (M := 5 * (L + (s + 1 / 10 ^ 60))) (tiny_le.trans (by norm_num; linarith)) h7
  have hks0 : 0 ≤ k * s := by positivity
  have hkL0 : 0 ≤ k * L := by positivity
  refine ⟨?_, ?_⟩
  · rw [uv] at h1 h6 h8
    rw [abs_le] at *
    norm_num at *
    constructor <;> nlinarith
  · have := abs_add_le q (b * dt)
    norm_num
    linarith

end F64
end Drift
