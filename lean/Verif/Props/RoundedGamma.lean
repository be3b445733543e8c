import Verif.Lemmas.RoundGam
import Verif.Props.RoundedOdo
import Verif.Props.LieGroup

/-!
# C166: the accuracy of `Gamma_SO3` in double arithmetic
-/
namespace Drift
open Matrix F64 Nat

theorem isF_rn (F : Fpu) {w : V3} (hw : ∀ i, IsF (w i)) (i : Fin 3) : w i = F.rn (w i) := (rn_of_F F.toRound (hw i)).symm

theorem exact_of_large {w : V3} (h1 : 1 / 10 ^ 6 ≤ Drift.norm3 w) : Exact w :=
  Or.inl (not_lt.mpr ((show TOLERANCE ≤ 1 / 10 ^ 6 by unfold TOLERANCE; norm_num).trans h1))

theorem Gam2_series' {w : V3} (h : 1 / 10 ^ 6 ≤ Drift.norm3 w) : HasSum (fun n : ℕ => (1 / ((n + 2)! : ℝ)) • skew w ^ n) (Gam2 w) := by
  obtain ⟨G, hG, hs⟩ := C02_gamma_SO3_series w (le_trans (by norm_num) h) 2 (by norm_num)
  rw [Nat.cast_ofNat, gamma_SO3_two] at hG
  rw [Option.some.inj hG]; exact hs

/-- **C166** (order 0): for rotation vectors of `double`s with components of at most 4 rad and at least `2e-10` rad long, every entry of the
computed `Gamma_SO3(w, 0)` is within `2^-44` of the sum of the series -/
theorem C166_order0 (F : Fpu) (hF : F.Accurate) {w : V3} (hw : ∀ i, IsF (w i)) (h4 : ∀ i, |w i| ≤ 4) (h1 : 2 / 10 ^ 10 ≤ Drift.norm3 w) {G : M3}
    (hG : HasSum (fun n : ℕ => (1 / ((n + 0)! : ℝ)) • skew w ^ n) G) (i j : Fin 3) : |gamma0 F w i j - G i j| ≤ 1 / 2 ^ 44 := by
  have hx : Exact w := Or.inl (not_lt.mpr ((show TOLERANCE ≤ 2 / 10 ^ 10 by unfold TOLERANCE; norm_num).trans h1))
  have e : G = Gam0 w := hG.unique (Gam0_series hx)
  have hn : (4 / 10 ^ 20 : ℝ) ≤ nsq w := by
    rw [← norm3_mul_self]
    calc (4 / 10 ^ 20 : ℝ) = 2 / 10 ^ 10 * (2 / 10 ^ 10) := by norm_num
      _ ≤ _ := mul_le_mul h1 h1 (by norm_num) (norm3_nonneg w)
  rw [e]
  exact (gamma0_acc F hF (isF_rn F hw) h4 (Or.inr hn) i j).trans (by unfold uu; norm_num)

/-- **C166** (order 1): for rotations by `θ` between `1e-6` and 1 rad every entry of the computed `Gamma_SO3(w, 1)` is within `2^-44 / θ` of
the sum of the series -/
theorem C166_order1 (F : Fpu) (hF : F.Accurate) {w : V3} (hw : ∀ i, IsF (w i)) (h1 : 1 / 10 ^ 6 ≤ Drift.norm3 w) (h2 : Drift.norm3 w ≤ 1) {G : M3}
    (hG : HasSum (fun n : ℕ => (1 / ((n + 1)! : ℝ)) • skew w ^ n) G) (i j : Fin 3) :
    |gamma1 F w i j - G i j| ≤ 1 / 2 ^ 44 / Drift.norm3 w := by
  have e : G = Gam1 w := hG.unique (Gam1_series (exact_of_large h1))
  rw [e]
  refine (gamma1_acc F hF (isF_rn F hw) h1 h2 (Or.inr ⟨le_rfl, h2⟩) i j).trans ?_
  exact div_le_div_of_nonneg_right (by unfold uu; norm_num) (norm3_nonneg w)

/-- **C166** (order 2): and every entry of the computed `Gamma_SO3(w, 2)` is within `2^-44 / θ^2` of the sum of the series -/
theorem C166_order2 (F : Fpu) (hF : F.Accurate) {w : V3} (hw : ∀ i, IsF (w i)) (h1 : 1 / 10 ^ 6 ≤ Drift.norm3 w) (h2 : Drift.norm3 w ≤ 1) {G : M3}
    (hG : HasSum (fun n : ℕ => (1 / ((n + 2)! : ℝ)) • skew w ^ n) G) (i j : Fin 3) :
    |gamma2 F w i j - G i j| ≤ 1 / 2 ^ 44 / Drift.norm3 w ^ 2 := by
  have e : G = Gam2 w := hG.unique (Gam2_series' h1)
  rw [e, sq]
  refine (gamma2_acc F hF (isF_rn F hw) h1 h2 (Or.inr ⟨le_rfl, h2⟩) i j).trans ?_
  exact div_le_div_of_nonneg_right (by unfold uu; norm_num) (mul_nonneg (norm3_nonneg w) (norm3_nonneg w))

/-- a turn by half a radian about the vertical: right to 13 digits -/
example : (∀ i, IsF ((![0, 0, 1 / 2] : V3) i)) ∧ ∃ G, HasSum (fun n : ℕ => (1 / ((n + 2)! : ℝ)) • skew ![0, 0, 1 / 2] ^ n) G ∧
    ∀ i j, |gamma2 exFpu ![0, 0, 1 / 2] i j - G i j| ≤ 1 / 10 ^ 12 := by
  have hA : exFpu.Accurate := accurate_of_rounded exFpu (fun _ => rfl) (fun _ => rfl)
  have hw : ∀ i, IsF ((![0, 0, 1 / 2] : V3) i) := by
    intro i
    fin_cases i
    · exact IsF.zero
    · exact IsF.zero
    · exact ⟨1, -1, by norm_num, by norm_num, by norm_num [Matrix.cons_val_two]⟩
  have e2 : norm3 (![0, 0, 1 / 2] : V3) = 1 / 2 := by
    have : norm3 (![0, 0, 1 / 2] : V3) ^ 2 = (1 / 2) ^ 2 := by rw [norm3_sq]; norm_num [nsq, Matrix.cons_val_two]
    exact (sq_eq_sq₀ (norm3_nonneg _) (by norm_num)).mp this
  obtain ⟨G, -, hG⟩ := C02_gamma_SO3_series ![0, 0, 1 / 2] (by rw [e2]; norm_num) 2 (by norm_num)
  refine ⟨hw, G, hG, fun i j => ?_⟩
  refine (C166_order2 exFpu hA hw (by rw [e2]; norm_num) (by rw [e2]; norm_num) hG i j).trans ?_
  rw [e2]; norm_num

end Drift
