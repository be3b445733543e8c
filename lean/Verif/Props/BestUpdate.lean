import Verif.Props.Inekf
import Verif.Lemmas.BestGain

/-!
# C97: a correction is the minimum-variance update
-/
set_option linter.unusedSimpArgs false
namespace Drift
open Mat Matrix Finset

/-- **C97**: there is at most one minimum-variance gain, so `MinVar` determines the correction. -/
theorem C97_gain_unique {P H N L L' : Mat} (hP : PSD P) (hH : H.cols = P.rows) (hN : PD N) (hNr : N.rows = H.rows)
    (h : MinVar P H N L) (h' : MinVar P H N L') : L = L' := minVar_unique hP hH hN hNr h h'

theorem prior0_isPrior {K : ℕ} {s : RobotState} (h : Shape K s) : IsPrior K s (prior0 K s) := by
  refine ⟨prior0_rows h, prior0_cols h, fun hb => ?_, fun hb i j hi hj => ?_, fun hb i j hi hj hij => ?_⟩
  · unfold prior0; rw [if_pos hb]
  · unfold prior0; rw [hb, if_neg (by simp), mask_e (by rw [h.pr]; omega) (by rw [h.pc]; omega), if_pos ⟨hi, hj⟩]
  · unfold prior0
    rw [hb, if_neg (by simp), mask_e (by rw [h.pr]; omega) (by rw [h.pc]; omega), if_neg (by omega)]

/-- **C97** for `CorrectRightInvariant`, both error settings.  `P0` is the prior covariance in the filter's own error
coordinates, `PR` the same covariance in the right-invariant error, `L` the (unique) minimum-variance gain for the
observation `(H, N)`.  The new mean is `Exp(δ) X`, `theta + δ` for `δ = L Z` (the yaw gyro bias excepted, which is kept),
the new covariance, in the right-invariant error, is the error covariance of that gain (the yaw gyro bias excepted). -/
theorem C97_right_correction {K : ℕ} {s s' : RobotState} (h : Shape K s) (hP : PSD s.P) {Z H N : Mat} (hN : PD N)
    {et : ErrorType} (hs : correctRightInvariant Z H N s et = some s') :
    ∃ P0 PR L PR' E : Mat, IsPrior K s P0 ∧
      (et = .rightInvariant → PR = P0) ∧ (et = .leftInvariant → AdjRelated K s.X P0 PR) ∧
      PSD PR ∧ MinVar PR H N L ∧
      exp_SEK3 ((L * Z).blockP 0 0 (3 * K + 3) 1) = some E ∧ s'.X = E * s.X ∧
      (∀ i < 6, s'.Theta.e i 0 = s.Theta.e i 0 + if i = 2 then 0 else (L * Z).e (3 * K + 3 + i) 0) ∧
      (et = .rightInvariant → s'.P = PR') ∧ (et = .leftInvariant → AdjRelated K s'.X s'.P PR') ∧
      ∀ i j, i ≠ 3 * K + 5 → j ≠ 3 * K + 5 → PR'.e i j = (errCov PR H N L).e i j := by
  have hsh := C23_right_on_group h hs
  obtain ⟨ho, W, hW, rfl⟩ := (correctRight_iff h).mp hs
  have hPr := priorR_rows (et := et) h
  have hPsd := priorR_psd (et := et) h hP
  have hHc : H.cols = (priorR K s et).rows := by rw [ho.hc, hPr]
  have hmin := gain_minVar hPsd hHc hN ho.nr hW
  have hexp : exp_SEK3 ((gain (priorR K s et) H W * Z).blockP 0 0 (3 * K + 3) 1) =
      some (expK K (gain (priorR K s et) H W * Z)) := by
    rw [exp_SEK3_eq (K := K) (by simp; ring) (by simp)]
    congr 1
    refine expK_congr (K := K) (d := (gain (priorR K s et) H W * Z).blockP 0 0 (3 * K + 3) 1) fun i hi => ?_
    rw [blockP_e, if_pos (by omega)]; simp
  refine ⟨prior0 K s, priorR K s et, gain (priorR K s et) H W,
    mask (· ≠ 3 * K + 5) 0.0001 (joseph (priorR K s et) H N (gain (priorR K s et) H W)),
    expK K (gain (priorR K s et) H W * Z), prior0_isPrior h, ?_, ?_, hPsd, hmin, hexp, rfl, ?_, ?_, ?_, ?_⟩
  · rintro rfl; unfold priorR; rw [if_neg (by decide)]
  · rintro rfl; rw [adjRelated_iff h.x]; unfold priorR; rw [if_pos rfl]
  · intro i hi
    unfold corrR; dsimp only
    rw [add_e, if_pos ⟨by rw [h.thr]; exact hi, by rw [h.thc]; exact one_pos⟩, setP_e]
    congr 1
    by_cases h2 : i = 2
    · subst h2; simp
    · simp [h2, hi, blockP_e]
  · rintro rfl; rfl
  · rintro rfl
    rw [adjRelated_iff hsh.x]
    unfold corrR at hsh ⊢
    dsimp only at hsh ⊢
    rw [if_pos rfl]
    exact (conj_cancel (n := 3 * K + 9) rfl rfl (by simp [hPr]) (by simp [hPr]) rfl (EA_mul_inv hsh.x)).symm
  · intro i j hi hj
    rw [errCov_eq_joseph]
    by_cases hij : i < 3 * K + 9 ∧ j < 3 * K + 9
    · rw [mask_e (by simp [hPr, hij.1]) (by simp [hPr, hij.2]), if_pos ⟨hi, hj⟩]
    · rw [(mask _ _ _).supp i j (by simp [hPr]; omega), (joseph _ _ _ _).supp i j (by simp [hPr]; omega)]

/-- **C30**, what the left correction computes in the right-invariant setting (the only caller-visible difference with the textbook
update is the prior: `P0` is used *as if* it were expressed in the left-invariant error, see C30): the new mean is
`X Exp(δ)`, `theta + δ` with `δ = L Z`, and the covariance in the left-invariant error is that of the minimum-variance
gain `L`.  Missing for the full property: `P0` is not transported to the left-invariant error before the update. -/
theorem C30_left_update_partial {K : ℕ} {s s' : RobotState} (h : Shape K s) (hP : PSD s.P) {Z H N : Mat} (hN : PD N)
    (hs : correctLeftInvariant Z H N s .rightInvariant = some s') :
    ∃ P0 L E : Mat, IsPrior K s P0 ∧ MinVar P0 H N L ∧
      exp_SEK3 ((L * Z).blockP 0 0 (3 * K + 3) 1) = some E ∧ s'.X = s.X * E ∧
      (∀ i < 6, s'.Theta.e i 0 = s.Theta.e i 0 + (L * Z).e (3 * K + 3 + i) 0) ∧
      AdjRelated K s'.X (errCov P0 H N L) s'.P := by
  have hsh := C23_left_on_group h hs
  obtain ⟨ho, W, hW, rfl⟩ := (correctLeft_iff h).mp hs
  have hpl : priorL K s .rightInvariant = prior0 K s := by unfold priorL; rw [if_neg (by decide)]
  have hPr := prior0_rows h
  have hPsd := prior0_psd (K := K) hP
  have hHc : H.cols = (prior0 K s).rows := by rw [ho.hc, hPr]
  rw [hpl] at hW
  have hmin := gain_minVar hPsd hHc hN ho.nr hW
  have hexp : exp_SEK3 ((gain (prior0 K s) H W * Z).blockP 0 0 (3 * K + 3) 1) =
      some (expK K (gain (prior0 K s) H W * Z)) := by
    rw [exp_SEK3_eq (K := K) (by simp; ring) (by simp)]
    congr 1
    refine expK_congr (K := K) (d := (gain (prior0 K s) H W * Z).blockP 0 0 (3 * K + 3) 1) fun i hi => ?_
    rw [blockP_e, if_pos (by omega)]; simp
  refine ⟨prior0 K s, gain (prior0 K s) H W, expK K (gain (prior0 K s) H W * Z), prior0_isPrior h, hmin, hexp,
    ?_, ?_, ?_⟩
  · unfold corrL; rw [hpl]
  · intro i hi
    unfold corrL; dsimp only
    rw [hpl, add_e, if_pos ⟨by rw [h.thr]; exact hi, by rw [h.thc]; exact one_pos⟩]
    congr 1
    simp [hi, blockP_e]
  · rw [adjRelated_iff hsh.x, errCov_eq_joseph]
    unfold corrL; dsimp only
    rw [hpl, if_pos rfl]

/-- a concrete case: the default state, bias update on or off, both settings -/
example (et : ErrorType) : ∃ s', correctRightInvariant (ofV ![1, 2, 3]) (eye 3 15) (one 3) RobotState.init et = some s' ∧
    Shape 2 RobotState.init ∧ PSD RobotState.init.P ∧ PD (one 3) := by
  obtain ⟨s', hs'⟩ := C31_right_defined init_shape (one_pd 15).psd (obs_example (ofV ![1, 2, 3]) rfl rfl) (one_pd 3) et
  exact ⟨s', hs', init_shape, (one_pd 15).psd, one_pd 3⟩

end Drift
