import Verif.Lemmas.Tilt2
import Verif.Lemmas.Stand1
import Verif.Lemmas.Stand5

/-! # Lemmas: a linear function of the errors of rotation, velocity and position through IMU steps and velocity corrections (C161) -/
set_option linter.unusedSimpArgs false
namespace Drift
open Mat Matrix Finset RobotState ImuProp

/-- one velocity correction of the right-invariant filter: at the price of the sensor's variance in the direction `y`, what a function reads from
the velocity can be changed by `y` -/
theorem any_vel {K : ℕ} {c : VelCorr} {s s' : RobotState} {m : VelMeas} (hsh : Shape K s) (hw : s.stateType = .worldCentric) (hP : PSD s.P)
    (hC : PD (of3 c.cov)) (het : c.errorType = .rightInvariant) (h : c.apply m s = some s') {x : ℕ → ℝ} (hx9 : ∀ i, 3 * K + 3 ≤ i → x i = 0) (y : V3) :
    quad s'.P x ≤ quad s.P (fun i => x i - spread 1 y i) + y ⬝ᵥ (s.X.blk3 0 0 * c.cov * (s.X.blk3 0 0)ᵀ).mulVec y := by
  obtain ⟨R, v, h0, h3, h1⟩ := (velApply_iff hsh hw c m).mp h
  have hK := hsh.k
  have hsh' := hsh.setT (some m.time)
  have hs1 := C23_right_on_group hsh' h1
  have hd : RobotState.dimP { s with t := some m.time } = 3 * K + 9 := hsh.pc
  rw [hd] at h1
  have hR : R = s.X.blk3 0 0 := by
    have hr := hsh.x.rows; have hc := hsh.x.cols
    have : s.get_rotation = some (s.X.blk3 0 0) := blk3?_eq (by omega) (by omega)
    have h0 : s.get_rotation = some R := h0
    rw [this] at h0
    exact (Option.some.inj h0).symm
  have hN : PD (of3 (R * c.cov * Rᵀ)) := by rw [hR]; exact pd_rot hsh.x.rot hC
  obtain ⟨P0, PR, L, PR', E, k1, k2, -, k4, k5, -, -, -, k6, -, k8⟩ := C97_right_correction hsh' hP hN h1
  have hPR := k2 het
  have hPR' := k6 het
  subst hPR
  obtain ⟨ho, -⟩ := (correctRight_iff hsh').mp h1
  have hPr := k1.rows
  have hHc : (velH (3 * K + 9)).cols = PR.rows := by rw [hPr]; rfl
  have hq : quad s'.P x = quad (errCov PR (velH (3 * K + 9)) (of3 (R * c.cov * Rᵀ)) L) x := by
    rw [hPR']
    refine quad_skip ?_ ?_ k8 (hx9 _ (by omega))
    · rw [← hPR', hs1.pr]; show _ = PR.rows; rw [hPr]
    · rw [← hPR', hs1.pc]; show _ = PR.rows; rw [hPr]
  have hprior : ∀ z : ℕ → ℝ, (∀ i, 3 * K + 3 ≤ i → z i = 0) → quad PR z = quad s.P z := by
    intro z hz
    by_cases hb' : s.enableBias = true
    · rw [k1.on hb']
    · have hb' : s.enableBias = false := by simpa using hb'
      unfold quad
      rw [hPr, k1.cols, hsh.pr, hsh.pc]
      refine sum_congr rfl fun i hi => sum_congr rfl fun j hj => ?_
      by_cases hi6 : i < 3 * K + 3
      · by_cases hj6 : j < 3 * K + 3
        · rw [k1.offMain hb' i j (by omega) (by omega)]
        · rw [hz j (by omega)]; ring
      · rw [hz i (by omega)]; ring
  have hy9 : ∀ i, 3 * K + 3 ≤ i → x i - spread 1 y i = 0 := by
    intro i hi
    rw [hx9 i hi]
    unfold spread
    rw [dif_neg (by omega), sub_zero]
  have hquadN : quad (of3 (R * c.cov * Rᵀ)) (fun k => spread 0 y k) = y ⬝ᵥ (s.X.blk3 0 0 * c.cov * (s.X.blk3 0 0)ᵀ).mulVec y := by
    have e := quad_spread (A := of3 (R * c.cov * Rᵀ)) (k := 0) (by show 3 ≤ 3; omega) (by show 3 ≤ 3; omega) y
    have e1 : (of3 (R * c.cov * Rᵀ)).blk3 (3 * 0) (3 * 0) = R * c.cov * Rᵀ := blk3_of3 _
    rw [e1] at e
    rw [← hR]
    exact e
  rw [← hprior _ hy9, hq, ← hquadN]
  obtain ⟨S, hS⟩ : ∃ S, ∑ i ∈ range (3 * K + 9), x i * x i = S := ⟨_, rfl⟩
  by_cases h00 : S = 0
  · have hz : ∀ i, x i = 0 := by
      intro i
      by_cases hi : i < 3 * K + 9
      · rw [h00, Finset.sum_eq_zero_iff_of_nonneg fun i _ => mul_self_nonneg _] at hS
        exact mul_self_eq_zero.mp (hS i (mem_range.mpr hi))
      · exact hx9 i (by omega)
    have e0 : quad (errCov PR (velH (3 * K + 9)) (of3 (R * c.cov * Rᵀ)) L) x = 0 := by
      unfold quad; simp [hz]
    rw [e0]
    exact add_nonneg (k4.2 _) (hN.psd.2 _)
  -- the rank-one gain that moves the velocity part by `y`
  set L' : Mat := ofFn (3 * K + 9) 3 fun i j => x i / S * spread 0 y j with hL'
  have hL'y : ∀ k, k < 3 → ∑ i ∈ range (3 * K + 9), x i * L'.e i k = spread 0 y k := by
    intro k hk
    have : ∀ i ∈ range (3 * K + 9), x i * L'.e i k = x i * x i * (spread 0 y k / S) := by
      intro i hi
      rw [hL', ofFn_e_of_lt (mem_range.mp hi) hk]
      ring
    rw [sum_congr rfl this, ← Finset.sum_mul, hS]
    field_simp
  have hle := k5.2.2 L' (by rw [hPr]; rfl) rfl x
  refine le_trans hle (le_of_eq ?_)
  rw [quad_errCov k4 hHc hN.psd ho.nr (by rw [hPr]; rfl) rfl]
  congr 1
  · refine quad_ext (n := 3 * K + 9) hPr k1.cols fun k hk => ?_
    rw [hPr]
    have e : ∀ i ∈ range (3 * K + 9), x i * (one (3 * K + 9) - L' * velH (3 * K + 9)).e i k =
        x i * (one (3 * K + 9)).e i k - ∑ j ∈ range 3, x i * L'.e i j * (velH (3 * K + 9)).e j k := by
      intro i hi
      rw [sub_e' (by rfl) (by rfl), mul_sub, mul_e, Finset.mul_sum]
      congr 1
      exact sum_congr rfl fun j _ => by ring
    rw [sum_congr rfl e, Finset.sum_sub_distrib, Finset.sum_comm]
    have e1 : ∑ i ∈ range (3 * K + 9), x i * (one (3 * K + 9)).e i k = x k := pull_one (n := 3 * K + 9) x hk
    rw [e1]
    have e2 : ∀ j ∈ range 3, ∑ i ∈ range (3 * K + 9), x i * L'.e i j * (velH (3 * K + 9)).e j k = spread 0 y j * (velH (3 * K + 9)).e j k := by
      intro j hj
      rw [← Finset.sum_mul, hL'y j (mem_range.mp hj)]
    rw [sum_congr rfl e2]
    have e3 : ∑ j ∈ range 3, spread 0 y j * (velH (3 * K + 9)).e j k = spread 1 y k := by
      by_cases hk3 : 3 ≤ k ∧ k < 6
      · rw [Finset.sum_eq_single (k - 3)]
        · unfold velH
          rw [ofFn_e_of_lt (by omega) hk, if_pos (by omega), mul_one]
          unfold spread
          rw [dif_pos (by omega), dif_pos (by omega)]
          congr 1
        · intro j hj hne
          have hj := mem_range.mp hj
          unfold velH
          rw [ofFn_e_of_lt hj hk, if_neg (by omega), mul_zero]
        · intro hh; exact absurd (mem_range.mpr (by omega)) hh
      · rw [Finset.sum_eq_zero]
        · unfold spread; rw [dif_neg (by omega)]
        · intro j hj
          have hj := mem_range.mp hj
          unfold velH
          rw [ofFn_e_of_lt hj hk, if_neg (by omega), mul_zero]
    rw [e3]
  · refine quad_ext (n := 3) rfl rfl fun k hk => ?_
    exact hL'y k hk

end Drift
