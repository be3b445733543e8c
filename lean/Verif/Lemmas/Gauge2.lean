import Verif.Lemmas.Gauge1

/-! # Lemmas: no operation of the right-invariant filter observes heading and position -/
set_option linter.unusedSimpArgs false
namespace Drift
open Mat Matrix Finset RobotState

theorem errVec_zero_bias (K : ℕ) (α : ℝ) (u : V3) : gcol K α u = errVec K ![0, 0, α] 0 u (fun _ => u) 0 0 := rfl

theorem skew_gravity_up (α : ℝ) : (skew gravity).mulVec ![0, 0, α] = 0 := by
  ext i; fin_cases i <;> simp [skew, gravity, Matrix.mulVec, dotProduct, Fin.sum_univ_three]

/-- propagation of the directions -/
theorem phiR_gcol {K : ℕ} (hK : 2 ≤ K) {p : ImuProp} (he : p.errorType = .rightInvariant) (w a : V3) (dt : ℝ) (X : Mat)
    (α : ℝ) (u : V3) : phiK K p w a dt X * gcol K α u = gcol K α u := by
  unfold phiK
  rw [he]; dsimp only
  refine ext_blkV (n := K + 3) (by simp) (by simp) (by simp) (by simp) fun i hi => ?_
  rw [blkV_mul _ _ (n := K + 3) (by simp)]
  unfold gcol
  rw [errVec_blkV _ _ _ _ _ _ hi]
  rw [sum_congr rfl fun k hk => by
    rw [ofBlk_blk3 _ hi (mem_range.mp hk), errVec_blkV _ _ _ _ _ _ (mem_range.mp hk)]]
  rw [phiRF_row hK (.inr ⟨rfl, rfl⟩) hi]
  simp only [smul_mulVec, skew_gravity_up, mulVec_zero, smul_zero, add_zero, zero_add]
  rfl

theorem prop_low {K : ℕ} {p : ImuProp} (hK : 2 ≤ K) (he : p.errorType = .rightInvariant) {w a : V3} {dt rc pc : ℝ}
    {X P Q : Mat} (hr : P.rows = 3 * K + 9) (hc : P.cols = 3 * K + 9) (hl : Low (gN K) (gD rc pc) P)
    (hQ : PSD (qcK K p Q)) (hQr : Q.rows = 3 * K + 9) (hdt : 0 ≤ dt) (en : Bool) :
    Low (gN K) (gD rc pc) (fin K en (covK K p w a dt X P Q)) := by
  have h1 : Low (gN K) (gD rc pc) (covK K p w a dt X P Q) := by
    unfold covK
    dsimp only
    refine Low.add (hl.congr (by simp [hr]) (by omega) fun q => ?_) ?_ (by simp) (by simp)
    · exact gN_cases (p := fun M => _ * M = M) (fun α u => phiR_gcol hK he w a dt X α u) q
    · exact (hQ.congr (by simp [hQr])).smul hdt
  unfold fin
  split_ifs
  · exact h1
  · exact h1.mask _ (by norm_num) (by simp) (fun q => by rw [low_rows]; simp) fun q i j hi => gN_bias hK q i j (by omega)

/-- a measurement that does not see the directions -/
theorem kalman_low {K : ℕ} {s s' : RobotState} {Z H N : Mat} {rc pc : ℝ} (h : Shape K s)
    (hl : Low (gN K) (gD rc pc) s.P) (hN : PSD N) (hH : ∀ α u, H * gcol K α u = zero H.rows 1)
    (e : correctRightInvariant Z H N s .rightInvariant = some s') : Low (gN K) (gD rc pc) s'.P := by
  have hK := h.k
  obtain ⟨ho, W, hW, rfl⟩ := (correctRight_iff h).mp e
  obtain ⟨_, w1, w2, w3, w4⟩ := inv?_spec hW
  simp only [innov_rows] at w1 w2
  have hp0 : Low (gN K) (gD rc pc) (prior0 K s) := by
    unfold prior0
    split_ifs
    · exact hl
    · exact hl.mask _ (by norm_num) (by rw [h.pr, h.pc]) (fun q => by rw [low_rows, h.pr]) fun q i j hi => gN_bias hK q i j (by omega)
  have hpr : priorR K s .rightInvariant = prior0 K s := by unfold priorR; rw [if_neg (by simp)]
  have r0 := prior0_rows h; have c0 := prior0_cols h
  unfold corrR
  dsimp only
  rw [if_neg (by simp), hpr]
  set P := prior0 K s
  set G := gain P H W with hG
  have hGr : G.rows = 3 * K + 9 := by rw [hG, gain_rows, r0]
  have hGc : G.cols = H.rows := by rw [hG, gain_cols, w2]
  have hj : Low (gN K) (gD rc pc) (joseph P H N G) := by
    unfold joseph
    refine Low.add (hp0.congr (by simp) (by omega) fun q => ?_) (hN.congr (by rw [hGc, ho.nr])) (by simp [hGr, r0]) (by simp [hGr, r0])
    refine gN_cases (p := fun M => _ * M = M) (fun α u => ?_) q
    rw [r0]
    have : (one (3 * K + 9) - G * H) * gcol K α u = one (3 * K + 9) * gcol K α u - G * H * gcol K α u :=
      sub_mul' _ (by simp [hGr]) (by simp [ho.hc])
    rw [this, one_mul_of (by simp; ring), mul_assoc', hH]
    refine ext' (by simp) (by simp) fun i j hi hj => ?_
    have hz : (G * zero H.rows 1).e i j = 0 := by rw [mul_e]; simp
    rw [sub_e' (by simp [hGr]; ring) (by simp), hz, sub_zero]
  exact hj.mask _ (by norm_num) (by simp) (fun q => by rw [low_rows, joseph_rows, r0]) fun q i j hi => gN_bias hK q i j (by simp at hi; omega)

/-- the velocity observation -/
theorem velH_gcol {K : ℕ} (hK : 2 ≤ K) (α : ℝ) (u : V3) : velH (3 * K + 9) * gcol K α u = zero 3 1 := by
  refine ext' rfl rfl fun i j hi hj => ?_
  have hi : i < 3 := hi
  have hj : j = 0 := by have : j < 1 := hj; omega
  subst hj
  rw [mul_e, sum_eq_single (i + 3)]
  · rw [gcol_e hK α u (by omega)]; unfold gB
    rw [if_neg (by omega), if_pos (by omega)]; simp
  · intro b hb hne
    have hb : b < 3 * K + 9 := by simpa [velH] using hb
    unfold velH
    rw [ofFn_e_of_lt hi hb, if_neg hne, zero_mul]
  · intro hn; exfalso; apply hn; simp [velH]; omega

/-- the stance observation -/
theorem stance_gcol {K : ℕ} (hK : 2 ≤ K) {R : M3} {p : V3} {d : ℕ → V3} {cov : LegObs → M3} {L : List (ℕ × LegObs)}
    {Z H N : Mat} (h : StanceObs (K + 3) R p d cov L Z H N) (hL : ∀ x ∈ L, 5 ≤ x.1 ∧ x.1 < 3 + K) (hne : L ≠ []) (α : ℝ)
    (u : V3) : H * gcol K α u = zero H.rows 1 := by
  refine ext_blkV (n := L.length) (by simp [h.hr]) (by simp) (by simp [h.hr]) (by simp) fun k hk => ?_
  rw [blkV_mul _ _ (n := K + 3) (h.hc hne)]
  have hz : (zero H.rows 1).blkV (3 * k) 0 = 0 := by ext i; rw [blkV_apply]; simp
  have h5 := hL L[k] (List.getElem_mem hk)
  rw [hz, sum_two (x := 2) (y := L[k].1 - 2) (by omega) (by omega) (by omega)]
  · rw [h.h k hk 2 (by omega), if_neg (by omega), if_pos rfl, h.h k hk (L[k].1 - 2) (by omega), if_pos rfl,
      gcol_blkV hK α u (by omega), gcol_blkV hK α u (by omega)]
    unfold gB
    rw [if_neg (by omega), if_neg (by omega), if_pos (by omega), if_neg (by omega), if_neg (by omega), if_pos (by omega)]
    rw [Matrix.neg_mulVec, Matrix.one_mulVec, neg_add_cancel]
  · intro j hj h1 h2
    rw [h.h k hk j hj, if_neg h2, if_neg h1]; simp

/-- a new contact -/
theorem augF_gcol {K : ℕ} (hK : 2 ≤ K) (pose : V3) (α : ℝ) (u : V3) : augF K false pose * gcol K α u = gcol (K + 1) α u := by
  refine ext_blkV (n := K + 4) (by simp) (by simp) (by simp) (by simp) fun i hi => ?_
  rw [blkV_mul _ _ (n := K + 3) (by simp), gcol_blkV (by omega) α u (by omega)]
  unfold augF
  rw [sum_congr rfl fun k hk => by
    rw [ofBlk_blk3 _ hi (mem_range.mp hk), gcol_blkV hK α u (mem_range.mp hk)]]
  by_cases h1 : i = K + 1
  · subst h1
    rw [sum_one (x := 2) (by omega)]
    · rw [if_pos rfl, if_pos rfl]; unfold gB
      rw [if_neg (by omega), if_neg (by omega), if_pos (by omega), if_neg (by omega), if_neg (by omega), if_pos (by omega)]
      simp
    · intro k hk hk2
      rw [if_pos rfl, if_neg hk2]; simp
  · by_cases h2 : i < K + 1
    · rw [sum_one (x := i) (by omega)]
      · rw [if_neg h1, if_pos h2, if_pos rfl, Matrix.one_mulVec]; unfold gB
        by_cases g0 : i = 0
        · ifs
        by_cases g1 : i = 1
        · ifs
        ifs
      · intro k hk hk2
        rw [if_neg h1, if_pos h2, if_neg (Ne.symm hk2)]; simp
    · rw [sum_one (x := i - 1) (by omega)]
      · rw [if_neg h1, if_neg h2, if_pos rfl, Matrix.one_mulVec]; unfold gB
        ifs
      · intro k hk hk2
        rw [if_neg h1, if_neg h2, if_neg (Ne.symm hk2)]; simp

theorem augP_low {K : ℕ} (hK : 2 ≤ K) {pose : V3} {W cov : M3} {P : Mat} {rc pc : ℝ} (hr : P.rows = 3 * K + 9)
    (hc : P.cols = 3 * K + 9) (hcov : PSD (of3 cov)) (hl : Low (gN K) (gD rc pc) P) :
    Low (gN (K + 1)) (gD rc pc) (augP K false pose W cov P) := by
  unfold augP
  refine Low.add (hl.congr (by simp [hr]; ring) (by omega) fun q => ?_) (hcov.congr (by simp)) (by simp) (by simp)
  fin_cases q <;> exact augF_gcol hK pose _ _

theorem sel_gcol {K j : ℕ} (hK : 2 ≤ K) (hj : 3 ≤ j) (hj' : j ≤ K + 1) (α : ℝ) (u : V3) :
    sel (3 * K + 12) (3 * j) 3 * gcol (K + 1) α u = gcol K α u := by
  refine ext' (by simp; omega) (by simp) fun i c hi hc => ?_
  simp only [mul_rows, mul_cols, sel_rows, gcol_cols] at hi hc
  obtain rfl : c = 0 := by omega
  rw [sel_mul_e (by omega) (by omega), gcol_e hK α u (by omega)]
  unfold skip
  by_cases h1 : i < 3 * j
  · rw [if_pos h1, gcol_e (by omega) α u (by omega)]
    refine congrFun (?_ : gB (K + 1) α u (i / 3) = gB K α u (i / 3)) _
    unfold gB
    by_cases g0 : i / 3 = 0
    · rw [if_pos g0, if_pos g0]
    by_cases g1 : i / 3 = 1
    · rw [if_neg g0, if_neg g0, if_pos g1, if_pos g1]
    rw [if_neg g0, if_neg g1, if_neg g0, if_neg g1, if_pos (by omega), if_pos (by omega)]
  · rw [if_neg h1, gcol_e (by omega) α u (by omega)]
    have e1 : (i + 3) / 3 = i / 3 + 1 := by omega
    have e2 : (i + 3) % 3 = i % 3 := by omega
    simp only [e1, e2]
    refine congrFun (?_ : gB (K + 1) α u (i / 3 + 1) = gB K α u (i / 3)) _
    unfold gB
    by_cases g : i / 3 ≤ K
    · ifs
    · ifs

theorem del_low {K j : ℕ} (hK : 2 ≤ K) (hj : 3 ≤ j) (hj' : j ≤ K + 1) {P P' : Mat} {rc pc : ℝ} (hr : P.rows = 3 * K + 12)
    (hc : P.cols = 3 * K + 12) (hd : Deletes P P' (3 * j) 3) (hl : Low (gN (K + 1)) (gD rc pc) P) : Low (gN K) (gD rc pc) P' := by
  rw [deletes_eq hr hc (by omega) hd]
  refine hl.congr (by simp [hr]) (by omega) fun q => ?_
  fin_cases q <;> exact sel_gcol hK hj hj' _ _

end Drift
