import Verif.Lemmas.Inekf

/-! Helper lemmas: the Joseph form for the optimal gain. -/
set_option linter.unusedSimpArgs false
namespace Drift
open Mat Matrix Finset

theorem ofM_add {r c : ℕ} (A B : Matrix (Fin r) (Fin c) ℝ) : ofM (A + B) = ofM A + ofM B := by
  refine ext' rfl rfl fun i j hi hj => ?_
  simp only [ofM_rows, ofM_cols] at hi hj
  rw [add_e' (A := ofM A) (B := ofM B) rfl rfl, ofM_e _ hi hj, ofM_e _ hi hj, ofM_e _ hi hj]; rfl
theorem ofM_sub {r c : ℕ} (A B : Matrix (Fin r) (Fin c) ℝ) : ofM (A - B) = ofM A - ofM B := by
  refine ext' rfl rfl fun i j hi hj => ?_
  simp only [ofM_rows, ofM_cols] at hi hj
  rw [sub_e' (A := ofM A) (B := ofM B) rfl rfl, ofM_e _ hi hj, ofM_e _ hi hj, ofM_e _ hi hj]; rfl
theorem ofM_T {r c : ℕ} (A : Matrix (Fin r) (Fin c) ℝ) : (ofM A).T = ofM Aᵀ := by
  refine ext' rfl rfl fun i j hi hj => ?_
  simp only [T_rows, T_cols, ofM_rows, ofM_cols] at hi hj
  rw [T_e, ofM_e _ hj hi, ofM_e _ hi hj]; rfl

theorem joseph_matrix {n m : ℕ} (P : Matrix (Fin n) (Fin n) ℝ) (H : Matrix (Fin m) (Fin n) ℝ)
    (N W : Matrix (Fin m) (Fin m) ℝ) (hW : W * (H * (P * Hᵀ) + N) = 1) (hWs : Wᵀ = W) (hP : Pᵀ = P) :
    P - ((1 - P * Hᵀ * W * H) * P * (1 - P * Hᵀ * W * H)ᵀ + (P * Hᵀ * W) * N * (P * Hᵀ * W)ᵀ)
      = (P * Hᵀ * W) * (H * (P * Hᵀ) + N) * (P * Hᵀ * W)ᵀ := by
  have hT : (P * Hᵀ * W)ᵀ = W * (H * P) := by
    rw [transpose_mul, transpose_mul, transpose_transpose, hWs, hP]
  have hN : W * N = 1 - W * (H * (P * Hᵀ)) := by rw [← hW, Matrix.mul_add]; abel
  have hT2 : (1 - P * Hᵀ * W * H)ᵀ = 1 - Hᵀ * (W * (H * P)) := by
    rw [transpose_sub, transpose_one, transpose_mul, hT]
  rw [hT, hT2]
  have e1 : P * Hᵀ * W * N * (W * (H * P)) =
      P * Hᵀ * (W * (H * P)) - P * Hᵀ * (W * (H * (P * Hᵀ))) * (W * (H * P)) := by
    rw [Matrix.mul_assoc (P * Hᵀ) W N, hN, Matrix.mul_sub, Matrix.sub_mul, Matrix.mul_one]
  have e2 : P * Hᵀ * W * (H * (P * Hᵀ) + N) * (W * (H * P)) = P * Hᵀ * (W * (H * P)) := by
    rw [Matrix.mul_assoc (P * Hᵀ) W, hW, Matrix.mul_one]
  rw [e1, e2]
  simp only [Matrix.sub_mul, Matrix.mul_sub, Matrix.one_mul, Matrix.mul_one, Matrix.mul_assoc]
  abel

/-- `P - joseph = G S Gᵀ` for the optimal gain -/
theorem sub_joseph {P H N W : Mat} {n : ℕ} (hPr : P.rows = n) (hP : Sym P) (hH : H.cols = n)
    (hN : Sym N) (hNr : N.rows = H.rows) (hW : (innov P H N).inv? = some W) :
    P - joseph P H N (gain P H W) = gain P H W * innov P H N * (gain P H W).T := by
  obtain ⟨_, w1, w2, w3, w4⟩ := inv?_spec hW
  simp only [innov_rows] at w1 w2 w3 w4
  have hPc : P.cols = n := by rw [← hP.sq, hPr]
  have hNc : N.cols = H.rows := by rw [← hN.sq, hNr]
  have hS : Sym (innov P H N) := by
    unfold innov
    rw [← mul_assoc']
    exact Sym.add (by simp [hNr]) (Sym.congr (by omega) hP) hN
  have hWs : Sym W := hS.inv hW
  set m := H.rows with hm
  set p := P.toMn n n
  set h := H.toMn m n
  set nn := N.toMn m m
  set w := W.toMn m m
  have eP : P = ofM p := (ofM_toMn P hPr hPc).symm
  have eH : H = ofM h := (ofM_toMn H hm.symm hH).symm
  have eN : N = ofM nn := (ofM_toMn N hNr hNc).symm
  have eW : W = ofM w := (ofM_toMn W w1 w2).symm
  have inj : ∀ {r c : ℕ} {A B : Matrix (Fin r) (Fin c) ℝ}, ofM A = ofM B → A = B := by
    intro r c A B hAB
    have := congrArg (fun M => M.toMn r c) hAB
    simpa using this
  have hps : pᵀ = p := by
    apply inj; rw [← ofM_T, ← eP]; exact hP
  have hws : wᵀ = w := by
    apply inj; rw [← ofM_T, ← eW]; exact hWs
  have hw : w * (h * (p * hᵀ) + nn) = 1 := by
    apply inj
    rw [ofM_mul, ofM_add, ofM_mul, ofM_mul, ← ofM_T, ← eP, ← eH, ← eN, ← eW, ofM_one]
    exact w4
  have key := congrArg ofM (joseph_matrix p h nn w hw hws hps)
  simp only [ofM_mul, ofM_add, ofM_sub, ← ofM_T, ofM_one, ← eP, ← eH, ← eN, ← eW] at key
  unfold joseph gain innov
  rw [hPr]
  exact key

theorem innov_pd {P H N : Mat} (hP : PSD P) (hH : H.cols = P.rows) (hN : PD N) (hNr : N.rows = H.rows) :
    PD (innov P H N) := by
  unfold innov
  rw [← mul_assoc']
  exact PSD.add_pd (by simp [hNr]) (hP.congr hH) hN

theorem joseph_psd {P H N G : Mat} (hP : PSD P) (hH : H.cols = P.rows) (hN : PSD N)
    (hG : G.rows = P.rows) (hGc : G.cols = N.rows) : PSD (joseph P H N G) := by
  unfold joseph
  exact PSD.add (by simp [hG]) (hP.congr (by simp)) (hN.congr hGc)

theorem prior0_psd {K s} (hP : PSD s.P) : PSD (prior0 K s) := by
  unfold prior0; split_ifs
  · exact hP
  · exact mask_psd hP (by norm_num)
theorem priorR_psd {K s et} (h : Shape K s) (hP : PSD s.P) : PSD (priorR K s et) := by
  unfold priorR; split_ifs
  · exact (prior0_psd hP).congr (by simp [prior0_rows h])
  · exact prior0_psd hP
theorem priorL_psd {K s et} (h : Shape K s) (hP : PSD s.P) : PSD (priorL K s et) := by
  unfold priorL; split_ifs
  · exact (prior0_psd hP).congr (by simp [prior0_rows h])
  · exact prior0_psd hP

/-- with the bias removed the right-frame prior is still masked -/
theorem priorR_masked {K s et} (h : Shape K s) (hb : s.enableBias = false) :
    ∃ Q : Mat, Q.rows = 3 * K + 9 ∧ Q.cols = 3 * K + 9 ∧
      priorR K s et = mask (· < 3 * K + 3) 0.0001 Q := by
  unfold priorR prior0
  simp only [hb, Bool.false_eq_true, if_false]
  split_ifs with hl
  · refine ⟨EA K s.X * s.P * (EA K s.X).T, rfl, rfl, ?_⟩
    unfold EA
    rw [mask_bd (m := 3 * K + 3) (by simp; ring) (by simp; ring) (by omega) h.pr h.pc]
  · exact ⟨s.P, h.pr, h.pc, rfl⟩

/-- the increment of zero is the identity -/
theorem expK_zero (K : ℕ) {d : Mat} (h : ∀ i, i < 3 * K + 3 → d.e i 0 = 0) :
    expK K d = one (3 + K) := by
  have h0 : d.blkV 0 0 = 0 := by
    ext i; have := i.2; exact h _ (by omega)
  unfold expK
  rw [h0, one_eq_mkSE]
  have hs : norm3 (0 : V3) < TOLERANCE := by rw [norm3_zero]; unfold TOLERANCE; norm_num
  have g0 : Gam0 0 = 1 := by unfold Gam0; rw [if_pos hs]
  rw [g0]
  refine mkSE_congr rfl fun k hk => ?_
  have : d.blkV (3 + 3 * k) 0 = 0 := by
    ext i; have := i.2; exact h _ (by omega)
  rw [this, mulVec_zero]

/-- row/column `i0 ≥ m` of `(A ⊕ I) M (A ⊕ I)ᵀ` when `M` is zero there except on the diagonal -/
theorem bd_conj_diag {A M : Mat} {m n i0 : ℕ} {c : ℝ} (hr : A.rows = m) (hc : A.cols = m) (h : m ≤ n)
    (hi0 : m ≤ i0) (hi0n : i0 < n)
    (hrow : ∀ j, j < n → M.e i0 j = if j = i0 then c else 0)
    (hMr : M.rows = n) (hMc : M.cols = n) (j : ℕ) (hj : j < n) :
    (bd A n * M * (bd A n).T).e i0 j = if j = i0 then c else 0 := by
  rw [mul_e]
  have e1 : ∀ l, (bd A n * M).e i0 l = M.e i0 l := by
    intro l
    rw [mul_e, bd_cols, sum_eq_single i0]
    · rw [bd_e hr hc h, if_neg (by omega), if_pos ⟨hi0n, rfl⟩, one_mul]
    · intro k _ hk
      rw [bd_e hr hc h, if_neg (by omega), if_neg (by omega), zero_mul]
    · intro hh; simp at hh; omega
  simp only [e1, mul_cols, hMc]
  rw [sum_eq_single i0]
  · rw [hrow i0 hi0n, if_pos rfl, T_e, bd_e hr hc h, if_neg (by omega)]
    by_cases hji : j = i0
    · rw [if_pos hji, if_pos ⟨hj, hji⟩, mul_one]
    · rw [if_neg hji, if_neg (fun h => hji h.2), mul_zero]
  · intro l hl hli
    rw [hrow l (mem_range.mp hl), if_neg hli, zero_mul]
  · intro hh; simp at hh; omega

theorem quad_sub {A B : Mat} (hr : A.rows = B.rows) (hc : A.cols = B.cols) (x) :
    quad (A - B) x = quad A x - quad B x := by
  unfold quad
  rw [← hr, ← hc]
  simp only [sub_rows, sub_cols, ← sum_sub_distrib, sub_e' hr hc]
  refine sum_congr rfl fun i _ => sum_congr rfl fun j _ => by ring

/-- the quadratic form of a mask on vectors vanishing on the removed coordinates -/
theorem quad_mask {p : ℕ → Prop} [DecidablePred p] {c : ℝ} {P : Mat} (x : ℕ → ℝ)
    (hx : ∀ i, ¬ p i → x i = 0) : quad (mask p c P) x = quad P x := by
  unfold quad
  refine sum_congr rfl fun i hi => sum_congr rfl fun j hj => ?_
  rw [mask_e (mem_range.mp hi) (mem_range.mp hj)]
  by_cases h1 : p i
  · by_cases h2 : p j
    · rw [if_pos ⟨h1, h2⟩]
    · rw [hx j h2]; ring
  · rw [hx i h1]; ring

end Drift
