import Verif.Lemmas.Joseph
import Verif.Spec.BestUpdate

/-! Helper lemmas: the Kalman gain is the unique minimum-variance gain. -/
namespace Drift
open Mat Matrix Finset

theorem errCov_eq_joseph (P H N L) : errCov P H N L = joseph P H N L := rfl

theorem gains_matrix {n m : ℕ} (P : Matrix (Fin n) (Fin n) ℝ) (H : Matrix (Fin m) (Fin n) ℝ)
    (N W : Matrix (Fin m) (Fin m) ℝ) (L : Matrix (Fin n) (Fin m) ℝ)
    (hW : W * (H * (P * Hᵀ) + N) = 1) (hWs : Wᵀ = W) (hP : Pᵀ = P) (hS : (H * (P * Hᵀ) + N)ᵀ = H * (P * Hᵀ) + N) :
    ((1 - L * H) * P * (1 - L * H)ᵀ + L * N * Lᵀ) -
      ((1 - P * Hᵀ * W * H) * P * (1 - P * Hᵀ * W * H)ᵀ + (P * Hᵀ * W) * N * (P * Hᵀ * W)ᵀ)
      = (L - P * Hᵀ * W) * (H * (P * Hᵀ) + N) * (L - P * Hᵀ * W)ᵀ := by
  have hj := joseph_matrix P H N W hW hWs hP
  have e2 : P * Hᵀ * W * (H * (P * Hᵀ) + N) = P * Hᵀ := by
    rw [Matrix.mul_assoc (P * Hᵀ) W, hW, Matrix.mul_one]
  have e3 : (H * (P * Hᵀ) + N) * (P * Hᵀ * W)ᵀ = H * P := by
    have := congrArg Matrix.transpose e2
    rw [transpose_mul, hS, transpose_mul P, transpose_transpose, hP] at this
    exact this
  have hd : (1 - P * Hᵀ * W * H) * P * (1 - P * Hᵀ * W * H)ᵀ + (P * Hᵀ * W) * N * (P * Hᵀ * W)ᵀ
      = P - (P * Hᵀ * W) * (H * (P * Hᵀ) + N) * (P * Hᵀ * W)ᵀ := by rw [← hj]; abel
  rw [hd]
  have hr : (L - P * Hᵀ * W) * (H * (P * Hᵀ) + N) * (L - P * Hᵀ * W)ᵀ =
      L * (H * (P * Hᵀ) + N) * Lᵀ - L * (H * P) - P * Hᵀ * Lᵀ +
        (P * Hᵀ * W) * (H * (P * Hᵀ) + N) * (P * Hᵀ * W)ᵀ := by
    rw [transpose_sub, Matrix.sub_mul, Matrix.sub_mul, Matrix.mul_sub, Matrix.mul_sub, e2,
      Matrix.mul_assoc L _ (P * Hᵀ * W)ᵀ, e3]
    abel
  rw [hr]
  have hl : (1 - L * H) * P * (1 - L * H)ᵀ =
      P - L * (H * P) - P * Hᵀ * Lᵀ + L * (H * (P * Hᵀ)) * Lᵀ := by
    rw [transpose_sub, transpose_one, transpose_mul]
    simp only [Matrix.sub_mul, Matrix.mul_sub, Matrix.one_mul, Matrix.mul_one, Matrix.mul_assoc]
    abel
  have hll : L * (H * (P * Hᵀ) + N) * Lᵀ = L * (H * (P * Hᵀ)) * Lᵀ + L * N * Lᵀ := by
    rw [Matrix.mul_add, Matrix.add_mul]
  rw [hl, hll]
  abel

/-- the error covariance of any gain exceeds that of the Kalman gain by `(L - G) S (L - G)ᵀ` -/
theorem errCov_sub {P H N W L : Mat} {n : ℕ} (hPr : P.rows = n) (hP : Sym P) (hH : H.cols = n)
    (hN : Sym N) (hNr : N.rows = H.rows) (hW : (innov P H N).inv? = some W) (hLr : L.rows = n) (hLc : L.cols = H.rows) :
    errCov P H N L - errCov P H N (gain P H W) = (L - gain P H W) * innov P H N * (L - gain P H W).T := by
  obtain ⟨_, w1, w2, w3, w4⟩ := inv?_spec hW
  simp only [innov_rows] at w1 w2 w3 w4
  have hPc : P.cols = n := by rw [← hP.sq, hPr]
  have hNc : N.cols = H.rows := by rw [← hN.sq, hNr]
  have hS : Sym (innov P H N) := by
    unfold innov
    rw [← mul_assoc']
    exact Sym.add (by simp [hNr]) (Sym.congr (by omega) hP) hN
  have hWs : Sym W := hS.inv hW
  set m := H.rows with hm
  set p := P.toMn n n
  set h := H.toMn m n
  set nn := N.toMn m m
  set w := W.toMn m m
  set l := L.toMn n m
  have eP : P = ofM p := (ofM_toMn P hPr hPc).symm
  have eH : H = ofM h := (ofM_toMn H hm.symm hH).symm
  have eN : N = ofM nn := (ofM_toMn N hNr hNc).symm
  have eW : W = ofM w := (ofM_toMn W w1 w2).symm
  have eL : L = ofM l := (ofM_toMn L hLr hLc).symm
  have inj : ∀ {r c : ℕ} {A B : Matrix (Fin r) (Fin c) ℝ}, ofM A = ofM B → A = B := by
    intro r c A B hAB
    have := congrArg (fun M => M.toMn r c) hAB
    simpa using this
  have hps : pᵀ = p := by
    apply inj; rw [← ofM_T, ← eP]; exact hP
  have hws : wᵀ = w := by
    apply inj; rw [← ofM_T, ← eW]; exact hWs
  have hw : w * (h * (p * hᵀ) + nn) = 1 := by
    apply inj
    rw [ofM_mul, ofM_add, ofM_mul, ofM_mul, ← ofM_T, ← eP, ← eH, ← eN, ← eW, ofM_one]
    exact w4
  have hss : (h * (p * hᵀ) + nn)ᵀ = h * (p * hᵀ) + nn := by
    apply inj
    rw [← ofM_T, ofM_add, ofM_mul, ofM_mul, ← ofM_T, ← eP, ← eH, ← eN]
    exact hS
  have key := congrArg ofM (gains_matrix p h nn w l hw hws hps hss)
  simp only [ofM_mul, ofM_add, ofM_sub, ← ofM_T, ofM_one, ← eP, ← eH, ← eN, ← eW, ← eL] at key
  unfold errCov gain innov
  rw [hPr]
  exact key

theorem quad_errCov_sub {P H N W L : Mat} (hP : PSD P) (hH : H.cols = P.rows) (hN : PD N) (hNr : N.rows = H.rows)
    (hW : (innov P H N).inv? = some W) (hLr : L.rows = P.rows) (hLc : L.cols = H.rows) (x) :
    quad (errCov P H N L) x - quad (errCov P H N (gain P H W)) x =
      quad (innov P H N) (fun k => ∑ i ∈ range P.rows, x i * (L - gain P H W).e i k) := by
  rw [← quad_sub (A := errCov P H N L) (B := errCov P H N (gain P H W)) rfl rfl, errCov_sub rfl hP.sym hH hN.1 hNr hW hLr hLc,
    quad_congr_mul (by simp [hLc]) (by simp)]
  simp [hLr]

theorem gain_minVar {P H N W : Mat} (hP : PSD P) (hH : H.cols = P.rows) (hN : PD N) (hNr : N.rows = H.rows)
    (hW : (innov P H N).inv? = some W) : MinVar P H N (gain P H W) := by
  obtain ⟨_, w1, w2, _, _⟩ := inv?_spec hW
  refine ⟨rfl, by simpa using w2, fun L hLr hLc x => ?_⟩
  rw [← sub_nonneg, quad_errCov_sub hP hH hN hNr hW hLr hLc]
  exact (innov_pd hP hH hN hNr).psd.2 _

theorem minVar_unique {P H N L L' : Mat} (hP : PSD P) (hH : H.cols = P.rows) (hN : PD N) (hNr : N.rows = H.rows)
    (h : MinVar P H N L) (h' : MinVar P H N L') : L = L' := by
  have hS := innov_pd hP hH hN hNr
  obtain ⟨W, hW⟩ := hS.inv
  have w2 : W.cols = H.rows := by obtain ⟨_, _, w2, _, _⟩ := inv?_spec hW; simpa using w2
  have key : ∀ {M}, MinVar P H N M → M = gain P H W := by
    intro M hM
    refine ext' hM.1 (by rw [hM.2.1]; simp [w2]) fun i j hi hj => ?_
    by_contra hne
    have h0 := quad_errCov_sub hP hH hN hNr hW hM.1 hM.2.1 (fun a => if a = i then 1 else 0)
    have h1 := hM.2.2 _ (gain_rows P H W) (by simpa using w2) (fun a => if a = i then 1 else 0)
    have h2 := hS.2 (fun k => ∑ a ∈ range P.rows, (if a = i then 1 else 0) * (M - gain P H W).e a k)
      ⟨j, by rw [innov_rows, ← hM.2.1]; exact hj, by
        rw [sum_eq_single i (fun b _ hb => by rw [if_neg hb, zero_mul])
          (fun hh => absurd (mem_range.mpr (hM.1 ▸ hi)) hh), if_pos rfl, one_mul,
          sub_e' (by rw [hM.1]; rfl) (by rw [hM.2.1]; simp [w2])]
        exact sub_ne_zero.mpr hne⟩
    linarith
  rw [key h, key h']

end Drift
