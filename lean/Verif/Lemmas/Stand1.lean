import Verif.Lemmas.Tilt2

/-! # Lemmas: a linear function of rotation, velocity and the position of a foot relative to the body, through one IMU step (C160) -/
set_option linter.unusedSimpArgs false
namespace Drift
open Mat Matrix Finset RobotState ImuProp

/-- the linear function that reads `a` from the rotation error, `b` from the velocity error, `c` from the position error and `-c` from the error of
the contact whose block has number `q` -/
def footL (q : ℕ) (a b c : V3) : ℕ → ℝ := fun i => spread 0 a i + spread 1 b i + (spread 2 c i - spread q c i)

theorem footL_at3 {q : ℕ} (hq : 3 ≤ q) (a b c : V3) (j : ℕ) :
    at3 (footL q a b c) j = if j = 0 then a else if j = 1 then b else if j = 2 then c else if j = q then -c else 0 := by
  have e : at3 (footL q a b c) j = at3 (spread 0 a) j + at3 (spread 1 b) j + (at3 (spread 2 c) j - at3 (spread q c) j) := rfl
  rw [e, spread_at3, spread_at3, spread_at3, spread_at3]
  by_cases h0 : j = 0
  · subst h0; simp [show (0 : ℕ) ≠ q by omega]
  · by_cases h1 : j = 1
    · subst h1; simp [show (1 : ℕ) ≠ q by omega]
    · by_cases h2 : j = 2
      · subst h2; simp [show (2 : ℕ) ≠ q by omega]
      · by_cases h3 : j = q
        · subst h3; simp [h0, h1, h2]
        · simp [h0, h1, h2, h3]

theorem footL_high {q : ℕ} (hq : 3 ≤ q) (a b c : V3) {i : ℕ} (h : 3 * q + 3 ≤ i) : footL q a b c i = 0 := by
  rw [at3_e (footL q a b c) i, footL_at3 hq, if_neg (by omega), if_neg (by omega), if_neg (by omega), if_neg (by omega)]; rfl

theorem at3_pull_spread {M : Mat} {n j : ℕ} (h : M.rows = 3 * n) (hj : j < n) (u : V3) (k : ℕ) :
    at3 (pull M (spread j u)) k = (M.blk3 (3 * j) (3 * k))ᵀ.mulVec u := by
  rw [at3_pull h, Finset.sum_eq_single j]
  · rw [spread_at3, if_pos rfl]
  · intro b _ hb; rw [spread_at3, if_neg hb, mulVec_zero]
  · intro hh; exact absurd (mem_range.mpr hj) hh

theorem pull_add' (M : Mat) (x y : ℕ → ℝ) : pull M (fun i => x i + y i) = fun k => pull M x k + pull M y k := by
  funext k
  unfold pull
  rw [← Finset.sum_add_distrib]
  exact sum_congr rfl fun i _ => by ring

theorem pull_sub' (M : Mat) (x y : ℕ → ℝ) : pull M (fun i => x i - y i) = fun k => pull M x k - pull M y k := by
  funext k
  unfold pull
  rw [← Finset.sum_sub_distrib]
  exact sum_congr rfl fun i _ => by ring

theorem at3_pull_footL {M : Mat} {n q : ℕ} (h : M.rows = 3 * n) (hn : 3 ≤ n) (hq : q < n) (a b c : V3) (k : ℕ) :
    at3 (pull M (footL q a b c)) k = (M.blk3 0 (3 * k))ᵀ.mulVec a + (M.blk3 3 (3 * k))ᵀ.mulVec b +
      ((M.blk3 6 (3 * k))ᵀ.mulVec c - (M.blk3 (3 * q) (3 * k))ᵀ.mulVec c) := by
  have e : pull M (footL q a b c) = fun k => pull M (spread 0 a) k + pull M (spread 1 b) k + (pull M (spread 2 c) k - pull M (spread q c) k) := by
    unfold footL
    rw [pull_add' M (fun i => spread 0 a i + spread 1 b i) (fun i => spread 2 c i - spread q c i), pull_add' M (spread 0 a) (spread 1 b),
      pull_sub' M (spread 2 c) (spread q c)]
  have e3 : at3 (pull M (footL q a b c)) k = at3 (pull M (spread 0 a)) k + at3 (pull M (spread 1 b)) k +
      (at3 (pull M (spread 2 c)) k - at3 (pull M (spread q c)) k) := by rw [e]; rfl
  rw [e3, at3_pull_spread h (by omega), at3_pull_spread h (by omega), at3_pull_spread h (by omega), at3_pull_spread h hq]

/-- what the functional becomes under the transition matrix, without bias estimation -/
theorem pull_phi_foot {K q : ℕ} {p : ImuProp} (hK : 2 ≤ K) (hq : 3 ≤ q) (hqK : q < K + 1) (het : p.errorType = .rightInvariant)
    (hen : p.enableBias = false) (w a' : V3) (dt : ℝ) (X : Mat) (a b c : V3) {i : ℕ} (hi : i < 3 * K + 9) :
    pull (phiK K p w a' dt X) (footL q a b c) i =
      footL q (a + dt • (skew gravity)ᵀ.mulVec b + (dt ^ 2 / 2) • (skew gravity)ᵀ.mulVec c) (b + dt • c) c i := by
  rw [at3_e (pull _ _) i, at3_e (footL _ _ _ _) i]
  refine congrFun ?_ _
  obtain ⟨k, hk⟩ : ∃ k, i / 3 = k := ⟨_, rfl⟩
  have hk' : k < K + 3 := by omega
  rw [hk, at3_pull_footL (n := K + 3) (by simp; ring) (by omega) (by omega), footL_at3 hq]
  have hphi : ∀ j, j < K + 3 → (phiK K p w a' dt X).blk3 (3 * j) (3 * k) = if K + 1 ≤ k then 0 else phiRB dt j k := by
    intro j hj
    unfold phiK
    rw [het]
    dsimp only
    rw [ofBlk_blk3 _ hj hk']
    unfold phiRF
    dsimp only
    rw [hen, if_neg (by simp)]
  have h0 := hphi 0 (by omega)
  have h1 := hphi 1 (by omega)
  have h2 := hphi 2 (by omega)
  have h3 := hphi q (by omega)
  rw [show 3 * 0 = 0 from rfl] at h0
  rw [show 3 * 1 = 3 from rfl] at h1
  rw [show 3 * 2 = 6 from rfl] at h2
  rw [h0, h1, h2, h3]
  by_cases hk1 : K + 1 ≤ k
  · simp [hk1, show k ≠ 0 by omega, show k ≠ 1 by omega, show k ≠ 2 by omega, show k ≠ q by omega]
  · simp only [if_neg hk1]
    unfold phiRB
    by_cases c0 : k = 0
    · subst c0
      simp [show q ≠ 0 by omega, show q ≠ 1 by omega, show q ≠ 2 by omega, transpose_smul, smul_mulVec, smul_smul]
      norm_num [div_eq_mul_inv]
    · by_cases c1 : k = 1
      · subst c1
        simp [show q ≠ 0 by omega, show q ≠ 1 by omega, show q ≠ 2 by omega, transpose_smul, smul_mulVec]
      · by_cases c2 : k = 2
        · subst c2
          simp [show q ≠ 0 by omega, show q ≠ 1 by omega, show q ≠ 2 by omega]
        · by_cases c3 : k = q
          · subst c3
            simp [c0, c1, c2, Ne.symm c0, Ne.symm c1, Ne.symm c2]
          · simp [c0, c1, c2, c3, Ne.symm c0, Ne.symm c1, Ne.symm c2, Ne.symm c3]

/-- the noise of the contacts: diagonal, at most `c2`, and none but at contacts -/
structure QcLe (c2 : ℝ) (Q : Mat) : Prop where
  off : ∀ i j, i ≠ j → Q.e i j = 0
  base : ∀ i, i < 9 → Q.e i i = 0
  le : ∀ i, Q.e i i ≤ c2

theorem QcLe.quad {c2 : ℝ} {Q : Mat} (h : QcLe c2 Q) (hc : 0 ≤ c2) (hsq : Q.rows = Q.cols) (n : ℕ → ℝ) :
    quad Q n ≤ c2 * ∑ i ∈ (range Q.rows).filter (9 ≤ ·), n i ^ 2 := by
  have e : Drift.quad Q n = ∑ i ∈ range Q.rows, Q.e i i * n i ^ 2 := by
    unfold Drift.quad
    refine sum_congr rfl fun i hi => ?_
    rw [Finset.sum_eq_single i]
    · ring
    · intro j _ hj; rw [h.off i j (Ne.symm hj)]; ring
    · intro hh; exact absurd (by rw [← hsq]; exact hi) hh
  rw [e, Finset.sum_filter, Finset.mul_sum]
  refine sum_le_sum fun i _ => ?_
  by_cases h9 : 9 ≤ i
  · rw [if_pos h9]; exact mul_le_mul_of_nonneg_right (h.le i) (sq_nonneg _)
  · rw [if_neg h9, h.base i (by omega)]; simp

theorem sum_block {n q : ℕ} (hq : 3 ≤ q) (hn : q < n) (x : ℕ → ℝ) (hx : ∀ j, 3 ≤ j → j < n → j ≠ q → at3 x j = 0) :
    ∑ i ∈ (range (3 * n)).filter (9 ≤ ·), x i ^ 2 = nsq (at3 x q) := by
  have : ∑ i ∈ (range (3 * n)).filter (9 ≤ ·), x i ^ 2 = ∑ i ∈ range (3 * n), if 9 ≤ i then x i ^ 2 else 0 := Finset.sum_filter _ _
  rw [this, sum_range_three_mul, Finset.sum_eq_single q]
  · simp only [Fin.sum_univ_three, nsq, at3]
    simp only [show 9 ≤ 3 * q + ((0 : Fin 3) : ℕ) by simp; omega, show 9 ≤ 3 * q + ((1 : Fin 3) : ℕ) by simp; omega,
      show 9 ≤ 3 * q + ((2 : Fin 3) : ℕ) by simp; omega, if_true]
  · intro j hj hne
    refine Finset.sum_eq_zero fun l _ => ?_
    by_cases h3 : 3 ≤ j
    · have := congrFun (hx j h3 (mem_range.mp hj) hne) l
      have : x (3 * j + l) = 0 := this
      rw [this]; simp
    · have := l.2
      rw [if_neg (by omega)]
  · intro hh; exact absurd (mem_range.mpr hn) hh

/-- the variance that the noises add per unit of time, at most, to a function that reads rotation with norm `A`, velocity with norm `B` and a foot
relative to the body with norm `C`, at a speed of at most `V` and a distance of the foot from the body of at most `D` -/
noncomputable def footRate (sg sa sc V D A B C : ℝ) : ℝ := sg ^ 2 * (A + V * B + D * C) ^ 2 + sa ^ 2 * B ^ 2 + sc ^ 2 * C ^ 2

/-- the functional through one IMU step of the right-invariant filter without bias estimation -/
theorem prop_foot {K : ℕ} {h : Heap} {s s' : RobotState} (g : Good K h s) {p p' : ImuProp} {sg sa sc V D : ℝ} (het : p.errorType = .rightInvariant)
    (hen : p.enableBias = false) (hg : p.gyroCov = sg ^ 2 • (1 : M3)) (ha : p.accelCov = sa ^ 2 • (1 : M3)) (hQ : QcLe (sc ^ 2) s.Qc)
    {q : ℕ} (hq : 3 ≤ q) (hqK : q < K + 1) (hV : norm3 (s.X.blkV 0 3) ≤ V) (hD : norm3 (s.X.blkV 0 4 - s.X.blkV 0 (q + 2)) ≤ D)
    {m f : ImuMeas} {rest : List ImuMeas} {tp : ℝ} (hb : p.buffer = f :: rest) (hm : p.prev = some m) (ht : s.tProp = some tp) (hle : tp ≤ m.time)
    {bb : Bool} (e : p.propagate s = some (bb, p', s')) (a b c : V3) {a1 b1 : V3}
    (ha1 : a1 = a + (m.time - tp) • (skew gravity)ᵀ.mulVec b + ((m.time - tp) ^ 2 / 2) • (skew gravity)ᵀ.mulVec c) (hb1 : b1 = b + (m.time - tp) • c) :
    quad s'.P (footL q a b c) ≤ quad s.P (footL q a1 b1 c) + (m.time - tp) * footRate sg sa sc V D (norm3 a1) (norm3 b1) (norm3 c) := by
  have hsq := g.q.psd.sq
  have hr : PropReady K p s m f rest tp := ⟨g.shape, g.world, g.q.r, by rw [← hsq]; exact g.q.r, hb, hm, ht⟩
  obtain ⟨bg, ba, w, a', Φ, -, -, -, hΦ, key⟩ := C96_process_noise hr g.q e
  have hK := g.shape.k
  rw [stateTransitionMatrix_eq g.shape g.world] at hΦ
  obtain rfl := Option.some.inj hΦ
  have hpull := fun {i : ℕ} (hi : i < 3 * K + 9) => pull_phi_foot hK hq hqK het hen w a' (m.time - tp) s.X a b c hi
  rw [← ha1, ← hb1] at hpull
  have hx := key (footL q a b c) (pull (bd (AdM K s.X) (3 * K + 9)) (pull (phiK K p w a' (m.time - tp) s.X) (footL q a b c)))
    (fun _ i hi => footL_high hq _ _ _ (by omega)) (by
    unfold Channels; rw [het]; exact ⟨_, adjoint_AdM g.shape.x.rows g.shape.x.cols, rfl⟩)
  rw [hx, quad_ext g.shape.pr g.shape.pc fun i hi => hpull hi]
  refine add_le_add le_rfl (mul_le_mul_of_nonneg_left ?_ (by linarith))
  clear hx key
  obtain ⟨n, hn⟩ : ∃ n, pull (bd (AdM K s.X) (3 * K + 9)) (pull (phiK K p w a' (m.time - tp) s.X) (footL q a b c)) = n := ⟨_, rfl⟩
  rw [hn]
  have hn' : n = pull (bd (AdM K s.X) (3 * K + 9)) (footL q a1 b1 c) := by
    funext k
    rw [← hn]
    unfold pull
    refine sum_congr rfl fun i hi => ?_
    have hi' : i < 3 * K + 9 := mem_range.mp hi
    congr 1
    exact hpull hi'
  have hn3 : ∀ k, k < K + 3 → at3 n k = if k < K + 1 then
      (adjF (s.X.blk3 0 0) (fun k => s.X.blkV 0 (3 + k)) 0 k)ᵀ.mulVec a1 + (adjF (s.X.blk3 0 0) (fun k => s.X.blkV 0 (3 + k)) 1 k)ᵀ.mulVec b1 +
        ((adjF (s.X.blk3 0 0) (fun k => s.X.blkV 0 (3 + k)) 2 k)ᵀ.mulVec c - (adjF (s.X.blk3 0 0) (fun k => s.X.blkV 0 (3 + k)) q k)ᵀ.mulVec c) else 0 := by
    intro k hk
    have e0 := bd_blk (K := K) s.X (j := 0) (by omega) hk
    have e1 := bd_blk (K := K) s.X (j := 1) (by omega) hk
    have e2 := bd_blk (K := K) s.X (j := 2) (by omega) hk
    have e3 := bd_blk (K := K) s.X (j := q) (by omega) hk
    rw [hn', at3_pull_footL (n := K + 3) (by show 3 * K + 9 = _; ring) (by omega) (by omega)]
    rw [show 3 * 0 = 0 from rfl] at e0
    rw [show 3 * 1 = 3 from rfl] at e1
    rw [show 3 * 2 = 6 from rfl] at e2
    rw [e0, e1, e2, e3]
    split_ifs
    · rfl
    · simp
  obtain ⟨R, hRd⟩ : ∃ R, s.X.blk3 0 0 = R := ⟨_, rfl⟩
  rw [hRd] at hn3
  have n0 : at3 n 0 = Rᵀ.mulVec (a1 + (skew (s.X.blkV 0 3))ᵀ.mulVec b1 + (skew (s.X.blkV 0 4 - s.X.blkV 0 (q + 2)))ᵀ.mulVec c) := by
    rw [hn3 0 (by omega), if_pos (by omega)]
    unfold adjF
    rw [if_pos rfl, if_neg (by omega), if_pos rfl, if_neg (by omega), if_pos rfl, if_neg (by omega), if_pos rfl]
    simp only [transpose_mul, mulVec_add, mulVec_mulVec, skew_sub, transpose_sub, Matrix.mul_sub, sub_mulVec, mulVec_sub]
    rw [show 3 + (1 - 1) = 3 from rfl, show 3 + (2 - 1) = 4 from rfl, show 3 + (q - 1) = q + 2 by omega]
  have n1 : at3 n 1 = Rᵀ.mulVec b1 := by
    rw [hn3 1 (by omega), if_pos (by omega)]
    unfold adjF
    simp [show q ≠ 1 by omega, show q ≠ 0 by omega]
  have nq : at3 n q = Rᵀ.mulVec (-c) := by
    rw [hn3 q (by omega), if_pos (by omega)]
    unfold adjF
    simp [show q ≠ 1 by omega, show q ≠ 0 by omega, show q ≠ 2 by omega, show (0 : ℕ) ≠ q by omega, show (1 : ℕ) ≠ q by omega,
      show (2 : ℕ) ≠ q by omega, mulVec_neg]
  have nr : ∀ k, 3 ≤ k → k < K + 3 → k ≠ q → at3 n k = 0 := by
    intro k h3 hk hne
    rw [hn3 k hk]
    split_ifs
    · unfold adjF
      simp [show k ≠ 0 by omega, show k ≠ 1 by omega, show k ≠ 2 by omega, show (0 : ℕ) ≠ k by omega, show (1 : ℕ) ≠ k by omega,
        show (2 : ℕ) ≠ k by omega, hne, Ne.symm hne, show q ≠ 0 by omega]
    · rfl
  have hR : IsRot Rᵀ := by
    obtain ⟨h1, h2, h3⟩ := g.shape.x.rot
    rw [hRd] at h1 h2 h3
    exact ⟨by rw [transpose_transpose]; exact h2, by rw [transpose_transpose]; exact h1, by rw [det_transpose]; exact h3⟩
  have hqc : quad s.Qc n ≤ sc ^ 2 * norm3 c ^ 2 := by
    refine le_trans (hQ.quad (sq_nonneg _) hsq n) ?_
    rw [g.q.r, show 3 * K + 9 = 3 * (K + 3) by ring, sum_block hq (by omega) n nr, nq, nsq_rot hR, norm3_sq]
    refine le_of_eq ?_
    simp [nsq]
  unfold noiseRate footRate
  rw [hen, if_neg (by simp), n0, n1, hg, ha, add_zero]
  simp only [smul_mulVec, one_mulVec, dotProduct_smul, nsq_dot, smul_eq_mul, nsq_rot hR]
  refine add_le_add (add_le_add (mul_le_mul_of_nonneg_left ?_ (sq_nonneg _)) (by rw [norm3_sq])) hqc
  rw [← norm3_sq]
  refine pow_le_pow_left₀ (norm3_nonneg _) (le_trans (norm3_add_le _ _) (add_le_add (le_trans (norm3_add_le _ _) (add_le_add le_rfl ?_)) ?_)) 2
  · exact le_trans (norm3_skew_le _ _) (mul_le_mul_of_nonneg_right hV (norm3_nonneg _))
  · exact le_trans (norm3_skew_le _ _) (mul_le_mul_of_nonneg_right hD (norm3_nonneg _))

end Drift
