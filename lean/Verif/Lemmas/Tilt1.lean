import Verif.Props.Measured
import Verif.Props.Late

/-! # Lemmas: a linear function of the rotation and velocity error through one IMU step and one velocity correction -/
set_option linter.unusedSimpArgs false
namespace Drift
open Mat Matrix Finset RobotState ImuProp

/-- the linear function that reads `a` from the rotation error and `b` from the velocity error -/
def lin (a b : V3) : ℕ → ℝ := fun i => spread 0 a i + spread 1 b i

theorem spread_at3 (k : ℕ) (u : V3) (j : ℕ) : at3 (spread k u) j = if j = k then u else 0 := by
  funext i
  have := i.2
  unfold at3 spread
  by_cases h : j = k
  · subst h
    rw [dif_pos (by omega), if_pos rfl]
    congr 1
    exact Fin.ext (by simp)
  · rw [dif_neg (by omega), if_neg h]
    rfl

theorem lin_at3 (a b : V3) (j : ℕ) : at3 (lin a b) j = if j = 0 then a else if j = 1 then b else 0 := by
  have e : at3 (lin a b) j = at3 (spread 0 a) j + at3 (spread 1 b) j := rfl
  rw [e, spread_at3, spread_at3]
  by_cases h0 : j = 0
  · subst h0; simp
  · by_cases h1 : j = 1
    · subst h1; simp
    · simp [h0, h1]

theorem at3_e (x : ℕ → ℝ) (i : ℕ) : x i = at3 x (i / 3) ⟨i % 3, Nat.mod_lt _ (by norm_num)⟩ := by
  unfold at3
  congr 1
  show i = 3 * (i / 3) + i % 3
  omega

theorem lin_high (a b : V3) {i : ℕ} (h : 6 ≤ i) : lin a b i = 0 := by
  rw [at3_e (lin a b) i, lin_at3, if_neg (by omega), if_neg (by omega)]; rfl

theorem at3_pull {M : Mat} {n : ℕ} (h : M.rows = 3 * n) (x : ℕ → ℝ) (k : ℕ) :
    at3 (pull M x) k = ∑ j ∈ range n, (M.blk3 (3 * j) (3 * k))ᵀ.mulVec (at3 x j) := by
  funext i
  rw [Finset.sum_apply]
  unfold at3 pull
  rw [h, sum_range_three_mul]
  refine sum_congr rfl fun j _ => ?_
  simp only [mulVec, dotProduct, transpose_apply, blk3_apply]
  exact sum_congr rfl fun l _ => by ring

theorem sum_head2 {n : ℕ} (hn : 2 ≤ n) (f : ℕ → V3) (h : ∀ j, 2 ≤ j → f j = 0) : ∑ j ∈ range n, f j = f 0 + f 1 := by
  rw [← Finset.sum_range_add_sum_Ico f hn, Finset.sum_eq_zero fun j hj => h j (Finset.mem_Ico.mp hj).1, add_zero,
    Finset.sum_range_succ, Finset.sum_range_one]

theorem at3_pull_lin {M : Mat} {n : ℕ} (h : M.rows = 3 * n) (hn : 2 ≤ n) (a b : V3) (k : ℕ) :
    at3 (pull M (lin a b)) k = (M.blk3 0 (3 * k))ᵀ.mulVec a + (M.blk3 3 (3 * k))ᵀ.mulVec b := by
  rw [at3_pull h, sum_head2 hn]
  · rw [lin_at3, lin_at3, if_pos rfl, if_neg (by omega), if_pos rfl]
  · intro j hj
    rw [lin_at3, if_neg (by omega), if_neg (by omega), mulVec_zero]

/-- what the functional becomes under the transition matrix, without bias estimation -/
theorem pull_phi {K : ℕ} {p : ImuProp} (hK : 2 ≤ K) (het : p.errorType = .rightInvariant) (hen : p.enableBias = false) (w a' : V3) (dt : ℝ) (X : Mat)
    (a b : V3) {i : ℕ} (hi : i < 3 * K + 9) :
    pull (phiK K p w a' dt X) (lin a b) i = lin (a + dt • (skew gravity)ᵀ.mulVec b) b i := by
  rw [at3_e (pull _ _) i, at3_e (lin _ _) i]
  refine congrFun ?_ _
  obtain ⟨k, hk⟩ : ∃ k, i / 3 = k := ⟨_, rfl⟩
  have hk' : k < K + 3 := by omega
  rw [hk, at3_pull_lin (n := K + 3) (by simp; ring) (by omega), lin_at3]
  have hphi : ∀ j, j < K + 3 → (phiK K p w a' dt X).blk3 (3 * j) (3 * k) = if K + 1 ≤ k then 0 else phiRB dt j k := by
    intro j hj
    unfold phiK
    rw [het]
    dsimp only
    rw [ofBlk_blk3 _ hj hk']
    unfold phiRF
    dsimp only
    rw [hen, if_neg (by simp)]
  have h0 := hphi 0 (by omega)
  have h1 := hphi 1 (by omega)
  rw [show 3 * 0 = 0 from rfl] at h0
  rw [show 3 * 1 = 3 from rfl] at h1
  rw [h0, h1]
  by_cases c0 : k = 0
  · subst c0
    rw [if_neg (by omega), if_neg (by omega), if_pos rfl]
    unfold phiRB
    rw [if_neg (by omega), if_neg (by omega), if_neg (by omega), if_pos rfl, if_neg (by omega), if_neg (by omega), if_pos ⟨rfl, rfl⟩,
      transpose_one, one_mulVec, transpose_smul, smul_mulVec]
  · rw [if_neg c0]
    by_cases c1 : k = 1
    · subst c1
      rw [if_neg (by omega), if_neg (by omega), if_pos rfl]
      unfold phiRB
      rw [if_neg (by omega), if_neg (by omega), if_neg (by omega), if_neg (by omega), if_neg (by omega), if_neg (by omega), if_neg (by omega), if_pos rfl,
        transpose_one, one_mulVec, transpose_zero, zero_mulVec, zero_add]
    · rw [if_neg c1]
      have e : ∀ j, j < 2 → (if K + 1 ≤ k then (0 : M3) else phiRB dt j k) = 0 := by
        intro j hj
        split_ifs
        · rfl
        · unfold phiRB
          rw [if_neg (by omega), if_neg (by omega), if_neg (by omega), if_neg (by omega)]
      rw [e 0 (by omega), e 1 (by omega), transpose_zero, zero_mulVec, zero_mulVec, add_zero]

theorem bd_blk {K : ℕ} (X : Mat) {j k : ℕ} (hj : j < K + 1) (hk : k < K + 3) :
    (bd (AdM K X) (3 * K + 9)).blk3 (3 * j) (3 * k) = if k < K + 1 then adjF (X.blk3 0 0) (fun k => X.blkV 0 (3 + k)) j k else 0 := by
  funext r c
  have hr := r.2; have hc := c.2
  rw [blk3_apply]
  unfold bd
  rw [setBlockP_e_in (by simp; omega) (by simp; omega)]
  by_cases h : k < K + 1
  · rw [if_pos (by simp; omega), if_pos h]
    have := congrFun (congrFun (ofBlk_blk3 (a := K + 1) (b := K + 1) (adjF (X.blk3 0 0) (fun k => X.blkV 0 (3 + k))) hj h) r) c
    rw [← this]
    rfl
  · rw [if_neg (by simp; omega), if_neg h, Mat.one_e, if_neg (by omega)]
    rfl

/-- a linear function of the rotation and velocity error through one IMU step of the right-invariant filter without bias estimation -/
theorem tilt_prop {K p s m f rest tp} (h : PropReady K p s m f rest tp) (hQ : QcOK K s.Qc) (het : p.errorType = .rightInvariant)
    (hen : p.enableBias = false) {bb p' s'} (hp : p.propagate s = some (bb, p', s')) (a b : V3) :
    quad s'.P (lin a b) = quad s.P (lin (a + (m.time - tp) • (skew gravity)ᵀ.mulVec b) b) + (m.time - tp) *
      ((s.X.blk3 0 0)ᵀ.mulVec (a + (m.time - tp) • (skew gravity)ᵀ.mulVec b + (skew (s.X.blkV 0 3))ᵀ.mulVec b) ⬝ᵥ
        p.gyroCov.mulVec ((s.X.blk3 0 0)ᵀ.mulVec (a + (m.time - tp) • (skew gravity)ᵀ.mulVec b + (skew (s.X.blkV 0 3))ᵀ.mulVec b)) +
       (s.X.blk3 0 0)ᵀ.mulVec b ⬝ᵥ p.accelCov.mulVec ((s.X.blk3 0 0)ᵀ.mulVec b)) := by
  obtain ⟨bg, ba, w, a', Φ, -, -, -, hΦ, key⟩ := C96_process_noise h hQ hp
  have hK := h.shape.k
  rw [stateTransitionMatrix_eq h.shape h.world] at hΦ
  obtain rfl := Option.some.inj hΦ
  set dt := m.time - tp with hdt
  set a1 := a + dt • (skew gravity)ᵀ.mulVec b with ha1
  have hpull := fun {i : ℕ} (hi : i < 3 * K + 9) => pull_phi hK het hen w a' dt s.X a b hi
  have hx := key (lin a b) (pull (bd (AdM K s.X) (3 * K + 9)) (pull (phiK K p w a' dt s.X) (lin a b))) (fun _ i hi => lin_high _ _ (by omega)) (by
    unfold Channels; rw [het]; exact ⟨_, adjoint_AdM h.shape.x.rows h.shape.x.cols, rfl⟩)
  rw [hx, quad_ext h.shape.pr h.shape.pc fun i hi => hpull hi]
  congr 2
  set n := pull (bd (AdM K s.X) (3 * K + 9)) (pull (phiK K p w a' dt s.X) (lin a b)) with hn
  have hn' : ∀ k, n k = pull (bd (AdM K s.X) (3 * K + 9)) (lin a1 b) k := by
    intro k
    rw [hn]
    unfold pull
    refine sum_congr rfl fun i hi => ?_
    have hi' : i < 3 * K + 9 := mem_range.mp hi
    congr 1
    exact hpull hi'
  have hn3 : ∀ k, at3 n k = ((bd (AdM K s.X) (3 * K + 9)).blk3 0 (3 * k))ᵀ.mulVec a1 + ((bd (AdM K s.X) (3 * K + 9)).blk3 3 (3 * k))ᵀ.mulVec b := by
    intro k
    rw [← at3_pull_lin (n := K + 3) (by show 3 * K + 9 = _; ring) (by omega)]
    funext i
    exact hn' _
  have e0 := fun {k : ℕ} (hk : k < K + 3) => bd_blk (K := K) s.X (j := 0) (by omega) hk
  have e1 := fun {k : ℕ} (hk : k < K + 3) => bd_blk (K := K) s.X (j := 1) (by omega) hk
  simp only [Nat.mul_zero, Nat.mul_one] at e0 e1
  have n0 : at3 n 0 = (s.X.blk3 0 0)ᵀ.mulVec (a1 + (skew (s.X.blkV 0 3))ᵀ.mulVec b) := by
    rw [hn3, e0 (by omega), e1 (by omega), if_pos (by omega), if_pos (by omega)]
    unfold adjF
    rw [if_pos rfl, if_neg (by omega), if_pos rfl, transpose_mul, mulVec_add _ a1, mulVec_mulVec]
  have n1 : at3 n 1 = (s.X.blk3 0 0)ᵀ.mulVec b := by
    rw [hn3, e0 (by omega), e1 (by omega), if_pos (by omega), if_pos (by omega)]
    unfold adjF
    rw [if_neg (by omega), if_neg (by omega), if_pos rfl, transpose_zero, zero_mulVec, zero_add]
  have n2 : ∀ k, 2 ≤ k → k < K + 3 → at3 n k = 0 := by
    intro k h2 hk
    rw [hn3, e0 hk, e1 hk]
    have : ∀ j, j < 2 → (if k < K + 1 then adjF (s.X.blk3 0 0) (fun k => s.X.blkV 0 (3 + k)) j k else 0) = 0 := by
      intro j hj
      split_ifs
      · unfold adjF; rw [if_neg (by omega), if_neg (by omega)]
      · rfl
    rw [this 0 (by omega), this 1 (by omega), transpose_zero, zero_mulVec, zero_mulVec, add_zero]
  have hq : quad s.Qc n = 0 := by
    have hqr := h.qr; have hqc := h.qc
    unfold quad
    refine Finset.sum_eq_zero fun i hi => Finset.sum_eq_zero fun j _ => ?_
    have hi' : i < 3 * K + 9 := by rw [← hqr]; exact mem_range.mp hi
    by_cases h6 : i < 6
    · rw [hQ.zero i j (.inl h6)]; ring
    · have : n i = 0 := by
        rw [at3_e n i, n2 (i / 3) (by omega) (by omega)]; rfl
      rw [this]; ring
  unfold noiseRate
  rw [hen, if_neg (by simp), n0, n1, hq]
  ring

/-- one velocity correction of the right-invariant filter: at the price of the sensor's variance in the direction `y`, what the function reads from
the velocity can be changed by `y` -/
theorem tilt_vel {K : ℕ} {c : VelCorr} {s s' : RobotState} {m : VelMeas} (hsh : Shape K s) (hw : s.stateType = .worldCentric) (hP : PSD s.P)
    (hC : PD (of3 c.cov)) (het : c.errorType = .rightInvariant) (h : c.apply m s = some s') (a b y : V3) :
    quad s'.P (lin a b) ≤ quad s.P (lin a (b - y)) + y ⬝ᵥ (s.X.blk3 0 0 * c.cov * (s.X.blk3 0 0)ᵀ).mulVec y := by
  obtain ⟨R, v, h0, h3, h1⟩ := (velApply_iff hsh hw c m).mp h
  have hK := hsh.k
  have hsh' := hsh.setT (some m.time)
  have hs1 := C23_right_on_group hsh' h1
  have hd : RobotState.dimP { s with t := some m.time } = 3 * K + 9 := hsh.pc
  rw [hd] at h1
  have hR : R = s.X.blk3 0 0 := by
    have hr := hsh.x.rows; have hc := hsh.x.cols
    have : s.get_rotation = some (s.X.blk3 0 0) := blk3?_eq (by omega) (by omega)
    have h0 : s.get_rotation = some R := h0
    rw [this] at h0
    exact (Option.some.inj h0).symm
  have hN : PD (of3 (R * c.cov * Rᵀ)) := by rw [hR]; exact pd_rot hsh.x.rot hC
  obtain ⟨P0, PR, L, PR', E, k1, k2, -, k4, k5, -, -, -, k6, -, k8⟩ := C97_right_correction hsh' hP hN h1
  have hPR := k2 het
  have hPR' := k6 het
  subst hPR
  obtain ⟨ho, -⟩ := (correctRight_iff hsh').mp h1
  have hPr := k1.rows
  have hHc : (velH (3 * K + 9)).cols = PR.rows := by rw [hPr]; rfl
  have hq : quad s'.P (lin a b) = quad (errCov PR (velH (3 * K + 9)) (of3 (R * c.cov * Rᵀ)) L) (lin a b) := by
    rw [hPR']
    refine quad_skip ?_ ?_ k8 (lin_high _ _ (by omega))
    · rw [← hPR', hs1.pr]; show _ = PR.rows; rw [hPr]
    · rw [← hPR', hs1.pc]; show _ = PR.rows; rw [hPr]
  have hprior : ∀ b', quad PR (lin a b') = quad s.P (lin a b') := by
    intro b'
    by_cases hb' : s.enableBias = true
    · rw [k1.on hb']
    · have hb' : s.enableBias = false := by simpa using hb'
      unfold quad
      rw [hPr, k1.cols, hsh.pr, hsh.pc]
      refine sum_congr rfl fun i hi => sum_congr rfl fun j hj => ?_
      by_cases hi6 : i < 6
      · by_cases hj6 : j < 6
        · rw [k1.offMain hb' i j (by omega) (by omega)]
        · rw [lin_high a b' (i := j) (by omega)]; ring
      · rw [lin_high a b' (i := i) (by omega)]; ring
  have hquadN : quad (of3 (R * c.cov * Rᵀ)) (fun k => spread 0 y k) = y ⬝ᵥ (s.X.blk3 0 0 * c.cov * (s.X.blk3 0 0)ᵀ).mulVec y := by
    have e := quad_spread (A := of3 (R * c.cov * Rᵀ)) (k := 0) (by show 3 ≤ 3; omega) (by show 3 ≤ 3; omega) y
    have e1 : (of3 (R * c.cov * Rᵀ)).blk3 (3 * 0) (3 * 0) = R * c.cov * Rᵀ := blk3_of3 _
    rw [e1] at e
    rw [← hR]
    exact e
  rw [← hprior, hq, ← hquadN]
  set x := lin a b with hx
  set S := ∑ i ∈ range (3 * K + 9), x i * x i with hS
  have hSx : S = a ⬝ᵥ a + b ⬝ᵥ b := by
    rw [hS, show 3 * K + 9 = 3 * (K + 3) by ring, sum_range_three_mul]
    have e : ∀ j, (∑ l : Fin 3, x (3 * j + l) * x (3 * j + l)) = at3 x j ⬝ᵥ at3 x j := fun j => rfl
    simp only [e]
    rw [← Finset.sum_range_add_sum_Ico _ (show 2 ≤ K + 3 by omega), Finset.sum_eq_zero (s := Finset.Ico 2 (K + 3)), add_zero, Finset.sum_range_succ,
      Finset.sum_range_one, hx, lin_at3, lin_at3, if_pos rfl, if_neg (by omega), if_pos rfl]
    intro j hj
    have := (Finset.mem_Ico.mp hj).1
    rw [hx, lin_at3, if_neg (by omega), if_neg (by omega), zero_dotProduct]
  by_cases h00 : S = 0
  · have ha : a ⬝ᵥ a = 0 ∧ b ⬝ᵥ b = 0 := by
      have h1 : 0 ≤ a ⬝ᵥ a := by simp only [dotProduct]; exact Finset.sum_nonneg fun i _ => mul_self_nonneg _
      have h2 : 0 ≤ b ⬝ᵥ b := by simp only [dotProduct]; exact Finset.sum_nonneg fun i _ => mul_self_nonneg _
      rw [hSx] at h00
      constructor <;> linarith
    have hz : x = fun _ => 0 := by
      funext i
      rw [hx, dotProduct_self_eq_zero.mp ha.1, dotProduct_self_eq_zero.mp ha.2, at3_e (lin _ _) i, lin_at3]
      split_ifs <;> rfl
    have e0 : quad (errCov PR (velH (3 * K + 9)) (of3 (R * c.cov * Rᵀ)) L) x = 0 := by
      unfold quad; rw [hz]; simp
    rw [e0]
    exact add_nonneg (k4.2 _) (hN.psd.2 _)
  -- the rank-one gain that moves the velocity part by `y`
  set L' : Mat := ofFn (3 * K + 9) 3 fun i j => x i / S * spread 0 y j with hL'
  have hL'y : ∀ k, k < 3 → ∑ i ∈ range (3 * K + 9), x i * L'.e i k = spread 0 y k := by
    intro k hk
    have : ∀ i ∈ range (3 * K + 9), x i * L'.e i k = x i * x i * (spread 0 y k / S) := by
      intro i hi
      rw [hL', ofFn_e_of_lt (mem_range.mp hi) hk]
      ring
    rw [sum_congr rfl this, ← Finset.sum_mul, ← hS]
    field_simp
  have hle := k5.2.2 L' (by rw [hPr]; rfl) rfl x
  refine le_trans hle (le_of_eq ?_)
  rw [quad_errCov k4 hHc hN.psd ho.nr (by rw [hPr]; rfl) rfl]
  congr 1
  · refine quad_ext (n := 3 * K + 9) hPr k1.cols fun k hk => ?_
    rw [hPr]
    have e : ∀ i ∈ range (3 * K + 9), x i * (one (3 * K + 9) - L' * velH (3 * K + 9)).e i k =
        x i * (one (3 * K + 9)).e i k - ∑ j ∈ range 3, x i * L'.e i j * (velH (3 * K + 9)).e j k := by
      intro i hi
      rw [sub_e' (by rfl) (by rfl), mul_sub, mul_e, Finset.mul_sum]
      congr 1
      exact sum_congr rfl fun j _ => by ring
    rw [sum_congr rfl e, Finset.sum_sub_distrib, Finset.sum_comm]
    have e1 : ∑ i ∈ range (3 * K + 9), x i * (one (3 * K + 9)).e i k = x k := pull_one (n := 3 * K + 9) x hk
    rw [e1]
    have e2 : ∀ j ∈ range 3, ∑ i ∈ range (3 * K + 9), x i * L'.e i j * (velH (3 * K + 9)).e j k = spread 0 y j * (velH (3 * K + 9)).e j k := by
      intro j hj
      rw [← Finset.sum_mul, hL'y j (mem_range.mp hj)]
    rw [sum_congr rfl e2]
    have e3 : ∑ j ∈ range 3, spread 0 y j * (velH (3 * K + 9)).e j k = spread 1 y k := by
      by_cases hk3 : 3 ≤ k ∧ k < 6
      · rw [Finset.sum_eq_single (k - 3)]
        · unfold velH
          rw [ofFn_e_of_lt (by omega) hk, if_pos (by omega), mul_one]
          unfold spread
          rw [dif_pos (by omega), dif_pos (by omega)]
          congr 1
        · intro j hj hne
          have hj := mem_range.mp hj
          unfold velH
          rw [ofFn_e_of_lt hj hk, if_neg (by omega), mul_zero]
        · intro hh; exact absurd (mem_range.mpr (by omega)) hh
      · rw [Finset.sum_eq_zero]
        · unfold spread; rw [dif_neg (by omega)]
        · intro j hj
          have hj := mem_range.mp hj
          unfold velH
          rw [ofFn_e_of_lt hj hk, if_neg (by omega), mul_zero]
    rw [e3, hx]
    unfold lin
    have e4 : spread 1 (b - y) k = spread 1 b k - spread 1 y k := by
      unfold spread
      split_ifs
      · rfl
      · ring
    rw [e4]
    ring
  · refine quad_ext (n := 3) rfl rfl fun k hk => ?_
    exact hL'y k hk

end Drift
