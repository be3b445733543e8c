import Verif.Lemmas.Equiv2

/-! # Lemmas: the Kalman update commutes with a turn of the world frame -/
set_option linter.unusedSimpArgs false
namespace Drift
open Mat Matrix RobotState Finset

/-- block-diagonal matrix -/
def bdg (n : ℕ) (f : ℕ → M3) : Mat := ofBlk n n fun i j => if i = j then f i else 0

@[simp] theorem bdg_rows (n f) : (bdg n f).rows = 3 * n := rfl
@[simp] theorem bdg_cols (n f) : (bdg n f).cols = 3 * n := rfl

theorem bdg_blk {n : ℕ} (f : ℕ → M3) {i j : ℕ} (hi : i < n) (hj : j < n) : (bdg n f).blk3 (3 * i) (3 * j) = if i = j then f i else 0 :=
  ofBlk_blk3 _ hi hj

theorem bdg_T (n : ℕ) (f : ℕ → M3) : (bdg n f).T = bdg n fun i => (f i)ᵀ := by
  unfold bdg
  rw [ofBlk_T]
  refine ofBlk_congr fun i j _ _ => ?_
  by_cases h : i = j
  · subst h; simp
  · rw [if_neg h, if_neg (fun q => h q.symm)]; simp

theorem bdg_mul_blk {n : ℕ} (f : ℕ → M3) (A : Mat) {i : ℕ} (hi : i < n) (c : ℕ) :
    (bdg n f * A).blk3 (3 * i) c = f i * A.blk3 (3 * i) c := by
  rw [blk3_mul (n := n) _ _ rfl, Finset.sum_eq_single i]
  · rw [bdg_blk f hi hi, if_pos rfl]
  · intro k hk hne
    rw [bdg_blk f hi (by simpa using hk), if_neg (fun q => hne q.symm), Matrix.zero_mul]
  · intro h; exact absurd (by simpa using hi) h

theorem mul_bdg_blk {n : ℕ} (f : ℕ → M3) {A : Mat} (hA : A.cols = 3 * n) {j : ℕ} (hj : j < n) (r : ℕ) :
    (A * bdg n f).blk3 r (3 * j) = A.blk3 r (3 * j) * f j := by
  rw [blk3_mul (n := n) _ _ hA, Finset.sum_eq_single j]
  · rw [bdg_blk f hj hj, if_pos rfl]
  · intro k hk hne
    rw [bdg_blk f (by simpa using hk) hj, if_neg hne, Matrix.mul_zero]
  · intro h; exact absurd (by simpa using hj) h

theorem bdg_mul_blkV {n : ℕ} (f : ℕ → M3) (A : Mat) {i : ℕ} (hi : i < n) (c : ℕ) :
    (bdg n f * A).blkV (3 * i) c = (f i).mulVec (A.blkV (3 * i) c) := by
  rw [blkV_mul _ _ (n := n) rfl, Finset.sum_eq_single i]
  · rw [bdg_blk f hi hi, if_pos rfl]
  · intro k hk hne
    rw [bdg_blk f hi (by simpa using hk), if_neg (fun q => hne q.symm), Matrix.zero_mulVec]
  · intro h; exact absurd (by simpa using hi) h

theorem bdg_mul (n : ℕ) (f g : ℕ → M3) : bdg n f * bdg n g = bdg n fun i => f i * g i := by
  refine ext_blk3 (a := n) (b := n) rfl rfl rfl rfl fun i j hi hj => ?_
  rw [bdg_mul_blk f _ hi, bdg_blk g hi hj, bdg_blk _ hi hj]
  by_cases h : i = j
  · rw [if_pos h, if_pos h]
  · rw [if_neg h, if_neg h, Matrix.mul_zero]

theorem bdg_one (n : ℕ) {f : ℕ → M3} (h : ∀ i, i < n → f i = 1) : bdg n f = one (3 * n) := by
  rw [one_eq_ofBlk]
  refine ofBlk_congr fun i j hi hj => ?_
  rw [h i hi]

/-- the group element of a turn of the world frame -/
def turnX (K : ℕ) (Q : M3) : Mat := mkSE K Q fun _ => 0

theorem turnX_isSEK {K : ℕ} {Q : M3} (hQ : IsRot Q) : IsSEK K (turnX K Q) := sek_isSEK hQ

/-- its action on an error: the turn on every group block, nothing on the biases -/
theorem EA_turn (K : ℕ) (Q : M3) : EA K (turnX K Q) = bdg (K + 3) fun i => if i ≤ K then Q else 1 := by
  rw [EA_eq]
  refine ofBlk_congr fun i j hi hj => ?_
  unfold legEaF adjF turnX
  have hR : (mkSE K Q fun _ => 0).blk3 0 0 = Q := by funext k l; rw [blk3_apply]; simpa using mkSE_e_rot K Q (fun _ => 0) k l
  rw [hR]
  by_cases hij : i = j
  · subst hij
    by_cases h : i ≤ K
    · rw [if_pos ⟨h, h⟩]; simp [h]
    · rw [if_neg (fun q => h q.1)]; simp [h]
  · by_cases h : i ≤ K ∧ j ≤ K
    · rw [if_pos h, if_neg hij, if_neg hij]
      by_cases h0 : j = 0
      · rw [if_pos h0]
        beta_reduce
        rw [mkSE_blkV _ _ _ (by omega), skew_zero, Matrix.zero_mul]
      · rw [if_neg h0]
    · rw [if_neg h, if_neg hij, if_neg hij]

theorem turnX_mul_rot {K : ℕ} {Q : M3} {X : Mat} (hX : IsSEK K X) : (turnX K Q * X).blk3 0 0 = Q * X.blk3 0 0 := by
  unfold turnX
  conv_lhs => rw [hX.eq_mk, mkSE_mul]
  funext k l; rw [blk3_apply]; simpa using mkSE_e_rot K _ _ k l

theorem turnX_mul_col {K : ℕ} {Q : M3} {X : Mat} (hX : IsSEK K X) {k : ℕ} (hk : k < K) :
    (turnX K Q * X).blkV 0 (3 + k) = Q.mulVec (X.blkV 0 (3 + k)) := by
  unfold turnX
  conv_lhs => rw [hX.eq_mk, mkSE_mul]
  rw [mkSE_blkV _ _ _ hk, add_zero]

/-- the exponential of a turned increment -/
theorem expK_turn {K : ℕ} {Q : M3} (hQ : IsRot Q) (d : Mat) (X : Mat) (hX : IsSEK K X) :
    expK K (EA K (turnX K Q) * d) * (turnX K Q * X) = turnX K Q * (expK K d * X) := by
  have h0 : (EA K (turnX K Q) * d).blkV 0 0 = Q.mulVec (d.blkV 0 0) := by
    rw [EA_turn]
    have := bdg_mul_blkV (n := K + 3) (fun i => if i ≤ K then Q else 1) d (i := 0) (by omega) 0
    simpa using this
  have hk : ∀ k, k < K → (EA K (turnX K Q) * d).blkV (3 + 3 * k) 0 = Q.mulVec (d.blkV (3 + 3 * k) 0) := by
    intro k hk
    rw [EA_turn, show 3 + 3 * k = 3 * (k + 1) by ring]
    have := bdg_mul_blkV (n := K + 3) (fun i => if i ≤ K then Q else 1) d (i := k + 1) (by omega) 0
    rw [if_pos (by omega)] at this
    exact this
  have key : expK K (EA K (turnX K Q) * d) * turnX K Q = turnX K Q * expK K d := by
    unfold expK turnX
    rw [mkSE_mul, mkSE_mul]
    rw [show (EA K (mkSE K Q fun _ => 0) * d).blkV 0 0 = Q.mulVec (d.blkV 0 0) from h0]
    refine mkSE_congr ?_ fun k hk' => ?_
    · rw [Gam0_rot hQ, Matrix.mul_assoc, hQ.1, Matrix.mul_one]
    · rw [show (EA K (mkSE K Q fun _ => 0) * d).blkV (3 + 3 * k) 0 = Q.mulVec (d.blkV (3 + 3 * k) 0) from hk k hk']
      rw [Gam1_rot hQ, Matrix.mulVec_zero, zero_add, add_zero, Matrix.mulVec_mulVec, Matrix.mulVec_mulVec,
        Matrix.mul_assoc (Q * Gam1 _), hQ.1, Matrix.mul_one]
  rw [← mul_assoc', key, mul_assoc']

/-- the bias part of an increment is not turned -/
theorem bias_turn {K : ℕ} {Q : M3} (d : Mat) :
    (EA K (turnX K Q) * d).blockP (3 * K + 3) 0 6 1 = d.blockP (3 * K + 3) 0 6 1 := by
  refine ext' rfl rfl fun i j hi hj => ?_
  simp only [blockP_rows, blockP_cols] at hi hj
  rw [blockP_e, blockP_e, if_pos ⟨hi, hj⟩, if_pos ⟨hi, hj⟩, EA_turn]
  obtain rfl : j = 0 := by omega
  have h1 : ∀ k, K < k → k < K + 3 → (bdg (K + 3) (fun i => if i ≤ K then Q else 1) * d).blkV (3 * k) 0 = d.blkV (3 * k) 0 := by
    intro k h1 h2
    rw [bdg_mul_blkV _ _ h2, if_neg (by omega), Matrix.one_mulVec]
  by_cases h : i < 3
  · have := congrFun (h1 (K + 1) (by omega) (by omega)) ⟨i, h⟩
    simp only [blkV_apply] at this
    rw [show 3 * K + 3 + i = 3 * (K + 1) + i by ring]
    exact this
  · have := congrFun (h1 (K + 2) (by omega) (by omega)) ⟨i - 3, by omega⟩
    simp only [blkV_apply] at this
    rw [show 3 * K + 3 + i = 3 * (K + 2) + (i - 3) by omega]
    exact this

/-- a mask that keeps all group coordinates commutes with the turn -/
theorem mask_turn {A P : Mat} {m n : ℕ} {c : ℝ} (p : ℕ → Prop) [DecidablePred p] (hp : ∀ i, i < m → p i) (hr : A.rows = m) (hc : A.cols = m)
    (h : m ≤ n) (hPr : P.rows = n) (hPc : P.cols = n) :
    mask p c (bd A n * P * (bd A n).T) = bd A n * mask p c P * (bd A n).T := by
  set B := bd A n with hB
  set D := diagM n (fun i => if p i then (1 : ℝ) else 0) with hD
  set E := diagM n (fun i => if p i then (0 : ℝ) else c) with hE
  have hcomm : ∀ (A' : Mat), A'.rows = m → A'.cols = m → D * bd A' n = bd A' n * D := by
    intro A' hr' hc'
    refine ext' rfl rfl fun i j hi hj => ?_
    simp only [mul_rows, mul_cols, bd_rows, bd_cols, hD, diagM_rows] at hi hj
    rw [hD, diagM_mul_e (P := bd A' n) (n := n) rfl, mul_diagM_e (P := bd A' n) (n := n) rfl, bd_e hr' hc' h]
    by_cases h1 : i < m <;> by_cases h2 : j < m
    · simp [h1, h2, hi, hj, hp i h1, hp j h2]
    · have : i ≠ j := by omega
      simp [h1, h2, this]
    · have : i ≠ j := by omega
      simp [h1, h2, this]
    · by_cases hij : i = j
      · subst hij; simp [h1, hi]
      · simp [h1, h2, hij]
  have hBE : B * E = E := by
    refine ext' rfl rfl fun i j hi hj => ?_
    simp only [mul_rows, mul_cols, hB, bd_rows, hE, diagM_cols] at hi hj
    rw [hE, mul_diagM_e (P := B) (n := n) rfl, hB, bd_e hr hc h, diagM_e]
    by_cases h2 : j < m
    · have := hp j h2
      by_cases hij : i = j
      · subst hij; simp [this]
      · simp [this, hij]
    · by_cases hij : i = j
      · subst hij; simp [h2, hi]
      · simp [h2, hij]
  have hEB : E * B.T = E := by
    have := congrArg T hBE
    rw [T_mul (by simp [hB, hE]), show E.T = E from diagM_sym _ _] at this
    exact this
  have hc1 : D * B = B * D := hcomm A hr hc
  have hc2 : D * B.T = B.T * D := by
    rw [hB, bd_T hr hc h]; exact hcomm A.T (by simpa) (by simpa)
  have hsz : (D * P * D).rows = E.rows ∧ (D * P * D).cols = E.cols := ⟨rfl, rfl⟩
  rw [mask_eq (n := n) (by simp [hB]) (by simp [hB]), mask_eq hPr hPc, ← hD, ← hE,
    mul_add' _ hsz.1 hsz.2, add_mul' (A := B * (D * P * D)) (B := B * E) _ rfl rfl, hBE, hEB]
  congr 1
  have e1 : D * (B * P * B.T) * D = (D * B) * P * (B.T * D) := by simp only [mul_assoc']
  have e2 : B * (D * P * D) * B.T = (B * D) * P * (D * B.T) := by simp only [mul_assoc']
  rw [e1, e2, hc1, hc2]

/-- two left-invariant states that differ by a turn of the world frame -/
structure HRel (Q : M3) (K : ℕ) (h : Heap) (s s' : RobotState) : Prop where
  gL : Good K h s
  gR : Good K h s'
  same : s' = { s with X := s'.X }
  x : s'.X = turnX K Q * s.X

theorem HRel.p {Q K h s s'} (r : HRel Q K h s s') : s'.P = s.P := by rw [r.same]
theorem HRel.th {Q K h s s'} (r : HRel Q K h s s') : s'.Theta = s.Theta := by rw [r.same]
theorem HRel.cm {Q K h s s'} (r : HRel Q K h s s') : s'.colMap = s.colMap := by rw [r.same]
theorem HRel.eb {Q K h s s'} (r : HRel Q K h s s') : s'.enableBias = s.enableBias := by rw [r.same]
theorem HRel.rot {Q K h s s'} (r : HRel Q K h s s') : s'.X.blk3 0 0 = Q * s.X.blk3 0 0 := by rw [r.x]; exact turnX_mul_rot r.gL.shape.x
theorem HRel.col {Q K h s s'} (r : HRel Q K h s s') {j : ℕ} (h3 : 3 ≤ j) (hj : j < 3 + K) : s'.X.blkV 0 j = Q.mulVec (s.X.blkV 0 j) := by
  rw [r.x]
  obtain ⟨k, rfl⟩ := Nat.exists_eq_add_of_le h3
  exact turnX_mul_col r.gL.shape.x (by omega)

theorem HRel.setT {Q K h s s'} (r : HRel Q K h s s') (t : Option ℝ) : HRel Q K h { s with t := t } { s' with t := t } := by
  refine ⟨r.gL.setT t, r.gR.setT t, ?_, r.x⟩
  rw [r.same]

set_option maxHeartbeats 1000000 in
theorem kalman_head {Q K h s s'} (hQ : IsRot Q) (r : HRel Q K h s s') {Z H N E : Mat} (ho : ObsSizes (3 * K + 9) Z H N) (hN : PD N)
    {Z' N' : Mat} (ho' : ObsSizes (3 * K + 9) Z' H N') (hN' : PD N')
    (er : E.rows = H.rows) (ec : E.cols = H.rows) (hE : E.T * E = one H.rows) (hE' : E * E.T = one H.rows)
    (hH : H * EA K (turnX K Q) = E * H) (hZ : Z' = E * Z) (hNN : N' = E * N * E.T) :
    ∃ a b, correctRightInvariant Z H N s .leftInvariant = some a ∧ correctRightInvariant Z' H N' s' .leftInvariant = some b ∧
      HRel Q K h a b := by
  obtain ⟨a, e1, g1, f1⟩ := kalman_good r.gL ho hN .leftInvariant
  obtain ⟨b, e2, g2, f2⟩ := kalman_good r.gR ho' hN' .leftInvariant
  refine ⟨a, b, e1, e2, ?_⟩
  obtain ⟨-, W, hW, ha⟩ := (correctRight_iff r.gL.shape).mp e1
  obtain ⟨-, W', hW', hb⟩ := (correctRight_iff r.gR.shape).mp e2
  have hG := turnX_isSEK (K := K) hQ
  have hX := r.gL.shape.x
  have hX' := r.gR.shape.x
  set D := EA K (turnX K Q) with hD
  have dr : D.rows = 3 * K + 9 := rfl
  have dc : D.cols = 3 * K + 9 := rfl
  obtain ⟨zr, hc, nr, nc, zc⟩ : Z.rows = H.rows ∧ H.cols = 3 * K + 9 ∧ N.rows = H.rows ∧ N.cols = H.rows ∧ Z.cols = 1 := ⟨ho.zr, ho.hc, ho.nr, ho.nc, ho.zc⟩
  set P := priorR K s .leftInvariant with hP
  have pr : P.rows = 3 * K + 9 := priorR_rows r.gL.shape
  have pc : P.cols = 3 * K + 9 := priorR_cols r.gL.shape
  have hP' : priorR K s' .leftInvariant = D * P * D.T := by
    have h0 : prior0 K s' = prior0 K s := by unfold prior0; rw [r.eb, r.p]
    rw [hP]
    unfold priorR
    rw [if_pos rfl, if_pos rfl, h0, r.x, EA_mul hG hX, ← hD, T_mul (by simp [dc])]
    simp only [mul_assoc']
  have hHT : D.T * H.T = H.T * E.T := by
    rw [← T_mul (by rw [hc, dr]), hH, T_mul (by rw [ec])]
  have hS : innov (priorR K s' .leftInvariant) H N' = E * innov P H N * E.T := by
    rw [hP', hNN]
    unfold innov
    rw [mul_add' _ (by simp [nr]) (by simp [nc]), add_mul' _ (by simp) (by simp [nc])]
    congr 1
    calc H * (D * P * D.T * H.T) = H * D * P * (D.T * H.T) := by simp only [mul_assoc']
      _ = E * H * P * (H.T * E.T) := by rw [hHT, hH]
      _ = _ := by simp only [mul_assoc']
  obtain ⟨-, w1, w2, w3, w4⟩ := inv?_spec hW
  simp only [innov_rows] at w1 w2 w3 w4
  have hW2 : W' = E * W * E.T := by
    have : (innov (priorR K s' .leftInvariant) H N').inv? = some (E * W * E.T) := by
      rw [inv?_eq_some_iff, hS]
      refine ⟨by simp [er], by simp [er], by simp [er], ?_, ?_⟩
      · show E * innov P H N * E.T * (E * W * E.T) = one E.rows
        calc _ = E * innov P H N * (E.T * E) * W * E.T := by simp only [mul_assoc']
          _ = E * (innov P H N * W) * E.T := by rw [hE, mul_one_of (by simp)]; simp only [mul_assoc']
          _ = _ := by rw [w3, mul_one_of ec, hE', er]
      · show E * W * E.T * (E * innov P H N * E.T) = one E.rows
        calc _ = E * W * (E.T * E) * innov P H N * E.T := by simp only [mul_assoc']
          _ = E * (W * innov P H N) * E.T := by rw [hE, mul_one_of (by simp [w2])]; simp only [mul_assoc']
          _ = _ := by rw [w4, mul_one_of ec, hE', er]
    rw [hW'] at this
    exact Option.some.inj this
  set Gn := gain P H W with hGn
  have gr : Gn.rows = 3 * K + 9 := pr
  have gc : Gn.cols = H.rows := w2
  have hgain : gain (priorR K s' .leftInvariant) H W' = D * Gn * E.T := by
    rw [hP', hW2, hGn]
    unfold gain
    calc D * P * D.T * H.T * (E * W * E.T) = D * P * (D.T * H.T) * (E * W * E.T) := by simp only [mul_assoc']
      _ = D * P * (H.T * E.T) * (E * W * E.T) := by rw [hHT]
      _ = D * P * H.T * (E.T * E) * W * E.T := by simp only [mul_assoc']
      _ = D * P * H.T * W * E.T := by rw [hE, mul_one_of (by simp)]
      _ = _ := by simp only [mul_assoc']
  have hdel : gain (priorR K s' .leftInvariant) H W' * Z' = D * (Gn * Z) := by
    rw [hgain, hZ]
    calc D * Gn * E.T * (E * Z) = D * Gn * (E.T * E) * Z := by simp only [mul_assoc']
      _ = _ := by rw [hE, mul_one_of (by simp [gc])]; simp only [mul_assoc']
  have hJ : joseph (priorR K s' .leftInvariant) H N' (gain (priorR K s' .leftInvariant) H W') = D * joseph P H N Gn * D.T := by
    rw [hgain, hP', hNN]
    unfold joseph
    have hA : (one (D * P * D.T).rows - D * Gn * E.T * H) * D = D * (one P.rows - Gn * H) := by
      rw [sub_mul' _ (by simp [dr]) (by simp [dr, hc]), mul_sub' _ (by simp [pr, gr]) (by simp [pr, hc]),
        one_mul_of (by simp), mul_one_of (by rw [dc, pr])]
      congr 1
      calc D * Gn * E.T * H * D = D * Gn * E.T * (H * D) := by simp only [mul_assoc']
        _ = D * Gn * (E.T * E) * H := by rw [hH]; simp only [mul_assoc']
        _ = _ := by rw [hE, mul_one_of (by simp [gc])]; simp only [mul_assoc']
    set A := one (D * P * D.T).rows - D * Gn * E.T * H with hAd
    set A0 := one P.rows - Gn * H with hA0
    have ac : A.cols = 3 * K + 9 := by simp [hAd, dr, dc]
    have a0r : A0.rows = 3 * K + 9 := by simp [hA0, pr]
    have a0c : A0.cols = 3 * K + 9 := by simp [hA0, pr]
    have hAT : D.T * A.T = A0.T * D.T := by
      rw [← T_mul (by rw [ac, dr]), hA, T_mul (by rw [dc, a0r])]
    rw [mul_add' _ (by simp [a0r, gr]) (by simp [a0r, gr]), add_mul' _ (by simp) (by simp [a0r, gr])]
    congr 1
    · calc A * (D * P * D.T) * A.T = A * D * P * (D.T * A.T) := by simp only [mul_assoc']
        _ = D * A0 * P * (A0.T * D.T) := by rw [hA, hAT]
        _ = _ := by simp only [mul_assoc']
    · have hT : (D * Gn * E.T).T = E * Gn.T * D.T := by
        rw [T_mul (by simp [gc, ec]), T_mul (by rw [dc, gr]), T_T, mul_assoc']
      rw [hT]
      calc D * Gn * E.T * (E * N * E.T) * (E * Gn.T * D.T) = D * Gn * (E.T * E) * N * (E.T * E) * Gn.T * D.T := by simp only [mul_assoc']
        _ = D * Gn * N * Gn.T * D.T := by rw [hE, mul_one_of (by simp [nc]), mul_one_of (by simp [gc])]
        _ = _ := by simp only [mul_assoc']
  have hxa : a.X = expK K (Gn * Z) * s.X := by rw [ha]; rfl
  have hxb : b.X = turnX K Q * a.X := by
    have : b.X = expK K (gain (priorR K s' .leftInvariant) H W' * Z') * s'.X := by rw [hb]; rfl
    rw [this, hdel, r.x, hxa]
    exact expK_turn hQ _ _ hX
  have hth : b.Theta = a.Theta := by
    have h1 : a.Theta = s.Theta + ((Gn * Z).blockP (3 * K + 3) 0 6 1).setP 2 0 0 := by rw [ha]; rfl
    have h2 : b.Theta = s'.Theta + ((gain (priorR K s' .leftInvariant) H W' * Z').blockP (3 * K + 3) 0 6 1).setP 2 0 0 := by rw [hb]; rfl
    rw [h1, h2, hdel, r.th, bias_turn]
  have hp : b.P = a.P := by
    have h1 : a.P = EA K (invSE K a.X) * mask (· ≠ 3 * K + 5) 0.0001 (joseph P H N Gn) * (EA K (invSE K a.X)).T := by rw [hxa, ha]; rfl
    have h2 : b.P = EA K (invSE K b.X) * mask (· ≠ 3 * K + 5) 0.0001
        (joseph (priorR K s' .leftInvariant) H N' (gain (priorR K s' .leftInvariant) H W')) * (EA K (invSE K b.X)).T := by
      conv_lhs => rw [hb]
      conv_rhs => rw [show b.X = expK K (gain (priorR K s' .leftInvariant) H W' * Z') * s'.X by rw [hb]; rfl]
      rfl
    have hm : mask (· ≠ 3 * K + 5) 0.0001 (D * joseph P H N Gn * D.T) = D * mask (· ≠ 3 * K + 5) 0.0001 (joseph P H N Gn) * D.T :=
      mask_turn (A := AdM K (turnX K Q)) (m := 3 * (K + 1)) (n := 3 * K + 9) _ (fun i hi => by omega) rfl rfl (by omega) (by simp [pr]) (by simp [pr])
    have hax : IsSEK K a.X := g1.shape.x
    have hbx : IsSEK K b.X := g2.shape.x
    have hinv : EA K (invSE K b.X) * D = EA K (invSE K a.X) := by
      have q1 := EA_inv_mul hbx
      rw [hxb, EA_mul hG hax, ← hD, ← hxb] at q1
      calc EA K (invSE K b.X) * D = EA K (invSE K b.X) * D * (EA K a.X * EA K (invSE K a.X)) := by
            rw [EA_mul_inv hax, mul_one_of (by simp [dc])]
        _ = EA K (invSE K b.X) * (D * EA K a.X) * EA K (invSE K a.X) := by simp only [mul_assoc']
        _ = _ := by rw [q1, one_mul_of (by simp)]
    have hinvT : D.T * (EA K (invSE K b.X)).T = (EA K (invSE K a.X)).T := by
      rw [← T_mul (by simp [dr]), hinv]
    rw [h1, h2, hJ, hm]
    calc _ = EA K (invSE K b.X) * D * mask (· ≠ 3 * K + 5) 0.0001 (joseph P H N Gn) * (D.T * (EA K (invSE K b.X)).T) := by simp only [mul_assoc']
      _ = _ := by rw [hinv, hinvT]
  refine ⟨g1, g2, ?_, hxb⟩
  rw [f2, f1]
  have hsame := r.same
  rw [hth, hp]
  conv_lhs => rw [hsame]

end Drift
