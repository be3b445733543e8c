import Verif.Lemmas.ErrFlow2
import Verif.Props.Imu

/-!
# Property C55: the state transition matrix of `src/filter/inekf/propagation/imu_propagation.cpp` is the exact
solution of the linear error equations
-/
set_option linter.unusedSimpArgs false
set_option linter.unnecessarySeqFocus false
namespace Drift
open Mat Matrix Finset RobotState ImuProp

/-- blocks of `errVec` -/
def errB (K : ℕ) (ξR ξv ξp : V3) (ξd : ℕ → V3) (bg ba : V3) (i : ℕ) : V3 :=
  if i = 0 then ξR else if i = 1 then ξv else if i = 2 then ξp
  else if i ≤ K then ξd (i - 3) else if i = K + 1 then bg else ba

theorem errVec_blkV {K : ℕ} (ξR ξv ξp : V3) (ξd : ℕ → V3) (bg ba : V3) {i : ℕ} (hi : i < K + 3) :
    (errVec K ξR ξv ξp ξd bg ba).blkV (3 * i) 0 = errB K ξR ξv ξp ξd bg ba i := by
  ext j
  rw [blkV_apply]
  unfold errVec errB
  rw [ofFn_e_of_lt (by omega) (by omega)]
  have h1 : (3 * i + (j : ℕ)) / 3 = i := by omega
  have h2 : Fin.ofNat 3 (3 * i + (j : ℕ)) = j := by
    apply Fin.ext; simp [Fin.ofNat]
  rw [h1, h2]

theorem ext_blkV {A B : Mat} {n : ℕ} (hr : A.rows = 3 * n) (hc : A.cols = 1) (hr' : B.rows = 3 * n)
    (hc' : B.cols = 1) (h : ∀ i < n, A.blkV (3 * i) 0 = B.blkV (3 * i) 0) : A = B := by
  refine ext' (hr.trans hr'.symm) (hc.trans hc'.symm) fun i j hi hj => ?_
  have := congrFun (h (i / 3) (by omega)) ⟨i % 3, by omega⟩
  rw [blkV_apply, blkV_apply] at this
  rw [show 3 * (i / 3) + i % 3 = i by omega] at this
  rwa [show j = 0 by omega]

theorem sum_sub {n : ℕ} (S : Finset ℕ) {f : ℕ → V3} (h : ∀ x ∈ S, x < n) (h0 : ∀ x < n, x ∉ S → f x = 0) :
    ∑ k ∈ range n, f k = ∑ k ∈ S, f k := by
  symm
  refine sum_subset (fun x hx => mem_range.mpr (h x hx)) fun x hx hx' => h0 x (mem_range.mp hx) hx'

theorem sum_two {n x y : ℕ} {f : ℕ → V3} (hx : x < n) (hy : y < n) (hxy : x ≠ y)
    (h0 : ∀ k < n, k ≠ x → k ≠ y → f k = 0) : ∑ k ∈ range n, f k = f x + f y := by
  rw [sum_sub {x, y} (by simp; omega) (fun k hk hk' => by simp at hk'; exact h0 k hk hk'.1 hk'.2), sum_pair hxy]

theorem sum_one {n x : ℕ} {f : ℕ → V3} (hx : x < n) (h0 : ∀ k < n, k ≠ x → f k = 0) : ∑ k ∈ range n, f k = f x := by
  rw [sum_sub {x} (by simpa using hx) (fun k hk hk' => by simp at hk'; exact h0 k hk hk'), sum_singleton]

theorem sum_four {n x y z u : ℕ} {f : ℕ → V3} (hx : x < y) (hy : y < z) (hz : z < u) (hu : u < n)
    (h0 : ∀ k < n, k ≠ x → k ≠ y → k ≠ z → k ≠ u → f k = 0) :
    ∑ k ∈ range n, f k = f x + f y + f z + f u := by
  rw [sum_sub {x, y, z, u} (by simp; omega)
    (fun k hk hk' => by simp at hk'; exact h0 k hk hk'.1 hk'.2.1 hk'.2.2.1 hk'.2.2.2),
    sum_insert (by simp; omega), sum_insert (by simp; omega), sum_pair (by omega)]
  abel

theorem sum_five {n x y z u t : ℕ} {f : ℕ → V3} (hx : x < y) (hy : y < z) (hz : z < u) (hu : u < t) (ht : t < n)
    (h0 : ∀ k < n, k ≠ x → k ≠ y → k ≠ z → k ≠ u → k ≠ t → f k = 0) :
    ∑ k ∈ range n, f k = f x + f y + f z + f u + f t := by
  rw [sum_sub {x, y, z, u, t} (by simp; omega)
    (fun k hk hk' => by simp at hk'; exact h0 k hk hk'.1 hk'.2.1 hk'.2.2.1 hk'.2.2.2.1 hk'.2.2.2.2),
    sum_insert (by simp; omega), sum_insert (by simp; omega), sum_insert (by simp; omega), sum_pair (by omega)]
  abel

theorem phiLF_row {K : ℕ} (hK : 2 ≤ K) {en : Bool} {a : V3} {dt : ℝ} {G0 G1 G2 p25 p35 : M3} {xR xv xp : V3}
    {xd : ℕ → V3} {bg ba : V3} (hb : en = true ∨ (bg = 0 ∧ ba = 0)) {i : ℕ} (hi : i < K + 3) :
    ∑ k ∈ range (K + 3), (phiLF K en a dt G0 G1 G2 p25 p35 i k).mulVec (errB K xR xv xp xd bg ba k) =
      if i = 0 then G0ᵀ.mulVec xR + (dt • (-G1ᵀ)).mulVec bg
      else if i = 1 then (dt • (-G0ᵀ * skew (G1.mulVec a))).mulVec xR + G0ᵀ.mulVec xv + p25.mulVec bg
        + (dt • (-G1ᵀ)).mulVec ba
      else if i = 2 then (dt ^ 2 • (-G0ᵀ * skew (G2.mulVec a))).mulVec xR + (dt • G0ᵀ).mulVec xv + G0ᵀ.mulVec xp
        + p35.mulVec bg + (dt ^ 2 • (-G0ᵀ * G2)).mulVec ba
      else if i ≤ K then G0ᵀ.mulVec (xd (i - 3)) else if i = K + 1 then bg else ba := by
  have red : ∀ k ∈ range (K + 3), (phiLF K en a dt G0 G1 G2 p25 p35 i k).mulVec (errB K xR xv xp xd bg ba k)
      = (phiLF K true a dt G0 G1 G2 p25 p35 i k).mulVec (errB K xR xv xp xd bg ba k) := by
    intro k _
    rcases hb with rfl | ⟨rfl, rfl⟩
    · rfl
    · by_cases hk : k ≤ K
      · congr 1
        unfold phiLF
        cases en
        · rw [if_neg (by simp), if_pos rfl]; ifs
        · rfl
      · have : errB K xR xv xp xd 0 0 k = 0 := by unfold errB; ifs; simp
        rw [this]; simp
  rw [sum_congr rfl red]
  unfold phiLF
  rcases Nat.lt_or_ge i 3 with h3 | h3
  · interval_cases i
    · rw [sum_two (x := 0) (y := K + 1) (by omega) (by omega) (by omega)]
      · unfold errB phiLB; ifs
      · intro k hk h1 h2; unfold phiLB; ifs; simp
    · rw [sum_four (x := 0) (y := 1) (z := K + 1) (u := K + 2) (by omega) (by omega) (by omega) (by omega)]
      · unfold errB phiLB; ifs
      · intro k hk h1 h2 h3 h4; unfold phiLB; ifs; simp
    · rw [sum_five (x := 0) (y := 1) (z := 2) (u := K + 1) (t := K + 2) (by omega) (by omega) (by omega) (by omega)
        (by omega)]
      · unfold errB phiLB; ifs
      · intro k hk h1 h2 h3 h4 h5; unfold phiLB; ifs; simp
  · rw [sum_one (x := i) hi]
    · by_cases hiK : i ≤ K
      · unfold errB phiLB; ifs
      · have q : phiLB K a dt G0 G1 G2 i i = 1 := by unfold phiLB; ifs
        unfold errB; ifs
        rw [q, Matrix.one_mulVec]
        rw [if_neg (c := i = 0) (by omega), if_neg (c := i = 1) (by omega), if_neg (c := i = 2) (by omega),
          if_neg (c := i ≤ K) (by omega)]
    · intro k hk h1; unfold phiLB; ifs; simp

/-- **C55**, left-invariant error: the transition matrix maps the stacked error at the start of the step to the
stacked error at its end, exactly, for every solution of the linear error equations: any rate and acceleration, any
step, any number of further columns, any bias errors if biases are estimated. -/
theorem C55_left {K : ℕ} {p : ImuProp} {s : RobotState} (hs : Shape K s) (hw : s.stateType = .worldCentric)
    (he : p.errorType = .leftInvariant) {w a bg ba : V3} {dt : ℝ} (hx : ExactAt (dt • w))
    (hb : p.enableBias = true ∨ (bg = 0 ∧ ba = 0)) (hsmall : 1e-6 ≤ norm3 w ∨ bg = 0)
    {ξR ξv ξp : ℝ → V3} {ξd : ℕ → ℝ → V3} (h : LeftErr w a bg ba ξR ξv ξp ξd) :
    ∃ Φ, p.stateTransitionMatrix w a dt s = some Φ ∧
      Φ * errVec K (ξR 0) (ξv 0) (ξp 0) (fun k => ξd k 0) bg ba
        = errVec K (ξR dt) (ξv dt) (ξp dt) (fun k => ξd k dt) bg ba := by
  have hK := hs.k
  refine ⟨_, stateTransitionMatrix_eq hs hw w a dt, ?_⟩
  have hb0 : norm3 w ≠ 0 ∨ bg = 0 := by
    rcases hsmall with h | h
    · left; intro h0; rw [h0] at h; norm_num at h
    · exact Or.inr h
  obtain ⟨e1, e2, e3, e4⟩ := h.solution hb0 dt
  have q25 : (phi25 w a dt (Gam0 (dt • w))ᵀ (Gam2 (dt • w))ᵀ).mulVec bg = ((E0 w dt)ᵀ * I25 w a dt).mulVec bg := by
    rcases hsmall with h | rfl
    · unfold phi25; rw [if_neg (not_lt.mpr h), phi25Gen_eq hx]
    · simp
  have q35 : (phi35 w a dt (Gam0 (dt • w))ᵀ ((gamma_SO3 (-(dt • w)) 3).getD 0)).mulVec bg
      = ((E0 w dt)ᵀ * I35 w a dt).mulVec bg := by
    rcases hsmall with h | rfl
    · unfold phi35; rw [if_neg (not_lt.mpr h), phi35Gen_eq hx]
    · simp
  have qG1 : dt • -(Gam1 (dt • w))ᵀ = -((E0 w dt)ᵀ * E1 w dt) := by
    rw [E0T_E1, ← Gam1_smul hx, transpose_smul, smul_neg]
  have qv : dt • (-(Gam0 (dt • w))ᵀ * skew ((Gam1 (dt • w)).mulVec a))
      = -((E0 w dt)ᵀ * skew ((E1 w dt).mulVec a)) := by
    rw [Gam0_smul hx, ← Gam1_smul hx, smul_mulVec, skew_smul, Matrix.mul_smul, Matrix.neg_mul, smul_neg]
  have qp : dt ^ 2 • (-(Gam0 (dt • w))ᵀ * skew ((Gam2 (dt • w)).mulVec a))
      = -((E0 w dt)ᵀ * skew ((E2 w dt).mulVec a)) := by
    rw [Gam0_smul hx, ← Gam2_smul hx, smul_smul, smul_mulVec, skew_smul, Matrix.mul_smul, Matrix.neg_mul, smul_neg,
      ← pow_two]
  have qpa : dt ^ 2 • (-(Gam0 (dt • w))ᵀ * Gam2 (dt • w)) = -((E0 w dt)ᵀ * E2 w dt) := by
    rw [Gam0_smul hx, ← Gam2_smul hx, smul_smul, Matrix.mul_smul, Matrix.neg_mul, smul_neg, ← pow_two]
  have qG0 := Gam0_smul hx
  unfold phiK
  rw [he]; dsimp only
  refine ext_blkV (n := K + 3) (by simp) (by simp [errVec]) (by simp [errVec]) (by simp [errVec]) fun i hi => ?_
  rw [blkV_mul _ _ (n := K + 3) (by simp), errVec_blkV _ _ _ _ _ _ hi]
  rw [sum_congr rfl fun k hk => by
    rw [ofBlk_blk3 _ hi (mem_range.mp hk), errVec_blkV _ _ _ _ _ _ (mem_range.mp hk)]]
  rw [phiLF_row hK hb hi, qG1, qv, qp, qpa, q25, q35, qG0, e1, e2, e3]
  unfold errB yR yV yP
  by_cases h0 : i = 0
  · rw [if_pos h0, if_pos h0]
    simp only [Matrix.mulVec_sub, Matrix.neg_mulVec, Matrix.mulVec_mulVec]
    abel
  rw [if_neg h0, if_neg h0]
  by_cases h1 : i = 1
  · rw [if_pos h1, if_pos h1]
    simp only [Matrix.mulVec_sub, Matrix.mulVec_add, Matrix.neg_mulVec, Matrix.mulVec_mulVec]
    abel
  rw [if_neg h1, if_neg h1]
  by_cases h2 : i = 2
  · rw [if_pos h2, if_pos h2]
    simp only [Matrix.mulVec_sub, Matrix.mulVec_add, Matrix.neg_mulVec, Matrix.mulVec_mulVec, Matrix.mulVec_smul,
      smul_mulVec]
    abel
  rw [if_neg h2, if_neg h2]
  by_cases h3 : i ≤ K
  · rw [if_pos h3, if_pos h3]; beta_reduce; rw [e4]
  rw [if_neg h3, if_neg h3]

/-- the hypotheses are met: a solution exists for every initial error and every rate of at least `1e-6` -/
example (bg ba x0 v0 p0 : V3) (d0 : ℕ → V3) :
    Shape 2 { RobotState.init with tProp := some 0 } ∧ (exProp .leftInvariant true).errorType = .leftInvariant ∧
    (exProp .leftInvariant true).enableBias = true ∧ ExactAt ((0.01 : ℝ) • (![1, 0, 0] : V3)) ∧
    1e-6 ≤ norm3 ![1, 0, 0] ∧
    ∃ ξR ξv ξp ξd, LeftErr ![1, 0, 0] ![0, 0, 9.8] bg ba ξR ξv ξp ξd ∧ ξR 0 = x0 ∧ ξv 0 = v0 ∧ ξp 0 = p0 ∧
      ∀ k, ξd k 0 = d0 k := by
  have hn : norm3 ![1, 0, 0] = 1 := by unfold norm3; simp [nsq]
  refine ⟨(exReady .leftInvariant true).shape, rfl, rfl, Or.inl ?_, by rw [hn]; norm_num,
    LeftErr.exists _ _ _ _ _ _ _ _ (Or.inl (by rw [hn]; norm_num))⟩
  rw [norm3_smul, hn]; norm_num [abs_of_pos]

theorem phiRF_row {K : ℕ} (hK : 2 ≤ K) {en : Bool} {a : V3} {dt : ℝ} {G0 G1 G2 p25 p35 : M3} {X : Mat}
    {xR xv xp : V3} {xd : ℕ → V3} {bg ba : V3} (hb : en = true ∨ (bg = 0 ∧ ba = 0)) {i : ℕ} (hi : i < K + 3) :
    ∑ k ∈ range (K + 3), (phiRF K en a dt G0 G1 G2 p25 p35 X i k).mulVec (errB K xR xv xp xd bg ba k) =
      if i = 0 then xR + (-(dt • (X.blk3 0 0 * G1))).mulVec bg
      else if i = 1 then (dt • skew gravity).mulVec xR + xv
        + (-skew (X.blkV 0 3 + (dt • (X.blk3 0 0 * G1)).mulVec a + dt • gravity) * (dt • (X.blk3 0 0 * G1))
            + X.blk3 0 0 * G0 * p25).mulVec bg + (-(dt • (X.blk3 0 0 * G1))).mulVec ba
      else if i = 2 then (dt ^ 2 • ((0.5 : ℝ) • skew gravity)).mulVec xR + dt • xv + xp
        + (-skew (X.blkV 0 4 + dt • X.blkV 0 3 + (dt ^ 2 • (X.blk3 0 0 * G2)).mulVec a
              + dt ^ 2 • ((0.5 : ℝ) • gravity)) * (dt • (X.blk3 0 0 * G1)) + X.blk3 0 0 * G0 * p35).mulVec bg
        + (-(dt ^ 2 • (X.blk3 0 0 * G2))).mulVec ba
      else if i ≤ K then xd (i - 3) + (-skew (X.blkV 0 (i + 2)) * (dt • (X.blk3 0 0 * G1))).mulVec bg
      else if i = K + 1 then bg else ba := by
  have red : ∀ k ∈ range (K + 3), (phiRF K en a dt G0 G1 G2 p25 p35 X i k).mulVec (errB K xR xv xp xd bg ba k)
      = (phiRF K true a dt G0 G1 G2 p25 p35 X i k).mulVec (errB K xR xv xp xd bg ba k) := by
    intro k _
    rcases hb with rfl | ⟨rfl, rfl⟩
    · rfl
    · by_cases hk : k ≤ K
      · congr 1
        unfold phiRF
        cases en
        · dsimp only
          rw [if_neg (by simp), if_pos rfl]; ifs
        · rfl
      · have : errB K xR xv xp xd 0 0 k = 0 := by unfold errB; ifs; simp
        rw [this]; simp
  rw [sum_congr rfl red]
  unfold phiRF
  dsimp only
  rcases Nat.lt_or_ge i 3 with h3 | h3
  · interval_cases i
    · rw [sum_two (x := 0) (y := K + 1) (by omega) (by omega) (by omega)]
      · unfold errB phiRB; ifs; rw [Matrix.one_mulVec]
      · intro k hk h1 h2; unfold phiRB; ifs; simp
    · rw [sum_four (x := 0) (y := 1) (z := K + 1) (u := K + 2) (by omega) (by omega) (by omega) (by omega)]
      · unfold errB phiRB; ifs; rw [Matrix.one_mulVec]
      · intro k hk h1 h2 h3 h4; unfold phiRB; ifs; simp
    · rw [sum_five (x := 0) (y := 1) (z := 2) (u := K + 1) (t := K + 2) (by omega) (by omega) (by omega) (by omega)
        (by omega)]
      · unfold errB phiRB; ifs; rw [Matrix.one_mulVec, smul_mulVec dt, Matrix.one_mulVec]
      · intro k hk h1 h2 h3 h4 h5; unfold phiRB; ifs; simp
  · by_cases hiK : i ≤ K
    · rw [sum_two (x := i) (y := K + 1) hi (by omega) (by omega)]
      · unfold errB phiRB; ifs; rw [Matrix.one_mulVec]
      · intro k hk h1 h2; unfold phiRB; ifs; simp
    · rw [sum_one (x := i) hi]
      · have q : phiRB dt i i = 1 := by unfold phiRB; ifs
        unfold errB; ifs
        rw [q, Matrix.one_mulVec]
        rw [if_neg (c := i = 0) (by omega), if_neg (c := i = 1) (by omega), if_neg (c := i = 2) (by omega),
          if_neg (c := i ≤ K) (by omega)]
      · intro k hk h1; unfold phiRB; ifs; simp

/-- **C55**, right-invariant error: the same along the trajectory of the strapdown equations that starts in the
current state. -/
theorem C55_right {K : ℕ} {p : ImuProp} {s : RobotState} (hs : Shape K s) (hw : s.stateType = .worldCentric)
    (he : p.errorType = .rightInvariant) {w a bg ba : V3} {dt : ℝ} (hx : ExactAt (dt • w))
    (hb : p.enableBias = true ∨ (bg = 0 ∧ ba = 0)) (hsmall : 1e-6 ≤ norm3 w ∨ bg = 0)
    {R : ℝ → M3} {v q : ℝ → V3} (hS : Strapdown w a ![0, 0, -9.80] R v q) {d : ℕ → V3}
    (hR0 : s.get_rotation = some (R 0)) (hv0 : s.get_velocity = some (v 0)) (hq0 : s.get_position = some (q 0))
    (hd : ∀ k : ℕ, 5 + k < 3 + K → s.get_vector ((5 + k : ℕ) : ℤ) = some (d k))
    {ξR ξv ξp : ℝ → V3} {ξd : ℕ → ℝ → V3} (h : RightErr ![0, 0, -9.80] bg ba R v q d ξR ξv ξp ξd) :
    ∃ Φ, p.stateTransitionMatrix w a dt s = some Φ ∧
      Φ * errVec K (ξR 0) (ξv 0) (ξp 0) (fun k => ξd k 0) bg ba
        = errVec K (ξR dt) (ξv dt) (ξp dt) (fun k => ξd k dt) bg ba := by
  have hK := hs.k; have hr := hs.x.rows; have hc := hs.x.cols
  change Strapdown w a gravity R v q at hS
  change RightErr gravity bg ba R v q d ξR ξv ξp ξd at h
  unfold get_rotation at hR0; unfold get_velocity at hv0; unfold get_position at hq0
  rw [blk3?_eq (by omega) (by omega)] at hR0
  rw [blkV?_eq (by omega) (by omega)] at hv0 hq0
  have hR0 := Option.some.inj hR0
  have hv0 := Option.some.inj hv0
  have hq0 := Option.some.inj hq0
  have hd' : ∀ k, 5 + k < 3 + K → s.X.blkV 0 (5 + k) = d k := by
    intro k hk
    have := hd k hk
    unfold get_vector at this
    rw [if_neg (by omega), Int.toNat_natCast, blkV?_eq (by omega) (by omega)] at this
    exact Option.some.inj this
  have hrot : IsRot (R 0) := hR0 ▸ hs.x.rot
  refine ⟨_, stateTransitionMatrix_eq hs hw w a dt, ?_⟩
  have hb0 : norm3 w ≠ 0 ∨ bg = 0 := by
    rcases hsmall with h | h
    · left; intro h0; rw [h0] at h; norm_num at h
    · exact Or.inr h
  obtain ⟨e1, e2, e3, e4⟩ := h.solution hS hrot hb0 dt
  obtain ⟨_, u2, u3⟩ := hS.unique dt
  have hE : (E0 w dt) * (E0 w dt)ᵀ = 1 := E0_mul_T w dt
  have q25 : (R 0 * Gam0 (dt • w) * phi25 w a dt (Gam0 (dt • w))ᵀ (Gam2 (dt • w))ᵀ).mulVec bg
      = (R 0).mulVec ((I25 w a dt).mulVec bg) := by
    rcases hsmall with h | rfl
    · unfold phi25
      rw [if_neg (not_lt.mpr h), phi25Gen_eq hx, Gam0_smul hx, ← Matrix.mul_assoc, Matrix.mul_assoc (R 0), hE,
        Matrix.mul_one, Matrix.mulVec_mulVec]
    · simp
  have q35 : (R 0 * Gam0 (dt • w) * phi35 w a dt (Gam0 (dt • w))ᵀ ((gamma_SO3 (-(dt • w)) 3).getD 0)).mulVec bg
      = (R 0).mulVec ((I35 w a dt).mulVec bg) := by
    rcases hsmall with h | rfl
    · unfold phi35
      rw [if_neg (not_lt.mpr h), phi35Gen_eq hx, Gam0_smul hx, ← Matrix.mul_assoc, Matrix.mul_assoc (R 0), hE,
        Matrix.mul_one, Matrix.mulVec_mulVec]
    · simp
  have qG1 : dt • (R 0 * Gam1 (dt • w)) = R 0 * E1 w dt := by rw [← Gam1_smul hx, Matrix.mul_smul]
  have qG2 : dt ^ 2 • (R 0 * Gam2 (dt • w)) = R 0 * E2 w dt := by
    rw [← Gam2_smul hx, smul_smul, Matrix.mul_smul, ← pow_two]
  unfold phiK
  rw [he]; dsimp only
  refine ext_blkV (n := K + 3) (by simp) (by simp [errVec]) (by simp [errVec]) (by simp [errVec]) fun i hi => ?_
  rw [blkV_mul _ _ (n := K + 3) (by simp), errVec_blkV _ _ _ _ _ _ hi]
  rw [sum_congr rfl fun k hk => by
    rw [ofBlk_blk3 _ hi (mem_range.mp hk), errVec_blkV _ _ _ _ _ _ (mem_range.mp hk)]]
  rw [phiRF_row hK hb hi, hR0, hv0, hq0, qG1, qG2, Matrix.add_mulVec _ _ bg, Matrix.add_mulVec _ _ bg, q25, q35, e1, e2, e3]
  have hv : v 0 + (R 0 * E1 w dt).mulVec a + dt • gravity = v dt := u2.symm
  have hq : q 0 + dt • v 0 + (R 0 * E2 w dt).mulVec a + dt ^ 2 • (0.5 : ℝ) • gravity = q dt := by
    rw [u3, smul_smul]; congr 2; ring
  rw [hv, hq]
  unfold errB zR zV zP
  by_cases h0 : i = 0
  · rw [if_pos h0, if_pos h0, Matrix.neg_mulVec]
    abel
  rw [if_neg h0, if_neg h0]
  by_cases h1 : i = 1
  · rw [if_pos h1, if_pos h1]
    simp only [Matrix.neg_mulVec, Matrix.mulVec_mulVec, smul_mulVec, Matrix.neg_mul]
    abel
  rw [if_neg h1, if_neg h1]
  by_cases h2 : i = 2
  · rw [if_pos h2, if_pos h2]
    have : dt ^ 2 • (0.5 : ℝ) • (skew gravity).mulVec (ξR 0) = (dt ^ 2 / 2) • (skew gravity).mulVec (ξR 0) := by
      rw [smul_smul]; congr 1; ring
    simp only [Matrix.neg_mulVec, Matrix.mulVec_mulVec, smul_mulVec, Matrix.neg_mul]
    rw [this]
    abel
  rw [if_neg h2, if_neg h2]
  by_cases h3 : i ≤ K
  · rw [if_pos h3, if_pos h3]; beta_reduce
    rw [e4, ← hd' (i - 3) (by omega), show 5 + (i - 3) = i + 2 by omega]
    simp only [Matrix.neg_mulVec, Matrix.mulVec_mulVec, Matrix.neg_mul]
    abel
  rw [if_neg h3, if_neg h3]

/-- the hypotheses are met by the initial state, for every initial error -/
example (bg ba x0 v0 p0 : V3) (d0 : ℕ → V3) :
    ∃ R v q, Strapdown ![1, 0, 0] ![0, 0, 9.8] ![0, 0, -9.80] R v q ∧
      RobotState.init.get_rotation = some (R 0) ∧ RobotState.init.get_velocity = some (v 0) ∧
      RobotState.init.get_position = some (q 0) ∧
      ∃ ξR ξv ξp ξd, RightErr ![0, 0, -9.80] bg ba R v q (fun _ => 0) ξR ξv ξp ξd ∧ ξR 0 = x0 ∧ ξv 0 = v0 ∧ ξp 0 = p0 ∧
        ∀ k, ξd k 0 = d0 k := by
  have hn : norm3 ![1, 0, 0] = 1 := by unfold norm3; simp [nsq]
  have hs : Shape 2 { RobotState.init with tProp := some 0 } := (exReady .leftInvariant true).shape
  have hr : RobotState.init.X.rows = 5 := hs.x.rows
  have hc : RobotState.init.X.cols = 5 := hs.x.cols
  obtain ⟨R, v, q, hS, h1, h2, h3⟩ := Strapdown.exists ![1, 0, 0] ![0, 0, 9.8] ![0, 0, -9.80]
    (RobotState.init.X.blk3 0 0) (RobotState.init.X.blkV 0 3) (RobotState.init.X.blkV 0 4)
  refine ⟨R, v, q, hS, ?_, ?_, ?_, RightErr.exists hS ?_ _ _ _ _ _ _ _ (Or.inl (by rw [hn]; norm_num))⟩
  · rw [h1]; exact blk3?_eq (by omega) (by omega)
  · rw [h2]; exact blkV?_eq (by omega) (by omega)
  · rw [h3]; exact blkV?_eq (by omega) (by omega)
  · rw [h1]; exact hs.x.rot

/-! ### C94: the log-linear property -/

theorem lead_mul {K : ℕ} {f : ℕ → ℕ → M3} {ξ : Mat} (hr : ξ.rows = 3 + 3 * K) (hc : ξ.cols = 1) :
    ((ofBlk (K + 3) (K + 3) f).blockP 0 0 (3 * K + 3) (3 * K + 3) * ξ).rows = 3 + 3 * K ∧
    ((ofBlk (K + 3) (K + 3) f).blockP 0 0 (3 * K + 3) (3 * K + 3) * ξ).cols = 1 ∧
    ∀ i < K + 1, ((ofBlk (K + 3) (K + 3) f).blockP 0 0 (3 * K + 3) (3 * K + 3) * ξ).blkV (3 * i) 0
      = ∑ k ∈ range (K + 1), (f i k).mulVec (ξ.blkV (3 * k) 0) := by
  refine ⟨by simp; ring, by simpa using hc, fun i hi => ?_⟩
  rw [blkV_mul _ _ (n := K + 1) (by simp; ring)]
  refine sum_congr rfl fun k hk => ?_
  have hk := mem_range.mp hk
  congr 1
  have := ofBlk_blk3 (a := K + 3) (b := K + 3) f (i := i) (j := k) (by omega) (by omega)
  rw [← this]
  ext a b
  have ha := a.2; have hb := b.2
  rw [blk3_apply, blk3_apply]
  unfold blockP
  rw [ofFn_e_of_lt (by omega) (by omega)]
  simp

/-- `Γ₁(φ) (x × φ) = x - Γ₀(φ) x` -/
theorem Gam1_cross {φ : V3} (h : ExactAt φ) (x : V3) :
    (Gam1 φ).mulVec ((skew x).mulVec φ) = x - (Gam0 φ).mulVec x := by
  rw [skew_mulVec_swap, Gam0_eq_one_add h, Matrix.add_mulVec, Matrix.one_mulVec, ← Gam1_comm_skew, Matrix.mulVec_neg,
    Matrix.mulVec_mulVec]
  abel

theorem phiR_lead {K : ℕ} (hK : 2 ≤ K) {en : Bool} {a : V3} {dt : ℝ} {G0 G1 G2 p25 p35 : M3} {X : Mat} {x : ℕ → V3}
    {i : ℕ} (hi : i < K + 1) :
    ∑ k ∈ range (K + 1), (phiRF K en a dt G0 G1 G2 p25 p35 X i k).mulVec (x k) =
      if i = 1 then dt • (skew gravity).mulVec (x 0) + x 1
      else if i = 2 then (dt ^ 2 * 0.5) • (skew gravity).mulVec (x 0) + dt • x 1 + x 2 else x i := by
  have red : ∀ k ∈ range (K + 1), (phiRF K en a dt G0 G1 G2 p25 p35 X i k).mulVec (x k) = (phiRB dt i k).mulVec (x k) := by
    intro k hk
    have := mem_range.mp hk
    congr 1
    unfold phiRF
    cases en
    · dsimp only; rw [if_neg (by simp)]; ifs
    · dsimp only; rw [if_pos rfl]; ifs
  rw [sum_congr rfl red]
  by_cases h1 : i = 1
  · subst h1
    rw [sum_two (x := 0) (y := 1) (by omega) (by omega) (by omega)]
    · unfold phiRB; ifs; rw [smul_mulVec, Matrix.one_mulVec]
    · intro k hk h1 h2; unfold phiRB; ifs; simp
  rw [if_neg h1]
  by_cases h2 : i = 2
  · subst h2
    rw [sum_sub {0, 1, 2} (by simp; omega)]
    · rw [sum_insert (by simp), sum_pair (by omega)]
      unfold phiRB; ifs; simp only [smul_mulVec, Matrix.one_mulVec, smul_smul]; abel
    · intro k hk h; simp at h; unfold phiRB; ifs; simp
  rw [if_neg h2, sum_one (x := i) hi]
  · unfold phiRB; ifs; simp
  · intro k hk h; unfold phiRB; ifs; simp

theorem phiL_lead {K : ℕ} (hK : 2 ≤ K) {en : Bool} {a : V3} {dt : ℝ} {G0 G1 G2 p25 p35 : M3} {x : ℕ → V3}
    {i : ℕ} (hi : i < K + 1) :
    ∑ k ∈ range (K + 1), (phiLF K en a dt G0 G1 G2 p25 p35 i k).mulVec (x k) =
      G0ᵀ.mulVec (if i = 1 then x 1 - dt • (skew (G1.mulVec a)).mulVec (x 0)
      else if i = 2 then x 2 + dt • x 1 - dt ^ 2 • (skew (G2.mulVec a)).mulVec (x 0) else x i) := by
  have red : ∀ k ∈ range (K + 1), (phiLF K en a dt G0 G1 G2 p25 p35 i k).mulVec (x k)
      = (phiLB K a dt G0 G1 G2 i k).mulVec (x k) := by
    intro k hk
    have := mem_range.mp hk
    congr 1
    unfold phiLF
    cases en
    · rw [if_neg (by simp)]; ifs
    · rw [if_pos rfl]; ifs
  rw [sum_congr rfl red]
  by_cases h1 : i = 1
  · subst h1
    rw [sum_two (x := 0) (y := 1) (by omega) (by omega) (by omega)]
    · unfold phiLB; ifs
      simp only [smul_mulVec, Matrix.neg_mul, Matrix.neg_mulVec, Matrix.mulVec_sub, Matrix.mulVec_smul, Matrix.mulVec_mulVec,
        smul_neg]
      abel
    · intro k hk h1 h2; unfold phiLB; ifs; simp
  rw [if_neg h1]
  by_cases h2 : i = 2
  · subst h2
    rw [sum_sub {0, 1, 2} (by simp; omega)]
    · rw [sum_insert (by simp), sum_pair (by omega)]
      unfold phiLB; ifs
      simp only [smul_mulVec, Matrix.neg_mul, Matrix.neg_mulVec, Matrix.mulVec_sub, Matrix.mulVec_add, Matrix.mulVec_smul,
        Matrix.mulVec_mulVec, smul_neg]
      abel
    · intro k hk h; simp at h; unfold phiLB; ifs; simp
  rw [if_neg h2, sum_one (x := i) hi]
  · by_cases h0 : i = 0
    · unfold phiLB; ifs
    · unfold phiLB; ifs
  · intro k hk h; unfold phiLB; ifs; simp

/-- **C94**, right-invariant error.  If two states differ before a step by the error `Exp(ξ)`, of any size
(`X̂ = Exp(ξ) X`), then after the step they differ by `Exp(Φ ξ)` with `Φ` the matrix that the code uses for the
covariance (its block without the biases): the linear error equation is exact for the nonlinear error. -/
theorem C94_right {K p s m f rest tp} (h : PropReady K p s m f rest tp) (he : p.errorType = .rightInvariant)
    {bg ba w a : V3} (hg : s.get_gyroscope_bias = some bg) (ha : s.get_accelerometer_bias = some ba)
    (hr : RatesOf p m bg ba w a) {ξ : Mat} (hξr : ξ.rows = 3 + 3 * K) (hξc : ξ.cols = 1) (hx : ExactAt (ξ.blkV 0 0)) :
    ∃ E Φ E' q₁ s₁ q₂ s₂, exp_SEK3 ξ = some E ∧ p.stateTransitionMatrix w a (m.time - tp) s = some Φ ∧
      exp_SEK3 (Φ.blockP 0 0 (3 * K + 3) (3 * K + 3) * ξ) = some E' ∧
      p.propagate s = some (true, q₁, s₁) ∧ p.propagate { s with X := E * s.X } = some (true, q₂, s₂) ∧
      s₂.X = E' * s₁.X := by
  have hK := h.shape.k
  have hE := exp_SEK3_eq hξr hξc
  set E := mkSE K (Gam0 (ξ.blkV 0 0)) (fun k => (Gam1 (ξ.blkV 0 0)).mulVec (ξ.blkV (3 + 3 * k) 0)) with hEdef
  have hEs : IsSEK K E := sek_isSEK (Gam0_isRot _)
  have h2 : PropReady K p { s with X := E * s.X } m f rest tp :=
    ⟨⟨hEs.mul h.shape.x, hK, h.shape.thr, h.shape.thc, h.shape.pr, h.shape.pc⟩, h.world, h.qr, h.qc, h.buf, h.prev, h.time⟩
  obtain ⟨bg', ba', w', a', hg', ha', ⟨hw', haa'⟩, e1⟩ := h.run
  rw [hg] at hg'; rw [ha] at ha'; cases hg'; cases ha'
  rw [← hr.1] at hw'; subst hw'
  rw [← hr.2] at haa'; subst haa'
  obtain ⟨bg', ba', w'', a'', hg', ha', ⟨hw', haa'⟩, e2⟩ := h2.run
  replace hg' : s.get_gyroscope_bias = some bg' := hg'
  replace ha' : s.get_accelerometer_bias = some ba' := ha'
  rw [hg] at hg'; rw [ha] at ha'; cases hg'; cases ha'
  rw [← hr.1] at hw'; subst hw'
  rw [← hr.2] at haa'; subst haa'
  obtain ⟨l1, l2, l3⟩ := lead_mul (f := phiRF K p.enableBias a'' (m.time - tp) (Gam0 ((m.time - tp) • w''))
    (Gam1 ((m.time - tp) • w'')) (Gam2 ((m.time - tp) • w''))
    (phi25 w'' a'' (m.time - tp) (Gam0 ((m.time - tp) • w''))ᵀ (Gam2 ((m.time - tp) • w''))ᵀ)
    (phi35 w'' a'' (m.time - tp) (Gam0 ((m.time - tp) • w''))ᵀ ((gamma_SO3 (-((m.time - tp) • w'')) 3).getD 0)) s.X) hξr hξc
  have hΦ := stateTransitionMatrix_eq (p := p) h.shape h.world w'' a'' (m.time - tp)
  unfold phiK at hΦ
  rw [he] at hΦ; dsimp only at hΦ
  refine ⟨E, _, _, _, _, _, _, hE, hΦ, exp_SEK3_eq l1 l2, e1, e2, ?_⟩
  dsimp only
  set dt := m.time - tp
  set Y := (ofBlk (K + 3) (K + 3) _).blockP 0 0 (3 * K + 3) (3 * K + 3) * ξ with hY
  have y0 : Y.blkV 0 0 = ξ.blkV 0 0 := by
    have := l3 0 (by omega)
    rw [phiR_lead hK (by omega), if_neg (by omega), if_neg (by omega)] at this
    exact this
  have yk : ∀ k < K, Y.blkV (3 + 3 * k) 0 = if k = 0 then dt • (skew gravity).mulVec (ξ.blkV 0 0) + ξ.blkV 3 0
      else if k = 1 then (dt ^ 2 * 0.5) • (skew gravity).mulVec (ξ.blkV 0 0) + dt • ξ.blkV 3 0 + ξ.blkV 6 0
      else ξ.blkV (3 + 3 * k) 0 := by
    intro k hk
    have := l3 (k + 1) (by omega)
    rw [phiR_lead hK (x := fun k => ξ.blkV (3 * k) 0) (by omega)] at this
    rw [show 3 * (k + 1) = 3 + 3 * k by ring] at this
    rw [hY, this]
    by_cases h0 : k = 0
    · subst h0; simp
    · by_cases h1 : k = 1
      · subst h1; simp
      · rw [if_neg (by omega), if_neg (by omega), if_neg h0, if_neg h1]
  have hX := h.shape.x.eq_mk
  have hEX : E * s.X = mkSE K (Gam0 (ξ.blkV 0 0) * s.X.blk3 0 0)
      fun k => (Gam0 (ξ.blkV 0 0)).mulVec (s.X.blkV 0 (3 + k)) + (Gam1 (ξ.blkV 0 0)).mulVec (ξ.blkV (3 + 3 * k) 0) := by
    conv_lhs => rw [hX, hEdef]
    rw [mkSE_mul]
  unfold meanK
  rw [mkSE_mul, hEX, mkSE_blk3, mkSE_blkV3 _ _ _ (by omega), mkSE_blkV4 _ _ _ (by omega), y0]
  refine mkSE_congr (by rw [Matrix.mul_assoc]) fun k hk => ?_
  rw [yk k hk, mkSE_blkV _ _ _ hk]
  have hc := Gam1_cross hx gravity
  by_cases h0 : k = 0
  · subst h0
    simp only [if_true]
    simp only [Matrix.mulVec_add, Matrix.mulVec_smul, Matrix.mulVec_mulVec, Matrix.mul_assoc] at hc ⊢
    rw [hc]
    module
  · by_cases h1 : k = 1
    · subst h1
      simp only [if_neg one_ne_zero, if_true]
      simp only [Matrix.mulVec_add, Matrix.mulVec_smul, Matrix.mulVec_mulVec, Matrix.mul_assoc] at hc ⊢
      rw [hc]
      module
    · simp only [if_neg h0, if_neg h1]

/-- **C94**, left-invariant error: the same for `X̂ = X Exp(ξ)`. -/
theorem C94_left {K p s m f rest tp} (h : PropReady K p s m f rest tp) (he : p.errorType = .leftInvariant)
    {bg ba w a : V3} (hg : s.get_gyroscope_bias = some bg) (ha : s.get_accelerometer_bias = some ba)
    (hr : RatesOf p m bg ba w a) {ξ : Mat} (hξr : ξ.rows = 3 + 3 * K) (hξc : ξ.cols = 1) (hx : ExactAt (ξ.blkV 0 0)) :
    ∃ E Φ E' q₁ s₁ q₂ s₂, exp_SEK3 ξ = some E ∧ p.stateTransitionMatrix w a (m.time - tp) s = some Φ ∧
      exp_SEK3 (Φ.blockP 0 0 (3 * K + 3) (3 * K + 3) * ξ) = some E' ∧
      p.propagate s = some (true, q₁, s₁) ∧ p.propagate { s with X := s.X * E } = some (true, q₂, s₂) ∧
      s₂.X = s₁.X * E' := by
  have hK := h.shape.k
  have hE := exp_SEK3_eq hξr hξc
  set E := mkSE K (Gam0 (ξ.blkV 0 0)) (fun k => (Gam1 (ξ.blkV 0 0)).mulVec (ξ.blkV (3 + 3 * k) 0)) with hEdef
  have hEs : IsSEK K E := sek_isSEK (Gam0_isRot _)
  have h2 : PropReady K p { s with X := s.X * E } m f rest tp :=
    ⟨⟨h.shape.x.mul hEs, hK, h.shape.thr, h.shape.thc, h.shape.pr, h.shape.pc⟩, h.world, h.qr, h.qc, h.buf, h.prev, h.time⟩
  obtain ⟨bg', ba', w', a', hg', ha', ⟨hw', haa'⟩, e1⟩ := h.run
  rw [hg] at hg'; rw [ha] at ha'; cases hg'; cases ha'
  rw [← hr.1] at hw'; subst hw'
  rw [← hr.2] at haa'; subst haa'
  obtain ⟨bg', ba', w'', a'', hg', ha', ⟨hw', haa'⟩, e2⟩ := h2.run
  replace hg' : s.get_gyroscope_bias = some bg' := hg'
  replace ha' : s.get_accelerometer_bias = some ba' := ha'
  rw [hg] at hg'; rw [ha] at ha'; cases hg'; cases ha'
  rw [← hr.1] at hw'; subst hw'
  rw [← hr.2] at haa'; subst haa'
  obtain ⟨l1, l2, l3⟩ := lead_mul (f := phiLF K p.enableBias a'' (m.time - tp) (Gam0 ((m.time - tp) • w''))
    (Gam1 ((m.time - tp) • w'')) (Gam2 ((m.time - tp) • w''))
    (phi25 w'' a'' (m.time - tp) (Gam0 ((m.time - tp) • w''))ᵀ (Gam2 ((m.time - tp) • w''))ᵀ)
    (phi35 w'' a'' (m.time - tp) (Gam0 ((m.time - tp) • w''))ᵀ ((gamma_SO3 (-((m.time - tp) • w'')) 3).getD 0))) hξr hξc
  have hΦ := stateTransitionMatrix_eq (p := p) h.shape h.world w'' a'' (m.time - tp)
  unfold phiK at hΦ
  rw [he] at hΦ; dsimp only at hΦ
  refine ⟨E, _, _, _, _, _, _, hE, hΦ, exp_SEK3_eq l1 l2, e1, e2, ?_⟩
  dsimp only
  set dt := m.time - tp
  set Y := (ofBlk (K + 3) (K + 3) _).blockP 0 0 (3 * K + 3) (3 * K + 3) * ξ with hY
  set G0 := Gam0 (dt • w'') with hG0
  have hG : IsRot G0 := Gam0_isRot _
  set φ := ξ.blkV 0 0 with hφ
  have y0 : Y.blkV 0 0 = G0ᵀ.mulVec φ := by
    have := l3 0 (by omega)
    rw [phiL_lead hK (by omega), if_neg (by omega), if_neg (by omega)] at this
    exact this
  have yk : ∀ k < K, Y.blkV (3 + 3 * k) 0 = G0ᵀ.mulVec
      (if k = 0 then ξ.blkV 3 0 - dt • (skew ((Gam1 (dt • w'')).mulVec a'')).mulVec φ
      else if k = 1 then ξ.blkV 6 0 + dt • ξ.blkV 3 0 - dt ^ 2 • (skew ((Gam2 (dt • w'')).mulVec a'')).mulVec φ
      else ξ.blkV (3 + 3 * k) 0) := by
    intro k hk
    have := l3 (k + 1) (by omega)
    rw [phiL_lead hK (x := fun k => ξ.blkV (3 * k) 0) (by omega)] at this
    rw [show 3 * (k + 1) = 3 + 3 * k by ring] at this
    rw [hY, this]
    congr 1
    by_cases h0 : k = 0
    · subst h0; simp [hφ]
    · by_cases h1 : k = 1
      · subst h1; simp [hφ]
      · rw [if_neg (by omega), if_neg (by omega), if_neg h0, if_neg h1]
  have hX := h.shape.x.eq_mk
  have hEX : s.X * E = mkSE K (s.X.blk3 0 0 * Gam0 φ)
      fun k => (s.X.blk3 0 0).mulVec ((Gam1 φ).mulVec (ξ.blkV (3 + 3 * k) 0)) + s.X.blkV 0 (3 + k) := by
    conv_lhs => rw [hX, hEdef]
    rw [mkSE_mul]
  have hR0 : Gam0 (G0ᵀ.mulVec φ) = G0ᵀ * Gam0 φ * G0 := by
    rw [Gam0_rot hG.transpose, Matrix.transpose_transpose]
  have hR1 : ∀ x : V3, G0.mulVec ((Gam1 (G0ᵀ.mulVec φ)).mulVec (G0ᵀ.mulVec x)) = (Gam1 φ).mulVec x := by
    intro x
    rw [Gam1_rot hG.transpose, Matrix.transpose_transpose, Matrix.mulVec_mulVec, Matrix.mulVec_mulVec]
    congr 1
    calc G0 * (G0ᵀ * Gam1 φ * G0) * G0ᵀ = G0 * G0ᵀ * Gam1 φ * (G0 * G0ᵀ) := by simp only [Matrix.mul_assoc]
      _ = _ := by rw [hG.2.1, Matrix.one_mul, Matrix.mul_one]
  unfold meanK
  rw [mkSE_mul, hEX, mkSE_blk3, mkSE_blkV3 _ _ _ (by omega), mkSE_blkV4 _ _ _ (by omega), y0, hR0]
  refine mkSE_congr ?_ fun k hk => ?_
  · have e : G0 * (G0ᵀ * Gam0 φ * G0) = Gam0 φ * G0 := by
      rw [← Matrix.mul_assoc, ← Matrix.mul_assoc, hG.2.1, Matrix.one_mul]
    rw [Matrix.mul_assoc, Matrix.mul_assoc, e]
  rw [yk k hk, mkSE_blkV _ _ _ hk, ← hG0, ← Matrix.mulVec_mulVec _ (s.X.blk3 0 0) G0, hR1]
  have hc1 := Gam1_cross hx ((Gam1 (dt • w'')).mulVec a'')
  have hc2 := Gam1_cross hx ((Gam2 (dt • w'')).mulVec a'')
  by_cases h0 : k = 0
  · subst h0
    simp only [if_true]
    rw [Matrix.mulVec_sub, Matrix.mulVec_smul, hc1]
    simp only [Matrix.mulVec_sub, Matrix.mulVec_smul, ← Matrix.mulVec_mulVec]
    module
  · by_cases h1 : k = 1
    · subst h1
      simp only [if_neg one_ne_zero, if_true]
      rw [Matrix.mulVec_sub, Matrix.mulVec_smul, hc2]
      simp only [Matrix.mulVec_sub, Matrix.mulVec_add, Matrix.mulVec_smul, ← Matrix.mulVec_mulVec]
      module
    · simp only [if_neg h0, if_neg h1]

/-- the hypotheses are met, for both error types: initial state, error of 1 rad about z, 2 m/s, 3 m -/
example (et : ErrorType) : ∃ bg ba w a, PropReady 2 (exProp et true) { RobotState.init with tProp := some 0 } (exImu 1)
      (exImu 2) [] 0 ∧
    RobotState.init.get_gyroscope_bias = some bg ∧ RobotState.init.get_accelerometer_bias = some ba ∧
    RatesOf (exProp et true) (exImu 1) bg ba w a ∧
    ExactAt ((Mat.ofFn 9 1 fun i _ => if i = 2 then 1 else if i = 3 then 2 else if i = 6 then 3 else 0).blkV 0 0) := by
  have hR := exReady et true
  obtain ⟨bg, ba, w, a, h1, h2, h3, _⟩ := hR.run
  refine ⟨bg, ba, w, a, hR, h1, h2, h3, Or.inl ?_⟩
  have : ((Mat.ofFn 9 1 fun i _ => if i = 2 then 1 else if i = 3 then 2 else if i = 6 then 3 else 0).blkV 0 0)
      = ![0, 0, 1] := by
    ext i; rw [blkV_apply, ofFn_e_of_lt (by omega) (by omega)]
    fin_cases i <;> simp
  rw [this]; unfold norm3; simp; norm_num

end Drift
