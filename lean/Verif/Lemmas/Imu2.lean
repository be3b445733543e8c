import Verif.Lemmas.Imu

/-! Helper lemmas: closed form of the covariance prediction and of `Propagate`. -/
set_option linter.unusedSimpArgs false
set_option linter.unnecessarySeqFocus false
namespace Drift
open Mat Matrix Finset RobotState ImuProp Nat

/-! ### writing a PSD block into a zero diagonal block -/

/-- `n x 3` injection at row `r` -/
def inj (n r : ℕ) : Mat := ofFn n 3 fun i j => if i = r + j then 1 else 0

@[simp] theorem inj_rows (n r) : (inj n r).rows = n := rfl
@[simp] theorem inj_cols (n r) : (inj n r).cols = 3 := rfl
theorem inj_e {n r i j : ℕ} (h : r + 3 ≤ n) : (inj n r).e i j = if j < 3 ∧ i = r + j then 1 else 0 := by
  unfold inj
  rw [ofFn_e]
  by_cases hh : i < n ∧ j < 3
  · rw [if_pos hh]
    by_cases hi : i = r + j
    · rw [if_pos hi, if_pos ⟨hh.2, hi⟩]
    · rw [if_neg hi, if_neg (by omega)]
  · rw [if_neg hh, if_neg (by omega)]

theorem inj_conj_e {n r i j : ℕ} (M : M3) (h : r + 3 ≤ n) :
    (inj n r * of3 M * (inj n r).T).e i j =
      if h : (r ≤ i ∧ i < r + 3) ∧ (r ≤ j ∧ j < r + 3) then M ⟨i - r, by omega⟩ ⟨j - r, by omega⟩ else 0 := by
  simp only [mul_e, mul_cols, inj_cols, of3_cols, T_e, sum_range_succ, sum_range_zero, zero_add, inj_e h]
  by_cases hi : r ≤ i ∧ i < r + 3
  · by_cases hj : r ≤ j ∧ j < r + 3
    · rw [dif_pos ⟨hi, hj⟩]
      obtain ⟨a, rfl⟩ := Nat.exists_eq_add_of_le hi.1
      obtain ⟨b, rfl⟩ := Nat.exists_eq_add_of_le hj.1
      have ha : a < 3 := by omega
      have hb : b < 3 := by omega
      simp only [Nat.add_sub_cancel_left]
      rw [← of3_e M ha hb]
      interval_cases a <;> interval_cases b <;> simp
    · rw [dif_neg (by tauto)]
      have : ∀ k, k < 3 → ¬ (j = r + k) := by intro k hk hc; omega
      simp [this 0 (by omega), this 1 (by omega), this 2 (by omega),
        show ¬ (j = r) from by have := this 0 (by omega); simpa using this]
  · rw [dif_neg (by tauto)]
    have : ∀ k, k < 3 → ¬ (i = r + k) := by intro k hk hc; omega
    simp [this 0 (by omega), this 1 (by omega), this 2 (by omega),
      show ¬ (i = r) from by have := this 0 (by omega); simpa using this]

/-- Replacing a zero 3x3 diagonal block of a PSD matrix, in rows that are zero in those columns, by a PSD
block keeps it PSD. -/
theorem psd_put {A : Mat} {r : ℕ} {M : M3} (hA : PSD A) (hM : PSD (of3 M)) (hr : r + 3 ≤ A.rows)
    (hz : ∀ i j, (r ≤ i ∧ i < r + 3) → (r ≤ j ∧ j < r + 3) → A.e i j = 0) :
    PSD (A.setBlockP r r (of3 M)) := by
  have hsq := hA.sq
  have e : A.setBlockP r r (of3 M) = A + inj A.rows r * of3 M * (inj A.rows r).T := by
    refine ext' rfl rfl fun i j hi hj => ?_
    simp only [setBlockP_rows, setBlockP_cols] at hi hj
    rw [setBlockP_of3_e hr (by omega), add_e' (by simp) (by simp [hsq]), inj_conj_e M hr]
    by_cases h : (r ≤ i ∧ i < r + 3) ∧ (r ≤ j ∧ j < r + 3)
    · rw [dif_pos h, dif_pos h, hz i j h.1 h.2, zero_add]
    · rw [dif_neg h, dif_neg h, add_zero]
  rw [e]
  exact hA.add rfl (hM.congr rfl)

theorem put_eq {A : Mat} {r c : ℕ} {M : M3} (h1 : r + 3 ≤ A.rows) (h2 : c + 3 ≤ A.cols) :
    put A r c M = some (A.setBlockP r c (of3 M)) := setBlock?_eq (by simpa) (by simpa)

/-- the noise covariances configured in the propagation are valid -/
structure NoiseOK (p : ImuProp) : Prop where
  g : PSD (of3 p.gyroCov)
  a : PSD (of3 p.accelCov)
  bg : PSD (of3 p.gyroBiasCov)
  ba : PSD (of3 p.accelBiasCov)

/-- the continuous noise covariance used by the propagation -/
def qcK (K : ℕ) (p : ImuProp) (Q : Mat) : Mat :=
  let Q := (Q.setBlockP 0 0 (of3 p.gyroCov)).setBlockP 3 3 (of3 p.accelCov)
  if p.enableBias then
    (Q.setBlockP (3 * K + 3) (3 * K + 3) (of3 p.gyroBiasCov)).setBlockP (3 * K + 6) (3 * K + 6)
      (of3 p.accelBiasCov)
  else Q

@[simp] theorem qcK_rows (K p Q) : (qcK K p Q).rows = Q.rows := by unfold qcK; split_ifs <;> rfl
@[simp] theorem qcK_cols (K p Q) : (qcK K p Q).cols = Q.cols := by unfold qcK; split_ifs <;> rfl

theorem noiseQc_eq {K : ℕ} {p : ImuProp} {s : RobotState} (hs : Shape K s)
    (hr : s.Qc.rows = 3 * K + 9) (hc : s.Qc.cols = 3 * K + 9) :
    p.noiseQc s = some (qcK K p s.Qc) := by
  have hP := hs.pc; have hT := hs.thr
  unfold noiseQc qcK dimP dimTheta
  rw [hP, hT, if_neg (by omega)]
  simp only [show 3 * K + 9 - 6 = 3 * K + 3 by omega, Option.bind_eq_bind]
  rw [put_eq (by omega) (by omega), Option.bind_some, put_eq (by simp; omega) (by simp; omega), Option.bind_some]
  by_cases hb : p.enableBias = true
  · rw [if_pos hb, if_pos hb, put_eq (by simp; omega) (by simp; omega), Option.bind_some,
      put_eq (by simp; omega) (by simp; omega)]
  · rw [if_neg hb, if_neg hb]

theorem qcK_psd {K : ℕ} {p : ImuProp} {Q : Mat} (hK : 2 ≤ K) (hp : NoiseOK p) (hQ : QcOK K Q) : PSD (qcK K p Q) := by
  have hr := hQ.r
  have hc : Q.cols = 3 * K + 9 := by rw [← hQ.psd.sq, hr]
  have h1 : PSD (Q.setBlockP 0 0 (of3 p.gyroCov)) :=
    psd_put hQ.psd hp.g (by omega) fun i j hi _ => hQ.zero i j (by omega)
  have h2 : PSD ((Q.setBlockP 0 0 (of3 p.gyroCov)).setBlockP 3 3 (of3 p.accelCov)) := by
    refine psd_put h1 hp.a (by simp; omega) fun i j hi hj => ?_
    rw [setBlockP_of3_e (by omega) (by omega), dif_neg (by omega)]
    exact hQ.zero i j (by omega)
  unfold qcK
  dsimp only
  split_ifs
  · have h3 : PSD (((Q.setBlockP 0 0 (of3 p.gyroCov)).setBlockP 3 3 (of3 p.accelCov)).setBlockP
        (3 * K + 3) (3 * K + 3) (of3 p.gyroBiasCov)) := by
      refine psd_put h2 hp.bg (by simp; omega) fun i j hi hj => ?_
      rw [setBlockP_of3_e (by simp; omega) (by simp; omega), dif_neg (by omega),
        setBlockP_of3_e (by simp; omega) (by simp; omega), dif_neg (by omega)]
      exact hQ.zero i j (by omega)
    refine psd_put h3 hp.ba (by simp; omega) fun i j hi hj => ?_
    rw [setBlockP_of3_e (by simp; omega) (by simp; omega), dif_neg (by omega),
      setBlockP_of3_e (by simp; omega) (by simp; omega), dif_neg (by omega),
      setBlockP_of3_e (by simp; omega) (by simp; omega), dif_neg (by omega)]
    exact hQ.zero i j (by omega)
  · exact h2

/-! ### closed forms -/

/-- blocks of the transition matrix -/
noncomputable def phiK (K : ℕ) (p : ImuProp) (w a : V3) (dt : ℝ) (X : Mat) : Mat :=
  let G0 := Gam0 (dt • w)
  let G1 := Gam1 (dt • w)
  let G2 := Gam2 (dt • w)
  let p25 := phi25 w a dt G0ᵀ G2ᵀ
  let p35 := phi35 w a dt G0ᵀ ((gamma_SO3 (-(dt • w)) 3).getD 0)
  match p.errorType with
  | .leftInvariant => ofBlk (K + 3) (K + 3) (phiLF K p.enableBias a dt G0 G1 G2 p25 p35)
  | .rightInvariant => ofBlk (K + 3) (K + 3) (phiRF K p.enableBias a dt G0 G1 G2 p25 p35 X)

@[simp] theorem phiK_rows (K p w a dt X) : (phiK K p w a dt X).rows = 3 * K + 9 := by
  unfold phiK; cases p.errorType <;> simp <;> ring
@[simp] theorem phiK_cols (K p w a dt X) : (phiK K p w a dt X).cols = 3 * K + 9 := by
  unfold phiK; cases p.errorType <;> simp <;> ring

theorem gamma3_some (w : V3) : ∃ G, gamma_SO3 w 3 = some G := by
  by_cases h : norm3 w < TOLERANCE
  · refine ⟨(1.0 / ((3 ! : ℕ) : ℝ)) • (1 : M3), ?_⟩
    unfold gamma_SO3
    rw [if_neg (by omega)]
    simp only [h, if_true]
    rw [show (3 : ℤ) = ((3 : ℕ) : ℤ) from rfl, factorial?_eq 3 (by omega)]
    simp
  · exact ⟨_, gamma_SO3_closed h 3 (by omega)⟩

theorem stateTransitionMatrix_eq {K : ℕ} {p : ImuProp} {s : RobotState} (hs : Shape K s)
    (hw : s.stateType = .worldCentric) (w a : V3) (dt : ℝ) :
    p.stateTransitionMatrix w a dt s = some (phiK K p w a dt s.X) := by
  have hr := hs.x.rows; have hc := hs.x.cols; have hK := hs.k
  unfold stateTransitionMatrix phiK
  obtain ⟨G3, h3⟩ := gamma3_some (-(dt • w))
  simp only [gamma_SO3_zero, gamma_SO3_one, gamma_SO3_two, h3, Option.bind_eq_bind, Option.bind_some, hw,
    Option.getD_some]
  have d1 : s.dimX = 3 + K := hc
  have d2 : s.dimTheta = 6 := hs.thr
  have d3 : s.dimP = 3 * K + 9 := hs.pc
  rw [d1, d2, d3]
  cases he : p.errorType
  · rw [if_pos (by simp), phiLeft_eq hK]
  · rw [if_neg (by simp), phiRight_eq hs]

/-- the noise matrix `G` -/
noncomputable def gK (K : ℕ) (p : ImuProp) (X : Mat) : Mat :=
  match p.errorType with
  | .leftInvariant => one (3 * K + 9)
  | .rightInvariant => EA K X

@[simp] theorem gK_rows (K p X) : (gK K p X).rows = 3 * K + 9 := by
  unfold gK; cases p.errorType <;> simp
@[simp] theorem gK_cols (K p X) : (gK K p X).cols = 3 * K + 9 := by
  unfold gK; cases p.errorType <;> simp

theorem noiseG_eq {K : ℕ} {p : ImuProp} {s : RobotState} (hs : Shape K s)
    (hw : s.stateType = .worldCentric) : p.noiseG s = some (gK K p s.X) := by
  have d2 : s.dimTheta = 6 := hs.thr
  have d3 : s.dimP = 3 * K + 9 := hs.pc
  unfold noiseG gK get_world_X
  rw [d2, d3, if_neg (by omega), hw]
  cases he : p.errorType
  · rw [if_neg (by simp)]
  · rw [if_pos (by simp)]
    simp only [adjoint_AdM hs.x.rows hs.x.cols, Option.bind_eq_bind, Option.bind_some]
    unfold assign?
    rw [if_pos (by simp; omega), setBlock?_eq (by simp; omega) (by simp; omega)]
    rfl

/-- decoupling of the biases when they are not estimated -/
noncomputable def fin (K : ℕ) (en : Bool) (P : Mat) : Mat := if en then P else mask (· < 3 * K + 3) 1 P

@[simp] theorem fin_rows (K en P) : (fin K en P).rows = P.rows := by unfold fin; split_ifs <;> rfl
@[simp] theorem fin_cols (K en P) : (fin K en P).cols = P.cols := by unfold fin; split_ifs <;> rfl

theorem fin_psd {K en P} (h : PSD P) : PSD (fin K en P) := by
  unfold fin; split_ifs
  · exact h
  · exact mask_psd h (by norm_num)

/-- closed form of the predicted covariance before decoupling -/
noncomputable def covK (K : ℕ) (p : ImuProp) (w a : V3) (dt : ℝ) (X P Q : Mat) : Mat :=
  let Phi := phiK K p w a dt X
  let PhiG := Phi * gK K p X
  Phi * P * Phi.T + dt • (PhiG * qcK K p Q * PhiG.T)

@[simp] theorem covK_rows (K p w a dt X P Q) : (covK K p w a dt X P Q).rows = 3 * K + 9 := by
  unfold covK; simp
@[simp] theorem covK_cols (K p w a dt X P Q) : (covK K p w a dt X P Q).cols = 3 * K + 9 := by
  unfold covK; simp

theorem decouple_eq {P : Mat} {K : ℕ} (hr : P.rows = 3 * K + 9) (hc : P.cols = 3 * K + 9) :
    ((P.setBlock? 0 (3 * K + 3) (zero (3 * K + 3) 6)).bind fun P =>
      (P.setBlock? (3 * K + 3) 0 (zero 6 (3 * K + 3))).bind fun P =>
        P.setBlock? (3 * K + 3) (3 * K + 3) (one 6)) = some (mask (· < 3 * K + 3) 1 P) := by
  rw [setBlock?_eq (by simp; omega) (by simp; omega), Option.bind_some,
    setBlock?_eq (by simp; omega) (by simp; omega), Option.bind_some,
    setBlock?_eq (by simp; omega) (by simp; omega)]
  congr 1
  refine ext' (by simp) (by simp) fun i j hi hj => ?_
  simp only [setBlockP_rows, setBlockP_cols] at hi hj
  rw [mask_e hi hj, setBlockP_e_in (by simp; omega) (by simp; omega)]
  by_cases h1 : i < 3 * K + 3 <;> by_cases h2 : j < 3 * K + 3
  · rw [if_neg (by simp; omega), setBlockP_e_in (by simp; omega) (by simp; omega),
      if_neg (by simp; omega), setBlockP_e_in (by simp; omega) (by simp; omega), if_neg (by simp; omega),
      if_pos ⟨h1, h2⟩]
  · rw [if_neg (by simp; omega), setBlockP_e_in (by simp; omega) (by simp; omega),
      if_neg (by simp; omega), setBlockP_e_in (by simp; omega) (by simp; omega), if_pos (by simp; omega),
      if_neg (by omega), if_neg (by omega)]; simp
  · rw [if_neg (by simp; omega), setBlockP_e_in (by simp; omega) (by simp; omega),
      if_pos (by simp; omega), if_neg (by omega), if_neg (by omega)]; simp
  · rw [if_pos (by simp; omega), if_neg (by omega), one_e]
    by_cases hij : i = j
    · rw [if_pos (by omega), if_pos hij]
    · rw [if_neg (by omega), if_neg hij]

theorem predictCov_eq {K : ℕ} {p : ImuProp} {s : RobotState} (hs : Shape K s)
    (hw : s.stateType = .worldCentric) (hr : s.Qc.rows = 3 * K + 9) (hc : s.Qc.cols = 3 * K + 9)
    (w a : V3) (dt : ℝ) :
    p.predictCov w a dt s = some (fin K p.enableBias (covK K p w a dt s.X s.P s.Qc)) := by
  have d2 : s.dimTheta = 6 := hs.thr
  have d3 : s.dimP = 3 * K + 9 := hs.pc
  have hpr := hs.pr; have hpc := hs.pc
  unfold predictCov discreteNoiseMatrix
  simp only [stateTransitionMatrix_eq hs hw, noiseG_eq hs hw, noiseQc_eq hs hr hc, Option.bind_eq_bind,
    Option.bind_some]
  rw [mul?_eq (by simp), Option.bind_some, mul?_eq (by simp [hr]), Option.bind_some, mul?_eq (by simp [hc]),
    Option.bind_some, Option.bind_some, mul?_eq (by simp [hpr]), Option.bind_some, mul?_eq (by simp [hpc]), Option.bind_some,
    add?_eq (by simp) (by simp), Option.bind_some, d2, d3]
  unfold fin
  by_cases hb : p.enableBias = true
  · rw [if_pos hb, if_pos hb]; rfl
  · rw [if_neg hb, if_neg hb, if_neg (by omega), show 3 * K + 9 - 6 = 3 * K + 3 by omega, decouple_eq (by simp) (by simp)]
    rfl

/-- Closed form of `Propagate` on a well-formed world-centric state with a non-empty queue. -/
theorem propagate_eq {K : ℕ} {p : ImuProp} {s : RobotState} (hs : Shape K s)
    (hw : s.stateType = .worldCentric) (hr : s.Qc.rows = 3 * K + 9) (hc : s.Qc.cols = 3 * K + 9)
    {m f : ImuMeas} {rest : List ImuMeas} {tp : ℝ} (hb : p.buffer = f :: rest) (hm : p.prev = some m)
    (ht : s.tProp = some tp) :
    let w := (p.bodyRates m (s.Theta.blkV 0 0) (s.Theta.blkV 3 0)).1
    let a := (p.bodyRates m (s.Theta.blkV 0 0) (s.Theta.blkV 3 0)).2
    p.propagate s = some (true, { p with prev := some f, buffer := rest },
      { s with
        t := some m.time
        tProp := some m.time
        X := meanK K w a (m.time - tp) s.X
        P := fin K p.enableBias (covK K p w a (m.time - tp) s.X s.P s.Qc) }) := by
  have hT := hs.thr; have hTc := hs.thc
  intro w a
  unfold propagate
  rw [hb]
  simp only [hm, ht, Option.bind_eq_bind, Option.bind_some]
  unfold get_gyroscope_bias get_accelerometer_bias
  rw [blkV?_eq (by simp [hT]) (by simp [hTc]), Option.bind_some, blkV?_eq (by simp [hT]) (by simp [hTc]),
    Option.bind_some]
  set s' : RobotState := { s with t := some m.time, tProp := some m.time } with hs'
  have hS : Shape K s' := ⟨hs.x, hs.k, hs.thr, hs.thc, hs.pr, hs.pc⟩
  have hx : s'.get_Xinv = some (invSE K s'.X) := get_Xinv_invSE hS.x
  rw [hx, Option.bind_some]
  change ((p.predictCov w a (m.time - tp) s').bind fun P => (predictMean w a (m.time - tp) s').bind fun X => _) = _
  rw [predictCov_eq hS hw hr hc, Option.bind_some, predictMean_eq hS hw, Option.bind_some]

end Drift
