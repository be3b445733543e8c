import Verif.Lemmas.Adj
import Verif.Model.Inekf

/-! Helper lemmas: closed forms of the two corrections. -/
set_option linter.unusedSimpArgs false
set_option linter.unnecessarySeqFocus false
namespace Drift
open Mat Matrix Finset

theorem removeBias_eq {P : Mat} {K : ℕ} (hr : P.rows = 3 * K + 9) (hc : P.cols = 3 * K + 9) :
    removeBias P (3 * K + 9) 6 = some (mask (· < 3 * K + 3) 0.0001 P) := by
  unfold removeBias
  rw [if_neg (by omega)]
  simp only [show 3 * K + 9 - 6 = 3 * K + 3 by omega, Option.bind_eq_bind]
  rw [setBlock?_eq (by simp; omega) (by simp; omega), Option.bind_some,
    setBlock?_eq (by simp; omega) (by simp; omega), Option.bind_some,
    setBlock?_eq (by simp; omega) (by simp; omega)]
  congr 1
  refine ext' (by simp) (by simp) fun i j hi hj => ?_
  simp only [setBlockP_rows, setBlockP_cols] at hi hj
  rw [mask_e hi hj, setBlockP_e_in (by simp; omega) (by simp; omega)]
  by_cases h1 : i < 3 * K + 3 <;> by_cases h2 : j < 3 * K + 3
  · rw [if_neg (by simp; omega), setBlockP_e_in (by simp; omega) (by simp; omega),
      if_neg (by simp; omega), setBlockP_e_in (by simp; omega) (by simp; omega), if_neg (by simp; omega),
      if_pos ⟨h1, h2⟩]
  · rw [if_neg (by simp; omega), setBlockP_e_in (by simp; omega) (by simp; omega),
      if_pos (by simp; omega), if_neg (by omega), if_neg (by omega)]; simp
  · rw [if_pos (by simp; omega), if_neg (by omega), if_neg (by omega)]; simp
  · rw [if_neg (by simp; omega), setBlockP_e_in (by simp; omega) (by simp; omega),
      if_neg (by simp; omega), setBlockP_e_in (by simp; omega) (by simp; omega), if_pos (by simp; omega),
      if_neg (by omega), smul_e, one_e]
    by_cases hij : i = j
    · rw [if_pos (by omega), if_pos hij, mul_one]
    · rw [if_neg (by omega), if_neg hij, mul_zero]

theorem mapCov_eq {X P : Mat} {K : ℕ} (hXr : X.rows = 3 + K) (hXc : X.cols = 3 + K)
    (hr : P.rows = 3 * K + 9) :
    mapCov X P (3 * K + 9) 6 =
      if P.cols = 3 * K + 9 then some (EA K X * P * (EA K X).T) else none := by
  unfold mapCov
  rw [if_neg (by omega)]
  simp only [adjoint_AdM hXr hXc, Option.bind_eq_bind, Option.bind_some]
  unfold assign?
  rw [if_pos (by simp; omega), setBlock?_eq (by simp; omega) (by simp; omega), Option.bind_some]
  change ((EA K X).mul? P).bind (fun AP => AP.mul? (EA K X).T) = _
  rw [mul?_eq (by simp [hr]), Option.bind_some]
  unfold mul?
  by_cases h : P.cols = 3 * K + 9
  · rw [if_pos (by simpa using h), if_pos h]
  · rw [if_neg (by simpa using h), if_neg h]

theorem resetYaw_eq {P : Mat} {i : ℕ} (hr : i < P.rows) (hc : i < P.cols) :
    resetYaw P i = some (mask (· ≠ i) 0.0001 P) := by
  unfold resetYaw
  simp only [Option.bind_eq_bind]
  rw [setBlock?_eq (by simp; omega) (by simp), Option.bind_some,
    setBlock?_eq (by simp) (by simp; omega), Option.bind_some]
  unfold set?
  rw [if_pos (by simp; omega)]
  congr 1
  refine ext' (by simp) (by simp) fun a b ha hb => ?_
  simp only [setBlockP_rows, setBlockP_cols, setP_rows, setP_cols] at ha hb
  rw [mask_e ha hb, setP_e, if_pos (by simp; omega)]
  by_cases h1 : a = i <;> by_cases h2 : b = i
  · rw [if_pos ⟨h1, h2⟩, if_neg (by simp [h1]), if_pos (by omega), mul_one]
  · rw [if_neg (by simp [h2]), if_neg (by simp [h1]), if_neg (by omega),
      setBlockP_e_in (by simp) (by simp; omega), if_neg (by simp; omega),
      setBlockP_e_in (by simp; omega) (by simp), if_pos (by simp; omega)]; simp
  · rw [if_neg (by simp [h1]), if_neg (by simp [h2]), if_neg (by omega),
      setBlockP_e_in (by simp) (by simp; omega), if_pos (by simp; omega)]; simp
  · rw [if_neg (by simp [h1]), if_pos ⟨h1, h2⟩, 
      setBlockP_e_in (by simp) (by simp; omega), if_neg (by simp; omega),
      setBlockP_e_in (by simp; omega) (by simp), if_neg (by simp; omega)]

/-- innovation covariance -/
noncomputable def innov (P H N : Mat) : Mat := H * (P * H.T) + N
/-- gain for a given inverse `W` of the innovation covariance -/
noncomputable def gain (P H W : Mat) : Mat := P * H.T * W
/-- Joseph form -/
noncomputable def joseph (P H N G : Mat) : Mat :=
  (one P.rows - G * H) * P * (one P.rows - G * H).T + G * N * G.T

@[simp] theorem innov_rows (P H N) : (innov P H N).rows = H.rows := rfl
@[simp] theorem innov_cols (P H N) : (innov P H N).cols = H.rows := rfl
@[simp] theorem gain_rows (P H W) : (gain P H W).rows = P.rows := rfl
@[simp] theorem gain_cols (P H W) : (gain P H W).cols = W.cols := rfl
@[simp] theorem joseph_rows (P H N G) : (joseph P H N G).rows = P.rows := rfl
@[simp] theorem joseph_cols (P H N G) : (joseph P H N G).cols = P.rows := rfl

/-- the gain is defined exactly when the sizes fit and the innovation covariance is invertible -/
theorem kalmanGain_iff {P H N G : Mat} (hP : P.rows = P.cols) :
    kalmanGain P H N = some G ↔
      H.cols = P.rows ∧ N.rows = H.rows ∧ N.cols = H.rows ∧
        ∃ W, (innov P H N).inv? = some W ∧ G = gain P H W := by
  unfold kalmanGain
  constructor
  · intro h
    simp only [Option.bind_eq_bind, Option.bind_eq_some_iff] at h
    obtain ⟨PHT, h1, HP, h2, S, h3, W, h4, h5⟩ := h
    unfold mul? at h1 h2 h5
    unfold add? at h3
    split_ifs at h1 with c1
    cases h1
    split_ifs at h2 with c2
    cases h2
    split_ifs at h3 with c3
    cases h3
    split_ifs at h5 with c5
    cases h5
    simp only [T_rows, mul_rows, mul_cols, T_cols] at c1 c2 c3
    exact ⟨c2, c3.1.symm, c3.2.symm, W, h4, rfl⟩
  · rintro ⟨h1, h2, h3, W, h4, rfl⟩
    obtain ⟨_, w1, w2, _, _⟩ := inv?_spec h4
    simp only [innov_rows] at w1 w2
    rw [mul?_eq (by simp [h1, hP])]
    simp only [Option.bind_eq_bind, Option.bind_some]
    rw [mul?_eq (by simp [h1]), Option.bind_some, add?_eq (by simp [h2]) (by simp [h3]), Option.bind_some]
    change ((innov P H N).inv?).bind _ = _
    rw [h4, Option.bind_some, mul?_eq (by simp [w1])]
    rfl

theorem josephUpdate_eq {P H N G : Mat} {n : ℕ} (hPr : P.rows = n) (hPc : P.cols = n)
    (hG : G.rows = n) (hGc : G.cols = H.rows) (hH : H.cols = n) (hNr : N.rows = H.rows)
    (hNc : N.cols = H.rows) : josephUpdate P H N G n = some (joseph P H N G) := by
  unfold josephUpdate
  rw [mul?_eq (by simp [hGc])]
  simp only [Option.bind_eq_bind, Option.bind_some]
  rw [sub?_eq (by simp [hG]) (by simp [hH]), Option.bind_some, mul?_eq (by simp [hPr]), Option.bind_some,
    mul?_eq (by simp [hPc]), Option.bind_some, mul?_eq (by simp [hGc, hNr]), Option.bind_some,
    mul?_eq (by simp [hNc, hGc]), Option.bind_some, add?_eq (by simp [hG]) (by simp [hG])]
  unfold joseph
  rw [hPr]

/-- `Exp_SEK3` of the leading `3+3K` coordinates -/
noncomputable def expK (K : ℕ) (d : Mat) : Mat :=
  mkSE K (Gam0 (d.blkV 0 0)) (fun k => (Gam1 (d.blkV 0 0)).mulVec (d.blkV (3 + 3 * k) 0))

theorem expK_isSEK (K d) : IsSEK K (expK K d) := sek_isSEK (Gam0_isRot _)
@[simp] theorem expK_rows (K d) : (expK K d).rows = 3 + K := rfl
@[simp] theorem expK_cols (K d) : (expK K d).cols = 3 + K := rfl

theorem expK_congr {K : ℕ} {d e : Mat} (h : ∀ i, i < 3 * K + 3 → d.e i 0 = e.e i 0) :
    expK K d = expK K e := by
  have h0 : d.blkV 0 0 = e.blkV 0 0 := by
    ext i; have := i.2; exact h _ (by omega)
  unfold expK
  rw [h0]
  refine mkSE_congr rfl fun k hk => ?_
  congr 1
  ext i; have := i.2; exact h _ (by omega)

theorem increments_iff {G Z : Mat} {K : ℕ} {r : Mat × Mat} (hG : G.rows = 3 * K + 9) :
    increments G Z 6 = some r ↔ G.cols = Z.rows ∧ Z.cols = 1 ∧
      r = (expK K (G * Z), (G * Z).blockP (3 * K + 3) 0 6 1) := by
  unfold increments
  have key : ∀ (hd : G.cols = Z.rows) (hz : Z.cols = 1), 
      exp_SEK3 ((G * Z).blockP 0 0 (3 * K + 3) 1) = some (expK K (G * Z)) := by
    intro hd hz
    rw [exp_SEK3_eq (K := K) (by simp; ring) (by simp)]
    congr 1
    refine expK_congr (K := K) (d := (G * Z).blockP 0 0 (3 * K + 3) 1) fun i hi => ?_
    rw [blockP_e, if_pos (by omega)]; simp
  constructor
  · intro h
    simp only [Option.bind_eq_bind, Option.bind_eq_some_iff] at h
    obtain ⟨d, h1, h⟩ := h
    unfold mul? at h1
    split_ifs at h1 with c1
    cases h1
    by_cases hz : Z.cols = 1
    · rw [if_neg (by simp [hz, hG])] at h
      simp only [Option.bind_eq_some_iff, mul_rows, hG, show 3 * K + 9 - 6 = 3 * K + 3 by omega] at h
      obtain ⟨hd, e1, dX, e2, dT, e3, e4⟩ := h
      rw [block?_eq (by simp [hG]) (by simp [hz])] at e1
      rw [block?_eq (by simp [hG]) (by simp [hz])] at e3
      cases e1; cases e3
      rw [key c1 hz] at e2
      cases e2; cases e4
      exact ⟨c1, hz, rfl⟩
    · rw [if_pos (by simp [hz])] at h; simp at h
  · rintro ⟨h1, hz, rfl⟩
    rw [mul?_eq h1]
    simp only [Option.bind_eq_bind, Option.bind_some]
    rw [if_neg (by simp [hz, hG])]
    simp only [mul_rows, hG, show 3 * K + 9 - 6 = 3 * K + 3 by omega]
    rw [block?_eq (by simp [hG]) (by simp [hz]), Option.bind_some, key h1 hz, Option.bind_some,
      block?_eq (by simp [hG]) (by simp [hz])]
    rfl

/-- covariance after the optional removal of the bias -/
noncomputable def prior0 (K : ℕ) (s : RobotState) : Mat :=
  if s.enableBias then s.P else mask (· < 3 * K + 3) 0.0001 s.P

/-- right-invariant prior covariance used by `CorrectRightInvariant` -/
noncomputable def priorR (K : ℕ) (s : RobotState) (et : ErrorType) : Mat :=
  if et = .leftInvariant then EA K s.X * prior0 K s * (EA K s.X).T else prior0 K s

/-- prior covariance used by `CorrectLeftInvariant` -/
noncomputable def priorL (K : ℕ) (s : RobotState) (et : ErrorType) : Mat :=
  if et = .leftInvariant then EA K (invSE K s.X) * prior0 K s * (EA K (invSE K s.X)).T else prior0 K s

theorem prior0_rows {K s} (h : Shape K s) : (prior0 K s).rows = 3 * K + 9 := by
  unfold prior0; split_ifs <;> simp [h.pr]
theorem prior0_cols {K s} (h : Shape K s) : (prior0 K s).cols = 3 * K + 9 := by
  unfold prior0; split_ifs <;> simp [h.pc]
theorem priorR_rows {K s et} (h : Shape K s) : (priorR K s et).rows = 3 * K + 9 := by
  unfold priorR; split_ifs <;> simp [prior0_rows h]
theorem priorR_cols {K s et} (h : Shape K s) : (priorR K s et).cols = 3 * K + 9 := by
  unfold priorR; split_ifs <;> simp [prior0_cols h]
theorem priorL_rows {K s et} (h : Shape K s) : (priorL K s et).rows = 3 * K + 9 := by
  unfold priorL; split_ifs <;> simp [prior0_rows h]
theorem priorL_cols {K s et} (h : Shape K s) : (priorL K s et).cols = 3 * K + 9 := by
  unfold priorL; split_ifs <;> simp [prior0_cols h]

/-- closed form of the result of `CorrectRightInvariant` for the inverse `W` -/
noncomputable def corrR (K : ℕ) (Z H N W : Mat) (s : RobotState) (et : ErrorType) : RobotState :=
  let P := priorR K s et
  let G := gain P H W
  let X' := expK K (G * Z) * s.X
  let P' := mask (· ≠ 3 * K + 5) 0.0001 (joseph P H N G)
  { s with
    X := X'
    Theta := s.Theta + ((G * Z).blockP (3 * K + 3) 0 6 1).setP 2 0 0
    P := if et = .leftInvariant then EA K (invSE K X') * P' * (EA K (invSE K X')).T else P' }

/-- closed form of the result of `CorrectLeftInvariant` for the inverse `W` -/
noncomputable def corrL (K : ℕ) (Z H N W : Mat) (s : RobotState) (et : ErrorType) : RobotState :=
  let P := priorL K s et
  let G := gain P H W
  let X' := s.X * expK K (G * Z)
  let P' := joseph P H N G
  { s with
    X := X'
    Theta := s.Theta + (G * Z).blockP (3 * K + 3) 0 6 1
    P := if et = .rightInvariant then EA K X' * P' * (EA K X').T else P' }

theorem correctRight_iff {K : ℕ} {s s' : RobotState} (h : Shape K s) {Z H N : Mat} {et : ErrorType} :
    correctRightInvariant Z H N s et = some s' ↔ ObsSizes (3 * K + 9) Z H N ∧
      ∃ W, (innov (priorR K s et) H N).inv? = some W ∧ s' = corrR K Z H N W s et := by
  have hx := h.x
  have hp1 : (if s.enableBias = true then some s.P else removeBias s.P s.dimP s.dimTheta)
      = some (prior0 K s) := by
    unfold prior0 RobotState.dimP RobotState.dimTheta
    rw [h.pc, h.thr]
    split_ifs
    · rfl
    · exact removeBias_eq h.pr h.pc
  have hp2 : (if et = .leftInvariant then mapCov s.X (prior0 K s) s.dimP s.dimTheta
      else some (prior0 K s)) = some (priorR K s et) := by
    unfold priorR RobotState.dimP RobotState.dimTheta
    rw [h.pc, h.thr]
    split_ifs
    · rw [mapCov_eq hx.rows hx.cols (prior0_rows h), if_pos (prior0_cols h)]
    · rfl
  have hPr := priorR_rows (et := et) h
  have hPc := priorR_cols (et := et) h
  have hXs : s.X.rows = 3 + K := hx.rows
  -- the part after the gain
  have hrest : ∀ (W : Mat), W.cols = H.rows → ObsSizes (3 * K + 9) Z H N →
      ((increments (gain (priorR K s et) H W) Z s.dimTheta).bind fun x =>
        (x.1.mul? s.X).bind fun X_new =>
        (x.2.set? 2 0 0).bind fun dTheta =>
        (s.Theta.add? dTheta).bind fun Theta_new =>
        (josephUpdate (priorR K s et) H N (gain (priorR K s et) H W) s.dimP).bind fun P_new =>
        (resetYaw P_new (s.dimP - s.dimTheta + 2)).bind fun P_new =>
        (if et = .leftInvariant then
            ({ s with X := X_new, Theta := Theta_new } : RobotState).get_Xinv.bind fun Xinv =>
              mapCov Xinv P_new s.dimP s.dimTheta
          else some P_new).bind fun P_new =>
        some ({ s with X := X_new, Theta := Theta_new, P := P_new } : RobotState))
      = some (corrR K Z H N W s et) := by
    intro W hW ho
    have hdT : s.dimTheta = 6 := h.thr
    have hdP : s.dimP = 3 * K + 9 := h.pc
    rw [hdT, hdP, (increments_iff (K := K) (r := _) (by simp [hPr])).mpr
      ⟨by simp [hW, ho.zr], ho.zc, rfl⟩, Option.bind_some]
    dsimp only
    rw [mul?_eq (by simp [hXs]), Option.bind_some]
    unfold set?
    rw [if_pos (by simp), Option.bind_some, add?_eq (by simp [h.thr]) (by simp [h.thc]), Option.bind_some,
      josephUpdate_eq hPr hPc (by simp [hPr]) (by simp [hW]) ho.hc ho.nr ho.nc, Option.bind_some,
      show 3 * K + 9 - 6 + 2 = 3 * K + 5 by omega, resetYaw_eq (by simp [hPr]) (by simp [hPr]),
      Option.bind_some]
    by_cases hl : et = .leftInvariant
    · have hX' : IsSEK K (expK K (gain (priorR K s et) H W * Z) * s.X) := (expK_isSEK _ _).mul hx
      have hXi := get_Xinv_invSE (s := { s with
        X := expK K (gain (priorR K s et) H W * Z) * s.X
        Theta := s.Theta + ((gain (priorR K s et) H W * Z).blockP (3 * K + 3) 0 6 1).setP 2 0 0 }) hX'
      rw [if_pos hl, hXi, Option.bind_some, mapCov_eq rfl rfl (by simp [hPr]), if_pos (by simp [hPr]),
        Option.bind_some]
      unfold corrR
      simp only [hl, if_true]
    · rw [if_neg hl, Option.bind_some]
      unfold corrR
      simp only [hl, if_false]
  unfold correctRightInvariant
  simp only [hp1, hp2, Option.bind_eq_bind, Option.bind_some]
  constructor
  · intro hh
    rw [Option.bind_eq_some_iff] at hh
    obtain ⟨G, hG, hh⟩ := hh
    obtain ⟨g1, g2, g3, W, hW, rfl⟩ := (kalmanGain_iff (by rw [hPr, hPc])).mp hG
    obtain ⟨_, w1, w2, _, _⟩ := inv?_spec hW
    simp only [innov_rows] at w1 w2
    have hz : Z.rows = H.rows ∧ Z.cols = 1 := by
      rw [Option.bind_eq_some_iff] at hh
      obtain ⟨r, hr, _⟩ := hh
      rw [show s.dimTheta = 6 from h.thr] at hr
      obtain ⟨z1, z2, _⟩ := (increments_iff (K := K) (by simp [hPr])).mp hr
      simp only [gain_cols] at z1
      exact ⟨by omega, z2⟩
    have ho : ObsSizes (3 * K + 9) Z H N := ⟨by omega, g2, g3, hz.1, hz.2⟩
    refine ⟨ho, W, hW, ?_⟩
    have := hrest W w2 ho
    exact Option.some.inj (hh.symm.trans this)
  · rintro ⟨ho, W, hW, rfl⟩
    obtain ⟨_, w1, w2, _, _⟩ := inv?_spec hW
    simp only [innov_rows] at w1 w2
    rw [(kalmanGain_iff (by rw [hPr, hPc])).mpr ⟨by rw [ho.hc, hPr], ho.nr, ho.nc, W, hW, rfl⟩, Option.bind_some]
    exact hrest W w2 ho

theorem correctLeft_iff {K : ℕ} {s s' : RobotState} (h : Shape K s) {Z H N : Mat} {et : ErrorType} :
    correctLeftInvariant Z H N s et = some s' ↔ ObsSizes (3 * K + 9) Z H N ∧
      ∃ W, (innov (priorL K s et) H N).inv? = some W ∧ s' = corrL K Z H N W s et := by
  have hx := h.x
  have hp1 : (if s.enableBias = true then some s.P else removeBias s.P s.dimP s.dimTheta)
      = some (prior0 K s) := by
    unfold prior0 RobotState.dimP RobotState.dimTheta
    rw [h.pc, h.thr]
    split_ifs
    · rfl
    · exact removeBias_eq h.pr h.pc
  have hp2 : (if et = .leftInvariant then s.get_Xinv.bind fun Xinv =>
      mapCov Xinv (prior0 K s) s.dimP s.dimTheta
      else some (prior0 K s)) = some (priorL K s et) := by
    unfold priorL RobotState.dimP RobotState.dimTheta
    rw [h.pc, h.thr]
    split_ifs
    · rw [get_Xinv_invSE hx, Option.bind_some, mapCov_eq rfl rfl (prior0_rows h), if_pos (prior0_cols h)]
    · rfl
  have hPr := priorL_rows (et := et) h
  have hPc := priorL_cols (et := et) h
  have hXs : s.X.rows = 3 + K := hx.rows
  have hXcs : s.X.cols = 3 + K := hx.cols
  have hrest : ∀ (W : Mat), W.cols = H.rows → ObsSizes (3 * K + 9) Z H N →
      ((increments (gain (priorL K s et) H W) Z s.dimTheta).bind fun x =>
        (s.X.mul? x.1).bind fun X_new =>
        (s.Theta.add? x.2).bind fun Theta_new =>
        (josephUpdate (priorL K s et) H N (gain (priorL K s et) H W) s.dimP).bind fun P_new =>
        (if et = .rightInvariant then mapCov X_new P_new s.dimP s.dimTheta
          else some P_new).bind fun P_new =>
        some ({ s with X := X_new, Theta := Theta_new, P := P_new } : RobotState))
      = some (corrL K Z H N W s et) := by
    intro W hW ho
    have hdT : s.dimTheta = 6 := h.thr
    have hdP : s.dimP = 3 * K + 9 := h.pc
    rw [hdT, hdP, (increments_iff (K := K) (r := _) (by simp [hPr])).mpr
      ⟨by simp [hW, ho.zr], ho.zc, rfl⟩, Option.bind_some]
    dsimp only
    rw [mul?_eq (by simp [hXcs]), Option.bind_some]
    rw [add?_eq (by simp [h.thr]) (by simp [h.thc]), Option.bind_some,
      josephUpdate_eq hPr hPc (by simp [hPr]) (by simp [hW]) ho.hc ho.nr ho.nc, Option.bind_some]
    by_cases hl : et = .rightInvariant
    · rw [if_pos hl, mapCov_eq (by simp [hXs]) (by simp) (by simp [hPr]), if_pos (by simp [hPr]),
        Option.bind_some]
      unfold corrL
      simp only [hl, if_true]
    · rw [if_neg hl, Option.bind_some]
      unfold corrL
      simp only [hl, if_false]
  unfold correctLeftInvariant
  simp only [hp1, Option.bind_eq_bind, Option.bind_some]
  rw [hp2, Option.bind_some]
  constructor
  · intro hh
    rw [Option.bind_eq_some_iff] at hh
    obtain ⟨G, hG, hh⟩ := hh
    obtain ⟨g1, g2, g3, W, hW, rfl⟩ := (kalmanGain_iff (by rw [hPr, hPc])).mp hG
    obtain ⟨_, w1, w2, _, _⟩ := inv?_spec hW
    simp only [innov_rows] at w1 w2
    have hz : Z.rows = H.rows ∧ Z.cols = 1 := by
      rw [Option.bind_eq_some_iff] at hh
      obtain ⟨r, hr, _⟩ := hh
      rw [show s.dimTheta = 6 from h.thr] at hr
      obtain ⟨z1, z2, _⟩ := (increments_iff (K := K) (by simp [hPr])).mp hr
      simp only [gain_cols] at z1
      exact ⟨by omega, z2⟩
    have ho : ObsSizes (3 * K + 9) Z H N := ⟨by omega, g2, g3, hz.1, hz.2⟩
    refine ⟨ho, W, hW, ?_⟩
    exact Option.some.inj (hh.symm.trans (hrest W w2 ho))
  · rintro ⟨ho, W, hW, rfl⟩
    obtain ⟨_, w1, w2, _, _⟩ := inv?_spec hW
    simp only [innov_rows] at w1 w2
    rw [(kalmanGain_iff (by rw [hPr, hPc])).mpr ⟨by rw [ho.hc, hPr], ho.nr, ho.nc, W, hW, rfl⟩, Option.bind_some]
    exact hrest W w2 ho

end Drift
