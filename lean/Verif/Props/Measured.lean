import Verif.Lemmas.Measured

/-!
# C139: after a correction the measured quantity is known as well as the sensor measures it
-/
set_option linter.unusedSimpArgs false
namespace Drift
open Mat Matrix Finset RobotState

theorem quad_skip {A B : Mat} (hr : A.rows = B.rows) (hc : A.cols = B.cols) {k : ℕ} (h : ∀ i j, i ≠ k → j ≠ k → A.e i j = B.e i j) {y : ℕ → ℝ} (hy : y k = 0) :
    quad A y = quad B y := by
  unfold quad
  rw [hr, hc]
  refine Finset.sum_congr rfl fun i _ => Finset.sum_congr rfl fun j _ => ?_
  by_cases hi : i = k
  · subst hi; rw [hy]; ring
  · by_cases hj : j = k
    · subst hj; rw [hy]; ring
    · rw [h i j hi hj]

/-- **C139**, for every correction of the filter: `H` and `N` are the observation matrix and the covariance of the measurement, `PR` and `PR'` the
covariance before and after in the right-invariant error (the one that `H` is written for).  In every direction the variance of the measured
quantity is then at most that of the measurement, and no combination of errors without the yaw gyro bias (which is reset, C27) is more uncertain
than before. -/
theorem C139_correction {K : ℕ} {s s' : RobotState} (h : Shape K s) (hP : PSD s.P) {Z H N : Mat} (hN : PD N) {et : ErrorType}
    (hs : correctRightInvariant Z H N s et = some s') (hH : ∀ i, H.e i (3 * K + 5) = 0) :
    ∃ P0 PR PR' : Mat, IsPrior K s P0 ∧ (et = .rightInvariant → PR = P0) ∧ (et = .leftInvariant → AdjRelated K s.X P0 PR) ∧
      (et = .rightInvariant → s'.P = PR') ∧ (et = .leftInvariant → AdjRelated K s'.X s'.P PR') ∧ PR'.rows = 3 * K + 9 ∧ PR'.cols = 3 * K + 9 ∧
      (∀ x, quad (H * PR' * H.T) x ≤ quad N x) ∧ ∀ y, y (3 * K + 5) = 0 → quad PR' y ≤ quad PR y := by
  obtain ⟨P0, PR, L, PR', E, h1, h2, h3, h4, h5, -, -, -, h6, h7, h8⟩ := C97_right_correction h hP hN hs
  have hsh := C23_right_on_group h hs
  obtain ⟨ho, -⟩ := (correctRight_iff h).mp hs
  have hsz : PR.rows = 3 * K + 9 ∧ PR'.rows = 3 * K + 9 ∧ PR'.cols = 3 * K + 9 := by
    cases et with
    | rightInvariant =>
      rw [h2 rfl, ← h6 rfl]
      exact ⟨h1.rows, hsh.pr, hsh.pc⟩
    | leftInvariant =>
      obtain ⟨A, -, ha⟩ := h3 rfl
      obtain ⟨B, -, hb⟩ := h7 rfl
      rw [ha, hb]
      exact ⟨rfl, rfl, rfl⟩
  obtain ⟨z1, z2, z3⟩ := hsz
  have hHc : H.cols = PR.rows := by rw [ho.hc, z1]
  have hq : ∀ y : ℕ → ℝ, y (3 * K + 5) = 0 → quad PR' y = quad (errCov PR H N L) y := by
    intro y hy
    exact quad_skip (by rw [z2]; show _ = PR.rows; rw [z1]) (by rw [z3]; show _ = PR.rows; rw [z1]) h8 hy
  refine ⟨P0, PR, PR', h1, h2, h3, h6, h7, z2, z3, fun x => ?_, fun y hy => ?_⟩
  · rw [quad_congr_mul (by rw [hHc, z1, z2]) (by rw [z2, z3]), hq _ (by simp [hH])]
    exact minVar_le_noise h4 hHc hN.psd ho.nr h5 x
  · rw [hq y hy]
    exact minVar_le_prior h4 hHc hN.psd ho.nr h5 y

/-- the vector with the three entries `u` in block `k` -/
def spread (k : ℕ) (u : V3) : ℕ → ℝ := fun i => if h : 3 * k ≤ i ∧ i < 3 * k + 3 then u ⟨i - 3 * k, by omega⟩ else 0

theorem sum_spread {n k : ℕ} (hk : 3 * k + 3 ≤ n) (u : V3) (g : ℕ → ℝ) : ∑ i ∈ range n, spread k u i * g i = ∑ a : Fin 3, u a * g (3 * k + a) := by
  have h1 : ∑ i ∈ range n, spread k u i * g i = ∑ i ∈ Ico (3 * k) (3 * k + 3), spread k u i * g i := by
    symm
    refine Finset.sum_subset (fun i hi => ?_) fun i _ hi => ?_
    · have := Finset.mem_Ico.mp hi
      exact mem_range.mpr (by omega)
    · unfold spread
      rw [dif_neg (by intro h; exact hi (Finset.mem_Ico.mpr h)), zero_mul]
  rw [h1, Finset.sum_Ico_eq_sum_range, show 3 * k + 3 - 3 * k = 3 by omega, Finset.sum_range]
  refine Finset.sum_congr rfl fun a _ => ?_
  have := a.2
  unfold spread
  rw [dif_pos (by omega)]
  congr 2
  exact Fin.ext (by simp)

theorem quad_spread {A : Mat} {k : ℕ} (hr : 3 * k + 3 ≤ A.rows) (hc : 3 * k + 3 ≤ A.cols) (u : V3) :
    quad A (spread k u) = u ⬝ᵥ (A.blk3 (3 * k) (3 * k)).mulVec u := by
  unfold quad
  have e : ∀ i, ∑ j ∈ range A.cols, spread k u i * A.e i j * spread k u j = spread k u i * ∑ b : Fin 3, u b * A.e i (3 * k + b) := by
    intro i
    rw [← sum_spread hc u (fun j => A.e i j), Finset.mul_sum]
    exact Finset.sum_congr rfl fun j _ => by ring
  simp only [e]
  rw [sum_spread hr u (fun i => ∑ b : Fin 3, u b * A.e i (3 * k + b))]
  simp only [dotProduct, mulVec]
  refine Finset.sum_congr rfl fun a _ => ?_
  congr 1
  exact Finset.sum_congr rfl fun b _ => by rw [blk3_apply]; ring

/-- **C139**, velocity: whatever the estimate and its covariance were, after a velocity measurement has been used the covariance of the velocity
is at most the covariance of the sensor (turned into the world frame by the estimated orientation), and at most what it was. -/
theorem C139_velocity {K : ℕ} {c : VelCorr} {s s' : RobotState} {m : VelMeas} (hsh : Shape K s) (hw : s.stateType = .worldCentric) (hP : PSD s.P)
    (hC : PD (of3 c.cov)) (het : c.errorType = .rightInvariant) (h : c.apply m s = some s') :
    ∃ R C0 C, s.get_rotation = some R ∧ s.get_velocity_covariance = some C0 ∧ s'.get_velocity_covariance = some C ∧
      ∀ u : V3, u ⬝ᵥ C.mulVec u ≤ u ⬝ᵥ (R * c.cov * Rᵀ).mulVec u ∧ u ⬝ᵥ C.mulVec u ≤ u ⬝ᵥ C0.mulVec u := by
  obtain ⟨R, v, h0, h3, h1⟩ := (velApply_iff hsh hw c m).mp h
  have hK := hsh.k
  have hsh' := hsh.setT (some m.time)
  have hs1 := C23_right_on_group hsh' h1
  have hd : RobotState.dimP { s with t := some m.time } = 3 * K + 9 := hsh.pc
  rw [hd] at h1
  have hR : R = s.X.blk3 0 0 := by
    have hr := hsh.x.rows; have hc := hsh.x.cols
    have : s.get_rotation = some (s.X.blk3 0 0) := blk3?_eq (by omega) (by omega)
    have h0 : s.get_rotation = some R := h0
    rw [this] at h0
    exact (Option.some.inj h0).symm
  have hN : PD (of3 (R * c.cov * Rᵀ)) := by rw [hR]; exact pd_rot hsh.x.rot hC
  obtain ⟨P0, PR, PR', k1, k2, -, k4, -, k6, k7, k8, k9⟩ := C139_correction hsh' hP hN h1 (by
    intro i
    by_cases hi : i < 3
    · unfold velH; rw [ofFn_e_of_lt hi (by omega), if_neg (by omega)]
    · exact (velH _).supp _ _ (by rintro ⟨h5, -⟩; exact hi h5))
  have hPR := k2 het
  have hPR' := k4 het
  subst hPR
  refine ⟨R, s.P.blk3 3 3, s'.P.blk3 3 3, h0, blk3?_eq (by rw [hsh.pr]; omega) (by rw [hsh.pc]; omega),
    blk3?_eq (by rw [hs1.pr]; omega) (by rw [hs1.pc]; omega), fun u => ⟨?_, ?_⟩⟩
  · have hx := k8 (spread 0 u)
    rw [quad_spread (by show 3 ≤ 3; omega) (by show 3 ≤ 3; omega), quad_spread (by show 3 ≤ 3; omega) (by show 3 ≤ 3; omega)] at hx
    have e1 : (of3 (R * c.cov * Rᵀ)).blk3 (3 * 0) (3 * 0) = R * c.cov * Rᵀ := blk3_of3 _
    have e2 : (velH (3 * K + 9) * PR' * (velH (3 * K + 9)).T).blk3 (3 * 0) (3 * 0) = PR'.blk3 3 3 := by
      funext a b
      have ha := a.2; have hb := b.2
      simp only [blk3_apply, Nat.mul_zero, Nat.zero_add]
      rw [mul_e]
      show ∑ k ∈ range PR'.cols, _ = _
      rw [k7, Finset.sum_eq_single (b.1 + 3)]
      · rw [T_e, mul_e]
        show (∑ k ∈ range (3 * K + 9), _) * _ = _
        rw [Finset.sum_eq_single (a.1 + 3)]
        · unfold velH
          rw [ofFn_e_of_lt ha (by omega), ofFn_e_of_lt hb (by omega), if_pos rfl, if_pos rfl, one_mul, mul_one]
          congr 1 <;> omega
        · intro k hk hne
          unfold velH
          rw [ofFn_e_of_lt ha (mem_range.mp hk), if_neg hne, zero_mul]
        · intro hh; exact absurd (mem_range.mpr (by omega)) hh
      · intro k hk hne
        rw [T_e]
        unfold velH
        rw [ofFn_e_of_lt hb (mem_range.mp hk), if_neg hne, mul_zero]
      · intro hh; exact absurd (mem_range.mpr (by omega)) hh
    rw [e1, e2, ← hPR'] at hx
    exact hx
  · have hy := k9 (spread 1 u) (by unfold spread; rw [dif_neg (by omega)])
    rw [quad_spread (by rw [k6]; omega) (by rw [k7]; omega), quad_spread (by rw [k1.rows]; omega) (by rw [k1.cols]; omega), ← hPR'] at hy
    have e3 : PR.blk3 (3 * 1) (3 * 1) = s.P.blk3 3 3 := by
      funext a b
      have ha := a.2; have hb := b.2
      simp only [blk3_apply]
      by_cases hb' : s.enableBias = true
      · rw [k1.on hb']
      · have hb' : s.enableBias = false := by simpa using hb'
        exact k1.offMain hb' _ _ (by omega) (by omega)
    rw [e3] at hy
    exact hy

/-- **C139**, contacts: after the update with a kinematic measurement, the position of each foot that is and was in contact, relative to the body,
has at most the covariance of the leg kinematics (encoder noise through the Jacobian, and the additive noise), turned into the world frame.  The
covariance of `d - p` is `P(d,d) - P(d,p) - P(p,d) + P(p,p)`; `s1` is the state after the update, before columns are removed and added. -/
theorem C139_contacts {K : ℕ} {c : LegCorr} {m : LegMeas} {h : Heap} {s s1 : RobotState} (g : Good K h s) (hids : IdsOK s c.ids) (hk : c.kinStd ≠ 0)
    (het : c.errorType = .rightInvariant) (hu : StanceUpdate c m h s s1) {R : M3} (hR : s.get_rotation = some R) {col : ℕ} {o : LegObs}
    (ho : (col, o) ∈ stanceL m c.ids h m.legs.length) (u : V3) :
    u ⬝ᵥ (s1.P.blk3 (3 * (col - 2)) (3 * (col - 2)) - s1.P.blk3 (3 * (col - 2)) 6 - s1.P.blk3 6 (3 * (col - 2)) + s1.P.blk3 6 6).mulVec u ≤
      u ⬝ᵥ (R * footCovSpec c.encStd c.kinStd o * Rᵀ).mulVec u := by
  obtain ⟨R', p, Z, H, N, h0, h4, ob, hs⟩ := hu
  rw [hR] at h0
  obtain rfl := Option.some.inj h0
  set L := stanceL m c.ids h m.legs.length with hL
  have hne : L ≠ [] := List.ne_nil_of_mem ho
  rw [if_neg hne] at hs
  have gt := g.setT (some m.time)
  have hKK := g.shape.k
  have x1 := g.shape.x.rows; have x2 := g.shape.x.cols
  have hRx : IsRot R := by
    have e0 : s.get_rotation = some (s.X.blk3 0 0) := blk3?_eq (by omega) (by omega)
    rw [e0] at hR
    rw [← Option.some.inj hR]; exact g.shape.x.rot
  have hN : PD N := stance_pd ob hRx (fun o => by rw [← footCov_eq c]; exact footCov_pd c hk o)
  have hd : s.dimX = K + 3 := by unfold dimX; omega
  have hHc : H.cols = 3 * (K + 3) := by rw [ob.hc hne, hd]
  obtain ⟨k, hk', hko⟩ := List.getElem_of_mem ho
  -- the columns of the legs are columns of the state
  have hcols : ∀ i (hi : i < L.length), 5 ≤ L[i].1 ∧ L[i].1 < K + 3 := by
    intro i hi
    have hm : L[i] ∈ stanceL m c.ids h m.legs.length := List.getElem_mem hi
    unfold stanceL at hm
    obtain ⟨id, -, hid⟩ := List.mem_filterMap.mp hm
    split at hid
    · rename_i o' a h1 h2
      split_ifs at hid
      obtain ⟨j, h5, hj, -, hv, -⟩ := g.col (hids.mem _ _ h2)
      have hl := g.len
      rw [← Option.some.inj hid]
      show 5 ≤ (h.val a).toNat ∧ (h.val a).toNat < K + 3
      rw [hv]
      omega
    · simp at hid
  have hH : ∀ i, H.e i (3 * K + 5) = 0 := by
    intro i
    by_cases hi : i < H.rows
    · have hi' : i < 3 * L.length := by rw [← ob.hr]; exact hi
      have hb := ob.h (i / 3) (by omega) (K + 1) (by rw [hd]; omega)
      rw [if_neg (by have := hcols (i / 3) (by omega); omega), if_neg (by omega)] at hb
      have := congrFun (congrFun hb ⟨i % 3, by omega⟩) 2
      simp only [blk3_apply] at this
      rw [show 3 * (i / 3) + i % 3 = i by omega, show 3 * (K + 1) + ((2 : Fin 3) : ℕ) = 3 * K + 5 by simp; ring] at this
      exact this
    · exact H.supp _ _ (by rintro ⟨h5, -⟩; exact hi h5)
  obtain ⟨P0, PR, PR', k1, k2, -, k4, -, k6, k7, k8, k9⟩ := C139_correction gt.shape gt.psd hN hs hH
  have hPR' := k4 het
  have hx := k8 (spread k u)
  have hrow : 3 * k + 3 ≤ H.rows := by rw [ob.hr]; omega
  rw [quad_spread (A := H * PR' * H.T) hrow hrow, quad_spread (by rw [ob.nr]; omega) (by rw [ob.nc]; omega), ob.nn k hk' k hk', if_pos rfl] at hx
  have hko1 : L[k].1 = col := by rw [hko]
  have hko2 : L[k].2 = o := by rw [hko]
  obtain ⟨hc1, hc2⟩ := hcols k hk'
  rw [hko1] at hc1 hc2
  rw [hko2] at hx
  have hblk : ∀ j, j < K + 3 → H.blk3 (3 * k) (3 * j) = (if j = col - 2 then 1 else 0) - (if j = 2 then 1 else 0) := by
    intro j hj
    rw [ob.h k hk' j (by rw [hd]; exact hj), hko1]
    by_cases h1 : j = col - 2
    · rw [if_pos h1, if_pos h1, if_neg (by omega), sub_zero]
    · rw [if_neg h1, if_neg h1]
      by_cases h2 : j = 2
      · rw [if_pos h2, if_pos h2, zero_sub]
      · rw [if_neg h2, if_neg h2, sub_zero]
  have hA : ∀ (B : Mat) (cc : ℕ), (H * B).blk3 (3 * k) cc = B.blk3 (3 * (col - 2)) cc - B.blk3 6 cc := by
    intro B cc
    rw [blk3_mul H B hHc, Finset.sum_congr rfl fun j hj => by rw [hblk j (mem_range.mp hj), sub_mul, ite_mul, ite_mul, Matrix.one_mul, Matrix.zero_mul],
      Finset.sum_sub_distrib, Finset.sum_ite_eq', Finset.sum_ite_eq', if_pos (mem_range.mpr (by omega)), if_pos (mem_range.mpr (by omega))]
  have e2 : (H * PR' * H.T).blk3 (3 * k) (3 * k) =
      PR'.blk3 (3 * (col - 2)) (3 * (col - 2)) - PR'.blk3 (3 * (col - 2)) 6 - PR'.blk3 6 (3 * (col - 2)) + PR'.blk3 6 6 := by
    have hB : ∀ cc, (PR' * H.T).blk3 cc (3 * k) = PR'.blk3 cc (3 * (col - 2)) - PR'.blk3 cc 6 := by
      intro cc
      have e := congrArg Matrix.transpose (hA PR'.T cc)
      rw [← blk3_T, T_mul (by rw [hHc]; show _ = PR'.cols; rw [k7]; ring), T_T, transpose_sub, ← blk3_T, ← blk3_T, T_T] at e
      exact e
    rw [mul_assoc' H PR' H.T, hA, hB, hB]
    abel
  rw [e2, ← hPR'] at hx
  exact hx

/-- **C139**, a kinematic measurement through the API: it is processed, and for each leg `id` that is in contact and was, the filter after the
update (`s1` of C59: before the columns of lifted feet are removed and those of new contacts are added, which changes no kept entry, C53) knows the
position of the foot relative to the body at least as well as the leg kinematics. -/
theorem C139_kinematic {K : ℕ} {h : Heap} {s : RobotState} (g : Good K h s) (c : LegCorr) (hids : IdsOK s c.ids) (hk : c.kinStd ≠ 0)
    (hcn : PSD (of3 c.contactNoise)) (het : c.errorType = .rightInvariant) (m : LegMeas) :
    ∃ s1 ids' h' s' R, c.apply m h s = some (ids', h', s') ∧ LegStep c m h s s1 ids' h' s' ∧ s.get_rotation = some R ∧
      ∀ (id : ℕ) o a, m.legs[id]? = some o → o.contact = true → c.ids id = some a → ∀ col : ℕ, h.val a = col → ∀ u : V3,
        u ⬝ᵥ (s1.P.blk3 (3 * (col - 2)) (3 * (col - 2)) - s1.P.blk3 (3 * (col - 2)) 6 - s1.P.blk3 6 (3 * (col - 2)) + s1.P.blk3 6 6).mulVec u ≤
          u ⬝ᵥ (R * footCovSpec c.encStd c.kinStd o * Rᵀ).mulVec u := by
  obtain ⟨K', s1, ids', h', s', e, g', st⟩ := C59_step g c hids hk hcn m
  have x1 := g.shape.x.rows; have x2 := g.shape.x.cols; have hK := g.shape.k
  have e0 : s.get_rotation = some (s.X.blk3 0 0) := blk3?_eq (by omega) (by omega)
  refine ⟨s1, ids', h', s', _, e, st, e0, fun id o a ho hc ha col hcol u => ?_⟩
  exact C139_contacts g hids hk het st.kalman e0 ((C59_stance_legs m c.ids h col o).mpr ⟨id, a, ho, hc, ha, by rw [hcol]; rfl⟩) u

/-- the hypotheses are met: the first velocity measurement on the initial state (where the velocity has covariance `1` before) -/
example (m : VelMeas) : ∃ s', (exVelCorr .rightInvariant []).apply m RobotState.init = some s' ∧
    ∃ R C0 C, RobotState.init.get_rotation = some R ∧ RobotState.init.get_velocity_covariance = some C0 ∧ s'.get_velocity_covariance = some C ∧
      ∀ u : V3, u ⬝ᵥ C.mulVec u ≤ u ⬝ᵥ (R * (exVelCorr .rightInvariant []).cov * Rᵀ).mulVec u ∧ u ⬝ᵥ C.mulVec u ≤ u ⬝ᵥ C0.mulVec u := by
  obtain ⟨s', h⟩ := velUpdate_defined (c := exVelCorr .rightInvariant []) (init_shape.setT (some m.time)) (one_pd 15).psd (exVelCorr_pd _ _) m.vel
  have h' := (velApply_iff init_shape rfl (exVelCorr .rightInvariant []) m).mpr h
  exact ⟨s', h', C139_velocity init_shape rfl (one_pd 15).psd (exVelCorr_pd _ _) rfl h'⟩

/-- the hypotheses are met: a leg that touches the ground twice -/
example (h : Heap) (p : V3) (J : M3) : ∃ K ids h1 s a, Good K h1 s ∧ IdsOK s ids ∧ ids 0 = some a ∧
    ∃ (col : ℕ) (o : LegObs), h1.val a = col ∧ (⟨1, [⟨true, p, J⟩], fun _ => 0⟩ : LegMeas).legs[0]? = some o ∧ o.contact = true := by
  obtain ⟨K', s1, ids', h', s', e, g', st⟩ := C59_step (init_good h) (exLeg .rightInvariant []) (noIds_ok _) (exLeg_kin _ _) (exLeg_noise _ _)
    ⟨0, [⟨true, ![1, 0, 0], 1⟩], fun _ => 0⟩
  obtain ⟨a, h1, -⟩ := st.made 0 ⟨true, ![1, 0, 0], 1⟩ rfl rfl rfl
  obtain ⟨j, -, -, -, hv, -⟩ := g'.col (st.ids.mem _ _ h1)
  exact ⟨K', ids', h', s', a, g', st.ids, h1, j, ⟨true, p, J⟩, hv, rfl, rfl⟩

end Drift
