import Verif.Lemmas.Filter8
import Verif.Spec.GyroOpt

/-! Helper lemmas for the gyro filter: optimality of the gain, variances along histories. -/
namespace Drift
open Matrix
namespace GyroFilter

theorem varIn_add {n : Type*} [Fintype n] (A B : Matrix n n ℝ) (z : n → ℝ) :
    varIn (A + B) z = varIn A z + varIn B z := by
  unfold varIn; rw [Matrix.add_mulVec, dotProduct_add]

theorem varIn_congr {m n : Type*} [Fintype m] [Fintype n] (A : Matrix n n ℝ) (B : Matrix m n ℝ) (z : m → ℝ) :
    varIn (B * A * Bᵀ) z = varIn A (Bᵀ *ᵥ z) := by
  unfold varIn
  rw [← Matrix.mulVec_mulVec, ← Matrix.mulVec_mulVec, Matrix.dotProduct_mulVec, ← Matrix.mulVec_transpose]

theorem varIn_nonneg {n : Type*} [Fintype n] {A : Matrix n n ℝ} (h : A.PosSemidef) (z : n → ℝ) : 0 ≤ varIn A z := by
  have := h.dotProduct_mulVec_nonneg z
  rw [star_trivial] at this
  exact this

theorem varIn_mono {n : Type*} [Fintype n] {A B : Matrix n n ℝ} (h : (A - B).PosSemidef) (z : n → ℝ) :
    varIn B z ≤ varIn A z := by
  have := varIn_nonneg h z
  unfold varIn at *
  rw [Matrix.sub_mulVec, dotProduct_sub] at this
  linarith

theorem afterGain_diff {m n : Type*} [Fintype m] [Fintype n] [DecidableEq m] [DecidableEq n] {P : Matrix n n ℝ}
    {H : Matrix m n ℝ} {R : Matrix m m ℝ} (hP : P.PosSemidef) (hR : R.PosSemidef)
    (hS : (H * P * Hᵀ + R).det ≠ 0) (G : Matrix n m ℝ) :
    afterGain P H R G = (1 - P * Hᵀ * (H * P * Hᵀ + R)⁻¹ * H) * P +
      (G - P * Hᵀ * (H * P * Hᵀ + R)⁻¹) * (H * P * Hᵀ + R) * (G - P * Hᵀ * (H * P * Hᵀ + R)⁻¹)ᵀ := by
  set S := H * P * Hᵀ + R with hSd
  have hPT := posSemidef_T hP
  have hRT := posSemidef_T hR
  have hST : Sᵀ = S := by
    rw [hSd, transpose_add, transpose_mul, transpose_mul, transpose_transpose, hPT, hRT, Matrix.mul_assoc]
  have hWT : (S⁻¹)ᵀ = S⁻¹ := by rw [transpose_nonsing_inv, hST]
  have hW : S⁻¹ * S = 1 := nonsing_inv_mul _ (isUnit_iff_ne_zero.mpr hS)
  have hW' : S * S⁻¹ = 1 := mul_nonsing_inv _ (isUnit_iff_ne_zero.mpr hS)
  set K := P * Hᵀ * S⁻¹ with hK
  have hT : Kᵀ = S⁻¹ * (H * P) := by
    rw [hK, transpose_mul, transpose_mul, transpose_transpose, hWT, hPT]
  have hKS : K * S = P * Hᵀ := by rw [hK, Matrix.mul_assoc, hW, Matrix.mul_one]
  have hSK : S * Kᵀ = H * P := by rw [hT, ← Matrix.mul_assoc, hW', Matrix.one_mul]
  have e : afterGain P H R G = P - G * (H * P) - P * Hᵀ * Gᵀ + G * S * Gᵀ := by
    unfold afterGain
    rw [transpose_sub, transpose_one, transpose_mul, hSd]
    simp only [Matrix.sub_mul, Matrix.mul_sub, Matrix.one_mul, Matrix.mul_one, Matrix.mul_add, Matrix.add_mul,
      Matrix.mul_assoc]
    abel
  rw [e, transpose_sub, Matrix.mul_sub, Matrix.sub_mul, Matrix.sub_mul, hKS, Matrix.sub_mul, Matrix.sub_mul,
    Matrix.mul_assoc G S Kᵀ, hSK, Matrix.one_mul, Matrix.mul_assoc K H P]
  have : P * Hᵀ * Kᵀ = K * (H * P) := by rw [← hKS, Matrix.mul_assoc, hSK]
  rw [this]; abel

theorem afterGain_kalman {m n : Type*} [Fintype m] [Fintype n] [DecidableEq m] [DecidableEq n] {P : Matrix n n ℝ}
    {H : Matrix m n ℝ} {R : Matrix m m ℝ} (hP : P.PosSemidef) (hR : R.PosSemidef)
    (hS : (H * P * Hᵀ + R).det ≠ 0) :
    afterGain P H R (P * Hᵀ * (H * P * Hᵀ + R)⁻¹) = (1 - P * Hᵀ * (H * P * Hᵀ + R)⁻¹ * H) * P := by
  rw [afterGain_diff hP hR hS, sub_self, Matrix.zero_mul, Matrix.zero_mul, add_zero]

theorem kalman_best {m n : Type*} [Fintype m] [Fintype n] [DecidableEq m] [DecidableEq n] {P : Matrix n n ℝ}
    {H : Matrix m n ℝ} {R : Matrix m m ℝ} (hP : P.PosSemidef) (hR : R.PosSemidef)
    (hS : (H * P * Hᵀ + R).det ≠ 0) : BestGain P H R (P * Hᵀ * (H * P * Hᵀ + R)⁻¹) := by
  intro G z
  rw [afterGain_kalman hP hR hS, afterGain_diff hP hR hS G, varIn_add]
  have := varIn_nonneg (congr_psd ((congr_psd hP H).add hR) (G - P * Hᵀ * (H * P * Hᵀ + R)⁻¹)) z
  linarith

/-- one Kalman correction, as a statement about gains -/
theorem kalman_spec {f f' : GyroFilter} {H : M36} {R : M3} {y : V3} (hP : f.P.PosSemidef) (hR : R.PosSemidef)
    (h : f.kalman H R y = some f') :
    ∃ K, BestGain f.P H R K ∧ f'.x = f.x + K *ᵥ (y - H *ᵥ f.x) ∧ f'.P = afterGain f.P H R K := by
  obtain ⟨hd, rfl⟩ := kalman_some h
  exact ⟨_, kalman_best hP hR hd, rfl, (afterGain_kalman hP hR hd).symm⟩

theorem kalman_var {f f' : GyroFilter} {H : M36} {R : M3} {y : V3} (hP : f.P.PosSemidef) (hR : R.PosSemidef)
    (h : f.kalman H R y = some f') (G : Matrix (Fin 6) (Fin 3) ℝ) (z : V6) :
    varIn f'.P z ≤ varIn f.P ((1 - G * H)ᵀ *ᵥ z) + varIn R (Gᵀ *ᵥ z) := by
  obtain ⟨K, hK, -, hP'⟩ := kalman_spec hP hR h
  rw [hP']
  refine (hK G z).trans (le_of_eq ?_)
  rw [afterGain, varIn_add, varIn_congr, varIn_congr]

theorem himu_sees (flat : Bool) : ImuSees flat (Himu flat) := by
  intro x
  cases flat <;> ext i <;> fin_cases i <;>
    simp [Himu, Matrix.mulVec, dotProduct, Fin.sum_univ_succ, Matrix.of_apply]

theorem henc_sees (flat : Bool) : EncSees flat (Henc flat) := by
  intro x
  cases flat <;> ext i <;> fin_cases i <;>
    simp [Henc, Matrix.mulVec, dotProduct, Fin.sum_univ_succ, Matrix.of_apply]

/-! ### Variances along histories -/

/-- the variance in the direction `z` is at most `v`, with the configuration `c` -/
def VarLe (c : FCfg) (z : V6) (v : ℝ) (f : GyroFilter) : Prop := f.cfg = c ∧ f.P.PosSemidef ∧ varIn f.P z ≤ v

theorem varLe_core (c : FCfg) (z : V6) (v : ℝ) : CoreOnly (VarLe c z v) := fun f g h1 _ h3 _ _ h =>
  ⟨h1 ▸ h.1, h3 ▸ h.2.1, h3 ▸ h.2.2⟩

theorem varLe_kalman (c : FCfg) (z : V6) (v : ℝ) : KeptByKalman (VarLe c z v) := by
  rintro f f' y ⟨h1, h2, h3⟩ (h | h)
  all_goals
    obtain ⟨hd, rfl⟩ := kalman_some h
    have hc := kalman_cov h2 (noise3_psd _) hd
    exact ⟨h1, hc.1, (varIn_mono hc.2 z).trans h3⟩

theorem propagate_varLe {c : FCfg} {z : V6} {v : ℝ} {f : GyroFilter} (h : VarLe c z v f) :
    VarLe c z (v + varIn (diag6 c.filterStd c.filterBiasStd) z) f.propagate := by
  obtain ⟨h1, h2, h3⟩ := h
  obtain ⟨p1, _, _, p4, _⟩ := propagate_core f
  refine ⟨p1.trans h1, propagate_psd h2, ?_⟩
  have hQ := varIn_nonneg (diag6_psd c.filterStd c.filterBiasStd) z
  rcases p4 with p4 | p4
  · rw [p4]; linarith
  · rw [p4, varIn_add, h1]; linarith

theorem run_varLe {c : FCfg} {z : V6} {v : ℝ} {f f' : GyroFilter} (h : VarLe c z v f) (hr : f.runOnce = some f') :
    VarLe c z (v + varIn (diag6 c.filterStd c.filterBiasStd) z) f' := by
  unfold runOnce at hr
  split_ifs at hr with hi
  · exact correctStep_inv (varLe_core c z _) (varLe_kalman c z _) (propagate_varLe h) hr
  · obtain ⟨h1, h2, h3⟩ := h
    have hQ := varIn_nonneg (diag6_psd c.filterStd c.filterBiasStd) z
    have hb : f'.cfg = f.cfg ∧ f'.P = f.P := by
      unfold initializeFilter at hr
      split_ifs at hr
      · rw [Option.bind_eq_some_iff] at hr
        obtain ⟨n, _, hr⟩ := hr
        split_ifs at hr
        · have := collectBias_core hr; exact ⟨this.1, this.2.2.1⟩
        · have := finishInit_core hr; exact ⟨this.2.1, this.2.2.2.1⟩
      · obtain rfl := Option.some.inj hr; exact ⟨rfl, rfl⟩
    refine ⟨hb.1.trans h1, hb.2 ▸ h2, ?_⟩
    rw [hb.2]; linarith

theorem step_varLe {c : FCfg} {z : V6} {v : ℝ} {f f' : GyroFilter} {o : Op} (h : VarLe c z v f)
    (hr : f.step o = some f') :
    VarLe c z (v + runs [o] * varIn (diag6 c.filterStd c.filterBiasStd) z) f' := by
  cases o with
  | run => simpa [runs] using run_varLe h hr
  | clear =>
    simp only [step, GyroFilter.clear, Option.bind_eq_some_iff, Option.map_eq_some_iff] at hr
    obtain ⟨_, _, _, _, rfl⟩ := hr
    simp only [runs, List.filter_cons, List.filter_nil, Bool.false_eq_true, if_false, List.length_nil, Nat.cast_zero, zero_mul, add_zero]
    exact h
  | addImu =>
    simp only [step, Option.some.injEq] at hr
    subst hr
    simp only [runs, List.filter_cons, List.filter_nil, Bool.false_eq_true, if_false, List.length_nil, Nat.cast_zero, zero_mul, add_zero]
    unfold addImu
    dsimp only
    split_ifs <;> exact h
  | _ =>
    simp only [step, Option.some.injEq] at hr
    subst hr
    simp only [runs, List.filter_cons, List.filter_nil, Bool.false_eq_true, if_false, List.length_nil, Nat.cast_zero, zero_mul, add_zero]
    exact h

theorem runs_cons (o : Op) (l : List Op) : runs (o :: l) = runs [o] + runs l := by
  unfold runs
  rw [← List.length_append, ← List.filter_append, List.singleton_append]

theorem runOps_varLe {c : FCfg} {z : V6} : ∀ (l : List Op) (v : ℝ) (f f' : GyroFilter), VarLe c z v f →
    runOps l f = some f' → VarLe c z (v + runs l * varIn (diag6 c.filterStd c.filterBiasStd) z) f'
  | [], v, f, f', h, hr => by
    rw [runOps] at hr
    obtain rfl := Option.some.inj hr
    simpa [runs] using h
  | o :: l, v, f, f', h, hr => by
    rw [runOps, Option.bind_eq_some_iff] at hr
    obtain ⟨g, h1, h2⟩ := hr
    have := runOps_varLe l _ g f' (step_varLe h h1) h2
    rw [runs_cons, Nat.cast_add]
    rw [show v + ((runs [o] : ℝ) + runs l) * varIn (diag6 c.filterStd c.filterBiasStd) z =
      v + runs [o] * varIn (diag6 c.filterStd c.filterBiasStd) z + runs l * varIn (diag6 c.filterStd c.filterBiasStd) z
      by ring]
    exact this

/-! ### What a run that used a measurement did -/

theorem multiLoop_imu_enc : ∀ (qs : List (List ImuMeas)) (fu : Option ImuMeas) (f : GyroFilter)
    (r : List (List ImuMeas) × GyroFilter), multiLoop qs fu f = some r → r.2.imu = f.imu ∧ r.2.enc = f.enc
  | [], fu, f, r, h => by
    rw [multiLoop] at h
    obtain rfl := Option.some.inj h
    exact ⟨rfl, rfl⟩
  | [] :: qs, fu, f, r, h => by
    rw [multiLoop, Option.map_eq_some_iff] at h
    obtain ⟨r', h, rfl⟩ := h
    exact multiLoop_imu_enc qs fu f r' h
  | (m :: q) :: qs, fu, f, r, h => by
    rw [multiLoop, Option.bind_eq_some_iff] at h
    obtain ⟨r1, h1, h⟩ := h
    rw [Option.map_eq_some_iff] at h
    obtain ⟨r', h, rfl⟩ := h
    have hk := multiLoop_imu_enc qs _ _ r' h
    have h2 : r1.2.imu = f.imu ∧ r1.2.enc = f.enc := by
      split_ifs at h1
      · rw [Option.map_eq_some_iff] at h1
        obtain ⟨o, ho, rfl⟩ := h1
        unfold correctImu at ho
        rw [Option.map_eq_some_iff] at ho
        obtain ⟨k, hka, rfl⟩ := ho
        obtain ⟨-, rfl⟩ := kalman_some hka
        exact ⟨rfl, rfl⟩
      · obtain rfl := Option.some.inj h1
        exact ⟨rfl, rfl⟩
    dsimp only at hk ⊢
    rcases r1 with ⟨_ | o, g⟩
    · exact ⟨hk.1.trans h2.1, hk.2.trans h2.2⟩
    · exact ⟨hk.1.trans h2.1, hk.2.trans h2.2⟩

theorem diag6_process (c : FCfg) : ProcessNoise c (diag6 c.filterStd c.filterBiasStd) := by
  unfold ProcessNoise diag6
  congr 1
  ext i
  fin_cases i <;> simp [pow_two]

theorem propagate_predicted (f : GyroFilter) : Predicted f f.propagate.x f.propagate.P := by
  refine ⟨_, diag6_process f.cfg, ?_⟩
  unfold propagate
  split
  · rename_i h; exact Or.inl ⟨h, rfl, rfl⟩
  · rename_i h; exact Or.inr (Or.inl ⟨h, rfl, rfl⟩)
  · rename_i g q h
    refine Or.inr (Or.inr ⟨g, q, h, rfl, ?_⟩)
    dsimp only
    rw [add_comm]
    congr 1

theorem list_ne {α : Type*} {m : α} {q : List α} {o o' : Option (List α)} (h1 : o = some (m :: q)) (h2 : o' = some q)
    (h : o' = o) : False := by
  rw [h1, h2] at h
  have := congrArg List.length (Option.some.inj h)
  simp at this

/-- the correction made by a run that used an IMU measurement -/
theorem usesImu_spec {f f' : GyroFilter} (hP : f.P.PosSemidef) (h : UsesImu f f') :
    ∃ m q K, f.imu = some (m :: q) ∧ BestGain f.propagate.P (Himu f.cfg.flatGround) (noise3 f.cfg.imuStd) K ∧
      f'.x = f.propagate.x + K *ᵥ (m.angVel - Himu f.cfg.flatGround *ᵥ f.propagate.x) ∧
      f'.P = afterGain f.propagate.P (Himu f.cfg.flatGround) (noise3 f.cfg.imuStd) K ∧ f'.cfg = f.cfg ∧
      f'.out = f.out ++ [{ m with angVel := hd f'.x }] := by
  obtain ⟨hr, ⟨m, q, hm, hm'⟩, ho⟩ := h
  have hPp := propagate_psd hP
  obtain ⟨p1, p2, p3, p4, p5, p6, p7, p8, p9, p10⟩ := propagate_frame f
  have key : ∀ g k : GyroFilter, g.cfg = f.cfg → g.P = f.propagate.P → g.x = f.propagate.x →
      g.kalman (Himu g.cfg.flatGround) (noise3 g.cfg.imuStd) m.angVel = some k → k.cfg = f.cfg ∧ k.out = g.out ∧
      ∃ K, BestGain f.propagate.P (Himu f.cfg.flatGround) (noise3 f.cfg.imuStd) K ∧
      k.x = f.propagate.x + K *ᵥ (m.angVel - Himu f.cfg.flatGround *ᵥ f.propagate.x) ∧
      k.P = afterGain f.propagate.P (Himu f.cfg.flatGround) (noise3 f.cfg.imuStd) K := by
    intro g k e1 e2 e3 hk
    obtain ⟨K, k1, k2, k3⟩ := kalman_spec (by rw [e2]; exact hPp) (noise3_psd _) hk
    have hk' := (kalman_some hk).2
    rw [e1, e2] at k1 k3
    rw [e1, e3] at k2
    exact ⟨by rw [hk']; exact e1, by rw [hk'], K, k1, k2, k3⟩
  unfold runOnce at hr
  split_ifs at hr with hi
  · have fuse : ∀ m' q', f.imu = some (m' :: q') → f.propagate.fuseImu m' q' = some f' → ∃ m q K, f.imu = some (m :: q) ∧ BestGain f.propagate.P (Himu f.cfg.flatGround) (noise3 f.cfg.imuStd) K ∧
      f'.x = f.propagate.x + K *ᵥ (m.angVel - Himu f.cfg.flatGround *ᵥ f.propagate.x) ∧
      f'.P = afterGain f.propagate.P (Himu f.cfg.flatGround) (noise3 f.cfg.imuStd) K ∧ f'.cfg = f.cfg ∧
      f'.out = f.out ++ [{ m with angVel := hd f'.x }] := by
      intro m' q' hmq he
      rw [hm] at hmq
      obtain ⟨rfl, rfl⟩ := List.cons.inj (Option.some.inj hmq)
      unfold fuseImu at he
      dsimp only at he
      rw [Option.map_eq_some_iff] at he
      obtain ⟨k, he, rfl⟩ := he
      split_ifs at he with hf
      · rw [Option.map_eq_some_iff] at he
        obtain ⟨r, he, rfl⟩ := he
        unfold correctImu at he
        rw [Option.map_eq_some_iff] at he
        obtain ⟨k, he, rfl⟩ := he
        obtain ⟨c1, c2, K, k1, k2, k3⟩ := key { f.propagate with latest := some m } k p1 rfl rfl he
        refine ⟨m, q, K, hm, k1, k2, k3, c1, ?_⟩
        change k.out ++ [_] = f.out ++ [_]
        rw [c2]
        exact congrArg (· ++ _) p9
      · obtain rfl := Option.some.inj he
        dsimp only at ho
        rw [p9] at ho
        omega
    have fuseE : ∀ a q', f.propagate.fuseEnc a q' = some f' → False := by
      intro a q' he
      unfold fuseEnc at he
      split at he
      · obtain rfl := Option.some.inj he
        exact list_ne hm hm' p2
      · rw [Option.map_eq_some_iff] at he
        obtain ⟨k, he, rfl⟩ := he
        refine list_ne hm hm' (Eq.trans ?_ p2)
        split_ifs at he
        · rw [Option.map_eq_some_iff] at he
          obtain ⟨r, he, rfl⟩ := he
          unfold correctEnc at he
          rw [Option.map_eq_some_iff] at he
          obtain ⟨k, he, rfl⟩ := he
          obtain ⟨-, rfl⟩ := kalman_some he
          rfl
        · obtain rfl := Option.some.inj he
          rfl
    unfold correctStep at hr
    split at hr
    · unfold imuPlusAngVel at hr
      split at hr
      · obtain rfl := Option.some.inj hr
        exact (list_ne hm hm' p2).elim
      · rename_i m' q' e1 _
        exact fuse m' q' (p2 ▸ e1) hr
      · exact (fuseE _ _ hr).elim
      · rename_i m' q' a q'' e1 _
        split_ifs at hr
        · exact fuse m' q' (p2 ▸ e1) hr
        · exact (fuseE _ _ hr).elim
      · simp at hr
    · unfold singleImu at hr
      split at hr
      · simp at hr
      · obtain rfl := Option.some.inj hr
        exact (list_ne hm hm' p2).elim
      · rename_i m' q' e1
        rw [p2, hm] at e1
        obtain ⟨rfl, rfl⟩ := List.cons.inj (Option.some.inj e1)
        split_ifs at hr
        · rw [Option.map_eq_some_iff] at hr
          obtain ⟨r, he, rfl⟩ := hr
          unfold correctImu at he
          rw [Option.map_eq_some_iff] at he
          obtain ⟨k, he, rfl⟩ := he
          obtain ⟨c1, c2, K, k1, k2, k3⟩ := key { f.propagate with imu := some q } k p1 rfl rfl he
          refine ⟨m, q, K, hm, k1, k2, k3, c1, ?_⟩
          change k.out ++ [_] = f.out ++ [_]
          rw [c2]
          exact congrArg (· ++ _) p9
        · obtain rfl := Option.some.inj hr
          exact (list_ne hm hm' p2).elim
    · unfold multiImu at hr
      rw [Option.map_eq_some_iff] at hr
      obtain ⟨r, he, rfl⟩ := hr
      exact (list_ne hm hm' ((multiLoop_imu_enc _ _ _ _ he).1.trans p2)).elim
    · unfold angVelCorr at hr
      split at hr
      · simp at hr
      · obtain rfl := Option.some.inj hr
        exact (list_ne hm hm' p2).elim
      · split at hr
        · obtain rfl := Option.some.inj hr
          exact (list_ne hm hm' p2).elim
        · rw [Option.map_eq_some_iff] at hr
          obtain ⟨r, he, rfl⟩ := hr
          unfold correctEnc at he
          rw [Option.map_eq_some_iff] at he
          obtain ⟨k, he, rfl⟩ := he
          obtain ⟨-, rfl⟩ := kalman_some he
          exact (list_ne hm hm' p2).elim
    · obtain rfl := Option.some.inj hr
      exact (list_ne hm hm' p2).elim
  · have hout : f'.out = f.out := (initialize_frame hr).2.2.2.2.2.1
    rw [hout] at ho
    omega

/-- the correction made by a run that used an encoder measurement -/
theorem usesEnc_spec {f f' : GyroFilter} (hP : f.P.PosSemidef) (h : UsesEnc f f') :
    ∃ a q K o, f.enc = some (a :: q) ∧ BestGain f.propagate.P (Henc f.cfg.flatGround) (noise3 f.cfg.encStd) K ∧
      f'.x = f.propagate.x + K *ᵥ (rotInv f.cfg *ᵥ a.angVel - Henc f.cfg.flatGround *ᵥ f.propagate.x) ∧
      f'.P = afterGain f.propagate.P (Henc f.cfg.flatGround) (noise3 f.cfg.encStd) K ∧ f'.cfg = f.cfg ∧
      f'.out = f.out ++ [o] ∧ o.angVel = hd f'.x ∧ o.time = a.time := by
  obtain ⟨hr, ⟨m, q, hm, hm'⟩, ho⟩ := h
  have hPp := propagate_psd hP
  obtain ⟨p1, p2, p3, p4, p5, p6, p7, p8, p9, p10⟩ := propagate_frame f
  have key : ∀ g k : GyroFilter, g.cfg = f.cfg → g.P = f.propagate.P → g.x = f.propagate.x →
      g.kalman (Henc g.cfg.flatGround) (noise3 g.cfg.encStd) (rotInv g.cfg *ᵥ m.angVel) = some k → k.cfg = f.cfg ∧ k.out = g.out ∧
      ∃ K, BestGain f.propagate.P (Henc f.cfg.flatGround) (noise3 f.cfg.encStd) K ∧
      k.x = f.propagate.x + K *ᵥ (rotInv f.cfg *ᵥ m.angVel - Henc f.cfg.flatGround *ᵥ f.propagate.x) ∧
      k.P = afterGain f.propagate.P (Henc f.cfg.flatGround) (noise3 f.cfg.encStd) K := by
    intro g k e1 e2 e3 hk
    obtain ⟨K, k1, k2, k3⟩ := kalman_spec (by rw [e2]; exact hPp) (noise3_psd _) hk
    have hk' := (kalman_some hk).2
    rw [e1, e2] at k1 k3
    rw [e1, e3] at k2
    exact ⟨by rw [hk']; exact e1, by rw [hk'], K, k1, k2, k3⟩
  unfold runOnce at hr
  split_ifs at hr with hi
  · have fuseE : ∀ m' q', f.enc = some (m' :: q') → f.propagate.fuseEnc m' q' = some f' →
      ∃ a q K o, f.enc = some (a :: q) ∧ BestGain f.propagate.P (Henc f.cfg.flatGround) (noise3 f.cfg.encStd) K ∧
      f'.x = f.propagate.x + K *ᵥ (rotInv f.cfg *ᵥ a.angVel - Henc f.cfg.flatGround *ᵥ f.propagate.x) ∧
      f'.P = afterGain f.propagate.P (Henc f.cfg.flatGround) (noise3 f.cfg.encStd) K ∧ f'.cfg = f.cfg ∧
      f'.out = f.out ++ [o] ∧ o.angVel = hd f'.x ∧ o.time = a.time := by
      intro m' q' hmq he
      rw [hm] at hmq
      obtain ⟨rfl, rfl⟩ := List.cons.inj (Option.some.inj hmq)
      unfold fuseEnc at he
      split at he
      · obtain rfl := Option.some.inj he
        dsimp only at ho
        rw [p9] at ho
        omega
      · rename_i l hl
        rw [Option.map_eq_some_iff] at he
        obtain ⟨k, he, rfl⟩ := he
        split_ifs at he with hf
        · rw [Option.map_eq_some_iff] at he
          obtain ⟨r, he, rfl⟩ := he
          unfold correctEnc at he
          rw [Option.map_eq_some_iff] at he
          obtain ⟨k, he, rfl⟩ := he
          obtain ⟨c1, c2, K, k1, k2, k3⟩ := key _ k p1 rfl rfl he
          refine ⟨m, q, K, { l with angVel := hd k.x, time := m.time }, hm, k1, k2, k3, c1, ?_, rfl, rfl⟩
          change k.out ++ [_] = f.out ++ [_]
          rw [c2]
          exact congrArg (· ++ _) p9
        · obtain rfl := Option.some.inj he
          dsimp only at ho
          rw [p9] at ho
          omega
    have fuse : ∀ m' q', f.propagate.fuseImu m' q' = some f' → False := by
      intro m' q' he
      unfold fuseImu at he
      dsimp only at he
      rw [Option.map_eq_some_iff] at he
      obtain ⟨k, he, rfl⟩ := he
      refine list_ne hm hm' (Eq.trans ?_ p4)
      split_ifs at he with hf
      · rw [Option.map_eq_some_iff] at he
        obtain ⟨r, he, rfl⟩ := he
        unfold correctImu at he
        rw [Option.map_eq_some_iff] at he
        obtain ⟨k, he, rfl⟩ := he
        obtain ⟨-, rfl⟩ := kalman_some he
        rfl
      · obtain rfl := Option.some.inj he
        rfl
    unfold correctStep at hr
    split at hr
    · unfold imuPlusAngVel at hr
      split at hr
      · obtain rfl := Option.some.inj hr
        exact (list_ne hm hm' p4).elim
      · exact (fuse _ _ hr).elim
      · rename_i m' q' _ e1
        exact fuseE m' q' (p4 ▸ e1) hr
      · rename_i a q'' m' q' _ e1
        split_ifs at hr
        · exact (fuse _ _ hr).elim
        · exact fuseE m' q' (p4 ▸ e1) hr
      · simp at hr
    · unfold singleImu at hr
      split at hr
      · simp at hr
      · obtain rfl := Option.some.inj hr
        exact (list_ne hm hm' p4).elim
      · split_ifs at hr
        · rw [Option.map_eq_some_iff] at hr
          obtain ⟨r, he, rfl⟩ := hr
          unfold correctImu at he
          rw [Option.map_eq_some_iff] at he
          obtain ⟨k, he, rfl⟩ := he
          obtain ⟨-, rfl⟩ := kalman_some he
          exact (list_ne hm hm' p4).elim
        · obtain rfl := Option.some.inj hr
          exact (list_ne hm hm' p4).elim
    · unfold multiImu at hr
      rw [Option.map_eq_some_iff] at hr
      obtain ⟨r, he, rfl⟩ := hr
      exact (list_ne hm hm' ((multiLoop_imu_enc _ _ _ _ he).2.trans p4)).elim
    · unfold angVelCorr at hr
      split at hr
      · simp at hr
      · obtain rfl := Option.some.inj hr
        exact (list_ne hm hm' p4).elim
      · rename_i a q' e1
        rw [p4, hm] at e1
        obtain ⟨rfl, rfl⟩ := List.cons.inj (Option.some.inj e1)
        split at hr
        · obtain rfl := Option.some.inj hr
          dsimp only at ho
          rw [p9] at ho
          omega
        · rename_i l hl
          rw [Option.map_eq_some_iff] at hr
          obtain ⟨r, he, rfl⟩ := hr
          unfold correctEnc at he
          rw [Option.map_eq_some_iff] at he
          obtain ⟨k, he, rfl⟩ := he
          obtain ⟨c1, c2, K, k1, k2, k3⟩ := key _ k p1 rfl rfl he
          refine ⟨m, q, K, { l with angVel := hd k.x, time := m.time }, hm, k1, k2, k3, c1, ?_, rfl, rfl⟩
          change k.out ++ [_] = f.out ++ [_]
          rw [c2]
          exact congrArg (· ++ _) p9
    · obtain rfl := Option.some.inj hr
      exact (list_ne hm hm' p4).elim
  · have hout : f'.out = f.out := (initialize_frame hr).2.2.2.2.2.1
    rw [hout] at ho
    omega

end GyroFilter
end Drift
