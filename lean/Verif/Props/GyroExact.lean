import Verif.Props.GyroOpt
import Verif.Props.ImuFilter2

/-!
# C155: the gyro filter with sensors without noise
-/
namespace Drift
open Matrix
open GyroFilter

/-- the measured axes of an innovation -/
def axes (flat : Bool) : M3 := if flat then 1 else Matrix.diagonal ![0, 0, 1]

theorem axes_idem (flat : Bool) : axes flat * axes flat = axes flat := by
  cases flat
  · simp only [axes, Bool.false_eq_true, if_false]
    rw [Matrix.diagonal_mul_diagonal]
    congr 1; ext i; fin_cases i <;> simp
  · simp [axes]

theorem axes_T (flat : Bool) : (axes flat)ᵀ = axes flat := by
  cases flat <;> simp [axes]

theorem axes_Himu (flat : Bool) : axes flat * Himu flat = Himu flat := by
  cases flat
  · ext i j
    simp only [axes, Bool.false_eq_true, if_false, Matrix.diagonal_mul]
    fin_cases i <;> fin_cases j <;> simp [Himu]
  · simp [axes]

theorem axes_Henc (flat : Bool) : axes flat * Henc flat = Henc flat := by
  cases flat
  · ext i j
    simp only [axes, Bool.false_eq_true, if_false, Matrix.diagonal_mul]
    fin_cases i <;> fin_cases j <;> simp [Henc]
  · simp [axes]

/-- an innovation that is zero on the measured axes changes nothing -/
theorem kalman_still {f f' : GyroFilter} {H : M36} {s : ℝ} {y : V3} {D : M3} (hD : Dᵀ = D) (hH : D * H = H)
    (hz : D *ᵥ (y - H *ᵥ f.x) = 0) (h : f.kalman H (noise3 s) y = some f') : f'.x = f.x := by
  obtain ⟨hd, rfl⟩ := kalman_some h
  dsimp only
  set S := H * f.P * Hᵀ + noise3 s with hS
  have hHT : Hᵀ * D = Hᵀ := by rw [← hD, ← transpose_mul, hH]
  have hc : D * S = S * D := by
    rw [hS, Matrix.mul_add, Matrix.add_mul, ← Matrix.mul_assoc, ← Matrix.mul_assoc, hH, Matrix.mul_assoc _ Hᵀ, hHT]
    congr 1
    rw [noise3, Matrix.mul_smul, Matrix.smul_mul, Matrix.mul_one, Matrix.one_mul]
  have hu : IsUnit S.det := isUnit_iff_ne_zero.mpr hd
  have hc' : D * S⁻¹ = S⁻¹ * D := by
    have : S⁻¹ * (D * S) * S⁻¹ = S⁻¹ * (S * D) * S⁻¹ := by rw [hc]
    rw [← Matrix.mul_assoc S⁻¹ S D, nonsing_inv_mul _ hu, Matrix.one_mul, Matrix.mul_assoc, Matrix.mul_assoc D,
      mul_nonsing_inv _ hu, Matrix.mul_one] at this
    exact this.symm
  have : (f.P * Hᵀ * S⁻¹) *ᵥ (y - H *ᵥ f.x) = 0 := by
    rw [← hHT, ← Matrix.mul_assoc, Matrix.mul_assoc _ D, hc', ← Matrix.mul_assoc, ← Matrix.mulVec_mulVec, hz,
      Matrix.mulVec_zero]
  rw [this, add_zero]

theorem imu_still {f f' : GyroFilter} {s : ℝ} {w b y : V3} (hx : f.x = join w b) (hy : y = w + b)
    (h : f.kalman (Himu f.cfg.flatGround) (noise3 s) y = some f') : f'.x = join w b := by
  rw [← hx]
  refine kalman_still (axes_T f.cfg.flatGround) (axes_Himu _) ?_ h
  rw [himu_sees, hx, hy]
  obtain ⟨fl, hfl⟩ : ∃ fl, f.cfg.flatGround = fl := ⟨_, rfl⟩
  rw [hfl]
  cases fl <;> ext i <;> fin_cases i <;> simp [axes, join, Matrix.mulVec_diagonal] <;> exact sub_self _

theorem enc_still {f f' : GyroFilter} {s : ℝ} {w b y : V3} (hx : f.x = join w b) (hy : y = w)
    (h : f.kalman (Henc f.cfg.flatGround) (noise3 s) y = some f') : f'.x = join w b := by
  rw [← hx]
  refine kalman_still (axes_T f.cfg.flatGround) (axes_Henc _) ?_ h
  rw [henc_sees, hx, hy]
  obtain ⟨fl, hfl⟩ : ∃ fl, f.cfg.flatGround = fl := ⟨_, rfl⟩
  rw [hfl]
  cases fl <;> ext i <;> fin_cases i <;> simp [axes, join, Matrix.mulVec_diagonal] <;> exact sub_self _

theorem kalman_keeps {f f' : GyroFilter} {H : M36} {R : M3} {y : V3} (h : f.kalman H R y = some f') :
    f'.cfg = f.cfg ∧ f'.prev = f.prev ∧ f'.initialized = f.initialized := by
  obtain ⟨-, rfl⟩ := kalman_some h
  exact ⟨rfl, rfl, rfl⟩

theorem hd_join (w b : V3) : hd (join w b) = w := by ext i; fin_cases i <;> rfl

/-- The truth `(w, b)` is known, and the propagation gyro has read `g₀` so far. -/
def Knows (c : FCfg) (w b g₀ : V3) (f : GyroFilter) : Prop :=
  f.cfg = c ∧ f.prev = g₀ ∧ ((f.initialized = true ∨ c.staticBias = false) → f.x = join w b)

theorem knows_core (c : FCfg) (w b g₀ : V3) : CoreOnly (Knows c w b g₀) := fun f g h1 h2 _ h4 h5 h =>
  ⟨h1 ▸ h.1, h4 ▸ h.2.1, fun k => h2 ▸ h.2.2 (h5 ▸ k)⟩

theorem knows_kept (c : FCfg) (w b g₀ : V3) :
    KeptOn (fun m => m.angVel = w + b) (fun a => rotInv c *ᵥ a.angVel = w) (Knows c w b g₀) := by
  rintro f f' ⟨h1, h2, h3⟩
  refine ⟨fun m hm hk => ?_, fun a ha hk => ?_⟩
  · obtain ⟨k1, k2, k3⟩ := kalman_keeps hk
    exact ⟨k1.trans h1, k2.trans h2, fun k => imu_still (h3 (k3 ▸ k)) hm hk⟩
  · obtain ⟨k1, k2, k3⟩ := kalman_keeps hk
    exact ⟨k1.trans h1, k2.trans h2, fun k => enc_still (h3 (k3 ▸ k)) (by rw [h1]; exact ha) hk⟩

theorem knows_propagate {c : FCfg} {w b g₀ : V3} {M : ImuMeas → Prop} {A : AngVelMeas → Prop} {Q B : V3 → Prop}
    {f : GyroFilter} (h : Knows c w b g₀ f) (hh : Fed (fun m => m.angVel = g₀) M A Q B f) :
    Knows c w b g₀ f.propagate := by
  obtain ⟨h1, h2, h3⟩ := h
  obtain ⟨p1, -, p3, -, p5⟩ := propagate_core f
  rcases p5 with ⟨p5, p6⟩ | ⟨m, q, hg, p5, p6⟩
  · exact ⟨p1.trans h1, p6.trans h2, fun k => by rw [p5]; exact h3 (p3 ▸ k)⟩
  · have hm : m.angVel = g₀ := hh.gyro _ hg m List.mem_cons_self
    refine ⟨p1.trans h1, p5.trans hm, fun k => ?_⟩
    rw [p6, h3 (p3 ▸ k), hm, h2, sub_self]
    ext i
    fin_cases i <;> simp [join]

/-- **C155**, the part that holds (1): while the rate `w` stays constant and the sensors have no noise (the IMUs read
`w + b`, the encoders `w` in the frame of the IMU, the propagation gyro keeps reading the same), a filter that knows rate
and bias goes on knowing them, and every output it puts out is the true rate. -/
theorem C155_constant_partial (w b g₀ : V3) (f f' : GyroFilter) (hi : f.initialized = true)
    (hx : f.x = join w b) (hp : f.prev = g₀) (ho : f.out = [])
    (hg : ∀ q, f.gyro = some q → ∀ m ∈ q, m.angVel = g₀) (hm : ∀ q, f.imu = some q → ∀ m ∈ q, m.angVel = w + b)
    (hm' : ∀ q ∈ f.imus, ∀ m ∈ q, m.angVel = w + b)
    (he : ∀ q, f.enc = some q → ∀ a ∈ q, f.cfg.rotImu2body.toRotᵀ *ᵥ a.angVel = w) (l : List Op)
    (hl : ∀ o ∈ l, match o with
      | .gyroData m => m.angVel = g₀
      | .imuData m => m.angVel = w + b
      | .imuDataN _ m => m.angVel = w + b
      | .encData a => f.cfg.rotImu2body.toRotᵀ *ᵥ a.angVel = w
      | _ => True) (h : runOps l f = some f') :
    f'.x = join w b ∧ ∀ o ∈ f'.out, o.angVel = w := by
  have hf : Fed (fun m => m.angVel = g₀) (fun m => m.angVel = w + b) (fun a => rotInv f.cfg *ᵥ a.angVel = w)
      (fun v => v = w) (fun _ => True) f := ⟨fun _ _ => trivial, hg, hm, hm', he, by rw [ho]; simp⟩
  have := runOps_fed (I := fun g => Knows f.cfg w b g₀ g ∧ g.initialized = true) (fun _ _ => trivial) ?_ ?_ ?_ ?_ ?_
    l f f' ?_ ⟨⟨rfl, hp, fun _ => hx⟩, hi⟩ hf h
  · exact ⟨this.1.1.2.2 (Or.inl this.1.2), this.2.out⟩
  · exact fun a b h1 h2 h3 h4 h5 h => ⟨knows_core _ _ _ _ a b h1 h2 h3 h4 h5 h.1, h5 ▸ h.2⟩
  · refine up_kept fun a a' ha => ⟨fun m hm hk => ⟨(knows_kept f.cfg w b g₀ a a' ha.1).1 m hm hk, (kalman_keeps hk).2.2 ▸ ha.2⟩,
      fun m hm hk => ⟨(knows_kept f.cfg w b g₀ a a' ha.1).2 m hm hk, (kalman_keeps hk).2.2 ▸ ha.2⟩⟩
  · intro a ha _
    rw [ha.1.2.2 (Or.inl ha.2), hd_join]
  · intro a ha hh
    exact ⟨knows_propagate ha.1 hh, (propagate_core a).2.2.1 ▸ ha.2⟩
  · intro a a' ha _ hn
    rw [ha.2] at hn; simp at hn
  · intro o ho
    have := hl o ho
    cases o <;> exact this

theorem gyroMean_const {l : List V3} {b : V3} (h : ∀ v ∈ l, v = b) (h0 : l.length ≠ 0) : mean l = b := by
  have hl : l = List.replicate l.length b := List.eq_replicate_iff.mpr ⟨rfl, h⟩
  ext i
  unfold mean
  rw [Pi.smul_apply, foldl_apply, hl, List.map_replicate, List.sum_replicate, List.length_replicate, smul_eq_mul,
    nsmul_eq_mul]
  field_simp

/-- **C155**, the part that holds (2): a filter that has been at rest all along, with sensors without noise (the IMUs read
their bias `b`, the encoders 0, the propagation gyro, if there is one, is unbiased) and either static initialisation or
the right bias in its configuration, puts out the rate zero only, and once initialised knows the bias. -/
theorem C155_rest_partial (c : FCfg) (b : V3) (f₀ f : GyroFilter) (h0 : Fresh0 c f₀)
    (hb : c.staticBias = false → c.prior = b) (l : List Op) (h : runOps l f₀ = some f)
    (hl : ∀ o ∈ l, match o with
      | .gyroData m => m.angVel = 0
      | .imuData m => m.angVel = b
      | .imuDataN _ m => m.angVel = b
      | .encData a => a.angVel = 0
      | _ => True) :
    (f.initialized = true → f.x = join 0 b) ∧ ∀ o ∈ f.out, o.angVel = 0 := by
  have h1 : Knows c 0 b 0 f₀ := by
    rcases h0 with rfl | rfl <;> refine ⟨rfl, rfl, fun k => ?_⟩ <;>
    · rcases k with k | k
      · simp [mk1, mk5, base] at k
      · simp only [mk1, mk5, base, k, Bool.false_eq_true, if_false, hb k]
  have := runOps_fed (G := fun m => m.angVel = 0) (M := fun m => m.angVel = 0 + b)
    (A := fun a => rotInv c *ᵥ a.angVel = 0) (Q := fun v => v = 0) (B := fun v => v = b)
    (I := Knows c 0 b 0) (fun m hm => hm.trans (zero_add b)) (knows_core c 0 b 0) (up_kept (knows_kept c 0 b 0)) ?_ ?_ ?_
    l f₀ f ?_ h1 (fed_fresh h0 _ _ _ _ _) h
  · exact ⟨fun k => this.1.2.2 (Or.inl k), this.2.out⟩
  · intro g hg hi
    rw [hg.2.2 (Or.inl hi), hd_join]
  · exact fun g hg hh => knows_propagate hg hh
  · rintro g g' ⟨k1, k2, k3⟩ hh hn hr
    unfold initializeFilter at hr
    split_ifs at hr with hst
    · rw [Option.bind_eq_some_iff] at hr
      obtain ⟨n, _, hr⟩ := hr
      split_ifs at hr
      · obtain ⟨c1, c2, -, c4, -⟩ := collectBias_core hr
        refine ⟨c1.trans k1, ?_, ?_⟩
        · unfold collectBias at hr
          split at hr
          · simp at hr
          · obtain rfl := Option.some.inj hr; exact k2
          · dsimp only at hr
            split at hr
            · obtain rfl := Option.some.inj hr; exact k2
            · obtain rfl := Option.some.inj hr; exact k2
            · rename_i e
              obtain rfl := Option.some.inj hr
              exact hh.gyro _ e _ List.mem_cons_self
        · intro k
          rw [c2]
          exact k3 (c4 ▸ k)
      · obtain ⟨c0, c1, c2, -, c4, -⟩ := finishInit_core hr
        refine ⟨c1.trans k1, c4.trans k2, fun _ => ?_⟩
        rw [c2, gyroMean_const hh.bias c0]
    · obtain rfl := Option.some.inj hr
      refine ⟨k1, k2, fun _ => k3 (Or.inr ?_)⟩
      rw [← k1]; simpa using hst
  · intro o ho
    have := hl o ho
    cases o <;> first
      | exact this
      | trivial
      | (simp only at this; simp only [OpOK]; rw [this]; simp)

/-! ### It fails when the rate changes, and for a biased propagation gyro -/

/-- the IMU correction of a filter whose covariance is still diagonal -/
theorem kalman_diag {f : GyroFilter} {p q s : ℝ} (hP : f.P = Matrix.diagonal fun i => if i.val < 3 then p else q)
    (hs : p + q + s ^ 2 ≠ 0) (y : V3) {fl : Bool} (hfl : fl = true) :
    ∃ f', f.kalman (Himu fl) (noise3 s) y = some f' ∧ f'.out = f.out ∧
      hd f'.x = hd f.x + (p / (p + q + s ^ 2)) • (y - hd f.x - tl f.x) := by
  subst hfl
  have hS : Himu true * f.P * (Himu true)ᵀ + noise3 s = (p + q + s ^ 2) • (1 : M3) := by
    rw [hP]
    ext i j
    rw [Matrix.add_apply, Matrix.mul_apply]
    simp only [Matrix.mul_diagonal]
    fin_cases i <;> fin_cases j <;> simp [Himu, noise3, Fin.sum_univ_succ] <;> ring
  have hd0 : (Himu true * f.P * (Himu true)ᵀ + noise3 s).det ≠ 0 := by
    rw [hS, Matrix.det_smul, Matrix.det_one, mul_one]
    exact pow_ne_zero _ hs
  have hI : (Himu true * f.P * (Himu true)ᵀ + noise3 s)⁻¹ = (p + q + s ^ 2)⁻¹ • (1 : M3) := by
    rw [hS]
    refine Matrix.inv_eq_right_inv ?_
    rw [Matrix.smul_mul, Matrix.one_mul, smul_smul, mul_inv_cancel₀ hs, one_smul]
  have hk : f.kalman (Himu true) (noise3 s) y = some { f with
      x := f.x + (f.P * (Himu true)ᵀ * (Himu true * f.P * (Himu true)ᵀ + noise3 s)⁻¹) *ᵥ (y - Himu true *ᵥ f.x)
      P := (1 - f.P * (Himu true)ᵀ * (Himu true * f.P * (Himu true)ᵀ + noise3 s)⁻¹ * Himu true) * f.P } := by
    unfold kalman
    dsimp only
    rw [if_neg hd0]
  refine ⟨_, hk, rfl, ?_⟩
  dsimp only
  rw [hI, hP, himu_sees]
  ext i
  fin_cases i <;>
    simp [hd, tl, Himu, Matrix.mulVec, dotProduct, Fin.sum_univ_succ, Matrix.mul_apply, Matrix.diagonal] <;> ring

theorem diag6_add (a b a' b' : ℝ) : diag6 a b + diag6 a' b' =
    Matrix.diagonal fun i => if i.val < 3 then a ^ 2 + a' ^ 2 else b ^ 2 + b' ^ 2 := by
  ext i j
  fin_cases i <;> fin_cases j <;> simp [diag6, Matrix.diagonal, pow_two]

open Classical in
theorem fuseImu_fresh {f k : GyroFilter} {m : ImuMeas} (q : List ImuMeas) (hf : f.Fresh m.time)
    (h : GyroFilter.kalman { f with latest := some m } (Himu f.cfg.flatGround) (noise3 f.cfg.imuStd) m.angVel = some k) :
    f.fuseImu m q = some { k.push { m with angVel := hd k.x } with imu := some q } := by
  unfold fuseImu
  dsimp only
  rw [if_pos (c := Fresh { f with latest := some m } m.time) hf]
  unfold correctImu
  dsimp only
  rw [h]
  rfl

open Classical in
theorem singleImu_fresh {f k : GyroFilter} {m : ImuMeas} {q : List ImuMeas} (hq : f.imu = some (m :: q))
    (hf : f.lastProp - m.time ≤ f.cfg.tThres ∧ f.lastProp ≥ m.time)
    (h : GyroFilter.kalman { f with imu := some q } (Himu f.cfg.flatGround) (noise3 f.cfg.imuStd) m.angVel = some k) :
    f.singleImu = some (k.push { m with angVel := hd k.x }) := by
  unfold singleImu
  rw [hq]
  dsimp only
  rw [if_pos hf]
  unfold correctImu
  dsimp only
  rw [h]
  rfl

/-- **C155** is false in general (1): the rate was 0 and known, bias known too, all three axes measured; the first
reading of an IMU without noise, of the new rate `w`, makes the filter put out only the fraction
`p / (p + q + r)` of the rate, where `p`, `q` and `r` are the variances of rate, bias and IMU. -/
theorem C155_lags (c : FCfg) (w : V3) (hf : c.flatGround = true) (hs : c.staticBias = false) (hr : c.imuStd ≠ 0) :
    ∃ f o, runOps [.addImu, .addAngVel, .run, .imuData ⟨1, w + c.prior, 0, Quat.id⟩, .run] (mk1 c) = some f ∧
      f.out = [o] ∧ o.angVel = ((c.angVelStd ^ 2 + c.filterStd ^ 2) /
        (c.angVelStd ^ 2 + c.filterStd ^ 2 + (c.biasStd ^ 2 + c.filterBiasStd ^ 2) + c.imuStd ^ 2)) • w := by
  have hp : 0 < c.imuStd ^ 2 := by positivity
  obtain ⟨f', h1, h2, h3⟩ := kalman_diag (f := { base c with
      imu := some [⟨1, w + c.prior, 0, Quat.id⟩]
      enc := some []
      numImu := 1
      numAngVel := 1
      method := .imuPlusAngVel
      initialized := true
      latest := some ⟨1, w + c.prior, 0, Quat.id⟩
      P := diag6 c.angVelStd c.biasStd + diag6 c.filterStd c.filterBiasStd }) (s := c.imuStd) (diag6_add _ _ _ _)
    (by positivity) (w + c.prior) hf
  have hx : (base c).x = join 0 c.prior := by simp [base, hs]
  refine ⟨{ f'.push { (⟨1, w + c.prior, 0, Quat.id⟩ : ImuMeas) with angVel := hd f'.x } with imu := some [] },
    ⟨1, hd f'.x, 0, Quat.id⟩, ?_, ?_, ?_⟩
  · have h1' : runOps [.addImu, .addAngVel, .run, .imuData ⟨1, w + c.prior, 0, Quat.id⟩] (mk1 c) = some { base c with
        imu := some [⟨1, w + c.prior, 0, Quat.id⟩]
        enc := some []
        numImu := 1
        numAngVel := 1
        method := .imuPlusAngVel
        initialized := true } := by
      simp [runOps, step, mk1, addImu, addAngVel, runOnce, initializeFilter, chooseMethod, base, hs]
    rw [show [Op.addImu, .addAngVel, .run, .imuData ⟨1, w + c.prior, 0, Quat.id⟩, .run] =
      [.addImu, .addAngVel, .run, .imuData ⟨1, w + c.prior, 0, Quat.id⟩] ++ [.run] from rfl, runOps_append, h1']
    simp only [Option.bind_some, runOps, step, runOnce, if_true]
    have := fuseImu_fresh (f := { base c with
        imu := some [⟨1, w + c.prior, 0, Quat.id⟩]
        enc := some []
        numImu := 1
        numAngVel := 1
        method := .imuPlusAngVel
        initialized := true
        P := diag6 c.angVelStd c.biasStd + diag6 c.filterStd c.filterBiasStd }) (m := ⟨1, w + c.prior, 0, Quat.id⟩) []
      (Or.inl rfl) h1
    exact congrArg (fun o : Option GyroFilter => o.bind some) this
  · change f'.out ++ _ = _
    rw [h2]; rfl
  · change hd f'.x = _
    rw [h3]
    have e1 : hd ((base c).x) = 0 := by rw [hx, hd_join]
    have e2 : tl ((base c).x) = c.prior := by rw [hx]; ext i; fin_cases i <;> rfl
    dsimp only
    rw [e1, e2, zero_add, sub_zero, add_sub_cancel_right]

/-- **C155** is false in general (2): at rest, with the right bias in the configuration and without static initialisation,
the first sample of a propagation gyro enters with its bias `b`, and the correction with an exact reading of the same
sensor takes away only part of it: the filter puts out the rate `(q + r) / (p + q + r) · b` although the robot is at
rest. -/
theorem C155_first_sample (c : FCfg) (hf : c.flatGround = true) (hs : c.staticBias = false) (hr : c.imuStd ≠ 0)
    (ht : 0 ≤ c.tThres) :
    ∃ f o, runOps [.addGyro, .addImu, .run, .gyroData ⟨1, c.prior, 0, Quat.id⟩, .imuData ⟨1, c.prior, 0, Quat.id⟩, .run]
        (mk1 c) = some f ∧
      f.out = [o] ∧ o.angVel = ((c.biasStd ^ 2 + c.filterBiasStd ^ 2 + c.imuStd ^ 2) /
        (c.angVelStd ^ 2 + c.filterStd ^ 2 + (c.biasStd ^ 2 + c.filterBiasStd ^ 2) + c.imuStd ^ 2)) • c.prior := by
  have hp : 0 < c.imuStd ^ 2 := by positivity
  have hx : (base c).x = join 0 c.prior := by simp [base, hs]
  obtain ⟨f', h1, h2, h3⟩ := kalman_diag (f := { base c with
      gyro := some []
      imu := some []
      numImu := 1
      method := .singleImu
      initialized := true
      lastProp := 1
      prev := c.prior
      x := join (c.prior - (0 : V3)) 0 + (base c).x
      P := diag6 c.angVelStd c.biasStd + diag6 c.filterStd c.filterBiasStd }) (s := c.imuStd) (diag6_add _ _ _ _)
    (by positivity) c.prior hf
  refine ⟨f'.push { (⟨1, c.prior, 0, Quat.id⟩ : ImuMeas) with angVel := hd f'.x },
    ⟨1, hd f'.x, 0, Quat.id⟩, ?_, ?_, ?_⟩
  · have h1' : runOps [.addGyro, .addImu, .run, .gyroData ⟨1, c.prior, 0, Quat.id⟩, .imuData ⟨1, c.prior, 0, Quat.id⟩]
        (mk1 c) = some { base c with
        gyro := some [⟨1, c.prior, 0, Quat.id⟩]
        imu := some [⟨1, c.prior, 0, Quat.id⟩]
        numImu := 1
        method := .singleImu
        initialized := true } := by
      simp [runOps, step, mk1, addGyro, addImu, runOnce, initializeFilter, chooseMethod, base, hs]
    rw [show [Op.addGyro, .addImu, .run, .gyroData ⟨1, c.prior, 0, Quat.id⟩, .imuData ⟨1, c.prior, 0, Quat.id⟩, .run] =
      [.addGyro, .addImu, .run, .gyroData ⟨1, c.prior, 0, Quat.id⟩, .imuData ⟨1, c.prior, 0, Quat.id⟩] ++ [.run] from rfl,
      runOps_append, h1']
    simp only [Option.bind_some, runOps, step, runOnce, if_true]
    have := singleImu_fresh (f := { base c with
      gyro := some []
      imu := some [⟨1, c.prior, 0, Quat.id⟩]
      numImu := 1
      method := .singleImu
      initialized := true
      lastProp := 1
      prev := c.prior
      x := join (c.prior - (0 : V3)) 0 + (base c).x
      P := diag6 c.angVelStd c.biasStd + diag6 c.filterStd c.filterBiasStd }) (m := ⟨1, c.prior, 0, Quat.id⟩) (q := []) rfl
      ⟨(by rw [sub_self]; exact ht : (1 : ℝ) - 1 ≤ c.tThres), le_refl _⟩ h1
    exact congrArg (fun o : Option GyroFilter => o.bind some) this
  · change f'.out ++ _ = _
    rw [h2]; rfl
  · change hd f'.x = _
    rw [h3]
    have e1 : hd (join (c.prior - 0) 0 + (base c).x) = c.prior := by
      rw [hx]; ext i; fin_cases i <;> simp [hd, join]
    have e2 : tl (join (c.prior - 0) 0 + (base c).x) = c.prior := by
      rw [hx]; ext i; fin_cases i <;> simp [tl, join]
    dsimp only
    rw [e1, e2, sub_self, zero_sub]
    have hne : c.angVelStd ^ 2 + c.filterStd ^ 2 + (c.biasStd ^ 2 + c.filterBiasStd ^ 2) + c.imuStd ^ 2 ≠ 0 := by
      positivity
    ext i
    simp only [Pi.add_apply, Pi.smul_apply, Pi.neg_apply, smul_eq_mul]
    field_simp
    ring

/-- the hypotheses of the part that holds are met: the example settings, one reading of each sensor -/
example : ∃ f, runOps ([.addImu, .addAngVel] ++ [.run, .imuData ⟨1, (exFCfg false).prior, 0, Quat.id⟩, .run,
    .encData ⟨2, 0⟩, .run]) (mk1 (exFCfg false)) = some f ∧ ∀ o ∈ f.out, o.angVel = 0 := by
  obtain ⟨f, hf⟩ := C72_defined_partial (exFCfg false) (exFCfg_noisy _) [.addImu, .addAngVel]
    [.run, .imuData ⟨1, (exFCfg false).prior, 0, Quat.id⟩, .run, .encData ⟨2, 0⟩, .run] (by simp [Op.isAdd])
    (Or.inr (Or.inr (Or.inl (by decide)))) (by simp [exFCfg]) (by simp [Op.running])
  exact ⟨f, hf, (C155_rest_partial (exFCfg false) _ _ f (Or.inl rfl) (fun _ => rfl) _ hf (by simp)).2⟩

end Drift
