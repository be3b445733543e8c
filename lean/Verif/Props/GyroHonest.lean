import Verif.Lemmas.Filter11
import Verif.Props.GyroOpt
import Mathlib.Algebra.Order.BigOperators.Ring.Finset

/-!
# The covariance of the gyro filter is honest, and its error dies out
-/
set_option linter.unusedSimpArgs false
namespace Drift
open Matrix GyroFilter

/-! ### one event -/

/-- what holds of the filter along a history -/
structure Tracks (s : ℝ) (τ : V6) (f : GyroFilter) : Prop where
  init : f.initialized = true
  one : f.method ≠ .multiImu
  psd : f.P.PosSemidef
  sds : Sds s f.P (f.x - τ)

theorem tracks_other {s : ℝ} {τ : V6} {f f' : GyroFilter} {o : Op} (h : Tracks s τ f) (ho : o ≠ .run)
    (hs : f.step o = some f') : Tracks s τ f' := by
  obtain ⟨h1, h2, h3, h4⟩ := h
  cases o with
  | run => exact absurd rfl ho
  | clear =>
    simp only [step, GyroFilter.clear, Option.bind_eq_some_iff, Option.map_eq_some_iff] at hs
    obtain ⟨_, _, _, _, rfl⟩ := hs
    exact ⟨h1, h2, h3, h4⟩
  | addImu =>
    simp only [step, Option.some.injEq] at hs
    subst hs
    unfold addImu
    dsimp only
    split_ifs <;> exact ⟨h1, h2, h3, h4⟩
  | _ =>
    simp only [step, Option.some.injEq] at hs
    subst hs
    exact ⟨h1, h2, h3, h4⟩

/-- a run, after a prediction with an error of `s'` standard deviations -/
theorem tracks_run {s s' ν : ℝ} {τ τ' : V6} {f f' : GyroFilter} (hs' : 0 ≤ s') (hν : 0 ≤ ν) (h : Tracks s τ f)
    (hp : Sds s' f.propagate.P (f.propagate.x - τ')) (hr : f.step .run = some f')
    (hm : ∀ m q, f.imu = some (m :: q) → f'.imu = some q →
      Sds ν (f.cfg.imuStd ^ 2 • (1 : M3)) (imuNoise f.cfg.flatGround τ' m.angVel))
    (ha : ∀ a q, f.enc = some (a :: q) → f'.enc = some q →
      Sds ν (f.cfg.encStd ^ 2 • (1 : M3)) (encNoise f.cfg.flatGround τ' (f.cfg.rotImu2body.toRotᵀ *ᵥ a.angVel))) :
    Tracks (√(s' ^ 2 + ν ^ 2)) τ' f' := by
  obtain ⟨h1, h2, h3, -⟩ := h
  simp only [step, runOnce, h1, if_true] at hr
  obtain ⟨p1, p2, p3, -⟩ := propagate_core f
  obtain ⟨q1, q2, q3, q4, -⟩ := propagate_frame f
  obtain ⟨⟨c1, c2, c3⟩, ho⟩ := correctStep_once (by rw [p2]; exact h2) hr
  have := once_sds hs' hν (propagate_psd h3) hp ho (fun m q e e' => by rw [p1]; exact hm m q (q2 ▸ e) e')
    (fun a q e e' => by rw [p1]; exact ha a q (q4 ▸ e) e')
  exact ⟨c2.trans (p3.trans h1), by rw [c3, p2]; exact h2, this.2, this.1⟩

/-! ### C157 -/

theorem tracks_follows {ν κ s : ℝ} {Ok : GyroFilter → Prop} {f : GyroFilter} {τ : V6} (hν : 0 ≤ ν) (hκ : 0 ≤ κ) (hs : 0 ≤ s)
    (h0 : Tracks s τ f) {n : ℕ} {g : GyroFilter} {σ : V6} (h : Follows ν κ Ok f τ n g σ) :
    Tracks (√(s ^ 2 + n * (κ ^ 2 + ν ^ 2))) σ g := by
  induction h with
  | start => simpa [Real.sqrt_sq hs] using h0
  | other _ ho hst ih => exact tracks_other ih ho hst
  | @run n g g' σ σ' _ _ hmv hst hm ha ih =>
    have hp := predicted_sds (Real.sqrt_nonneg _) hκ ih.psd ih.sds (propagate_predicted g) hmv
    have := tracks_run (Real.sqrt_nonneg _) hν ih hp hst hm ha
    rw [Real.sq_sqrt (by positivity), Real.sq_sqrt (by positivity)] at this
    push_cast
    rwa [show s ^ 2 + (n : ℝ) * (κ ^ 2 + ν ^ 2) + κ ^ 2 + ν ^ 2 = s ^ 2 + (n + 1) * (κ ^ 2 + ν ^ 2) by ring] at this

/-- **C157**: the covariance is honest.  If the error of the estimate is at most `s` claimed standard deviations, rate and
bias change by at most `κ` standard deviations of the process noise per run, and the measurements used are within `ν` of their
standard deviations, then after `n` runs the error is at most `√(s² + n (κ² + ν²))` claimed standard deviations, in every
direction, whatever happens to the filter. -/
theorem C157_honest (c : FCfg) (f₀ f g : GyroFilter) (h0 : Fresh0 c f₀) (l : List Op) (h : runOps l f₀ = some f)
    (hi : f.initialized = true) (h1 : f.method ≠ .multiImu) (τ σ : V6) (s ν κ : ℝ) (hs : 0 ≤ s) (hν : 0 ≤ ν) (hκ : 0 ≤ κ)
    (he : Sds s f.P (f.x - τ)) (n : ℕ) (hf : Follows ν κ (fun _ => True) f τ n g σ) :
    Sds (√(s ^ 2 + n * (κ ^ 2 + ν ^ 2))) g.P (g.x - σ) :=
  (tracks_follows hν hκ hs ⟨hi, h1, (reach_psd h0 h).1, he⟩ hf).sds

/-- **C157**, the case without noise: the claimed standard deviations of the error never grow. -/
theorem C157_exact_sensors (c : FCfg) (f₀ f g : GyroFilter) (h0 : Fresh0 c f₀) (l : List Op) (h : runOps l f₀ = some f)
    (hi : f.initialized = true) (h1 : f.method ≠ .multiImu) (τ σ : V6) (s : ℝ) (hs : 0 ≤ s)
    (he : Sds s f.P (f.x - τ)) (n : ℕ) (hf : Follows 0 0 (fun _ => True) f τ n g σ) : Sds s g.P (g.x - σ) := by
  have := C157_honest c f₀ f g h0 l h hi h1 τ σ s 0 0 hs le_rfl le_rfl he n hf
  simpa [Real.sqrt_sq hs] using this

theorem sds_diag {n : Type*} [Fintype n] [DecidableEq n] {d : n → ℝ} (hd : ∀ i, d i ≠ 0) (e : n → ℝ) :
    Sds (√(∑ i, (e i / d i) ^ 2)) (Matrix.diagonal fun i => d i ^ 2) e := by
  have hv : ∀ z, varIn (Matrix.diagonal fun i => d i ^ 2) z = ∑ i, (z i * d i) ^ 2 := fun z => by
    unfold varIn
    rw [dotProduct]
    refine Finset.sum_congr rfl fun i _ => ?_
    rw [Matrix.mulVec_diagonal]; ring
  intro z
  rw [hv, ← Real.sqrt_mul (Finset.sum_nonneg fun i _ => sq_nonneg _), ← Real.sqrt_sq_eq_abs]
  refine Real.sqrt_le_sqrt ?_
  have := Finset.sum_mul_sq_le_sq_mul_sq Finset.univ (fun i => e i / d i) (fun i => z i * d i)
  refine le_trans (le_of_eq ?_) this
  rw [dotProduct]
  congr 1
  refine Finset.sum_congr rfl fun i _ => ?_
  have := hd i
  field_simp

/-- **C157**: for a sensor of standard deviation `σ` on each axis, "within `ν` standard deviations" means a noise of length
at most `ν σ`. -/
theorem C157_sensor (ν σ : ℝ) (hν : 0 ≤ ν) (hσ : 0 ≤ σ) (e : V3) :
    Sds ν (σ ^ 2 • (1 : M3)) e ↔ √(e 0 ^ 2 + e 1 ^ 2 + e 2 ^ 2) ≤ ν * σ := by
  have hv : ∀ z : V3, varIn (σ ^ 2 • (1 : M3)) z = σ ^ 2 * (z ⬝ᵥ z) := fun z => by
    unfold varIn
    rw [Matrix.smul_mulVec, Matrix.one_mulVec, dotProduct_smul, smul_eq_mul]
  have hn : e 0 ^ 2 + e 1 ^ 2 + e 2 ^ 2 = e ⬝ᵥ e := by simp [dotProduct, Fin.sum_univ_three, pow_two]
  rw [hn]
  have h0 : 0 ≤ e ⬝ᵥ e := by rw [← hn]; positivity
  constructor
  · intro h
    have := h e
    rw [hv, Real.sqrt_mul (sq_nonneg _), Real.sqrt_sq hσ, abs_of_nonneg h0, ← mul_assoc] at this
    by_cases hz : e ⬝ᵥ e = 0
    · rw [hz, Real.sqrt_zero]; positivity
    · have hp : 0 < √(e ⬝ᵥ e) := Real.sqrt_pos.mpr (lt_of_le_of_ne h0 (Ne.symm hz))
      have h2 : √(e ⬝ᵥ e) * √(e ⬝ᵥ e) ≤ ν * σ * √(e ⬝ᵥ e) := by rw [Real.mul_self_sqrt h0]; exact this
      exact le_of_mul_le_mul_right h2 hp
  · intro h z
    rw [hv, Real.sqrt_mul (sq_nonneg _), Real.sqrt_sq hσ, ← mul_assoc, ← Real.sqrt_sq_eq_abs]
    have hzz : 0 ≤ z ⬝ᵥ z := by simp only [dotProduct, Fin.sum_univ_three]; nlinarith [mul_self_nonneg (z 0), mul_self_nonneg (z 1), mul_self_nonneg (z 2)]
    have hcs : (z ⬝ᵥ e) ^ 2 ≤ (e ⬝ᵥ e) * (z ⬝ᵥ z) := by
      have := Finset.sum_mul_sq_le_sq_mul_sq Finset.univ e z
      simp only [dotProduct]
      refine le_trans (le_of_eq ?_) (this.trans (le_of_eq ?_))
      · congr 1; exact Finset.sum_congr rfl fun i _ => mul_comm _ _
      · congr 1 <;> exact Finset.sum_congr rfl fun i _ => pow_two _
    refine (Real.sqrt_le_sqrt hcs).trans ?_
    rw [Real.sqrt_mul h0]
    exact mul_le_mul_of_nonneg_right h (Real.sqrt_nonneg _)

/-! ### the beginning -/

theorem correctStep_init {f f' : GyroFilter} (hi : f.initialized = true) (h : f.correctStep = some f') : f'.initialized = true := by
  refine correctStep_inv (I := fun g => g.initialized = true) (fun a b _ _ _ _ h5 h => h5.symm.trans h) ?_ hi h
  rintro a a' y ha (hk | hk) <;> (obtain ⟨-, rfl⟩ := kalman_some hk; exact ha)

theorem before_init {c : FCfg} : ∀ (l : List Op) (f f' : GyroFilter),
    (f.initialized = false → f.P = diag6 c.angVelStd c.biasStd) → runOps l f = some f' →
    f'.initialized = false → f'.P = diag6 c.angVelStd c.biasStd
  | [], f, f', h, hr => by
    rw [runOps] at hr
    obtain rfl := Option.some.inj hr
    exact h
  | o :: l, f, f', h, hr => by
    rw [runOps, Option.bind_eq_some_iff] at hr
    obtain ⟨g, h1, h2⟩ := hr
    refine before_init l g f' ?_ h2
    cases o with
    | run =>
      simp only [step, runOnce] at h1
      split_ifs at h1 with hi
      · intro hn
        have := correctStep_init ((propagate_core f).2.2.1.trans hi) h1
        rw [this] at hn; simp at hn
      · have hP := h (by simpa using hi)
        intro _
        unfold initializeFilter at h1
        split_ifs at h1
        · rw [Option.bind_eq_some_iff] at h1
          obtain ⟨n, _, h1⟩ := h1
          split_ifs at h1
          · exact (collectBias_core h1).2.2.1.trans hP
          · exact (finishInit_core h1).2.2.2.1.trans hP
        · obtain rfl := Option.some.inj h1; exact hP
    | clear =>
      simp only [step, GyroFilter.clear, Option.bind_eq_some_iff, Option.map_eq_some_iff] at h1
      obtain ⟨_, _, _, _, rfl⟩ := h1
      exact h
    | addImu =>
      simp only [step, Option.some.injEq] at h1
      subst h1
      unfold addImu
      dsimp only
      split_ifs <;> exact h
    | _ =>
      simp only [step, Option.some.injEq] at h1
      subst h1
      exact h

/-- **C157**, the beginning: when the filter has just been initialised (with or without static initialisation), the error of its
estimate is at most `√(|rate error|² / ang_vel_std² + |bias error|² / ang_vel_bias_std²)` claimed standard deviations. -/
theorem C157_start (c : FCfg) (f₀ f g : GyroFilter) (h0 : Fresh0 c f₀) (l : List Op) (h : runOps l f₀ = some f)
    (hi : f.initialized = false) (hr : f.runOnce = some g) (ha : c.angVelStd ≠ 0) (hb : c.biasStd ≠ 0)
    (τ e : V6) (he : e = g.x - τ) :
    Sds (√((e 0 ^ 2 + e 1 ^ 2 + e 2 ^ 2) / c.angVelStd ^ 2 + (e 3 ^ 2 + e 4 ^ 2 + e 5 ^ 2) / c.biasStd ^ 2)) g.P (g.x - τ) := by
  have hP0 : f.P = diag6 c.angVelStd c.biasStd := before_init l f₀ f (fun _ => by rcases h0 with rfl | rfl <;> rfl) h hi
  have hP : g.P = diag6 c.angVelStd c.biasStd := by
    unfold runOnce at hr
    rw [hi] at hr
    simp only [Bool.false_eq_true, if_false] at hr
    unfold initializeFilter at hr
    split_ifs at hr
    · rw [Option.bind_eq_some_iff] at hr
      obtain ⟨n, _, hr⟩ := hr
      split_ifs at hr
      · exact (collectBias_core hr).2.2.1.trans hP0
      · exact (finishInit_core hr).2.2.2.1.trans hP0
    · obtain rfl := Option.some.inj hr; exact hP0
  have := sds_diag (d := ![c.angVelStd, c.angVelStd, c.angVelStd, c.biasStd, c.biasStd, c.biasStd])
    (by intro i; fin_cases i <;> simp [ha, hb]) (g.x - τ)
  rw [hP]
  have e1 : diag6 c.angVelStd c.biasStd = Matrix.diagonal fun i =>
      (![c.angVelStd, c.angVelStd, c.angVelStd, c.biasStd, c.biasStd, c.biasStd] : V6) i ^ 2 := by
    unfold diag6
    congr 1
    ext i
    fin_cases i <;> simp [pow_two]
  rw [e1]
  refine this.mono (le_of_eq ?_)
  congr 1
  rw [he]
  simp [Fin.sum_univ_succ]
  ring

/-! ### C158 -/

/-- **C158**: old errors die out.  While the claimed variances stay below `p`, with a process noise of at least `q > 0` in
every direction, each run multiplies the error (in claimed standard deviations) by `ρ = 1 / √(1 + q / p) < 1` and adds at most
`κ + ν`; so whatever the error was at the beginning, it ends up at most `(κ + ν) / (1 - ρ)` standard deviations. -/
theorem C158_forgets (c : FCfg) (f₀ f g : GyroFilter) (h0 : Fresh0 c f₀) (l : List Op) (h : runOps l f₀ = some f)
    (hi : f.initialized = true) (h1 : f.method ≠ .multiImu) (τ σ : V6) (s ν κ p q : ℝ) (hs : 0 ≤ s) (hν : 0 ≤ ν) (hκ : 0 ≤ κ)
    (hp : 0 < p) (hq : 0 < q) (hq1 : q ≤ c.filterStd ^ 2) (hq2 : q ≤ c.filterBiasStd ^ 2) (he : Sds s f.P (f.x - τ)) (n : ℕ)
    (hf : Follows ν κ (fun g => g.cfg = c ∧ g.gyro ≠ some [] ∧ ∀ z, varIn g.P z ≤ p * (z ⬝ᵥ z)) f τ n g σ)
    (ρ : ℝ) (hρ : ρ = 1 / √(1 + q / p)) :
    0 < ρ ∧ ρ < 1 ∧ Sds (ρ ^ n * s + (κ + ν) / (1 - ρ)) g.P (g.x - σ) := by
  have hr1 : 1 < 1 + q / p := by have := div_pos hq hp; linarith
  have hρ0 : 0 < ρ := by rw [hρ]; positivity
  have hρ1 : ρ < 1 := by
    rw [hρ, div_lt_one (by positivity)]
    exact Real.lt_sqrt_of_sq_lt (by linarith)
  refine ⟨hρ0, hρ1, ?_⟩
  have hρ2 : ρ ^ 2 * (1 + q / p) = 1 := by
    rw [hρ, div_pow, one_pow, Real.sq_sqrt (by positivity)]; field_simp
  have h1ρ : 0 < 1 - ρ := by linarith
  have hB : 0 ≤ (κ + ν) / (1 - ρ) := by positivity
  have hB2 : ρ * ((κ + ν) / (1 - ρ)) + (κ + ν) = (κ + ν) / (1 - ρ) := by field_simp; ring
  have h0' : Tracks s τ f := ⟨hi, h1, (reach_psd h0 h).1, he⟩
  suffices key : Tracks (ρ ^ n * s + (κ + ν) / (1 - ρ)) σ g from key.sds
  clear hρ
  induction hf with
  | start => exact ⟨h0'.init, h0'.one, h0'.psd, h0'.sds.mono (by simpa using hB)⟩
  | other _ ho hst ih => exact tracks_other ih ho hst
  | @run n g g' σ σ' _ hok hmv hst hm ha ih =>
    obtain ⟨ok1, ok2, ok3⟩ := hok
    set S := ρ ^ n * s + (κ + ν) / (1 - ρ) with hS
    have hS0 : 0 ≤ S := by rw [hS]; positivity
    -- the prediction
    have hpred : Sds (ρ * S + κ) g.propagate.P (g.propagate.x - σ') := by
      obtain ⟨Q, hQ, hpr⟩ := propagate_predicted g
      obtain ⟨Q', hQ', hmv⟩ := hmv
      obtain rfl := process_unique hQ hQ'
      have hQp := process_psd hQ
      have hQz : ∀ z, q * (z ⬝ᵥ z) ≤ varIn Q z := fun z => by
        rw [hQ]
        unfold varIn
        simp only [dotProduct, Matrix.mulVec_diagonal, Fin.sum_univ_succ, Fin.sum_univ_zero]
        rw [ok1]
        simp
        have a0 := mul_le_mul_of_nonneg_right hq1 (mul_self_nonneg (z 0))
        have a1 := mul_le_mul_of_nonneg_right hq1 (mul_self_nonneg (z 1))
        have a2 := mul_le_mul_of_nonneg_right hq1 (mul_self_nonneg (z 2))
        have a3 := mul_le_mul_of_nonneg_right hq2 (mul_self_nonneg (z 3))
        have a4 := mul_le_mul_of_nonneg_right hq2 (mul_self_nonneg (z 4))
        have a5 := mul_le_mul_of_nonneg_right hq2 (mul_self_nonneg (z 5))
        have e3 : (Fin.succ 2 : Fin 6) = 3 := rfl
        linarith
      have gen : ∀ d : V6, Sds κ Q d → Sds (ρ * S + κ) (g.P + Q) (g.x - σ + -d) := by
        intro d hd z
        have hPz := varIn_nonneg ih.psd z
        have hQ0 := varIn_nonneg hQp z
        rw [varIn_add, dotProduct_add, add_mul]
        refine (abs_add_le _ _).trans (add_le_add ?_ ?_)
        · refine (ih.sds z).trans ?_
          rw [mul_comm ρ, mul_assoc]
          refine mul_le_mul_of_nonneg_left ?_ hS0
          rw [← Real.sqrt_sq hρ0.le, ← Real.sqrt_mul (sq_nonneg _)]
          refine Real.sqrt_le_sqrt ?_
          have k1 : q / p * varIn g.P z ≤ varIn Q z := by
            refine le_trans ?_ (hQz z)
            rw [div_mul_eq_mul_div, div_le_iff₀ hp, mul_assoc]
            exact (mul_le_mul_of_nonneg_left (ok3 z) hq.le).trans (le_of_eq (by ring))
          calc varIn g.P z = ρ ^ 2 * ((1 + q / p) * varIn g.P z) := by rw [← mul_assoc, hρ2, one_mul]
            _ ≤ ρ ^ 2 * (varIn g.P z + varIn Q z) :=
              mul_le_mul_of_nonneg_left (by rw [add_mul, one_mul]; linarith) (sq_nonneg _)
        · refine (hd.neg z).trans (mul_le_mul_of_nonneg_left (Real.sqrt_le_sqrt (by linarith)) hκ)
      rcases hpr with ⟨g1, e1, e2⟩ | ⟨g1, e1, e2⟩ | ⟨gg, qq, g1, e2, e1⟩
      · rcases hmv with ⟨g2, k⟩ | ⟨g2, k⟩ | ⟨g', q', g2, k⟩ <;> rw [g1] at g2 <;> try (simp at g2; done)
        have := gen _ k
        rw [e1, e2]
        rwa [show g.x - σ + -(σ' - σ) = g.x - σ' by abel] at this
      · exact absurd g1 ok2
      · rcases hmv with ⟨g2, k⟩ | ⟨g2, k⟩ | ⟨g', q', g2, k⟩ <;> rw [g1] at g2 <;> try (simp at g2; done)
        obtain ⟨rfl, rfl⟩ := List.cons.inj (Option.some.inj g2)
        have := gen _ k
        rw [e1, e2]
        refine (congrArg (Sds _ _) ?_).mp this
        abel
    have := tracks_run (by positivity) hν ih hpred hst hm ha
    refine ⟨this.init, this.one, this.psd, this.sds.mono ?_⟩
    have k1 : √((ρ * S + κ) ^ 2 + ν ^ 2) ≤ ρ * S + κ + ν := by
      rw [Real.sqrt_le_left (by positivity)]
      nlinarith [mul_nonneg (by positivity : 0 ≤ ρ * S + κ) hν]
    refine k1.trans (le_of_eq ?_)
    rw [hS, pow_succ]
    linear_combination hB2

/-- **C158**, exact sensors: if the truth stays as it is and the measurements have no noise, the errors of rate and bias go to
zero exponentially in the number of runs, however wrong the initial bias was. -/
theorem C158_converges (c : FCfg) (f₀ f g : GyroFilter) (h0 : Fresh0 c f₀) (l : List Op) (h : runOps l f₀ = some f)
    (hi : f.initialized = true) (h1 : f.method ≠ .multiImu) (τ σ : V6) (s p q : ℝ) (hs : 0 ≤ s)
    (hp : 0 < p) (hq : 0 < q) (hq1 : q ≤ c.filterStd ^ 2) (hq2 : q ≤ c.filterBiasStd ^ 2) (he : Sds s f.P (f.x - τ)) (n : ℕ)
    (hf : Follows 0 0 (fun g => g.cfg = c ∧ g.gyro ≠ some [] ∧ ∀ z, varIn g.P z ≤ p * (z ⬝ᵥ z)) f τ n g σ)
    (hg : ∀ z, varIn g.P z ≤ p * (z ⬝ᵥ z)) :
    0 < 1 / √(1 + q / p) ∧ 1 / √(1 + q / p) < 1 ∧
      ∀ z : V6, z ⬝ᵥ z = 1 → |z ⬝ᵥ (g.x - σ)| ≤ (1 / √(1 + q / p)) ^ n * (s * √p) := by
  obtain ⟨k1, k2, k3⟩ := C158_forgets c f₀ f g h0 l h hi h1 τ σ s 0 0 p q hs le_rfl le_rfl hp hq hq1 hq2 he n hf _ rfl
  refine ⟨k1, k2, fun z hz => ?_⟩
  refine (k3 z).trans ?_
  rw [add_zero, zero_div, add_zero, mul_assoc]
  refine mul_le_mul_of_nonneg_left (mul_le_mul_of_nonneg_left (Real.sqrt_le_sqrt ?_) hs) (by positivity)
  have := hg z
  rwa [hz, mul_one] at this

/-- **C158**: where such a bound `p` comes from: when all three axes are measured, an IMU measurement and, after it, an encoder
measurement have been used, with `runs l` runs between them and `runs l'` runs since, the claimed variances are at most `p` as
below, whatever they were before. -/
theorem C158_bounded (c : FCfg) (f₀ f1 f2 f3 f4 f5 : GyroFilter) (h0 : Fresh0 c f₀) (l₀ l l' : List Op)
    (h1 : runOps l₀ f₀ = some f1) (h2 : UsesImu f1 f2) (h3 : runOps l f2 = some f3) (h4 : UsesEnc f3 f4)
    (h5 : runOps l' f4 = some f5) (hflat : c.flatGround = true) (z : V6) :
    varIn f5.P z ≤ 2 * (c.imuStd ^ 2 + 2 * c.encStd ^ 2 +
      (runs l + runs l' + 1) * (c.filterStd ^ 2 + c.filterBiasStd ^ 2)) * (z ⬝ᵥ z) := by
  set u : V3 := ![z 0, z 1, z 2] with hu
  set v : V3 := ![z 3, z 4, z 5] with hv
  have hz : z = rateDir u + biasDir v := by
    ext i; fin_cases i <;> simp [rateDir, biasDir, hu, hv]
  have hzz : z ⬝ᵥ z = u ⬝ᵥ u + v ⬝ᵥ v := by
    simp [dotProduct, Fin.sum_univ_succ, hu, hv]
    ring
  have a1 := C154_imu_then_enc c f₀ f1 f2 f3 f4 f5 h0 l₀ l l' h1 h2 h3 h4 h5 v (Or.inl hflat)
  have hr2 : runOps (l₀ ++ [.run]) f₀ = some f2 := by
    rw [runOps_append, h1]; simp only [Option.bind_some, runOps, step]; rw [h2.1]; rfl
  have hr3 : runOps (l₀ ++ [.run] ++ l) f₀ = some f3 := by rw [runOps_append, hr2]; exact h3
  have hr4 : runOps (l₀ ++ [.run] ++ l ++ [.run]) f₀ = some f4 := by
    rw [runOps_append, hr3]; simp only [Option.bind_some, runOps, step]; rw [h4.1]; rfl
  have b1 := C153_enc_variance c f₀ f3 f4 h0 _ hr3 h4 u (Or.inl hflat)
  obtain ⟨hP4, hc4⟩ := reach_psd h0 hr4
  have b2 := (runOps_varLe l' _ f4 f5 ⟨hc4, hP4, b1⟩ h5)
  rw [varIn_Q_rate] at b2
  have hpar : varIn f5.P (rateDir u + biasDir v) ≤ 2 * varIn f5.P (rateDir u) + 2 * varIn f5.P (biasDir v) := by
    have hn := varIn_nonneg b2.2.1 (rateDir u - biasDir v)
    have e : varIn f5.P (rateDir u + biasDir v) + varIn f5.P (rateDir u - biasDir v) =
        2 * varIn f5.P (rateDir u) + 2 * varIn f5.P (biasDir v) := by
      unfold varIn
      rw [Matrix.mulVec_add, Matrix.mulVec_sub, add_dotProduct, sub_dotProduct, dotProduct_add, dotProduct_add, dotProduct_sub,
        dotProduct_sub]
      ring
    linarith
  rw [hz] at hzz ⊢
  refine hpar.trans ?_
  rw [hzz]
  have hu0 : 0 ≤ u ⬝ᵥ u := by simp only [dotProduct, Fin.sum_univ_three]; nlinarith [mul_self_nonneg (u 0), mul_self_nonneg (u 1), mul_self_nonneg (u 2)]
  have hv0 : 0 ≤ v ⬝ᵥ v := by simp only [dotProduct, Fin.sum_univ_three]; nlinarith [mul_self_nonneg (v 0), mul_self_nonneg (v 1), mul_self_nonneg (v 2)]
  have c1 : varIn f5.P (rateDir u) ≤ (c.imuStd ^ 2 + 2 * c.encStd ^ 2 +
      (runs l + runs l' + 1) * (c.filterStd ^ 2 + c.filterBiasStd ^ 2)) * (u ⬝ᵥ u) := by
    refine b2.2.2.trans ?_
    rw [← mul_assoc, ← add_mul]
    refine mul_le_mul_of_nonneg_right ?_ hu0
    nlinarith [sq_nonneg c.imuStd, sq_nonneg c.encStd, mul_nonneg (Nat.cast_nonneg (α := ℝ) (runs l)) (sq_nonneg c.filterStd),
      mul_nonneg (Nat.cast_nonneg (α := ℝ) (runs l)) (sq_nonneg c.filterBiasStd), sq_nonneg c.filterStd, sq_nonneg c.filterBiasStd,
      mul_nonneg (Nat.cast_nonneg (α := ℝ) (runs l')) (sq_nonneg c.filterBiasStd)]
  have c2 : varIn f5.P (biasDir v) ≤ (c.imuStd ^ 2 + 2 * c.encStd ^ 2 +
      (runs l + runs l' + 1) * (c.filterStd ^ 2 + c.filterBiasStd ^ 2)) * (v ⬝ᵥ v) := by
    refine a1.trans (mul_le_mul_of_nonneg_right ?_ hv0)
    nlinarith [sq_nonneg c.encStd, mul_nonneg (Nat.cast_nonneg (α := ℝ) (runs l')) (sq_nonneg c.filterStd)]
  linarith

/-! ### the hypotheses are met -/

theorem sds_zero {n : Type*} [Fintype n] (P : Matrix n n ℝ) : Sds 0 P (0 : n → ℝ) := fun z => by simp

/-- a robot at rest whose IMU (without bias) and encoders read zero: any number of runs -/
theorem rest_follows (c : FCfg) (f : GyroFilter) (N : ℕ) (p : ℝ)
    (hp : ∀ z : V6, varIn f.P z + N * varIn (diag6 c.filterStd c.filterBiasStd) z ≤ p * (z ⬝ᵥ z)) :
    ∀ (k n : ℕ) (g : GyroFilter), n + k = N → PlusReady (List.replicate k ⟨1, 0, 0, Quat.id⟩) [] g → g.cfg = c → g.gyro = none →
      (∀ z, VarLe c z (varIn f.P z + n * varIn (diag6 c.filterStd c.filterBiasStd) z) g) →
      Follows 0 0 (fun g => g.cfg = c ∧ g.gyro ≠ some [] ∧ ∀ z, varIn g.P z ≤ p * (z ⬝ᵥ z)) f 0 n g 0 →
      ∃ g', Follows 0 0 (fun g => g.cfg = c ∧ g.gyro ≠ some [] ∧ ∀ z, varIn g.P z ≤ p * (z ⬝ᵥ z)) f 0 N g' 0 ∧
        ∀ z, varIn g'.P z ≤ p * (z ⬝ᵥ z)
  | 0, n, g, hn, _, _, _, hv, hf => by
    obtain rfl : n = N := by omega
    exact ⟨g, hf, fun z => (hv z).2.2.trans (hp z)⟩
  | k + 1, n, g, hn, hr, hc, hg, hv, hf => by
    have hle : ∀ (z : V6) (j : ℕ), j ≤ N → varIn f.P z + j * varIn (diag6 c.filterStd c.filterBiasStd) z ≤ p * (z ⬝ᵥ z) := by
      intro z j hj
      refine le_trans ?_ (hp z)
      have h0 := varIn_nonneg (diag6_psd c.filterStd c.filterBiasStd) z
      have : (j : ℝ) ≤ N := by exact_mod_cast hj
      nlinarith
    obtain ⟨-, p2, -, p4, -⟩ := propagate_frame g
    have e1 : g.propagate.imuPlusAngVel = g.propagate.fuseImu ⟨1, 0, 0, Quat.id⟩ (List.replicate k ⟨1, 0, 0, Quat.id⟩) := by
      unfold imuPlusAngVel
      rw [p2, p4, hr.imu, hr.enc]
      rfl
    obtain ⟨g', r1, k1, -, g1, -, c1⟩ := plus_imu hr rfl e1
    have g1' : g'.gyro = none := by rw [g1, (propagate_gyro g).1, hg]; rfl
    refine rest_follows c f N p hp k (n + 1) g' (by omega) k1 (c1.trans hc) g1' (fun z => ?_) ?_
    · have := run_varLe (hv z) r1
      push_cast
      rwa [add_mul, one_mul, ← add_assoc]
    · refine .run hf ⟨hc, by rw [hg]; simp, fun z => (hv z).2.2.trans (hle z n (by omega))⟩
        ⟨_, rfl, Or.inl ⟨hg, by rw [sub_zero]; exact sds_zero _⟩⟩ r1 ?_ ?_
      · intro m q hm _
        have hm' := hr.imu.symm.trans hm
        rw [List.replicate_succ] at hm'
        obtain ⟨rfl, -⟩ := List.cons.inj (Option.some.inj hm')
        refine (congrArg (Sds 0 _) ?_).mp (sds_zero _)
        unfold imuNoise
        split_ifs <;> (ext i; fin_cases i <;> simp)
      · intro a q ha _
        have ha' := hr.enc.symm.trans ha
        simp at ha'

theorem _root_.Drift.GyroFilter.Follows.weaken {ν κ : ℝ} {Ok : GyroFilter → Prop} {f : GyroFilter} {τ : V6} {n : ℕ} {g : GyroFilter} {σ : V6}
    (h : Follows ν κ Ok f τ n g σ) : Follows ν κ (fun _ => True) f τ n g σ := by
  induction h with
  | start => exact .start
  | other _ a b ih => exact .other ih a b
  | run _ _ a b c d ih => exact .run ih trivial a b c d

theorem imuData_keeps : ∀ (I : List ImuMeas) (f f' : GyroFilter), runOps (I.map .imuData) f = some f' → f'.P = f.P ∧ f'.x = f.x
  | [], f, f', h => by
    obtain rfl := Option.some.inj h
    exact ⟨rfl, rfl⟩
  | m :: I, f, f', h => by
    rw [List.map_cons, runOps, Option.bind_eq_some_iff] at h
    obtain ⟨g, h1, h2⟩ := h
    simp only [step, Option.some.injEq] at h1
    obtain ⟨a, b⟩ := imuData_keeps I g f' h2
    subst h1
    exact ⟨a, b⟩

/-- The hypotheses of C157 and C158 are met, for any number of runs: with the example settings (standard deviations of 0.1), the
sensors registered, the filter initialised with its configured bias prior on a robot whose gyro has no bias, and `N` exact IMU
measurements, the error of 0.03 standard deviations shrinks. -/
example (N : ℕ) : ∃ f g l ρ, runOps l (mk1 (exFCfg false)) = some f ∧ f.x = ![0, 0, 0, 0.00124314, -0.00037725, -0.00254523] ∧
    0 < ρ ∧ ρ < 1 ∧ Follows 0 0 (fun _ => True) f 0 N g 0 ∧ Sds 0.03 g.P (g.x - 0) ∧
      ∀ z : V6, z ⬝ᵥ z = 1 → |z ⬝ᵥ (g.x - 0)| ≤ ρ ^ N * (0.03 * √(0.01 + N * 0.01)) := by
  obtain ⟨f, h1, h2, h3, -⟩ := ex_reaches_plus (exFCfg false) rfl (exFCfg_noisy _) (List.replicate N ⟨1, 0, 0, Quat.id⟩) []
  have h1' := h1
  rw [List.map_nil, List.append_nil, runOps_append, Option.bind_eq_some_iff] at h1'
  obtain ⟨f1, a1, a2⟩ := h1'
  obtain ⟨hP, hx⟩ := imuData_keeps _ _ _ a2
  have a1' := a1
  rw [show ([.addImu, .addAngVel, .run] : List Op) = [.addImu, .addAngVel] ++ [.run] from rfl, runOps_append,
    Option.bind_eq_some_iff] at a1
  obtain ⟨f0, b1, b2⟩ := a1
  have hi : f0.initialized = false := by
    simp only [runOps, step, Option.bind_some, Option.some.injEq] at b1
    subst b1
    simp [addImu, addAngVel, mk1, base]
  have b3 : f0.runOnce = some f1 := by simpa [runOps, step] using b2
  have hx1 : f1.x = ![0, 0, 0, 0.00124314, -0.00037725, -0.00254523] ∧ f1.P = diag6 0.1 0.1 := by
    simp only [runOps, step, Option.bind_some, Option.some.injEq, mk1, addImu, addAngVel, runOnce, initializeFilter, chooseMethod, base, exFCfg] at a1'
    simp at a1'
    subst a1'
    refine ⟨?_, rfl⟩
    simp [join, exFCfg]
  obtain ⟨hx1, hP1⟩ := hx1
  have hs := C157_start (exFCfg false) _ f0 f1 (Or.inl rfl) _ b1 hi b3 (by norm_num [exFCfg]) (by norm_num [exFCfg]) 0 (f1.x - 0) rfl
  have hs' : Sds 0.03 f.P (f.x - 0) := by
    rw [hP, hx]
    refine hs.mono ?_
    rw [hx1, Real.sqrt_le_left (by norm_num)]
    simp [exFCfg]
    norm_num
  have hvar : ∀ z : V6, varIn f.P z = 0.01 * (z ⬝ᵥ z) := by
    intro z
    rw [hP, hP1]
    unfold varIn diag6
    simp [dotProduct, Fin.sum_univ_succ, Matrix.mulVec_diagonal]
    ring
  have hQ : ∀ z : V6, varIn (diag6 0.1 0.1) z = 0.01 * (z ⬝ᵥ z) := by
    intro z
    unfold varIn diag6
    simp [dotProduct, Fin.sum_univ_succ, Matrix.mulVec_diagonal]
    ring
  have hc : f.cfg = exFCfg false := (reach_psd (Or.inl rfl) h1).2
  obtain ⟨g, hg, hgP⟩ := rest_follows (exFCfg false) f N (0.01 + N * 0.01) (fun z => by
      rw [hvar, show (exFCfg false).filterStd = 0.1 from rfl, show (exFCfg false).filterBiasStd = 0.1 from rfl, hQ]
      linarith) N 0 f (by omega) h2 hc h3 (fun z => ⟨hc, h2.psd, by simp⟩) .start
  have hk := C158_converges (exFCfg false) _ f g (Or.inl rfl) _ h1 h2.init (by rw [h2.method]; simp) 0 0 0.03 (0.01 + N * 0.01)
    0.01 (by norm_num) (by positivity) (by norm_num) (by norm_num [exFCfg]) (by norm_num [exFCfg]) hs' N hg hgP
  have hf : Follows 0 0 (fun _ => True) f 0 N g 0 := hg.weaken
  exact ⟨f, g, _, _, h1, hx.trans hx1, hk.1, hk.2.1, hf,
    C157_exact_sensors (exFCfg false) _ f g (Or.inl rfl) _ h1 h2.init (by rw [h2.method]; simp) 0 0 0.03 (by norm_num) hs' N hf,
    hk.2.2⟩

end Drift
