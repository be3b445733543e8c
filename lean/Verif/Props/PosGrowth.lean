import Verif.Spec.PosGrowth
import Verif.Lemmas.Pos2
import Verif.Props.Stand

/-!
# C161: with velocity measurements the reported position variance grows at most linearly
-/
set_option linter.unusedSimpArgs false
namespace Drift
open Mat Matrix Finset RobotState ImuProp

/-- the variance that the IMU noise adds to the position per unit of time, at most, when velocity measurements are at most `τ` apart -/
noncomputable def posRate (sg sa V D τ : ℝ) : ℝ := sg ^ 2 * (1.225 * τ ^ 2 + V * (τ / 2) + D) ^ 2 + sa ^ 2 * (τ / 2) ^ 2

theorem path_pos {τ T s : ℝ} (c : V3) (h0 : 0 ≤ s) (h1 : s ≤ T) (hT : T ≤ τ) :
    norm3 (back s 0 ((-(T / 2)) • c) c) ≤ 1.225 * τ ^ 2 * norm3 c ∧ norm3 ((-(T / 2)) • c + s • c) ≤ τ / 2 * norm3 c := by
  have hc := norm3_nonneg c
  constructor
  · have e : back s 0 ((-(T / 2)) • c) c = (-(s * (T - s) / 2)) • (skew gravity)ᵀ.mulVec c := by
      unfold back
      rw [mulVec_smul, zero_add, smul_smul, ← add_smul]
      congr 1
      ring
    have hg : norm3 ((skew gravity)ᵀ.mulVec c) ≤ 9.8 * norm3 c := by
      have := norm3_skew_le gravity c
      rw [norm3_gravity] at this
      exact this
    have h2 : 0 ≤ s * (T - s) / 2 := by have := mul_nonneg h0 (sub_nonneg.mpr h1); linarith
    rw [e, norm3_smul, abs_neg, abs_of_nonneg h2]
    have h3 : s * (T - s) / 2 ≤ τ ^ 2 / 8 := by nlinarith [sq_nonneg (T - 2 * s), mul_nonneg (sub_nonneg.mpr hT) (show 0 ≤ τ + T by linarith)]
    have h4 := mul_le_mul h3 hg (norm3_nonneg _) (by positivity)
    linarith
  · rw [← add_smul, norm3_smul]
    refine mul_le_mul_of_nonneg_right ?_ hc
    rw [abs_le]
    constructor <;> linarith

theorem SpeedBound.after {V : ℝ} (evs : List EstEv) : ∀ {e e1 : Estimator} {rest : List EstEv}, SpeedBound V e (evs ++ rest) → e.run evs = some e1 →
    SpeedBound V e1 rest := by
  induction evs with
  | nil => intro e e1 rest h h1; obtain rfl := Option.some.inj h1; exact h
  | cons ev evs ih =>
    intro e e1 rest h h1
    simp only [Estimator.run, Option.bind_eq_some_iff] at h1
    obtain ⟨e2, h2, h3⟩ := h1
    exact ih (h.tail h2) h3

theorem FarBound.after {D : ℝ} (evs : List EstEv) : ∀ {e e1 : Estimator} {rest : List EstEv}, FarBound D e (evs ++ rest) → e.run evs = some e1 →
    FarBound D e1 rest := by
  induction evs with
  | nil => intro e e1 rest h h1; obtain rfl := Option.some.inj h1; exact h
  | cons ev evs ih =>
    intro e e1 rest h h1
    simp only [Estimator.run, Option.bind_eq_some_iff] at h1
    obtain ⟨e2, h2, h3⟩ := h1
    exact ih (h.tail h2) h3

theorem SpeedBound.before {V : ℝ} {e : Estimator} {evs rest : List EstEv} (h : SpeedBound V e (evs ++ rest)) : SpeedBound V e evs :=
  fun pre e' hp hr => h pre e' (hp.trans (List.prefix_append _ _)) hr

theorem FarBound.before {D : ℝ} {e : Estimator} {evs rest : List EstEv} (h : FarBound D e (evs ++ rest)) : FarBound D e evs :=
  fun pre e' hp hr => h pre e' (hp.trans (List.prefix_append _ _)) hr

/-- one segment -/
theorem segment_pos {σ sg sa V D τ t t' : ℝ} {evs : List EstEv} {fut : List ImuMeas} {e e1 e2 : Estimator} (hV0 : 0 ≤ V) (hD0 : 0 ≤ D)
    (i : PosInv σ sg sa (imuArrivals evs ++ fut) e) (hen : e.enabled = true) (hn : NoClear evs) (hs : SpeedBound V e evs) (hf : FarBound D e evs)
    (h1 : e.run evs = some e1) (hM : Measures e1) (h2 : e1.step .tick = some e2) (ht : e.state.tProp = some t) (ht' : e2.state.tProp = some t')
    (hτ : t' ≤ t + τ) :
    e2.enabled = true ∧ t ≤ t' ∧ ∀ (c : V3) (β : ℝ), 0 ≤ β → β ≤ τ / 2 → quad e2.state.P (posL 0 (β • c) c) ≤
      quad e.state.P (posL 0 (((t' - t) / 2) • c) c) + nsq c * (σ ^ 2 * τ * (β + (t' - t) / 2) + (t' - t) * posRate sg sa V D τ) := by
  have i1 := run_posInv evs i h1
  have hV : SpeedLe V e1.state := hs evs e1 (List.prefix_refl _) h1
  have hD : FarLe D e1.state := hf evs e1 (List.prefix_refl _) h1
  obtain ⟨en1, tp, t1, q1, q2, q3, q4⟩ := run_pos hV0 hD0 evs i hen hn hs hf h1
  rw [ht] at q1
  obtain rfl := Option.some.inj q1
  obtain ⟨en2, t1', t2, r1, r2, r3, r4⟩ := tick_pos i1 en1 hV hD h2
  rw [q2] at r1
  obtain rfl := Option.some.inj r1
  rw [ht'] at r2
  obtain rfl := Option.some.inj r2
  refine ⟨en2, le_trans q3 r3, fun c β hb0 hb => ?_⟩
  obtain ⟨T, hT⟩ : ∃ T, t' - t = T := ⟨_, rfl⟩
  rw [hT]
  have hT0 : 0 ≤ T := by linarith
  have hTτ : T ≤ τ := by linarith
  have hp := fun s h0 h1 => path_pos (τ := τ) (T := T) (s := s) c h0 h1 hTτ
  have hc := norm3_nonneg c
  have hR : footRate sg sa 0 V D (1.225 * τ ^ 2 * norm3 c) (τ / 2 * norm3 c) (norm3 c) = nsq c * posRate sg sa V D τ := by
    unfold footRate posRate
    rw [← norm3_sq]
    ring
  -- the turn that uses the measurement
  have k1 := (r4 0 (β • c) c).2 hM ((β + T / 2) • c)
  have e1' : β • c - (β + T / 2) • c = (-(T / 2)) • c := by rw [← sub_smul]; congr 1; ring
  rw [e1', nsq_smul] at k1
  have k2 := footRate_mono (sg := sg) (sa := sa) (sc := 0) (norm3_nonneg _) hV0 hD0 (norm3_nonneg _) hc (hp (t' - t1) (by linarith) (by linarith)).1
    (hp (t' - t1) (by linarith) (by linarith)).2
  rw [hR] at k2
  have k3 := mul_le_mul_of_nonneg_left k2 (show 0 ≤ t' - t1 by linarith)
  -- the turns before
  have k4 := q4 (back (t' - t1) 0 ((-(T / 2)) • c) c) ((-(T / 2)) • c + (t' - t1) • c) c (1.225 * τ ^ 2 * norm3 c) (τ / 2 * norm3 c)
    (fun s s0 s1 => by
      rw [back_add]
      exact (hp _ (by linarith) (by linarith)).1)
    fun s s0 s1 => by
      rw [add_assoc, ← add_smul]
      exact (hp _ (by linarith) (by linarith)).2
  rw [back_add, add_assoc ((-(T / 2)) • c), ← add_smul (t' - t1) (t1 - t), show t' - t1 + (t1 - t) = T by linarith, hR] at k4
  have e2' : back T 0 ((-(T / 2)) • c) c = 0 := by
    unfold back
    rw [mulVec_smul, zero_add, smul_smul, ← add_smul, show T * -(T / 2) + T ^ 2 / 2 = 0 by ring, zero_smul]
  have e3' : (-(T / 2)) • c + T • c = (T / 2) • c := by rw [← add_smul]; congr 1; ring
  rw [e2', e3'] at k4
  have k5 : (β + T / 2) ^ 2 ≤ τ * (β + T / 2) := by nlinarith
  have k6 : σ ^ 2 * ((β + T / 2) ^ 2 * nsq c) ≤ nsq c * (σ ^ 2 * τ * (β + T / 2)) := by
    have := mul_le_mul_of_nonneg_left k5 (mul_nonneg (sq_nonneg σ) (nsq_nonneg c))
    linarith
  have k7 : (t' - t1) * (nsq c * posRate sg sa V D τ) + (t1 - t) * (nsq c * posRate sg sa V D τ) = nsq c * (T * posRate sg sa V D τ) := by
    rw [← hT]; ring
  have : nsq c * (σ ^ 2 * τ * (β + T / 2) + T * posRate sg sa V D τ) =
    nsq c * (σ ^ 2 * τ * (β + T / 2)) + nsq c * (T * posRate sg sa V D τ) := by ring
  linarith

theorem driveEvs_cons (evs : List EstEv) (segs : List (List EstEv)) : driveEvs (evs :: segs) = evs ++ (.tick :: driveEvs segs) := by
  simp [driveEvs]

/-- a drive -/
theorem drive_pos {σ sg sa V D τ : ℝ} (hV0 : 0 ≤ V) (hD0 : 0 ≤ D) (hτ0 : 0 ≤ τ) (segs : List (List EstEv)) : ∀ {fut : List ImuMeas} {e e' : Estimator},
    PosInv σ sg sa (imuArrivals (driveEvs segs) ++ fut) e → e.enabled = true → Regular τ e segs → SpeedBound V e (driveEvs segs) →
    FarBound D e (driveEvs segs) → e.run (driveEvs segs) = some e' →
    ∃ t t', e.state.tProp = some t ∧ e'.state.tProp = some t' ∧ t ≤ t' ∧ ∀ (c : V3) (β : ℝ), 0 ≤ β → β ≤ τ / 2 →
      ∃ l, 0 ≤ l ∧ l ≤ τ / 2 ∧ quad e'.state.P (posL 0 (β • c) c) ≤ quad e.state.P (posL 0 (l • c) c) +
        nsq c * (σ ^ 2 * τ * (t' - t + β - l) + (t' - t) * posRate sg sa V D τ) := by
  induction segs with
  | nil =>
    intro fut e e' i hen hr hs hf h
    obtain rfl := Option.some.inj h
    obtain ⟨-, tp, m, htp, -⟩ := i.tilt.inv.run hen
    exact ⟨tp, tp, htp, htp, le_refl _, fun c β h0 h1 => ⟨β, h0, h1, by simp⟩⟩
  | cons evs segs ih =>
    intro fut e e' i hen hr hs hf h
    obtain ⟨hn, e1, e2, t, t1, h1, hM, h2, ht, ht1, hle, hr'⟩ := hr
    rw [driveEvs_cons] at i hs hf h
    rw [est_run_append, h1] at h
    simp only [Option.bind_some, Estimator.run, h2] at h
    rw [imuArrivals_append, List.append_assoc] at i
    obtain ⟨en2, hle1, k⟩ := segment_pos hV0 hD0 i hen hn hs.before hf.before h1 hM h2 ht ht1 hle
    have i1 := run_posInv evs i h1
    rw [imuArrivals_cons, List.append_assoc] at i1
    have i2 := i1.step h2
    obtain ⟨t1', t', q1, q2, q3, q4⟩ := ih i2 en2 hr' ((hs.after evs h1).tail h2) ((hf.after evs h1).tail h2) h
    rw [ht1] at q1
    obtain rfl := Option.some.inj q1
    refine ⟨t, t', ht, q2, le_trans hle1 q3, fun c β h0 h1 => ?_⟩
    obtain ⟨l, l0, l1, hl⟩ := q4 c β h0 h1
    refine ⟨(t1 - t) / 2, by linarith, by linarith, le_trans hl ?_⟩
    refine le_trans (add_le_add (k c l l0 l1) le_rfl) (le_of_eq ?_)
    ring

theorem posL_eq (l : ℝ) (c : V3) : posL 0 (l • c) c = fun i => spread 2 c i + l * spread 1 c i := by
  funext i
  have e := congrFun (posL_at3 0 (l • c) c (i / 3)) ⟨i % 3, Nat.mod_lt _ (by norm_num)⟩
  have e1 := congrFun (spread_at3 1 c (i / 3)) ⟨i % 3, Nat.mod_lt _ (by norm_num)⟩
  have e2 := congrFun (spread_at3 2 c (i / 3)) ⟨i % 3, Nat.mod_lt _ (by norm_num)⟩
  rw [at3_e (posL _ _ _) i, at3_e (spread 2 c) i, at3_e (spread 1 c) i, e, e1, e2]
  by_cases h0 : i / 3 = 0
  · simp [h0]
  · by_cases h1 : i / 3 = 1
    · simp [h1]
    · by_cases h2 : i / 3 = 2
      · simp [h2]
      · simp [h0, h1, h2]

/-- the standard deviation of a sum is at most the sum of the standard deviations -/
theorem psd_triangle {A : Mat} (h : PSD A) (x y : ℕ → ℝ) {l : ℝ} (hl : 0 ≤ l) :
    quad A (fun i => x i + l * y i) ≤ (√(quad A x) + l * √(quad A y)) ^ 2 := by
  have hx := h.2 x
  have hy := h.2 y
  obtain ⟨b, hb⟩ : ∃ b : ℝ, ∀ s : ℝ, quad A (fun i => x i + s * y i) = quad A x + s * b + s ^ 2 * quad A y := by
    refine ⟨∑ i ∈ range A.rows, ∑ j ∈ range A.cols, (x i * A.e i j * y j + y i * A.e i j * x j), fun s => ?_⟩
    unfold quad
    simp only [Finset.mul_sum, ← Finset.sum_add_distrib]
    exact sum_congr rfl fun i _ => sum_congr rfl fun j _ => by ring
  have hd : b ^ 2 ≤ 4 * quad A x * quad A y := by
    have hq : ∀ s : ℝ, 0 ≤ quad A y * (s * s) + b * s + quad A x := fun s => by
      have k := h.2 fun i => x i + s * y i
      rw [hb] at k
      linarith [show quad A y * (s * s) = s ^ 2 * quad A y by ring]
    have := discrim_le_zero hq
    unfold discrim at this
    linarith
  obtain ⟨p, hp⟩ : ∃ p, √(quad A x) = p := ⟨_, rfl⟩
  obtain ⟨q, hq⟩ : ∃ q, √(quad A y) = q := ⟨_, rfl⟩
  have hp0 : 0 ≤ p := by rw [← hp]; exact Real.sqrt_nonneg _
  have hq0 : 0 ≤ q := by rw [← hq]; exact Real.sqrt_nonneg _
  have hp2 : quad A x = p ^ 2 := by rw [← hp, Real.sq_sqrt hx]
  have hq2 : quad A y = q ^ 2 := by rw [← hq, Real.sq_sqrt hy]
  rw [hb, hp, hq, hp2, hq2]
  rw [hp2, hq2] at hd
  have hb' : b ≤ 2 * (p * q) := (abs_le_of_sq_le_sq' (by nlinarith) (by positivity)).2
  nlinarith [mul_le_mul_of_nonneg_left hb' hl]

/-- **C161**: with velocity measurements at most `τ` apart the reported position variance grows at most linearly with the time. -/
theorem C161_linear {σ V D τ : ℝ} {h : Heap} {g : EstConfig} {ic : ImuPropConfig} {cs : List CorrConfig} {evs0 : List EstEv} {segs : List (List EstEv)}
    {e0 e e' : Estimator} (hc : Estimator.ctor .rightInvariant h g ic cs = some e0) (u : Usable ic cs (imuArrivals (evs0 ++ driveEvs segs)))
    (hb : ic.enable_imu_bias_update.getD false = false) (hcs : ∀ c ∈ cs, ∃ v : VelConfig, c = .vel v ∧ |v.velocity_std.getD 0.1| ≤ σ)
    (h0 : e0.run evs0 = some e) (hen : e.enabled = true) (hτ : 0 ≤ τ) (hr : Regular τ e segs) (hs : SpeedBound V e (driveEvs segs))
    (hf : FarBound D e (driveEvs segs)) (h1 : e.run (driveEvs segs) = some e') (w : V3) :
    ∃ t t' P Pv P', e.state.tProp = some t ∧ e'.state.tProp = some t' ∧ t ≤ t' ∧ e.state.get_position_covariance = some P ∧
      e.state.get_velocity_covariance = some Pv ∧ e'.state.get_position_covariance = some P' ∧
      w ⬝ᵥ P'.mulVec w ≤ (√(w ⬝ᵥ P.mulVec w) + τ / 2 * √(w ⬝ᵥ Pv.mulVec w)) ^ 2 + (w ⬝ᵥ w) * ((t' - t) * (σ ^ 2 * τ +
        (ic.gyroscope_std.getD 0.1) ^ 2 * (1.225 * τ ^ 2 + V * (τ / 2) + D) ^ 2 + (ic.accelerometer_std.getD 0.1) ^ 2 * (τ / 2) ^ 2)) := by
  have i0 := ctor_pos u hc hb hcs
  rw [imuArrivals_append] at i0
  have i := run_posInv evs0 i0 h0
  have hV0 : 0 ≤ V := by obtain ⟨v, -, hv⟩ := hs [] e List.nil_prefix rfl; exact le_trans (norm3_nonneg _) hv
  have hD0 : 0 ≤ D := by obtain ⟨v, -, hv⟩ := hf [] e List.nil_prefix rfl; exact le_trans (norm3_nonneg _) hv
  have i' : PosInv σ (ic.gyroscope_std.getD 0.1) (ic.accelerometer_std.getD 0.1) (imuArrivals (driveEvs segs) ++ []) e := by simpa using i
  obtain ⟨t, t', q1, q2, q3, q4⟩ := drive_pos hV0 hD0 hτ segs i' hen hr hs hf h1
  have j := run_posInv _ i' h1
  obtain ⟨l, l0, l1, hl⟩ := q4 w 0 le_rfl (by linarith)
  obtain ⟨K, gd⟩ := i.tilt.inv.good
  obtain ⟨K', gd'⟩ := j.tilt.inv.good
  have p1 := gd.shape.pr; have p2 := gd.shape.pc; have p3 := gd'.shape.pr; have p4 := gd'.shape.pc
  refine ⟨t, t', _, _, _, q1, q2, q3, Mat.blk3?_eq (by omega) (by omega), Mat.blk3?_eq (by omega) (by omega), Mat.blk3?_eq (by omega) (by omega), ?_⟩
  rw [posL_eq, posL_eq] at hl
  have e1 : (fun i => spread 2 w i + 0 * spread 1 w i) = spread 2 w := by funext i; ring
  have e2 : quad e'.state.P (spread 2 w) = w ⬝ᵥ (e'.state.P.blk3 6 6).mulVec w := quad_spread (k := 2) (by omega) (by omega) w
  have e3 : quad e.state.P (spread 2 w) = w ⬝ᵥ (e.state.P.blk3 6 6).mulVec w := quad_spread (k := 2) (by omega) (by omega) w
  have e4 : quad e.state.P (spread 1 w) = w ⬝ᵥ (e.state.P.blk3 3 3).mulVec w := quad_spread (k := 1) (by omega) (by omega) w
  rw [e1, e2] at hl
  have k1 := psd_triangle gd.psd (spread 2 w) (spread 1 w) l0
  rw [e3, e4] at k1
  have k2 : (√(w ⬝ᵥ (e.state.P.blk3 6 6).mulVec w) + l * √(w ⬝ᵥ (e.state.P.blk3 3 3).mulVec w)) ^ 2 ≤
      (√(w ⬝ᵥ (e.state.P.blk3 6 6).mulVec w) + τ / 2 * √(w ⬝ᵥ (e.state.P.blk3 3 3).mulVec w)) ^ 2 :=
    pow_le_pow_left₀ (by positivity) (add_le_add le_rfl (mul_le_mul_of_nonneg_right l1 (Real.sqrt_nonneg _))) 2
  have k3 : nsq w * (σ ^ 2 * τ * (t' - t + 0 - l) + (t' - t) * posRate (ic.gyroscope_std.getD 0.1) (ic.accelerometer_std.getD 0.1) V D τ) ≤
      (w ⬝ᵥ w) * ((t' - t) * (σ ^ 2 * τ + (ic.gyroscope_std.getD 0.1) ^ 2 * (1.225 * τ ^ 2 + V * (τ / 2) + D) ^ 2 +
        (ic.accelerometer_std.getD 0.1) ^ 2 * (τ / 2) ^ 2)) := by
    rw [nsq_dot]
    refine mul_le_mul_of_nonneg_left ?_ (nsq_nonneg w)
    unfold posRate
    have : 0 ≤ σ ^ 2 * τ * l := by positivity
    linarith
  linarith

theorem farBound_exists (evs : List EstEv) : ∀ {fut : List ImuMeas} {e : Estimator}, EstInv (imuArrivals evs ++ fut) e → ∃ D, FarBound D e evs := by
  have far : ∀ {fut : List ImuMeas} {e : Estimator}, EstInv fut e → ∃ V, FarLe V e.state := by
    intro fut e i
    obtain ⟨K, gd⟩ := i.good
    have x1 := gd.shape.x.rows; have x2 := gd.shape.x.cols; have hK := gd.shape.k
    exact ⟨_, _, blkV?_eq (by omega) (by omega), le_refl _⟩
  induction evs with
  | nil =>
    intro fut e i
    obtain ⟨V, hV⟩ := far i
    refine ⟨V, fun pre e' hp hr => ?_⟩
    rw [List.prefix_nil] at hp
    subst hp
    obtain rfl := Option.some.inj hr
    exact hV
  | cons ev evs ih =>
    intro fut e i
    obtain ⟨V, v, hv, hV⟩ := far i
    rw [imuArrivals_cons, List.append_assoc] at i
    obtain ⟨e1, h1, i1⟩ := step_inv ev i
    obtain ⟨V', hV'⟩ := ih i1
    refine ⟨max V V', fun pre e' hp hr => ?_⟩
    cases pre with
    | nil =>
      obtain rfl := Option.some.inj hr
      exact ⟨v, hv, le_trans hV (le_max_left _ _)⟩
    | cons ev' pre =>
      rw [List.cons_prefix_cons] at hp
      obtain ⟨rfl, hp⟩ := hp
      simp only [Estimator.run, h1, Option.bind_some] at hr
      obtain ⟨w, hw, hw'⟩ := hV' pre e' hp hr
      exact ⟨w, hw, le_trans hw' (le_max_right _ _)⟩

/-- the hypotheses of `C161_linear` are met: a robot drives at 1 m/s; after the initialisation the next two turns of the main loop each use a velocity,
the second 0.1 s after the first -/
example : ∃ (evs0 : List EstEv) (e0 e e' : Estimator) (V D : ℝ), Estimator.ctor .rightInvariant ⟨fun _ => 0, 0⟩ {} fwdConfig [.vel {}] = some e0 ∧
    Usable fwdConfig [.vel {}] (imuArrivals (evs0 ++ driveEvs [[], []])) ∧ fwdConfig.enable_imu_bias_update.getD false = false ∧
    (∀ c ∈ [CorrConfig.vel {}], ∃ v : VelConfig, c = .vel v ∧ |v.velocity_std.getD 0.1| ≤ 0.1) ∧ e0.run evs0 = some e ∧ e.enabled = true ∧
    Regular 0.1 e [[], []] ∧ SpeedBound V e (driveEvs [[], []]) ∧ FarBound D e (driveEvs [[], []]) ∧ e.run (driveEvs [[], []]) = some e' ∧
    e.state.tProp = some 0 ∧ e'.state.tProp = some 0.1 := by
  obtain ⟨e0, e, c, h0, h1, hen, hp, hc, c1, c2, c3, c4, c5, c6, k1, k2, k3, k4, k5, k6, k7, k8, k9, k10⟩ := fwd_start 1 0
  have u : Usable fwdConfig [.vel {}] (imuArrivals ([.tick, .imu (fwdImu 0 0), .vel 0 (fwdVel 1 0 0), .tick] ++
      [.imu (fwdImu 0 0.1), .imu (fwdImu 0 0.2), .vel 0 (fwdVel 1 0 (-0.1)), .vel 0 (fwdVel 1 0 (-0.05))])) :=
    ⟨by norm_num, by simp, .inl rfl, .inl rfl, by simp [imuArrivals, fwdImu]; norm_num⟩
  obtain ⟨ea, ha⟩ : ∃ ea, e0.run ([.tick, .imu (fwdImu 0 0), .vel 0 (fwdVel 1 0 0), .tick] ++
      [.imu (fwdImu 0 0.1), .imu (fwdImu 0 0.2), .vel 0 (fwdVel 1 0 (-0.1)), .vel 0 (fwdVel 1 0 (-0.05))]) = some ea :=
    (C58_safe h0 _ u).imp fun _ h => h.1
  have hi : EstInv [] ea := inUse_inv (exInUse h0 u ha)
  have ha' := ha
  rw [est_run_append, h1] at ha'
  simp only [Option.bind_some, Estimator.run, Estimator.step, hc, velOnly, List.map_cons, List.map_nil, List.modify_zero_cons, Corr.pushVel] at ha'
  have hea := Option.some.inj ha'
  have x1 : ea.corrs = velOnly [{ c with buffer := [fwdVel 1 0 (-0.1), fwdVel 1 0 (-0.05)] }] := by rw [← hea]; simp [velOnly, c1]
  have x2 : ea.prop.buffer = [fwdImu 0 0.1, fwdImu 0 0.2] := by rw [← hea]; simp [k6]
  have x3 : ea.prop.prev = some (fwdImu 0 0) := by rw [← hea]; simp [k5]
  have x4 : ea.enabled = true := by rw [← hea]; exact hen
  have x5 : ea.state.tProp = some 0 := by rw [← hea]; exact k1
  obtain ⟨M1, e1, s1, i1, n1, y1, y2, y3, y4⟩ := tick_uses hi x4 x1 rfl x2 x3 (by simp [fwdImu, fwdVel]; norm_num) (by
    show ¬ Stale c.tDiffThres _ _
    rw [c6]; simp [Stale, fwdImu, fwdVel]; norm_num)
  obtain ⟨M2, e3, s3, i3, n3, -, -, -, z4⟩ := tick_uses i1 n1 y1 rfl y3 y2 (by simp [fwdImu, fwdVel]; norm_num) (by
    show ¬ Stale c.tDiffThres _ _
    rw [c6]; simp [Stale, fwdImu, fwdVel]; norm_num)
  have hi' : EstInv (imuArrivals (driveEvs [[], []]) ++ []) ea := by simpa [driveEvs, imuArrivals] using hi
  obtain ⟨V, hV⟩ := speedBound_exists _ hi'
  obtain ⟨D, hD⟩ := farBound_exists _ hi'
  refine ⟨_, e0, ea, e3, V, D, h0, ?_, rfl, ?_, ha, x4, ?_, hV, hD, ?_, x5, z4⟩
  · rw [imuArrivals_append]
    simpa [imuArrivals, driveEvs] using u
  · intro d hd
    rw [List.mem_singleton] at hd
    exact ⟨{}, hd, by norm_num [abs_of_pos]⟩
  · refine ⟨by simp [NoClear], ea, e1, 0, 0, rfl, M1, s1, x5, y4, by norm_num, by simp [NoClear], e1, e3, 0, 0.1, rfl, M2, s3, y4, z4, by norm_num, trivial⟩
  · simp [driveEvs, Estimator.run, s1, s3]

end Drift
