import Verif.Lemmas.Stand5
import Verif.Props.Walk

/-!
# C160: three kinematic measurements of a foot that stays make velocity and tilt known
-/
set_option linter.unusedSimpArgs false
namespace Drift
open Mat Matrix Finset RobotState ImuProp

theorem ctor_stand {h : Heap} {g : EstConfig} {ic : ImuPropConfig} {lc : LegConfig} {imu : List ImuMeas} {e0 : Estimator} (u : Usable ic [.leg lc] imu)
    (hc : Estimator.ctor .rightInvariant h g ic [.leg lc] = some e0) (hb : ic.enable_imu_bias_update.getD false = false) :
    StandInv (ic.gyroscope_std.getD 0.1) (ic.accelerometer_std.getD 0.1) (lc.contact_noise_std.getD 0.1) (lc.encoder_std.getD 0.01)
      (lc.kinematics_additive_std.getD 0.05) imu e0 := by
  have l := ctor_ginv hc
  obtain ⟨n1, n2, -, -, n5⟩ := C96_configured (evs := []) hc rfl
  refine ⟨(ctor_inv u hc).1, ⟨_, _, l⟩, l.prop, by rw [n5, hb], n1, n2, ?_⟩
  unfold Estimator.ctor at hc
  simp only [List.mapM_cons, List.mapM_nil, CorrConfig.build, Option.bind_eq_bind, Option.bind_eq_some_iff] at hc
  obtain ⟨p, -, corrs, ⟨d, hd, ds, hds, hm⟩, he⟩ := hc
  obtain rfl := Option.some.inj hd
  obtain rfl := Option.some.inj hds
  obtain rfl := Option.some.inj hm
  rw [← Option.some.inj he]
  exact ⟨⟨_, rfl, rfl, rfl, rfl, by simp [LegCorr.ctor, pow_two]⟩, qcLe_zero (sq_nonneg _) 15⟩

theorem three_foot {id : ℕ} {σ V D enc kin t1 t2 t3 sg sa sc : ℝ} {e e1 e2 e3 e4 e5 : Estimator} {evsA evsB : List EstEv}
    (t : ThreeTurns id σ V D enc kin t1 t2 t3 e e1 e2 e3 e4 e5 evsA evsB)
    (i : StandInv sg sa sc enc kin (imuArrivals (evsA ++ evsB)) e) (hD0 : 0 ≤ D) :
    StandInv sg sa sc enc kin [] e5 ∧ ∀ (x y c3 c2 : V3) (A B : ℝ),
      (∀ τ, 0 ≤ τ → τ ≤ t3 - t2 → norm3 (back τ x y c3) ≤ A ∧ norm3 (y + τ • c3) ≤ B) →
      (∀ τ, 0 ≤ τ → τ ≤ t2 - t1 → norm3 (back τ (back (t3 - t2) x y c3) (y + (t3 - t2) • c3) c2) ≤ A ∧ norm3 (y + (t3 - t2) • c3 + τ • c2) ≤ B) →
      back (t2 - t1) (back (t3 - t2) x y c3) (y + (t3 - t2) • c3) c2 = 0 → y + (t3 - t2) • c3 + (t2 - t1) • c2 = 0 →
      quad e5.state.P (lin x y) ≤ σ ^ 2 * (nsq c3 + nsq (c2 - c3) + nsq c2) + (t3 - t2) * footRate sg sa sc V D A B (norm3 c3) +
        (t2 - t1) * footRate sg sa sc V D A B (norm3 c2) := by
  have hta := t.standing
  have i1 : StandInv sg sa sc enc kin (imuArrivals evsA ++ imuArrivals evsB) e1 :=
    StandInv.step (ev := .tick) (by rw [← imuArrivals_append]; simpa [imuArrivals] using i) t.tick1
  have i2 := run_standInv evsA i1 t.runA
  have i3 : StandInv sg sa sc enc kin (imuArrivals evsB ++ []) e3 := StandInv.step (ev := .tick) (by simpa [imuArrivals] using i2) t.tick2
  have i4 := run_standInv evsB i3 t.runB
  have i5 : StandInv sg sa sc enc kin [] e5 := StandInv.step (ev := .tick) (by simpa [imuArrivals] using i4) t.tick3
  have hsA : SpeedBound V e1 evsA := fun pre e' hp hr => t.speed pre e' (hp.trans (List.prefix_append _ _)) hr
  have hrA : ReachBound id D e1 evsA := fun pre e' hp hr => t.reach pre e' (hp.trans (List.prefix_append _ _)) hr
  have h13 : ∀ pre e', e3.run pre = some e' → e1.run (evsA ++ .tick :: pre) = some e' := by
    intro pre e' h
    rw [est_run_append, t.runA]
    simp only [Option.bind_some, Estimator.run, t.tick2, h]
  have hsB : SpeedBound V e3 evsB := fun pre e' hp hr => t.speed (evsA ++ .tick :: pre) e'
    ((List.prefix_append_right_inj evsA).mpr (List.cons_prefix_cons.mpr ⟨rfl, hp⟩)) (h13 pre e' hr)
  have hrB : ReachBound id D e3 evsB := fun pre e' hp hr => t.reach (evsA ++ .tick :: pre) e'
    ((List.prefix_append_right_inj evsA).mpr (List.cons_prefix_cons.mpr ⟨rfl, hp⟩)) (h13 pre e' hr)
  have hV1 : SpeedLe V e1.state := hsA [] e1 List.nil_prefix rfl
  have hV0 : 0 ≤ V := by obtain ⟨v, -, hv⟩ := hV1; exact le_trans (norm3_nonneg _) hv
  obtain ⟨en1, b1, tp, tp1, -, p2, -, -, p5⟩ := tick_foot (id := id) (σ := σ) i t.run t.standing.1 t.tick1
  rw [t.time1] at p2
  obtain rfl := Option.some.inj p2
  obtain ⟨a, ta1, k1⟩ := p5 t.uses1
  obtain ⟨en2, b2, ta2, tp1', tp2, q1, q2, q3, k2⟩ := run_foot hV0 hD0 evsA i1 en1 t.keepA hsA hrA
    ⟨b1, fun k m hm => t.standing.2 k m (by simp [hm])⟩ ta1 t.runA
  rw [t.time1] at q1
  obtain rfl := Option.some.inj q1
  obtain ⟨en3, b3, tp2', tp3, r1, r2, r3, r4, -⟩ := tick_foot (id := id) (σ := σ) i2 en2 b2 t.tick2
  rw [q2] at r1
  obtain rfl := Option.some.inj r1
  rw [t.time2] at r2
  obtain rfl := Option.some.inj r2
  obtain ⟨ta3, k3⟩ := r4 a V D ta2 (hsA evsA e2 (List.prefix_refl _) t.runA) (hrA evsA e2 (List.prefix_refl _) t.runA)
  obtain ⟨en4, b4, ta4, tp3', tp4, s1, s2, s3, k4⟩ := run_foot hV0 hD0 evsB i3 en3 t.keepB hsB hrB
    ⟨b3, fun k m hm => t.standing.2 k m (by simp [hm])⟩ ta3 t.runB
  rw [t.time2] at s1
  obtain rfl := Option.some.inj s1
  obtain ⟨-, -, tp4', tp5, u1, u2, u3, u4, -⟩ := tick_foot (id := id) (σ := σ) i4 en4 b4 t.tick3
  rw [s2] at u1
  obtain rfl := Option.some.inj u1
  rw [t.time3] at u2
  obtain rfl := Option.some.inj u2
  obtain ⟨-, k5⟩ := u4 a V D ta4 (hsB evsB e4 (List.prefix_refl _) t.runB) (hrB evsB e4 (List.prefix_refl _) t.runB)
  refine ⟨i5, fun x y c3 c2 A B h3 h2 hx hy => ?_⟩
  have lt12 := t.lt12
  have lt23 := t.lt23
  -- the third turn
  have v5 := (k5 x y 0).2 t.uses3 c3
  rw [zero_add] at v5
  have w5 := mul_le_mul_of_nonneg_left (footRate_mono (sg := sg) (sa := sa) (sc := sc) (norm3_nonneg _) hV0 hD0 (norm3_nonneg _) (norm3_nonneg c3)
    (h3 (t3 - tp4) (by linarith) (by linarith)).1 (h3 (t3 - tp4) (by linarith) (by linarith)).2) (show 0 ≤ t3 - tp4 by linarith)
  -- the turns before it
  have v4 := k4 (back (t3 - tp4) x y c3) (y + (t3 - tp4) • c3) c3 A B
    (fun τ a1 a2 => by rw [back_add]; exact (h3 _ (by linarith) (by linarith)).1)
    (fun τ a1 a2 => by rw [add_assoc, ← add_smul]; exact (h3 _ (by linarith) (by linarith)).2)
  rw [back_add, add_assoc y, ← add_smul, show t3 - tp4 + (tp4 - t2) = t3 - t2 by ring] at v4
  -- the second turn
  have v3 := (k3 (back (t3 - t2) x y c3) (y + (t3 - t2) • c3) c3).2 t.uses2 (c2 - c3)
  rw [add_sub_cancel] at v3
  have w3 := mul_le_mul_of_nonneg_left (footRate_mono (sg := sg) (sa := sa) (sc := sc) (norm3_nonneg _) hV0 hD0 (norm3_nonneg _) (norm3_nonneg c2)
    (h2 (t2 - tp2) (by linarith) (by linarith)).1 (h2 (t2 - tp2) (by linarith) (by linarith)).2) (show 0 ≤ t2 - tp2 by linarith)
  -- the turns before it
  have v2 := k2 (back (t2 - tp2) (back (t3 - t2) x y c3) (y + (t3 - t2) • c3) c2) (y + (t3 - t2) • c3 + (t2 - tp2) • c2) c2 A B
    (fun τ a1 a2 => by rw [back_add]; exact (h2 _ (by linarith) (by linarith)).1)
    (fun τ a1 a2 => by rw [add_assoc (y + (t3 - t2) • c3), ← add_smul]; exact (h2 _ (by linarith) (by linarith)).2)
  rw [back_add, add_assoc (y + (t3 - t2) • c3), ← add_smul, show t2 - tp2 + (tp2 - t1) = t2 - t1 by ring, hx, hy] at v2
  have v1 := k1 c2
  have hl : footVar e5 a x y 0 = quad e5.state.P (lin x y) := by unfold footVar; rw [footL_zero]
  rw [hl] at v5
  obtain ⟨r3v, hr3⟩ : ∃ r, footRate sg sa sc V D A B (norm3 c3) = r := ⟨_, rfl⟩
  obtain ⟨r2v, hr2⟩ : ∃ r, footRate sg sa sc V D A B (norm3 c2) = r := ⟨_, rfl⟩
  rw [hr3] at w5 v4 ⊢
  rw [hr2] at w3 v2 ⊢
  have f1 : (t3 - t2) * r3v = (t3 - tp4) * r3v + (tp4 - t2) * r3v := by ring
  have f2 : (t2 - t1) * r2v = (t2 - tp2) * r2v + (tp2 - t1) * r2v := by ring
  have f3 : σ ^ 2 * (nsq c3 + nsq (c2 - c3) + nsq c2) = σ ^ 2 * nsq c3 + σ ^ 2 * nsq (c2 - c3) + σ ^ 2 * nsq c2 := by ring
  rw [f1, f2, f3]
  linarith

/-! ### the choice of the functions -/

theorem norm3_gravity : norm3 gravity = 9.8 := by
  have h : norm3 gravity ^ 2 = 9.8 ^ 2 := by
    rw [norm3_sq]; simp [nsq, gravity]; norm_num
  exact (sq_eq_sq₀ (norm3_nonneg _) (by norm_num)).mp h

theorem footRate_scale (sg sa sc V D A B C n : ℝ) : footRate sg sa sc V D (A * n) (B * n) (C * n) = n ^ 2 * footRate sg sa sc V D A B C := by
  unfold footRate; ring

theorem footRate_mono' {sg sa sc V D A B C C' : ℝ} (hA : 0 ≤ A) (hV : 0 ≤ V) (hD : 0 ≤ D) (hB : 0 ≤ B) (hC : 0 ≤ C) (h : C ≤ C') :
    footRate sg sa sc V D A B C ≤ footRate sg sa sc V D A B C' := by
  unfold footRate
  refine add_le_add (add_le_add (mul_le_mul_of_nonneg_left ?_ (sq_nonneg _)) le_rfl) (mul_le_mul_of_nonneg_left ?_ (sq_nonneg _))
  · exact pow_le_pow_left₀ (by positivity) (by have := mul_le_mul_of_nonneg_left h hD; linarith) 2
  · exact pow_le_pow_left₀ hC h 2

/-- the velocity, from the second differences of the position relative to the foot -/
theorem vel_weights {T S : ℝ} (hT : 0 < T) (hS : 0 < S) : ∃ α β : ℝ, |α| ≤ 2 / T ∧ |β| ≤ 1 / S ∧ |β - α| ≤ 2 / T + 1 / S ∧
    (∀ τ, 0 ≤ τ → τ ≤ T → |τ + τ ^ 2 / 2 * α| ≤ T / 2 ∧ |1 + τ * α| ≤ 1) ∧
    (∀ τ, 0 ≤ τ → τ ≤ S → |T + T ^ 2 / 2 * α + τ * (1 + T * α) + τ ^ 2 / 2 * β| ≤ T / 2 ∧ |1 + T * α + τ * β| ≤ 1) ∧
    T + T ^ 2 / 2 * α + S * (1 + T * α) + S ^ 2 / 2 * β = 0 ∧ 1 + T * α + S * β = 0 := by
  obtain ⟨κ, hκ⟩ : ∃ κ, κ = T / (T + S) := ⟨_, rfl⟩
  have hTS : 0 < T + S := by linarith
  have k0 : 0 < κ := by rw [hκ]; positivity
  have k1 : κ ≤ 1 := by rw [hκ, div_le_one hTS]; linarith
  have kT : κ * (T + S) = T := by rw [hκ]; field_simp
  obtain ⟨i, hi⟩ : ∃ i, i = 1 / T := ⟨_, rfl⟩
  obtain ⟨j, hj⟩ : ∃ j, j = 1 / S := ⟨_, rfl⟩
  have iT : i * T = 1 := by rw [hi]; field_simp
  have jS : j * S = 1 := by rw [hj]; field_simp
  have i0 : 0 < i := by rw [hi]; positivity
  have j0 : 0 < j := by rw [hj]; positivity
  have h2 : 2 / T = 2 * i := by rw [hi]; ring
  have ea : T * (-(1 + κ) * i) = -(1 + κ) := by linear_combination (-(1 + κ)) * iT
  refine ⟨-(1 + κ) * i, κ * j, ?_, ?_, ?_, fun τ t0 t1 => ?_, fun τ t0 t1 => ?_, ?_, ?_⟩
  · rw [h2, abs_le]; constructor <;> nlinarith
  · rw [← hj, abs_le]; constructor <;> nlinarith
  · rw [h2, ← hj, abs_le]; constructor <;> nlinarith [mul_pos k0 i0, mul_pos k0 j0]
  · have x0 : 0 ≤ τ * i := by positivity
    have x1 : τ * i ≤ 1 := by nlinarith
    constructor
    · rw [show τ + τ ^ 2 / 2 * (-(1 + κ) * i) = T / 2 * ((τ * i) * (2 - (1 + κ) * (τ * i))) by
        linear_combination (-τ + τ ^ 2 / 2 * (1 + κ) * i) * iT]
      obtain ⟨y, hy⟩ : ∃ y, τ * i = y := ⟨_, rfl⟩
      rw [hy] at x0 x1 ⊢
      have q0 : 0 ≤ y * (2 - (1 + κ) * y) := mul_nonneg x0 (by nlinarith)
      have q1 : y * (2 - (1 + κ) * y) ≤ 1 := by nlinarith [sq_nonneg (1 - y), mul_nonneg k0.le (sq_nonneg y)]
      rw [abs_of_nonneg (by positivity)]
      nlinarith
    · rw [show 1 + τ * (-(1 + κ) * i) = 1 - (1 + κ) * (τ * i) by ring, abs_le]
      constructor <;> nlinarith [mul_nonneg k0.le x0]
  · have x0 : 0 ≤ τ * j := by positivity
    have x1 : τ * j ≤ 1 := by nlinarith
    have e2 : T ^ 2 / 2 * (-(1 + κ) * i) = -(1 + κ) * T / 2 := by linear_combination (T / 2) * ea
    rw [e2, ea]
    constructor
    · rw [show T + -(1 + κ) * T / 2 + τ * (1 + -(1 + κ)) + τ ^ 2 / 2 * (κ * j) = κ * S / 2 * (1 - τ * j) ^ 2 by
        linear_combination (-1 / 2) * kT + (κ * τ - κ * τ ^ 2 * j / 2) * jS]
      have q1 : (1 - τ * j) ^ 2 ≤ 1 := by nlinarith
      have q2 : κ * S / 2 ≤ T / 2 := by nlinarith [mul_pos k0 hT]
      rw [abs_of_nonneg (by positivity)]
      calc κ * S / 2 * (1 - τ * j) ^ 2 ≤ κ * S / 2 * 1 := mul_le_mul_of_nonneg_left q1 (by positivity)
        _ ≤ T / 2 := by linarith
    · rw [show 1 + -(1 + κ) + τ * (κ * j) = -(κ * (1 - τ * j)) by ring, abs_neg, abs_of_nonneg (mul_nonneg k0.le (by linarith))]
      nlinarith [mul_nonneg k0.le x0]
  · have e2 : T ^ 2 / 2 * (-(1 + κ) * i) = -(1 + κ) * T / 2 := by linear_combination (T / 2) * ea
    rw [e2, ea]
    linear_combination (-1 / 2) * kT + (κ * S / 2) * jS
  · rw [ea]; linear_combination κ * jS

theorem back_dir (τ k l m : ℝ) (u : V3) : back τ (k • (skew gravity)ᵀ.mulVec u) (l • u) (m • u) = (k + τ * l + τ ^ 2 / 2 * m) • (skew gravity)ᵀ.mulVec u := by
  unfold back
  rw [mulVec_smul, mulVec_smul]
  funext j
  simp only [Pi.add_apply, Pi.smul_apply, smul_eq_mul]
  ring

/-- **C160**: three kinematic measurements of a foot that stays make the velocity known. -/
theorem C160_velocity {id : ℕ} {σ V D t1 t2 t3 : ℝ} {h : Heap} {g : EstConfig} {ic : ImuPropConfig} {lc : LegConfig} {evs0 evsA evsB : List EstEv}
    {e0 e e1 e2 e3 e4 e5 : Estimator} (hc : Estimator.ctor .rightInvariant h g ic [.leg lc] = some e0)
    (u : Usable ic [.leg lc] (imuArrivals (evs0 ++ (evsA ++ evsB)))) (hb : ic.enable_imu_bias_update.getD false = false) (h0 : e0.run evs0 = some e)
    (t : ThreeTurns id σ V D (lc.encoder_std.getD 0.01) (lc.kinematics_additive_std.getD 0.05) t1 t2 t3 e e1 e2 e3 e4 e5 evsA evsB) (hD : 0 ≤ D)
    (v : V3) :
    ∃ C, e5.state.get_velocity_covariance = some C ∧ v ⬝ᵥ C.mulVec v ≤ (v ⬝ᵥ v) *
      (σ ^ 2 * ((2 / (t3 - t2)) ^ 2 + (2 / (t3 - t2) + 1 / (t2 - t1)) ^ 2 + (1 / (t2 - t1)) ^ 2) +
        (t3 - t2) * ((ic.gyroscope_std.getD 0.1) ^ 2 * (4.9 * (t3 - t2) + V + D * (2 / (t3 - t2))) ^ 2 + (ic.accelerometer_std.getD 0.1) ^ 2 +
          (lc.contact_noise_std.getD 0.1) ^ 2 * (2 / (t3 - t2)) ^ 2) +
        (t2 - t1) * ((ic.gyroscope_std.getD 0.1) ^ 2 * (4.9 * (t3 - t2) + V + D * (1 / (t2 - t1))) ^ 2 + (ic.accelerometer_std.getD 0.1) ^ 2 +
          (lc.contact_noise_std.getD 0.1) ^ 2 * (1 / (t2 - t1)) ^ 2)) := by
  have i0 := ctor_stand u hc hb
  obtain ⟨sg, hsg⟩ : ∃ x, ic.gyroscope_std.getD 0.1 = x := ⟨_, rfl⟩
  obtain ⟨sa, hsa⟩ : ∃ x, ic.accelerometer_std.getD 0.1 = x := ⟨_, rfl⟩
  obtain ⟨sc, hsc⟩ : ∃ x, lc.contact_noise_std.getD 0.1 = x := ⟨_, rfl⟩
  rw [hsg, hsa, hsc] at i0 ⊢
  rw [imuArrivals_append] at i0
  have i := run_standInv evs0 i0 h0
  obtain ⟨i5, key⟩ := three_foot t i hD
  obtain ⟨T, hT⟩ : ∃ T, t3 - t2 = T := ⟨_, rfl⟩
  obtain ⟨S, hS⟩ : ∃ S, t2 - t1 = S := ⟨_, rfl⟩
  rw [hT, hS] at key ⊢
  have hT0 : 0 < T := by have := t.lt23; linarith
  have hS0 : 0 < S := by have := t.lt12; linarith
  have hV0 : 0 ≤ V := by
    obtain ⟨v, -, hv⟩ := t.speed [] e1 List.nil_prefix rfl
    exact le_trans (norm3_nonneg _) hv
  obtain ⟨α, β, ha, hbb, hab, p1, p2, p3, p4⟩ := vel_weights hT0 hS0
  have hn := norm3_nonneg v
  have hG : norm3 ((skew gravity)ᵀ.mulVec v) ≤ 9.8 * norm3 v := by have := norm3_skew_le gravity v; rwa [norm3_gravity] at this
  have hz : ∀ τ l m : ℝ, back τ (0 : V3) (l • v) (m • v) = (τ * l + τ ^ 2 / 2 * m) • (skew gravity)ᵀ.mulVec v := fun τ l m => by
    have := back_dir τ 0 l m v
    rw [zero_smul, zero_add] at this
    exact this
  have hz1 : ∀ τ m : ℝ, back τ (0 : V3) v (m • v) = (τ + τ ^ 2 / 2 * m) • (skew gravity)ᵀ.mulVec v := fun τ m => by
    have := hz τ 1 m
    rw [one_smul, mul_one] at this
    exact this
  have hy : ∀ τ m : ℝ, v + τ • (m • v) = (1 + τ * m) • v := fun τ m => by rw [smul_smul, add_smul, one_smul]
  have hA : ∀ k : ℝ, |k| ≤ T / 2 → norm3 (k • (skew gravity)ᵀ.mulVec v) ≤ (4.9 * T) * norm3 v := fun k hk => by
    rw [norm3_smul]
    calc |k| * norm3 ((skew gravity)ᵀ.mulVec v) ≤ (T / 2) * (9.8 * norm3 v) := mul_le_mul hk hG (norm3_nonneg _) (by positivity)
      _ = (4.9 * T) * norm3 v := by ring
  have hB : ∀ k : ℝ, |k| ≤ 1 → norm3 (k • v) ≤ 1 * norm3 v := fun k hk => by
    rw [norm3_smul]; exact mul_le_mul_of_nonneg_right hk hn
  have q := key 0 v (α • v) (β • v) ((4.9 * T) * norm3 v) (1 * norm3 v) (fun τ a b => by
      rw [hz1, hy]; exact ⟨hA _ (p1 τ a b).1, hB _ (p1 τ a b).2⟩) (fun τ a b => by
      rw [hz1, hy, back_dir, smul_smul, ← add_smul]; exact ⟨hA _ (p2 τ a b).1, hB _ (p2 τ a b).2⟩) (by
      rw [hz1, hy, back_dir, p3, zero_smul]) (by rw [hy, smul_smul, ← add_smul, p4, zero_smul])
  rw [norm3_smul, norm3_smul, footRate_scale, footRate_scale, nsq_smul, nsq_smul, ← sub_smul, nsq_smul, norm3_sq] at q
  have r1 := footRate_mono' (sg := sg) (sa := sa) (sc := sc) (V := V) (D := D) (A := 4.9 * T) (B := 1) (by positivity) hV0 hD (by norm_num) (abs_nonneg α) ha
  have r2 := footRate_mono' (sg := sg) (sa := sa) (sc := sc) (V := V) (D := D) (A := 4.9 * T) (B := 1) (by positivity) hV0 hD (by norm_num) (abs_nonneg β) hbb
  have s1 : α ^ 2 ≤ (2 / T) ^ 2 := sq_le_sq' (by linarith [(abs_le.mp ha).1]) (abs_le.mp ha).2
  have s2 : β ^ 2 ≤ (1 / S) ^ 2 := sq_le_sq' (by linarith [(abs_le.mp hbb).1]) (abs_le.mp hbb).2
  have s3 : (β - α) ^ 2 ≤ (2 / T + 1 / S) ^ 2 := sq_le_sq' (by linarith [(abs_le.mp hab).1]) (abs_le.mp hab).2
  obtain ⟨K, gd⟩ := i5.inv.good
  have x1 := gd.shape.pr
  have x2 := gd.shape.pc
  have hq : quad e5.state.P (lin 0 v) = v ⬝ᵥ (e5.state.P.blk3 3 3).mulVec v := by
    rw [show e5.state.P.blk3 3 3 = e5.state.P.blk3 (3 * 1) (3 * 1) from rfl, ← quad_spread (k := 1) (by omega) (by omega)]
    congr 1
    funext j
    rw [at3_e (lin 0 v) j, at3_e (spread 1 v) j, lin_at3, spread_at3]
    refine congrFun ?_ _
    by_cases h0 : j / 3 = 0
    · rw [if_pos h0, if_neg (by omega)]
    · rw [if_neg h0]
  refine ⟨e5.state.P.blk3 3 3, Mat.blk3?_eq (by omega) (by omega), ?_⟩
  rw [← hq, nsq_dot]
  have hnn := nsq_nonneg v
  unfold footRate at q r1 r2
  refine le_trans q ?_
  have w1 := mul_le_mul_of_nonneg_left r1 (mul_nonneg hT0.le hnn)
  have w2 := mul_le_mul_of_nonneg_left r2 (mul_nonneg hS0.le hnn)
  have w3 : σ ^ 2 * (α ^ 2 * nsq v + (β - α) ^ 2 * nsq v + β ^ 2 * nsq v) ≤
      nsq v * (σ ^ 2 * ((2 / T) ^ 2 + (2 / T + 1 / S) ^ 2 + (1 / S) ^ 2)) := by
    have := mul_le_mul_of_nonneg_left (add_le_add (add_le_add s1 s3) s2) (mul_nonneg (sq_nonneg σ) hnn)
    calc _ = σ ^ 2 * nsq v * (α ^ 2 + (β - α) ^ 2 + β ^ 2) := by ring
      _ ≤ _ := this
      _ = _ := by ring
  have z : ∀ a b c : ℝ, nsq v * (a + T * b + S * c) = nsq v * a + T * nsq v * b + S * nsq v * c := fun a b c => by ring
  rw [z]
  rw [mul_one] at w1 w2
  rw [mul_one]
  have one2 : (1 : ℝ) ^ 2 = 1 := one_pow 2
  rw [one2, mul_one] at w1 w2
  rw [one2, mul_one]
  linarith

theorem back_tilt (τ k l m : ℝ) {w b : V3} (hb : (skew gravity)ᵀ.mulVec b = (-9.8 : ℝ) • w) :
    back τ (k • w) (l • b) (m • b) = (k - 9.8 * (τ * l + τ ^ 2 / 2 * m)) • w := by
  unfold back
  rw [mulVec_smul, mulVec_smul, hb]
  funext j
  simp only [Pi.add_apply, Pi.smul_apply, smul_eq_mul]
  ring

/-- the tilt, from the second difference of the position relative to the foot -/
theorem tilt_weights {T S : ℝ} (hT : 0 < T) (hS : 0 < S) : ∃ γ δ : ℝ, |γ| = 2 / (9.8 * T * (T + S)) ∧ |δ| = 2 / (9.8 * S * (T + S)) ∧
    |δ - γ| = 2 / (9.8 * T * S) ∧
    (∀ τ, 0 ≤ τ → τ ≤ T → |1 - 9.8 * (τ * 0 + τ ^ 2 / 2 * γ)| ≤ 1 ∧ |0 + τ * γ| ≤ 2 / (9.8 * (T + S))) ∧
    (∀ τ, 0 ≤ τ → τ ≤ S → |1 - 9.8 * (T * 0 + T ^ 2 / 2 * γ) - 9.8 * (τ * (0 + T * γ) + τ ^ 2 / 2 * δ)| ≤ 1 ∧ |0 + T * γ + τ * δ| ≤ 2 / (9.8 * (T + S))) ∧
    1 - 9.8 * (T * 0 + T ^ 2 / 2 * γ) - 9.8 * (S * (0 + T * γ) + S ^ 2 / 2 * δ) = 0 ∧ 0 + T * γ + S * δ = 0 := by
  have hTS : 0 < T + S := by linarith
  refine ⟨2 / (9.8 * T * (T + S)), -(2 / (9.8 * S * (T + S))), abs_of_pos (by positivity), by rw [abs_neg]; exact abs_of_pos (by positivity), ?_,
    fun τ t0 t1 => ⟨?_, ?_⟩, fun τ t0 t1 => ⟨?_, ?_⟩, ?_, ?_⟩
  · rw [show -(2 / (9.8 * S * (T + S))) - 2 / (9.8 * T * (T + S)) = -(2 / (9.8 * T * S)) by field_simp; ring, abs_neg]
    exact abs_of_pos (by positivity)
  · rw [show 1 - 9.8 * (τ * 0 + τ ^ 2 / 2 * (2 / (9.8 * T * (T + S)))) = 1 - τ ^ 2 / (T * (T + S)) by field_simp; ring, abs_le]
    have x0 : 0 ≤ τ ^ 2 / (T * (T + S)) := by positivity
    have x1 : τ ^ 2 / (T * (T + S)) ≤ 1 := by rw [div_le_one (by positivity)]; nlinarith
    constructor <;> linarith
  · rw [zero_add, abs_of_nonneg (by positivity), show 2 / (9.8 * (T + S)) = T * (2 / (9.8 * T * (T + S))) by field_simp]
    exact mul_le_mul_of_nonneg_right t1 (by positivity)
  · rw [show 1 - 9.8 * (T * 0 + T ^ 2 / 2 * (2 / (9.8 * T * (T + S)))) - 9.8 * (τ * (0 + T * (2 / (9.8 * T * (T + S)))) + τ ^ 2 / 2 * -(2 / (9.8 * S * (T + S)))) =
      (S - τ) ^ 2 / (S * (T + S)) by field_simp; ring, abs_of_nonneg (by positivity), div_le_one (by positivity)]
    nlinarith
  · rw [show 0 + T * (2 / (9.8 * T * (T + S))) + τ * -(2 / (9.8 * S * (T + S))) = 2 / (9.8 * (T + S)) * ((S - τ) / S) by field_simp; ring,
      abs_of_nonneg (mul_nonneg (by positivity) (div_nonneg (by linarith) hS.le))]
    refine mul_le_of_le_one_right (by positivity) ?_
    rw [div_le_one hS]; linarith
  · field_simp; ring
  · field_simp; ring

/-- **C160**: three kinematic measurements of a foot that stays make the tilt known. -/
theorem C160_tilt {id : ℕ} {σ V D t1 t2 t3 : ℝ} {h : Heap} {g : EstConfig} {ic : ImuPropConfig} {lc : LegConfig} {evs0 evsA evsB : List EstEv}
    {e0 e e1 e2 e3 e4 e5 : Estimator} (hc : Estimator.ctor .rightInvariant h g ic [.leg lc] = some e0)
    (u : Usable ic [.leg lc] (imuArrivals (evs0 ++ (evsA ++ evsB)))) (hb : ic.enable_imu_bias_update.getD false = false) (h0 : e0.run evs0 = some e)
    (t : ThreeTurns id σ V D (lc.encoder_std.getD 0.01) (lc.kinematics_additive_std.getD 0.05) t1 t2 t3 e e1 e2 e3 e4 e5 evsA evsB) (hD : 0 ≤ D)
    (w : V3) (hw : w 2 = 0) :
    ∃ C, e5.state.get_rotation_covariance = some C ∧ w ⬝ᵥ C.mulVec w ≤ (w ⬝ᵥ w) *
      (σ ^ 2 * ((2 / (9.8 * (t3 - t2) * (t3 - t1))) ^ 2 + (2 / (9.8 * (t3 - t2) * (t2 - t1))) ^ 2 + (2 / (9.8 * (t2 - t1) * (t3 - t1))) ^ 2) +
        (t3 - t2) * ((ic.gyroscope_std.getD 0.1) ^ 2 * (1 + V * (2 / (9.8 * (t3 - t1))) + D * (2 / (9.8 * (t3 - t2) * (t3 - t1)))) ^ 2 +
          (ic.accelerometer_std.getD 0.1) ^ 2 * (2 / (9.8 * (t3 - t1))) ^ 2 +
          (lc.contact_noise_std.getD 0.1) ^ 2 * (2 / (9.8 * (t3 - t2) * (t3 - t1))) ^ 2) +
        (t2 - t1) * ((ic.gyroscope_std.getD 0.1) ^ 2 * (1 + V * (2 / (9.8 * (t3 - t1))) + D * (2 / (9.8 * (t2 - t1) * (t3 - t1)))) ^ 2 +
          (ic.accelerometer_std.getD 0.1) ^ 2 * (2 / (9.8 * (t3 - t1))) ^ 2 +
          (lc.contact_noise_std.getD 0.1) ^ 2 * (2 / (9.8 * (t2 - t1) * (t3 - t1))) ^ 2)) := by
  have i0 := ctor_stand u hc hb
  obtain ⟨sg, hsg⟩ : ∃ x, ic.gyroscope_std.getD 0.1 = x := ⟨_, rfl⟩
  obtain ⟨sa, hsa⟩ : ∃ x, ic.accelerometer_std.getD 0.1 = x := ⟨_, rfl⟩
  obtain ⟨sc, hsc⟩ : ∃ x, lc.contact_noise_std.getD 0.1 = x := ⟨_, rfl⟩
  rw [hsg, hsa, hsc] at i0 ⊢
  rw [imuArrivals_append] at i0
  have i := run_standInv evs0 i0 h0
  obtain ⟨i5, key⟩ := three_foot t i hD
  have hTS : t3 - t1 = (t3 - t2) + (t2 - t1) := by ring
  rw [hTS]
  obtain ⟨T, hT⟩ : ∃ T, t3 - t2 = T := ⟨_, rfl⟩
  obtain ⟨S, hS⟩ : ∃ S, t2 - t1 = S := ⟨_, rfl⟩
  rw [hT, hS] at key ⊢
  have hT0 : 0 < T := by have := t.lt23; linarith
  have hS0 : 0 < S := by have := t.lt12; linarith
  have hn := norm3_nonneg w
  obtain ⟨γ, δ, a1, a2, a3, p1, p2, p3, p4⟩ := tilt_weights hT0 hS0
  obtain ⟨b, hbv⟩ : ∃ b : V3, b = ![-w 1, w 0, 0] := ⟨_, rfl⟩
  have hG : (skew gravity)ᵀ.mulVec b = (-9.8 : ℝ) • w := by
    rw [skew_gravity, hbv]
    funext j
    fin_cases j <;> simp [hw]
  have hbn : nsq b = nsq w := by rw [hbv]; simp [nsq, hw]; ring
  have hbN : norm3 b = norm3 w := by
    have : norm3 b ^ 2 = norm3 w ^ 2 := by rw [norm3_sq, norm3_sq, hbn]
    exact (sq_eq_sq₀ (norm3_nonneg _) hn).mp this
  have hx : ∀ τ l m : ℝ, back τ w (l • b) (m • b) = (1 - 9.8 * (τ * l + τ ^ 2 / 2 * m)) • w := fun τ l m => by
    have := back_tilt τ 1 l m hG
    rwa [one_smul] at this
  have hA : ∀ k : ℝ, |k| ≤ 1 → norm3 (k • w) ≤ 1 * norm3 w := fun k hk => by
    rw [norm3_smul]; exact mul_le_mul_of_nonneg_right hk hn
  have hB : ∀ k : ℝ, |k| ≤ 2 / (9.8 * (T + S)) → norm3 (k • b) ≤ 2 / (9.8 * (T + S)) * norm3 w := fun k hk => by
    rw [norm3_smul, hbN]; exact mul_le_mul_of_nonneg_right hk hn
  have hy : ∀ τ m : ℝ, (0 : ℝ) • b + τ • (m • b) = (0 + τ * m) • b := fun τ m => by rw [smul_smul, ← add_smul]
  have q := key w ((0 : ℝ) • b) (γ • b) (δ • b) (1 * norm3 w) (2 / (9.8 * (T + S)) * norm3 w) (fun τ a c => by
      rw [hx, hy]; exact ⟨hA _ (p1 τ a c).1, hB _ (p1 τ a c).2⟩) (fun τ a c => by
      rw [hx, hy, back_tilt _ _ _ _ hG, smul_smul, ← add_smul]; exact ⟨hA _ (p2 τ a c).1, hB _ (p2 τ a c).2⟩) (by
      rw [hx, hy, back_tilt _ _ _ _ hG, p3, zero_smul]) (by rw [hy, smul_smul, ← add_smul, p4, zero_smul])
  rw [norm3_smul, norm3_smul, hbN, footRate_scale, footRate_scale, nsq_smul, nsq_smul, ← sub_smul, nsq_smul, norm3_sq, hbn, zero_smul, a1, a2,
    ← sq_abs γ, ← sq_abs δ, ← sq_abs (δ - γ), a1, a2, a3] at q
  obtain ⟨K, gd⟩ := i5.inv.good
  have x1 := gd.shape.pr
  have x2 := gd.shape.pc
  have hq : quad e5.state.P (lin w 0) = w ⬝ᵥ (e5.state.P.blk3 0 0).mulVec w := by
    rw [← quad_spread (k := 0) (by omega) (by omega)]
    congr 1
    funext j
    rw [at3_e (lin w 0) j, at3_e (spread 0 w) j, lin_at3, spread_at3]
    split_ifs <;> rfl
  refine ⟨e5.state.P.blk3 0 0, Mat.blk3?_eq (by omega) (by omega), ?_⟩
  rw [← hq, nsq_dot]
  refine le_trans q (le_of_eq ?_)
  unfold footRate
  ring

/-! ### a concrete case -/

/-- a turn of the main loop with an IMU measurement and a usable kinematic measurement at the front of the queues -/
theorem tick_uses_leg {fut : List ImuMeas} {e : Estimator} (i : EstInv fut e) (hen : e.enabled = true) {c : LegCorr} (hc : e.corrs = [.leg c]) {x : LegMeas}
    {xs : List LegMeas} (hx : c.buffer = x :: xs) {m f : ImuMeas} {fs : List ImuMeas} (hb : e.prop.buffer = f :: fs) (hm : e.prop.prev = some m)
    (h2 : ¬ Stale c.tDiffThres m.time x.time) :
    Measures e ∧ ∃ e' c', e.step .tick = some e' ∧ EstInv fut e' ∧ e'.enabled = true ∧ e'.corrs = [.leg c'] ∧ c'.buffer = xs ∧ c'.tDiffThres = c.tDiffThres ∧
      e'.prop.prev = some f ∧ e'.prop.buffer = fs ∧ e'.state.tProp = some m.time := by
  obtain ⟨K, g⟩ := i.good
  obtain ⟨hpend, tp, m', htp, hm', hle, ht⟩ := i.run hen
  rw [hm] at hm'
  obtain rfl := Option.some.inj hm'
  obtain ⟨b0, p', s1, e1, g1, -, q2⟩ := prop_good g i.noise hm htp hle
  obtain ⟨-, rfl, -, q3, hcm⟩ := q2 f fs hb
  obtain ⟨e', h', inv⟩ := step_inv (fut := fut) .tick (by simpa [imuArrivals] using i)
  obtain ⟨b, p, s1', b', c', hh, s2, r1, r2, r3, r4, r5, r6, r7⟩ := tick_leg i hen hc h'
  rw [r1] at e1
  obtain ⟨-, rfl, rfl⟩ := Option.some.inj e1
  have hco := i.corrs.each (.leg c) (by rw [hc]; simp)
  have hids : IdsOK s1 c.ids := ⟨by rw [hcm]; exact hco.ids.mem, hco.ids.inj⟩
  have hr := r2
  obtain ⟨rfl, hbuf, -⟩ := C146_used_partial g1 hids hco.param.1 hco.param.2 q3 hx h2 r2
  have hM : Measures e := ⟨_, _, _, [true], _, _, _, r1, by
    rw [hc]; exact .cons (show (Corr.leg c).correct e.heap s1 = some (true, .leg c', hh, s2) by simp [Corr.correct, r2]) (.nil _ _), by simp⟩
  have htp2 : s2.tProp = s1.tProp ∧ c'.tDiffThres = c.tDiffThres := by
    obtain ⟨b3, d3, h3, s3, K3, w1, -, w2⟩ := corr_correct g1 (c := .leg c) ⟨hco.param, hids⟩ q3
    simp only [Corr.correct, r2, Option.map_some, Option.some.injEq, Prod.mk.injEq] at w1
    obtain ⟨-, -, -, rfl⟩ := w1
    refine ⟨w2.tp, ?_⟩
    unfold LegCorr.correct at hr
    rw [hx] at hr
    simp only [q3, Option.bind_eq_bind, Option.bind_some] at hr
    rw [show popFresh LegMeas.time c.tDiffThres m.time x xs = some (x, xs) from popFresh_some.mpr ⟨[], rfl, by simp, h2⟩] at hr
    simp only [Option.bind_eq_some_iff] at hr
    obtain ⟨⟨a1, a2, a3⟩, -, hr⟩ := hr
    obtain ⟨-, rfl, -, -⟩ := Option.some.inj hr
    rfl
  exact ⟨hM, e', c', h', inv, r5, r4, hbuf, htp2.2, by rw [r3], by rw [r3], by rw [r6, htp2.1, q3]⟩

theorem walkKin_stands (v t : ℝ) : StandsOn 0 0.051 0.01 0.05 (walkKin v t) := by
  refine ⟨_, rfl, rfl, fun u => ?_⟩
  have : footCovSpec 0.01 0.05 ⟨true, ![1 - v * t, 0, 0], 1⟩ = (0.0026 : ℝ) • (1 : M3) := by
    unfold footCovSpec
    rw [transpose_one, mul_one, ← add_smul]
    norm_num
  rw [this, smul_mulVec, one_mulVec, dotProduct_smul, smul_eq_mul]
  have h0 : 0 ≤ u ⬝ᵥ u := by rw [nsq_dot]; exact nsq_nonneg u
  exact mul_le_mul_of_nonneg_right (by norm_num) h0

/-- the hypotheses of `C160_velocity` and `C160_tilt` are met: a robot walks at 1 m/s, its first foot stays on the ground; after the initialisation three
kinematic measurements and three IMU measurements, of 0.1 s, 0.2 s and 0.3 s, arrive, and the next three turns of the main loop each use a kinematic
measurement; from one to the next 0.1 s of motion is integrated -/
example : ∃ (evs0 : List EstEv) (e0 e e1 e3 e5 : Estimator) (V D : ℝ),
    Estimator.ctor .rightInvariant ⟨fun _ => 0, 0⟩ {} fwdConfig [.leg {}] = some e0 ∧
    Usable fwdConfig [.leg {}] (imuArrivals (evs0 ++ ([] ++ []))) ∧ fwdConfig.enable_imu_bias_update.getD false = false ∧ e0.run evs0 = some e ∧
    ThreeTurns 0 0.051 V D (({} : LegConfig).encoder_std.getD 0.01) (({} : LegConfig).kinematics_additive_std.getD 0.05) 0 0.1 0.2 e e1 e1 e3 e3 e5 [] [] ∧
    0 ≤ D := by
  obtain ⟨e0, e, c, h0, h1, hen, hc, c1, c2, c3, k1, k2, k3, k4, k5, k6, k7, k8⟩ := walk_start 1
  have u : Usable fwdConfig [.leg {}] (imuArrivals ([.tick, .imu (fwdImu 0 0), .leg 0 (walkKin 1 0), .tick] ++
      [.imu (fwdImu 0 0.1), .imu (fwdImu 0 0.2), .imu (fwdImu 0 0.3), .leg 0 (walkKin 1 0), .leg 0 (walkKin 1 0.1), .leg 0 (walkKin 1 0.2)])) :=
    ⟨by simp, by norm_num, .inl rfl, .inl rfl, by simp [imuArrivals, fwdImu]; norm_num⟩
  obtain ⟨ea, ha⟩ : ∃ ea, e0.run ([.tick, .imu (fwdImu 0 0), .leg 0 (walkKin 1 0), .tick] ++
      [.imu (fwdImu 0 0.1), .imu (fwdImu 0 0.2), .imu (fwdImu 0 0.3), .leg 0 (walkKin 1 0), .leg 0 (walkKin 1 0.1), .leg 0 (walkKin 1 0.2)]) = some ea :=
    (C58_safe h0 _ u).imp fun _ h => h.1
  have hi : EstInv [] ea := inUse_inv (exInUse h0 u ha)
  have ha' := ha
  rw [est_run_append, h1] at ha'
  simp only [Option.bind_some, Estimator.run, Estimator.step, hc, List.modify_zero_cons, Corr.pushLeg] at ha'
  have hea := Option.some.inj ha'
  have x1 : ea.corrs = [.leg { c with buffer := [walkKin 1 0, walkKin 1 0.1, walkKin 1 0.2] }] := by rw [← hea]; simp [c1]
  have x2 : ea.prop.buffer = [fwdImu 0 0.1, fwdImu 0 0.2, fwdImu 0 0.3] := by rw [← hea]; simp [k6]
  have x3 : ea.prop.prev = some (fwdImu 0 0) := by rw [← hea]; simp [k5]
  have x4 : ea.enabled = true := by rw [← hea]; exact hen
  obtain ⟨M1, e1, d1, s1, i1, n1, y1, y2, y3, y4, y5, y6⟩ := tick_uses_leg hi x4 x1 rfl x2 x3 (by
    show ¬ Stale c.tDiffThres _ _
    rw [c2]; simp [Stale, fwdImu, walkKin]; norm_num)
  have y3' : d1.tDiffThres = 0.3 := y3.trans c2
  obtain ⟨M2, e3, d3, s3, i3, n3, z1, z2, z3, z4, z5, z6⟩ := tick_uses_leg i1 n1 y1 y2 y5 y4 (by
    rw [y3']; simp [Stale, fwdImu, walkKin]; norm_num)
  obtain ⟨M3, e5, d5, s5, i5, n5, w1, w2, w3, w4, w5, w6⟩ := tick_uses_leg i3 n3 z1 z2 z5 z4 (by
    rw [z3, y3']; simp [Stale, fwdImu, walkKin]; norm_num)
  have hpre : ∀ (P : Estimator → Prop) pre e', P e1 → P e3 → pre <+: ([] ++ EstEv.tick :: []) → e1.run pre = some e' → P e' := by
    intro P pre e' p1 p3 hp hr
    rcases pre with _ | ⟨ev, pre⟩
    · obtain rfl := Option.some.inj hr; exact p1
    · obtain ⟨rfl, hp2⟩ := List.cons_prefix_cons.mp hp
      obtain rfl := List.prefix_nil.mp hp2
      simp only [Estimator.run, s3] at hr
      obtain rfl := Option.some.inj hr; exact p3
  have hsp : ∀ E : Estimator, EstInv [] E → E.state.get_velocity = some (E.state.X.blkV 0 3) := fun E iE => by
    obtain ⟨K, gd⟩ := iE.good
    have w1 := gd.shape.x.rows; have w2 := gd.shape.x.cols; have hK := gd.shape.k
    exact blkV?_eq (by omega) (by omega)
  have hre : ∀ E : Estimator, ∀ d : LegCorr, E.corrs = [.leg d] → ∃ D, 0 ≤ D ∧ ∀ D', D ≤ D' → ReachLe 0 D' E := fun E d hd => by
    by_cases q : ∃ a p x, d.ids 0 = some a ∧ E.state.get_position = some p ∧ E.state.get_vector (E.heap.val a) = some x
    · obtain ⟨a, p, x, q1, q2, q3⟩ := q
      refine ⟨norm3 (p - x), norm3_nonneg _, fun D' hD' d' a' p' x' r1 r2 r3 r4 => ?_⟩
      rw [hd, List.mem_singleton] at r1
      cases r1
      rw [q1] at r2; cases r2
      rw [q2] at r3; cases r3
      rw [q3] at r4; cases r4
      exact hD'
    · refine ⟨0, le_refl _, fun D' hD' d' a' p' x' r1 r2 r3 r4 => ?_⟩
      rw [hd, List.mem_singleton] at r1
      cases r1
      exact absurd ⟨a', p', x', r2, r3, r4⟩ q
  obtain ⟨D1, o1, R1⟩ := hre e1 d1 y1
  obtain ⟨D3, o3, R3⟩ := hre e3 d3 z1
  refine ⟨_, e0, ea, e1, e3, e5, max (norm3 (e1.state.X.blkV 0 3)) (norm3 (e3.state.X.blkV 0 3)), max D1 D3, h0, by simpa using u, rfl, ha, ?_,
    le_max_of_le_left o1⟩
  refine ⟨x4, s1, rfl, s3, rfl, s5, M1, M2, M3, by simp [NoClear], by simp [NoClear], ⟨?_, by simp⟩, ?_, ?_, y6, z6, w6, by norm_num, by norm_num⟩
  · intro c' hc' m hm
    rw [x1, List.mem_singleton] at hc'
    cases hc'
    have hm : m ∈ [walkKin 1 0, walkKin 1 0.1, walkKin 1 0.2] := hm
    simp only [List.mem_cons, List.not_mem_nil, or_false] at hm
    rcases hm with rfl | rfl | rfl <;> exact walkKin_stands _ _
  · exact fun pre e' hp hr => hpre (fun E => SpeedLe _ E.state) pre e' ⟨_, hsp e1 i1, le_max_left _ _⟩ ⟨_, hsp e3 i3, le_max_right _ _⟩ hp hr
  · exact fun pre e' hp hr => hpre (ReachLe 0 _) pre e' (R1 _ (le_max_left _ _)) (R3 _ (le_max_right _ _)) hp hr

end Drift
