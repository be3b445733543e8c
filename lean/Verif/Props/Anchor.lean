import Verif.Lemmas.Abs2
import Verif.Props.Stand
import Verif.Props.PosGrowth

/-!
# C163: while feet stand, the reported position is lost no faster than they slip
-/
set_option linter.unusedSimpArgs false
namespace Drift
open Mat Matrix Finset RobotState ImuProp

theorem TracksLeg.unique {id a b : ℕ} {e : Estimator} (h : TracksLeg id a e) (h' : TracksLeg id b e) : a = b := by
  obtain ⟨c, hc, ha⟩ := h
  obtain ⟨d, hd, hb⟩ := h'
  rw [hc] at hd
  cases hd
  exact Option.some.inj (ha.symm.trans hb)

/-- a turn keeps the reference of a leg that stands -/
theorem tick_tracks {sg sa sc enc kin σ : ℝ} {id a : ℕ} {fut : List ImuMeas} {e e' : Estimator} (i : StandInv sg sa sc enc kin fut e)
    (hen : e.enabled = true) (hst : ∀ c, Corr.leg c ∈ e.corrs → ∀ m ∈ c.buffer, StandsOn id σ enc kin m) (h : e.step .tick = some e')
    (ht : TracksLeg id a e) : TracksLeg id a e' := by
  obtain ⟨-, -, tp0, tp1, -, -, -, q6, -⟩ := tick_foot (id := id) (σ := σ) i hen hst h
  obtain ⟨c, hc, ha⟩ := ht
  obtain ⟨K, gd⟩ := i.inv.good
  have x1 := gd.shape.x.rows; have x2 := gd.shape.x.cols; have hK := gd.shape.k
  refine (q6 a (norm3 (e.state.X.blkV 0 3)) (norm3 (e.state.X.blkV 0 4 - e.state.X.blkV 0 (blkOf e.heap a + 2))) ⟨c, hc, ha⟩
    ⟨_, blkV?_eq (by omega) (by omega), le_refl _⟩ ?_).1
  intro c2 a2 p2 d2 hc2 ha2 hp2 hd2
  have hcc : c2 = c := by rw [hc] at hc2; simpa using hc2
  rw [hcc, ha] at ha2
  obtain rfl := Option.some.inj ha2
  have hok := i.inv.corrs.each (.leg c) (by rw [hc]; simp)
  have hmem : some a ∈ e.state.colMap := hok.ids.mem id a ha
  obtain ⟨j, j1, j2, -, j4, -⟩ := gd.col hmem
  obtain ⟨-, -, t3, -⟩ := gd.blkOf hmem
  have hj : j = blkOf e.heap a + 2 := by rw [← t3, j4]; simp
  rw [j4, get_vector_eq gd j2, hj] at hd2
  have hp3 : e.state.get_position = some (e.state.X.blkV 0 4) := blkV?_eq (by omega) (by omega)
  rw [hp3] at hp2
  rw [← Option.some.inj hd2, ← Option.some.inj hp2]

theorem sd_le {σ n : ℝ} (hσ : 0 ≤ σ) {v w : ℝ} (hw : v ^ 2 = n) (hv : 0 ≤ v) (h : w ≤ σ ^ 2 * n) : √w ≤ σ * v := by
  rw [← hw, ← mul_pow] at h
  exact (Real.sqrt_le_sqrt h).trans (le_of_eq (Real.sqrt_sq (mul_nonneg hσ hv)))

/-- one stance -/
theorem stance_pos {id : ℕ} {σ D t t' sg sa sc enc kin : ℝ} {fut : List ImuMeas} {e e1 e2 e3 : Estimator} {evs : List EstEv} (hσ : 0 ≤ σ)
    (st : StanceOf id σ D enc kin t t' e e1 e2 e3 evs) (i : StandInv sg sa sc enc kin (imuArrivals evs ++ fut) e) :
    StandInv sg sa sc enc kin fut e2 ∧ t ≤ t' ∧ ∀ w : V3, √(quad e3.state.P (spread 2 w)) ≤
      √((√(quad e1.state.P (spread 2 w)) + σ * norm3 w) ^ 2 + (t' - t) * ((sg ^ 2 * D ^ 2 + sc ^ 2) * nsq w)) + σ * norm3 w := by
  have i1 : StandInv sg sa sc enc kin (imuArrivals evs ++ fut) e1 := StandInv.step (ev := .tick) (by simpa [imuArrivals] using i) st.first
  have i2 := run_standInv evs i1 st.between
  have i3 : StandInv sg sa sc enc kin fut e3 := StandInv.step (ev := .tick) (by simpa [imuArrivals] using i2) st.last
  obtain ⟨en1, b1, tp, tp1, -, p2, -, -, p5⟩ := tick_foot (id := id) (σ := σ) i st.run st.standing.1 st.first
  rw [st.time] at p2
  obtain rfl := Option.some.inj p2
  obtain ⟨a, ta1, k1⟩ := p5 st.uses
  obtain ⟨en2, b2, ta2, tp1', tp2, q1, q2, q3, k2⟩ := run_abs evs i1 en1 st.keep st.far ⟨b1, fun k m hm => st.standing.2 k m hm⟩ ta1 st.between
  rw [st.time] at q1
  obtain rfl := Option.some.inj q1
  obtain ⟨-, -, tp2', tp3, r1, r2, r3, -, r5⟩ := tick_foot (id := id) (σ := σ) i2 en2 b2 st.last
  rw [q2] at r1
  obtain rfl := Option.some.inj r1
  rw [st.time'] at r2
  obtain rfl := Option.some.inj r2
  obtain ⟨a', ta3', k3⟩ := r5 st.uses'
  obtain rfl := TracksLeg.unique (tick_tracks i2 en2 b2 st.last ta2) ta3'
  obtain ⟨u1, u2, v1, v2, v3⟩ := tick_abs i2 en2 b2 st.last ta2 (st.far evs e2 (List.prefix_refl _) st.between)
  rw [q2] at v1; rw [st.time'] at v2
  obtain rfl := Option.some.inj v1
  obtain rfl := Option.some.inj v2
  refine ⟨i2, le_trans q3 r3, fun w => ?_⟩
  obtain ⟨K1, g1⟩ := i1.inv.good
  obtain ⟨K3, g3⟩ := i3.inv.good
  -- the foot after the first turn
  have hn := norm3_nonneg w
  have f1 : √(footAbs e1 a w) ≤ √(quad e1.state.P (spread 2 w)) + σ * norm3 w := by
    have hx := psd_triangle g1.psd (spread 2 w) (footL (blkOf e1.heap a) 0 0 (-w)) (l := 1) zero_le_one
    have e : (fun j => spread 2 w j + 1 * footL (blkOf e1.heap a) 0 0 (-w) j) = spread (blkOf e1.heap a) w := by
      funext j
      have z : ∀ k, spread k (0 : V3) j = 0 := fun k => by rw [at3_e (spread k 0) j, spread_at3]; split_ifs <;> rfl
      have ng : ∀ k, spread k (-w) j = -spread k w j := fun k => by
        rw [at3_e (spread k (-w)) j, at3_e (spread k w) j, spread_at3, spread_at3]; split_ifs <;> simp
      simp only [footL, z, ng]; ring
    rw [e, one_mul] at hx
    have h1 := k1 (-w)
    have hm : nsq (-w) = nsq w := by simp [nsq]
    rw [hm] at h1
    have h2 := sd_le hσ (norm3_sq w) hn h1
    refine (Real.sqrt_le_sqrt hx).trans ?_
    rw [Real.sqrt_sq (add_nonneg (Real.sqrt_nonneg _) (Real.sqrt_nonneg _))]
    exact add_le_add le_rfl h2
  -- the position after the last turn
  have f3 : √(quad e3.state.P (spread 2 w)) ≤ √(footAbs e3 a w) + σ * norm3 w := by
    have hx := psd_triangle g3.psd (spread (blkOf e3.heap a) w) (footL (blkOf e3.heap a) 0 0 w) (l := 1) zero_le_one
    have e : (fun j => spread (blkOf e3.heap a) w j + 1 * footL (blkOf e3.heap a) 0 0 w j) = spread 2 w := by
      funext j
      have z : ∀ k, spread k (0 : V3) j = 0 := fun k => by rw [at3_e (spread k 0) j, spread_at3]; split_ifs <;> rfl
      simp only [footL, z]; ring
    rw [e, one_mul] at hx
    have h2 := sd_le hσ (norm3_sq w) hn (k3 w)
    refine (Real.sqrt_le_sqrt hx).trans ?_
    rw [Real.sqrt_sq (add_nonneg (Real.sqrt_nonneg _) (Real.sqrt_nonneg _))]
    exact add_le_add le_rfl h2
  refine f3.trans (add_le_add (Real.sqrt_le_sqrt ?_) le_rfl)
  have h0 : 0 ≤ footAbs e1 a w := g1.psd.2 _
  have h1 : footAbs e1 a w ≤ (√(quad e1.state.P (spread 2 w)) + σ * norm3 w) ^ 2 := by
    rw [← Real.sq_sqrt h0]
    exact pow_le_pow_left₀ (Real.sqrt_nonneg _) f1 2
  have h2 := k2 w
  have h3 := v3 w
  nlinarith

theorem sqrt_shift {x y s : ℝ} (hx : 0 ≤ x) (hy : 0 ≤ y) (hs : 0 ≤ s) : √((x + s) ^ 2 + y) ≤ √(x ^ 2 + y) + s := by
  obtain ⟨z, hz⟩ : ∃ z, √(x ^ 2 + y) = z := ⟨_, rfl⟩
  have h0 : 0 ≤ x ^ 2 + y := by positivity
  have hz0 : 0 ≤ z := by rw [← hz]; exact Real.sqrt_nonneg _
  have hz2 : z ^ 2 = x ^ 2 + y := by rw [← hz, Real.sq_sqrt h0]
  have hxz : x ≤ z := by rw [← hz]; exact Real.le_sqrt_of_sq_le (by linarith)
  rw [hz]
  refine Real.sqrt_le_iff.mpr ⟨by positivity, ?_⟩
  nlinarith [mul_le_mul_of_nonneg_right hxz hs]

/-- one stance after others -/
theorem stance_chain {A x z c m s : ℝ} (hA : 0 ≤ A) (hx : 0 ≤ x) (hc : 0 ≤ c) (hm : 0 ≤ m) (hs : 0 ≤ s) (h1 : x ≤ √A + m)
    (h2 : z ≤ √((x + s) ^ 2 + c) + s) : z ≤ √(A + c) + (m + 2 * s) := by
  have h3 : √((x + s) ^ 2 + c) ≤ √((√A + (m + s)) ^ 2 + c) :=
    Real.sqrt_le_sqrt (add_le_add (pow_le_pow_left₀ (by linarith) (by linarith) 2) le_rfl)
  have h4 := sqrt_shift (Real.sqrt_nonneg A) hc (show 0 ≤ m + s by linarith)
  rw [Real.sq_sqrt hA] at h4
  linarith

theorem stances_pos {σ D sg sa sc enc kin : ℝ} (hσ : 0 ≤ σ) {fut : List ImuMeas} (l : List (ℕ × List EstEv)) :
    ∀ {t t' : ℝ} {e e1 x x1 : Estimator}, StancesOf σ D enc kin l t e e1 t' x x1 → e.step .tick = some e1 →
    StandInv sg sa sc enc kin (imuArrivals (stanceEvs l) ++ fut) e →
    StandInv sg sa sc enc kin fut x ∧ x.step .tick = some x1 ∧ t ≤ t' ∧ ∀ (w : V3) (A m : ℝ), 0 ≤ A → 0 ≤ m →
      √(quad e1.state.P (spread 2 w)) ≤ √A + m →
      √(quad x1.state.P (spread 2 w)) ≤ √(A + (t' - t) * ((sg ^ 2 * D ^ 2 + sc ^ 2) * nsq w)) + (m + 2 * (l.length * (σ * norm3 w))) := by
  induction l with
  | nil =>
    intro t t' e e1 x x1 h ht i
    obtain ⟨rfl, rfl, rfl⟩ := h
    refine ⟨by simpa [stanceEvs, imuArrivals] using i, ht, le_refl _, fun w A m _ _ h => ?_⟩
    simpa using h
  | cons p l ih =>
    obtain ⟨id, evs⟩ := p
    intro t t' e e1 x x1 h ht i
    obtain ⟨s, e2, e3, h1, h2⟩ := h
    have i' : StandInv sg sa sc enc kin (imuArrivals evs ++ (imuArrivals (stanceEvs l) ++ fut)) e := by
      rw [← List.append_assoc, ← imuArrivals_append]
      simpa [stanceEvs, imuArrivals] using i
    obtain ⟨i2, hts, key⟩ := stance_pos hσ h1 i'
    obtain ⟨j1, j2, j3, j4⟩ := ih h2 h1.last i2
    refine ⟨j1, j2, le_trans hts j3, fun w A m hA hm hw => ?_⟩
    have hr : 0 ≤ (sg ^ 2 * D ^ 2 + sc ^ 2) * nsq w := mul_nonneg (by positivity) (nsq_nonneg w)
    have hc : 0 ≤ (s - t) * ((sg ^ 2 * D ^ 2 + sc ^ 2) * nsq w) := mul_nonneg (by linarith) hr
    have hs : 0 ≤ σ * norm3 w := mul_nonneg hσ (norm3_nonneg w)
    have k1 := stance_chain hA (Real.sqrt_nonneg _) hc hm hs hw (key w)
    have k2 := j4 w _ _ (by linarith) (by linarith) k1
    refine le_trans k2 (le_of_eq ?_)
    rw [List.length_cons]
    push_cast
    congr 1
    · congr 1; ring
    · ring

/-- **C163**: In a walk of `n` stances of the right-invariant filter without bias estimation the reported standard deviation of the position, in any
direction, is at the end at most that of the start, with a variance added that grows with time at the rate of the noise of the contacts and of the
gyroscope (for the distance from the origin), and the kinematic error `σ` twice for each stance.  The noise of the accelerometer, the speed and the time
between measurements have no influence. -/
theorem C163_walk {σ D t t' : ℝ} {h : Heap} {g : EstConfig} {ic : ImuPropConfig} {lc : LegConfig} {evs0 : List EstEv} {l : List (ℕ × List EstEv)}
    {e0 e e1 x x1 : Estimator} (hc : Estimator.ctor .rightInvariant h g ic [.leg lc] = some e0)
    (u : Usable ic [.leg lc] (imuArrivals (evs0 ++ stanceEvs l))) (hb : ic.enable_imu_bias_update.getD false = false) (h0 : e0.run evs0 = some e)
    (h1 : e.step .tick = some e1)
    (st : StancesOf σ D (lc.encoder_std.getD 0.01) (lc.kinematics_additive_std.getD 0.05) l t e e1 t' x x1) (hσ : 0 ≤ σ) (w : V3) :
    t ≤ t' ∧ ∃ P P', e1.state.get_position_covariance = some P ∧ x1.state.get_position_covariance = some P' ∧
      √(w ⬝ᵥ P'.mulVec w) ≤ √(w ⬝ᵥ P.mulVec w + (t' - t) *
        (((ic.gyroscope_std.getD 0.1) ^ 2 * D ^ 2 + (lc.contact_noise_std.getD 0.1) ^ 2) * (w ⬝ᵥ w))) + 2 * (l.length * (σ * √(w ⬝ᵥ w))) := by
  have i0 := ctor_stand u hc hb
  rw [imuArrivals_append] at i0
  have i := run_standInv evs0 i0 h0
  have i' : StandInv (ic.gyroscope_std.getD 0.1) (ic.accelerometer_std.getD 0.1) (lc.contact_noise_std.getD 0.1) (lc.encoder_std.getD 0.01)
      (lc.kinematics_additive_std.getD 0.05) (imuArrivals (stanceEvs l) ++ []) e := by simpa using i
  obtain ⟨j1, j2, j3, j4⟩ := stances_pos hσ l st h1 i'
  have k1 : StandInv (ic.gyroscope_std.getD 0.1) (ic.accelerometer_std.getD 0.1) (lc.contact_noise_std.getD 0.1) (lc.encoder_std.getD 0.01)
      (lc.kinematics_additive_std.getD 0.05) (imuArrivals (stanceEvs l)) e1 := StandInv.step (ev := .tick) (by simpa [imuArrivals] using i) h1
  have k2 : StandInv (ic.gyroscope_std.getD 0.1) (ic.accelerometer_std.getD 0.1) (lc.contact_noise_std.getD 0.1) (lc.encoder_std.getD 0.01)
      (lc.kinematics_additive_std.getD 0.05) [] x1 := StandInv.step (ev := .tick) (by simpa [imuArrivals] using j1) j2
  obtain ⟨K, gd⟩ := k1.inv.good
  obtain ⟨K', gd'⟩ := k2.inv.good
  have p1 := gd.shape.pr; have p2 := gd.shape.pc; have p3 := gd'.shape.pr; have p4 := gd'.shape.pc
  refine ⟨j3, _, _, Mat.blk3?_eq (by omega) (by omega), Mat.blk3?_eq (by omega) (by omega), ?_⟩
  have q1 : quad e1.state.P (spread 2 w) = w ⬝ᵥ (e1.state.P.blk3 6 6).mulVec w := quad_spread (k := 2) (by omega) (by omega) w
  have q2 : quad x1.state.P (spread 2 w) = w ⬝ᵥ (x1.state.P.blk3 6 6).mulVec w := quad_spread (k := 2) (by omega) (by omega) w
  have q3 := j4 w (quad e1.state.P (spread 2 w)) 0 (gd.psd.2 _) le_rfl (by rw [add_zero])
  have q4 : √(w ⬝ᵥ w) = norm3 w := by
    rw [nsq_dot, ← norm3_sq, Real.sqrt_sq (norm3_nonneg w)]
  rw [q1, q2, zero_add] at q3
  rw [q4, nsq_dot]
  exact q3

/-- the hypotheses of `C163_walk` are met: a robot walks at 1 m/s, its first foot stays on the ground; after the initialisation three kinematic
measurements and three IMU measurements, of 0.1 s, 0.2 s and 0.3 s, arrive, and the next three turns of the main loop are two stances; 0.2 s of motion are
integrated -/
example : ∃ (evs0 : List EstEv) (e0 e e1 x x1 : Estimator) (D : ℝ),
    Estimator.ctor .rightInvariant ⟨fun _ => 0, 0⟩ {} fwdConfig [.leg {}] = some e0 ∧
    Usable fwdConfig [.leg {}] (imuArrivals (evs0 ++ stanceEvs [(0, []), (0, [])])) ∧ fwdConfig.enable_imu_bias_update.getD false = false ∧
    e0.run evs0 = some e ∧ e.step .tick = some e1 ∧
    StancesOf 0.051 D (({} : LegConfig).encoder_std.getD 0.01) (({} : LegConfig).kinematics_additive_std.getD 0.05) [(0, []), (0, [])] 0 e e1 0.2 x x1 := by
  obtain ⟨e0, e, c, h0, h1, hen, hc, c1, c2, c3, k1, k2, k3, k4, k5, k6, k7, k8⟩ := walk_start 1
  have u : Usable fwdConfig [.leg {}] (imuArrivals ([.tick, .imu (fwdImu 0 0), .leg 0 (walkKin 1 0), .tick] ++
      [.imu (fwdImu 0 0.1), .imu (fwdImu 0 0.2), .imu (fwdImu 0 0.3), .leg 0 (walkKin 1 0), .leg 0 (walkKin 1 0.1), .leg 0 (walkKin 1 0.2)])) :=
    ⟨by simp, by norm_num, .inl rfl, .inl rfl, by simp [imuArrivals, fwdImu]; norm_num⟩
  obtain ⟨ea, ha⟩ : ∃ ea, e0.run ([.tick, .imu (fwdImu 0 0), .leg 0 (walkKin 1 0), .tick] ++
      [.imu (fwdImu 0 0.1), .imu (fwdImu 0 0.2), .imu (fwdImu 0 0.3), .leg 0 (walkKin 1 0), .leg 0 (walkKin 1 0.1), .leg 0 (walkKin 1 0.2)]) = some ea :=
    (C58_safe h0 _ u).imp fun _ h => h.1
  have hi : EstInv [] ea := inUse_inv (exInUse h0 u ha)
  have ha' := ha
  rw [est_run_append, h1] at ha'
  simp only [Option.bind_some, Estimator.run, Estimator.step, hc, List.modify_zero_cons, Corr.pushLeg] at ha'
  have hea := Option.some.inj ha'
  have x1 : ea.corrs = [.leg { c with buffer := [walkKin 1 0, walkKin 1 0.1, walkKin 1 0.2] }] := by rw [← hea]; simp [c1]
  have x2 : ea.prop.buffer = [fwdImu 0 0.1, fwdImu 0 0.2, fwdImu 0 0.3] := by rw [← hea]; simp [k6]
  have x3 : ea.prop.prev = some (fwdImu 0 0) := by rw [← hea]; simp [k5]
  have x4 : ea.enabled = true := by rw [← hea]; exact hen
  obtain ⟨M1, e1, d1, s1, i1, n1, y1, y2, y3, y4, y5, y6⟩ := tick_uses_leg hi x4 x1 rfl x2 x3 (by
    show ¬ Stale c.tDiffThres _ _
    rw [c2]; simp [Stale, fwdImu, walkKin]; norm_num)
  have y3' : d1.tDiffThres = 0.3 := y3.trans c2
  obtain ⟨M2, e3, d3, s3, i3, n3, z1, z2, z3, z4, z5, z6⟩ := tick_uses_leg i1 n1 y1 y2 y5 y4 (by
    rw [y3']; simp [Stale, fwdImu, walkKin]; norm_num)
  obtain ⟨M3, e5, d5, s5, i5, n5, w1, w2, w3, w4, w5, w6⟩ := tick_uses_leg i3 n3 z1 z2 z5 z4 (by
    rw [z3, y3']; simp [Stale, fwdImu, walkKin]; norm_num)
  have hre : ∀ E : Estimator, ∀ d : LegCorr, E.corrs = [.leg d] → ∃ D, ∀ D', D ≤ D' → FootBound 0 D' E [] := fun E d hd => by
    have hp : ∀ D', FootLe 0 D' E → FootBound 0 D' E [] := fun D' hD pre e' hp hr => by
      obtain rfl := List.prefix_nil.mp hp
      obtain rfl := Option.some.inj hr
      exact hD
    by_cases q : ∃ a x, d.ids 0 = some a ∧ E.state.get_vector (E.heap.val a) = some x
    · obtain ⟨a, x, q1, q3⟩ := q
      refine ⟨norm3 x, fun D' hD' => hp _ fun d' a' x' r1 r2 r4 => ?_⟩
      rw [hd, List.mem_singleton] at r1
      cases r1
      rw [q1] at r2; cases r2
      rw [q3] at r4; cases r4
      exact hD'
    · refine ⟨0, fun D' hD' => hp _ fun d' a' x' r1 r2 r4 => ?_⟩
      rw [hd, List.mem_singleton] at r1
      cases r1
      exact absurd ⟨a', x', r2, r4⟩ q
  obtain ⟨D1, R1⟩ := hre e1 d1 y1
  obtain ⟨D3, R3⟩ := hre e3 d3 z1
  have hs : ∀ E : Estimator, ∀ d : LegCorr, E.corrs = [.leg d] → (∀ m ∈ d.buffer, ∃ t, m = walkKin 1 t) → Standing 0 0.051 0.01 0.05 E [] :=
    fun E d hd hb => ⟨fun c' hc' m hm => by
      rw [hd, List.mem_singleton] at hc'
      cases hc'
      obtain ⟨t, rfl⟩ := hb m hm
      exact walkKin_stands _ _, by simp⟩
  refine ⟨_, e0, ea, e1, e3, e5, max D1 D3, h0, by simpa [stanceEvs, imuArrivals] using u, rfl, ha, s1, ?_⟩
  refine ⟨0.1, e1, e3, ?_, 0.2, e3, e5, ?_, rfl, rfl, rfl⟩
  · refine ⟨x4, s1, rfl, s3, M1, M2, by simp [NoClear], hs ea _ x1 ?_, R1 _ (le_max_left _ _), y6, z6⟩
    intro m hm
    have hm : m ∈ [walkKin 1 0, walkKin 1 0.1, walkKin 1 0.2] := hm
    simp only [List.mem_cons, List.not_mem_nil, or_false] at hm
    rcases hm with rfl | rfl | rfl <;> exact ⟨_, rfl⟩
  · refine ⟨n1, s3, rfl, s5, M2, M3, by simp [NoClear], hs e1 _ y1 ?_, R3 _ (le_max_right _ _), z6, w6⟩
    intro m hm
    rw [y2] at hm
    simp only [List.mem_cons, List.not_mem_nil, or_false] at hm
    rcases hm with rfl | rfl <;> exact ⟨_, rfl⟩

end Drift
