import Verif.Lemmas.RoundRead
import Verif.Lemmas.Drift1
import Verif.Lemmas.ErrFlow2
import Verif.Props.RoundedImu

/-!
# C167, C168: rounding of the IMU readings; dead reckoning in double arithmetic against the true motion
-/
namespace Drift
open Matrix F64

/-- **C167**: the angular rate and the specific force that the filter computes from a message (alignment with the body frame, removal of the biases, of the
centripetal acceleration of the IMU) in double arithmetic are within these bounds of the exact ones, as vectors. -/
theorem C167_reading (F : Fpu) {m : Mount} {G A Bg Ba L : ℝ} (hm : m.Bounds G A Bg Ba L) {r : Raw} (hr : r.Within G A) :
    Drift.norm3 (rateF F m r - r.rate m) ≤ (G + Bg + 1 / 10 ^ 40) / 2 ^ 47 ∧
    Drift.norm3 (forceF F m r - r.force m) ≤ (A + Ba + 25 * (G + Bg + 1 / 10 ^ 20) ^ 2 * (L + 1 / 10 ^ 20) + 1 / 10 ^ 40) / 2 ^ 45 := by
  have hG := hm.nonneg.1
  have hBg := (abs_nonneg _).trans (hm.bg 0)
  refine ⟨(norm_of_entries fun i => rate_err F hm hr i).trans ?_, (norm_of_entries fun i => force_read_err F hm hr i).trans (le_of_eq (by ring))⟩
  unfold uu
  norm_num
  linarith

/-- readings close to a motion -/
def Close (w a : ℝ → V3) (εg εa : ℝ) : ℝ → List Reading → Prop
  | _, [] => True
  | t0, r :: l => 0 < r.dt ∧ (∀ t, t0 ≤ t → t < t0 + r.dt → norm3 (r.w - w t) ≤ εg ∧ norm3 (r.a - a t) ≤ εa) ∧ Close w a εg εa (t0 + r.dt) l

/-- dead reckoning without rounding, against the truth -/
theorem flown_drift {T : Truth} {w a : ℝ → V3} (hT : T.Moves w a) {A εg εa : ℝ} (hA : ∀ t, norm3 (a t) ≤ A) (l : List Reading) :
    ∀ (R : M3) (v p : V3) (R' : M3) (v' p' : V3) (t0 δR δv δq : ℝ), IsRot R → Close w a εg εa t0 l →
    (∀ x, norm3 (R.mulVec x - (T.R t0).mulVec x) ≤ δR * norm3 x) → norm3 (v - T.v t0) ≤ δv → norm3 (p - T.q t0) ≤ δq → Flown R v p l R' v' p' →
    (∀ x, norm3 (R'.mulVec x - (T.R (t0 + duration l)).mulVec x) ≤ (δR + εg * duration l) * norm3 x) ∧
    norm3 (v' - T.v (t0 + duration l)) ≤ δv + εa * duration l + A * (δR * duration l + εg * duration l ^ 2 / 2) ∧
    norm3 (p' - T.q (t0 + duration l)) ≤ δq + δv * duration l + εa * duration l ^ 2 / 2 + A * (δR * duration l ^ 2 / 2 + εg * duration l ^ 3 / 6) := by
  induction l with
  | nil =>
    intro R v p R' v' p' t0 δR δv δq _ _ hR hv hq h
    cases h
    simpa [duration] using ⟨hR, hv, hq⟩
  | cons r l ih =>
    intro R v p R' v' p' t0 δR δv δq hrot hc hR hv hq h
    generalize hRe : R = R1 at h
    generalize hve : v = v1 at h
    generalize hpe : p = p1 at h
    cases h with
    | @cons Rf vf pf _ _ _ _ _ hS h =>
    obtain ⟨h0, h1, h2⟩ := hc
    rw [hRe] at hrot hR
    rw [hve] at hv
    rw [hpe] at hq
    have k := drift_interval hT hS hrot (t0 := t0) (t1 := t0 + r.dt) (by linarith) hA h1 hR hv hq
    rw [add_sub_cancel_left] at k
    have hrot' : IsRot (Rf r.dt) := by rw [(hS.unique r.dt).1]; exact hrot.mul (E0_isRot _ _)
    have k2 := ih (Rf r.dt) (vf r.dt) (pf r.dt) R' v' p' (t0 + r.dt) _ _ _ hrot' h2 k.1 k.2.1 k.2.2 h
    have e3 : duration (r :: l) = r.dt + duration l := by simp [duration, abs_of_pos h0]
    rw [e3, ← add_assoc]
    refine ⟨fun x => (k2.1 x).trans (le_of_eq (by ring)), k2.2.1.trans (le_of_eq (by ring)), k2.2.2.trans (le_of_eq (by ring))⟩

theorem close_of_tells (F : Fpu) {m : Mount} {G A Bg Ba L : ℝ} (hm : m.Bounds G A Bg Ba L) {w a : ℝ → V3} {εg εa : ℝ} (l : List Raw) :
    ∀ t0, (∀ r ∈ l, r.Within G A) → Tells w a εg εa m t0 l → Close w a (εg + roundRate G Bg) (εa + roundForce G A Bg Ba L) t0 (l.map (Raw.reading F m)) := by
  induction l with
  | nil => intro _ _ _; trivial
  | cons r l ih =>
    intro t0 hl h
    obtain ⟨h0, h1, h2⟩ := h
    have c := C167_reading F hm (hl r (List.mem_cons_self ..))
    refine ⟨h0, fun t p q => ?_, ih _ (fun r hr => hl r (List.mem_cons_of_mem _ hr)) h2⟩
    obtain ⟨g1, g2⟩ := h1 t p q
    constructor
    · have e := norm3_add_le (r.rate m - w t) (rateF F m r - r.rate m)
      rw [show r.rate m - w t + (rateF F m r - r.rate m) = rateF F m r - w t by abel] at e
      exact e.trans (add_le_add g1 c.1)
    · have e := norm3_add_le (r.force m - a t) (forceF F m r - r.force m)
      rw [show r.force m - a t + (forceF F m r - r.force m) = forceF F m r - a t by abel] at e
      exact e.trans (add_le_add g2 c.2)

theorem tells_span (F : Fpu) {m : Mount} {w a : ℝ → V3} {εg εa : ℝ} (l : List Raw) :
    ∀ t0, Tells w a εg εa m t0 l → duration (l.map (Raw.reading F m)) = span l ∧ ∀ r ∈ l, 0 < r.dt := by
  induction l with
  | nil => intro _ _; exact ⟨rfl, by simp⟩
  | cons r l ih =>
    intro t0 h
    obtain ⟨h0, -, h2⟩ := h
    obtain ⟨i1, i2⟩ := ih _ h2
    have e1 : duration ((r :: l).map (Raw.reading F m)) = |r.dt| + duration (l.map (Raw.reading F m)) := by simp [duration, Raw.reading]
    have e2 : span (r :: l) = r.dt + span l := by simp [span]
    refine ⟨by rw [e1, e2, i1, abs_of_pos h0], fun q hq => ?_⟩
    rcases List.mem_cons.mp hq with rfl | hq
    · exact h0
    · exact i2 q hq

theorem close_push {w a : ℝ → V3} {A εg εa h : ℝ} (hA : ∀ t, norm3 (a t) ≤ A) (hh : 0 ≤ h) (l : List Reading) :
    ∀ t0, Close w a εg εa t0 l → (∀ r ∈ l, r.dt ≤ h) → 0 ≤ duration l ∧ push l ≤ duration l * (A + εa + 1) ∧ push2 l ≤ h * (duration l * (A + εa + 1)) := by
  induction l with
  | nil => intro _ _ _; simp [duration, push, push2]
  | cons r l ih =>
    intro t0 hc hd
    obtain ⟨h0, h1, h2⟩ := hc
    obtain ⟨i0, i1, i2⟩ := ih _ h2 (fun r hr => hd r (List.mem_cons_of_mem _ hr))
    have hr := hd r (List.mem_cons_self ..)
    have e1 : push (r :: l) = |r.dt| * (norm3 r.a + 1) + push l := by simp [push]
    have e2 : push2 (r :: l) = |r.dt| * (|r.dt| * (norm3 r.a + 1)) + push2 l := by simp [push2]
    have e3 : duration (r :: l) = |r.dt| + duration l := by simp [duration]
    rw [e1, e2, e3, abs_of_pos h0]
    have g := (h1 t0 le_rfl (by linarith)).2
    have g2 := norm3_add_le (r.a - a t0) (a t0)
    rw [sub_add_cancel] at g2
    have g3 := hA t0
    have ha := norm3_nonneg r.a
    have s1 : r.dt * (norm3 r.a + 1) ≤ r.dt * (A + εa + 1) := mul_le_mul_of_nonneg_left (by linarith) h0.le
    have s2 : r.dt * (r.dt * (norm3 r.a + 1)) ≤ h * (r.dt * (A + εa + 1)) := mul_le_mul hr s1 (by positivity) hh
    refine ⟨by linarith, by linarith, by linarith⟩

theorem norm3_entry_diff {X Y : M3} {δ : ℝ} (h : ∀ x, norm3 (X.mulVec x - Y.mulVec x) ≤ δ * norm3 x) (i j : Fin 3) : |X i j - Y i j| ≤ δ := by
  have k := h (Pi.single j 1)
  have e : norm3 (Pi.single j 1 : V3) = 1 := by
    have : norm3 (Pi.single j 1 : V3) ^ 2 = 1 ^ 2 := by rw [norm3_sq]; fin_cases j <;> simp [nsq]
    exact (sq_eq_sq₀ (norm3_nonneg _) (by norm_num)).mp this
  rw [e, mul_one, Matrix.mulVec_single_one, Matrix.mulVec_single_one] at k
  exact (entry_le_norm (X.col j - Y.col j) i).trans k

/-- **C168**: dead reckoning in double arithmetic.  Let the body move in any way `T`, with a specific force of at most `A` m/s², and let the filter start, at
the time `t0`, with the orientation `R0`, velocity `v0` and position `p0`, off by at most `δR`, `δv` and `δq`.  Let it use `n` messages of an IMU (up to a
million million; numbers in them and in the mounting within bounds), which tell the rate and specific force of the body up to `εg` and `εa`, and each of which
is held for at most `h ≤ 1` second.  During each the body turns, according to the message, by 2τ to 1/2 rad, `τ ≥ 1e-6` (or the filter
computes a rate of zero).  Then, after these messages, which last `S` seconds, the filter's orientation, velocity and position as computed in double arithmetic are
this close to the truth, in each coordinate. -/
theorem C168_dead_reckoning (F : Fpu) (hF : F.Accurate) {T : Truth} {w a : ℝ → V3} (hT : T.Moves w a) {A : ℝ} (hA : ∀ t, norm3 (a t) ≤ A)
    {m : Mount} {G Am Bg Ba L : ℝ} (hm : m.Bounds G Am Bg Ba L) (hG : G + Bg ≤ 1000) {R0 : M3} (hR0 : IsRot R0) {v0 p0 : V3} {V P t0 δR δv δq : ℝ}
    (hv : ∀ i, |v0 i| ≤ V) (hp : ∀ i, |p0 i| ≤ P) (dR : ∀ x, norm3 (R0.mulVec x - (T.R t0).mulVec x) ≤ δR * norm3 x) (dv : norm3 (v0 - T.v t0) ≤ δv)
    (dq : norm3 (p0 - T.q t0) ≤ δq) {l : List Raw} (hn : l.length ≤ 10 ^ 12) (hl : ∀ r ∈ l, r.Within G Am) {εg εa : ℝ} (ht : Tells w a εg εa m t0 l)
    {h : ℝ} (hh : 0 ≤ h ∧ h ≤ 1) (hd : ∀ r ∈ l, r.dt ≤ h) {τ : ℝ} (hτ : 1 / 10 ^ 6 ≤ τ) (hτ1 : τ ≤ 1)
    (hturn : ∀ r ∈ l, rateF F m r = 0 ∨ 2 * τ ≤ norm3 (r.dt • r.rate m) ∧ norm3 (r.dt • r.rate m) ≤ 1 / 2)
    {n S εg' εa' B : ℝ} (en : n = l.length) (eS : S = span l) (eg : εg' = εg + roundRate G Bg) (ea : εa' = εa + roundForce G Am Bg Ba L) (eB : B = A + εa' + 1) :
    (∀ i j, |(NavF.runRaw F m ⟨R0, v0, p0⟩ l).rot i j - T.R (t0 + S) i j| ≤ n / 2 ^ 40 + (δR + εg' * S)) ∧
    (∀ i, |(NavF.runRaw F m ⟨R0, v0, p0⟩ l).vel i - T.v (t0 + S) i| ≤
      (n / 2 ^ 38 + 1 / (2 ^ 44 * τ)) * (V + 18 * (S * B) + 1 / 10 ^ 40) + (δv + εa' * S + A * (δR * S + εg' * S ^ 2 / 2))) ∧
    ∀ i, |(NavF.runRaw F m ⟨R0, v0, p0⟩ l).pos i - T.q (t0 + S) i| ≤
      (n / 2 ^ 38 + 1 / (2 ^ 44 * τ)) * (P + S * (V + 18 * (S * B)) + 1 / 10 ^ 30) + 1 / (2 ^ 44 * τ ^ 2) * (18 * (h * (S * B)) + 1 / 10 ^ 40) +
        (δq + δv * S + εa' * S ^ 2 / 2 + A * (δR * S ^ 2 / 2 + εg' * S ^ 3 / 6)) := by
  have hc := close_of_tells F hm l t0 hl ht
  rw [← eg, ← ea] at hc
  have hd' : ∀ r ∈ l.map (Raw.reading F m), r.dt ≤ h := fun r hr => by
    obtain ⟨q, hq, rfl⟩ := List.mem_map.mp hr; exact hd q hq
  obtain ⟨hS, hpos⟩ := tells_span F l t0 ht
  rw [← eS] at hS
  have hT1 : ∀ r ∈ l.map (Raw.reading F m), r.Turns τ := fun q hq => by
    obtain ⟨r, hr, rfl⟩ := List.mem_map.mp hq
    have h0 := hpos r hr
    have h1 : r.dt ≤ 1 := (hd r hr).trans hh.2
    refine ⟨by change |r.dt| ≤ 1; rwa [abs_of_pos h0], ?_⟩
    change r.dt • rateF F m r = 0 ∨ τ ≤ norm3 (r.dt • rateF F m r) ∧ norm3 (r.dt • rateF F m r) ≤ 1
    rcases hturn r hr with h2 | ⟨h2, h3⟩
    · left; rw [h2, smul_zero]
    · right
      have c := (C167_reading F hm (hl r hr)).1
      have c1 : (G + Bg + 1 / 10 ^ 40) / 2 ^ 47 ≤ 1 / 10 ^ 6 := by
        rw [div_le_iff₀ (by positivity)]; norm_num; linarith
      have c2 : norm3 (r.dt • (rateF F m r - r.rate m)) ≤ 1 / 10 ^ 6 := by
        rw [norm3_smul, abs_of_pos h0]
        exact (mul_le_mul h1 (c.trans c1) (norm3_nonneg _) (by norm_num)).trans (by norm_num)
      have e1 := norm3_add_le (r.dt • r.rate m) (r.dt • (rateF F m r - r.rate m))
      have e2 := norm3_add_le (r.dt • rateF F m r) (-(r.dt • (rateF F m r - r.rate m)))
      rw [norm3_neg] at e2
      rw [show r.dt • r.rate m + r.dt • (rateF F m r - r.rate m) = r.dt • rateF F m r by rw [smul_sub]; abel] at e1
      rw [show r.dt • rateF F m r + -(r.dt • (rateF F m r - r.rate m)) = r.dt • r.rate m by rw [smul_sub]; abel] at e2
      norm_num at c2 hτ
      constructor <;> linarith
  obtain ⟨R', v', p', hf⟩ := flown_exists (l.map (Raw.reading F m)) R0 v0 p0
  obtain ⟨a1, a2, a3⟩ := C165_imu_rounding F hF hR0 hτ hτ1 (l.map (Raw.reading F m)) (by rwa [List.length_map]) hT1 hv hp hf
  obtain ⟨b1, b2, b3⟩ := flown_drift hT hA (l.map (Raw.reading F m)) R0 v0 p0 R' v' p' t0 δR δv δq hR0 hc dR dv dq hf
  obtain ⟨d0, d1, d2⟩ := close_push hA hh.1 (l.map (Raw.reading F m)) t0 hc hd'
  rw [hS] at b1 b2 b3 d0 d1 d2 a3
  rw [← eB] at d1 d2
  rw [List.length_map, ← en] at a1 a2 a3
  have hτ0 : 0 < τ := lt_of_lt_of_le (by norm_num) hτ
  have hn0 : 0 ≤ n := by rw [en]; positivity
  have e : NavF.runRaw F m ⟨R0, v0, p0⟩ l = NavF.run F ⟨R0, v0, p0⟩ (l.map (Raw.reading F m)) := rfl
  rw [e]
  have tri : ∀ {x y z p q : ℝ}, |x - y| ≤ p → |y - z| ≤ q → |x - z| ≤ p + q := fun h1 h2 => (abs_sub_le _ _ _).trans (add_le_add h1 h2)
  refine ⟨fun i j => ?_, fun i => ?_, fun i => ?_⟩
  · rw [div_eq_mul_one_div]
    exact tri (a1 i j) (norm3_entry_diff b1 i j)
  · refine tri ((a2 i).trans ?_) ((entry_le_norm (v' - T.v (t0 + S)) i).trans b2)
    exact mul_le_mul_of_nonneg_left (by linarith) (by positivity)
  · refine tri ((a3 i).trans ?_) ((entry_le_norm (p' - T.q (t0 + S)) i).trans b3)
    have : S * (V + 18 * push (l.map (Raw.reading F m))) ≤ S * (V + 18 * (S * B)) := mul_le_mul_of_nonneg_left (by linarith) d0
    exact add_le_add (mul_le_mul_of_nonneg_left (by linarith) (by positivity)) (mul_le_mul_of_nonneg_left (by linarith) (by positivity))

/-! ### The hypotheses are met: one minute at 100 Hz on the spot, turning at half a radian per second; the IMU sits 10 cm beside the axis and its gyroscope
has a bias of 0.1 rad/s -/

/-- the motions with constant rate and force are motions -/
theorem strapdown_moves {w a : V3} {R : ℝ → M3} {v q : ℝ → V3} (h : Strapdown w a ![0, 0, -9.8] R v q) (h0 : IsRot (R 0)) :
    (⟨R, v, q⟩ : Truth).Moves (fun _ => w) (fun _ => a) where
  orient t := by rw [show (⟨R, v, q⟩ : Truth).R = R from rfl, (h.unique t).1]; exact h0.mul (E0_isRot _ _)
  contR i j := continuous_iff_continuousAt.mpr fun t => (h.rot t i j).continuousAt
  contV i := continuous_iff_continuousAt.mpr fun t => (h.vel t i).continuousAt
  contQ i := continuous_iff_continuousAt.mpr fun t => (h.pos t i).continuousAt
  rot t i j := (h.rot t i j).hasDerivWithinAt
  vel t i := (h.vel t i).hasDerivWithinAt
  pos t i := (h.pos t i).hasDerivWithinAt

/-- the mounting -/
noncomputable def exMount : Mount := ⟨1, ![1 / 10, 0, 0], ![0, 0, 1 / 10], 0⟩

/-- the message: gravity, and 2.5 cm/s² towards the axis -/
noncomputable def exRaw : Raw := ⟨![0, 0, 6 / 10], ![-1 / 40, 0, 9.8], 1 / 100⟩

theorem exRaw_rate : exRaw.rate exMount = ![0, 0, 1 / 2] := by
  ext i; fin_cases i <;> simp [Raw.rate, exRaw, exMount]; norm_num

theorem exRaw_force : exRaw.force exMount = ![0, 0, 9.8] := by
  rw [Raw.force, exRaw_rate]
  ext i; fin_cases i <;> simp [exRaw, exMount, cross_apply]; norm_num

theorem exRaw_tells (k : ℕ) : ∀ t, Tells (fun _ => ![0, 0, 1 / 2]) (fun _ => ![0, 0, 9.8]) 0 0 exMount t (List.replicate k exRaw) := by
  induction k with
  | zero => intro t; trivial
  | succ k ih =>
    intro t
    refine ⟨by norm_num [exRaw], fun s _ _ => ?_, ih _⟩
    rw [exRaw_rate, exRaw_force, sub_self, sub_self, norm3_zero]
    exact ⟨le_rfl, le_rfl⟩

example : ∃ T : Truth, T.Moves (fun _ => ![0, 0, 1 / 2]) (fun _ => ![0, 0, 9.8]) ∧ T.R 0 = 1 ∧ T.v 0 = 0 ∧ T.q 0 = 0 ∧
    (∀ i j, |(NavF.runRaw exFpu exMount ⟨1, 0, 0⟩ (List.replicate 6000 exRaw)).rot i j - T.R 60 i j| ≤ 1 / 10 ^ 8) ∧
    ∀ i, |(NavF.runRaw exFpu exMount ⟨1, 0, 0⟩ (List.replicate 6000 exRaw)).vel i - T.v 60 i| ≤ 1 / 1000 ∧
      |(NavF.runRaw exFpu exMount ⟨1, 0, 0⟩ (List.replicate 6000 exRaw)).pos i - T.q 60 i| ≤ 3 / 100 := by
  have hF : exFpu.Accurate := accurate_of_rounded exFpu (fun _ => rfl) (fun _ => rfl)
  obtain ⟨n, hn⟩ : ∃ n, (6000 : ℕ) = n := ⟨_, rfl⟩
  have hc : (n : ℝ) = 6000 := by rw [← hn]; norm_num
  have hn' : n ≤ 10 ^ 12 := by rw [← hn]; norm_num
  rw [hn]; clear hn
  obtain ⟨R, v, q, h, hR, hv, hq⟩ := Strapdown.exists ![0, 0, 1 / 2] ![0, 0, 9.8] ![0, 0, -9.8] (1 : M3) 0 0
  have h1 : IsRot (1 : M3) := ⟨by simp, by simp, by simp⟩
  have hM := strapdown_moves h (by rw [hR]; exact h1)
  have e1 : norm3 (![0, 0, 9.8] : V3) = 9.8 := by
    have : norm3 (![0, 0, 9.8] : V3) ^ 2 = 9.8 ^ 2 := by rw [norm3_sq]; norm_num [nsq, Matrix.cons_val_two]
    exact (sq_eq_sq₀ (norm3_nonneg _) (by norm_num)).mp this
  have e2 : norm3 (exRaw.dt • exRaw.rate exMount) = 1 / 200 := by
    rw [exRaw_rate]
    have : norm3 (exRaw.dt • (![0, 0, 1 / 2] : V3)) ^ 2 = (1 / 200) ^ 2 := by rw [norm3_sq]; norm_num [exRaw, nsq, Matrix.cons_val_two]
    exact (sq_eq_sq₀ (norm3_nonneg _) (by norm_num)).mp this
  have hB : exMount.Bounds 1 10 1 0 1 := by
    refine ⟨fun i j => ?_, fun i => ?_, fun i => ?_, fun i => ?_, by norm_num⟩
    · change |(1 : M3) i j| ≤ _
      rw [Matrix.one_apply]; split <;> norm_num
    · fin_cases i <;> norm_num [exMount, abs_le]
    · fin_cases i <;> norm_num [exMount, abs_le]
    · simp [exMount]
  have hW : exRaw.Within 1 10 := by
    constructor <;> intro i <;> fin_cases i <;> simp [exRaw] <;> norm_num [abs_le]
  obtain ⟨k1, k2, k3⟩ := C168_dead_reckoning exFpu hF hM (A := 9.8) (fun _ => e1.le) hB (by norm_num) h1 (v0 := 0) (p0 := 0) (V := 0) (P := 0) (t0 := 0)
    (δR := 0) (δv := 0) (δq := 0) (by simp) (by simp) (by simp [hR, norm3_zero]) (by simp [hv, norm3_zero]) (by simp [hq, norm3_zero])
    (l := List.replicate n exRaw) (by rw [List.length_replicate]; exact hn') (fun r hr => by rw [List.eq_of_mem_replicate hr]; exact hW)
    (exRaw_tells n 0) (h := 1 / 100) (by norm_num) (fun r hr => by rw [List.eq_of_mem_replicate hr]; exact le_rfl) (τ := 1 / 400) (by norm_num) (by norm_num)
    (fun r hr => by rw [List.eq_of_mem_replicate hr, e2]; norm_num) (n := 6000) (S := 60) (by rw [List.length_replicate, hc])
    (by simp [span, exRaw, hc]; norm_num) rfl rfl rfl
  rw [zero_add] at k1 k2 k3
  refine ⟨⟨R, v, q⟩, hM, hR, hv, hq, fun i j => (k1 i j).trans ?_, fun i => ⟨(k2 i).trans ?_, (k3 i).trans ?_⟩⟩
  · norm_num [roundRate]
  · norm_num [roundRate, roundForce]
  · norm_num [roundRate, roundForce]

end Drift
