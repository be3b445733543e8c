import Verif.Props.RoundedOdo
import Verif.Props.Slip
import Verif.Lemmas.RoundWheel

/-!
# Wheel odometry in double arithmetic, from the joint messages to the true motion
-/
set_option linter.unusedSimpArgs false
namespace Drift
namespace F64
open Matrix Mat

/-- **C171**: a joint message with wheel speeds of up to `W` rad/s is ignored exactly when it would be ignored without rounding.  Otherwise the computed
forward speed and turning rate are within `(W + 1e-40) / 2^50` of the ones the message stands for, and if it says that the robot does not turn, the
computed rate is exactly zero. -/
theorem C171_reading (R : Round) (p : BaseProg) {m : JointMsg} {W : ℝ} (hW0 : 0 ≤ W) (hW : ∀ x ∈ m.vel.take 4, |x| ≤ W) :
    (readingF R p m = none ∧ saidBy R p m = none) ∨ ∃ r' r, readingF R p m = some r' ∧ saidBy R p m = some r ∧ r'.t = r.t ∧
      |r'.v - r.v| ≤ (W + 1 / 10 ^ 40) / 2 ^ 50 ∧ |r'.ω - r.ω| ≤ (W + 1 / 10 ^ 40) / 2 ^ 50 ∧ (r.ω = 0 → r'.ω = 0) ∧
      |r.v| ≤ 158 / 1000 * W ∧ |r.ω| ≤ 46 / 100 * W := by
  obtain ⟨M, eM⟩ : ∃ M, W + 1 / 10 ^ 40 = M := ⟨_, rfl⟩
  have hM : 1 / 10 ^ 70 ≤ M := by rw [← eM]; norm_num; linarith
  have hWM : W ≤ M := by rw [← eM]; norm_num
  have e8 : (W + 1 / 10 ^ 40) / 2 ^ 50 = 8 * (uu * M) := by rw [eM]; unfold uu; norm_num; ring
  rw [e8]
  have hu := uu_pos
  have h0 : (0 : ℝ) < M := lt_of_lt_of_le (by norm_num) hM
  have s0 : 0 ≤ uu * M := by positivity
  have side : ∀ {ρ a : ℝ}, 0 ≤ ρ → ρ ≤ 158 / 1000 → |a| ≤ W → |a * ρ| ≤ 158 / 1000 * W ∧ |a * ρ| ≤ 158 / 1000 * M := fun {ρ a} h1 h2 h3 => by
    have : |a * ρ| ≤ W * (158 / 1000) := by rw [abs_mul, abs_of_nonneg h1]; exact mul_le_mul h3 h2 h1 hW0
    constructor <;> linarith
  obtain ⟨st, pos, vel⟩ := m
  cases p with
  | husky =>
    match vel, hW with
    | [], _ => exact Or.inl ⟨rfl, rfl⟩
    | [_], _ => exact Or.inl ⟨rfl, rfl⟩
    | [_, _], _ => exact Or.inl ⟨rfl, rfl⟩
    | [_, _, _], _ => exact Or.inl ⟨rfl, rfl⟩
    | l0 :: r0 :: l1 :: r1 :: rest, hW =>
      have w0 := hW l0 (by simp)
      have w1 := hW r0 (by simp)
      have w2 := hW l1 (by simp)
      have w3 := hW r1 (by simp)
      have avg : ∀ {a b : ℝ}, |a| ≤ W → |b| ≤ W → |R.rn (R.rn (a + b) / 2) - (a + b) / 2| ≤ 201 / 100 * (uu * M) ∧ |(a + b) / 2| ≤ W := fun {a b} ha hb => by
        refine ⟨?_, ?_⟩
        · have := half_sum_err R (a := a) (b := b) (A := a) (B := b) (e := 0) hM (ha.trans hWM) (hb.trans hWM) (by simp) (by simp) le_rfl (by norm_num)
          linarith
        · rw [abs_le] at *; constructor <;> linarith [ha.1, ha.2, hb.1, hb.2]
      obtain ⟨a1, a2⟩ := avg w1 w3
      obtain ⟨b1, b2⟩ := avg w0 w2
      obtain ⟨c1, c2⟩ := side (ρ := 0.158) (by norm_num) (by norm_num) a2
      obtain ⟨d1, d2⟩ := side (ρ := 0.158) (by norm_num) (by norm_num) b2
      obtain ⟨k1, k2⟩ := drive_err R (τ := 0.688) hM (by norm_num) (by norm_num) c2 d2
        (side_err R hM (by norm_num) (by norm_num) (a2.trans hWM) a1) (side_err R hM (by norm_num) (by norm_num) (b2.trans hWM) b1)
      refine Or.inr ⟨_, _, rfl, rfl, rfl, ?_, ?_, ?_, ?_, ?_⟩
      · convert k1 using 2; simp only [driveF, side4F]; ring
      · convert k2 using 2; simp only [driveF, side4F]; ring
      · intro hz
        have : r0 + r1 = l0 + l1 := by
          dsimp only at hz
          norm_num at hz
          linarith
        simp [driveF, side4F, this, rn_of_F R IsF.zero]
      · rw [abs_le] at *; constructor <;> dsimp only <;> linarith [c1.1, c1.2, d1.1, d1.2]
      · obtain ⟨k3, k4⟩ := abs_le.mp c1
        obtain ⟨k5, k6⟩ := abs_le.mp d1
        have e : (0.158 : ℝ) * ((r0 + r1) - (l0 + l1)) / 2 / 0.688 = 1000 / 688 * ((r0 + r1) / 2 * 0.158 - (l0 + l1) / 2 * 0.158) := by ring
        dsimp only
        rw [e, abs_le]; constructor <;> linarith
  | fetch =>
    match vel, hW with
    | [], _ => exact Or.inl ⟨rfl, rfl⟩
    | [_], _ => exact Or.inl ⟨rfl, rfl⟩
    | [_, _], _ => exact Or.inl ⟨rfl, rfl⟩
    | l :: r :: z :: rest, hW =>
      have w0 := hW l (by simp)
      have w1 := hW r (by simp)
      obtain ⟨c1, c2⟩ := side (ρ := 0.06033) (by norm_num) (by norm_num) w1
      obtain ⟨d1, d2⟩ := side (ρ := 0.06033) (by norm_num) (by norm_num) w0
      obtain ⟨k1, k2⟩ := drive_err R (τ := 0.37476) hM (by norm_num) (by norm_num) c2 d2
        (side_err R (a' := r) hM (by norm_num) (by norm_num) (w1.trans hWM) (by rw [sub_self, abs_zero]; positivity))
        (side_err R (a' := l) hM (by norm_num) (by norm_num) (w0.trans hWM) (by rw [sub_self, abs_zero]; positivity))
      refine Or.inr ⟨_, _, rfl, rfl, rfl, ?_, ?_, ?_, ?_, ?_⟩
      · convert k1 using 2; simp only [driveF]; ring
      · convert k2 using 2; simp only [driveF]; ring
      · intro hz
        have : r = l := by
          dsimp only at hz
          norm_num at hz
          linarith
        simp [driveF, this, rn_of_F R IsF.zero]
      · rw [abs_le] at *; constructor <;> dsimp only <;> linarith [c1.1, c1.2, d1.1, d1.2]
      · obtain ⟨k3, k4⟩ := abs_le.mp w0
        obtain ⟨k5, k6⟩ := abs_le.mp w1
        have e : (0.06033 : ℝ) * (r - l) / 0.37476 = 6033 / 37476 * (r - l) := by ring
        dsimp only
        rw [e, abs_le]; constructor <;> linarith

/-- computed readings next to the ones the messages stand for -/
def Near (δ V Ω : ℝ) (r' r : Drift.Reading) : Prop :=
  r'.t = r.t ∧ |r'.v - r.v| ≤ δ ∧ |r'.ω - r.ω| ≤ δ ∧ (r.ω = 0 → r'.ω = 0) ∧ |r'.v| ≤ V ∧ |r'.ω| ≤ Ω

theorem readings_near (R : Round) (p : BaseProg) {W δ V Ω : ℝ} (hW0 : 0 ≤ W) (eδ : δ = (W + 1 / 10 ^ 40) / 2 ^ 50) (eV : V = (W + 1 / 10 ^ 40) / 5)
    (eΩ : Ω = (W + 1 / 10 ^ 40) / 2) : ∀ {ms : List JointMsg}, (∀ m ∈ ms, ∀ x ∈ m.vel.take 4, |x| ≤ W) →
    List.Forall₂ (Near δ V Ω) (ms.filterMap (readingF R p)) (ms.filterMap (saidBy R p)) := by
  intro ms
  induction ms with
  | nil => intro _; exact .nil
  | cons m ms ih =>
    intro h
    have ih := ih fun m hm => h m (List.mem_cons_of_mem _ hm)
    rcases C171_reading R p hW0 (h m (List.mem_cons_self ..)) with ⟨h1, h2⟩ | ⟨r', r, h1, h2, h3, h4, h5, h6, h7, h8⟩
    · rw [List.filterMap_cons_none h1, List.filterMap_cons_none h2]; exact ih
    · rw [List.filterMap_cons_some h1, List.filterMap_cons_some h2]
      refine .cons ⟨h3, eδ ▸ h4, eδ ▸ h5, h6, ?_, ?_⟩ ih
      · rw [eV]
        rw [abs_le] at *
        norm_num at h4 ⊢
        constructor <;> linarith [h4.1, h4.2, h7.1, h7.2]
      · rw [eΩ]
        rw [abs_le] at *
        norm_num at h5 ⊢
        constructor <;> linarith [h5.1, h5.2, h8.1, h8.2]

theorem sqrt_shift {a b c s v v' ε δ : ℝ} (hcs : c ^ 2 + s ^ 2 = 1) (h : √((a - v * c) ^ 2 + (b - v * s) ^ 2) ≤ ε) (hv : |v' - v| ≤ δ) :
    √((a - v' * c) ^ 2 + (b - v' * s) ^ 2) ≤ ε + δ := by
  have e : ∀ x y : ℝ, √(x ^ 2 + y ^ 2) = ‖(⟨x, y⟩ : ℂ)‖ := fun x y => by rw [Complex.norm_def, Complex.normSq_mk]; congr 1; ring
  rw [e] at h ⊢
  have e1 : (⟨a - v' * c, b - v' * s⟩ : ℂ) = ⟨a - v * c, b - v * s⟩ - ⟨(v' - v) * c, (v' - v) * s⟩ := by
    apply Complex.ext <;> simp <;> ring
  rw [e1]
  refine (norm_sub_le _ _).trans (add_le_add h ?_)
  rw [← e, show ((v' - v) * c) ^ 2 + ((v' - v) * s) ^ 2 = (v' - v) ^ 2 by linear_combination (v' - v) ^ 2 * hcs, Real.sqrt_sq_eq_abs]
  exact hv

theorem near_drives {δ V Ω d εv εω : ℝ} {θ x y : ℝ → ℝ} : ∀ {l' l : List Drift.Reading} {t : ℝ}, List.Forall₂ (Near δ V Ω) l' l →
    Gentle d t l → NearlyDrives εv εω θ x y t l → NearlyDrives (εv + δ) (εω + δ) θ x y t l' ∧ Within d V Ω t l' ∧ lastTime t l' = lastTime t l := by
  intro l' l t h
  induction h generalizing t with
  | nil => intro _ _; exact ⟨trivial, trivial, rfl⟩
  | @cons r' r l' l h0 _ ih =>
    intro hg hd
    obtain ⟨h1, h2, h3, -, h5, h6⟩ := h0
    obtain ⟨g1, g2, -, -, g5⟩ := hg
    obtain ⟨d1, d2, d3⟩ := hd
    obtain ⟨i1, i2, i3⟩ := ih g5 d3
    rw [← h1] at d1 d2 i1 i2 g1 g2
    refine ⟨⟨d1, fun u hu => ?_, i1⟩, ⟨d1, g2, h5, h6, i2⟩, ?_⟩
    · obtain ⟨w, a, b, k1, k2, k3, k4, k5⟩ := d2 u hu
      refine ⟨w, a, b, k1, k2, k3, ?_, sqrt_shift (by rw [add_comm]; exact Real.sin_sq_add_cos_sq _) k5 h2⟩
      have : w - r'.ω = (w - r.ω) - (r'.ω - r.ω) := by ring
      rw [this]
      exact (abs_sub _ _).trans (add_le_add k4 h3)
    · simp only [lastTime]; rw [h1]; exact i3

theorem near_steps {δ V Ω d : ℝ} (hδ : δ ≤ 1e-12) (hd : d ≤ 1) : ∀ {l' l : List Drift.Reading} {t : ℝ}, List.Forall₂ (Near δ V Ω) l' l →
    Gentle d t l → Steps t (l'.map queued) := by
  intro l' l t h
  induction h generalizing t with
  | nil => intro _; trivial
  | @cons r' r l' l h0 _ ih =>
    intro hg
    obtain ⟨h1, -, h3, h4, -, -⟩ := h0
    obtain ⟨g1, g2, g3, g4, g5⟩ := hg
    have hv : (RotOp.imu (queued r').2.angVel (r.t - t)).vec = ![0, 0, r'.ω * (r.t - t)] := by
      simp only [RotOp.vec, queued]
      funext i; fin_cases i <;> simp [mul_comm]
    have hδ' : |r'.ω * (r.t - t) - r.ω * (r.t - t)| ≤ 1e-12 := by
      rw [← sub_mul, abs_mul, abs_of_nonneg g1]
      exact (mul_le_mul (h3.trans hδ) (g2.trans hd) g1 (by norm_num)).trans (by norm_num)
    simp only [List.map_cons, Steps]
    change RotOp.Turn (RotOp.imu (queued r').2.angVel (r'.t - t)) ∧ |r'.t - t| ≤ 10 ^ 9 ∧ Steps r'.t _
    rw [h1]
    refine ⟨⟨?_, ?_⟩, ?_, ih g5⟩
    · rw [hv]
      intro i
      fin_cases i
      · simp
      · simp
      · simp only [Fin.reduceFinMk, Matrix.cons_val]
        rw [abs_le] at *
        norm_num at hδ'
        constructor <;> linarith [hδ'.1, hδ'.2, g4.1, g4.2]
    · rw [hv]
      rcases g3 with g3 | g3
      · left
        have : r'.ω * (r.t - t) = 0 := by
          rcases mul_eq_zero.mp g3 with z | z
          · rw [h4 z, zero_mul]
          · rw [z, mul_zero]
        rw [this]; funext i; fin_cases i <;> rfl
      · right
        simp only [Matrix.cons_val_zero, Matrix.cons_val_one, Matrix.cons_val]
        have : 2e-10 ≤ |r'.ω * (r.t - t)| := by
          have := abs_sub_abs_le_abs_sub (r.ω * (r.t - t)) (r'.ω * (r.t - t))
          rw [abs_sub_comm] at this
          norm_num at *
          linarith
        have h2 := pow_le_pow_left₀ (by norm_num) this 2
        rw [sq_abs] at h2
        norm_num at h2 ⊢
        exact h2
    · rw [abs_of_nonneg g1]; norm_num; linarith

theorem reckons_planar : ∀ (l : List Drift.Reading) (s : Planar),
    Reckons s.t (Rz s.θ) ![s.x, s.y, 0] (l.map queued) (s.reckon l).t (Rz (s.reckon l).θ) ![(s.reckon l).x, (s.reckon l).y, 0] := by
  intro l
  induction l with
  | nil => intro s; exact .nil _ _ _
  | cons r l ih =>
    intro s
    have h := ih ⟨r.t, s.θ + turnOf (r.ω * (r.t - s.t)), s.x + r.v * (r.t - s.t) * Real.cos s.θ, s.y + r.v * (r.t - s.t) * Real.sin s.θ⟩
    rw [List.map_cons, Planar.reckon]
    refine .cons _ (Rz (turnOf (r.ω * (r.t - s.t)))) ?_ ?_
    · change exp_SO3 ((r.t - s.t) • ![0, 0, r.ω]) = _
      rw [exp_SO3, gamma_SO3_zero, ← Gam0_vertical]
      congr 2
      funext i; fin_cases i <;> simp [mul_comm]
    · rw [Rz_mul]
      have e : ![s.x, s.y, 0] + (r.t - s.t) • (Rz s.θ).mulVec ![r.v, 0, 0] =
          ![s.x + r.v * (r.t - s.t) * Real.cos s.θ, s.y + r.v * (r.t - s.t) * Real.sin s.θ, 0] := by
        rw [Rz_fwd]
        funext i; fin_cases i <;> simp <;> ring
      change Reckons r.t _ (![s.x, s.y, 0] + (r.t - s.t) • (Rz s.θ).mulVec ![r.v, 0, 0]) _ _ _ _
      rw [e]
      exact h

theorem wayLen_queued {d V Ω : ℝ} : ∀ (l : List Drift.Reading) (t : ℝ), Within d V Ω t l → wayLen t (l.map queued) ≤ V * (lastTime t l - t) := by
  intro l
  induction l with
  | nil => intro t _; simp [wayLen, lastTime]
  | cons r l ih =>
    intro t ⟨h1, h2, h3, h4, h5⟩
    have := ih r.t h5
    have e : Drift.norm3 (queued r).1.vel = |r.v| := by simp [Drift.norm3, queued, Real.sqrt_sq_eq_abs]
    simp only [List.map_cons, wayLen, lastTime]
    rw [e]
    change |r.t - t| * |r.v| + wayLen r.t _ ≤ _
    rw [abs_of_nonneg (by linarith)]
    have := mul_le_mul_of_nonneg_left h3 (by linarith : 0 ≤ r.t - t)
    linarith

theorem Rz_near (a b : ℝ) (i j : Fin 3) : |Rz a i j - Rz b i j| ≤ |a - b| := by
  have hc := Real.abs_cos_sub_cos_le a b
  have hs := Real.abs_sin_sub_sin_le a b
  have h0 := abs_nonneg (a - b)
  have hs' : |-Real.sin a - -Real.sin b| ≤ |a - b| := by rw [← abs_neg]; convert hs using 2; ring
  fin_cases i <;> fin_cases j <;> simp only [Rz, Fin.zero_eta, Fin.mk_one, Fin.reduceFinMk, Matrix.of_apply, Matrix.cons_val', Matrix.cons_val_zero,
    Matrix.cons_val_one, Matrix.cons_val, Matrix.cons_val_fin_one] <;> first | assumption | (rw [sub_self, abs_zero]; exact h0)

/-- **C171**: wheel odometry in double arithmetic against the true motion.  The program receives joint messages `ms` with wheel speeds of up to `W ≤ 1000` rad/s;
the ones that are not ignored stand for the readings `r :: l`, at most `d ≤ 1` second apart, up to a million million of them.  Let the robot move
in any way in the plane, such that between readings its rate is within `εω` and its velocity within `εv` of the reading (slipping wheels, wrong radius).  Then after
the time `T` of these messages the pose that the program computes, with every operation rounded, is at the right time, its orientation is off by at most
`εω T`, plus `10^-10` and `2^-40` rad for each message, and the position in each coordinate by `εv T + V εω T² / 2`, plus `V Ω d T / 2` for holding each
reading, and rounding errors.  (`δ`: rounding of the readings; `V`, `Ω`: largest speed and rate.) -/
theorem C171_true_motion (F : Fpu) (hF : F.Accurate) (p : BaseProg) {ms : List JointMsg} {W : ℝ} (hW0 : 0 ≤ W) (hW1 : W ≤ 1000)
    (hW : ∀ m ∈ ms, ∀ x ∈ m.vel.take 4, |x| ≤ W) {r : Drift.Reading} {l : List Drift.Reading} (hr : ms.filterMap (saidBy F.toRound p) = r :: l)
    (hn : l.length ≤ 10 ^ 12) (hs : Stamped ((r :: l).map fun r => r.t)) {d : ℝ} (hd : d ≤ 1) (hg : Gentle d r.t l) {εv εω : ℝ} (hεω : 0 ≤ εω)
    {θ x y : ℝ → ℝ} (hm : NearlyDrives εv εω θ x y r.t l) (h0 : θ r.t = 0 ∧ x r.t = 0 ∧ y r.t = 0)
    {n T δ V Ω : ℝ} (en : n = l.length) (eT : T = lastTime r.t l - r.t) (eδ : δ = (W + 1 / 10 ^ 40) / 2 ^ 50) (eV : V = (W + 1 / 10 ^ 40) / 5)
    (eΩ : Ω = (W + 1 / 10 ^ 40) / 2) {o : OdoF} (ho : o = OdoF.init.run F ((ms.filterMap (readingF F.toRound p)).map queued)) :
    o.prevT = r.t + T ∧ (∀ i j, |o.rot i j - Rz (θ (r.t + T)) i j| ≤ (εω + δ) * T + n * (1e-10 + 1 / 2 ^ 40)) ∧
      ∀ i, |o.pos i - ![x (r.t + T), y (r.t + T), 0] i| ≤
        (εv + δ + V * (Ω * d / 2 + n * 1e-10)) * T + V * (εω + δ) * T ^ 2 / 2 + n / 2 ^ 38 * (V * T) + 1 / 10 ^ 40 := by
  have hnear := readings_near F.toRound p hW0 eδ eV eΩ hW
  rw [hr] at hnear
  obtain ⟨r', l', h1, h2, h3⟩ : ∃ r' l', ms.filterMap (readingF F.toRound p) = r' :: l' ∧ Near δ V Ω r' r ∧ List.Forall₂ (Near δ V Ω) l' l := by
    generalize ms.filterMap (readingF F.toRound p) = q at hnear
    cases hnear with
    | cons a b => exact ⟨_, _, rfl, a, b⟩
  have hδ1 : δ ≤ 1e-12 := by rw [eδ]; norm_num; linarith
  have hδ0 : 0 ≤ δ := by rw [eδ]; positivity
  obtain ⟨k1, k2, k3⟩ := near_drives h3 hg hm
  have ks := near_steps hδ1 hd h3 hg
  have hlen : l'.length = l.length := h3.length_eq
  have ht : r'.t = r.t := h2.1
  have hts : (l'.map queued).map (fun m => m.1.time) = l.map fun r => r.t := by
    clear hnear k1 k2 k3 ks hlen hr hn hs hg hm h1 eT en
    induction h3 with
    | nil => rfl
    | cons a _ ih => simp only [List.map_cons, ih]; rw [show (queued _).1.time = _ from a.1]
  have hre := reckons_planar l' ⟨r'.t, 0, 0, 0⟩
  rw [Rz_zero, show (![(0 : ℝ), 0, 0] : V3) = 0 by funext i; fin_cases i <;> rfl] at hre
  have hc := C164_wheel_rounding F hF (queued r') (l'.map queued) (by simpa [hlen] using hn)
    (by rw [hts]; change Stamped (r'.t :: _); rw [ht]; simpa using hs) (by change Steps r'.t _; rw [ht]; exact ks) hre
  rw [h1, List.map_cons] at ho
  rw [← ho] at hc
  obtain ⟨c1, c2, c3⟩ := hc
  rw [← ht] at k1 k2 k3
  obtain ⟨e1, e2⟩ := slip_error l' ⟨r'.t, 0, 0, 0⟩ (e := 0) (E := 0) k1 (by simp [ht, h0.1]) (by
    simp only [ht, h0.2.1, h0.2.2, sub_zero]
    exact le_of_eq (by rw [Complex.norm_def]; simp))
  have hT : (Planar.reckon ⟨r'.t, 0, 0, 0⟩ l').t = r.t + T := by rw [lastTime_reckon, eT, k3, ht]; ring
  rw [hT] at c1 e1 e2
  obtain ⟨gr, gT⟩ := C156_growth (εv := εv + δ) (by positivity : 0 ≤ εω + δ) l' 0 r'.t le_rfl k2
  have hw := wayLen_queued l' r'.t k2
  rw [k3, ht, show lastTime r.t l - r.t = T from eT.symm] at gr hw
  rw [hlen, ← en] at gr e2
  simp only [List.length_map, hlen, ← en] at c2 c3
  have hn0 : 0 ≤ n := by rw [en]; positivity
  refine ⟨c1, fun i j => ?_, fun i => ?_⟩
  · have a1 := c2 i j
    have a2 := Rz_near (Planar.reckon ⟨r'.t, 0, 0, 0⟩ l').θ (θ (r.t + T)) i j
    simp only [ht, zero_add, add_sub_cancel_left] at e2
    rw [ht] at a1 a2
    refine (abs_sub_le _ _ _).trans ((add_le_add a1 (a2.trans e2)).trans (le_of_eq (by ring)))
  · have a1 := c3 i
    rw [zero_add] at e1
    have a3 : |![(Planar.reckon ⟨r'.t, 0, 0, 0⟩ l').x, (Planar.reckon ⟨r'.t, 0, 0, 0⟩ l').y, 0] i - ![x (r.t + T), y (r.t + T), 0] i| ≤
        slipBound (εv + δ) (εω + δ) 0 r'.t l' := by
      rw [abs_sub_comm]
      refine le_trans ?_ e1
      have q1 := Complex.abs_re_le_norm (⟨x (r.t + T) - (Planar.reckon ⟨r'.t, 0, 0, 0⟩ l').x, y (r.t + T) - (Planar.reckon ⟨r'.t, 0, 0, 0⟩ l').y⟩ : ℂ)
      have q2 := Complex.abs_im_le_norm (⟨x (r.t + T) - (Planar.reckon ⟨r'.t, 0, 0, 0⟩ l').x, y (r.t + T) - (Planar.reckon ⟨r'.t, 0, 0, 0⟩ l').y⟩ : ℂ)
      fin_cases i
      · exact q1
      · exact q2
      · simp
    have hway : n * (1 / 2 ^ 38) * wayLen r'.t (l'.map queued) ≤ n / 2 ^ 38 * (V * T) := by
      have : n * (1 / 2 ^ 38) * wayLen r'.t (l'.map queued) ≤ n * (1 / 2 ^ 38) * (V * T) := mul_le_mul_of_nonneg_left (ht ▸ hw) (by positivity)
      linarith
    have a1' : |o.pos i - ![(Planar.reckon ⟨r'.t, 0, 0, 0⟩ l').x, (Planar.reckon ⟨r'.t, 0, 0, 0⟩ l').y, 0] i| ≤ n / 2 ^ 38 * (V * T) + 1 / 10 ^ 40 :=
      a1.trans (by change n * (1 / 2 ^ 38) * wayLen r'.t (l'.map queued) + _ ≤ _; linarith)
    rw [ht] at a3 a1'
    refine (abs_sub_le _ _ _).trans ((add_le_add a1' (a3.trans gr)).trans (le_of_eq (by ring)))

/-! ### A robot driving in a circle for an hour -/

/-- what the robot reports, once a second -/
def exJoint (k : ℕ) : JointMsg := ⟨⟨1700000000 + k, 0⟩, [], [1, 2, 1, 2]⟩
/-- what that means -/
noncomputable def exSaid (k : ℕ) : Drift.Reading := ⟨1700000000 + k, 0.158 * 6 / 4, 0.158 * 2 / 2 / 0.688⟩

theorem exSaid_eq (R : Round) {k : ℕ} (hk : k ≤ 10 ^ 9) : saidBy R .husky (exJoint k) = some (exSaid k) := by
  have : stamp R (exJoint k).stamp = 1700000000 + k := by
    simp only [stamp, exJoint, Nat.cast_zero, zero_div, rn_of_F R IsF.zero, add_zero]
    rw [rn_of_F R (IsF.nat (by omega))]; push_cast; rfl
  unfold saidBy
  rw [this]
  simp only [BaseProg.reading, exJoint, exSaid, Option.map_some, Option.some.injEq, Drift.Reading.mk.injEq, true_and]
  norm_num

theorem exSaid_all (R : Round) : ∀ (n k : ℕ), k + n ≤ 10 ^ 9 → ((List.range' k n).map exJoint).filterMap (saidBy R .husky) = (List.range' k n).map exSaid
  | 0, _, _ => rfl
  | n + 1, k, h => by
    rw [List.range'_succ, List.map_cons, List.map_cons, List.filterMap_cons_some (exSaid_eq R (by omega)), exSaid_all R n (k + 1) (by omega)]

theorem ex_gentle : ∀ (n k : ℕ), Gentle 1 (1700000000 + k) ((List.range' (k + 1) n).map exSaid)
  | 0, _ => trivial
  | n + 1, k => by
    have h := ex_gentle n (k + 1)
    rw [List.range'_succ, List.map_cons]
    have e : (exSaid (k + 1)).t = 1700000000 + (k + 1 : ℕ) := rfl
    have e1 : (exSaid (k + 1)).t - (1700000000 + k) = 1 := by rw [e]; push_cast; ring
    refine ⟨by rw [e1]; norm_num, by rw [e1], Or.inr ?_, ?_, by rw [e]; exact h⟩
    · rw [e1]; norm_num [exSaid]
    · rw [e1]; norm_num [exSaid]

theorem ex_drives {v ω t0 : ℝ} (hω : ω ≠ 0) : ∀ (l : List Drift.Reading) (t : ℝ), (∀ r ∈ l, r.v = v ∧ r.ω = ω) → Gentle 1 t l →
    NearlyDrives 0 0 (fun t => ω * (t - t0)) (fun t => v / ω * Real.sin (ω * (t - t0))) (fun t => v / ω * (1 - Real.cos (ω * (t - t0)))) t l
  | [], _, _, _ => trivial
  | r :: l, t, h, hg => by
    obtain ⟨h1, h2⟩ := h r (List.mem_cons_self ..)
    obtain ⟨g1, -, -, -, g5⟩ := hg
    refine ⟨by linarith, fun u _ => ?_, ex_drives hω l r.t (fun r hr => h r (List.mem_cons_of_mem _ hr)) g5⟩
    have k : HasDerivAt (fun t => ω * (t - t0)) ω u := by
      have := ((hasDerivAt_id u).sub_const t0).const_mul ω
      simpa using this
    refine ⟨ω, v * Real.cos (ω * (u - t0)), v * Real.sin (ω * (u - t0)), k.hasDerivWithinAt, HasDerivAt.hasDerivWithinAt ?_, HasDerivAt.hasDerivWithinAt ?_,
      by rw [h2, sub_self, abs_zero], by rw [h1]; simp⟩
    · refine (k.sin.const_mul (v / ω)).congr_deriv ?_
      field_simp
    · refine ((k.cos.const_sub 1).const_mul (v / ω)).congr_deriv ?_
      field_simp

/-- the hypotheses are met: an hour in a circle, a message every second -/
example : ∃ (ms : List JointMsg) (r : Drift.Reading) (l : List Drift.Reading) (θ x y : ℝ → ℝ), (∀ m ∈ ms, ∀ x ∈ m.vel.take 4, |x| ≤ 2) ∧
    ms.filterMap (saidBy exFpu.toRound .husky) = r :: l ∧ l.length = 3600 ∧ Stamped ((r :: l).map fun r => r.t) ∧ Gentle 1 r.t l ∧
    NearlyDrives 0 0 θ x y r.t l ∧ (θ r.t = 0 ∧ x r.t = 0 ∧ y r.t = 0) ∧ exFpu.Accurate := by
  have e := exSaid_all exFpu.toRound 3601 0 (by norm_num)
  have e' : (List.range' 0 3601).map exSaid = exSaid 0 :: (List.range' (0 + 1) 3600).map exSaid := by rw [List.range'_succ, List.map_cons]
  rw [e'] at e
  have hg := ex_gentle 3600 0
  rw [show (1700000000 + (0 : ℕ) : ℝ) = (exSaid 0).t from rfl] at hg
  have hd := ex_drives (v := 0.158 * 6 / 4) (ω := 0.158 * 2 / 2 / 0.688) (t0 := (exSaid 0).t) (by norm_num) ((List.range' (0 + 1) 3600).map exSaid) (exSaid 0).t
    (fun r hr => by obtain ⟨k, -, rfl⟩ := List.mem_map.mp hr; exact ⟨rfl, rfl⟩) hg
  refine ⟨_, exSaid 0, _, _, _, _, ?_, e, by simp, ?_, hg, hd, by simp, accurate_of_rounded exFpu (fun _ => rfl) (fun _ => rfl)⟩
  · intro m hm x hx
    obtain ⟨k, -, rfl⟩ := List.mem_map.mp hm
    simp only [exJoint, List.take_succ_cons, List.take_zero, List.mem_cons, List.not_mem_nil, or_false] at hx
    rcases hx with rfl | rfl | rfl | rfl <;> norm_num
  · rw [← e', List.map_map]
    have hb : ∀ x ∈ (List.range' 0 3601).map ((fun r : Drift.Reading => r.t) ∘ exSaid), ∃ k : ℕ, k < 3601 ∧ x = ((1700000000 + k : ℕ) : ℝ) := by
      intro x hx
      obtain ⟨k, hk, rfl⟩ := List.mem_map.mp hx
      rw [List.mem_range'_1] at hk
      exact ⟨k, by omega, by simp [exSaid]⟩
    refine ⟨fun x hx => ?_, fun x hx y hy => ?_⟩
    · obtain ⟨k, hk, rfl⟩ := hb x hx
      exact ⟨IsF.nat (by omega), by positivity⟩
    · obtain ⟨k, hk, rfl⟩ := hb x hx
      obtain ⟨j, hj, rfl⟩ := hb y hy
      have : 1700000000 + k ≤ 2 * (1700000000 + j) := by omega
      exact_mod_cast this

end F64
end Drift
