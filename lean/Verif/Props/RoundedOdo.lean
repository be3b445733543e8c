import Verif.Lemmas.RoundOdo
import Verif.Props.Wheel

/-!
# C164: how far the computed wheel odometry is from exact dead reckoning
-/
namespace Drift
open Matrix F64

theorem F64.Stamped.tail {t s : ℝ} {ts : List ℝ} (h : Stamped (t :: s :: ts)) : Stamped (s :: ts) :=
  ⟨fun x hx => h.1 x (List.mem_cons_of_mem _ hx), fun x hx y hy => h.2 x (List.mem_cons_of_mem _ hx) y (List.mem_cons_of_mem _ hy)⟩

theorem isRot_exact {X : M3} (hX : IsRot X) (ops : List RotOp) (hr : ∀ op ∈ ops, op.Turn) : IsRot (ops.foldl RotOp.exact X) := by
  induction ops using List.reverseRecOn with
  | nil => exact hX
  | append_singleton ops op ih =>
    have h1 := ih fun o ho => hr o (List.mem_append_left _ ho)
    have ht := hr op (by simp)
    rw [List.foldl_append]
    cases op with
    | imu w dt =>
      change IsRot (_ * NormedSpace.exp (skew (dt • w)))
      have h2 : Gam0 (dt • w) = NormedSpace.exp (skew (dt • w)) := Gam0_exp ht.2
      rw [← h2]; exact h1.mul (Gam0_isRot _)
    | right δ =>
      change IsRot (NormedSpace.exp (skew δ) * _)
      have h2 : Gam0 δ = NormedSpace.exp (skew δ) := Gam0_exp ht.2
      rw [← h2]; exact (Gam0_isRot _).mul h1
    | left δ =>
      change IsRot (_ * NormedSpace.exp (skew δ))
      have h2 : Gam0 δ = NormedSpace.exp (skew δ) := Gam0_exp ht.2
      rw [← h2]; exact h1.mul (Gam0_isRot _)

theorem run_acc (F : Fpu) (hF : F.Accurate) (l : List (VelMeas × AngVelMeas)) : ∀ (ops : List RotOp) (o : OdoF) (q : V3) (L : ℝ) (t' : ℝ) (R' : M3) (p' : V3),
    (∀ op ∈ ops, op.Turn) → o.rot = ops.foldl (RotOp.run F) 1 → ops.length + l.length ≤ 10 ^ 12 →
    Stamped (o.prevT :: l.map fun m => m.1.time) → Steps o.prevT l → 0 ≤ L → (∀ i, |q i| ≤ L) →
    (∀ i, |o.pos i - q i| ≤ ops.length * L * (1 / 2 ^ 38)) → Reckons o.prevT (ops.foldl RotOp.exact 1) q l t' R' p' →
    (o.run F l).prevT = t' ∧ (∀ i j, |(o.run F l).rot i j - R' i j| ≤ (ops.length + l.length) * (1 / 2 ^ 40)) ∧
      ∀ i, |(o.run F l).pos i - p' i| ≤ (ops.length + l.length) * (L + (wayLen o.prevT l + l.length * (1 / 10 ^ 60))) * (1 / 2 ^ 38) := by
  have h1 : IsRot (1 : M3) := ⟨by simp, by simp, by simp⟩
  induction l with
  | nil =>
    intro ops o q L t' R' p' hr ho hn hs _ _ _ hp h
    cases h
    refine ⟨rfl, fun i j => ?_, fun i => ?_⟩
    · have := C132_orientation F hF h1 ops hr (by simpa using hn) i j
      rw [← ho] at this
      simpa [OdoF.run] using this
    · simpa [OdoF.run, wayLen] using hp i
  | cons m l ih =>
    intro ops o q L t' R' p' hr ho hn hs hst hL hq hp h
    cases h with
    | cons _ E hE h =>
    obtain ⟨hT, hdt, hst'⟩ := hst
    have hp0 : o.prevT ≠ 0 := (hs.1 _ (by simp)).2.ne'
    have hd : F.rn (m.1.time - o.prevT) = m.1.time - o.prevT :=
      rn_of_F F.toRound (IsF.sub (hs.1 _ (by simp)).1 (hs.1 _ (by simp)).1 (hs.2 _ (by simp) _ (by simp)) (hs.2 _ (by simp) _ (by simp)))
    have hstep : o.step F m = ⟨mulM F o.rot (gamma0 F (smulV F.toRound (m.1.time - o.prevT) m.2.angVel)),
        fun i => F.rn (o.pos i + F.rn (mulV F o.rot m.1.vel i * (m.1.time - o.prevT))), m.1.time⟩ := by
      unfold OdoF.step; rw [if_neg hp0]; simp only [hd]
    have hn' : ops.length ≤ 10 ^ 12 := by simp only [List.length_cons] at hn; omega
    have hE' : E = NormedSpace.exp (skew ((m.1.time - o.prevT) • m.2.angVel)) := by
      have : Gam0 ((m.1.time - o.prevT) • m.2.angVel) = NormedSpace.exp (skew ((m.1.time - o.prevT) • m.2.angVel)) := Gam0_exp hT.2
      rw [exp_SO3, gamma_SO3_zero] at hE
      rw [← this]; exact (Option.some.inj hE).symm
    have hps := fun i => pos_step F (p := o.pos) (q := q) (v := m.1.vel) (dt := m.1.time - o.prevT) (k := ops.length) (Nat.cast_nonneg _)
      (by exact_mod_cast hn') hL hdt (computed_entry F hF h1 ops (fun op h => Turn.inRange F (hr op h)) hn') (isRot_exact h1 ops hr)
      (C132_orientation F hF h1 ops hr hn') i (hq i) (hp i)
    have key := ih (ops ++ [RotOp.imu m.2.angVel (m.1.time - o.prevT)]) (o.step F m)
      (q + (m.1.time - o.prevT) • (ops.foldl RotOp.exact 1) *ᵥ m.1.vel) (L + (|m.1.time - o.prevT| * norm3 m.1.vel + 1 / 10 ^ 60)) t' R' p'
      (fun op hop => by
        rcases List.mem_append.mp hop with hop | hop
        · exact hr op hop
        · rw [List.mem_singleton] at hop; rw [hop]; exact hT)
      (by rw [hstep, List.foldl_append, ← ho]; rfl)
      (by simp only [List.length_append, List.length_cons, List.length_nil] at hn ⊢; omega)
      (by rw [hstep]; exact hs.tail) (by rw [hstep]; exact hst')
      (by have := norm3_nonneg m.1.vel; positivity) (fun i => (hps i).2)
      (fun i => by
        rw [hstep]; dsimp only
        rw [ho, List.length_append, List.length_singleton]; push_cast
        exact (hps i).1)
      (by rw [hstep, List.foldl_append]
          change Reckons m.1.time (_ * NormedSpace.exp _) _ _ _ _ _
          rw [← hE']; exact h)
    have hrun : o.run F (m :: l) = (o.step F m).run F l := rfl
    have ht : (o.step F m).prevT = m.1.time := by rw [hstep]
    rw [hrun]
    refine ⟨key.1, fun i j => (key.2.1 i j).trans (le_of_eq ?_), fun i => (key.2.2 i).trans (le_of_eq ?_)⟩
    · simp only [List.length_append, List.length_cons, List.length_nil]; push_cast; ring
    · rw [ht]
      simp only [List.length_append, List.length_cons, List.length_nil, wayLen]; push_cast; ring

/-- **C164**: let `n` pairs of measurements `l` follow the first pair `m` (up to a million million of them), and let textbook dead reckoning of `l` from
the origin, without rounding, end in the pose `(R', p')` at time `t'`.  Then the wheel odometry as computed in double arithmetic ends, at the
same time, within `n · 2^-40` of `R'` in every entry, and within `n · 2^-38` times the length of the way driven of `p'` in every coordinate
(and `10^-40` m, for numbers below the range of a `double`). -/
theorem C164_wheel_rounding (F : Fpu) (hF : F.Accurate) (m : VelMeas × AngVelMeas) (l : List (VelMeas × AngVelMeas)) (hn : l.length ≤ 10 ^ 12)
    (hs : Stamped (m.1.time :: l.map fun m => m.1.time)) (hst : Steps m.1.time l) {t' : ℝ} {R' : M3} {p' : V3}
    (h : Reckons m.1.time 1 0 l t' R' p') :
    (OdoF.init.run F (m :: l)).prevT = t' ∧ (∀ i j, |(OdoF.init.run F (m :: l)).rot i j - R' i j| ≤ l.length * (1 / 2 ^ 40)) ∧
      ∀ i, |(OdoF.init.run F (m :: l)).pos i - p' i| ≤ l.length * (1 / 2 ^ 38) * wayLen m.1.time l + 1 / 10 ^ 40 := by
  have e : OdoF.init.run F (m :: l) = OdoF.run F ⟨1, 0, m.1.time⟩ l := by
    change List.foldl _ (OdoF.step F OdoF.init m) l = _
    have : OdoF.step F OdoF.init m = ⟨1, 0, m.1.time⟩ := by unfold OdoF.step OdoF.init; rw [if_pos rfl]
    rw [this]; rfl
  rw [e]
  obtain ⟨h1, h2, h3⟩ := run_acc F hF l [] ⟨1, 0, m.1.time⟩ 0 0 t' R' p' (by simp) rfl (by simpa using hn) hs hst le_rfl (by simp) (by simp) h
  refine ⟨h1, fun i j => by simpa using h2 i j, fun i => (h3 i).trans ?_⟩
  have hn' : (l.length : ℝ) ≤ 10 ^ 12 := by exact_mod_cast hn
  have h0 : (0 : ℝ) ≤ l.length := Nat.cast_nonneg _
  simp only [List.length_nil, Nat.cast_zero]
  have : (l.length : ℝ) * l.length ≤ 10 ^ 12 * 10 ^ 12 := mul_le_mul hn' hn' h0 (by norm_num)
  nlinarith

/-! ### The hypotheses are met: driving in circles -/

/-- the messages: 2 m/s forward and 1 rad/s to the left, every 1/64 s -/
noncomputable def exTurnMsg (k : ℕ) : VelMeas × AngVelMeas := (⟨16384 + k / 64, ![2, 0, 0]⟩, ⟨16384 + k / 64, ![0, 0, 1]⟩)

theorem ex_way (n : ℕ) : ∀ a : ℕ, wayLen (16384 + a / 64) ((List.range n).map fun k => exTurnMsg (a + 1 + k)) = n / 32 ∧
    Steps (16384 + a / 64) ((List.range n).map fun k => exTurnMsg (a + 1 + k)) := by
  induction n with
  | zero => intro a; simp [wayLen, Steps]
  | succ n ih =>
    intro a
    obtain ⟨h1, h2⟩ := ih (a + 1)
    have e : ((List.range (n + 1)).map fun k => exTurnMsg (a + 1 + k)) =
        exTurnMsg (a + 1) :: (List.range n).map fun k => exTurnMsg (a + 1 + 1 + k) := by
      rw [List.range_succ_eq_map, List.map_cons, List.map_map]
      congr 1
      apply List.map_congr_left; intro k _
      simp only [Function.comp]; congr 1; omega
    have ed : (exTurnMsg (a + 1)).1.time - (16384 + a / 64) = 1 / 64 := by simp only [exTurnMsg]; push_cast; ring
    have en : norm3 (exTurnMsg (a + 1)).1.vel = 2 := by
      have : norm3 (exTurnMsg (a + 1)).1.vel ^ 2 = 2 ^ 2 := by rw [norm3_sq]; norm_num [exTurnMsg, nsq, Matrix.cons_val_two]
      exact (sq_eq_sq₀ (norm3_nonneg _) (by norm_num)).mp this
    rw [e]
    refine ⟨?_, ?_, ?_, ?_⟩
    · rw [wayLen, ed, en]
      change _ + wayLen (16384 + (↑(a + 1) : ℝ) / 64) _ = _
      rw [h1, abs_of_pos (by norm_num)]; push_cast; ring
    · rw [ed]
      refine ⟨fun i => ?_, Or.inr ?_⟩
      · fin_cases i <;> norm_num [RotOp.vec, exTurnMsg, abs_le]
      · norm_num [RotOp.vec, exTurnMsg, Matrix.cons_val_two]
    · rw [ed]; norm_num [abs_le]
    · exact h2

/-- dead reckoning of any messages leads somewhere -/
theorem reckons_exists (l : List (VelMeas × AngVelMeas)) : ∀ t R p, ∃ t' R' p', Reckons t R p l t' R' p' := by
  induction l with
  | nil => intro t R p; exact ⟨_, _, _, .nil t R p⟩
  | cons m l ih =>
    intro t R p
    obtain ⟨t', R', p', h⟩ := ih m.1.time (R * Gam0 ((m.1.time - t) • m.2.angVel)) (p + (m.1.time - t) • R.mulVec m.1.vel)
    exact ⟨t', R', p', .cons m _ (by rw [exp_SO3, gamma_SO3_zero]) h⟩

/-- driving in circles for `n` messages -/
theorem ex_circles (n : ℕ) (hn : n ≤ 65536 * 15) : ∃ (m : VelMeas × AngVelMeas) (l : List (VelMeas × AngVelMeas)), l.length = n ∧
    wayLen m.1.time l = n / 32 ∧ Steps m.1.time l ∧ Stamped (m.1.time :: l.map fun m => m.1.time) := by
  obtain ⟨h1, h2⟩ := ex_way n 0
  refine ⟨exTurnMsg 0, (List.range n).map fun k => exTurnMsg (0 + 1 + k), by rw [List.length_map, List.length_range], h1, h2, ?_⟩
  have hb : ∀ x ∈ (exTurnMsg 0).1.time :: ((List.range n).map fun k => exTurnMsg (0 + 1 + k)).map (fun m => m.1.time),
      ∃ k : ℕ, k ≤ n ∧ x = 16384 + k / 64 := by
    intro x hx
    rcases List.mem_cons.mp hx with rfl | hx
    · exact ⟨0, by omega, rfl⟩
    · rw [List.map_map, List.mem_map] at hx
      obtain ⟨k, hk, rfl⟩ := hx
      rw [List.mem_range] at hk
      exact ⟨0 + 1 + k, by omega, rfl⟩
  refine ⟨fun x hx => ?_, fun x hx y hy => ?_⟩
  · obtain ⟨k, hk, rfl⟩ := hb x hx
    refine ⟨⟨1048576 + k, -6, ?_, by norm_num, ?_⟩, by positivity⟩
    · rw [abs_of_nonneg (by positivity)]; norm_num; omega
    · push_cast; norm_num; ring
  · obtain ⟨k, hk, rfl⟩ := hb x hx
    obtain ⟨j, hj, rfl⟩ := hb y hy
    have : (k : ℝ) ≤ 65536 * 15 := by exact_mod_cast hk.trans hn
    have : (0 : ℝ) ≤ j := Nat.cast_nonneg _
    linarith

/-- one hour in circles at 64 Hz, 7.2 km: the position is right to 7 mm -/
example : ∃ (m : VelMeas × AngVelMeas) (l : List (VelMeas × AngVelMeas)) (t' : ℝ) (R' : M3) (p' : V3), l.length = 230400 ∧ wayLen m.1.time l = 7200 ∧
    Reckons m.1.time 1 0 l t' R' p' ∧ ∀ i, |(OdoF.init.run exFpu (m :: l)).pos i - p' i| ≤ 7 / 1000 := by
  have hA : exFpu.Accurate := accurate_of_rounded exFpu (fun _ => rfl) (fun _ => rfl)
  obtain ⟨m, l, h1, h2, h3, h4⟩ := ex_circles 230400 (by norm_num)
  obtain ⟨t', R', p', h⟩ := reckons_exists l m.1.time 1 0
  have hc : (l.length : ℝ) = 230400 := by rw [h1]; norm_num
  refine ⟨m, l, t', R', p', h1, by rw [h2]; norm_num, h, fun i => ?_⟩
  refine ((C164_wheel_rounding exFpu hA m l (by rw [h1]; norm_num) h4 h3 h).2.2 i).trans ?_
  rw [hc, h2]; norm_num
end Drift
