import Verif.Spec.RoundedQuat
import Verif.Lemmas.RoundRot
import Verif.Lemmas.QuatRot
import Verif.Lemmas.Est3

/-!
# Rounding errors of the conversion to a quaternion
-/
namespace Drift
namespace F64
open Matrix

/-- a bound for the rounding error of a number up to 8 -/
noncomputable def eta8 : ℝ := 1 / 2 ^ 49

theorem rn8 (R : Round) {x : ℝ} (h : |x| ≤ 8) : |R.rn x - x| ≤ eta8 := by
  refine (rnb R (M := 8) (tiny_le.trans (by norm_num)) h).trans ?_
  unfold uu eta8; norm_num

theorem eta8_small : 0 < eta8 ∧ eta8 ≤ 1 / 10 ^ 14 := by unfold eta8; norm_num

/-- one of the components is half the root of `s`, the others are `d` over twice that root -/
theorem core_root (R : Round) {b s e0 : ℝ} (hb : 0 ≤ b) (hb1 : b ≤ 1) (hs : |s - 4 * b ^ 2| ≤ e0) (he : e0 ≤ 1 / 100) (hbig : 98 / 100 ≤ 4 * b ^ 2) :
    |R.rn (0.5 * R.rn (Real.sqrt s)) - b| ≤ 27 / 100 * e0 + 2 * eta8 ∧ |R.rn (0.5 / R.rn (Real.sqrt s)) - 0.5 / (2 * b)| ≤ 29 / 100 * e0 + 2 * eta8 ∧
      49 / 100 ≤ b := by
  obtain ⟨p0, p1⟩ := eta8_small
  norm_num at p1
  have hb2 : 49 / 100 ≤ b := by nlinarith
  have he0 : 0 ≤ e0 := (abs_nonneg _).trans hs
  have hs' := abs_le.mp hs
  have s0 : 96 / 100 ≤ s := by linarith [hs'.1]
  have hq := Real.sq_sqrt (by linarith : 0 ≤ s)
  have hq0 := Real.sqrt_nonneg s
  generalize Real.sqrt s = q at *
  have q1 : 96 / 100 ≤ q := by nlinarith
  have q2 : q ≤ 21 / 10 := by nlinarith [hs'.2]
  have d1 : |q - 2 * b| ≤ 53 / 100 * e0 := by
    have e : (q - 2 * b) * (q + 2 * b) = s - 4 * b ^ 2 := by linear_combination hq
    have k : |q - 2 * b| * (q + 2 * b) ≤ e0 := by rw [← abs_of_nonneg (by linarith : 0 ≤ q + 2 * b), ← abs_mul, e]; exact hs
    have k2 : |q - 2 * b| * (194 / 100) ≤ |q - 2 * b| * (q + 2 * b) := mul_le_mul_of_nonneg_left (by linarith) (abs_nonneg _)
    have := abs_nonneg (q - 2 * b)
    linarith
  have r1 := abs_le.mp (rn8 R (x := q) (by rw [abs_of_nonneg hq0]; linarith))
  generalize R.rn q = t at *
  have d1' := abs_le.mp d1
  have t1 : 95 / 100 ≤ t := by linarith [r1.1]
  have t2 : t ≤ 22 / 10 := by linarith [r1.2]
  have r2 := abs_le.mp (rn8 R (x := 0.5 * t) (by rw [abs_of_nonneg (by linarith)]; linarith))
  have hle : 0.5 / t ≤ 1 := by rw [div_le_one (by linarith)]; linarith
  have r3 := abs_le.mp (rn8 R (x := 0.5 / t) (by rw [abs_of_nonneg (by positivity)]; linarith))
  have d2 : |0.5 / t - 0.5 / (2 * b)| ≤ 54 / 100 * |t - 2 * b| := by
    have e : 0.5 / t - 0.5 / (2 * b) = -(0.5 / (t * (2 * b))) * (t - 2 * b) := by
      have : t ≠ 0 := by linarith
      have : b ≠ 0 := by linarith
      field_simp; ring
    rw [e, abs_mul, abs_neg, abs_of_nonneg (by positivity)]
    refine mul_le_mul_of_nonneg_right ?_ (abs_nonneg _)
    rw [div_le_iff₀ (by positivity)]
    nlinarith
  have d3 : |t - 2 * b| ≤ 53 / 100 * e0 + eta8 := by rw [abs_le]; constructor <;> linarith [r1.1, r1.2, d1'.1, d1'.2]
  have d4 := abs_le.mp (d2.trans (mul_le_mul_of_nonneg_left d3 (by norm_num)))
  have d3' := abs_le.mp d3
  refine ⟨?_, ?_, hb2⟩
  · rw [abs_le]; constructor <;> linarith [r2.1, r2.2, d3'.1, d3'.2]
  · rw [abs_le]; constructor <;> linarith [r3.1, r3.2, d4.1, d4.2]

theorem core_other (R : Round) {b c u d e0 e1 : ℝ} (hb : 49 / 100 ≤ b) (hbc : b ^ 2 + c ^ 2 ≤ 1) (hu : |u - 0.5 / (2 * b)| ≤ 29 / 100 * e0 + 2 * eta8)
    (he0 : e0 ≤ 1 / 100) (hd : |d - 4 * (b * c)| ≤ e1) (he1 : e1 ≤ 1 / 100) :
    |R.rn (d * u) - c| ≤ 58 / 100 * e0 + 53 / 100 * e1 + 5 * eta8 := by
  obtain ⟨p0, p1⟩ := eta8_small
  norm_num at p1
  have hbc1 : |b * c| ≤ 1 / 2 := by rw [abs_le]; constructor <;> nlinarith [sq_nonneg (b + c), sq_nonneg (b - c)]
  have u1 : 0.5 / (2 * b) ≤ 511 / 1000 := by rw [div_le_iff₀ (by linarith)]; linarith
  have u0 : 0 ≤ 0.5 / (2 * b) := by positivity
  have hu' := abs_le.mp hu
  have u2 : |u| ≤ 53 / 100 := by rw [abs_le]; constructor <;> linarith [hu'.1, hu'.2]
  have e : d * u - c = (d - 4 * (b * c)) * u + 4 * (b * c) * (u - 0.5 / (2 * b)) := by
    have : b ≠ 0 := by linarith
    field_simp; ring
  have k1 : |(d - 4 * (b * c)) * u| ≤ e1 * (53 / 100) := by rw [abs_mul]; exact mul_le_mul hd u2 (abs_nonneg _) ((abs_nonneg _).trans hd)
  have k2 : |4 * (b * c) * (u - 0.5 / (2 * b))| ≤ 2 * (29 / 100 * e0 + 2 * eta8) := by
    rw [abs_mul]
    exact mul_le_mul (by rw [abs_mul, abs_of_pos (by norm_num : (0 : ℝ) < 4)]; linarith) hu (abs_nonneg _) (by norm_num)
  have k : |d * u - c| ≤ e1 * (53 / 100) + 2 * (29 / 100 * e0 + 2 * eta8) := by rw [e]; exact (abs_add_le _ _).trans (add_le_add k1 k2)
  have hc : |c| ≤ 1 := by rw [abs_le]; constructor <;> nlinarith [sq_nonneg b]
  rw [abs_le] at k hc
  have r := abs_le.mp (rn8 R (x := d * u) (by rw [abs_le]; constructor <;> linarith [k.1, k.2, hc.1, hc.2]))
  rw [abs_le]
  constructor <;> linarith [r.1, r.2, k.1, k.2]

theorem toRot_neg (q : Quat) : Quat.toRot ⟨-q.w, -q.x, -q.y, -q.z⟩ = q.toRot := by
  ext i j; fin_cases i <;> fin_cases j <;> simp [Quat.toRot]

section
variable (R : Round) {X : M3} {ε : ℝ} (hε : ε ≤ 1 / 1000) {w x y z : ℝ} (hq : w ^ 2 + x ^ 2 + y ^ 2 + z ^ 2 = 1)
  (h : ∀ i j, |X i j - (Quat.mk w x y z).toRot i j| ≤ ε)
include h

theorem entries_of : (|X 0 0 - (1 - (2 * y * y + 2 * z * z))| ≤ ε ∧ |X 0 1 - (2 * y * x - 2 * z * w)| ≤ ε ∧ |X 0 2 - (2 * z * x + 2 * y * w)| ≤ ε) ∧
    (|X 1 0 - (2 * y * x + 2 * z * w)| ≤ ε ∧ |X 1 1 - (1 - (2 * x * x + 2 * z * z))| ≤ ε ∧ |X 1 2 - (2 * z * y - 2 * x * w)| ≤ ε) ∧
    |X 2 0 - (2 * z * x - 2 * y * w)| ≤ ε ∧ |X 2 1 - (2 * z * y + 2 * x * w)| ≤ ε ∧ |X 2 2 - (1 - (2 * x * x + 2 * y * y))| ≤ ε := by
  have k := h
  refine ⟨⟨?_, ?_, ?_⟩, ⟨?_, ?_, ?_⟩, ?_, ?_, ?_⟩
  · simpa [Quat.toRot] using h 0 0
  · simpa [Quat.toRot] using h 0 1
  · simpa [Quat.toRot] using h 0 2
  · simpa [Quat.toRot] using h 1 0
  · simpa [Quat.toRot] using h 1 1
  · simpa [Quat.toRot] using h 1 2
  · simpa [Quat.toRot] using h 2 0
  · simpa [Quat.toRot] using h 2 1
  · simpa [Quat.toRot] using h 2 2
include hq hε

theorem entry_small (i j : Fin 3) : |X i j| ≤ 11 / 10 := by
  have hk : |(Quat.mk w x y z).toRot i j| ≤ 1 := by
    have g := congrFun (congrFun (toRot_isRot (q := ⟨w, x, y, z⟩) hq).1 j) j
    generalize (Quat.mk w x y z).toRot = Y at *
    simp only [Matrix.mul_apply, Matrix.transpose_apply, Fin.sum_univ_three, Matrix.one_apply_eq] at g
    apply abs_le_one_iff_mul_self_le_one.mpr
    fin_cases i <;> simp only [Fin.zero_eta, Fin.mk_one, Fin.reduceFinMk] <;>
      linarith [mul_self_nonneg (Y 0 j), mul_self_nonneg (Y 1 j), mul_self_nonneg (Y 2 j)]
  have := abs_le.mp (h i j)
  rw [abs_le] at *
  constructor <;> linarith
end

theorem quad (R : Round) {ε b c1 c2 c3 s d1 d2 d3 : ℝ} (hε0 : 0 ≤ ε) (hε : ε ≤ 1 / 1000) (hb : 0 ≤ b) (h1 : b ^ 2 + c1 ^ 2 + c2 ^ 2 + c3 ^ 2 = 1)
    (hbig : 98 / 100 ≤ 4 * b ^ 2) (hs : |s - 4 * b ^ 2| ≤ 3 * ε + 3 * eta8) (k1 : |d1 - 4 * (b * c1)| ≤ 2 * ε + eta8) (k2 : |d2 - 4 * (b * c2)| ≤ 2 * ε + eta8)
    (k3 : |d3 - 4 * (b * c3)| ≤ 2 * ε + eta8) {t u : ℝ} (ht : t = R.rn (Real.sqrt s)) (hu : u = R.rn (0.5 / t)) :
    |R.rn (0.5 * t) - b| ≤ 3 * ε + 8 * eta8 ∧ |R.rn (d1 * u) - c1| ≤ 3 * ε + 8 * eta8 ∧ |R.rn (d2 * u) - c2| ≤ 3 * ε + 8 * eta8 ∧
      |R.rn (d3 * u) - c3| ≤ 3 * ε + 8 * eta8 := by
  subst ht hu
  obtain ⟨p0, p1⟩ := eta8_small
  norm_num at p1
  have he0 : 3 * ε + 3 * eta8 ≤ 1 / 100 := by linarith
  have he1 : 2 * ε + eta8 ≤ 1 / 100 := by linarith
  have q1 := sq_nonneg c1
  have q2 := sq_nonneg c2
  have q3 := sq_nonneg c3
  obtain ⟨r1, r2, r3⟩ := core_root R hb (by nlinarith) hs he0 hbig
  refine ⟨r1.trans (by linarith), ?_, ?_, ?_⟩
  · exact (core_other R (c := c1) r3 (by linarith) r2 he0 k1 he1).trans (by linarith)
  · exact (core_other R (c := c2) r3 (by linarith) r2 he0 k2 he1).trans (by linarith)
  · exact (core_other R (c := c3) r3 (by linarith) r2 he0 k3 he1).trans (by linarith)

theorem diff_near (R : Round) {a b A B D ε : ℝ} (hD : A - B = D) (ha : |a| ≤ 11 / 10) (hb : |b| ≤ 11 / 10) (ea : |a - A| ≤ ε) (eb : |b - B| ≤ ε) :
    |R.rn (a - b) - D| ≤ 2 * ε + eta8 := by
  rw [abs_le] at *
  have r := abs_le.mp (rn8 R (x := a - b) (by rw [abs_le]; constructor <;> linarith [ha.1, ha.2, hb.1, hb.2]))
  constructor <;> linarith [ha.1, ha.2, hb.1, hb.2, ea.1, ea.2, eb.1, eb.2, r.1, r.2]

theorem add_near (R : Round) {a b A B D ε : ℝ} (hD : A + B = D) (ha : |a| ≤ 11 / 10) (hb : |b| ≤ 11 / 10) (ea : |a - A| ≤ ε) (eb : |b - B| ≤ ε) :
    |R.rn (a + b) - D| ≤ 2 * ε + eta8 := by
  rw [abs_le] at *
  have r := abs_le.mp (rn8 R (x := a + b) (by rw [abs_le]; constructor <;> linarith [ha.1, ha.2, hb.1, hb.2]))
  constructor <;> linarith [ha.1, ha.2, hb.1, hb.2, ea.1, ea.2, eb.1, eb.2, r.1, r.2]

theorem sum3_near (R : Round) (right : Bool) {a b c : ℝ} (ha : |a| ≤ 11 / 10) (hb : |b| ≤ 11 / 10) (hc : |c| ≤ 11 / 10) :
    |sum3 R right a b c - (a + b + c)| ≤ 2 * eta8 := by
  obtain ⟨p0, p1⟩ := eta8_small
  norm_num at p1
  rw [abs_le] at ha hb hc
  cases right with
  | true =>
    simp only [sum3, if_true]
    have r := abs_le.mp (rn8 R (x := b + c) (by rw [abs_le]; constructor <;> linarith [ha.1, ha.2, hb.1, hb.2, hc.1, hc.2]))
    have r2 := abs_le.mp (rn8 R (x := a + R.rn (b + c)) (by rw [abs_le]; constructor <;> linarith [ha.1, ha.2, hb.1, hb.2, hc.1, hc.2, r.1, r.2]))
    rw [abs_le]; constructor <;> linarith [r.1, r.2, r2.1, r2.2]
  | false =>
    simp only [sum3, Bool.false_eq_true, if_false]
    have r := abs_le.mp (rn8 R (x := a + b) (by rw [abs_le]; constructor <;> linarith [ha.1, ha.2, hb.1, hb.2, hc.1, hc.2]))
    have r2 := abs_le.mp (rn8 R (x := R.rn (a + b) + c) (by rw [abs_le]; constructor <;> linarith [ha.1, ha.2, hb.1, hb.2, hc.1, hc.2, r.1, r.2]))
    rw [abs_le]; constructor <;> linarith [r.1, r.2, r2.1, r2.2]

/-- `a - b - c + 1` -/
theorem diag_near (R : Round) {a b c : ℝ} (ha : |a| ≤ 11 / 10) (hb : |b| ≤ 11 / 10) (hc : |c| ≤ 11 / 10) :
    |R.rn (R.rn (R.rn (a - b) - c) + 1) - (a - b - c + 1)| ≤ 3 * eta8 := by
  obtain ⟨p0, p1⟩ := eta8_small
  norm_num at p1
  rw [abs_le] at ha hb hc
  have r := abs_le.mp (rn8 R (x := a - b) (by rw [abs_le]; constructor <;> linarith [ha.1, ha.2, hb.1, hb.2, hc.1, hc.2]))
  have r2 := abs_le.mp (rn8 R (x := R.rn (a - b) - c) (by rw [abs_le]; constructor <;> linarith [ha.1, ha.2, hb.1, hb.2, hc.1, hc.2, r.1, r.2]))
  have r3 := abs_le.mp (rn8 R (x := R.rn (R.rn (a - b) - c) + 1)
    (by rw [abs_le]; constructor <;> linarith [ha.1, ha.2, hb.1, hb.2, hc.1, hc.2, r.1, r.2, r2.1, r2.2]))
  rw [abs_le]; constructor <;> linarith [r.1, r.2, r2.1, r2.2, r3.1, r3.2]

/-- the component that the conversion takes the root for, as a function of the matrix -/
noncomputable def pivot (R : Round) (right : Bool) (X : M3) (q : Quat) : ℝ :=
  open Classical in
  if sum3 R right (X 0 0) (X 1 1) (X 2 2) > 0 then q.w
  else if X 1 1 > X 0 0 then (if X 2 2 > X 1 1 then q.z else q.y) else if X 2 2 > X 0 0 then q.z else q.x

theorem ofRotF_near (R : Round) (right : Bool) {X : M3} {ε : ℝ} (hε : ε ≤ 1 / 1000) {w x y z : ℝ} (hq : w ^ 2 + x ^ 2 + y ^ 2 + z ^ 2 = 1)
    (h : ∀ i j, |X i j - (Quat.mk w x y z).toRot i j| ≤ ε) (hp : 0 ≤ pivot R right X ⟨w, x, y, z⟩) :
    QNear (3 * ε + 8 * eta8) (ofRotF R right X) ⟨w, x, y, z⟩ := by
  obtain ⟨p0, p1⟩ := eta8_small
  norm_num at p1
  have hX := entry_small hε hq h
  obtain ⟨⟨h00, h01, h02⟩, ⟨h10, h11, h12⟩, h20, h21, h22⟩ := entries_of h
  have hε0 : 0 ≤ ε := (abs_nonneg _).trans h00
  have tr := abs_le.mp (sum3_near R right (hX 0 0) (hX 1 1) (hX 2 2))
  have a00 := abs_le.mp h00
  have a11 := abs_le.mp h11
  have a22 := abs_le.mp h22
  have b00 := abs_le.mp (hX 0 0)
  have b11 := abs_le.mp (hX 1 1)
  have b22 := abs_le.mp (hX 2 2)
  unfold pivot at hp
  unfold ofRotF
  by_cases ht : sum3 R right (X 0 0) (X 1 1) (X 2 2) > 0
  · rw [if_pos ht] at hp
    simp only [if_pos ht]
    have r := abs_le.mp (rn8 R (x := sum3 R right (X 0 0) (X 1 1) (X 2 2) + 1) (by rw [abs_le]; constructor <;> linarith [tr.1, tr.2]))
    obtain ⟨k1, k2, k3, k4⟩ := quad R (b := w) (c1 := x) (c2 := y) (c3 := z) hε0 hε hp (by linarith) (by linarith [tr.1, tr.2])
      (by rw [abs_le]; constructor <;> linarith [tr.1, tr.2, r.1, r.2])
      (diff_near R (by ring) (hX 2 1) (hX 1 2) h21 h12) (diff_near R (by ring) (hX 0 2) (hX 2 0) h02 h20)
      (diff_near R (by ring) (hX 1 0) (hX 0 1) h10 h01) rfl rfl
    exact ⟨k1, k2, k3, k4⟩
  · rw [if_neg ht] at hp
    simp only [if_neg ht]
    have ht' := not_lt.mp ht
    have e12 : (0 : Fin 3) + 1 = 1 := rfl
    have e22 : (1 : Fin 3) + 1 = 2 := rfl
    have e02 : (2 : Fin 3) + 1 = 0 := rfl
    have c0 : X 2 2 ≤ X 0 0 → X 1 1 ≤ X 0 0 → 0 ≤ x →
        QNear (3 * ε + 8 * eta8) ⟨R.rn (R.rn (X 2 1 - X 1 2) * R.rn (0.5 / R.rn (Real.sqrt (R.rn (R.rn (R.rn (X 0 0 - X 1 1) - X 2 2) + 1))))),
          R.rn (0.5 * R.rn (Real.sqrt (R.rn (R.rn (R.rn (X 0 0 - X 1 1) - X 2 2) + 1)))),
          R.rn (R.rn (X 1 0 + X 0 1) * R.rn (0.5 / R.rn (Real.sqrt (R.rn (R.rn (R.rn (X 0 0 - X 1 1) - X 2 2) + 1))))),
          R.rn (R.rn (X 2 0 + X 0 2) * R.rn (0.5 / R.rn (Real.sqrt (R.rn (R.rn (R.rn (X 0 0 - X 1 1) - X 2 2) + 1)))))⟩ ⟨w, x, y, z⟩ := fun g1 g2 hp => by
      have dn := abs_le.mp (diag_near R (hX 0 0) (hX 1 1) (hX 2 2))
      obtain ⟨k1, k2, k3, k4⟩ := quad R (b := x) (c1 := w) (c2 := y) (c3 := z) hε0 hε hp (by linarith) (by linarith [tr.1, tr.2])
        (by rw [abs_le]; constructor <;> linarith [dn.1, dn.2])
        (diff_near R (by ring) (hX 2 1) (hX 1 2) h21 h12) (add_near R (by ring) (hX 1 0) (hX 0 1) h10 h01)
        (add_near R (by ring) (hX 2 0) (hX 0 2) h20 h02) rfl rfl
      exact ⟨k2, k1, k3, k4⟩
    have c1 : X 2 2 ≤ X 1 1 → X 0 0 ≤ X 1 1 → 0 ≤ y →
        QNear (3 * ε + 8 * eta8) ⟨R.rn (R.rn (X 0 2 - X 2 0) * R.rn (0.5 / R.rn (Real.sqrt (R.rn (R.rn (R.rn (X 1 1 - X 2 2) - X 0 0) + 1))))),
          R.rn (R.rn (X 0 1 + X 1 0) * R.rn (0.5 / R.rn (Real.sqrt (R.rn (R.rn (R.rn (X 1 1 - X 2 2) - X 0 0) + 1))))),
          R.rn (0.5 * R.rn (Real.sqrt (R.rn (R.rn (R.rn (X 1 1 - X 2 2) - X 0 0) + 1)))),
          R.rn (R.rn (X 2 1 + X 1 2) * R.rn (0.5 / R.rn (Real.sqrt (R.rn (R.rn (R.rn (X 1 1 - X 2 2) - X 0 0) + 1)))))⟩ ⟨w, x, y, z⟩ := fun g1 g2 hp => by
      have dn := abs_le.mp (diag_near R (hX 1 1) (hX 2 2) (hX 0 0))
      obtain ⟨k1, k2, k3, k4⟩ := quad R (b := y) (c1 := w) (c2 := x) (c3 := z) hε0 hε hp (by linarith) (by linarith [tr.1, tr.2])
        (by rw [abs_le]; constructor <;> linarith [dn.1, dn.2])
        (diff_near R (by ring) (hX 0 2) (hX 2 0) h02 h20) (add_near R (by ring) (hX 0 1) (hX 1 0) h01 h10)
        (add_near R (by ring) (hX 2 1) (hX 1 2) h21 h12) rfl rfl
      exact ⟨k2, k3, k1, k4⟩
    have c2 : X 0 0 ≤ X 2 2 → X 1 1 ≤ X 2 2 → 0 ≤ z →
        QNear (3 * ε + 8 * eta8) ⟨R.rn (R.rn (X 1 0 - X 0 1) * R.rn (0.5 / R.rn (Real.sqrt (R.rn (R.rn (R.rn (X 2 2 - X 0 0) - X 1 1) + 1))))),
          R.rn (R.rn (X 0 2 + X 2 0) * R.rn (0.5 / R.rn (Real.sqrt (R.rn (R.rn (R.rn (X 2 2 - X 0 0) - X 1 1) + 1))))),
          R.rn (R.rn (X 1 2 + X 2 1) * R.rn (0.5 / R.rn (Real.sqrt (R.rn (R.rn (R.rn (X 2 2 - X 0 0) - X 1 1) + 1))))),
          R.rn (0.5 * R.rn (Real.sqrt (R.rn (R.rn (R.rn (X 2 2 - X 0 0) - X 1 1) + 1))))⟩ ⟨w, x, y, z⟩ := fun g1 g2 hp => by
      have dn := abs_le.mp (diag_near R (hX 2 2) (hX 0 0) (hX 1 1))
      obtain ⟨k1, k2, k3, k4⟩ := quad R (b := z) (c1 := w) (c2 := x) (c3 := y) hε0 hε hp (by linarith) (by linarith [tr.1, tr.2])
        (by rw [abs_le]; constructor <;> linarith [dn.1, dn.2])
        (diff_near R (by ring) (hX 1 0) (hX 0 1) h10 h01) (add_near R (by ring) (hX 0 2) (hX 2 0) h02 h20)
        (add_near R (by ring) (hX 1 2) (hX 2 1) h12 h21) rfl rfl
      exact ⟨k2, k3, k4, k1⟩
    by_cases h10' : X 1 1 > X 0 0
    · by_cases h21' : X 2 2 > X 1 1
      · simp only [if_pos h10', if_pos h21'] at hp
        simp only [if_pos h10', if_pos h21', e02, e12]
        exact c2 (by linarith) (by linarith) hp
      · simp only [if_pos h10', if_neg h21'] at hp
        simp only [if_pos h10', if_neg h21', e22, e02]
        exact c1 (by linarith) (by linarith) hp
    · by_cases h21' : X 2 2 > X 0 0
      · simp only [if_neg h10', if_pos h21'] at hp
        simp only [if_neg h10', if_pos h21', e02, e12]
        exact c2 (by linarith) (by linarith) hp
      · simp only [if_neg h10', if_neg h21'] at hp
        simp only [if_neg h10', if_neg h21', e22, e12]
        exact c0 (by linarith) (by linarith) hp

end F64
end Drift
