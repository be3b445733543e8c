import Verif.Spec.RoundedReading
import Verif.Lemmas.RoundOdo

/-!
# Rounding errors of the preparation of an IMU reading
-/
namespace Drift
namespace F64
open Matrix

theorem sub_err (R : Round) {a a' b A B e : ℝ} (h : |a' - a| ≤ e) (ha : |a| ≤ A) (hb : |b| ≤ B) :
    |R.rn (a' - b) - (a - b)| ≤ e + 1001 / 1000 * uu * (A + B + e + 1 / 10 ^ 70) := by
  have h1 : |a' - b| ≤ A + B + e + 1 / 10 ^ 70 := by
    norm_num
    rw [abs_le] at *
    constructor <;> linarith [h.1, h.2, ha.1, ha.2, hb.1, hb.2]
  have hA := (abs_nonneg _).trans ha
  have hB := (abs_nonneg _).trans hb
  have he := (abs_nonneg _).trans h
  have h2 := rnb R (tiny_le.trans (by norm_num; linarith)) h1
  rw [abs_le] at *
  constructor <;> linarith [h.1, h.2, h2.1, h2.2]

theorem mulVec_le {X : M3} {v : V3} {V : ℝ} (hX : ∀ i j, |X i j| ≤ 111 / 100) (hv : ∀ j, |v j| ≤ V) (i : Fin 3) : |(X *ᵥ v) i| ≤ 4 * V := by
  have h := fun j => abs_le.mp (by rw [abs_mul]; exact mul_le_mul (hX i j) (hv j) (abs_nonneg _) (by norm_num) : |X i j * v j| ≤ 111 / 100 * V)
  have hV := (abs_nonneg _).trans (hv 0)
  simp only [Matrix.mulVec, dotProduct, Fin.sum_univ_three]
  rw [abs_le]
  constructor <;> linarith [(h 0).1, (h 0).2, (h 1).1, (h 1).2, (h 2).1, (h 2).2]

theorem mount_err (F : Fpu) {X : M3} {v b : V3} {V B : ℝ} (hX : ∀ i j, |X i j| ≤ 111 / 100) (hv : ∀ j, |v j| ≤ V) (hb : ∀ j, |b j| ≤ B) (i : Fin 3) :
    |F.rn (mulV F X v i - b i) - ((X *ᵥ v) i - b i)| ≤ 20 * uu * (V + B + 1 / 10 ^ 70) := by
  have hV := (abs_nonneg _).trans (hv 0)
  have hB := (abs_nonneg _).trans (hb 0)
  have h := sub_err F.toRound (mulV_err F hV hX hv i) (mulVec_le hX hv i) (hb i)
  refine h.trans ?_
  have hu := uu_pos
  have hu' := uu_le
  have s1 : 0 ≤ uu * V := by positivity
  have s2 : 0 ≤ uu * B := by positivity
  have s4 : uu * (V + 1 / 10 ^ 70) ≤ 1 / 10 ^ 15 * (V + 1 / 10 ^ 70) := mul_le_mul_of_nonneg_right hu' (by positivity)
  have s5 : uu * (uu * (V + 1 / 10 ^ 70)) ≤ uu * (1 / 10 ^ 15 * (V + 1 / 10 ^ 70)) := mul_le_mul_of_nonneg_left s4 hu.le
  norm_num at s5 ⊢
  nlinarith

theorem prod_diff {u u' v v' W V e f : ℝ} (hu : |u| ≤ W) (he : |u' - u| ≤ e) (hv' : |v'| ≤ V) (hf : |v' - v| ≤ f) :
    |u' * v' - u * v| ≤ e * V + W * f := by
  have h1 : |(u' - u) * v'| ≤ e * V := by rw [abs_mul]; exact mul_le_mul he hv' (abs_nonneg _) ((abs_nonneg _).trans he)
  have h2 : |u * (v' - v)| ≤ W * f := by rw [abs_mul]; exact mul_le_mul hu hf (abs_nonneg _) ((abs_nonneg _).trans hu)
  have e1 : u' * v' - u * v = (u' - u) * v' + u * (v' - v) := by ring
  rw [e1]
  exact (abs_add_le _ _).trans (add_le_add h1 h2)

/-- one component of a cross product -/
theorem cross_entry (R : Round) {a b c d a' b' c' d' W V e f : ℝ} (ha : |a| ≤ W) (hb : |b| ≤ W) (ha' : |a'| ≤ W) (hb' : |b'| ≤ W) (hae : |a' - a| ≤ e)
    (hbe : |b' - b| ≤ e) (hc' : |c'| ≤ V) (hd' : |d'| ≤ V) (hcf : |c' - c| ≤ f) (hdf : |d' - d| ≤ f) :
    |R.rn (R.rn (a' * d') - R.rn (b' * c')) - (a * d - b * c)| ≤ 2 * (e * V + W * f) + 5 * uu * (W * V + 1 / 10 ^ 70) := by
  have hu := uu_pos
  have hu' := uu_le
  have p1 := abs_le.mp (prod_diff ha hae hd' hdf)
  have p2 := abs_le.mp (prod_diff hb hbe hc' hcf)
  have hW := (abs_nonneg _).trans ha
  have hV := (abs_nonneg _).trans hc'
  have hWV : 0 ≤ W * V := by positivity
  have m1 : |a' * d'| ≤ W * V + 1 / 10 ^ 70 := by
    rw [abs_mul]; have := mul_le_mul ha' hd' (abs_nonneg _) hW; norm_num; linarith
  have m2 : |b' * c'| ≤ W * V + 1 / 10 ^ 70 := by
    rw [abs_mul]; have := mul_le_mul hb' hc' (abs_nonneg _) hW; norm_num; linarith
  have hM : tiny ≤ W * V + 1 / 10 ^ 70 := tiny_le.trans (by norm_num; linarith)
  generalize W * V + 1 / 10 ^ 70 = M at *
  have hM0 : 0 ≤ M := tiny_pos.le.trans hM
  have r1 := abs_le.mp (rnb R hM m1)
  have r2 := abs_le.mp (rnb R hM m2)
  have q1 := abs_le.mp (rnb' R hM m1)
  have q2 := abs_le.mp (rnb' R hM m2)
  have s : |R.rn (a' * d') - R.rn (b' * c')| ≤ 21 / 10 * M := by rw [abs_le]; constructor <;> linarith [q1.1, q1.2, q2.1, q2.2]
  have r3 := abs_le.mp (rnb R (by linarith) s)
  have hm : 0 ≤ uu * M := by positivity
  rw [abs_le]
  constructor <;> linarith [r1.1, r1.2, r2.1, r2.2, r3.1, r3.2, p1.1, p1.2, p2.1, p2.2]

theorem cross_err (F : Fpu) {u u' v v' : V3} {W V e f : ℝ} (hu : ∀ i, |u i| ≤ W) (hu' : ∀ i, |u' i| ≤ W) (he : ∀ i, |u' i - u i| ≤ e) (hv' : ∀ i, |v' i| ≤ V)
    (hf : ∀ i, |v' i - v i| ≤ f) (i : Fin 3) :
    |crossF F u' v' i - crossProduct u v i| ≤ 2 * (e * V + W * f) + 5 * uu * (W * V + 1 / 10 ^ 70) := by
  have k := fun p q => cross_entry F.toRound (hu p) (hu q) (hu' p) (hu' q) (he p) (he q) (hv' p) (hv' q) (hf p) (hf q)
  fin_cases i
  · simpa [crossF, cross_apply] using k 1 2
  · simpa [crossF, cross_apply] using k 2 0
  · simpa [crossF, cross_apply] using k 0 1

theorem cross_le {u v : V3} {W V : ℝ} (hu : ∀ i, |u i| ≤ W) (hv : ∀ i, |v i| ≤ V) (i : Fin 3) : |crossProduct u v i| ≤ 2 * (W * V) := by
  have k := fun p q => abs_le.mp (by rw [abs_mul]; exact mul_le_mul (hu p) (hv q) (abs_nonneg _) ((abs_nonneg _).trans (hu p)) : |u p * v q| ≤ W * V)
  rw [abs_le]
  fin_cases i
  · simp [cross_apply]; constructor <;> linarith [(k 1 2).1, (k 1 2).2, (k 2 1).1, (k 2 1).2]
  · simp [cross_apply]; constructor <;> linarith [(k 2 0).1, (k 2 0).2, (k 0 2).1, (k 0 2).2]
  · simp [cross_apply]; constructor <;> linarith [(k 0 1).1, (k 0 1).2, (k 1 0).1, (k 1 0).2]

theorem rate_err (F : Fpu) {m : Mount} {G A Bg Ba L : ℝ} (hm : m.Bounds G A Bg Ba L) {r : Raw} (hr : r.Within G A) (i : Fin 3) :
    |rateF F m r i - r.rate m i| ≤ 20 * uu * (G + Bg + 1 / 10 ^ 70) := mount_err F hm.rot hr.1 hm.bg i

theorem force_read_err (F : Fpu) {m : Mount} {G A Bg Ba L : ℝ} (hm : m.Bounds G A Bg Ba L) {r : Raw} (hr : r.Within G A) (i : Fin 3) :
    |forceF F m r i - r.force m i| ≤ (A + Ba + 25 * (G + Bg + 1 / 10 ^ 20) ^ 2 * (L + 1 / 10 ^ 20) + 1 / 10 ^ 40) / 2 ^ 46 := by
  have hu := uu_pos
  have hul := uu_le
  obtain ⟨hG, hA⟩ := hm.nonneg
  have hBg := (abs_nonneg _).trans (hm.bg 0)
  have hBa := (abs_nonneg _).trans (hm.ba 0)
  have hL := (abs_nonneg _).trans (hm.pos 0)
  obtain ⟨W, hW⟩ : ∃ W, 5 * (G + Bg + 1 / 10 ^ 20) = W := ⟨_, rfl⟩
  have hW0 : 0 ≤ W := by rw [← hW]; positivity
  have hW1 : 5 / 10 ^ 20 ≤ W := by rw [← hW]; norm_num; linarith
  have e0 : ∀ i, |rateF F m r i - r.rate m i| ≤ 4 * uu * W := fun i => (rate_err F hm hr i).trans (by
    have : uu * (G + Bg + 1 / 10 ^ 70) ≤ uu * (G + Bg + 1 / 10 ^ 20) := mul_le_mul_of_nonneg_left (by norm_num) hu.le
    rw [← hW]; linarith)
  have w0 : ∀ i, |r.rate m i| ≤ 9 / 10 * W := fun i => by
    have h1 := mulVec_le hm.rot hr.1 i
    have h2 := hm.bg i
    have h3 : r.rate m i = (m.rot *ᵥ r.gyro) i - m.bg i := rfl
    rw [h3, ← hW]
    norm_num
    rw [abs_le] at *
    constructor <;> linarith [h1.1, h1.2, h2.1, h2.2]
  have w1 : ∀ i, |r.rate m i| ≤ W := fun i => (w0 i).trans (by linarith)
  have huW : uu * W ≤ 1 / 10 ^ 15 * W := mul_le_mul_of_nonneg_right hul hW0
  have w2 : ∀ i, |rateF F m r i| ≤ W := fun i => by
    have h1 := e0 i; have h2 := w0 i
    norm_num at huW
    rw [abs_le] at *
    constructor <;> linarith [h1.1, h1.2, h2.1, h2.2]
  have c1 := fun i => cross_err F (v := m.pos) (v' := m.pos) (f := 0) w1 w2 e0 hm.pos (fun i => by simp) i
  have c2 := fun i => cross_le w1 hm.pos i
  obtain ⟨Q, hQ⟩ : ∃ Q, W * (L + 1 / 10 ^ 20) = Q := ⟨_, rfl⟩
  have hQ0 : 0 ≤ Q := by rw [← hQ]; positivity
  have hWL : W * L + 1 / 10 ^ 70 ≤ Q := by rw [← hQ, mul_add]; norm_num at hW1 ⊢; linarith
  have c3 : ∀ i, |crossF F (rateF F m r) m.pos i - crossProduct (r.rate m) m.pos i| ≤ 13 * uu * Q := fun i => (c1 i).trans (by
    have : uu * (W * L + 1 / 10 ^ 70) ≤ uu * Q := mul_le_mul_of_nonneg_left hWL hu.le
    have e : 0 ≤ uu * (1 / 10 ^ 70) := by positivity
    linarith)
  have huQ : uu * Q ≤ 1 / 10 ^ 15 * Q := mul_le_mul_of_nonneg_right hul hQ0
  have c2' : ∀ i, |crossProduct (r.rate m) m.pos i| ≤ 2 * Q := fun i => (c2 i).trans (by norm_num at hWL; linarith)
  have c4 : ∀ i, |crossF F (rateF F m r) m.pos i| ≤ 3 * Q := fun i => by
    have h1 := c3 i; have h2 := c2' i
    norm_num at huQ
    rw [abs_le] at *
    constructor <;> linarith [h1.1, h1.2, h2.1, h2.2]
  have d1 := cross_err F w1 w2 e0 c4 c3 i
  have d2 := cross_le w1 c2' i
  have a1 := mount_err F hm.rot hr.2 hm.ba i
  have a2 : |(m.rot *ᵥ r.acc) i - m.ba i| ≤ 4 * A + Ba := by
    have h1 := mulVec_le hm.rot hr.2 i
    have h2 := hm.ba i
    rw [abs_le] at *
    constructor <;> linarith [h1.1, h1.2, h2.1, h2.2]
  have e1 : forceF F m r i = F.rn (F.rn (mulV F m.rot r.acc i - m.ba i) - crossF F (rateF F m r) (crossF F (rateF F m r) m.pos) i) := rfl
  have e2 : r.force m i = (m.rot *ᵥ r.acc) i - m.ba i - crossProduct (r.rate m) (crossProduct (r.rate m) m.pos) i := rfl
  rw [e1, e2]
  have e3 : 25 * (G + Bg + 1 / 10 ^ 20) ^ 2 * (L + 1 / 10 ^ 20) = W * Q := by rw [← hQ, ← hW]; ring
  rw [e3]
  generalize F.rn (mulV F m.rot r.acc i - m.ba i) = x at *
  generalize (m.rot *ᵥ r.acc) i - m.ba i = x0 at *
  generalize crossF F (rateF F m r) (crossF F (rateF F m r) m.pos) i = y at *
  generalize crossProduct (r.rate m) (crossProduct (r.rate m) m.pos) i = y0 at *
  have hq0 : 0 ≤ W * Q := by positivity
  have d1' : |y - y0| ≤ 70 * uu * (W * Q + 1 / 10 ^ 70) := by
    refine d1.trans ?_
    have : 0 ≤ uu * (1 / 10 ^ 70) := by positivity
    nlinarith [mul_nonneg hu.le hq0]
  have d2' : |y0| ≤ 4 * (W * Q) := d2.trans (by linarith)
  generalize W * Q = q at *
  have g1 : |x - y| ≤ 5 * (A + Ba + q + 1 / 10 ^ 70) := by
    have s1 : uu * (A + Ba + 1 / 10 ^ 70) ≤ 1 / 10 ^ 15 * (A + Ba + 1 / 10 ^ 70) := mul_le_mul_of_nonneg_right hul (by positivity)
    have s2 : uu * (q + 1 / 10 ^ 70) ≤ 1 / 10 ^ 15 * (q + 1 / 10 ^ 70) := mul_le_mul_of_nonneg_right hul (by positivity)
    norm_num at s1 s2 a1 d1' ⊢
    rw [abs_le] at *
    constructor <;> linarith [a1.1, a1.2, a2.1, a2.2, d1'.1, d1'.2, d2'.1, d2'.2]
  have g2 := rnb F.toRound (tiny_le.trans (by norm_num; linarith)) g1
  have uv : uu = 1 / 2 ^ 53 := rfl
  rw [uv] at a1 d1' g2
  rw [abs_le] at a1 d1' g2 ⊢
  norm_num at a1 d1' g2 ⊢
  constructor <;> linarith [a1.1, a1.2, d1'.1, d1'.2, g2.1, g2.2]

theorem norm_of_entries {v : V3} {e : ℝ} (h : ∀ i, |v i| ≤ e) : Drift.norm3 v ≤ 2 * e := by
  have he := (abs_nonneg _).trans (h 0)
  have hs := fun i => sq_le_sq' (abs_le.mp (h i)).1 (abs_le.mp (h i)).2
  refine abs_le_of_sq_le_sq' ?_ (by positivity) |>.2
  rw [norm3_sq]
  unfold nsq
  nlinarith [hs 0, hs 1, hs 2, sq_nonneg e]

end F64
end Drift
