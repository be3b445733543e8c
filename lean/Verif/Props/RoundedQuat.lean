import Verif.Props.RoundedOdo
import Verif.Lemmas.RoundQuat

/-!
# The published quaternion in double arithmetic
-/
namespace Drift
namespace F64
open Matrix

/-- **C172**: if the entries of a matrix are within `ε ≤ 1/1000` of those of a rotation, the quaternion that is computed from it in double arithmetic is within
`3 ε + 2^-46` of a unit quaternion of that rotation, in each component. -/
theorem C172_quaternion (R : Round) (right : Bool) {X Y : M3} (hY : IsRot Y) {ε : ℝ} (hε : ε ≤ 1 / 1000) (h : ∀ i j, |X i j - Y i j| ≤ ε) :
    ∃ q : Quat, q.toRot = Y ∧ qlen2 q = 1 ∧ QNear (3 * ε + 1 / 2 ^ 46) (ofRotF R right X) q := by
  obtain ⟨h1, h2⟩ := ofRot_toRot hY
  have e : 3 * ε + 8 * eta8 = 3 * ε + 1 / 2 ^ 46 := by unfold eta8; norm_num
  rw [← e]
  generalize Quat.ofRot Y = q at h1 h2
  obtain ⟨w, x, y, z⟩ := q
  dsimp only at h2
  rcases le_total 0 (pivot R right X ⟨w, x, y, z⟩) with hp | hp
  · exact ⟨⟨w, x, y, z⟩, h1, h2, ofRotF_near R right hε h2 (by rw [h1]; exact h) hp⟩
  · have h1' : (Quat.mk (-w) (-x) (-y) (-z)).toRot = Y := by rw [toRot_neg ⟨w, x, y, z⟩]; exact h1
    have h2' : (-w) ^ 2 + (-x) ^ 2 + (-y) ^ 2 + (-z) ^ 2 = 1 := by rw [neg_sq, neg_sq, neg_sq, neg_sq]; exact h2
    refine ⟨⟨-w, -x, -y, -z⟩, h1', h2', ofRotF_near R right hε h2' (by rw [h1']; exact h) ?_⟩
    unfold pivot at hp ⊢
    dsimp only at hp ⊢
    split_ifs at hp ⊢ <;> linarith

theorem len_of_near {p q : Quat} {δ : ℝ} (hq : qlen2 q = 1) (h : QNear δ p q) : |qlen2 p - 1| ≤ 4 * δ + 4 * δ ^ 2 := by
  obtain ⟨w, x, y, z⟩ := q
  obtain ⟨w', x', y', z'⟩ := p
  obtain ⟨h1, h2, h3, h4⟩ := h
  dsimp only [qlen2] at *
  have hδ : 0 ≤ δ := (abs_nonneg _).trans h1
  have key : ∀ {a b : ℝ}, |a - b| ≤ δ → |a ^ 2 - b ^ 2| ≤ δ * (2 * |b| + δ) := fun {a b} hab => by
    have : a ^ 2 - b ^ 2 = (a - b) * (2 * b + (a - b)) := by ring
    rw [this, abs_mul]
    refine mul_le_mul hab ((abs_add_le _ _).trans (add_le_add (by rw [abs_mul, abs_two]) hab)) (abs_nonneg _) hδ
  have k1 := abs_le.mp (key h1)
  have k2 := abs_le.mp (key h2)
  have k3 := abs_le.mp (key h3)
  have k4 := abs_le.mp (key h4)
  have hs : |w| + |x| + |y| + |z| ≤ 2 := by
    rw [← sq_abs w, ← sq_abs x, ← sq_abs y, ← sq_abs z] at hq
    nlinarith [sq_nonneg (|w| - |x|), sq_nonneg (|w| - |y|), sq_nonneg (|w| - |z|), sq_nonneg (|x| - |y|), sq_nonneg (|x| - |z|), sq_nonneg (|y| - |z|),
      abs_nonneg w, abs_nonneg x, abs_nonneg y, abs_nonneg z]
  have hm := mul_le_mul_of_nonneg_left hs hδ
  rw [abs_le]
  constructor <;> nlinarith [k1.1, k1.2, k2.1, k2.2, k3.1, k3.2, k4.1, k4.2]

/-- **C172**: ... and the square of its length is within `13 ε + 2^-43` of one. -/
theorem C172_length (R : Round) (right : Bool) {X Y : M3} (hY : IsRot Y) {ε : ℝ} (hε : ε ≤ 1 / 1000) (h : ∀ i j, |X i j - Y i j| ≤ ε) :
    |qlen2 (ofRotF R right X) - 1| ≤ 13 * ε + 1 / 2 ^ 43 := by
  obtain ⟨q, -, h2, h3⟩ := C172_quaternion R right hY hε h
  have h0 : 0 ≤ ε := (abs_nonneg _).trans (h 0 0)
  refine (len_of_near h2 h3).trans ?_
  norm_num
  nlinarith

/-- **C172**: what is published after any number `n` (up to a thousand million, two months of a 200 Hz IMU) of IMU readings and corrections, everything being
computed in double arithmetic: the quaternion is within `3 n 2^-40 + 2^-46` of a unit quaternion of the exact orientation, and the square of its length within
`13 n 2^-40 + 2^-43` of one. -/
theorem C172_published (F : Fpu) (hF : F.Accurate) (right : Bool) {X : M3} (hX : IsRot X) (ops : List RotOp) (hr : ∀ op ∈ ops, op.Turn)
    (hn : ops.length ≤ 10 ^ 9) :
    (∃ q : Quat, q.toRot = ops.foldl RotOp.exact X ∧ qlen2 q = 1 ∧
      QNear (3 * (ops.length * (1 / 2 ^ 40)) + 1 / 2 ^ 46) (ofRotF F.toRound right (ops.foldl (RotOp.run F) X)) q) ∧
    |qlen2 (ofRotF F.toRound right (ops.foldl (RotOp.run F) X)) - 1| ≤ 13 * (ops.length * (1 / 2 ^ 40)) + 1 / 2 ^ 43 := by
  have h := C132_orientation F hF hX ops hr (by omega)
  have hY := isRot_exact hX ops hr
  have hε : (ops.length : ℝ) * (1 / 2 ^ 40) ≤ 1 / 1000 := by
    have : (ops.length : ℝ) ≤ 10 ^ 9 := by exact_mod_cast hn
    have k : (10 : ℝ) ^ 9 ≤ 1 / 1000 * 2 ^ 40 := by norm_num
    rw [mul_one_div, div_le_iff₀ (by positivity)]
    linarith
  exact ⟨C172_quaternion _ right hY hε h, C172_length _ right hY hε h⟩

/-- an hour of turning at 200 Hz, with a correction after every reading: the length is one up to `2e-5` -/
example : ∃ ops : List RotOp, ops.length = 2 * 720000 ∧ (∀ op ∈ ops, op.Turn) ∧ IsRot (1 : M3) ∧ exFpu.Accurate ∧
    |qlen2 (ofRotF exFpu.toRound true (ops.foldl (RotOp.run exFpu) 1)) - 1| ≤ 2 / 10 ^ 5 := by
  have hA : exFpu.Accurate := accurate_of_rounded exFpu (fun _ => rfl) (fun _ => rfl)
  have h1 : IsRot (1 : M3) := ⟨by simp, by simp, by simp⟩
  have hr : ∀ op ∈ List.replicate 720000 (RotOp.imu ![0, 0, 1] (1 / 128)) ++ List.replicate 720000 (RotOp.right ![1 / 1024, 0, 0]), RotOp.Turn op := by
    intro op hop
    rw [List.mem_append, List.mem_replicate, List.mem_replicate] at hop
    rcases hop with ⟨-, rfl⟩ | ⟨-, rfl⟩
    · refine ⟨fun i => by fin_cases i <;> norm_num [RotOp.vec, abs_le], Or.inr (by simp [RotOp.vec]; norm_num)⟩
    · refine ⟨fun i => by fin_cases i <;> norm_num [RotOp.vec, abs_le], Or.inr (by simp [RotOp.vec]; norm_num)⟩
  have hl : (List.replicate 720000 (RotOp.imu ![0, 0, 1] (1 / 128)) ++ List.replicate 720000 (RotOp.right ![1 / 1024, 0, 0])).length = 2 * 720000 := by
    rw [List.length_append, List.length_replicate, List.length_replicate]
  refine ⟨_, hl, hr, h1, hA, (C172_published exFpu hA true h1 _ hr (by rw [hl]; norm_num)).2.trans ?_⟩
  rw [hl]; norm_num

end F64
end Drift
