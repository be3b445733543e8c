import Verif.Lemmas.RoundRot
import Verif.Lemmas.RoundWit2
import Verif.Lemmas.PhiBound

/-!
# C130, C131: the orientation and the transition matrix in binary64 arithmetic

`Model/Rounded` evaluates the formulas of the code with every operation rounded.  `F.Accurate`: sine and cosine of the C
library are off by at most `2^-52`.
-/
namespace Drift
open Matrix F64

/-- the rotation vector of a step is small enough for its square not to overflow -/
def RotOp.InRange (F : Fpu) : RotOp → Prop
  | .imu w dt => ∀ i, |F.rn (dt * w i)| ≤ 2 ^ 100
  | .right δ => ∀ i, |δ i| ≤ 2 ^ 100
  | .left δ => ∀ i, |δ i| ≤ 2 ^ 100

/-- **C130** (lengths): whatever the IMU readings and whatever the corrections, after `n` of them the orientation of the state,
as computed with rounding errors, changes squared lengths by a factor that differs from one by at most
`(1 + d) (1 + 2^-43)^n - 1`, where `d` is the error of the initial orientation. -/
theorem C130_lengths (F : Fpu) (hF : F.Accurate) {X : M3} {d : ℝ} (hd : 0 ≤ d) (hX : ∀ x, |nsq (X *ᵥ x) - nsq x| ≤ d * nsq x)
    (ops : List RotOp) (hr : ∀ op ∈ ops, RotOp.InRange F op) (x : V3) :
    |nsq (ops.foldl (RotOp.run F) X *ᵥ x) - nsq x| ≤ ((1 + d) * (1 + 1 / 2 ^ 43) ^ ops.length - 1) * nsq x := by
  induction ops generalizing X d with
  | nil => simpa using hX x
  | cons op ops ih =>
    have h1 : Keeps ((1 + d) * (1 + 1 / 2 ^ 43) - 1) (op.run F X) := by
      have h2 := hr op List.mem_cons_self
      cases op with
      | imu w dt => exact mul_right_keeps F hd hX (gamma0_near F hF h2)
      | right δ => exact mul_left_keeps F hd hX (expRot_near F hF h2)
      | left δ => exact mul_right_keeps F hd hX (expRot_near F hF h2)
    have h3 := ih (X := op.run F X) (d := (1 + d) * (1 + 1 / 2 ^ 43) - 1) (by nlinarith [show (0 : ℝ) < 1 / 2 ^ 43 by norm_num]) h1
      (fun o ho => hr o (List.mem_cons_of_mem _ ho))
    rw [List.foldl_cons, List.length_cons, pow_succ]
    refine h3.trans (le_of_eq ?_)
    ring

/-- a bound on all squared lengths bounds the entries of `Xᵀ X - 1` -/
theorem gram_entry {X : M3} {d : ℝ} (h : ∀ x, |nsq (X *ᵥ x) - nsq x| ≤ d * nsq x) (i j : Fin 3) : |(Xᵀ * X - 1) i j| ≤ d := by
  have e : ∀ x : V3, nsq (X *ᵥ x) - nsq x = x ⬝ᵥ ((Xᵀ * X - 1) *ᵥ x) := by
    intro x
    simp [nsq, Matrix.mulVec, dotProduct, Fin.sum_univ_three, Matrix.mul_apply, Matrix.one_apply, Matrix.sub_apply]
    ring
  have sym : ∀ i j, (Xᵀ * X - 1) i j = (Xᵀ * X - 1) j i := by
    intro i j
    simp [Matrix.mul_apply, Matrix.one_apply, Fin.sum_univ_three, eq_comm, mul_comm]
  generalize Xᵀ * X - 1 = S at *
  have hS : ∀ x : V3, |x ⬝ᵥ (S *ᵥ x)| ≤ d * nsq x := fun x => by rw [← e]; exact h x
  have s01 := sym 0 1
  have s02 := sym 0 2
  have s12 := sym 1 2
  have p := hS ![1, 0, 0]
  have q := hS ![0, 1, 0]
  have r := hS ![0, 0, 1]
  have p1 := hS ![1, 1, 0]
  have p2 := hS ![1, -1, 0]
  have q1 := hS ![1, 0, 1]
  have q2 := hS ![1, 0, -1]
  have r1 := hS ![0, 1, 1]
  have r2 := hS ![0, 1, -1]
  simp [nsq, Matrix.mulVec, dotProduct, Fin.sum_univ_three] at p q r p1 p2 q1 q2 r1 r2
  rw [abs_le] at p q r p1 p2 q1 q2 r1 r2 ⊢
  fin_cases i <;> fin_cases j <;> simp only [Fin.zero_eta, Fin.mk_one, Fin.reduceFinMk] <;> constructor <;> linarith

/-- **C130** (orthogonality): ... and `Rᵀ R` differs from the identity by at most that much in every entry. -/
theorem C130_orthogonal (F : Fpu) (hF : F.Accurate) {X : M3} (hX : IsRot X) (ops : List RotOp) (hr : ∀ op ∈ ops, RotOp.InRange F op)
    (i j : Fin 3) :
    |((ops.foldl (RotOp.run F) X)ᵀ * ops.foldl (RotOp.run F) X - 1) i j| ≤ (1 + 1 / 2 ^ 43) ^ ops.length - 1 := by
  refine gram_entry (fun x => ?_) i j
  have h := C130_lengths F hF le_rfl (X := X) (fun x => ?_) ops hr x
  · simpa using h
  · have : nsq (X *ᵥ x) = nsq x := by
      have e : ∀ y : V3, nsq y = y ⬝ᵥ y := fun y => by simp [nsq, dotProduct, Fin.sum_univ_three]; ring
      rw [e, e, Matrix.dotProduct_mulVec, Matrix.vecMul_mulVec, hX.1, Matrix.vecMul_one]
    rw [this]; simp

theorem pow_growth {k : ℝ} (hk : 0 ≤ k) (n : ℕ) (h : n * k ≤ 1 / 2) : (1 + k) ^ n ≤ 1 + 2 * (n * k) := by
  induction n with
  | zero => simp
  | succ n ih =>
    push_cast at h ⊢
    have h1 : n * k ≤ 1 / 2 := by linarith
    rw [pow_succ]
    calc (1 + k) ^ n * (1 + k) ≤ (1 + 2 * (n * k)) * (1 + k) := mul_le_mul_of_nonneg_right (ih h1) (by linarith)
      _ ≤ _ := by nlinarith

/-- **C130** (a day): during the first million million steps -- 150 years of a 200 Hz IMU -- the error grows by less than
`3e-13` per step; after ten million steps, half a day, it is below `3e-6`. -/
theorem C130_per_step (F : Fpu) (hF : F.Accurate) {X : M3} (hX : IsRot X) (ops : List RotOp) (hr : ∀ op ∈ ops, RotOp.InRange F op)
    (hn : ops.length ≤ 10 ^ 12) (i j : Fin 3) :
    |((ops.foldl (RotOp.run F) X)ᵀ * ops.foldl (RotOp.run F) X - 1) i j| ≤ ops.length * (3 / 10 ^ 13) := by
  refine (C130_orthogonal F hF hX ops hr i j).trans ?_
  have hn' : (ops.length : ℝ) ≤ 10 ^ 12 := by exact_mod_cast hn
  have h0 : (0 : ℝ) ≤ ops.length := by positivity
  have h := pow_growth (k := 1 / 2 ^ 43) (by norm_num) ops.length (by
    calc (ops.length : ℝ) * (1 / 2 ^ 43) ≤ 10 ^ 12 * (1 / 2 ^ 43) := mul_le_mul_of_nonneg_right hn' (by norm_num)
      _ ≤ _ := by norm_num)
  have h2 : (ops.length : ℝ) * (1 / 2 ^ 43) ≤ ops.length * (3 / 2 / 10 ^ 13) := mul_le_mul_of_nonneg_left (by norm_num) h0
  rw [show (3 : ℝ) / 10 ^ 13 = 2 * (3 / 2 / 10 ^ 13) by norm_num]
  linarith

/-- a machine: rounding to nearest, correctly rounded sine and cosine -/
noncomputable def exFpu : Fpu := { Round.some with
  mulRight := true, normRight := false, sin := fun x => Round.some.rn (Real.sin x), cos := fun x => Round.some.rn (Real.cos x) }

/-- correctly rounded functions are accurate -/
theorem accurate_of_rounded (F : Fpu) (hs : ∀ x, F.sin x = F.rn (Real.sin x)) (hc : ∀ x, F.cos x = F.rn (Real.cos x)) : F.Accurate := by
  have key : ∀ y : ℝ, |y| ≤ 1 → |F.rn y - y| ≤ 1 / 2 ^ 52 := by
    intro y hy
    refine (rnb F.toRound (tiny_le.trans (by norm_num)) hy).trans ?_
    unfold uu; norm_num
  exact fun x => ⟨by rw [hs]; exact key _ (Real.abs_sin_le_one x), by rw [hc]; exact key _ (Real.abs_cos_le_one x)⟩

/-- an hour of turning, with a correction after every reading -/
example : ∃ ops : List RotOp, ops.length = 2 * 720000 ∧ (∀ op ∈ ops, RotOp.InRange exFpu op) ∧ exFpu.Accurate ∧
    ∀ i j, |((ops.foldl (RotOp.run exFpu) 1)ᵀ * ops.foldl (RotOp.run exFpu) 1 - 1) i j| ≤ 1 / 10 ^ 6 := by
  have hA : exFpu.Accurate := accurate_of_rounded exFpu (fun _ => rfl) (fun _ => rfl)
  have hr : ∀ op ∈ List.replicate 720000 (RotOp.imu ![0, 0, 1] (1 / 128)) ++ List.replicate 720000 (RotOp.right ![1 / 1024, 0, 0]),
      RotOp.InRange exFpu op := by
    intro op hop
    rw [List.mem_append, List.mem_replicate, List.mem_replicate] at hop
    rcases hop with ⟨-, rfl⟩ | ⟨-, rfl⟩
    · intro i
      refine (rnb' exFpu.toRound (M := 1) (tiny_le.trans (by norm_num)) ?_).trans (by norm_num)
      fin_cases i <;> norm_num [abs_le]
    · intro i; fin_cases i <;> norm_num [abs_le]
  refine ⟨_, ?_, hr, hA, fun i j => ?_⟩
  · rw [List.length_append, List.length_replicate, List.length_replicate]
  · refine (C130_per_step exFpu hA ⟨by simp, by simp, by simp⟩ _ hr ?_ i j).trans ?_
    · rw [List.length_append, List.length_replicate, List.length_replicate]; norm_num
    · rw [List.length_append, List.length_replicate, List.length_replicate]; norm_num

/-- **C131** (in exact arithmetic): the block of the state transition matrix that couples the position error with the gyroscope
bias error over one IMU interval is of the order of the specific force times the third power of the interval. -/
theorem C131_exact_partial (w a : V3) {A : ℝ} (ha : ∀ k, |a k| ≤ A) {dt : ℝ} (hd : 0 ≤ dt) (i j : Fin 3) :
    |ImuProp.phi35 w a dt ((gamma_SO3 (dt • w) 0).getD 0)ᵀ ((gamma_SO3 (-(dt • w)) 3).getD 0) i j| ≤ 3 * (A * dt ^ 3) := by
  rw [gamma_SO3_zero, Option.getD_some]
  exact phi35_small w a ha hd i j

/-- **C131** (false in binary64 arithmetic): on every machine that rounds to nearest, with correctly rounded sine and cosine, a
robot at rest but for a rotation of 6e-6 rad/s -- above the threshold 1e-6 of the code -- gets, at 128 Hz, a block
that is more than 600000 times larger. -/
theorem C131_false (F : Fpu) (hs : ∀ x, F.sin x = F.rn (Real.sin x)) (hc : ∀ x, F.cos x = F.rn (Real.cos x)) (pow4 : ℝ → ℝ) :
    ∃ w a : V3, ∃ dt : ℝ, (∀ k, |w k| ≤ 7 / 10 ^ 6) ∧ ¬ F64.norm3 F w < F.rn (1e-6) ∧ (∀ k, |a k| ≤ 39 / 4) ∧ dt = 1 / 128 ∧
      600000 * (3 * (39 / 4 * dt ^ 3)) < |F64.phi35 F pow4 w a dt 0 0| := by
  refine ⟨Wit.w0, Wit.a0, 1 / 128, ?_, ?_, ?_, rfl, ?_⟩
  · intro k; fin_cases k <;> norm_num [Wit.w0, abs_le]
  · rw [Wit.norm_w, not_lt]
    have := rn_mono F.toRound (show (1e-6 : ℝ) ≤ 51 / 8388608 by norm_num)
    rwa [rn_of_F F.toRound (x := 51 / 8388608) ⟨51, -23, by norm_num, by norm_num, by norm_num⟩] at this
  · intro k; fin_cases k <;> norm_num [Wit.a0, abs_le]
  · rw [Wit.phi35_value F hs hc]
    norm_num [Wit.bk]

example : ∀ x, exFpu.sin x = exFpu.rn (Real.sin x) := fun _ => rfl
example : ∀ x, exFpu.cos x = exFpu.rn (Real.cos x) := fun _ => rfl
end Drift
