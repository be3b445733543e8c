import Verif.Props.Rounded
import Verif.Props.LieGroup
import Verif.Lemmas.RoundAcc
import Verif.Spec.Rotation

/-!
# C132: how far the computed orientation is from the true product of rotations
-/
namespace Drift
open Matrix F64

theorem Gam0_exp {φ : V3} (h : φ = 0 ∨ (2 / 10 ^ 10 : ℝ) ^ 2 ≤ nsq φ) : Gam0 φ = NormedSpace.exp (skew φ) := by
  rcases h with rfl | h
  · rw [Gam0_zero', skew_zero, NormedSpace.exp_zero]
  · have hθ : (1e-10 : ℝ) ≤ norm3 φ := by
      by_contra hc; push Not at hc
      have := mul_lt_mul'' hc hc (norm3_nonneg φ) (norm3_nonneg φ)
      rw [norm3_mul_self] at this
      norm_num at this h
      linarith
    have := C02_exp_SO3_is_exp φ hθ
    rw [exp_SO3, gamma_SO3_zero] at this
    exact Option.some.inj this

/-- the entries of the computed orientation -/
theorem computed_entry (F : Fpu) (hF : F.Accurate) {X : M3} (hX : IsRot X) (ops : List RotOp) (hr : ∀ op ∈ ops, RotOp.InRange F op)
    (hn : ops.length ≤ 10 ^ 12) (i j : Fin 3) : |ops.foldl (RotOp.run F) X i j| ≤ 111 / 100 := by
  have hX0 : ∀ x, |nsq (X *ᵥ x) - nsq x| ≤ 0 * nsq x := fun x => by
    have : nsq (X *ᵥ x) = nsq x := by
      have e : ∀ y : V3, nsq y = y ⬝ᵥ y := fun y => by simp [nsq, dotProduct, Fin.sum_univ_three]; ring
      rw [e, e, Matrix.dotProduct_mulVec, Matrix.vecMul_mulVec, hX.1, Matrix.vecMul_one]
    rw [this]; simp
  have h : Keeps _ _ := C130_lengths F hF le_rfl hX0 ops hr
  refine h.entry (by norm_num) ?_ i j
  have hn' : (ops.length : ℝ) ≤ 10 ^ 12 := by exact_mod_cast hn
  have h1 : (ops.length : ℝ) * (1 / 2 ^ 43) ≤ 114 / 1000 := by
    calc (ops.length : ℝ) * (1 / 2 ^ 43) ≤ 10 ^ 12 * (1 / 2 ^ 43) := mul_le_mul_of_nonneg_right hn' (by norm_num)
      _ ≤ _ := by norm_num
  have h2 := pow_growth (k := 1 / 2 ^ 43) (by norm_num) ops.length (by linarith)
  linarith

theorem Turn.inRange (F : Fpu) {op : RotOp} (h : op.Turn) : RotOp.InRange F op := by
  cases op with
  | imu w dt => exact fun i => (rnb' F.toRound (tiny_le.trans (by norm_num)) (h.1 i)).trans (by norm_num)
  | right δ => exact fun i => (h.1 i).trans (by norm_num)
  | left δ => exact fun i => (h.1 i).trans (by norm_num)

theorem acc_step (F : Fpu) (hF : F.Accurate) {op : RotOp} (h : op.Turn) {Y X : M3} {e : ℝ} (he : 0 ≤ e) (hD : fsq (Y - X) ≤ e ^ 2)
    (hY : ∀ i j, |Y i j| ≤ 111 / 100) : fsq (op.run F Y - op.exact X) ≤ (e + 1 / 2 ^ 40) ^ 2 := by
  obtain ⟨h4, h0⟩ := h
  have h5 : op.vec = 0 ∨ (4 / 10 ^ 20 : ℝ) ≤ nsq op.vec := h0.imp id fun h => by norm_num at h ⊢; exact h
  have hG := Gam0_exp h0
  cases op with
  | imu w dt =>
    change fsq (mulM F Y (gamma0 F (smulV F.toRound dt w)) - X * NormedSpace.exp (skew (dt • w))) ≤ _
    change Gam0 (dt • w) = NormedSpace.exp (skew (dt • w)) at hG
    rw [← hG]
    exact mul_right_acc F he hD hY (gamma0_acc F hF (φ := dt • w) (fun _ => rfl) h4 h5) (Gam0_isRot _)
  | right δ =>
    change fsq (mulM F (expRot F δ) Y - NormedSpace.exp (skew δ) * X) ≤ _
    change Gam0 δ = NormedSpace.exp (skew δ) at hG
    rw [← hG]
    exact mul_left_acc F he hD hY (expRot_acc F hF h4 h5) (Gam0_isRot _)
  | left δ =>
    change fsq (mulM F Y (expRot F δ) - X * NormedSpace.exp (skew δ)) ≤ _
    change Gam0 δ = NormedSpace.exp (skew δ) at hG
    rw [← hG]
    exact mul_right_acc F he hD hY (expRot_acc F hF h4 h5) (Gam0_isRot _)

/-- **C132**: after any number `n` (up to a million million) of IMU readings and corrections, every entry of the computed
orientation is within `n · 2^-40`, that is `n · 1e-12`, of the exact product of the exact rotations. -/
theorem C132_orientation (F : Fpu) (hF : F.Accurate) {X : M3} (hX : IsRot X) (ops : List RotOp) (hr : ∀ op ∈ ops, op.Turn)
    (hn : ops.length ≤ 10 ^ 12) (i j : Fin 3) :
    |ops.foldl (RotOp.run F) X i j - ops.foldl RotOp.exact X i j| ≤ ops.length * (1 / 2 ^ 40) := by
  have key : fsq (ops.foldl (RotOp.run F) X - ops.foldl RotOp.exact X) ≤ (ops.length * (1 / 2 ^ 40)) ^ 2 := by
    induction ops using List.reverseRecOn with
    | nil => simp [fsq]
    | append_singleton ops op ih =>
      rw [List.length_append, List.length_singleton] at hn
      have hr' : ∀ op ∈ ops, op.Turn := fun o ho => hr o (List.mem_append_left _ ho)
      have h1 := ih hr' (by omega)
      have h2 := computed_entry F hF hX ops (fun o ho => Turn.inRange F (hr' o ho)) (by omega)
      rw [List.foldl_append, List.foldl_append, List.length_append]
      refine (acc_step F hF (hr op (by simp)) (by positivity) h1 h2).trans (le_of_eq ?_)
      push_cast [List.length_singleton]; ring
  refine abs_le_of_sq_le_sq (le_trans ?_ key) (by positivity)
  rw [← Matrix.sub_apply]
  exact fsq_entry _ i j

/-- an hour at 200 Hz, with a correction after every reading -/
example : ∃ ops : List RotOp, ops.length = 2 * 720000 ∧ (∀ op ∈ ops, op.Turn) ∧
    ∀ i j, |ops.foldl (RotOp.run exFpu) 1 i j - ops.foldl RotOp.exact 1 i j| ≤ 2 / 10 ^ 6 := by
  have hA : exFpu.Accurate := accurate_of_rounded exFpu (fun _ => rfl) (fun _ => rfl)
  have hr : ∀ op ∈ List.replicate 720000 (RotOp.imu ![0, 0, 1] (1 / 200)) ++ List.replicate 720000 (RotOp.right ![1 / 1024, 0, 0]),
      op.Turn := by
    intro op hop
    rw [List.mem_append, List.mem_replicate, List.mem_replicate] at hop
    rcases hop with ⟨-, rfl⟩ | ⟨-, rfl⟩
    · refine ⟨fun i => ?_, Or.inr ?_⟩
      · fin_cases i <;> norm_num [RotOp.vec, abs_le]
      · norm_num [RotOp.vec, Matrix.cons_val_two]
    · refine ⟨fun i => ?_, Or.inr ?_⟩
      · fin_cases i <;> norm_num [RotOp.vec, abs_le]
      · norm_num [RotOp.vec, Matrix.cons_val_two]
  refine ⟨_, ?_, hr, fun i j => ?_⟩
  · rw [List.length_append, List.length_replicate, List.length_replicate]
  · refine (C132_orientation exFpu hA ⟨by simp, by simp, by simp⟩ _ hr ?_ i j).trans ?_
    · rw [List.length_append, List.length_replicate, List.length_replicate]; norm_num
    · rw [List.length_append, List.length_replicate, List.length_replicate]; norm_num
end Drift
