import Verif.Lemmas.Mekf2
import Verif.Lemmas.ErrFlow2
import Verif.Lemmas.DiffDrive
import Mathlib.Analysis.Real.Pi.Bounds

/-! Helper lemmas for the multiplicative EKF: Jacobians and validity. -/
namespace Drift
open Matrix NormedSpace
namespace Mekf

theorem cols_mulVec (B : Fin 3 → M3) (δ : V9) : cols B *ᵥ δ = B 0 *ᵥ seg δ 0 + B 1 *ᵥ seg δ 1 + B 2 *ᵥ seg δ 2 := by
  ext i
  simp [cols, seg, Matrix.mulVec, dotProduct, Fintype.sum_prod_type, Fin.sum_univ_three]

theorem blocks_mulVec (B : Fin 3 → Fin 3 → M3) (δ : V9) (a : Fin 3) :
    seg (blocks B *ᵥ δ) a = B a 0 *ᵥ seg δ 0 + B a 1 *ᵥ seg δ 1 + B a 2 *ᵥ seg δ 2 := by
  ext i
  simp [blocks, seg, Matrix.mulVec, dotProduct, Fintype.sum_prod_type, Fin.sum_univ_three]

theorem cols_blocks (C : Fin 3 → M3) (B : Fin 3 → Fin 3 → M3) :
    cols C * blocks B = cols fun b => C 0 * B 0 b + C 1 * B 1 b + C 2 * B 2 b := by
  ext i b
  simp [blocks, cols, Matrix.mul_apply, Fintype.sum_prod_type, Fin.sum_univ_three]

theorem mul_cols (A : M3) (C : Fin 3 → M3) : A * cols C = cols fun b => A * C b := by
  ext i b
  simp [cols, Matrix.mul_apply, Fin.sum_univ_three]

theorem seg_ext {x y : V9} (h : ∀ a, seg x a = seg y a) : x = y := by
  ext ⟨a, i⟩
  exact congrFun (h a) i

theorem seg_add (x y : V9) (a : Fin 3) : seg (x + y) a = seg x a + seg y a := rfl
theorem seg_smul (c : ℝ) (x : V9) (a : Fin 3) : seg (c • x) a = c • seg x a := rfl

theorem turned_smul (R : M3) (τ : ℝ) (θ : V3) : turned R (τ • θ) = R * exp (τ • skew θ) := by
  rw [turned, skew_smul]

theorem turned_zero (R : M3) : turned R 0 = R := by
  rw [turned, skew_zero, NormedSpace.exp_zero, Matrix.mul_one]

theorem turned_deriv (R : M3) (θ : V3) : MDeriv (fun τ : ℝ => turned R (τ • θ)) (R * skew θ) 0 := by
  have := (exp_deriv (skew θ)).const_mul R
  simpa only [← turned_smul] using this

theorem obs_jac (R : M3) (v : V3) : IsObsJac (obs R v) R v := by
  intro δ
  have h1 := (turned_deriv R (seg δ 2)).transpose
  have h2 : VDeriv (fun τ : ℝ => v + τ • seg δ 1) (0 + seg δ 1) 0 := (VDeriv.const v 0).add (VDeriv.lin (seg δ 1) 0)
  refine (VDeriv.mulVec h1 h2).congr ?_
  rw [obs, cols_mulVec]
  simp only [zero_smul, add_zero, zero_add, turned_zero, Matrix.cons_val_zero, Matrix.cons_val_one, Matrix.cons_val,
    Matrix.zero_mulVec]
  rw [transpose_mul, Mekf.skew_transpose, ← Matrix.mulVec_mulVec, Matrix.neg_mulVec, skew_mulVec_swap (Rᵀ *ᵥ v), add_comm]

/-- the orientation rows of the transition matrix -/
theorem transition_rot (Rp : M3) (a w : V3) (dt : ℝ) (δ : V9) :
    seg (transition Rp a w dt *ᵥ δ) 2 = (exp (skew (dt • w)))ᵀ *ᵥ seg δ 2 := by
  have h : cols ![0, 0, 1] * (dt • blocks fun i j =>
      ![![0, 1, 0], ![0, 0, -Rp * skew a], ![0, 0, -skew w]] i j) = (-skew (dt • w)) * cols ![0, 0, 1] := by
    rw [Matrix.mul_smul, cols_blocks, mul_cols, skew_smul]
    ext i ⟨b, j⟩
    fin_cases b <;> simp [cols]
  have h2 := exp_intertwine h
  have h3 := congrArg (fun M => M *ᵥ δ) h2
  simp only [← Matrix.mulVec_mulVec, cols_mulVec] at h3
  simpa [exp_skew_transpose, transition] using h3

/-- an orientation error travels with the body -/
theorem turned_next (R : M3) (w θ : V3) (dt : ℝ) :
    nextR (turned R θ) w dt = turned (nextR R w dt) ((exp (skew (dt • w)))ᵀ *ᵥ θ) := by
  set Q := exp (skew (dt • w)) with hQ
  have hr : IsRot Q := exp_skew_isRot _
  have hs : Q * skew (Qᵀ *ᵥ θ) = skew θ * Q := by
    rw [rot_skew hr, Matrix.mulVec_mulVec, hr.2.1, Matrix.one_mulVec]
  have := exp_intertwine hs
  simp only [nextR, turned, ← hQ]
  rw [Matrix.mul_assoc, Matrix.mul_assoc, this]

theorem transition_zero (Rp : M3) (a : V3) (dt : ℝ) (δ : V9) :
    seg (transition Rp a 0 dt *ᵥ δ) 0 = seg δ 0 + dt • seg δ 1 - (dt ^ 2 / 2) • (Rp *ᵥ skew a *ᵥ seg δ 2) ∧
      seg (transition Rp a 0 dt *ᵥ δ) 1 = seg δ 1 - dt • (Rp *ᵥ skew a *ᵥ seg δ 2) := by
  set N : M99 := dt • blocks fun i j => ![![0, 1, 0], ![0, 0, -Rp * skew a], ![0, 0, -skew 0]] i j with hN
  have n0 : ∀ x, seg (N *ᵥ x) 0 = dt • seg x 1 := fun x => by
    rw [hN, Matrix.smul_mulVec, seg_smul, blocks_mulVec]; simp
  have n1 : ∀ x, seg (N *ᵥ x) 1 = -(dt • (Rp *ᵥ skew a *ᵥ seg x 2)) := fun x => by
    rw [hN, Matrix.smul_mulVec, seg_smul, blocks_mulVec]; simp [Matrix.neg_mulVec]
  have n2 : ∀ x, seg (N *ᵥ x) 2 = 0 := fun x => by
    rw [hN, Matrix.smul_mulVec, seg_smul, blocks_mulVec]; simp [skew_zero]
  have n3 : N ^ 3 = 0 := by
    have h : ∀ x, N ^ 3 *ᵥ x = 0 := fun x => by
      rw [pow_succ, pow_succ, pow_one, ← Matrix.mulVec_mulVec, ← Matrix.mulVec_mulVec]
      refine seg_ext fun b => ?_
      fin_cases b
      · show seg _ 0 = _; rw [n0, n1, n2]; simp; rfl
      · show seg _ 1 = _; rw [n1, n2]; simp; rfl
      · show seg _ 2 = _; rw [n2]; rfl
    ext i j
    have := congrFun (h (Pi.single j 1)) i
    simpa using this
  have hs : exp N = 1 + N + (2 : ℝ)⁻¹ • (N * N) := by
    have h1 : HasSum (fun k : ℕ => ((k.factorial : ℝ)⁻¹) • N ^ k) (∑ k ∈ Finset.range 3, ((k.factorial : ℝ)⁻¹) • N ^ k) :=
      hasSum_sum_of_ne_finset_zero fun k hk => by
        obtain ⟨m, rfl⟩ := Nat.exists_eq_add_of_le (not_lt.mp (Finset.mem_range.not.mp hk))
        rw [pow_add, n3, zero_mul, smul_zero]
    rw [(exp_hasSum N).unique h1]
    simp [Finset.sum_range_succ, Nat.factorial, pow_two]
  have e : transition Rp a 0 dt *ᵥ δ = δ + N *ᵥ δ + (2 : ℝ)⁻¹ • (N *ᵥ N *ᵥ δ) := by
    rw [transition, ← hN]
    clear_value N
    rw [hs, Matrix.add_mulVec, Matrix.add_mulVec, Matrix.one_mulVec, Matrix.smul_mulVec, Matrix.mulVec_mulVec]
  rw [e]
  simp only [seg_add, seg_smul, n0, n1, n2, Matrix.mulVec_zero, smul_zero, neg_zero, add_zero]
  refine ⟨?_, ?_⟩
  · rw [smul_neg, smul_neg, smul_smul, smul_smul, sub_eq_add_neg]
    congr 3
    ring
  · rw [sub_eq_add_neg]

/-- without rotation the transition matrix is the derivative of the step -/
theorem step_jac {R : M3} (p v a : V3) (dt : ℝ) : IsStepJac (transition (nextR R 0 dt) a 0 dt) R p v a 0 dt where
  pos δ := by
    have h1 := (turned_deriv R (seg δ 2)).mulVec a
    have hR : nextR R 0 dt = R := by rw [nextR, smul_zero, turned_zero]
    intro i
    have hp : HasDerivAt (fun τ : ℝ => (p + τ • seg δ 0 + dt • (v + τ • seg δ 1)) i) (seg δ 0 i + dt * seg δ 1 i) 0 := by
      have e1 : HasDerivAt (fun τ : ℝ => τ * seg δ 0 i) (seg δ 0 i) 0 := by simpa using (hasDerivAt_id (0:ℝ)).mul_const _
      have e2 : HasDerivAt (fun τ : ℝ => τ * seg δ 1 i) (seg δ 1 i) 0 := by simpa using (hasDerivAt_id (0:ℝ)).mul_const _
      exact (e1.const_add _).add ((e2.const_add _).const_mul dt)
    have hq := ((h1 i).sub_const ((![0, 0, 9.81] : V3) i)).const_mul (dt ^ 2 / 2)
    refine (hp.add hq).congr_deriv ?_
    rw [(transition_zero _ a dt δ).1, hR, ← Matrix.mulVec_mulVec, skew_mulVec_swap _ a, Matrix.mulVec_neg]
    simp only [Pi.add_apply, Pi.sub_apply, Pi.smul_apply, Pi.neg_apply, smul_eq_mul]
    ring
  vel δ := by
    have h1 := (turned_deriv R (seg δ 2)).mulVec a
    have hR : nextR R 0 dt = R := by rw [nextR, smul_zero, turned_zero]
    intro i
    have e2 : HasDerivAt (fun τ : ℝ => (v + τ • seg δ 1) i) (seg δ 1 i) 0 := by
      have e2 : HasDerivAt (fun τ : ℝ => τ * seg δ 1 i) (seg δ 1 i) 0 := by simpa using (hasDerivAt_id (0:ℝ)).mul_const _
      exact e2.const_add _
    have hq := ((h1 i).sub_const ((![0, 0, 9.81] : V3) i)).const_mul dt
    refine (e2.add hq).congr_deriv ?_
    rw [(transition_zero _ a dt δ).2, hR, ← Matrix.mulVec_mulVec, skew_mulVec_swap _ a, Matrix.mulVec_neg]
    simp only [Pi.sub_apply, Pi.smul_apply, Pi.neg_apply, smul_eq_mul]
    ring
  rot δ τ := by
    rw [turned_next, transition_rot, Matrix.mulVec_smul]

/-- specific force along the axis of a full turn: the velocity rows of the transition matrix do not see the orientation
error -/
theorem transition_full_turn (Rp : M3) (w : V3) (h : exp (skew w) = 1) (δ : V9) :
    seg (transition Rp w w 1 *ᵥ δ) 1 = seg δ 1 := by
  have hi : cols ![0, 1, -Rp] * ((1 : ℝ) • blocks fun i j =>
      ![![0, 1, 0], ![0, 0, -Rp * skew w], ![0, 0, -skew w]] i j) = (0 : M3) * cols ![0, 1, -Rp] := by
    rw [one_smul, cols_blocks, mul_cols]
    ext i ⟨b, j⟩
    fin_cases b <;> simp [cols]
  have h2 := congrArg (fun M => M *ᵥ δ) (exp_intertwine hi)
  simp only [← Matrix.mulVec_mulVec, cols_mulVec, NormedSpace.exp_zero, Matrix.one_mulVec] at h2
  have h3 := transition_rot Rp w w 1 δ
  rw [one_smul, h, transpose_one, Matrix.one_mulVec] at h3
  simp only [Matrix.cons_val_zero, Matrix.cons_val_one, Matrix.cons_val, Matrix.zero_mulVec, Matrix.one_mulVec,
    zero_add] at h2
  rw [show exp ((1 : ℝ) • blocks fun i j => ![![0, 1, 0], ![0, 0, -Rp * skew w], ![0, 0, -skew w]] i j)
    = transition Rp w w 1 from rfl, h3] at h2
  exact add_right_cancel h2

theorem exp_full_turn : exp (skew ![0, 0, 2 * Real.pi]) = 1 := by
  have hp := Real.pi_gt_three
  have hn : norm3 ![0, 0, 2 * Real.pi] = 2 * Real.pi := by
    unfold norm3; simp
    rw [show (2 * Real.pi) ^ 2 = (2 * Real.pi) ^ 2 from rfl, Real.sqrt_sq (by linarith)]
  have hx : Exact ![0, 0, 2 * Real.pi] := Or.inl (by
    rw [hn]; unfold TOLERANCE; intro h; norm_num at h; linarith)
  have h1 := Gam0_series hx
  have h2 := exp_hasSum (skew ![0, 0, 2 * Real.pi])
  have e : exp (skew ![0, 0, 2 * Real.pi]) = Gam0 ![0, 0, 2 * Real.pi] := by
    refine h2.unique ?_
    convert h1 using 2 with k
    rw [one_div]
  rw [e, Gam0_vertical]
  have ha : ¬ |2 * Real.pi| < 1e-10 := by
    rw [abs_of_pos (by linarith)]; intro h; norm_num at h; linarith
  rw [turnOf, if_neg ha]
  ext i j
  fin_cases i <;> fin_cases j <;> simp [Rz]

theorem noise_eq (a g dt : ℝ) : noise a g dt = stepNoise a g dt := by
  ext ⟨b, i⟩ ⟨c, j⟩
  rw [stepNoise, Matrix.diagonal_apply]
  by_cases h : b = c
  · subst h
    by_cases hij : i = j
    · subst hij
      fin_cases b <;> simp [noise, blocks] <;> norm_num
    · simp [noise, blocks, hij]
  · simp [noise, blocks, h]

theorem stepNoise_psd {a g : ℝ} (ha : 0 ≤ a) (hg : 0 ≤ g) (dt : ℝ) : (stepNoise a g dt).PosSemidef := by
  refine Matrix.PosSemidef.diagonal fun b => ?_
  obtain ⟨b, i⟩ := b
  fin_cases b <;> simp <;> positivity

end Mekf
end Drift
