import Verif.Lemmas.ErrFlow
import Verif.Spec.ErrorFlow

/-! Helper lemmas: closed form of the solutions of the linear error equations. -/
set_option linter.unusedSimpArgs false
set_option linter.unnecessarySeqFocus false
namespace Drift
open Mat Matrix Finset RobotState ImuProp

theorem E0_isRot (w : V3) (t : ℝ) : IsRot (E0 w t) := by
  by_cases h : norm3 w = 0
  · have hs := skew_of_norm_zero h
    have : E0 w t = 1 := by simp [E0, hs]
    rw [this]; exact IsRot.one
  · unfold E0
    refine isRot_of_coeffs w _ _ ?_
    rw [← norm3_sq]
    have := Real.sin_sq_add_cos_sq (norm3 w * t)
    field_simp
    linear_combination this

theorem VDeriv.add {x y : ℝ → V3} {x' y' : V3} {t : ℝ} (h : VDeriv x x' t) (h' : VDeriv y y' t) :
    VDeriv (fun τ => x τ + y τ) (x' + y') t := fun i => (h i).add (h' i)
theorem VDeriv.sub {x y : ℝ → V3} {x' y' : V3} {t : ℝ} (h : VDeriv x x' t) (h' : VDeriv y y' t) :
    VDeriv (fun τ => x τ - y τ) (x' - y') t := fun i => (h i).sub (h' i)
theorem VDeriv.const (c : V3) (t : ℝ) : VDeriv (fun _ => c) 0 t := fun _ => hasDerivAt_const _ _
theorem VDeriv.lin (c : V3) (t : ℝ) : VDeriv (fun τ : ℝ => τ • c) c t := fun i => by
  simpa using (hasDerivAt_id t).mul_const (c i)
theorem VDeriv.sq (c : V3) (t : ℝ) : VDeriv (fun τ : ℝ => (τ ^ 2 / 2) • c) (t • c) t := fun i => by
  have h := ((hx2 t).div_const 2).mul_const (c i)
  refine h.congr_deriv ?_
  simp only [Pi.smul_apply, smul_eq_mul]; ring
theorem VDeriv.congr {x : ℝ → V3} {x' y' : V3} {t : ℝ} (h : VDeriv x x' t) (e : x' = y') : VDeriv x y' t := e ▸ h
theorem VDeriv.mulVec {R : ℝ → M3} {R' : M3} {x : ℝ → V3} {x' : V3} {t : ℝ} (h : MDeriv R R' t) (h' : VDeriv x x' t) :
    VDeriv (fun τ => (R τ).mulVec (x τ)) (R'.mulVec (x t) + (R t).mulVec x') t := by
  intro i
  simp only [Matrix.mulVec, dotProduct, Pi.add_apply, ← Finset.sum_add_distrib]
  exact HasDerivAt.fun_sum fun k _ => (h i k).mul (h' k)
theorem VDeriv.cmul {x : ℝ → V3} {x' : V3} {t : ℝ} (A : M3) (h' : VDeriv x x' t) :
    VDeriv (fun τ => A.mulVec (x τ)) (A.mulVec x') t := by
  refine (VDeriv.mulVec (MDeriv.const A t) h').congr ?_
  simp
theorem VDeriv.skew {x : ℝ → V3} {x' : V3} {t : ℝ} (h : VDeriv x x' t) : MDeriv (fun τ => skew (x τ)) (Drift.skew x') t := by
  intro i j
  fin_cases i <;> fin_cases j <;> simp [Drift.skew] <;>
    first | exact hasDerivAt_const _ _ | exact h _ | exact (h _).neg

theorem VDeriv.eq_of {F G : ℝ → V3} {F' : ℝ → V3} (hF : ∀ t, VDeriv F (F' t) t) (hG : ∀ t, VDeriv G (F' t) t)
    (h0 : F 0 = G 0) (t : ℝ) : F t = G t := by
  ext i
  exact eq_of_deriv_eq (f := fun t => F t i) (g := fun t => G t i) (f' := fun t => F' t i)
    (fun t => hF t i) (fun t => hG t i) (congrFun h0 i) t

/-! ### left -/

section left
variable (w a bg ba x0 v0 p0 : V3)

noncomputable def yR (t : ℝ) : V3 := x0 - (E1 w t).mulVec bg
noncomputable def yV (t : ℝ) : V3 :=
  v0 - (skew ((E1 w t).mulVec a)).mulVec x0 + (I25 w a t).mulVec bg - (E1 w t).mulVec ba
noncomputable def yP (t : ℝ) : V3 :=
  p0 + t • v0 - (skew ((E2 w t).mulVec a)).mulVec x0 + (I35 w a t).mulVec bg - (E2 w t).mulVec ba

theorem yR_deriv (t : ℝ) : VDeriv (yR w bg x0) (-(E0 w t).mulVec bg) t :=
  ((VDeriv.const x0 t).sub ((E1_deriv w t).mulVec bg)).congr (by simp)

theorem I25_mulVec_deriv (h : norm3 w ≠ 0 ∨ bg = 0) (t : ℝ) :
    VDeriv (fun τ => (I25 w a τ).mulVec bg) ((E0 w t * skew a * (E1 w t)ᵀ).mulVec bg) t := by
  rcases h with h | rfl
  · exact (I25_deriv h a t).mulVec bg
  · simpa using VDeriv.const 0 t
theorem I35_mulVec_deriv (h : norm3 w ≠ 0 ∨ bg = 0) (t : ℝ) :
    VDeriv (fun τ => (I35 w a τ).mulVec bg) ((I25 w a t).mulVec bg) t := by
  rcases h with h | rfl
  · exact (I35_deriv h a t).mulVec bg
  · simpa using VDeriv.const 0 t

theorem yV_deriv (h : norm3 w ≠ 0 ∨ bg = 0) (t : ℝ) :
    VDeriv (yV w a bg ba x0 v0)
      ((E0 w t).mulVec (-(skew a).mulVec ((E0 w t)ᵀ.mulVec (yR w bg x0 t)) - ba)) t := by
  have h1 := (((VDeriv.const v0 t).sub ((((E1_deriv w t).mulVec a).skew).mulVec x0)).add
    (I25_mulVec_deriv w a bg h t)).sub ((E1_deriv w t).mulVec ba)
  refine VDeriv.congr h1 ?_
  unfold yR
  rw [skew_rot (E0_isRot w t), ← E0T_E1]
  simp only [Matrix.mulVec_sub, Matrix.mulVec_neg, Matrix.mulVec_mulVec, Matrix.mul_assoc]
  abel

theorem yP_deriv (h : norm3 w ≠ 0 ∨ bg = 0) (t : ℝ) :
    VDeriv (yP w a bg ba x0 v0 p0) (yV w a bg ba x0 v0 t) t := by
  have h1 := ((((VDeriv.const p0 t).add (VDeriv.lin v0 t)).sub ((((E2_deriv w t).mulVec a).skew).mulVec x0)).add
    (I35_mulVec_deriv w a bg h t)).sub ((E2_deriv w t).mulVec ba)
  refine VDeriv.congr h1 ?_
  unfold yV
  simp only [zero_add]

/-- transport of a solution of `ξ' = -w × ξ + u` -/
theorem E0_transport {ξ : ℝ → V3} {u : V3} {t : ℝ} (h : VDeriv ξ (-crossProduct w (ξ t) + u) t) :
    VDeriv (fun τ => (E0 w τ).mulVec (ξ τ)) ((E0 w t).mulVec u) t := by
  refine (VDeriv.mulVec (E0_deriv w t) h).congr ?_
  rw [← skew_mulVec, Matrix.mulVec_add, Matrix.mulVec_neg, Matrix.mulVec_mulVec]
  abel

theorem E0_back {y : ℝ → V3} {u : V3} {t : ℝ} (h : VDeriv y ((E0 w t).mulVec u) t) :
    VDeriv (fun τ => (E0 w τ)ᵀ.mulVec (y τ)) (-crossProduct w ((E0 w t)ᵀ.mulVec (y t)) + u) t := by
  refine (VDeriv.mulVec (E0_deriv w t).transpose h).congr ?_
  rw [← skew_mulVec, Matrix.transpose_mul, skew_transpose, Matrix.mulVec_mulVec, Matrix.mulVec_mulVec, E0_T_mul,
    Matrix.one_mulVec, Matrix.neg_mul, Matrix.neg_mulVec]

end left

theorem LeftErr.solution {w a bg ba : V3} {ξR ξv ξp : ℝ → V3} {ξd : ℕ → ℝ → V3} (hb : norm3 w ≠ 0 ∨ bg = 0)
    (h : LeftErr w a bg ba ξR ξv ξp ξd) (t : ℝ) :
    ξR t = (E0 w t)ᵀ.mulVec (yR w bg (ξR 0) t) ∧ ξv t = (E0 w t)ᵀ.mulVec (yV w a bg ba (ξR 0) (ξv 0) t) ∧
      ξp t = (E0 w t)ᵀ.mulVec (yP w a bg ba (ξR 0) (ξv 0) (ξp 0) t) ∧
      ∀ k, ξd k t = (E0 w t)ᵀ.mulVec (ξd k 0) := by
  have inv : ∀ {t} {x y : V3}, (E0 w t).mulVec x = y → x = (E0 w t)ᵀ.mulVec y := by
    intro t x y h
    rw [← h, Matrix.mulVec_mulVec, E0_T_mul, Matrix.one_mulVec]
  have e1 : ∀ t, ξR t = (E0 w t)ᵀ.mulVec (yR w bg (ξR 0) t) := by
    intro t
    refine inv (VDeriv.eq_of (F := fun t => (E0 w t).mulVec (ξR t)) (F' := fun t => -(E0 w t).mulVec bg) (fun t => ?_)
      (fun t => yR_deriv _ _ _ t) ?_ t)
    · refine (E0_transport w (u := -bg) (by simpa [sub_eq_add_neg] using h.rot t)).congr ?_
      rw [Matrix.mulVec_neg]
    · simp [yR]
  have e2 : ∀ t, ξv t = (E0 w t)ᵀ.mulVec (yV w a bg ba (ξR 0) (ξv 0) t) := by
    intro t
    refine inv (VDeriv.eq_of (F := fun t => (E0 w t).mulVec (ξv t)) (fun t => ?_) (fun t => yV_deriv w a bg ba (ξR 0) (ξv 0) hb t) ?_ t)
    · refine E0_transport w ?_
      rw [← e1 t, skew_mulVec]
      convert h.vel t using 1
      abel
    · simp [yV, skew_zero]
  refine ⟨e1 t, e2 t, ?_, fun k => ?_⟩
  · refine inv (VDeriv.eq_of (F := fun t => (E0 w t).mulVec (ξp t)) (fun t => ?_)
      (fun t => yP_deriv w a bg ba (ξR 0) (ξv 0) (ξp 0) hb t) ?_ t)
    · refine (E0_transport w (u := ξv t) (by convert h.pos t using 1; abel)).congr ?_
      conv_lhs => rw [e2 t]
      rw [Matrix.mulVec_mulVec, E0_mul_T, Matrix.one_mulVec]
    · simp [yP, skew_zero]
  · refine inv (VDeriv.eq_of (F := fun t => (E0 w t).mulVec (ξd k t)) (G := fun _ => ξd k 0) (F' := fun _ => 0) (fun t => ?_)
      (fun t => VDeriv.const _ t) ?_ t)
    · refine (E0_transport w (u := 0) (by simpa using h.other k t)).congr (by simp)
    · simp

theorem LeftErr.exists (w a bg ba x0 v0 p0 : V3) (d0 : ℕ → V3) (hb : norm3 w ≠ 0 ∨ bg = 0) :
    ∃ ξR ξv ξp ξd, LeftErr w a bg ba ξR ξv ξp ξd ∧ ξR 0 = x0 ∧ ξv 0 = v0 ∧ ξp 0 = p0 ∧ ∀ k, ξd k 0 = d0 k := by
  refine ⟨fun t => (E0 w t)ᵀ.mulVec (yR w bg x0 t), fun t => (E0 w t)ᵀ.mulVec (yV w a bg ba x0 v0 t),
    fun t => (E0 w t)ᵀ.mulVec (yP w a bg ba x0 v0 p0 t), fun k t => (E0 w t)ᵀ.mulVec (d0 k),
    ⟨fun t => ?_, fun t => ?_, fun t => ?_, fun k t => ?_⟩, by simp [yR], by simp [yV, skew_zero],
    by simp [yP, skew_zero], by simp⟩
  · refine (E0_back w (u := -bg) ?_).congr (by abel)
    rw [Matrix.mulVec_neg]; exact yR_deriv _ _ _ t
  · refine (E0_back w (yV_deriv w a bg ba x0 v0 hb t)).congr ?_
    rw [skew_mulVec]; abel
  · refine (E0_back w (u := (E0 w t)ᵀ.mulVec (yV w a bg ba x0 v0 t)) ?_).congr (by abel)
    rw [Matrix.mulVec_mulVec, E0_mul_T, Matrix.one_mulVec]
    exact yP_deriv w a bg ba x0 v0 p0 hb t
  · refine (E0_back w (u := 0) ?_).congr (by simp)
    simpa using VDeriv.const (d0 k) t

/-! ### right -/

section right
variable {w a g : V3} {R : ℝ → M3} {v q : ℝ → V3} (hS : Strapdown w a g R v q) (hR : IsRot (R 0))
variable (bg ba x0 v0 p0 : V3) (hb : norm3 w ≠ 0 ∨ bg = 0)

noncomputable def zR (w : V3) (R0 : M3) (bg x0 : V3) (t : ℝ) : V3 := x0 - (R0 * E1 w t).mulVec bg
noncomputable def zV (w a g : V3) (R0 : M3) (v : ℝ → V3) (bg ba x0 v0 : V3) (t : ℝ) : V3 :=
  v0 + t • (skew g).mulVec x0 - (skew (v t)).mulVec ((R0 * E1 w t).mulVec bg) + R0.mulVec ((I25 w a t).mulVec bg)
    - (R0 * E1 w t).mulVec ba
noncomputable def zP (w a g : V3) (R0 : M3) (q : ℝ → V3) (bg ba x0 v0 p0 : V3) (t : ℝ) : V3 :=
  p0 + t • v0 + (t ^ 2 / 2) • (skew g).mulVec x0 - (skew (q t)).mulVec ((R0 * E1 w t).mulVec bg)
    + R0.mulVec ((I35 w a t).mulVec bg) - (R0 * E2 w t).mulVec ba

include hS
theorem zR_deriv (t : ℝ) : VDeriv (zR w (R 0) bg x0) (-(R t).mulVec bg) t := by
  refine ((VDeriv.const x0 t).sub (((E1_deriv w t).const_mul (R 0)).mulVec bg)).congr ?_
  rw [(hS.unique t).1]; simp

include hR hb in
theorem zV_deriv (t : ℝ) : VDeriv (zV w a g (R 0) v bg ba x0 v0)
    (crossProduct g (zR w (R 0) bg x0 t) - crossProduct (v t) ((R t).mulVec bg) - (R t).mulVec ba) t := by
  have h1 := ((((VDeriv.const v0 t).add (VDeriv.lin ((skew g).mulVec x0) t)).sub
    (VDeriv.mulVec (hS.vel t).skew (((E1_deriv w t).const_mul (R 0)).mulVec bg))).add
    (VDeriv.cmul (R 0) (I25_mulVec_deriv w a bg hb t))).sub (((E1_deriv w t).const_mul (R 0)).mulVec ba)
  refine VDeriv.congr h1 ?_
  have hRt := (hS.unique t).1
  have hrot : IsRot (R 0 * E0 w t) := hR.mul (E0_isRot w t)
  unfold zR
  have key : (skew ((R t).mulVec a)).mulVec ((R 0 * E1 w t).mulVec bg)
      = (R 0).mulVec ((E0 w t * skew a * (E1 w t)ᵀ).mulVec bg) := by
    rw [hRt, skew_rot hrot, ← E0T_E1, Matrix.transpose_mul]
    simp only [Matrix.mulVec_mulVec]
    congr 1
    calc R 0 * E0 w t * skew a * ((E0 w t)ᵀ * (R 0)ᵀ) * (R 0 * E1 w t)
        = R 0 * E0 w t * skew a * (E0 w t)ᵀ * ((R 0)ᵀ * R 0) * E1 w t := by simp only [Matrix.mul_assoc]
      _ = _ := by rw [hR.1, Matrix.mul_one]; simp only [Matrix.mul_assoc]
  rw [skew_add, Matrix.add_mulVec, key, ← hRt]
  simp only [← skew_mulVec, Matrix.mulVec_sub]
  abel

include hb in
theorem zP_deriv (t : ℝ) : VDeriv (zP w a g (R 0) q bg ba x0 v0 p0)
    (zV w a g (R 0) v bg ba x0 v0 t - crossProduct (q t) ((R t).mulVec bg)) t := by
  have h1 := (((((VDeriv.const p0 t).add (VDeriv.lin v0 t)).add (VDeriv.sq ((skew g).mulVec x0) t)).sub
    (VDeriv.mulVec (hS.pos t).skew (((E1_deriv w t).const_mul (R 0)).mulVec bg))).add
    (VDeriv.cmul (R 0) (I35_mulVec_deriv w a bg hb t))).sub (((E2_deriv w t).const_mul (R 0)).mulVec ba)
  refine VDeriv.congr h1 ?_
  have hRt := (hS.unique t).1
  unfold zV
  rw [← hRt]
  simp only [← skew_mulVec]
  abel

end right

theorem RightErr.solution {w a g : V3} {R : ℝ → M3} {v q : ℝ → V3} (hS : Strapdown w a g R v q) (hR : IsRot (R 0))
    {bg ba : V3} (hb : norm3 w ≠ 0 ∨ bg = 0) {d : ℕ → V3} {ξR ξv ξp : ℝ → V3} {ξd : ℕ → ℝ → V3}
    (h : RightErr g bg ba R v q d ξR ξv ξp ξd) (t : ℝ) :
    ξR t = zR w (R 0) bg (ξR 0) t ∧ ξv t = zV w a g (R 0) v bg ba (ξR 0) (ξv 0) t ∧
      ξp t = zP w a g (R 0) q bg ba (ξR 0) (ξv 0) (ξp 0) t ∧
      ∀ k, ξd k t = ξd k 0 - (skew (d k)).mulVec ((R 0 * E1 w t).mulVec bg) := by
  have e1 : ∀ t, ξR t = zR w (R 0) bg (ξR 0) t := fun t =>
    VDeriv.eq_of h.rot (fun t => zR_deriv hS _ _ t) (by simp [zR]) t
  have e2 : ∀ t, ξv t = zV w a g (R 0) v bg ba (ξR 0) (ξv 0) t := fun t =>
    VDeriv.eq_of h.vel (fun t => by rw [e1 t]; exact zV_deriv hS hR bg ba (ξR 0) (ξv 0) hb t) (by simp [zV]) t
  refine ⟨e1 t, e2 t, ?_, fun k => ?_⟩
  · exact VDeriv.eq_of h.pos (fun t => by rw [e2 t]; exact zP_deriv hS bg ba (ξR 0) (ξv 0) (ξp 0) hb t) (by simp [zP]) t
  · refine VDeriv.eq_of (G := fun t => ξd k 0 - (skew (d k)).mulVec ((R 0 * E1 w t).mulVec bg)) (h.other k)
      (fun t => ?_) (by simp) t
    refine ((VDeriv.const _ t).sub (VDeriv.cmul (skew (d k)) (((E1_deriv w t).const_mul (R 0)).mulVec bg))).congr ?_
    rw [← (hS.unique t).1, skew_mulVec, zero_sub]

theorem RightErr.exists {w a g : V3} {R : ℝ → M3} {v q : ℝ → V3} (hS : Strapdown w a g R v q) (hR : IsRot (R 0))
    (d : ℕ → V3) (bg ba x0 v0 p0 : V3) (d0 : ℕ → V3) (hb : norm3 w ≠ 0 ∨ bg = 0) :
    ∃ ξR ξv ξp ξd, RightErr g bg ba R v q d ξR ξv ξp ξd ∧ ξR 0 = x0 ∧ ξv 0 = v0 ∧ ξp 0 = p0 ∧ ∀ k, ξd k 0 = d0 k := by
  refine ⟨zR w (R 0) bg x0, zV w a g (R 0) v bg ba x0 v0, zP w a g (R 0) q bg ba x0 v0 p0,
    fun k t => d0 k - (skew (d k)).mulVec ((R 0 * E1 w t).mulVec bg),
    ⟨fun t => zR_deriv hS _ _ t, fun t => zV_deriv hS hR bg ba x0 v0 hb t, fun t => zP_deriv hS bg ba x0 v0 p0 hb t,
      fun k t => ?_⟩, by simp [zR], by simp [zV], by simp [zP], by simp⟩
  refine ((VDeriv.const _ t).sub (VDeriv.cmul (skew (d k)) (((E1_deriv w t).const_mul (R 0)).mulVec bg))).congr ?_
  rw [← (hS.unique t).1, skew_mulVec, zero_sub]

end Drift
