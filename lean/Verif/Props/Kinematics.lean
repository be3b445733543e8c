import Verif.Lemmas.Kin4

/-!
# C85, C87, C91, C92, C93: the Mini Cheetah kinematics
-/
namespace Drift
open Matrix Real

/-! ### C91: forward kinematics -/

/-- **C91** For every joint vector and leg the generated position, orientation and pose are those of the leg's kinematic
chain (`Spec/Kinematics.lean`). -/
theorem C91_forward_kinematics (l : Leg) (q : Fin 12 → ℝ) :
    (∀ i, Cheetah.p l q i 0 = legPos l q i) ∧ Cheetah.R l q = legRot l q ∧
      ∀ i j, Cheetah.H l q i j =
        if hi : i.val < 3 then (if hj : j.val < 3 then legRot l q ⟨i, hi⟩ ⟨j, hj⟩ else legPos l q ⟨i, hi⟩)
        else (if j.val < 3 then 0 else 1) := by
  refine ⟨p_eq l q, R_eq l q, fun i j => ?_⟩
  rw [H_eq]
  fin_cases i <;> fin_cases j <;> rfl

/-- **C91** The orientation is a rotation matrix. -/
theorem C91_orientation_is_rotation (l : Leg) (q : Fin 12 → ℝ) :
    (Cheetah.R l q)ᵀ * Cheetah.R l q = 1 ∧ Cheetah.R l q * (Cheetah.R l q)ᵀ = 1 ∧ (Cheetah.R l q).det = 1 := by
  rw [R_eq, legRot_eq]
  refine ⟨(rotF_isRot _ _ _).1, (rotF_isRot _ _ _).2, ?_⟩
  have h1 := sin_sq_add_cos_sq (q (l.joint 1) + q (l.joint 2))
  have h2 := sin_sq_add_cos_sq (q (l.joint 0))
  rw [Matrix.det_fin_three]
  simp [rotF]
  linear_combination (sin (q (l.joint 0)) ^ 2 + cos (q (l.joint 0)) ^ 2) * h1 + h2

/-- **C91** The distance from the abduction joint to the foot depends on the knee angle only, and the foot is never out of the
leg's reach. -/
theorem C91_reach (l : Leg) (q : Fin 12 → ℝ) :
    (Cheetah.p l q 0 0 - legHip l 0) ^ 2 + (Cheetah.p l q 1 0 - legHip l 1) ^ 2 + (Cheetah.p l q 2 0 - legHip l 2) ^ 2
        = 0.062 ^ 2 + 0.209 ^ 2 + 0.2075 ^ 2 + 2 * 0.209 * 0.2075 * cos (q (l.joint 2)) ∧
      (Cheetah.p l q 0 0 - legHip l 0) ^ 2 + (Cheetah.p l q 1 0 - legHip l 1) ^ 2 + (Cheetah.p l q 2 0 - legHip l 2) ^ 2
        ≤ 0.062 ^ 2 + (0.209 + 0.2075) ^ 2 := by
  have key : (Cheetah.p l q 0 0 - legHip l 0) ^ 2 + (Cheetah.p l q 1 0 - legHip l 1) ^ 2 +
      (Cheetah.p l q 2 0 - legHip l 2) ^ 2
        = 0.062 ^ 2 + 0.209 ^ 2 + 0.2075 ^ 2 + 2 * 0.209 * 0.2075 * cos (q (l.joint 2)) := by
    rw [p_eq, p_eq, p_eq, legPos_eq]
    have hl : l.left ^ 2 = 1 := by cases l <;> simp [Leg.left]
    generalize q (l.joint 0) = a
    generalize q (l.joint 1) = b
    generalize q (l.joint 2) = c
    have h1 := sin_sq_add_cos_sq (b + c)
    have h2 := sin_sq_add_cos_sq a
    have h3 := sin_sq_add_cos_sq b
    have ec : cos c = cos (b + c) * cos b + sin (b + c) * sin b := by rw [← cos_sub]; ring_nf
    simp only [posF, legHip, ec]
    simp
    linear_combination (0.062 ^ 2 * (sin a ^ 2 + cos a ^ 2)) * hl + (0.062 ^ 2 +
      (0.209 * cos b + 0.2075 * cos (b + c)) ^ 2) * h2 + 0.209 ^ 2 * h3 + 0.2075 ^ 2 * h1
  refine ⟨key, ?_⟩
  rw [key]
  have := cos_le_one (q (l.joint 2))
  norm_num
  linarith

/-! ### C85: the Jacobian is the derivative -/

/-- **C85** At every joint vector, for every leg, the foot position is differentiable and its derivative is the generated
Jacobian. -/
theorem C85_jacobian_is_derivative (l : Leg) (q : Fin 12 → ℝ) :
    HasFDerivAt (fun q => fun i => Cheetah.p l q i 0)
      (LinearMap.toContinuousLinearMap (Matrix.mulVecLin (Cheetah.Jp l q))) q := by
  have hj : ∀ k, HasFDerivAt (fun q : Fin 12 → ℝ => q (l.joint k))
      (ContinuousLinearMap.proj (R := ℝ) (φ := fun _ : Fin 12 => ℝ) (l.joint k)) q := fun k =>
    (ContinuousLinearMap.proj (R := ℝ) (φ := fun _ : Fin 12 => ℝ) (l.joint k)).hasFDerivAt
  have ha := hj 0
  have hb := hj 1
  have hc := hj 2
  have hL := (hb.cos.const_mul (0.209 : ℝ)).add ((hb.add hc).cos.const_mul (0.2075 : ℝ))
  rw [hasFDerivAt_pi']
  intro i
  have e : (fun q => Cheetah.p l q i 0) =
      fun q => posF l.fore l.left (q (l.joint 0)) (q (l.joint 1)) (q (l.joint 2)) i := by
    funext q; rw [p_eq, legPos_eq]
  rw [e]
  have fin : ∀ v, (ContinuousLinearMap.proj (R := ℝ) (φ := fun _ : Fin 3 => ℝ) i).comp
      (LinearMap.toContinuousLinearMap (Matrix.mulVecLin (Cheetah.Jp l q))) v =
      jacF l.left (q (l.joint 0)) (q (l.joint 1)) (q (l.joint 2)) i 0 * v (l.joint 0) +
      jacF l.left (q (l.joint 0)) (q (l.joint 1)) (q (l.joint 2)) i 1 * v (l.joint 1) +
      jacF l.left (q (l.joint 0)) (q (l.joint 1)) (q (l.joint 2)) i 2 * v (l.joint 2) := by
    intro v
    rw [← (Jp_cols l q).mulVec v i]
    rfl
  fin_cases i
  · refine (((hasFDerivAt_const (0.19 * l.fore) q).add (hb.sin.const_mul (0.209 : ℝ))).add
      ((hb.add hc).sin.const_mul (0.2075 : ℝ))).congr_fderiv (ContinuousLinearMap.ext fun v => ?_)
    rw [fin v]
    simp [jacF]; ring
  · refine (((hasFDerivAt_const (0.049 * l.left) q).add (ha.cos.const_mul (0.062 * l.left))).add
      (ha.sin.mul hL)).congr_fderiv (ContinuousLinearMap.ext fun v => ?_)
    rw [fin v]
    simp [jacF]; ring
  · refine ((ha.sin.const_mul (0.062 * l.left)).sub (ha.cos.mul hL)).congr_fderiv
      (ContinuousLinearMap.ext fun v => ?_)
    rw [fin v]
    simp [jacF]; ring

/-- **C85** The foot of a leg depends on its own three joints only. -/
theorem C85_own_joints (l : Leg) (q q' : Fin 12 → ℝ) (h : ∀ k, q (l.joint k) = q' (l.joint k)) :
    Cheetah.p l q = Cheetah.p l q' ∧ ∀ i j, (∀ k, j ≠ l.joint k) → Cheetah.Jp l q i j = 0 := by
  constructor
  · funext i j
    obtain rfl : j = 0 := Subsingleton.elim _ _
    rw [p_eq, p_eq, legPos_eq, legPos_eq, h, h, h]
  · intro i j hj
    rw [Jp_cols l q i j, if_neg (hj 0), if_neg (hj 1), if_neg (hj 2)]

theorem hasDerivAt_foot (l : Leg) {q : ℝ → Fin 12 → ℝ} {q' : Fin 12 → ℝ} {t : ℝ} (h : HasDerivAt q q' t) (i : Fin 3) :
    HasDerivAt (fun s => Cheetah.p l (q s) i 0) ((Cheetah.Jp l (q t)).mulVec q' i) t := by
  rw [(Jp_cols l (q t)).mulVec q' i]
  rw [hasDerivAt_pi] at h
  have e : (fun s => Cheetah.p l (q s) i 0) =
      fun s => posF l.fore l.left (q s (l.joint 0)) (q s (l.joint 1)) (q s (l.joint 2)) i := by
    funext s; rw [p_eq, legPos_eq]
  rw [e]
  exact hasDerivAt_posF _ _ (h _) (h _) (h _) i

/-! ### C92: body and spatial Jacobians -/

/-- **C92** The 6-row Jacobians are the angular part above the linear part. -/
theorem C92_stacked (l : Leg) (q : Fin 12 → ℝ) (i : Fin 3) (j : Fin 12) :
    Cheetah.Jb l q (Fin.castAdd 3 i) j = Cheetah.Jwb l q i j ∧ Cheetah.Jb l q (Fin.natAdd 3 i) j = Cheetah.Jvb l q i j ∧
      Cheetah.Js l q (Fin.castAdd 3 i) j = Cheetah.Jws l q i j ∧
      Cheetah.Js l q (Fin.natAdd 3 i) j = Cheetah.Jvs l q i j :=
  ⟨(Jb_Jwb_cols l q i j).trans (Jwb_cols l q i j).symm, (Jb_Jvb_cols l q i j).trans (Jvb_cols l q i j).symm,
    (Js_Jws_cols l q i j).trans (Jws_cols l q i j).symm, (Js_Jvs_cols l q i j).trans (Jvs_cols l q i j).symm⟩

theorem hasDerivAt_legRot (l : Leg) {q : ℝ → Fin 12 → ℝ} {q' : Fin 12 → ℝ} {t : ℝ} (h : HasDerivAt q q' t) (i j : Fin 3) :
    HasDerivAt (fun s => legRot l (q s) i j) ((legRot l (q t) * skew ((Cheetah.Jwb l (q t)).mulVec q')) i j) t := by
  rw [hasDerivAt_pi] at h
  have e : (fun s => legRot l (q s) i j) =
      fun s => rotF (q s (l.joint 0)) (q s (l.joint 1)) (q s (l.joint 2)) i j := by
    funext s; rw [legRot_eq]
  rw [e, legRot_eq, show (Cheetah.Jwb l (q t)).mulVec q' = _ from funext ((Jwb_cols l (q t)).mulVec q')]
  exact hasDerivAt_rotF_body (h _) (h _) (h _) i j

theorem mulVec3 (A : M3) (v : V3) : A.mulVec v = fun i => A i 0 * v 0 + A i 1 * v 1 + A i 2 * v 2 := by
  funext i; simp [Matrix.mulVec, dotProduct, Fin.sum_univ_three]

theorem R_mul_Jvb (l : Leg) (q v : Fin 12 → ℝ) :
    (legRot l q).mulVec ((Cheetah.Jvb l q).mulVec v) = (Cheetah.Jp l q).mulVec v := by
  have h := rotF_vb l.left (q (l.joint 0)) (q (l.joint 1)) (q (l.joint 2))
  set w : V3 := ![v (l.joint 0), v (l.joint 1), v (l.joint 2)] with hw
  have e1 : (Cheetah.Jvb l q).mulVec v = (vbF l.left (q (l.joint 1)) (q (l.joint 2))).mulVec w := by
    rw [mulVec3]; funext i; rw [(Jvb_cols l q).mulVec v i]; simp [hw]
  have e2 : (Cheetah.Jp l q).mulVec v = (jacF l.left (q (l.joint 0)) (q (l.joint 1)) (q (l.joint 2))).mulVec w := by
    rw [mulVec3]; funext i; rw [(Jp_cols l q).mulVec v i]; simp [hw]
  rw [e1, e2, legRot_eq, Matrix.mulVec_mulVec, h]

theorem R_mul_Jwb (l : Leg) (q v : Fin 12 → ℝ) :
    (legRot l q).mulVec ((Cheetah.Jwb l q).mulVec v) = (Cheetah.Jws l q).mulVec v := by
  have h := rotF_wb (q (l.joint 0)) (q (l.joint 1)) (q (l.joint 2))
  set w : V3 := ![v (l.joint 0), v (l.joint 1), v (l.joint 2)] with hw
  have e1 : (Cheetah.Jwb l q).mulVec v = (wbF (q (l.joint 1)) (q (l.joint 2))).mulVec w := by
    rw [mulVec3]; funext i; rw [(Jwb_cols l q).mulVec v i]; simp [hw]
  have e2 : (Cheetah.Jws l q).mulVec v = (wsF (q (l.joint 0))).mulVec w := by
    rw [mulVec3]; funext i; rw [(Jws_cols l q).mulVec v i]; simp [hw]
  rw [e1, e2, legRot_eq, Matrix.mulVec_mulVec, h]

theorem Jvs_eq (l : Leg) (q v : Fin 12 → ℝ) :
    (Cheetah.Jvs l q).mulVec v =
      (Cheetah.Jp l q).mulVec v - (skew ((Cheetah.Jws l q).mulVec v)).mulVec (legPos l q) := by
  have := vsF_eq l.fore l.left (q (l.joint 0)) (q (l.joint 1)) (q (l.joint 2)) ![v (l.joint 0), v (l.joint 1), v (l.joint 2)]
  rw [legPos_eq, show (Cheetah.Jws l q).mulVec v = _ from funext ((Jws_cols l q).mulVec v),
    show (Cheetah.Jp l q).mulVec v = _ from funext ((Jp_cols l q).mulVec v),
    show (Cheetah.Jvs l q).mulVec v = _ from funext ((Jvs_cols l q).mulVec v)]
  exact this.symm

/-- the pose matrix by blocks -/
theorem H_twist (R : M3) (p w v : V3) (i j : Fin 4) :
    (!![R 0 0, R 0 1, R 0 2, p 0; R 1 0, R 1 1, R 1 2, p 1; R 2 0, R 2 1, R 2 2, p 2; (0 : ℝ), 0, 0, 1] * twist4 w v) i j
      = !![(R * skew w) 0 0, (R * skew w) 0 1, (R * skew w) 0 2, R.mulVec v 0;
           (R * skew w) 1 0, (R * skew w) 1 1, (R * skew w) 1 2, R.mulVec v 1;
           (R * skew w) 2 0, (R * skew w) 2 1, (R * skew w) 2 2, R.mulVec v 2; 0, 0, 0, 0] i j := by
  fin_cases i <;> fin_cases j <;>
    simp [twist4, skew, Matrix.mul_apply, Matrix.mulVec, dotProduct, Fin.sum_univ_three, Fin.sum_univ_four]

theorem twist_H (R : M3) (p w v : V3) (i j : Fin 4) :
    (twist4 w v * !![R 0 0, R 0 1, R 0 2, p 0; R 1 0, R 1 1, R 1 2, p 1; R 2 0, R 2 1, R 2 2, p 2; (0 : ℝ), 0, 0, 1]) i j
      = !![(skew w * R) 0 0, (skew w * R) 0 1, (skew w * R) 0 2, ((skew w).mulVec p + v) 0;
           (skew w * R) 1 0, (skew w * R) 1 1, (skew w * R) 1 2, ((skew w).mulVec p + v) 1;
           (skew w * R) 2 0, (skew w * R) 2 1, (skew w * R) 2 2, ((skew w).mulVec p + v) 2; 0, 0, 0, 0] i j := by
  fin_cases i <;> fin_cases j <;>
    simp [twist4, skew, Matrix.mul_apply, Matrix.mulVec, dotProduct, Fin.sum_univ_three, Fin.sum_univ_four]

theorem hasDerivAt_H (l : Leg) {q : ℝ → Fin 12 → ℝ} {q' : Fin 12 → ℝ} {t : ℝ} (h : HasDerivAt q q' t) (i j : Fin 4) :
    HasDerivAt (fun s => Cheetah.H l (q s) i j)
      ((Cheetah.H l (q t) * twist4 ((Cheetah.Jwb l (q t)).mulVec q') ((Cheetah.Jvb l (q t)).mulVec q')) i j) t := by
  rw [show Cheetah.H l (q t) = _ from Matrix.ext (H_eq l (q t)), H_twist, R_mul_Jvb]
  have e : (fun s => Cheetah.H l (q s) i j) = _ := funext fun s => H_eq l (q s) i j
  rw [e]
  have hR := hasDerivAt_legRot l h
  have hp : ∀ i, HasDerivAt (fun s => legPos l (q s) i) ((Cheetah.Jp l (q t)).mulVec q' i) t := by
    intro i
    have := hasDerivAt_foot l h i
    simpa only [p_eq] using this
  fin_cases i <;> fin_cases j
  · exact hR 0 0
  · exact hR 0 1
  · exact hR 0 2
  · exact hp 0
  · exact hR 1 0
  · exact hR 1 1
  · exact hR 1 2
  · exact hp 1
  · exact hR 2 0
  · exact hR 2 1
  · exact hR 2 2
  · exact hp 2
  · exact hasDerivAt_const t (0 : ℝ)
  · exact hasDerivAt_const t (0 : ℝ)
  · exact hasDerivAt_const t (0 : ℝ)
  · exact hasDerivAt_const t (1 : ℝ)

/-- **C92 (body Jacobian)** Along every differentiable joint motion the foot pose `H` satisfies `dH/dt = H · ξ^` where the
twist `ξ = (ω, v)` is the generated body Jacobian applied to the joint velocities. -/
theorem C92_body_jacobian (l : Leg) {q : ℝ → Fin 12 → ℝ} {q' : Fin 12 → ℝ} {t : ℝ} (h : HasDerivAt q q' t) (i j : Fin 4) :
    HasDerivAt (fun s => Cheetah.H l (q s) i j)
      ((Cheetah.H l (q t) * twist4 (fun m => (Cheetah.Jb l (q t)).mulVec q' (Fin.castAdd 3 m))
        (fun m => (Cheetah.Jb l (q t)).mulVec q' (Fin.natAdd 3 m))) i j) t := by
  have e1 : (fun m => (Cheetah.Jb l (q t)).mulVec q' (Fin.castAdd 3 m)) = (Cheetah.Jwb l (q t)).mulVec q' := by
    funext m
    simp only [Matrix.mulVec, dotProduct, (C92_stacked l (q t) m _).1]
  have e2 : (fun m => (Cheetah.Jb l (q t)).mulVec q' (Fin.natAdd 3 m)) = (Cheetah.Jvb l (q t)).mulVec q' := by
    funext m
    simp only [Matrix.mulVec, dotProduct, (C92_stacked l (q t) m _).2.1]
  rw [e1, e2]
  exact hasDerivAt_H l h i j

theorem skew_conj {R : M3} (h : Rᵀ * R = 1) (hd : R.det = 1) (w : V3) : skew (R.mulVec w) * R = R * skew w := by
  have h' : R * Rᵀ = 1 := mul_eq_one_comm.1 h
  have key : Rᵀ * skew (R.mulVec w) * R = skew w := by
    have adj : R.adjugate = Rᵀ := by
      have h1 : R * R.adjugate = 1 := by rw [Matrix.mul_adjugate, hd, one_smul]
      calc R.adjugate = (Rᵀ * R) * R.adjugate := by rw [h, Matrix.one_mul]
        _ = Rᵀ := by rw [Matrix.mul_assoc, h1, Matrix.mul_one]
    have e := fun i j => congrFun (congrFun adj i) j
    have gen : Rᵀ * skew (R.mulVec w) * R = skew ((R.adjugate * R).mulVec w) := by
      ext i j
      rw [Matrix.adjugate_fin_three]
      fin_cases i <;> fin_cases j <;>
        simp [skew, Matrix.mul_apply, Matrix.mulVec, dotProduct, Fin.sum_univ_three] <;> ring
    rw [gen, adj, h, Matrix.one_mulVec]
  calc skew (R.mulVec w) * R = R * Rᵀ * (skew (R.mulVec w) * R) := by rw [h', Matrix.one_mul]
    _ = R * (Rᵀ * skew (R.mulVec w) * R) := by simp only [Matrix.mul_assoc]
    _ = _ := by rw [key]

/-- **C92 (spatial Jacobian)** Along every differentiable joint motion `dH/dt = ξ^ · H` where the twist `ξ = (ω, v)` is the
generated spatial Jacobian applied to the joint velocities. -/
theorem C92_spatial_jacobian (l : Leg) {q : ℝ → Fin 12 → ℝ} {q' : Fin 12 → ℝ} {t : ℝ} (h : HasDerivAt q q' t)
    (i j : Fin 4) :
    HasDerivAt (fun s => Cheetah.H l (q s) i j)
      ((twist4 (fun m => (Cheetah.Js l (q t)).mulVec q' (Fin.castAdd 3 m))
        (fun m => (Cheetah.Js l (q t)).mulVec q' (Fin.natAdd 3 m)) * Cheetah.H l (q t)) i j) t := by
  have e1 : (fun m => (Cheetah.Js l (q t)).mulVec q' (Fin.castAdd 3 m)) = (Cheetah.Jws l (q t)).mulVec q' := by
    funext m
    simp only [Matrix.mulVec, dotProduct, (C92_stacked l (q t) m _).2.2.1]
  have e2 : (fun m => (Cheetah.Js l (q t)).mulVec q' (Fin.natAdd 3 m)) = (Cheetah.Jvs l (q t)).mulVec q' := by
    funext m
    simp only [Matrix.mulVec, dotProduct, (C92_stacked l (q t) m _).2.2.2]
  rw [e1, e2]
  refine (hasDerivAt_H l h i j).congr_deriv ?_
  obtain ⟨r1, r2, r3⟩ := C91_orientation_is_rotation l (q t)
  rw [R_eq] at r1 r2 r3
  rw [show Cheetah.H l (q t) = _ from Matrix.ext (H_eq l (q t)), H_twist, twist_H, R_mul_Jvb, Jvs_eq, ← R_mul_Jwb,
    skew_conj r1 r3]
  congr 1
  simp

/-- the hypotheses of C92 are met by every uniform joint motion -/
example (q v : Fin 12 → ℝ) (t : ℝ) : HasDerivAt (fun s => q + s • v) v t := by
  simpa using ((hasDerivAt_id t).smul_const v).const_add q

/-! ### C93: the measurement -/

namespace CheetahMeas

theorem leg_idx (l : Leg) : leg l.idx = l := by cases l <;> rfl

theorem fixed12_some {e : List ℝ} (h : e.length = 12) :
    ∃ q, fixed12 e = some q ∧ ∀ i : Fin 12, e[i.val]? = some (q i) := by
  refine ⟨_, dif_pos h, fun i => ?_⟩
  simp [List.getElem?_eq_getElem, h]

theorem fixed12_ofFn (q : Fin 12 → ℝ) : fixed12 (List.ofFn q) = some q := by
  unfold fixed12
  rw [dif_pos (List.length_ofFn)]
  congr 1
  funext i
  rw [List.get_ofFn]
  rfl

end CheetahMeas
open CheetahMeas

/-- **C93** After `ComputeKinematics` with twelve encoders and four contacts, the position and the Jacobian of each leg are the
foot position and its derivative by the leg's own three joints, and encoders and contacts are unchanged. -/
theorem C93_compute_kinematics (m : CheetahMeas) (q : Fin 12 → ℝ) (hq : m.encoders = List.ofFn q)
    (hc : m.contacts.length = 4) :
    ∃ m', m.ComputeKinematics = some m' ∧ m'.contacts = m.contacts ∧ m'.encoders = m.encoders ∧
      m'.dEncoders = m.dEncoders ∧
      ∀ l : Leg, m'.get_kin_pos l.idx = some (legPos l q) ∧
        ∃ J : M3, m'.get_J l.idx = some ⟨3, J⟩ ∧
          ∀ (γ : ℝ → Fin 12 → ℝ) (v : Fin 12 → ℝ) (t : ℝ), γ t = q → HasDerivAt γ v t → ∀ i,
            HasDerivAt (fun s => legPos l (γ s) i) (J.mulVec (fun k => v (l.joint k)) i) t := by
  have hl : m.encoders.length = 12 := by simp [hq]
  have hf : fixed12 m.encoders = some q := by rw [hq, fixed12_ofFn]
  unfold ComputeKinematics
  rw [hf]
  simp only [Option.bind_eq_bind, Option.bind_some]
  refine ⟨_, rfl, rfl, rfl, rfl, fun l => ⟨?_, fun i k => Cheetah.Jp l q i (l.joint k), ?_, ?_⟩⟩
  · unfold get_kin_pos
    rw [dif_pos l.idx.isLt]
    simp only [Fin.eta, leg_idx, p_eq]
  · unfold get_J
    rw [if_neg (by simp [hc])]
    have h2 : m.encoders.length / m.contacts.length = 3 := by rw [hc, hl]
    rw [h2]
    unfold blockJ
    rw [dif_pos (by have := l.idx.isLt; omega)]
    refine congrArg some (congrArg (Sigma.mk 3) ?_)
    funext i k
    have hk := k.isLt
    have e1 : (⟨(l.idx.val * 3 + k.val) / 3, by have := l.idx.isLt; omega⟩ : Fin 4) = l.idx := by
      apply Fin.ext; simp only; omega
    have e2 : (⟨l.idx.val * 3 + k.val, by have := l.idx.isLt; omega⟩ : Fin 12) = l.joint k := by
      apply Fin.ext; simp only [Leg.joint]; omega
    show Cheetah.Jp (leg ⟨(l.idx.val * 3 + k.val) / 3, _⟩) q i ⟨l.idx.val * 3 + k.val, _⟩ = _
    rw [e1, e2, leg_idx]
  · intro γ v t hγ hd i
    have h3 := hasDerivAt_foot l hd i
    simp only [p_eq] at h3
    refine h3.congr_deriv ?_
    rw [hγ, (Jp_cols l q).mulVec v i]
    refine Eq.trans ?_ (congrFun (mulVec3 (fun i k => Cheetah.Jp l q i (l.joint k)) fun k => v (l.joint k)) i).symm
    have hJ := Jp_cols l q
    obtain ⟨n1, n2, n3⟩ := l.joint_ne
    simp only [hJ i (l.joint 0), hJ i (l.joint 1), hJ i (l.joint 2), if_true, if_neg n1.symm, if_neg n2.symm, if_neg n3.symm]

/-- **C93** With any other number of encoders the computation is undefined (a vector of the wrong size is bound to a
fixed-size parameter). -/
theorem C93_wrong_size_undefined (m : CheetahMeas) (h : m.encoders.length ≠ 12) : m.ComputeKinematics = none := by
  unfold ComputeKinematics fixed12
  rw [dif_neg h]
  rfl

/-! ### C87: initial velocity -/

/-- `l` is the first leg in contact, in the order front right, front left, hind right, hind left -/
def FirstContact (c : List Bool) (l : Leg) : Prop :=
  c[l.idx.val]? = some true ∧ ∀ n, n < l.idx.val → c[n]? = some false

theorem init_velocity_first {m : CheetahMeas} {l : Leg} (h : FirstContact m.contacts l) (w : V3) :
    m.get_init_velocity w = m.legVel l w := by
  obtain ⟨h1, h2⟩ := h
  unfold get_init_velocity get_contact
  cases l
  · simp only [Leg.idx] at h1
    have h1 : m.contacts[0]? = some true := h1
    simp [h1]
  · have h1 : m.contacts[1]? = some true := h1
    have h0 := h2 0 (by decide)
    simp [h1, h0]
  · have h1 : m.contacts[2]? = some true := h1
    have h0 := h2 0 (by decide)
    have h0' := h2 1 (by decide)
    simp [h1, h0, h0']
  · have h1 : m.contacts[3]? = some true := h1
    have h0 := h2 0 (by decide)
    have h0' := h2 1 (by decide)
    have h0'' := h2 2 (by decide)
    simp [h1, h0, h0', h0'']

/-- velocity of a point fixed at `p(t)` in a moving body -/
theorem hasDerivAt_world {x : ℝ → V3} {B : ℝ → M3} {pf : ℝ → V3} {u w pd : V3} {t : ℝ}
    (hx : ∀ i, HasDerivAt (fun s => x s i) ((B t).mulVec u i) t)
    (hB : ∀ i j, HasDerivAt (fun s => B s i j) ((B t * skew w) i j) t)
    (hp : ∀ i, HasDerivAt (fun s => pf s i) (pd i) t) (i : Fin 3) :
    HasDerivAt (fun s => (x s + (B s).mulVec (pf s)) i) ((B t).mulVec (u + (skew w).mulVec (pf t) + pd) i) t := by
  simp only [Pi.add_apply, mulVec3]
  refine ((hx i).add ((((hB i 0).mul (hp 0)).add ((hB i 1).mul (hp 1))).add ((hB i 2).mul (hp 2)))).congr_deriv ?_
  simp only [Matrix.mul_apply, mulVec3, Fin.sum_univ_three, Pi.add_apply]
  ring

/-- **C87** Let the robot move with orientation `B`, position `x`, joints `γ`, all differentiable at time `t`, with body angular
velocity `w`, joint positions and velocities as measured, and let its velocity in the body frame be the computed initial velocity.
Then the foot of the first leg in contact stands still in the world. -/
theorem C87_stance_foot_stationary (m : CheetahMeas) (q dq : Fin 12 → ℝ) (hq : m.encoders = List.ofFn q)
    (hdq : m.dEncoders = List.ofFn dq) {l : Leg} (hl : FirstContact m.contacts l) (w : V3) :
    ∃ v, m.get_init_velocity w = some v ∧
      ∀ (x : ℝ → V3) (B : ℝ → M3) (γ : ℝ → Fin 12 → ℝ) (t : ℝ), γ t = q → HasDerivAt γ dq t →
        (∀ i, HasDerivAt (fun s => x s i) ((B t).mulVec v i) t) →
        (∀ i j, HasDerivAt (fun s => B s i j) ((B t * skew w) i j) t) →
        ∀ i, HasDerivAt (fun s => (x s + (B s).mulVec (legPos l (γ s))) i) 0 t := by
  refine ⟨(-(Cheetah.Jp l q)).mulVec dq - (skew w).mulVec (fun i => Cheetah.p l q i 0), ?_, ?_⟩
  · rw [init_velocity_first hl]
    unfold legVel
    rw [hq, hdq, fixed12_ofFn, fixed12_ofFn]
    rfl
  · intro x B γ t hγ hd hx hB i
    have hp : ∀ i, HasDerivAt (fun s => legPos l (γ s) i) ((Cheetah.Jp l q).mulVec dq i) t := by
      intro i
      have h3 := hasDerivAt_foot l hd i
      rw [hγ] at h3
      simpa only [p_eq] using h3
    refine (hasDerivAt_world hx hB hp i).congr_deriv ?_
    have e : (-(Cheetah.Jp l q)).mulVec dq - (skew w).mulVec (fun i => Cheetah.p l q i 0) +
        (skew w).mulVec (legPos l (γ t)) + (Cheetah.Jp l q).mulVec dq = 0 := by
      have : (fun i => Cheetah.p l q i 0) = legPos l q := funext (p_eq l q)
      rw [this, hγ, Matrix.neg_mulVec]
      abel
    rw [e, Matrix.mulVec_zero]
    rfl

/-- **C87 (converse)** If in the actual motion that foot stands still, the computed initial velocity is the robot's actual velocity
in the body frame. -/
theorem C87_recovers_velocity (m : CheetahMeas) (q dq : Fin 12 → ℝ) (hq : m.encoders = List.ofFn q)
    (hdq : m.dEncoders = List.ofFn dq) {l : Leg} (hl : FirstContact m.contacts l) (w u : V3)
    (x : ℝ → V3) (B : ℝ → M3) (γ : ℝ → Fin 12 → ℝ) (t : ℝ) (hγ : γ t = q) (hd : HasDerivAt γ dq t)
    (hx : ∀ i, HasDerivAt (fun s => x s i) ((B t).mulVec u i) t)
    (hB : ∀ i j, HasDerivAt (fun s => B s i j) ((B t * skew w) i j) t) (hrot : (B t)ᵀ * B t = 1)
    (hstill : ∀ i, HasDerivAt (fun s => (x s + (B s).mulVec (legPos l (γ s))) i) 0 t) :
    m.get_init_velocity w = some u := by
  have hp : ∀ i, HasDerivAt (fun s => legPos l (γ s) i) ((Cheetah.Jp l q).mulVec dq i) t := by
    intro i
    have h3 := hasDerivAt_foot l hd i
    rw [hγ] at h3
    simpa only [p_eq] using h3
  have h0 : (B t).mulVec (u + (skew w).mulVec (legPos l (γ t)) + (Cheetah.Jp l q).mulVec dq) = 0 := by
    funext i
    exact (hasDerivAt_world hx hB hp i).unique (hstill i)
  have h1 : u + (skew w).mulVec (legPos l (γ t)) + (Cheetah.Jp l q).mulVec dq = 0 := by
    have := congrArg ((B t)ᵀ.mulVec) h0
    rwa [Matrix.mulVec_mulVec, hrot, Matrix.one_mulVec, Matrix.mulVec_zero] at this
  rw [init_velocity_first hl]
  unfold legVel
  rw [hq, hdq, fixed12_ofFn, fixed12_ofFn]
  simp only [Option.bind_eq_bind, Option.bind_some, Option.some.injEq]
  have : (fun i => Cheetah.p l q i 0) = legPos l q := funext (p_eq l q)
  rw [this, Matrix.neg_mulVec, ← hγ]
  rw [hγ] at h1 ⊢
  have h2 : u = -((skew w).mulVec (legPos l q) + (Cheetah.Jp l q).mulVec dq) := by
    rw [add_assoc] at h1
    exact eq_neg_of_add_eq_zero_left h1
  rw [h2]
  abel

/-- **C87** With no leg in contact the initial velocity is zero. -/
theorem C87_no_contact (m : CheetahMeas) (hc : m.contacts = [false, false, false, false]) (w : V3) :
    m.get_init_velocity w = some 0 := by
  unfold get_init_velocity get_contact
  simp [hc]

/-- **C87 (hazard)** A measurement made by the default constructor has no joint velocities: once a contact is set, asking for the
initial velocity before setting joint velocities is undefined. -/
theorem C87_default_constructor_undefined (e : List ℝ) (l : Leg) (c : List Bool) (hl : FirstContact c l) (w : V3) :
    ((CheetahMeas.default.set_joint_state e).set_contact c).get_init_velocity w = none := by
  rw [init_velocity_first (by exact hl)]
  unfold legVel
  simp only [CheetahMeas.default, set_contact, set_joint_state]
  cases fixed12 e with
  | none => rfl
  | some q => simp [fixed12]

/-- a measurement satisfying the hypotheses: front left and hind left leg in contact, all joints bent and moving -/
example : ∃ m : CheetahMeas, ∃ q dq : Fin 12 → ℝ, m.encoders = List.ofFn q ∧ m.dEncoders = List.ofFn dq ∧
    FirstContact m.contacts .FL ∧ dq ≠ 0 :=
  ⟨mk3 (List.ofFn fun i : Fin 12 => (i.val : ℝ)) (List.ofFn fun _ : Fin 12 => (1 : ℝ)) [false, true, false, true], fun i => i.val, fun _ => 1, rfl, rfl,
    ⟨rfl, by intro n hn; have : n = 0 := by simp only [Leg.idx] at hn; omega
             subst this; rfl⟩,
    fun h => by have := congrFun h 0; simp at this⟩

end Drift
