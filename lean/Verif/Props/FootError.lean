import Verif.Lemmas.FootErr
import Verif.Lemmas.Filter11
import Verif.Props.Sensors

/-!
# C159: errors of the joint encoders and the covariance claimed for a foot
-/
namespace Drift
open Matrix Real GyroFilter

theorem left_abs (l : Leg) : |l.left| = 1 := by cases l <;> simp [Leg.left]

theorem dot3 (u v : V3) : u ⬝ᵥ v = u 0 * v 0 + u 1 * v 1 + u 2 * v 2 := by simp [dotProduct, Fin.sum_univ_three]

theorem len3_eq (u : V3) : len3 (u 0) (u 1) (u 2) = norm3 u := rfl

/-- the Jacobian a kinematic measurement carries -/
theorem legOf_obs {k : KinMeas} {m : LegMeas} (hm : legOf k = some m) {l : Leg} {o : LegObs} (ho : m.legs[l.idx.val]? = some o) :
    o.contact = k.contacts l.idx ∧ o.pos = legPos l k.encoders ∧
      o.J = jacF l.left (k.encoders (l.joint 0)) (k.encoders (l.joint 1)) (k.encoders (l.joint 2)) := by
  obtain ⟨m', m2, -, -, -, -, h2, -, -, -, h5⟩ := legOf_some k
  obtain rfl := Option.some.inj (hm.symm.trans h2)
  obtain ⟨J, hJ, hd⟩ := h5 l
  obtain rfl := Option.some.inj (ho.symm.trans hJ)
  refine ⟨rfl, rfl, ?_⟩
  obtain ⟨n1, n2, n3⟩ := l.joint_ne
  have key : ∀ (v : Fin 12 → ℝ) (i : Fin 3), J.mulVec (fun k => v (l.joint k)) i =
      jacF l.left (k.encoders (l.joint 0)) (k.encoders (l.joint 1)) (k.encoders (l.joint 2)) i 0 * v (l.joint 0) +
      jacF l.left (k.encoders (l.joint 0)) (k.encoders (l.joint 1)) (k.encoders (l.joint 2)) i 1 * v (l.joint 1) +
      jacF l.left (k.encoders (l.joint 0)) (k.encoders (l.joint 1)) (k.encoders (l.joint 2)) i 2 * v (l.joint 2) := by
    intro v i
    have hγ : ∀ j, HasDerivAt (fun s : ℝ => k.encoders j + s * v j) (v j) 0 := fun j => by
      simpa using ((hasDerivAt_id (0 : ℝ)).mul_const (v j)).const_add (k.encoders j)
    have h1 := hd (fun s j => k.encoders j + s * v j) v 0 (by funext j; simp) (hasDerivAt_pi.mpr hγ) i
    have h2 := hasDerivAt_posF l.fore l.left (hγ (l.joint 0)) (hγ (l.joint 1)) (hγ (l.joint 2)) i
    have e : (fun s : ℝ => legPos l (fun j => k.encoders j + s * v j) i) = fun s =>
        posF l.fore l.left (k.encoders (l.joint 0) + s * v (l.joint 0)) (k.encoders (l.joint 1) + s * v (l.joint 1))
          (k.encoders (l.joint 2) + s * v (l.joint 2)) i := by
      funext s; rw [legPos_eq]
    rw [e] at h1
    have := h1.unique h2
    simpa using this
  ext i j
  have h0 := key (Pi.single (l.joint j) 1) i
  have hv : (fun k => (Pi.single (l.joint j) 1 : Fin 12 → ℝ) (l.joint k)) = Pi.single j 1 := by
    funext k
    fin_cases j <;> fin_cases k <;> simp [Pi.single_apply, n1, n2, n3, n1.symm, n2.symm, n3.symm]
  rw [hv] at h0
  rw [Matrix.mulVec_single_one] at h0
  refine Eq.trans h0 ?_
  fin_cases j <;> simp [Pi.single_apply, n1, n2, n3, n1.symm, n2.symm, n3.symm]

/-- **C159**: when the joint angles of a leg are off by `x`, `y` and `z` the computed foot is off by at most
`0.4785 |x| + 0.4165 |y| + 0.2075 |z|` metres. -/
theorem C159_foot_error (l : Leg) (q q' : Fin 12 → ℝ) (d : V3) (hd : ∀ i, d i = Cheetah.p l q' i 0 - Cheetah.p l q i 0) :
    norm3 d ≤ 0.4785 * |q' (l.joint 0) - q (l.joint 0)| + 0.4165 * |q' (l.joint 1) - q (l.joint 1)| +
      0.2075 * |q' (l.joint 2) - q (l.joint 2)| := by
  have h := foot_first l.fore l.left (d 0) (d 1) (d 2) (q (l.joint 0)) (q (l.joint 1)) (q (l.joint 2))
    (q' (l.joint 0) - q (l.joint 0)) (q' (l.joint 1) - q (l.joint 1)) (q' (l.joint 2) - q (l.joint 2)) (left_abs l)
  rw [add_sub_cancel, add_sub_cancel, add_sub_cancel, ← legPos_eq, ← legPos_eq, len3_eq] at h
  have e : d 0 * legPos l q' 0 + d 1 * legPos l q' 1 + d 2 * legPos l q' 2 -
      (d 0 * legPos l q 0 + d 1 * legPos l q 1 + d 2 * legPos l q 2) = norm3 d ^ 2 := by
    unfold norm3; rw [Real.sq_sqrt (by positivity), hd, hd, hd]
    simp only [p_eq]
    ring
  rw [e, abs_of_nonneg (sq_nonneg _), pow_two] at h
  by_cases h0 : norm3 d = 0
  · rw [h0]; positivity
  · exact le_of_mul_le_mul_left h (lt_of_le_of_ne (norm3_nonneg _) (Ne.symm h0))

theorem sds_enc {J : M3} {ν s : ℝ} {d : V3} (hd : norm3 d ≤ ν * s) (hν : 0 ≤ ν) : Sds ν ((s * s) • (J * Jᵀ)) (J *ᵥ d) := by
  intro z
  have hv : varIn ((s * s) • (J * Jᵀ)) z = s ^ 2 * (Jᵀ *ᵥ z ⬝ᵥ Jᵀ *ᵥ z) := by
    unfold varIn
    rw [Matrix.smul_mulVec, dotProduct_smul, smul_eq_mul, ← Matrix.mulVec_mulVec, Matrix.dotProduct_mulVec, ← Matrix.mulVec_transpose, pow_two]
  have hz : z ⬝ᵥ J *ᵥ d = Jᵀ *ᵥ z ⬝ᵥ d := by rw [Matrix.dotProduct_mulVec, ← Matrix.mulVec_transpose]
  rw [hz, hv, Real.sqrt_mul (sq_nonneg _), Real.sqrt_sq_eq_abs]
  have hn : ∀ w : V3, √(w ⬝ᵥ w) = norm3 w := fun w => by
    unfold norm3; congr 1; rw [dot3]; ring
  rw [hn, dot3]
  refine (cauchy3 _ _ _ _ _ _).trans ?_
  rw [len3_eq, ← mul_assoc, mul_comm]
  refine mul_le_mul_of_nonneg_right ?_ (norm3_nonneg _)
  exact hd.trans (mul_le_mul_of_nonneg_left (le_abs_self s) hν)

theorem jjt_psd (J : M3) (s : ℝ) : ((s * s) • (J * Jᵀ)).PosSemidef := by
  have := Matrix.posSemidef_self_mul_conjTranspose J
  rw [Matrix.conjTranspose_eq_transpose_of_trivial] at this
  exact this.smul (mul_self_nonneg _)

theorem one_psd3 (s : ℝ) : ((s * s) • (1 : M3)).PosSemidef := Matrix.PosSemidef.one.smul (mul_self_nonneg _)

theorem foot_final {A B n S E f μ K : ℝ} (h2 : A ≤ n * (0.24 * S)) (h3 : B ≤ n * f) (h5 : n * S ≤ n * (3 * E))
    (h6 : n * (f + 0.72 * E) ≤ n * (μ * K)) : A + B ≤ μ * (K * n) := by
  linarith

/-- **C159**: the covariance that the filter claims for a foot covers the errors of the encoders.  If the joint angles in the
message are within `ν` standard deviations of the true ones `q`, and the place `F` of the foot is that of the geometry at `q` up
to an error that, with the `0.72 (ν σ)²` of second order, is within `μ` standard deviations of the additive noise, the foot is
within `√(ν² + μ²)` claimed standard deviations of the measured one, in every direction. -/
theorem C159_honest (c : LegCorr) (k : KinMeas) (m : LegMeas) (hm : legOf k = some m) (l : Leg) (o : LegObs)
    (ho : m.legs[l.idx.val]? = some o) (q : Fin 12 → ℝ) (F : V3) (ν μ : ℝ) (hν : 0 ≤ ν) (hμ : 0 ≤ μ)
    (hq : √(∑ j, (k.encoders (l.joint j) - q (l.joint j)) ^ 2) ≤ ν * c.encStd)
    (hF : norm3 (F - legPos l q) + 0.72 * (ν * c.encStd) ^ 2 ≤ μ * c.kinStd) :
    Sds (√(ν ^ 2 + μ ^ 2)) (c.footCov o) (o.pos - F) := by
  obtain ⟨-, hpos, hJ⟩ := legOf_obs hm ho
  obtain ⟨a, ha⟩ : ∃ a, a = k.encoders (l.joint 0) := ⟨_, rfl⟩
  obtain ⟨b, hb⟩ : ∃ a, a = k.encoders (l.joint 1) := ⟨_, rfl⟩
  obtain ⟨c', hc⟩ : ∃ a, a = k.encoders (l.joint 2) := ⟨_, rfl⟩
  rw [← ha, ← hb, ← hc] at hJ
  set d : V3 := ![a - q (l.joint 0), b - q (l.joint 1), c' - q (l.joint 2)] with hdd
  have hdn : norm3 d ≤ ν * c.encStd := by
    refine le_trans (le_of_eq ?_) hq
    unfold norm3
    rw [Fin.sum_univ_three, hdd, ha, hb, hc]
    simp
  have henc : Sds ν ((c.encStd * c.encStd) • (o.J * o.Jᵀ)) (o.J *ᵥ d) := sds_enc hdn hν
  have hrest : Sds μ ((c.kinStd * c.kinStd) • (1 : M3)) (o.pos - F - o.J *ᵥ d) := by
    intro u
    have hv : varIn ((c.kinStd * c.kinStd) • (1 : M3)) u = c.kinStd ^ 2 * (u ⬝ᵥ u) := by
      unfold varIn
      rw [Matrix.smul_mulVec, Matrix.one_mulVec, dotProduct_smul, smul_eq_mul, pow_two]
    have hn : √(u ⬝ᵥ u) = norm3 u := by unfold norm3; congr 1; rw [dot3]; ring
    rw [hv, Real.sqrt_mul (sq_nonneg _), Real.sqrt_sq_eq_abs, hn]
    have h2 := foot_second l.fore l.left (u 0) (u 1) (u 2) a b c' (-d 0) (-d 1) (-d 2) (left_abs l)
    have e0 : a + -d 0 = q (l.joint 0) := by simp [hdd]
    have e1 : b + -d 1 = q (l.joint 1) := by simp [hdd]
    have e2 : c' + -d 2 = q (l.joint 2) := by simp [hdd]
    have e3 : posF l.fore l.left a b c' = o.pos := by rw [hpos, legPos_eq, ha, hb, hc]
    rw [e0, e1, e2, ← legPos_eq, e3, ← hJ, len3_eq, abs_neg, abs_neg, abs_neg] at h2
    have e4 : u 0 * (o.J 0 0 * -d 0 + o.J 0 1 * -d 1 + o.J 0 2 * -d 2) + u 1 * (o.J 1 0 * -d 0 + o.J 1 1 * -d 1 + o.J 1 2 * -d 2) +
        u 2 * (o.J 2 0 * -d 0 + o.J 2 1 * -d 1 + o.J 2 2 * -d 2) = - (u ⬝ᵥ o.J *ᵥ d) := by
      rw [mulVec3, dot3]; ring
    have e5 : u ⬝ᵥ (o.pos - F - o.J *ᵥ d) = -(u 0 * legPos l q 0 + u 1 * legPos l q 1 + u 2 * legPos l q 2 -
        (u 0 * o.pos 0 + u 1 * o.pos 1 + u 2 * o.pos 2) - -(u ⬝ᵥ o.J *ᵥ d)) - u ⬝ᵥ (F - legPos l q) := by
      rw [dotProduct_sub, dotProduct_sub, dotProduct_sub, dot3 u o.pos, dot3 u F, dot3 u (legPos l q)]; ring
    rw [e4] at h2
    rw [e5]
    refine (abs_sub _ _).trans ?_
    rw [abs_neg]
    have h3 : |u ⬝ᵥ (F - legPos l q)| ≤ norm3 u * norm3 (F - legPos l q) := by
      rw [dot3]; exact cauchy3 _ _ _ _ _ _
    have h4 : (|d 0| + |d 1| + |d 2|) ^ 2 ≤ 3 * (ν * c.encStd) ^ 2 := by
      have : norm3 d ^ 2 ≤ (ν * c.encStd) ^ 2 := pow_le_pow_left₀ (norm3_nonneg _) hdn 2
      unfold norm3 at this
      rw [Real.sq_sqrt (by positivity), ← sq_abs (d 0), ← sq_abs (d 1), ← sq_abs (d 2)] at this
      nlinarith [sq_nonneg (|d 0| - |d 1|), sq_nonneg (|d 0| - |d 2|), sq_nonneg (|d 1| - |d 2|)]
    have hu := norm3_nonneg u
    have h5 := mul_le_mul_of_nonneg_left h4 hu
    have h6 := mul_le_mul_of_nonneg_left (hF.trans (mul_le_mul_of_nonneg_left (le_abs_self c.kinStd) hμ)) hu
    exact foot_final h2 h3 h5 h6
  have := sds_add hν hμ (P := (c.encStd * c.encStd) • (o.J * o.Jᵀ)) (Q := (c.kinStd * c.kinStd) • (1 : M3))
    (jjt_psd _ _) (one_psd3 _) henc hrest
  rwa [add_sub_cancel] at this

/-- **C159**, shipped settings: with encoders of 1° and 5 cm of additive noise a foot that is where the geometry says is within
`√2 ν` claimed standard deviations when the joint angles are within `ν ≤ 200` of theirs. -/
theorem C159_shipped (b : List LegMeas) (et : ErrorType) (lc : LegConfig) (hlc : CorrConfig.leg lc ∈ Program.miniCheetah.corrs) (c : LegCorr)
    (hc : c = LegCorr.ctor b et lc)
    (k : KinMeas) (m : LegMeas) (hm : legOf k = some m) (l : Leg) (o : LegObs)
    (ho : m.legs[l.idx.val]? = some o) (q : Fin 12 → ℝ) (ν : ℝ) (hν : 0 ≤ ν) (hν2 : ν ≤ 200)
    (hq : √(∑ j, (k.encoders (l.joint j) - q (l.joint j)) ^ 2) ≤ ν * 0.0174533) :
    Sds (√2 * ν) (c.footCov o) (o.pos - legPos l q) := by
  simp only [Program.miniCheetah, Program.plain, List.mem_singleton, CorrConfig.leg.injEq] at hlc
  subst hlc
  have h := C159_honest c k m hm l o ho q (legPos l q) ν ν hν hν (by rw [hc]; exact hq) (by
    rw [sub_self, hc]
    simp only [LegCorr.ctor, Option.getD_some]
    rw [norm3_zero]
    nlinarith)
  rwa [← two_mul, Real.sqrt_mul (by norm_num), Real.sqrt_sq hν] at h

/-- **C159**: where the encoders say nothing about the foot in some direction: exactly when the knee is straight or folded, or the
foot is in the plane of the abduction axis and the hip link. -/
theorem C159_singular (k : KinMeas) (m : LegMeas) (hm : legOf k = some m) (l : Leg) (o : LegObs)
    (ho : m.legs[l.idx.val]? = some o) :
    |o.J.det| = 0.209 * 0.2075 * |sin (k.encoders (l.joint 2))| *
      |0.209 * cos (k.encoders (l.joint 1)) + 0.2075 * cos (k.encoders (l.joint 1) + k.encoders (l.joint 2))| := by
  obtain ⟨-, -, hJ⟩ := legOf_obs hm ho
  rw [hJ]
  generalize k.encoders (l.joint 0) = a
  generalize k.encoders (l.joint 1) = b
  generalize k.encoders (l.joint 2) = c
  have h1 := sin_sq_add_cos_sq a
  have e : (jacF l.left a b c).det = -(0.209 * cos b + 0.2075 * cos (b + c)) * (0.209 * 0.2075) * sin c := by
    have hs : sin c = sin (b + c) * cos b - cos (b + c) * sin b := by rw [← sin_sub]; ring_nf
    rw [hs, Matrix.det_fin_three]
    simp [jacF]
    linear_combination (-(0.209 * cos b + 0.2075 * cos (b + c)) * (0.209 * 0.2075) * (sin (b + c) * cos b - cos (b + c) * sin b)) * h1
  rw [e, abs_mul, abs_mul, abs_neg, abs_of_pos (by norm_num : (0:ℝ) < 0.209 * 0.2075)]
  ring

/-- **C159**: so the claimed covariance leaves no direction without uncertainty exactly when there is additive noise, or there is
encoder noise and the leg is not singular. -/
theorem C159_uncertain (c : LegCorr) (k : KinMeas) (m : LegMeas) (hm : legOf k = some m) (l : Leg) (o : LegObs)
    (ho : m.legs[l.idx.val]? = some o) :
    (∀ u : V3, u ≠ 0 → 0 < u ⬝ᵥ c.footCov o *ᵥ u) ↔ c.kinStd ≠ 0 ∨ (c.encStd ≠ 0 ∧ sin (k.encoders (l.joint 2)) ≠ 0 ∧
      0.209 * cos (k.encoders (l.joint 1)) + 0.2075 * cos (k.encoders (l.joint 1) + k.encoders (l.joint 2)) ≠ 0) := by
  have hdet := C159_singular k m hm l o ho
  have hq : ∀ u : V3, u ⬝ᵥ c.footCov o *ᵥ u = c.encStd ^ 2 * (o.Jᵀ *ᵥ u ⬝ᵥ o.Jᵀ *ᵥ u) + c.kinStd ^ 2 * (u ⬝ᵥ u) := by
    intro u
    unfold LegCorr.footCov
    rw [Matrix.add_mulVec, dotProduct_add, Matrix.smul_mulVec, Matrix.smul_mulVec, Matrix.one_mulVec, dotProduct_smul,
      dotProduct_smul, smul_eq_mul, smul_eq_mul, ← Matrix.mulVec_mulVec, Matrix.dotProduct_mulVec, ← Matrix.mulVec_transpose]
    ring
  have hpos : ∀ w : V3, 0 ≤ w ⬝ᵥ w := fun w => by rw [dot3]; nlinarith [mul_self_nonneg (w 0), mul_self_nonneg (w 1), mul_self_nonneg (w 2)]
  have hpos' : ∀ w : V3, w ≠ 0 → 0 < w ⬝ᵥ w := fun w hw =>
    lt_of_le_of_ne (hpos w) fun h => hw (dotProduct_self_eq_zero.mp h.symm)
  have hJ : o.J.det ≠ 0 ↔ sin (k.encoders (l.joint 2)) ≠ 0 ∧
      0.209 * cos (k.encoders (l.joint 1)) + 0.2075 * cos (k.encoders (l.joint 1) + k.encoders (l.joint 2)) ≠ 0 := by
    rw [← abs_pos, hdet, ← abs_pos, ← abs_pos (a := 0.209 * cos (k.encoders (l.joint 1)) + 0.2075 * cos (k.encoders (l.joint 1) + k.encoders (l.joint 2)))]
    constructor
    · intro h
      constructor
      · by_contra h0
        rw [le_antisymm (not_lt.mp h0) (abs_nonneg _)] at h; simp at h
      · by_contra h0
        rw [le_antisymm (not_lt.mp h0) (abs_nonneg _)] at h; simp at h
    · rintro ⟨h1, h2⟩; positivity
  rw [← hJ]
  constructor
  · intro h
    by_contra hn
    push_neg at hn
    obtain ⟨h1, h2⟩ := hn
    by_cases he : c.encStd = 0
    · have := h ![1, 0, 0] (by intro h; simpa using congrFun h 0)
      rw [hq, h1, he] at this
      simp at this
    · obtain ⟨v, hv, hz⟩ := (Matrix.exists_mulVec_eq_zero_iff (M := o.Jᵀ)).mpr (by rw [Matrix.det_transpose]; exact h2 he)
      have := h v hv
      rw [hq, h1, hz] at this
      simp at this
  · rintro (h | ⟨h1, h2⟩) u hu <;> rw [hq]
    · have := mul_pos (by positivity : 0 < c.kinStd ^ 2) (hpos' u hu)
      have := mul_nonneg (sq_nonneg c.encStd) (hpos (o.Jᵀ *ᵥ u))
      linarith
    · have hz : o.Jᵀ *ᵥ u ≠ 0 := fun h => hu (by
        by_contra hu'
        exact h2 (by rw [← Matrix.det_transpose]; exact (Matrix.exists_mulVec_eq_zero_iff).mp ⟨u, hu', h⟩))
      have := mul_pos (by positivity : 0 < c.encStd ^ 2) (hpos' _ hz)
      have := mul_nonneg (sq_nonneg c.kinStd) (hpos u)
      linarith

/-- **C159**: left and right legs are mirror images of each other, front and hind legs are alike. -/
theorem C159_mirror (q q' : Fin 12 → ℝ) (l r : Leg) (hf : r.fore = l.fore) (hl : r.left = -l.left)
    (h0 : q' (r.joint 0) = -q (l.joint 0)) (h1 : q' (r.joint 1) = q (l.joint 1)) (h2 : q' (r.joint 2) = q (l.joint 2)) :
    Cheetah.p r q' 0 0 = Cheetah.p l q 0 0 ∧ Cheetah.p r q' 1 0 = -Cheetah.p l q 1 0 ∧ Cheetah.p r q' 2 0 = Cheetah.p l q 2 0 := by
  simp only [p_eq, legPos_eq]
  rw [h0, h1, h2, hf, hl]
  refine ⟨?_, ?_, ?_⟩ <;> simp [posF] <;> ring

theorem C159_front_hind (q q' : Fin 12 → ℝ) (l r : Leg) (hf : r.fore = -1) (hf' : l.fore = 1) (hl : r.left = l.left)
    (h : ∀ j, q' (r.joint j) = q (l.joint j)) :
    Cheetah.p r q' 0 0 = Cheetah.p l q 0 0 - 0.38 ∧ Cheetah.p r q' 1 0 = Cheetah.p l q 1 0 ∧ Cheetah.p r q' 2 0 = Cheetah.p l q 2 0 := by
  simp only [p_eq, legPos_eq]
  rw [h, h, h, hf, hf', hl]
  refine ⟨?_, ?_, ?_⟩ <;> simp [posF] <;> ring

/-- the hypotheses are met: all joints read 0.5, each is off by 0.01; the claimed covariance covers it -/
example : ∃ (k : KinMeas) (m : LegMeas) (o : LegObs) (c : LegCorr) (lc : LegConfig), CorrConfig.leg lc ∈ Program.miniCheetah.corrs ∧
    c = LegCorr.ctor [] .rightInvariant lc ∧ legOf k = some m ∧ m.legs[Leg.HL.idx.val]? = some o ∧
    Sds (√2 * 1) (c.footCov o) (o.pos - legPos .HL fun _ => 0.49) ∧ ∀ u : V3, u ≠ 0 → 0 < u ⬝ᵥ c.footCov o *ᵥ u := by
  obtain ⟨m', m, -, -, -, -, h2, -, -, -, h5⟩ := legOf_some ⟨0, fun _ => true, fun _ => 0.5, fun _ => 0⟩
  obtain ⟨J, hJ, -⟩ := h5 .HL
  refine ⟨_, m, _, _, _, List.mem_singleton.mpr rfl, rfl, h2, hJ, ?_, ?_⟩
  · refine C159_shipped _ _ _ (List.mem_singleton.mpr rfl) _ rfl _ m h2 .HL _ hJ _ 1 (by norm_num) (by norm_num) ?_
    refine sqrt_le_of (by norm_num) ?_
    simp only [Fin.sum_univ_three]
    norm_num
  · refine (C159_uncertain _ _ m h2 .HL _ hJ).mpr (Or.inl ?_)
    norm_num [LegCorr.ctor]

example : Cheetah.p .FR (fun j => if j = Leg.joint .FR 0 then -0.1 else 0.1) 1 0 = -Cheetah.p .FL (fun _ => 0.1) 1 0 :=
  (C159_mirror (fun _ => 0.1) _ .FL .FR rfl rfl (by simp) (by simp [Leg.joint, Leg.idx]) (by simp [Leg.joint, Leg.idx])).2.1

end Drift
