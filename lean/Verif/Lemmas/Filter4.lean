import Verif.Lemmas.Filter3

/-! Helper lemmas for the gyro filter: the yaw-only filter is decoupled from roll and pitch. -/
namespace Drift
open Matrix
namespace GyroFilter

/-- the yaw rate and its bias -/
def Yaw (i : Fin 6) : Prop := i = 2 ∨ i = 5

instance : DecidablePred Yaw := fun i => inferInstanceAs (Decidable (i = 2 ∨ i = 5))

/-- no correlation between the yaw components and the others -/
def Decoupled (P : M66) : Prop := ∀ i j, (Yaw i ∧ ¬ Yaw j ∨ ¬ Yaw i ∧ Yaw j) → P i j = 0

theorem Himu_yaw (l : Fin 3) (k : Fin 6) (hk : ¬ Yaw k) : Himu false l k = 0 := by
  have h2 : k.val ≠ 2 := fun h => hk (Or.inl (Fin.ext h))
  have h5 : k.val ≠ 5 := fun h => hk (Or.inr (Fin.ext h))
  simp [Himu, h2, h5]

theorem Henc_yaw (l : Fin 3) (k : Fin 6) (hk : ¬ Yaw k) : Henc false l k = 0 := by
  have h2 : k.val ≠ 2 := fun h => hk (Or.inl (Fin.ext h))
  simp [Henc, h2]

section
variable {P : M66} {H : M36} (hP : Decoupled P) (hH : ∀ l k, ¬ Yaw k → H l k = 0)
include hP hH

theorem gain_row {i : Fin 6} (hi : ¬ Yaw i) (W : M3) (l : Fin 3) : (P * Hᵀ * W) i l = 0 := by
  rw [Matrix.mul_apply]
  refine Finset.sum_eq_zero fun j _ => ?_
  have : (P * Hᵀ) i j = 0 := by
    rw [Matrix.mul_apply]
    refine Finset.sum_eq_zero fun k _ => ?_
    by_cases hk : Yaw k
    · rw [hP i k (Or.inr ⟨hi, hk⟩), zero_mul]
    · rw [transpose_apply, hH j k hk, mul_zero]
  rw [this, zero_mul]

theorem corrected_row {i : Fin 6} (hi : ¬ Yaw i) (W : M3) (j : Fin 6) :
    ((1 - P * Hᵀ * W * H) * P : M66) i j = P i j := by
  rw [Matrix.sub_mul, Matrix.one_mul, Matrix.sub_apply, Matrix.mul_apply, Finset.sum_eq_zero, sub_zero]
  intro k _
  rw [Matrix.mul_apply, Finset.sum_eq_zero, zero_mul]
  intro l _
  rw [gain_row hP hH hi, zero_mul]

theorem corrected_decoupled (W : M3) : Decoupled ((1 - P * Hᵀ * W * H) * P) := by
  rintro i j (⟨hi, hj⟩ | ⟨hi, hj⟩)
  · rw [Matrix.sub_mul, Matrix.one_mul, Matrix.sub_apply, hP i j (Or.inl ⟨hi, hj⟩), Matrix.mul_apply,
      Finset.sum_eq_zero, sub_zero]
    intro k _
    by_cases hk : Yaw k
    · rw [hP k j (Or.inl ⟨hk, hj⟩), mul_zero]
    · rw [Matrix.mul_apply, Finset.sum_eq_zero, zero_mul]
      intro l _
      rw [hH l k hk, mul_zero]
  · rw [corrected_row hP hH hi]
    exact hP i j (Or.inr ⟨hi, hj⟩)

theorem corrected_mean {i : Fin 6} (hi : ¬ Yaw i) (W : M3) (z : V3) (x : V6) :
    (x + (P * Hᵀ * W) *ᵥ z) i = x i := by
  rw [Pi.add_apply, Matrix.mulVec, dotProduct, Finset.sum_eq_zero, add_zero]
  intro l _
  rw [gain_row hP hH hi, zero_mul]
end

theorem diag6_decoupled (a b : ℝ) : Decoupled (diag6 a b) := by
  intro i j h
  refine Matrix.diagonal_apply_ne _ ?_
  rintro rfl
  rcases h with ⟨h1, h2⟩ | ⟨h1, h2⟩
  · exact h2 h1
  · exact h1 h2

theorem Decoupled.add {P Q : M66} (hP : Decoupled P) (hQ : Decoupled Q) : Decoupled (P + Q) := fun i j h => by
  rw [Matrix.add_apply, hP i j h, hQ i j h, add_zero]

/-- the yaw-only filter: roll/pitch rates follow the gyro, roll/pitch biases are frozen -/
structure YawOnly (a b : V3) (f : GyroFilter) : Prop where
  flat : f.cfg.flatGround = false
  dec : Decoupled f.P
  r0 : f.x 0 - f.prev 0 = a 0
  r1 : f.x 1 - f.prev 1 = a 1
  b0 : f.x 3 = b 0
  b1 : f.x 4 = b 1

theorem yawOnly_core (a b : V3) : CoreOnly (YawOnly a b) := fun f g h1 h2 h3 h4 _ h =>
  ⟨h1 ▸ h.flat, h3 ▸ h.dec, by rw [← h2, ← h4]; exact h.r0, by rw [← h2, ← h4]; exact h.r1,
    by rw [← h2]; exact h.b0, by rw [← h2]; exact h.b1⟩

theorem yawOnly_kalman (a b : V3) : KeptByKalman (YawOnly a b) := by
  have key : ∀ (f f' : GyroFilter) (H : M36) (R : M3) (y : V3), (∀ l k, ¬ Yaw k → H l k = 0) →
      YawOnly a b f → f.kalman H R y = some f' → YawOnly a b f' := by
    intro f f' H R y hH hf h
    obtain ⟨hd, rfl⟩ := kalman_some h
    refine ⟨hf.flat, corrected_decoupled hf.dec hH _, ?_, ?_, ?_, ?_⟩
    · exact (congrArg (· - f.prev 0) (corrected_mean hf.dec hH (i := 0) (by decide) _ _ _)).trans hf.r0
    · exact (congrArg (· - f.prev 1) (corrected_mean hf.dec hH (i := 1) (by decide) _ _ _)).trans hf.r1
    · exact (corrected_mean hf.dec hH (i := 3) (by decide) _ _ _).trans hf.b0
    · exact (corrected_mean hf.dec hH (i := 4) (by decide) _ _ _).trans hf.b1
  rintro f f' y hf (h | h)
  · rw [hf.flat] at h
    exact key f f' _ _ y Himu_yaw hf h
  · rw [hf.flat] at h
    exact key f f' _ _ y Henc_yaw hf h

theorem yawOnly_propagate (a b : V3) {f : GyroFilter} (h : YawOnly a b f) : YawOnly a b f.propagate := by
  obtain ⟨h1, _, _, h4, h5⟩ := propagate_core f
  have hd : Decoupled f.propagate.P := by
    rcases h4 with h4 | h4
    · rw [h4]; exact h.dec
    · rw [h4]; exact h.dec.add (diag6_decoupled _ _)
  rcases h5 with ⟨hx, hp⟩ | ⟨m, q, _, hp, hx⟩
  · exact ⟨h1 ▸ h.flat, hd, by rw [hx, hp]; exact h.r0, by rw [hx, hp]; exact h.r1, by rw [hx]; exact h.b0,
      by rw [hx]; exact h.b1⟩
  · have e0 : f.propagate.x 0 = m.angVel 0 - f.prev 0 + f.x 0 := by rw [hx]; rfl
    have e1 : f.propagate.x 1 = m.angVel 1 - f.prev 1 + f.x 1 := by rw [hx]; rfl
    have e3 : f.propagate.x 3 = 0 + f.x 3 := by rw [hx]; rfl
    have e4 : f.propagate.x 4 = 0 + f.x 4 := by rw [hx]; rfl
    have k0 := h.r0
    have k1 := h.r1
    refine ⟨h1 ▸ h.flat, hd, ?_, ?_, ?_, ?_⟩
    · rw [e0, hp]; linarith
    · rw [e1, hp]; linarith
    · rw [e3, zero_add]; exact h.b0
    · rw [e4, zero_add]; exact h.b1

/-- the decoupling holds from construction on, also during initialisation -/
structure YawDec (f : GyroFilter) : Prop where
  flat : f.cfg.flatGround = false
  dec : Decoupled f.P

theorem yawDec_core : CoreOnly YawDec := fun f g h1 _ h3 _ _ h => ⟨h1 ▸ h.flat, h3 ▸ h.dec⟩

theorem yawDec_kalman : KeptByKalman YawDec := by
  rintro f f' y hf (h | h) <;> rw [hf.flat] at h <;> obtain ⟨hd, rfl⟩ := kalman_some h
  · exact ⟨hf.flat, corrected_decoupled hf.dec Himu_yaw _⟩
  · exact ⟨hf.flat, corrected_decoupled hf.dec Henc_yaw _⟩

theorem initialize_core {f f' : GyroFilter} (h : f.initializeFilter = some f') :
    f'.cfg = f.cfg ∧ f'.P = f.P := by
  unfold initializeFilter at h
  split_ifs at h
  · rw [Option.bind_eq_some_iff] at h
    obtain ⟨n, _, h⟩ := h
    split_ifs at h
    · exact ⟨(collectBias_core h).1, (collectBias_core h).2.2.1⟩
    · exact ⟨(finishInit_core h).2.1, (finishInit_core h).2.2.2.1⟩
  · obtain rfl := Option.some.inj h
    exact ⟨rfl, rfl⟩

theorem opOK_true (o : Op) : OpOK (fun _ => True) (fun _ => True) (fun _ => True) o := by
  cases o <;> trivial

theorem holds_true (f : GyroFilter) :
    Holds (fun _ => True) (fun _ => True) (fun _ => True) (fun _ => True) f :=
  ⟨fun _ _ _ _ => trivial, fun _ _ _ _ => trivial, fun _ _ _ _ => trivial, fun _ _ _ _ => trivial,
    fun _ _ => trivial, fun _ _ => trivial⟩

theorem runOps_yawDec {l : List Op} {f f' : GyroFilter} (h : YawDec f) (hr : runOps l f = some f') : YawDec f' :=
  (runOps_holds (G := fun _ => True) (M := fun _ => True) (A := fun _ => True) (Q := fun _ => True)
    (fun _ _ => trivial) yawDec_core yawDec_kalman (fun _ _ _ _ => trivial) (fun _ _ _ _ _ _ => trivial)
    (fun f hf _ => by
      obtain ⟨h1, _, _, h4 | h4, _⟩ := propagate_core f
      · exact ⟨h1 ▸ hf.flat, h4 ▸ hf.dec⟩
      · exact ⟨h1 ▸ hf.flat, h4 ▸ hf.dec.add (diag6_decoupled _ _)⟩)
    (fun f f' hf _ hi => by
      obtain ⟨e1, e2⟩ := initialize_core hi
      exact ⟨e1 ▸ hf.flat, e2 ▸ hf.dec⟩)
    l f f' (fun o _ => opOK_true o) h (holds_true f) hr).1

theorem runOps_yawOnly {a b : V3} {l : List Op} {f f' : GyroFilter} (h : YawOnly a b f)
    (hi : f.initialized = true) (hr : runOps l f = some f') : YawOnly a b f' ∧ f'.initialized = true :=
  (runOps_holds (I := fun f => YawOnly a b f ∧ f.initialized = true) (G := fun _ => True) (M := fun _ => True)
    (A := fun _ => True) (Q := fun _ => True) (fun _ _ => trivial)
    (fun f g h1 h2 h3 h4 h5 h => ⟨yawOnly_core a b f g h1 h2 h3 h4 h5 h.1, h5 ▸ h.2⟩)
    (fun f f' y h hk => ⟨yawOnly_kalman a b f f' y h.1 hk, by
      rcases hk with hk | hk <;> (obtain ⟨_, rfl⟩ := kalman_some hk; exact h.2)⟩)
    (fun _ _ _ _ => trivial) (fun _ _ _ _ _ _ => trivial)
    (fun f hf _ => ⟨yawOnly_propagate a b hf.1, by rw [(propagate_core f).2.2.1]; exact hf.2⟩)
    (fun f f' hf hn => by rw [hf.2] at hn; simp at hn)
    l f f' (fun o _ => opOK_true o) ⟨h, hi⟩ (holds_true f) hr).1

end GyroFilter
end Drift
