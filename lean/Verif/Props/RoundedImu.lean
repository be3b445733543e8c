import Verif.Lemmas.RoundImu
import Verif.Props.RoundedOdo
import Verif.Lemmas.Flow

/-!
# C165: how far the computed velocity and position are from the exact motion
-/
namespace Drift
open Matrix F64

theorem gravity_err (F : Fpu) (i : Fin 3) : |gravityF F i - (![0, 0, -9.8] : V3) i| ≤ 20 * uu ∧
    |F.rn (1 / 2 * gravityF F i) - 1 / 2 * (![0, 0, -9.8] : V3) i| ≤ 20 * uu ∧ |(![0, 0, -9.8] : V3) i| ≤ 10 := by
  have hu := uu_pos
  have hu' := uu_le
  norm_num at hu'
  have r0 : F.rn 0 = 0 := rn_of_F F.toRound IsF.zero
  have h := rnb F.toRound (x := -9.80) (M := 10) (tiny_le.trans (by norm_num)) (by norm_num [abs_le])
  have h2 := rnb F.toRound (x := 1 / 2 * F.rn (-9.80)) (M := 6) (tiny_le.trans (by norm_num)) (by
    rw [abs_le] at h ⊢
    constructor <;> linarith [h.1, h.2])
  rw [abs_le] at h h2
  fin_cases i
  · simp [gravityF, r0]; linarith
  · simp [gravityF, r0]; linarith
  · have e1 : gravityF F 2 = F.rn (-9.80) := rfl
    have e2 : (![0, 0, -9.8] : V3) 2 = -9.80 := by rw [Matrix.cons_val_two]; norm_num
    change |gravityF F 2 - (![0, 0, -9.8] : V3) 2| ≤ _ ∧ |F.rn (1 / 2 * gravityF F 2) - 1 / 2 * (![0, 0, -9.8] : V3) 2| ≤ _ ∧ |(![0, 0, -9.8] : V3) 2| ≤ _
    rw [e1, e2]
    generalize F.rn (-9.80) = g at *
    generalize F.rn (1 / 2 * g) = g2 at *
    refine ⟨?_, ?_, ?_⟩
    · rw [abs_le]; constructor <;> linarith [h.1, h.2]
    · rw [abs_le]; constructor <;> linarith [h.1, h.2, h2.1, h2.2]
    · norm_num [abs_le]

/-- where the motion leads in one reading -/
theorem flown_step {w a : V3} {R : ℝ → M3} {v p : ℝ → V3} (h : Strapdown w a ![0, 0, -9.8] R v p) {dt : ℝ} (hx : ExactAt (dt • w)) :
    R dt = R 0 * Gam0 (dt • w) ∧ (∀ i, v dt i = v 0 i + dt * (((R 0 * Gam1 (dt • w)) *ᵥ a) i + (![0, 0, -9.8] : V3) i)) ∧
      ∀ i, p dt i = p 0 i + dt * v 0 i + dt * (dt * (((R 0 * Gam2 (dt • w)) *ᵥ a) i + 1 / 2 * (![0, 0, -9.8] : V3) i)) := by
  obtain ⟨h1, h2, h3⟩ := h.unique dt
  rw [← Gam0_smul hx] at h1
  rw [← Gam1_smul hx] at h2
  rw [← Gam2_smul hx] at h3
  refine ⟨h1, fun i => ?_, fun i => ?_⟩
  · rw [h2, Matrix.mul_smul, Matrix.smul_mulVec]
    simp only [Pi.add_apply, Pi.smul_apply, smul_eq_mul]; ring
  · rw [h3, Matrix.mul_smul, Matrix.smul_mulVec, Matrix.mul_smul, Matrix.smul_mulVec]
    simp only [Pi.add_apply, Pi.smul_apply, smul_eq_mul]; ring

theorem F64.Reading.Turns.turn {τ : ℝ} (hτ : 1 / 10 ^ 6 ≤ τ) {r : Reading} (h : r.Turns τ) : (RotOp.imu r.w r.dt).Turn := by
  rcases h.2 with h0 | ⟨h1, h2⟩
  · exact ⟨fun i => by change |(r.dt • r.w) i| ≤ 4; rw [h0]; norm_num, Or.inl h0⟩
  · refine ⟨fun i => (entry_le_norm _ i).trans (h2.trans (by norm_num)), Or.inr ?_⟩
    have h3 : (1 / 10 ^ 6 : ℝ) ≤ Drift.norm3 (r.dt • r.w) := hτ.trans h1
    have e : (RotOp.imu r.w r.dt).vec 0 ^ 2 + (RotOp.imu r.w r.dt).vec 1 ^ 2 + (RotOp.imu r.w r.dt).vec 2 ^ 2 = Drift.norm3 (r.dt • r.w) ^ 2 := by
      rw [norm3_sq]; rfl
    rw [e]
    calc (2 / 10 ^ 10 : ℝ) ^ 2 ≤ (1 / 10 ^ 6) ^ 2 := by norm_num
      _ ≤ _ := pow_le_pow_left₀ (by norm_num) h3 2

theorem nav_acc (F : Fpu) (hF : F.Accurate) {R0 : M3} (hR0 : IsRot R0) {τ : ℝ} (hτ : 1 / 10 ^ 6 ≤ τ) (hτ1 : τ ≤ 1) (l : List Reading) :
    ∀ (ops : List RotOp) (s : NavF) (R : M3) (v p : V3) (V L D : ℝ) (R' : M3) (v' p' : V3),
    (∀ op ∈ ops, op.Turn) → s.rot = ops.foldl (RotOp.run F) R0 → R = ops.foldl RotOp.exact R0 → ops.length + l.length ≤ 10 ^ 12 → (∀ r ∈ l, r.Turns τ) →
    0 ≤ V → 0 ≤ D → D ≤ L → (∀ i, |v i| ≤ V) → (∀ i, |p i| ≤ L) → (∀ i, |s.vel i - v i| ≤ (ops.length * (1 / 2 ^ 38) + 500 * uu / τ) * V) →
    (∀ i, |s.pos i - p i| ≤ (ops.length * (1 / 2 ^ 38) + 500 * uu / τ) * L + 500 * uu / (τ * τ) * D) →
    Flown R v p l R' v' p' →
    ∃ V' L' D', V' ≤ V + 18 * push l + l.length * (1 / 10 ^ 60) ∧ L' ≤ L + duration l * (V + 18 * push l + l.length * (1 / 10 ^ 60)) + l.length * (2 / 10 ^ 59) ∧
      D' ≤ D + 18 * push2 l + l.length * (1 / 10 ^ 70) ∧
      (∀ i j, |(s.run F l).rot i j - R' i j| ≤ (ops.length + l.length) * (1 / 2 ^ 40)) ∧
      (∀ i, |(s.run F l).vel i - v' i| ≤ ((ops.length + l.length) * (1 / 2 ^ 38) + 500 * uu / τ) * V') ∧
      ∀ i, |(s.run F l).pos i - p' i| ≤ ((ops.length + l.length) * (1 / 2 ^ 38) + 500 * uu / τ) * L' + 500 * uu / (τ * τ) * D' := by
  have hu := uu_pos
  have hu' := uu_le
  norm_num at hu'
  have hτ0 : 0 < τ := lt_of_lt_of_le (by norm_num) hτ
  have ε1 : 500 * uu ≤ 500 * uu / τ := by
    rw [le_div_iff₀ hτ0]; exact mul_le_of_le_one_right (by positivity) hτ1
  have ε2 : 500 * uu ≤ 500 * uu / (τ * τ) := by
    rw [le_div_iff₀ (by positivity)]; exact mul_le_of_le_one_right (by positivity) (by nlinarith)
  have ε3 : 500 * uu / τ ≤ 1 / 100 := by
    rw [div_le_iff₀ hτ0]; norm_num at hτ; linarith
  have ε4 : 500 * uu / (τ * τ) ≤ 1 / 10 := by
    have h12 : (1 : ℝ) / 10 ^ 12 ≤ τ * τ := by
      calc (1 : ℝ) / 10 ^ 12 = 1 / 10 ^ 6 * (1 / 10 ^ 6) := by norm_num
        _ ≤ _ := mul_le_mul hτ hτ (by norm_num) hτ0.le
    have uv : uu = 1 / 2 ^ 53 := rfl
    rw [div_le_iff₀ (by positivity), uv]; norm_num at h12 ⊢; linarith
  induction l with
  | nil =>
    intro ops s R v p V L D R' v' p' hr hs hR hn _ _ _ _ _ _ hv hp h
    cases h
    refine ⟨V, L, D, by simp [push], by simp [push, duration], by simp [push2], fun i j => ?_, fun i => ?_, fun i => ?_⟩
    · have := C132_orientation F hF hR0 ops hr (by simpa using hn) i j
      rw [← hs, ← hR] at this
      simpa [NavF.run] using this
    · simpa [NavF.run] using hv i
    · simpa [NavF.run] using hp i
  | cons r l ih =>
    intro ops s R v p V L D R' v' p' hr hs hR hn ht hV hD hDL hvV hpL hv hp h
    generalize hRe : R = R1 at h
    generalize hve : v = v1 at h
    generalize hpe : p = p1 at h
    cases h with
    | @cons Rf vf pf _ _ _ _ _ hS h =>
    have hT := ht r (List.mem_cons_self ..)
    have hTurn := hT.turn hτ
    have hφ : r.dt • r.w = 0 ∨ 1 / 10 ^ 6 ≤ norm3 (r.dt • r.w) ∧ norm3 (r.dt • r.w) ≤ 1 := hT.2.imp_right fun h => ⟨hτ.trans h.1, h.2⟩
    have hx : ExactAt (r.dt • r.w) := by
      rcases hφ with h0 | ⟨h1, -⟩
      · exact Or.inr h0
      · exact Or.inl (not_lt.mpr (le_trans (by norm_num) h1))
    obtain ⟨f1, f2, f3⟩ := flown_step hS hx
    rw [← hRe] at f1 f2 f3
    rw [← hve] at f2 f3
    rw [← hpe] at f3
    have hn' : ops.length ≤ 10 ^ 12 := by simp only [List.length_cons] at hn; omega
    have hnr : (ops.length : ℝ) ≤ 10 ^ 12 := by exact_mod_cast hn'
    have hk0 : (0 : ℝ) ≤ ops.length := Nat.cast_nonneg _
    have hY : ∀ i j, |s.rot i j| ≤ 111 / 100 := by
      rw [hs]; exact computed_entry F hF hR0 ops (fun op h => Turn.inRange F (hr op h)) hn'
    have hX : IsRot R := by rw [hR]; exact isRot_exact hR0 ops hr
    have hDD : ∀ i j, |s.rot i j - R i j| ≤ ops.length * (1 / 2 ^ 40) := by
      rw [hs, hR]; exact C132_orientation F hF hR0 ops hr hn'
    have hψ : ∀ i, smulV F.toRound r.dt r.w i = F.rn ((r.dt • r.w) i) := fun i => rfl
    have hA := norm3_nonneg r.a
    have hd0 := abs_nonneg r.dt
    have hS0 : 0 ≤ 18 * (norm3 r.a + 1) := by positivity
    have hL : 0 ≤ L := hD.trans hDL
    have m : ∀ ε : ℝ, 500 * uu ≤ ε → (19 * (ops.length : ℝ) * (1 / 2 ^ 40) + 11 * ε) * (norm3 r.a + 1) ≤
        (ops.length * (1 / 2 ^ 39) + ε) * (18 * (norm3 r.a + 1)) := fun ε hε => by
      rw [← mul_assoc]
      refine mul_le_mul_of_nonneg_right ?_ (by positivity)
      have : 0 < ε := lt_of_lt_of_le (by positivity) hε
      nlinarith
    have hvel := fun i => by
      obtain ⟨g1, g2, g3⟩ := gravity_err F i
      obtain ⟨a1, a2⟩ := thrust_err F (a := r.a) hk0 hnr ε1 (ε3.trans (by norm_num)) hY hX hDD (fun i j => (gam_entry hφ i j).1) (gamma1_acc F hF hψ hτ hτ1 hT.2) i
      obtain ⟨b1, b2⟩ := force_err F hA hk0 hnr ε1 (ε3.trans (by norm_num)) a1 a2 g3 g1
      exact vel_step F hV hS0 hk0 hnr (by positivity) (ε3.trans (by norm_num)) hT.1 (hv i) (hvV i) (b1.trans (m _ ε1)) b2
    have hpos := fun i => by
      obtain ⟨g1, g2, g3⟩ := gravity_err F i
      obtain ⟨a1, a2⟩ := thrust_err F (a := r.a) hk0 hnr ε2 ε4 hY hX hDD (fun i j => (gam_entry hφ i j).2) (gamma2_acc F hF hψ hτ hτ1 hT.2) i
      have g4 : |1 / 2 * (![0, 0, -9.8] : V3) i| ≤ 10 := by rw [abs_mul, abs_of_pos (by norm_num : (0 : ℝ) < 1 / 2)]; linarith
      obtain ⟨b1, b2⟩ := force_err F hA hk0 hnr ε2 ε4 a1 a2 g4 g2
      exact pos_step2 F hV hL hS0 hD hDL hk0 hnr (by positivity) ε3 (by positivity) ε4 hT.1 (hv i) (hvV i) (hp i) (hpL i) (b1.trans (m _ ε2)) b2
    simp only [← f2] at hvel
    simp only [← f3] at hpos
    have hE : Rf r.dt = (ops ++ [RotOp.imu r.w r.dt]).foldl RotOp.exact R0 := by
      rw [List.foldl_append, ← hR, f1]
      change R * Gam0 (r.dt • r.w) = R * NormedSpace.exp (skew (r.dt • r.w))
      have : Gam0 (r.dt • r.w) = NormedSpace.exp (skew (r.dt • r.w)) := Gam0_exp hTurn.2
      rw [this]
    obtain ⟨V', L', D', c1, c2, c3, c4, c5, c6⟩ := ih (ops ++ [RotOp.imu r.w r.dt]) (s.step F r.w r.a r.dt) (Rf r.dt) (vf r.dt) (pf r.dt)
      (V + (|r.dt| * (18 * (norm3 r.a + 1)) + 1 / 10 ^ 60))
      (L + (|r.dt| * V + |r.dt| * (|r.dt| * (18 * (norm3 r.a + 1))) + 1 / 10 ^ 59))
      (D + (|r.dt| * (|r.dt| * (18 * (norm3 r.a + 1))) + 1 / 10 ^ 70)) R' v' p'
      (fun op hop => by
        rcases List.mem_append.mp hop with hop | hop
        · exact hr op hop
        · rw [List.mem_singleton] at hop; rw [hop]; exact hTurn)
      (by rw [List.foldl_append, ← hs]; rfl) hE
      (by simp only [List.length_append, List.length_cons, List.length_nil] at hn ⊢; omega)
      (fun r hr => ht r (List.mem_cons_of_mem _ hr)) (by positivity) (by positivity)
      (by have : 0 ≤ |r.dt| * V := by positivity
          norm_num at *; linarith)
      (fun i => (hvel i).2) (fun i => (hpos i).2)
      (fun i => by
        rw [List.length_append, List.length_singleton]; push_cast
        exact (hvel i).1)
      (fun i => by
        rw [List.length_append, List.length_singleton]; push_cast
        exact (hpos i).1) h
    have hrun : s.run F (r :: l) = (s.step F r.w r.a r.dt).run F l := rfl
    have e1 : push (r :: l) = |r.dt| * (norm3 r.a + 1) + push l := by simp [push]
    have e2 : push2 (r :: l) = |r.dt| * (|r.dt| * (norm3 r.a + 1)) + push2 l := by simp [push2]
    have e3 : duration (r :: l) = |r.dt| + duration l := by simp [duration]
    have e4 : (((r :: l).length : ℕ) : ℝ) = l.length + 1 := by simp
    have n0 : (0 : ℝ) ≤ l.length := Nat.cast_nonneg _
    have e5 : 0 ≤ push l := List.sum_nonneg fun x hx => by
      obtain ⟨r, -, rfl⟩ := List.mem_map.mp hx
      have := norm3_nonneg r.a; positivity
    rw [hrun, e1, e2, e3, e4]
    simp only [List.length_append, List.length_singleton] at c4 c5 c6
    push_cast at c4 c5 c6
    refine ⟨V', L', D', c1.trans (le_of_eq (by ring)), c2.trans ?_, c3.trans (le_of_eq (by ring)), fun i j => (c4 i j).trans (le_of_eq (by ring)),
      fun i => (c5 i).trans (le_of_eq (by ring)), fun i => (c6 i).trans (le_of_eq (by ring))⟩
    have q : |r.dt| * V + |r.dt| * (|r.dt| * (18 * (norm3 r.a + 1))) ≤
        |r.dt| * (V + 18 * (|r.dt| * (norm3 r.a + 1) + push l) + (l.length + 1) * (1 / 10 ^ 60)) := by
      rw [← mul_add]
      refine mul_le_mul_of_nonneg_left ?_ hd0
      have : (0 : ℝ) ≤ (l.length + 1) * (1 / 10 ^ 60) := by positivity
      linarith
    norm_num at q ⊢
    linarith

/-- **C165**: let the filter start with the orientation `R0`, the velocity `v0` and the position `p0`, and let it use `n` IMU readings `l` (up to a
million million), each held for at most a second, during which the body turns by at least `τ` rad and at most 1 rad or not at all.  Let the
exact solution of the equations of motion with the same readings lead to `R'`, `v'` and `p'`.  Then what the filter computes in double arithmetic
is within `n · 2^-40` of `R'` in each entry, and its velocity and position are within the following of `v'` and `p'` in each coordinate. -/
theorem C165_imu_rounding (F : Fpu) (hF : F.Accurate) {R0 : M3} (hR0 : IsRot R0) {τ : ℝ} (hτ : 1 / 10 ^ 6 ≤ τ) (hτ1 : τ ≤ 1) (l : List Reading)
    (hn : l.length ≤ 10 ^ 12) (ht : ∀ r ∈ l, r.Turns τ) {v0 p0 : V3} {V P : ℝ} (hv : ∀ i, |v0 i| ≤ V) (hp : ∀ i, |p0 i| ≤ P)
    {R' : M3} {v' p' : V3} (h : Flown R0 v0 p0 l R' v' p') :
    (∀ i j, |(NavF.run F ⟨R0, v0, p0⟩ l).rot i j - R' i j| ≤ l.length * (1 / 2 ^ 40)) ∧
    (∀ i, |(NavF.run F ⟨R0, v0, p0⟩ l).vel i - v' i| ≤ (l.length / 2 ^ 38 + 1 / (2 ^ 44 * τ)) * (V + 18 * push l + 1 / 10 ^ 40)) ∧
    ∀ i, |(NavF.run F ⟨R0, v0, p0⟩ l).pos i - p' i| ≤
      (l.length / 2 ^ 38 + 1 / (2 ^ 44 * τ)) * (P + duration l * (V + 18 * push l) + 1 / 10 ^ 30) + 1 / (2 ^ 44 * τ ^ 2) * (18 * push2 l + 1 / 10 ^ 40) := by
  have hV : 0 ≤ V := (abs_nonneg _).trans (hv 0)
  have hP : 0 ≤ P := (abs_nonneg _).trans (hp 0)
  have hτ0 : 0 < τ := lt_of_lt_of_le (by norm_num) hτ
  obtain ⟨V', L', D', c1, c2, c3, c4, c5, c6⟩ := nav_acc F hF hR0 hτ hτ1 l [] ⟨R0, v0, p0⟩ R0 v0 p0 V P 0 R' v' p' (by simp) rfl rfl (by simpa using hn) ht
    hV le_rfl hP hv hp (fun i => by have := uu_pos; simp only [sub_self, abs_zero]; positivity)
    (fun i => by have := uu_pos; simp only [sub_self, abs_zero]; positivity) h
  have hn' : (l.length : ℝ) ≤ 10 ^ 12 := by exact_mod_cast hn
  have h0 : (0 : ℝ) ≤ l.length := Nat.cast_nonneg _
  have hd : duration l ≤ l.length ∧ 0 ≤ duration l := by
    clear c1 c2 c3 c4 c5 c6 hn hn' h h0
    induction l with
    | nil => simp [duration]
    | cons r l ih =>
      have h1 := (ht r (List.mem_cons_self ..)).1
      have h2 := ih (fun r hr => ht r (List.mem_cons_of_mem _ hr))
      have e3 : duration (r :: l) = |r.dt| + duration l := by simp [duration]
      have e4 : (((r :: l).length : ℕ) : ℝ) = l.length + 1 := by simp
      have := abs_nonneg r.dt
      rw [e3, e4]; constructor <;> linarith
  have e5 : 0 ≤ push l := List.sum_nonneg fun x hx => by
    obtain ⟨r, -, rfl⟩ := List.mem_map.mp hx
    have := norm3_nonneg r.a; positivity
  have e6 : 0 ≤ push2 l := List.sum_nonneg fun x hx => by
    obtain ⟨r, -, rfl⟩ := List.mem_map.mp hx
    have := norm3_nonneg r.a; positivity
  have u1 : 500 * uu / τ ≤ 1 / (2 ^ 44 * τ) := by
    rw [div_le_div_iff₀ hτ0 (by positivity)]; unfold uu; norm_num; linarith
  have u2 : 500 * uu / (τ * τ) ≤ 1 / (2 ^ 44 * τ ^ 2) := by
    have : 0 < τ * τ := by positivity
    rw [div_le_div_iff₀ (by positivity) (by positivity), sq]; unfold uu; norm_num; linarith
  have hk : (([] : List RotOp).length + l.length : ℝ) * (1 / 2 ^ 38) + 500 * uu / τ ≤ l.length / 2 ^ 38 + 1 / (2 ^ 44 * τ) := by
    simp only [List.length_nil, Nat.cast_zero, zero_add, mul_one_div]; linarith
  have hVn : V + 18 * push l + l.length * (1 / 10 ^ 60) ≤ V + 18 * push l + 1 / 10 ^ 40 := by
    have := mul_le_mul_of_nonneg_right hn' (show (0 : ℝ) ≤ 1 / 10 ^ 60 by norm_num)
    have e : (10 : ℝ) ^ 12 * (1 / 10 ^ 60) ≤ 1 / 10 ^ 40 := by norm_num
    linarith
  refine ⟨fun i j => by simpa using c4 i j, fun i => (c5 i).trans ?_, fun i => (c6 i).trans ?_⟩
  · exact (mul_le_mul_of_nonneg_left (c1.trans hVn) (by have := uu_pos; positivity)).trans (mul_le_mul_of_nonneg_right hk (by positivity))
  · have hL : L' ≤ P + duration l * (V + 18 * push l) + 1 / 10 ^ 30 := by
      have hnn : duration l * (l.length * (1 / 10 ^ 60)) ≤ 10 ^ 12 * (10 ^ 12 * (1 / 10 ^ 60)) :=
        mul_le_mul (hd.1.trans hn') (mul_le_mul_of_nonneg_right hn' (by norm_num)) (by positivity) (by norm_num)
      have := mul_le_mul_of_nonneg_right hn' (show (0 : ℝ) ≤ 2 / 10 ^ 59 by norm_num)
      have e : (10 : ℝ) ^ 12 * (10 ^ 12 * (1 / 10 ^ 60)) + 10 ^ 12 * (2 / 10 ^ 59) ≤ 1 / 10 ^ 30 := by norm_num
      linarith
    have hD : D' ≤ 18 * push2 l + 1 / 10 ^ 40 := by
      have := mul_le_mul_of_nonneg_right hn' (show (0 : ℝ) ≤ 1 / 10 ^ 70 by norm_num)
      have e : (10 : ℝ) ^ 12 * (1 / 10 ^ 70) ≤ 1 / 10 ^ 40 := by norm_num
      linarith
    have := uu_pos
    have := hd.2
    refine add_le_add ((mul_le_mul_of_nonneg_left hL (by positivity)).trans (mul_le_mul_of_nonneg_right hk (by positivity)))
      ((mul_le_mul_of_nonneg_left hD (by positivity)).trans (mul_le_mul_of_nonneg_right u2 (by positivity)))

/-- the motion with any readings leads somewhere -/
theorem flown_exists (l : List Reading) : ∀ R v p, ∃ R' v' p', Flown R v p l R' v' p' := by
  induction l with
  | nil => intro R v p; exact ⟨_, _, _, .nil R v p⟩
  | cons r l ih =>
    intro R v p
    obtain ⟨Rf, vf, pf, h, rfl, rfl, rfl⟩ := Strapdown.exists r.w r.a ![0, 0, -9.8] R v p
    obtain ⟨R', v', p', hl⟩ := ih (Rf r.dt) (vf r.dt) (pf r.dt)
    exact ⟨R', v', p', .cons r h hl⟩

/-! ### The hypotheses are met: one minute at 100 Hz, turning at half a radian per second while hovering -/

/-- the reading -/
noncomputable def exHover : Reading := ⟨![0, 0, 1 / 2], ![0, 0, 9.8], 1 / 100⟩

example : ∃ R' v' p', Flown 1 0 0 (List.replicate 6000 exHover) R' v' p' ∧
    ∀ i, |(NavF.run exFpu ⟨1, 0, 0⟩ (List.replicate 6000 exHover)).vel i - v' i| ≤ 1 / 1000 ∧
      |(NavF.run exFpu ⟨1, 0, 0⟩ (List.replicate 6000 exHover)).pos i - p' i| ≤ 2 / 100 := by
  have hA : exFpu.Accurate := accurate_of_rounded exFpu (fun _ => rfl) (fun _ => rfl)
  obtain ⟨n, hn⟩ : ∃ n, (6000 : ℕ) = n := ⟨_, rfl⟩
  have hc : (n : ℝ) = 6000 := by rw [← hn]; norm_num
  have hn' : n ≤ 10 ^ 12 := by rw [← hn]; norm_num
  rw [hn]; clear hn
  obtain ⟨R', v', p', h⟩ := flown_exists (List.replicate n exHover) 1 0 0
  have e1 : norm3 exHover.a = 9.8 := by
    have : norm3 exHover.a ^ 2 = 9.8 ^ 2 := by rw [norm3_sq]; norm_num [exHover, nsq, Matrix.cons_val_two]
    exact (sq_eq_sq₀ (norm3_nonneg _) (by norm_num)).mp this
  have e2 : norm3 (exHover.dt • exHover.w) = 1 / 200 := by
    have : norm3 (exHover.dt • exHover.w) ^ 2 = (1 / 200) ^ 2 := by rw [norm3_sq]; norm_num [exHover, nsq, Matrix.cons_val_two]
    exact (sq_eq_sq₀ (norm3_nonneg _) (by norm_num)).mp this
  have hd : |exHover.dt| = 1 / 100 := by rw [show exHover.dt = 1 / 100 from rfl, abs_of_pos (by norm_num)]
  have ht : ∀ r ∈ List.replicate n exHover, r.Turns (1 / 200) := fun r hr => by
    rw [List.eq_of_mem_replicate hr]
    exact ⟨by rw [hd]; norm_num, Or.inr ⟨e2.ge, e2.le.trans (by norm_num)⟩⟩
  have h1 : IsRot (1 : M3) := ⟨by simp, by simp, by simp⟩
  obtain ⟨-, c2, c3⟩ := C165_imu_rounding exFpu hA h1 (by norm_num) (by norm_num) (List.replicate n exHover) (by rw [List.length_replicate]; exact hn') ht
    (V := 0) (P := 0) (by simp) (by simp) h
  have s1 : push (List.replicate n exHover) = n * (1 / 100 * (9.8 + 1)) := by simp [push, e1, hd]
  have s2 : push2 (List.replicate n exHover) = n * (1 / 100 * (1 / 100 * (9.8 + 1))) := by simp [push2, e1, hd]
  have s3 : duration (List.replicate n exHover) = n * (1 / 100) := by simp [duration, hd]
  rw [List.length_replicate, s1, hc] at c2
  rw [List.length_replicate, s1, s2, s3, hc] at c3
  exact ⟨R', v', p', h, fun i => ⟨(c2 i).trans (by norm_num), (c3 i).trans (by norm_num)⟩⟩

end Drift
