import Verif.Spec.Velocity
import Verif.Lemmas.Joseph

/-! # Lemmas about the queue handling and the velocity observation -/
namespace Drift
open Mat Matrix Finset RobotState

theorem popFresh_none {α : Type} {time : α → ℝ} {thres tp : ℝ} {cur : α} {rest : List α} :
    popFresh time thres tp cur rest = none ↔ ∀ m ∈ cur :: rest, Stale thres tp (time m) := by
  induction rest generalizing cur with
  | nil =>
    unfold popFresh Stale
    by_cases h : time cur - tp < -thres <;> simp [h]
  | cons m rest ih =>
    unfold popFresh
    by_cases h : time cur - tp < -thres
    · rw [if_pos h, ih]
      constructor
      · intro hm x hx
        rcases List.mem_cons.mp hx with rfl | hx
        · exact h
        · exact hm x hx
      · exact fun hm x hx => hm x (List.mem_cons_of_mem _ hx)
    · rw [if_neg h]
      simp only [reduceCtorEq, false_iff]
      exact fun hm => h (hm cur List.mem_cons_self)

theorem popFresh_some {α : Type} {time : α → ℝ} {thres tp : ℝ} {cur : α} {rest : List α} {m : α} {rest' : List α} :
    popFresh time thres tp cur rest = some (m, rest') ↔
      ∃ pre, cur :: rest = pre ++ m :: rest' ∧ (∀ x ∈ pre, Stale thres tp (time x)) ∧ ¬ Stale thres tp (time m) := by
  induction rest generalizing cur with
  | nil =>
    unfold popFresh
    by_cases h : time cur - tp < -thres
    · simp only [if_pos h, reduceCtorEq, false_iff, not_exists, not_and, not_not]
      intro pre he _
      cases pre with
      | nil => simp only [List.nil_append, List.cons.injEq] at he; rw [← he.1]; exact h
      | cons a l => simp at he
    · simp only [if_neg h, Option.some.injEq, Prod.mk.injEq]
      constructor
      · rintro ⟨rfl, rfl⟩; exact ⟨[], rfl, by simp, h⟩
      · rintro ⟨pre, he, hp, hm⟩
        cases pre with
        | nil => simpa using he
        | cons a l => simp at he
  | cons b rest ih =>
    unfold popFresh
    by_cases h : time cur - tp < -thres
    · rw [if_pos h, ih]
      constructor
      · rintro ⟨pre, he, hp, hm⟩
        refine ⟨cur :: pre, by rw [he]; rfl, ?_, hm⟩
        intro x hx
        rcases List.mem_cons.mp hx with rfl | hx
        · exact h
        · exact hp x hx
      · rintro ⟨pre, he, hp, hm⟩
        cases pre with
        | nil =>
          simp only [List.nil_append, List.cons.injEq] at he
          exact absurd (he.1 ▸ h) hm
        | cons a l =>
          simp only [List.cons_append, List.cons.injEq] at he
          exact ⟨l, he.2, fun x hx => hp x (List.mem_cons_of_mem _ hx), hm⟩
    · rw [if_neg h]
      simp only [Option.some.injEq, Prod.mk.injEq]
      constructor
      · rintro ⟨rfl, rfl⟩; exact ⟨[], rfl, by simp, h⟩
      · rintro ⟨pre, he, hp, hm⟩
        cases pre with
        | nil => simpa using he
        | cons a l =>
          simp only [List.cons_append, List.cons.injEq] at he
          exact absurd (he.1 ▸ hp a List.mem_cons_self) h

/-- congruence by an invertible matrix keeps positive definiteness -/
theorem PD.congr {A B P : Mat} {n : ℕ} (hA : A.rows = n) (hAc : A.cols = n) (hPr : P.rows = n)
    (hAB : A * B = one n) (hP : PD P) : PD (A * P * A.T) := by
  refine ⟨Sym.congr (by rw [hAc, hPr]) hP.1, fun x hx => ?_⟩
  rw [quad_congr_mul (by rw [hAc, hPr]) hP.sq]
  refine hP.2 _ ?_
  by_contra hcon
  simp only [not_exists, not_and, not_not] at hcon
  obtain ⟨i, hi, hxi⟩ := hx
  simp only [mul_rows] at hi
  apply hxi
  have e : ∀ i, i < n → x i = ∑ j ∈ range n, x j * (A * B).e j i := by
    intro i hi
    rw [hAB, Finset.sum_eq_single i]
    · rw [one_e, if_pos ⟨hi, rfl⟩, mul_one]
    · intro j _ hj; rw [one_e, if_neg (by tauto), mul_zero]
    · intro h; exact absurd (mem_range.mpr hi) h
  rw [e i (by omega)]
  have : ∑ j ∈ range n, x j * (A * B).e j i = ∑ k ∈ range n, (∑ j ∈ range n, x j * A.e j k) * B.e k i := by
    simp only [mul_e, hAc, mul_sum, sum_mul]
    rw [sum_comm]
    exact sum_congr rfl fun k _ => sum_congr rfl fun j _ => by ring
  rw [this]
  refine sum_eq_zero fun k hk => ?_
  have := hcon k (by rw [hPr]; exact mem_range.mp hk)
  rw [hA] at this
  rw [this, zero_mul]

theorem of3_mul (A B : M3) : of3 (A * B) = of3 A * of3 B := ofM_mul A B
theorem of3_T (A : M3) : (of3 A).T = of3 Aᵀ := ofM_T A
theorem of3_add (A B : M3) : of3 (A + B) = of3 A + of3 B := ofM_add A B
theorem of3_one : of3 1 = one 3 := ofM_one 3

theorem pd_rot {R C : M3} (hR : IsRot R) (hC : PD (of3 C)) : PD (of3 (R * C * Rᵀ)) := by
  rw [of3_mul, of3_mul, ← of3_T]
  exact PD.congr (A := of3 R) (B := of3 Rᵀ) (n := 3) rfl rfl rfl (by rw [← of3_mul, hR.2.1, of3_one]) hC

theorem smul_one_pd {c : ℝ} (hc : 0 < c) : PD (of3 (c • (1 : M3))) := by
  have : of3 (c • (1 : M3)) = diagM 3 fun _ => c := by
    refine ext' rfl rfl fun i j hi hj => ?_
    simp only [of3_rows, of3_cols] at hi hj
    rw [of3_e _ hi hj, diagM_e]
    by_cases h : i = j
    · subst h; simp [hi]
    · simp [h]
  rw [this]
  exact diagM_pd fun _ _ => hc

theorem velH_obs {K : ℕ} (z : V3) (N : M3) : ObsSizes (3 * K + 9) (ofV z) (velH (3 * K + 9)) (of3 N) :=
  ⟨rfl, rfl, rfl, rfl, rfl⟩

theorem velH_eq {n : ℕ} (h : 6 ≤ n) : (zero 3 n).setBlock? 0 3 (of3 1) = some (velH n) := by
  rw [setBlock?_eq (by simp) (by simp; omega)]
  congr 1
  refine ext' rfl rfl fun i j hi hj => ?_
  simp only [setBlockP_rows, setBlockP_cols, zero_rows, zero_cols] at hi hj
  rw [setBlockP_of3_e (by simp) (by simp; omega), velH, ofFn_e_of_lt hi hj]
  by_cases h1 : j = i + 3
  · rw [dif_pos (by omega), if_pos h1]
    have : (⟨i - 0, by omega⟩ : Fin 3) = ⟨j - 3, by omega⟩ := Fin.ext (by simp; omega)
    rw [this, Matrix.one_apply_eq]
  · rw [if_neg h1]
    by_cases h2 : (0 ≤ i ∧ i < 0 + 3) ∧ 3 ≤ j ∧ j < 3 + 3
    · rw [dif_pos h2, Matrix.one_apply_ne]
      intro h; rw [Fin.mk.injEq] at h; omega
    · rw [dif_neg h2, zero_e]

/-- `VelCorr.apply` is the update of the specification -/
theorem velApply_iff {K : ℕ} {s s' : RobotState} (h : Shape K s) (hw : s.stateType = .worldCentric) (c : VelCorr)
    (m : VelMeas) :
    c.apply m s = some s' ↔ VelUpdate c m.vel { s with t := some m.time } s' := by
  have hr := h.x.rows; have hc := h.x.cols; have hK := h.k; have hp := h.pc
  have e0 : s.X.blk3? 0 0 = some (s.X.blk3 0 0) := blk3?_eq (by omega) (by omega)
  have e3 : s.X.blkV? 0 3 = some (s.X.blkV 0 3) := blkV?_eq (by omega) (by omega)
  have eW : RobotState.get_world_rotation { s with t := some m.time } = some (s.X.blk3 0 0) := by
    unfold get_world_rotation get_rotation
    rw [show RobotState.stateType { s with t := some m.time } = .worldCentric from hw]
    exact e0
  have eR : RobotState.get_rotation { s with t := some m.time } = some (s.X.blk3 0 0) := e0
  have eV : RobotState.get_velocity { s with t := some m.time } = some (s.X.blkV 0 3) := e3
  unfold VelCorr.apply VelUpdate
  simp only [Option.bind_eq_bind]
  rw [velH_eq (by unfold dimP; dsimp only; omega), Option.bind_some, eW, eR, eV]
  simp only [Option.bind_some, Option.some.injEq]
  constructor
  · intro h
    refine ⟨_, _, rfl, rfl, ?_⟩
    rw [mulVec_mulVec, ← smul_mulVec]
    exact h
  · rintro ⟨_, _, rfl, rfl, h⟩
    rw [mulVec_mulVec, ← smul_mulVec] at h
    exact h

theorem Shape.setT {K : ℕ} {s : RobotState} (h : Shape K s) (t : Option ℝ) : Shape K { s with t := t } :=
  ⟨h.x, h.k, h.thr, h.thc, h.pr, h.pc⟩

/-- the update is always defined -/
theorem velUpdate_defined {K : ℕ} {s : RobotState} (h : Shape K s) (hP : PSD s.P) {c : VelCorr}
    (hC : PD (of3 c.cov)) (vel : V3) : ∃ s', VelUpdate c vel s s' := by
  have hr := h.x.rows; have hc := h.x.cols; have hK := h.k
  have hp : s.dimP = 3 * K + 9 := h.pc
  set z := c.scale • (s.X.blk3 0 0).mulVec (c.R_vel2body.mulVec vel) - s.X.blkV 0 3 with hz
  have ho := velH_obs (K := K) z (s.X.blk3 0 0 * c.cov * (s.X.blk3 0 0)ᵀ)
  obtain ⟨W, hW⟩ := (innov_pd (priorR_psd (et := c.errorType) h hP)
    (by rw [ho.hc, priorR_rows h]) (pd_rot h.x.rot hC) ho.nr).inv
  refine ⟨corrR K (ofV z) (velH (3 * K + 9)) (of3 (s.X.blk3 0 0 * c.cov * (s.X.blk3 0 0)ᵀ)) W s c.errorType,
    s.X.blk3 0 0, s.X.blkV 0 3, blk3?_eq (by omega) (by omega), blkV?_eq (by omega) (by omega), ?_⟩
  rw [hp]
  exact (correctRight_iff h).mpr ⟨ho, W, hW, rfl⟩

end Drift
