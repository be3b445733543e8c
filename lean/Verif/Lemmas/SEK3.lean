import Verif.Lemmas.SO3

/-! Helper lemmas: explicit forms of SE_K(3) elements, `Exp_SEK3` and `Adjoint_SEK3`. -/
set_option linter.unusedSimpArgs false
namespace Drift
open Matrix Mat Finset

/-! ### SE_K(3) elements in explicit form -/

/-- the SE_K(3) matrix with rotation `R` and columns `p 0, ..., p (K-1)` -/
def mkSE (K : ℕ) (R : M3) (p : ℕ → V3) : Mat :=
  ofFn (3 + K) (3 + K) fun i j =>
    if hi : i < 3 then
      (if hj : j < 3 then R ⟨i, hi⟩ ⟨j, hj⟩ else p (j - 3) ⟨i, hi⟩)
    else if i = j then 1 else 0

@[simp] theorem mkSE_rows (K R p) : (mkSE K R p).rows = 3 + K := rfl
@[simp] theorem mkSE_cols (K R p) : (mkSE K R p).cols = 3 + K := rfl

theorem mkSE_e_rot (K R p) (i j : Fin 3) : (mkSE K R p).e i j = R i j := by
  have hi := i.2; have hj := j.2
  unfold mkSE
  rw [ofFn_e_of_lt (by omega) (by omega), dif_pos hi, dif_pos hj]

theorem mkSE_e_col (K R p) (i : Fin 3) {k : ℕ} (hk : k < K) : (mkSE K R p).e i (3 + k) = p k i := by
  have hi := i.2
  unfold mkSE
  rw [ofFn_e_of_lt (by omega) (by omega), dif_pos hi, dif_neg (by omega)]
  simp

theorem mkSE_e_bot (K R p) {i j : ℕ} (hi : 3 ≤ i) (hi' : i < 3 + K) (hj : j < 3 + K) :
    (mkSE K R p).e i j = if i = j then 1 else 0 := by
  unfold mkSE
  rw [ofFn_e_of_lt hi' hj, dif_neg (by omega)]

@[simp] theorem mkSE_blk3 (K R p) : (mkSE K R p).blk3 0 0 = R := by
  ext i j; simp only [blk3_apply, Nat.zero_add]; exact mkSE_e_rot K R p i j

theorem mkSE_blkV (K R p) {k : ℕ} (hk : k < K) : (mkSE K R p).blkV 0 (3 + k) = p k := by
  ext i; simp only [blkV_apply, Nat.zero_add]; exact mkSE_e_col K R p i hk

theorem mkSE_blkV3 (K R p) (hk : 0 < K) : (mkSE K R p).blkV 0 3 = p 0 := mkSE_blkV K R p hk
theorem mkSE_blkV4 (K R p) (hk : 1 < K) : (mkSE K R p).blkV 0 4 = p 1 := mkSE_blkV K R p hk

theorem sek_isSEK {K R p} (h : IsRot R) : IsSEK K (mkSE K R p) where
  rows := rfl
  cols := rfl
  rot := by rw [mkSE_blk3]; exact h
  bot i j hi hi' hj := mkSE_e_bot K R p hi hi' hj

/-- any matrix with identity bottom rows is of this form -/
theorem eq_mkSE {K : ℕ} {X : Mat} (hr : X.rows = 3 + K) (hc : X.cols = 3 + K)
    (hb : ∀ i j, 3 ≤ i → i < 3 + K → j < 3 + K → X.e i j = if i = j then 1 else 0) :
    X = mkSE K (X.blk3 0 0) (fun k => X.blkV 0 (3 + k)) := by
  refine ext' hr hc fun i j hi hj => ?_
  rw [hr] at hi; rw [hc] at hj
  by_cases hi3 : i < 3
  · by_cases hj3 : j < 3
    · have := mkSE_e_rot K (X.blk3 0 0) (fun k => X.blkV 0 (3 + k)) ⟨i, hi3⟩ ⟨j, hj3⟩
      rw [this]; simp
    · have := mkSE_e_col K (X.blk3 0 0) (fun k => X.blkV 0 (3 + k)) ⟨i, hi3⟩ (k := j - 3) (by omega)
      rw [show 3 + (j - 3) = j by omega] at this
      rw [this]; simp [show 3 + (j - 3) = j by omega]
  · rw [hb i j (by omega) hi hj, mkSE_e_bot K _ _ (by omega) hi hj]

theorem IsSEK.eq_mk {K : ℕ} {X : Mat} (h : IsSEK K X) :
    X = mkSE K (X.blk3 0 0) (fun k => X.blkV 0 (3 + k)) := eq_mkSE h.rows h.cols h.bot

theorem mkSE_congr {K : ℕ} {R S : M3} {p q : ℕ → V3} (h : R = S) (hp : ∀ k < K, p k = q k) :
    mkSE K R p = mkSE K S q := by
  subst h
  refine ext' rfl rfl fun i j hi hj => ?_
  simp only [mkSE_rows, mkSE_cols] at hi hj
  unfold mkSE
  rw [ofFn_e_of_lt hi hj, ofFn_e_of_lt hi hj]
  split_ifs with h1 h2
  · rfl
  · rw [hp _ (by omega)]
  · rfl
  · rfl

theorem mkSE_inj {K : ℕ} {R S : M3} {p q : ℕ → V3} (h : mkSE K R p = mkSE K S q) :
    R = S ∧ ∀ k < K, p k = q k := by
  constructor
  · rw [← mkSE_blk3 K R p, h, mkSE_blk3]
  · intro k hk; rw [← mkSE_blkV K R p hk, h, mkSE_blkV K S q hk]

theorem one_eq_mkSE (K : ℕ) : one (3 + K) = mkSE K 1 (fun _ => 0) := by
  have h := eq_mkSE (K := K) (X := one (3 + K)) rfl rfl (by
    intro i j _ hi _; rw [one_e]; simp [hi])
  rw [h]
  refine mkSE_congr ?_ ?_
  · ext i j
    have := i.2
    simp only [blk3_apply, one_e, Matrix.one_apply, Fin.ext_iff, Nat.zero_add]
    simp [show (i : ℕ) < 3 + K by omega]
  · intro k _
    ext i
    have := i.2
    simp only [blkV_apply, one_e]
    rw [if_neg (by omega)]; rfl

theorem mkSE_mul (K : ℕ) (R S : M3) (p q : ℕ → V3) :
    mkSE K R p * mkSE K S q = mkSE K (R * S) (fun k => R.mulVec (q k) + p k) := by
  have top : ∀ (i : ℕ) (j : ℕ), (mkSE K R p * mkSE K S q).e i j =
      (∑ k : Fin 3, (mkSE K R p).e i k * (mkSE K S q).e k j) +
      ∑ k ∈ range K, (mkSE K R p).e i (3 + k) * (mkSE K S q).e (3 + k) j := by
    intro i j
    rw [mul_e, mkSE_cols, sum_range_add, ← sum_range (f := fun k => (mkSE K R p).e i k * (mkSE K S q).e k j)]
  have h := eq_mkSE (K := K) (X := mkSE K R p * mkSE K S q) rfl rfl (by
    intro i j hi hi' hj
    rw [top]
    have h1 : ∑ k : Fin 3, (mkSE K R p).e i k * (mkSE K S q).e k j = 0 := by
      refine sum_eq_zero fun k _ => ?_
      have := k.2
      rw [mkSE_e_bot K R p hi hi' (by omega), if_neg (by omega), zero_mul]
    rw [h1, zero_add, sum_eq_single (i - 3)]
    · rw [show 3 + (i - 3) = i by omega, mkSE_e_bot K R p hi hi' hi', mkSE_e_bot K S q hi hi' hj]
      simp
    · intro k hk hne
      rw [mkSE_e_bot K R p hi hi' (by simp at hk; omega), if_neg (by omega), zero_mul]
    · intro hk; simp at hk; omega)
  rw [h]
  refine mkSE_congr ?_ ?_
  · ext i j
    have hj := j.2
    rw [blk3_apply, Nat.zero_add, Nat.zero_add, top, Matrix.mul_apply]
    have h2 : ∑ k ∈ range K, (mkSE K R p).e i (3 + k) * (mkSE K S q).e (3 + k) j = 0 := by
      refine sum_eq_zero fun k hk => ?_
      simp at hk
      rw [mkSE_e_bot K S q (by omega) (by omega) (by omega), if_neg (by omega), mul_zero]
    rw [h2, add_zero]
    exact sum_congr rfl fun k _ => by rw [mkSE_e_rot, mkSE_e_rot]
  · intro k hk
    ext i
    rw [blkV_apply, Nat.zero_add, top, Pi.add_apply]
    congr 1
    · simp only [Matrix.mulVec, dotProduct]
      exact sum_congr rfl fun l _ => by rw [mkSE_e_rot, mkSE_e_col K S q l hk]
    · rw [sum_eq_single k]
      · rw [mkSE_e_col K R p i hk, mkSE_e_bot K S q (by omega) (by omega) (by omega)]; simp
      · intro l hl hne
        simp at hl
        rw [mkSE_e_bot K S q (by omega) (by omega) (by omega), if_neg (by omega), mul_zero]
      · intro hk'; simp at hk'; omega

theorem IsSEK.mul {K : ℕ} {X Y : Mat} (hX : IsSEK K X) (hY : IsSEK K Y) : IsSEK K (X * Y) := by
  rw [hX.eq_mk, hY.eq_mk, mkSE_mul]
  exact sek_isSEK (hX.rot.mul hY.rot)

theorem IsSEK.one (K : ℕ) : IsSEK K (Mat.one (3 + K)) := by
  rw [one_eq_mkSE]; exact sek_isSEK IsRot.one

/-- explicit inverse -/
theorem mkSE_inv_right {K R p} (h : IsRot R) :
    mkSE K R p * mkSE K Rᵀ (fun k => -(Rᵀ.mulVec (p k))) = one (3 + K) := by
  rw [mkSE_mul, one_eq_mkSE]
  refine mkSE_congr h.2.1 fun k _ => ?_
  rw [mulVec_neg, mulVec_mulVec, h.2.1, one_mulVec]; simp

theorem mkSE_inv_left {K R p} (h : IsRot R) :
    mkSE K Rᵀ (fun k => -(Rᵀ.mulVec (p k))) * mkSE K R p = one (3 + K) := by
  rw [mkSE_mul, one_eq_mkSE]
  refine mkSE_congr h.1 fun k _ => ?_
  simp

/-! ### block matrices -/

/-- the `3a x 3b` matrix with 3x3 blocks `f i j` -/
def ofBlk (a b : ℕ) (f : ℕ → ℕ → M3) : Mat :=
  ofFn (3 * a) (3 * b) fun i j =>
    f (i / 3) (j / 3) ⟨i % 3, Nat.mod_lt _ (by norm_num)⟩ ⟨j % 3, Nat.mod_lt _ (by norm_num)⟩

@[simp] theorem ofBlk_rows (a b f) : (ofBlk a b f).rows = 3 * a := rfl
@[simp] theorem ofBlk_cols (a b f) : (ofBlk a b f).cols = 3 * b := rfl

theorem ofBlk_blk3 {a b : ℕ} (f) {i j : ℕ} (hi : i < a) (hj : j < b) :
    (ofBlk a b f).blk3 (3 * i) (3 * j) = f i j := by
  ext k l
  have hk := k.2; have hl := l.2
  rw [blk3_apply]; unfold ofBlk
  rw [ofFn_e_of_lt (by omega) (by omega)]
  have e1 : (3 * i + (k : ℕ)) / 3 = i := by omega
  have e2 : (3 * j + (l : ℕ)) / 3 = j := by omega
  have e3 : (⟨(3 * i + (k : ℕ)) % 3, Nat.mod_lt _ (by norm_num)⟩ : Fin 3) = k := by
    ext; simp <;> omega
  have e4 : (⟨(3 * j + (l : ℕ)) % 3, Nat.mod_lt _ (by norm_num)⟩ : Fin 3) = l := by
    ext; simp <;> omega
  rw [e1, e2, e3, e4]

theorem eq_ofBlk {A : Mat} {a b : ℕ} (hr : A.rows = 3 * a) (hc : A.cols = 3 * b) :
    A = ofBlk a b fun i j => A.blk3 (3 * i) (3 * j) :=
  ext_blk3 hr hc rfl rfl fun i j hi hj => by rw [ofBlk_blk3 _ hi hj]

theorem ofBlk_congr {a b : ℕ} {f g : ℕ → ℕ → M3} (h : ∀ i j, i < a → j < b → f i j = g i j) :
    ofBlk a b f = ofBlk a b g :=
  ext_blk3 (a := a) (b := b) rfl rfl rfl rfl fun i j hi hj => by
    rw [ofBlk_blk3 _ hi hj, ofBlk_blk3 _ hi hj, h i j hi hj]

theorem ofBlk_mul (a n b : ℕ) (f g) :
    ofBlk a n f * ofBlk n b g = ofBlk a b fun i j => ∑ k ∈ range n, f i k * g k j := by
  refine ext_blk3 (a := a) (b := b) rfl rfl rfl rfl fun i j hi hj => ?_
  rw [blk3_mul _ _ (n := n) rfl, ofBlk_blk3 _ hi hj]
  refine sum_congr rfl fun k hk => ?_
  have hk' := mem_range.mp hk
  rw [ofBlk_blk3 _ hi hk', ofBlk_blk3 _ hk' hj]

theorem ofBlk_T (a b : ℕ) (f) : (ofBlk a b f).T = ofBlk b a fun i j => (f j i)ᵀ := by
  refine ext_blk3 (a := b) (b := a) rfl rfl rfl rfl fun i j hi hj => ?_
  rw [blk3_T, ofBlk_blk3 _ hj hi, ofBlk_blk3 _ hi hj]

theorem one_eq_ofBlk (n : ℕ) : one (3 * n) = ofBlk n n fun i j => if i = j then 1 else 0 := by
  refine ext_blk3 (a := n) (b := n) rfl rfl rfl rfl fun i j hi hj => ?_
  rw [blk3_one n hi hj, ofBlk_blk3 _ hi hj]

/-! ### `Exp_SEK3` -/

theorem expPair_eq (w : V3) :
    (if norm3 w < TOLERANCE then ((1 : M3), (1 : M3))
      else (1 + (Real.sin (norm3 w) / norm3 w) • skew w
            + ((1 - Real.cos (norm3 w)) / (norm3 w * norm3 w)) • (skew w * skew w),
          1 + ((1 - Real.cos (norm3 w)) / (norm3 w * norm3 w)) • skew w
            + ((norm3 w - Real.sin (norm3 w)) / (norm3 w * norm3 w * norm3 w)) • (skew w * skew w)))
      = (Gam0 w, Gam1 w) := by
  unfold Gam0 Gam1
  split_ifs with h
  · rfl
  · rw [gammaCase0_eq, gammaCase1_eq, norm3_mul_self]

/-- `Exp_SEK3` never fails on a vector of size `3+3K`, and its value in explicit form. -/
theorem exp_SEK3_eq {v : Mat} {K : ℕ} (hr : v.rows = 3 + 3 * K) (hc : v.cols = 1) :
    exp_SEK3 v = some (mkSE K (Gam0 (v.blkV 0 0))
      (fun k => (Gam1 (v.blkV 0 0)).mulVec (v.blkV (3 + 3 * k) 0))) := by
  unfold exp_SEK3
  have hK : (v.rows - 3) / 3 = K := by omega
  have h0 : v.blkV? 0 0 = some (v.blkV 0 0) := by
    unfold blkV?; rw [if_pos (by omega)]
  simp only [h0, Option.bind_eq_bind, Option.bind_some, hK, expPair_eq]
  set w := v.blkV 0 0
  have h1 : (one (3 + K)).setBlock? 0 0 (of3 (Gam0 w)) = some (mkSE K (Gam0 w) fun _ => 0) := by
    unfold setBlock?
    rw [if_pos (by simp)]
    congr 1
    refine ext' rfl rfl fun i j hi hj => ?_
    simp only [setBlockP_rows, setBlockP_cols, one_rows, one_cols] at hi hj
    rw [setBlockP_of3_e (by simp) (by simp)]
    unfold mkSE
    rw [ofFn_e_of_lt hi hj, one_e]
    by_cases hi3 : i < 3 <;> by_cases hj3 : j < 3
    · rw [dif_pos (by omega), dif_pos hi3, dif_pos hj3]; simp
    · rw [dif_neg (by omega), dif_pos hi3, dif_neg hj3, if_neg (by omega)]; rfl
    · rw [dif_neg (by omega), dif_neg hi3, if_neg (by omega), if_neg (by omega)]
    · rw [dif_neg (by omega), dif_neg hi3]; simp [hi]
  rw [h1, Option.bind_some]
  obtain ⟨t, ht, hI⟩ := forRange_inv
    (Inv := fun i X => X = mkSE K (Gam0 w)
      (fun k => if k < i then (Gam1 w).mulVec (v.blkV (3 + 3 * k) 0) else 0))
    (n := K) (s := mkSE K (Gam0 w) fun _ => 0)
    (f := fun i X => (v.blkV? (3 + 3 * i) 0).bind fun vi =>
      X.setBlock? 0 (3 + i) (ofV ((Gam1 w).mulVec vi)))
    (by simp) (by
      rintro i X hi rfl
      have hv : v.blkV? (3 + 3 * i) 0 = some (v.blkV (3 + 3 * i) 0) := by
        unfold blkV?; rw [if_pos (by omega)]
      refine ⟨_, by rw [hv, Option.bind_some]; unfold setBlock?; rw [if_pos (by simp; omega)], ?_⟩
      refine ext' rfl rfl fun a b ha hb => ?_
      simp only [setBlockP_rows, setBlockP_cols, mkSE_rows, mkSE_cols] at ha hb
      rw [setBlockP_ofV_e (by simp) (by simp; omega)]
      unfold mkSE
      rw [ofFn_e_of_lt ha hb, ofFn_e_of_lt ha hb]
      by_cases ha3 : a < 3
      · by_cases hbi : b = 3 + i
        · subst hbi
          rw [dif_pos (by omega), dif_pos ha3, dif_neg (by omega)]
          simp
        · rw [dif_neg (by omega), dif_pos ha3, dif_pos ha3]
          by_cases hb3 : b < 3
          · rw [dif_pos hb3, dif_pos hb3]
          · rw [dif_neg hb3, dif_neg hb3]
            show (if b - 3 < i then _ else _ : V3) _ = (if b - 3 < i + 1 then _ else _ : V3) _
            by_cases hbi' : b - 3 < i
            · rw [if_pos hbi', if_pos (by omega)]
            · rw [if_neg hbi', if_neg (by omega)]
      · rw [dif_neg (by omega), dif_neg ha3, dif_neg ha3])
  rw [ht, hI]
  congr 1
  exact mkSE_congr rfl fun k hk => by simp [hk]

/-! ### `Adjoint_SEK3` -/

/-- the blocks of the adjoint of `mkSE K R p` -/
noncomputable def adjF (R : M3) (p : ℕ → V3) (b c : ℕ) : M3 :=
  if b = c then R else if c = 0 then skew (p (b - 1)) * R else 0

theorem adjoint_SEK3_eq {X : Mat} {K : ℕ} (hr : 3 ≤ X.rows) (hc : X.cols = 3 + K) :
    adjoint_SEK3 X = some (ofBlk (K + 1) (K + 1)
      (adjF (X.blk3 0 0) (fun k => X.blkV 0 (3 + k)))) := by
  unfold adjoint_SEK3
  have h0 : X.blk3? 0 0 = some (X.blk3 0 0) := by unfold blk3?; rw [if_pos (by omega)]
  have hK : X.cols - 3 = K := by omega
  simp only [h0, Option.bind_eq_bind, Option.bind_some, hK]
  set R := X.blk3 0 0
  set p := fun k => X.blkV 0 (3 + k)
  have z : zero (3 + 3 * K) (3 + 3 * K) = ofBlk (K + 1) (K + 1) fun _ _ => 0 := by
    refine ext_blk3 (a := K + 1) (b := K + 1) (by simp; ring) (by simp; ring) rfl rfl fun i j hi hj => ?_
    rw [ofBlk_blk3 _ hi hj]; ext; simp
  have set1 : ∀ (f : ℕ → ℕ → M3) (a b : ℕ) (M : M3), a < K + 1 → b < K + 1 →
      (ofBlk (K + 1) (K + 1) f).setBlock? (3 * a) (3 * b) (of3 M) =
        some (ofBlk (K + 1) (K + 1) fun i j => if i = a ∧ j = b then M else f i j) := by
    intro f a b M ha hb
    unfold setBlock?
    rw [if_pos (by simp; omega)]
    congr 1
    refine ext_blk3 (a := K + 1) (b := K + 1) rfl rfl rfl rfl fun i j hi hj => ?_
    rw [ofBlk_blk3 _ hi hj]
    by_cases h : i = a ∧ j = b
    · rw [if_pos h, h.1, h.2, blk3_setBlockP_same (by simp; omega) (by simp; omega)]
    · rw [if_neg h, blk3_setBlockP_disj (by simp; omega) (by simp; omega) (by omega), ofBlk_blk3 _ hi hj]
  have e0 := set1 (fun _ _ => 0) 0 0 R (by omega) (by omega)
  rw [z]
  simp only [Nat.mul_zero] at e0
  rw [e0, Option.bind_some]
  obtain ⟨t, ht, hI⟩ := forRange_inv
    (Inv := fun n A => A = ofBlk (K + 1) (K + 1)
      (fun b c => if b ≤ n then adjF R p b c else 0))
    (n := K) (s := ofBlk (K + 1) (K + 1) fun i j => if i = 0 ∧ j = 0 then R else 0)
    (f := fun i Adj => (Adj.setBlock? (3 + 3 * i) (3 + 3 * i) (of3 R)).bind fun Adj =>
      (X.blkV? 0 (3 + i)).bind fun q => Adj.setBlock? (3 + 3 * i) 0 (of3 (skew q * R)))
    (by
      refine ofBlk_congr fun b c _ _ => ?_
      unfold adjF
      by_cases hb : b = 0 <;> by_cases hc : c = 0
      · subst hb hc; simp
      · subst hb; simp [hc, Ne.symm hc]
      · subst hc; simp [hb]
      · simp [hb, hc]) (by
      rintro i A hi rfl
      have hv : X.blkV? 0 (3 + i) = some (p i) := by
        unfold blkV?; rw [if_pos (by omega)]
      have s1 := set1 (fun b c => if b ≤ i then adjF R p b c else 0) (i + 1) (i + 1) R
        (by omega) (by omega)
      rw [show 3 * (i + 1) = 3 + 3 * i by ring] at s1
      have s2 := set1 (fun a b => if a = i + 1 ∧ b = i + 1 then R else
        if a ≤ i then adjF R p a b else 0) (i + 1) 0 (skew (p i) * R) (by omega) (by omega)
      rw [show 3 * (i + 1) = 3 + 3 * i by ring, Nat.mul_zero] at s2
      refine ⟨_, by rw [s1, Option.bind_some, hv, Option.bind_some, s2], ?_⟩
      refine ofBlk_congr fun b c _ _ => ?_
      unfold adjF
      by_cases hb : b = i + 1
      · subst hb
        by_cases hc : c = 0
        · subst hc; simp
        · by_cases hci : c = i + 1
          · subst hci; simp
          · simp [hc, hci, Ne.symm hci]
      · by_cases hle : b ≤ i
        · simp [hb, hle, show b ≤ i + 1 by omega]
        · simp [hb, hle, show ¬ b ≤ i + 1 by omega])
  rw [ht, hI]
  congr 1
  exact ofBlk_congr fun b c hb _ => by rw [if_pos (by omega)]

theorem adjoint_mkSE (K : ℕ) (R : M3) (p : ℕ → V3) :
    adjoint_SEK3 (mkSE K R p) = some (ofBlk (K + 1) (K + 1) (adjF R p)) := by
  rw [adjoint_SEK3_eq (K := K) (by simp) rfl]
  congr 1
  refine ofBlk_congr fun b c hb hc => ?_
  unfold adjF
  rw [mkSE_blk3]
  split_ifs with h1 h2
  · rfl
  · show skew ((mkSE K R p).blkV 0 (3 + (b - 1))) * R = _
    rw [mkSE_blkV _ _ _ (by omega)]
  · rfl

/-- homomorphism, block form -/
theorem adjF_mul {K : ℕ} {R S : M3} {p q : ℕ → V3} (hR : IsRot R) :
    ofBlk (K + 1) (K + 1) (adjF R p) * ofBlk (K + 1) (K + 1) (adjF S q) =
      ofBlk (K + 1) (K + 1) (adjF (R * S) (fun k => R.mulVec (q k) + p k)) := by
  rw [ofBlk_mul]
  refine ofBlk_congr fun b c hb hc => ?_
  by_cases hb0 : b = 0
  · -- first block row: only (0,0)
    subst hb0
    rw [sum_eq_single 0]
    · unfold adjF
      by_cases hc0 : c = 0
      · subst hc0; simp
      · simp [hc0, Ne.symm hc0]
    · intro k _ hk; unfold adjF; simp [hk, Ne.symm hk]
    · intro h; simp at h
  · by_cases hc0 : c = 0
    · subst hc0
      rw [← sum_subset (s₁ := {0, b}) (by intro x hx; simp at hx ⊢; omega)]
      · rw [sum_pair (Ne.symm hb0)]
        unfold adjF
        simp only [hb0, if_false, if_true]
        rw [skew_add, Matrix.add_mul, Matrix.mul_assoc, ← Matrix.mul_assoc R, rot_skew hR]
        simp only [Matrix.mul_assoc]
        rw [add_comm]
      · intro k _ hk
        simp at hk
        unfold adjF
        simp [hk, Ne.symm hk.2]
    · rw [sum_eq_single b]
      · unfold adjF
        by_cases hbc : b = c
        · subst hbc; simp
        · simp [hbc, hc0]
      · intro k _ hk
        unfold adjF
        by_cases hk0 : k = 0
        · subst hk0; simp [hc0, Ne.symm hc0]
        · simp [hk0, Ne.symm hk]
      · intro h; simp at h; omega

theorem adjF_one (K : ℕ) : ofBlk (K + 1) (K + 1) (adjF 1 fun _ => 0) = one (3 * (K + 1)) := by
  rw [one_eq_ofBlk]
  refine ofBlk_congr fun b c _ _ => ?_
  unfold adjF
  split_ifs <;> simp [skew_zero]

/-- block-vector product -/
theorem blkV_mul (A v : Mat) {n : ℕ} (h : A.cols = 3 * n) (r c : ℕ) :
    (A * v).blkV r c = ∑ k ∈ range n, (A.blk3 r (3 * k)).mulVec (v.blkV (3 * k) c) := by
  ext i
  rw [blkV_apply, mul_e, h, sum_range_three_mul, Finset.sum_apply]
  rfl

end Drift
