import Verif.Lemmas.Stand1

/-! # Lemmas: a linear function of the errors through a correction, and through the removal and addition of contacts (C160) -/
set_option linter.unusedSimpArgs false
namespace Drift
open Mat Matrix Finset RobotState ImuProp

/-- one correction of the right-invariant filter: at the price of the variance of the measurement in the direction `y`, a function of the errors can
be changed by what `H` reads along `y` -/
theorem corr_shift {K : ℕ} {s s' : RobotState} (hsh : Shape K s) (hP : PSD s.P) {Z H N : Mat} (hN : PD N)
    (hs : correctRightInvariant Z H N s .rightInvariant = some s') (x y : ℕ → ℝ) (hx : ∀ i, 3 * K + 3 ≤ i → x i = 0)
    (hy : ∀ i, 3 * K + 3 ≤ i → pull H y i = 0) : quad s'.P x ≤ quad s.P (fun i => x i - pull H y i) + quad N y := by
  have hs1 := C23_right_on_group hsh hs
  obtain ⟨P0, PR, L, PR', E, k1, k2, -, k4, k5, -, -, -, k6, -, k8⟩ := C97_right_correction hsh hP hN hs
  have hPR := k2 rfl
  have hPR' := k6 rfl
  subst hPR
  obtain ⟨ho, -⟩ := (correctRight_iff hsh).mp hs
  have hPr := k1.rows
  have hHc : H.cols = PR.rows := by rw [hPr, ho.hc]
  have hHr : H.rows = N.rows := ho.nr.symm
  have hq : quad s'.P x = quad (errCov PR H N L) x := by
    rw [hPR']
    refine quad_skip ?_ ?_ k8 (hx _ (by omega))
    · rw [← hPR', hs1.pr]; show _ = PR.rows; rw [hPr]
    · rw [← hPR', hs1.pc]; show _ = PR.rows; rw [hPr]
  have hprior : ∀ z : ℕ → ℝ, (∀ i, 3 * K + 3 ≤ i → z i = 0) → quad PR z = quad s.P z := by
    intro z hz
    by_cases hb' : s.enableBias = true
    · rw [k1.on hb']
    · have hb' : s.enableBias = false := by simpa using hb'
      unfold quad
      rw [hPr, k1.cols, hsh.pr, hsh.pc]
      refine sum_congr rfl fun i hi => sum_congr rfl fun j hj => ?_
      by_cases hi6 : i < 3 * K + 3
      · by_cases hj6 : j < 3 * K + 3
        · rw [k1.offMain hb' i j hi6 hj6]
        · rw [hz j (by omega)]; ring
      · rw [hz i (by omega)]; ring
  rw [← hprior _ fun i hi => by rw [hx i hi, hy i hi, sub_zero], hq]
  obtain ⟨S, hS⟩ : ∃ S, ∑ i ∈ range (3 * K + 9), x i * x i = S := ⟨_, rfl⟩
  by_cases h00 : S = 0
  · have hz : ∀ i, i < 3 * K + 9 → x i = 0 := by
      intro i hi
      rw [h00] at hS
      have := (Finset.sum_eq_zero_iff_of_nonneg fun i _ => mul_self_nonneg (x i)).mp hS i (mem_range.mpr hi)
      exact mul_self_eq_zero.mp this
    have e0 : quad (errCov PR H N L) x = 0 := by
      unfold quad
      refine Finset.sum_eq_zero fun i hi => Finset.sum_eq_zero fun j _ => ?_
      have hi' : i < PR.rows := mem_range.mp hi
      rw [hz i (by rw [← hPr]; exact hi')]; ring
    rw [e0]
    exact add_nonneg (k4.2 _) (hN.psd.2 _)
  -- the rank-one gain that moves the function by `y`
  obtain ⟨L', hL'⟩ : ∃ L' : Mat, ofFn (3 * K + 9) N.rows (fun i j => x i / S * y j) = L' := ⟨_, rfl⟩
  have hL'r : L'.rows = PR.rows := by rw [← hL', hPr]; rfl
  have hL'c : L'.cols = H.rows := by rw [← hL', hHr]; rfl
  have hL'y : ∀ k, k < N.rows → ∑ i ∈ range (3 * K + 9), x i * L'.e i k = y k := by
    intro k hk
    have : ∀ i ∈ range (3 * K + 9), x i * L'.e i k = x i * x i * (y k / S) := by
      intro i hi
      rw [← hL', ofFn_e_of_lt (mem_range.mp hi) hk]
      ring
    rw [sum_congr rfl this, ← Finset.sum_mul, hS]
    field_simp
  have hle := k5.2.2 L' hL'r hL'c x
  refine le_trans hle (le_of_eq ?_)
  rw [quad_errCov k4 hHc hN.psd ho.nr hL'r hL'c]
  congr 1
  · refine quad_ext (n := 3 * K + 9) hPr k1.cols fun k hk => ?_
    rw [hPr]
    have e : ∀ i ∈ range (3 * K + 9), x i * (one (3 * K + 9) - L' * H).e i k =
        x i * (one (3 * K + 9)).e i k - ∑ j ∈ range N.rows, x i * L'.e i j * H.e j k := by
      intro i hi
      rw [sub_e' (by show _ = L'.rows; rw [hL'r, hPr]; rfl) (by show _ = H.cols; rw [hHc, hPr]; rfl), mul_sub, mul_e, Finset.mul_sum, hL'c, hHr]
      congr 1
      exact sum_congr rfl fun j _ => by ring
    rw [sum_congr rfl e, Finset.sum_sub_distrib, Finset.sum_comm]
    have e1 : ∑ i ∈ range (3 * K + 9), x i * (one (3 * K + 9)).e i k = x k := pull_one (n := 3 * K + 9) x hk
    rw [e1]
    have e2 : ∀ j ∈ range N.rows, ∑ i ∈ range (3 * K + 9), x i * L'.e i j * H.e j k = y j * H.e j k := by
      intro j hj
      rw [← Finset.sum_mul, hL'y j (mem_range.mp hj)]
    rw [sum_congr rfl e2]
    unfold pull
    rw [hHr]
  · refine quad_ext (n := N.rows) rfl hN.psd.sq.symm fun k hk => ?_
    rw [hL'r, hPr]
    exact hL'y k hk

theorem pull_zero (M : Mat) (i : ℕ) : pull M (fun _ => 0) i = 0 := by simp [pull]

/-- a correction does not make a function of the errors without biases more uncertain -/
theorem corr_le {K : ℕ} {s s' : RobotState} (hsh : Shape K s) (hP : PSD s.P) {Z H N : Mat} (hN : PD N)
    (hs : correctRightInvariant Z H N s .rightInvariant = some s') (x : ℕ → ℝ) (hx : ∀ i, 3 * K + 3 ≤ i → x i = 0) : quad s'.P x ≤ quad s.P x := by
  have h := corr_shift hsh hP hN hs x (fun _ => 0) hx (fun i _ => pull_zero H i)
  have e : quad N (fun _ => 0) = 0 := by simp [quad]
  rw [e, add_zero] at h
  simpa [pull_zero] using h

/-! ### removal and addition of contacts -/

theorem quad_deletes {M M' : Mat} {n i k : ℕ} (hr : M.rows = n) (hc : M.cols = n) (h : i + k ≤ n) (hd : Deletes M M' i k) {x y : ℕ → ℝ}
    (hxy : ∀ a, a < n - k → x (skip i k a) = y a) (hx : ∀ j, i ≤ j → j < i + k → x j = 0) : quad M' y = quad M x := by
  rw [deletes_eq hr hc h hd, quad_congr_mul (by rw [sel_cols, hr]) (by rw [hr, hc])]
  refine quad_ext hr hc fun b hb => ?_
  rw [sel_rows]
  have hs : ∀ a ∈ range (n - k), y a * (sel n i k).e a b = if b = skip i k a then y a else 0 := by
    intro a ha
    unfold sel
    rw [ofFn_e_of_lt (mem_range.mp ha) hb]
    split_ifs <;> ring
  rw [sum_congr rfl hs]
  by_cases hin : i ≤ b ∧ b < i + k
  · rw [hx b hin.1 hin.2]
    refine Finset.sum_eq_zero fun a _ => if_neg ?_
    unfold skip
    split_ifs <;> omega
  · obtain ⟨a, ha, hab⟩ : ∃ a, a < n - k ∧ skip i k a = b := by
      by_cases hlt : b < i
      · exact ⟨b, by omega, by unfold skip; rw [if_pos hlt]⟩
      · exact ⟨b - k, by omega, by unfold skip; rw [if_neg (by omega)]; omega⟩
    rw [Finset.sum_eq_single a]
    · rw [if_pos hab.symm, ← hab, hxy a ha]
    · intro a' _ hne
      refine if_neg fun hh => hne ?_
      rw [← hab] at hh
      unfold skip at hh
      split_ifs at hh <;> omega
    · intro hh; exact absurd (mem_range.mpr ha) hh

/-- the number of the block of the covariance that belongs to a reference -/
def blkOf (h : Heap) (a : ℕ) : ℕ := (h.val a).toNat - 2

theorem Good.blkOf {K : ℕ} {h : Heap} {s : RobotState} (g : Good K h s) {a : ℕ} (ha : some a ∈ s.colMap) :
    3 ≤ blkOf h a ∧ blkOf h a < K + 1 ∧ (h.val a).toNat = blkOf h a + 2 ∧ s.colMap[blkOf h a + 2]? = some (some a) := by
  obtain ⟨j, h5, hj, hja, hv, -⟩ := g.col ha
  have hl := g.len
  unfold Drift.blkOf
  rw [hv, Int.toNat_natCast]
  refine ⟨by omega, by omega, by omega, ?_⟩
  rw [show j - 2 + 2 = j by omega]
  exact hja

theorem qcLe_del {c2 : ℝ} {Q Q' : Mat} {n i : ℕ} (h9 : 9 ≤ i) (hr : Q.rows = n) (hc : Q.cols = n) (hd : Deletes Q Q' i 3) (h : QcLe c2 Q)
    (hc2 : 0 ≤ c2) : QcLe c2 Q' := by
  obtain ⟨d1, d2, d3⟩ := hd
  have key : ∀ a b, (a < Q.rows - 3 ∧ b < Q.cols - 3 ∧ Q'.e a b = Q.e (skip i 3 a) (skip i 3 b)) ∨ Q'.e a b = 0 := by
    intro a b
    by_cases hab : a < Q.rows - 3 ∧ b < Q.cols - 3
    · exact .inl ⟨hab.1, hab.2, d3 a b hab.1 hab.2⟩
    · exact .inr (Q'.supp _ _ (by rintro ⟨q1, q2⟩; exact hab ⟨by rw [← d1]; exact q1, by rw [← d2]; exact q2⟩))
  refine ⟨fun a b hab => ?_, fun a ha => ?_, fun a => ?_⟩
  · rcases key a b with ⟨-, -, e⟩ | e
    · rw [e]
      refine h.off _ _ ?_
      unfold skip
      split_ifs <;> omega
    · exact e
  · rcases key a a with ⟨-, -, e⟩ | e
    · rw [e]; unfold skip; rw [if_pos (by omega)]; exact h.base a ha
    · exact e
  · rcases key a a with ⟨-, -, e⟩ | e
    · rw [e]; exact h.le _
    · rw [e]; exact hc2

theorem qcLe_add {c2 : ℝ} {K : ℕ} {Q Q' : Mat} {r : ℝ} (hK : 2 ≤ K) (hr : Q.rows = 3 * K + 9) (hc : Q.cols = 3 * K + 9)
    (he : augQc Q 6 (3 + K + 1) (r ^ 2 • (1 : M3)) = some Q') (h : QcLe c2 Q) (hc2 : r ^ 2 ≤ c2) : QcLe c2 Q' := by
  obtain ⟨Q1, e1, q1, q2, q3⟩ := augQc_spec (Qc := Q) (dX := 3 + K) (noise := r ^ 2 • (1 : M3)) (by omega) (by omega) (by omega)
  rw [he] at e1
  obtain rfl := Option.some.inj e1
  have h0 : 0 ≤ c2 := le_trans (sq_nonneg r) hc2
  have out : ∀ i j, ¬ (i < Q.rows + 3 ∧ j < Q.cols + 3) → Q'.e i j = 0 := fun i j hh =>
    Q'.supp _ _ (by rintro ⟨p1, p2⟩; exact hh ⟨by rw [← q1]; exact p1, by rw [← q2]; exact p2⟩)
  refine ⟨fun i j hij => ?_, fun i hi => ?_, fun i => ?_⟩
  · by_cases hb : i < Q.rows + 3 ∧ j < Q.cols + 3
    · rw [q3 i j hb.1 hb.2]
      split_ifs with c1 c2' c3 c4 c5
      · rw [Matrix.smul_apply, Matrix.one_apply_ne (by intro hh; have := Fin.mk.inj hh; omega)]; simp
      · exact h.off _ _ (by omega)
      · exact h.off _ _ (by omega)
      · exact h.off _ _ (by omega)
      · exact h.off _ _ hij
      · rfl
    · exact out i j hb
  · rw [q3 i i (by omega) (by omega)]
    rw [dif_neg (by omega), if_neg (by omega), if_neg (by omega), if_neg (by omega)]
    split_ifs
    · exact h.base i hi
    · rfl
  · by_cases hb : i < Q.rows + 3 ∧ i < Q.cols + 3
    · rw [q3 i i hb.1 hb.2]
      split_ifs with c1 c2' c3 c4 c5
      · simpa using hc2
      · exact h.le _
      · omega
      · omega
      · exact h.le _
      · exact h0
    · rw [out i i hb]; exact h0

theorem footL_ext {q q' : ℕ} (hq : 3 ≤ q) (hq' : 3 ≤ q') (x y w : V3) {i i' : ℕ} (hm : i % 3 = i' % 3) (h : i / 3 = i' / 3 ∧ i / 3 < 3 ∨
    3 ≤ i / 3 ∧ 3 ≤ i' / 3 ∧ (i / 3 = q ↔ i' / 3 = q')) : footL q x y w i = footL q' x y w i' := by
  rw [at3_e (footL q x y w) i, at3_e (footL q' x y w) i', footL_at3 hq, footL_at3 hq']
  have hf : (⟨i % 3, Nat.mod_lt _ (by norm_num)⟩ : Fin 3) = ⟨i' % 3, Nat.mod_lt _ (by norm_num)⟩ := Fin.ext hm
  rw [hf]
  refine congrFun ?_ _
  rcases h with ⟨h, h3⟩ | ⟨h1, h2, h⟩
  · rw [h] at h3 ⊢
    rw [if_neg (c := i' / 3 = q) (by omega), if_neg (c := i' / 3 = q') (by omega)]
  · rw [if_neg (by omega), if_neg (by omega), if_neg (by omega), if_neg (c := i' / 3 = 0) (by omega), if_neg (c := i' / 3 = 1) (by omega),
      if_neg (c := i' / 3 = 2) (by omega)]
    by_cases hh : i / 3 = q
    · rw [if_pos hh, if_pos (h.mp hh)]
    · rw [if_neg hh, if_neg (fun k => hh (h.mpr k))]

theorem del_foot {c2 : ℝ} {K : ℕ} {h h1 : Heap} {s s1 : RobotState} (g : Good (K + 1) h s) {a b : ℕ} (ha : some a ∈ s.colMap) (hb : some b ∈ s.colMap)
    (hne : b ≠ a) (e : s.del_aug_state h (h.val a) = some (h1, s1)) (hQ : QcLe c2 s.Qc) (hc2 : 0 ≤ c2) :
    QcLe c2 s1.Qc ∧ some b ∈ s1.colMap ∧ ∀ x y w : V3, quad s1.P (footL (blkOf h1 b) x y w) = quad s.P (footL (blkOf h b) x y w) := by
  obtain ⟨h1', s1', e', g1, d⟩ := del_good g ha
  rw [e] at e'
  simp only [Option.some.injEq, Prod.mk.injEq] at e'
  obtain ⟨rfl, rfl⟩ := e'
  obtain ⟨j, h5, hj, hja, hva, -⟩ := g.col ha
  have x1 := g.shape.x.rows; have x2 := g.shape.x.cols; have p1 := g.shape.pr; have p2 := g.shape.pc
  have hl0 := g.len
  obtain ⟨h1', s1', e', dX, dP, dQ, hl, hn, hm, -⟩ := del_aug_state_spec (idx := j) g.consistent g.tab h5 (by unfold dimX; omega)
  rw [← hva, e] at e'
  simp only [Option.some.injEq, Prod.mk.injEq] at e'
  obtain ⟨rfl, rfl⟩ := e'
  have hb1 : some b ∈ s1.colMap := (d.mem b).mpr ⟨hb, hne⟩
  have qr := g.q.r
  have qc : s.Qc.cols = 3 * (K + 1) + 9 := by rw [← g.q.psd.sq, qr]
  refine ⟨qcLe_del (n := 3 * (K + 1) + 9) (by omega) qr qc dQ hQ hc2, hb1, fun x y w => ?_⟩
  obtain ⟨r1, r2, r3, r4⟩ := g1.blkOf hb1
  obtain ⟨t1, t2, t3, t4⟩ := g.blkOf hb
  have hl1 := g1.len
  have hsk : skip j 1 (blkOf h1 b + 2) = blkOf h b + 2 := by
    rw [hm _ (by omega)] at r4
    exact g.col_unique r4 t4
  have hjb : j ≠ blkOf h b + 2 := by
    rintro rfl
    rw [t4] at hja
    exact hne (Option.some.inj (Option.some.inj hja))
  have dP' : Deletes s.P s1.P (3 * (j - 2)) 3 := by rw [show 3 * (j - 2) = 3 * j - 6 by omega]; exact dP
  have hsk' : (blkOf h1 b < j - 2 → blkOf h b = blkOf h1 b) ∧ (j - 2 ≤ blkOf h1 b → blkOf h b = blkOf h1 b + 1) := by
    unfold skip at hsk
    split_ifs at hsk <;> omega
  refine quad_deletes (n := 3 * (K + 1) + 9) p1 p2 (by omega) dP' (fun i hi => ?_) fun i i1 i2 => ?_
  · by_cases hij : i < 3 * (j - 2)
    · unfold skip
      rw [if_pos hij]
      refine footL_ext t1 r1 x y w rfl ?_
      by_cases h3 : i / 3 < 3
      · exact .inl ⟨rfl, h3⟩
      · refine .inr ⟨by omega, by omega, ?_⟩
        constructor
        · intro hh; by_contra; omega
        · intro hh; by_contra; omega
    · unfold skip
      rw [if_neg hij]
      refine footL_ext t1 r1 x y w (by omega) (.inr ⟨by omega, by omega, ?_⟩)
      rw [show (i + 3) / 3 = i / 3 + 1 by omega]
      constructor
      · intro hh; by_contra; omega
      · intro hh; by_contra; omega
  · rw [at3_e (footL _ x y w) i, footL_at3 t1, if_neg (by omega), if_neg (by omega), if_neg (by omega), if_neg (by omega)]; rfl

theorem add_foot {c2 r : ℝ} {K : ℕ} {h : Heap} {s s1 : RobotState} (g : Good K h s) {b : ℕ} (hb : some b ∈ s.colMap) {aug : V3} {P : Mat} {x : ℤ} {k : ℤ}
    (hP : PSD P) (hr : P.rows = 3 * K + 12) (hd : Deletes P s.P (3 * K + 3) 3) (hpsd : PSD (of3 (r ^ 2 • (1 : M3))))
    (e : s.add_aug_state aug P (r ^ 2 • (1 : M3)) (some (h.alloc x).1) = some (k, s1)) (hQ : QcLe c2 s.Qc) (hc2 : r ^ 2 ≤ c2) :
    QcLe c2 s1.Qc ∧ some b ∈ s1.colMap ∧ blkOf ((h.alloc x).2.write (h.alloc x).1 k) b = blkOf h b ∧
      ∀ x y w : V3, quad s1.P (footL (blkOf h b) x y w) = quad s.P (footL (blkOf h b) x y w) := by
  obtain ⟨k', s1', e', g1, d⟩ := add_good g aug hP hr hpsd x
  rw [e] at e'
  simp only [Option.some.injEq, Prod.mk.injEq] at e'
  obtain ⟨rfl, rfl⟩ := e'
  have hb1 : some b ∈ s1.colMap := (d.mem b).mpr (.inl hb)
  have hl0 := g.len; have hK := g.shape.k; have p1 := g.shape.pr; have p2 := g.shape.pc
  have x2 := g.shape.x.cols
  obtain ⟨s1', e', -, -, -, -, -, -, -, a8, -⟩ := add_aug_state_spec g.consistent aug P (r ^ 2 • (1 : M3)) (some (h.alloc x).1)
  rw [e] at e'
  simp only [Option.some.injEq, Prod.mk.injEq] at e'
  obtain ⟨-, rfl⟩ := e'
  have qr := g.q.r
  have qc : s.Qc.cols = 3 * K + 9 := by rw [← g.q.psd.sq, qr]
  obtain ⟨t1, t2, t3, t4⟩ := g.blkOf hb
  obtain ⟨r1, r2, r3, r4⟩ := g1.blkOf hb1
  refine ⟨qcLe_add hK qr qc (by rw [show 3 + K + 1 = s.dimX + 1 by unfold dimX; omega]; exact a8) hQ hc2, hb1, ?_, fun x' y w => ?_⟩
  · have hm : s1.colMap = s.colMap ++ [some h.next] := by rw [d.frame]
    have : s1.colMap[blkOf h b + 2]? = some (some b) := by
      rw [hm, List.getElem?_append_left (by omega)]; exact t4
    have := g1.col_unique r4 this
    omega
  · rw [d.p]
    symm
    refine quad_deletes (n := 3 * K + 12) hr (by rw [← hP.sq, hr]) (by omega) hd (fun i hi => ?_) fun i i1 i2 => ?_
    · by_cases hij : i < 3 * K + 3
      · unfold skip; rw [if_pos hij]
      · unfold skip
        rw [if_neg hij, footL_high t1 _ _ _ (by omega), footL_high t1 _ _ _ (by omega)]
    · exact footL_high t1 _ _ _ (by omega)

theorem del_qc {c2 : ℝ} {K : ℕ} {h h1 : Heap} {s s1 : RobotState} (g : Good (K + 1) h s) {a : ℕ} (ha : some a ∈ s.colMap)
    (e : s.del_aug_state h (h.val a) = some (h1, s1)) (hQ : QcLe c2 s.Qc) (hc2 : 0 ≤ c2) :
    QcLe c2 s1.Qc ∧ ∀ x y : V3, quad s1.P (lin x y) = quad s.P (lin x y) := by
  obtain ⟨j, h5, hj, hja, hva, -⟩ := g.col ha
  have x1 := g.shape.x.rows; have x2 := g.shape.x.cols; have p1 := g.shape.pr; have p2 := g.shape.pc
  have hl0 := g.len
  obtain ⟨h1', s1', e', dX, dP, dQ, hl, hn, hm, -⟩ := del_aug_state_spec (idx := j) g.consistent g.tab h5 (by unfold dimX; omega)
  rw [← hva, e] at e'
  simp only [Option.some.injEq, Prod.mk.injEq] at e'
  obtain ⟨rfl, rfl⟩ := e'
  have qr := g.q.r
  have qc : s.Qc.cols = 3 * (K + 1) + 9 := by rw [← g.q.psd.sq, qr]
  refine ⟨qcLe_del (n := 3 * (K + 1) + 9) (by omega) qr qc dQ hQ hc2, fun x y => ?_⟩
  have hz : ∀ i, 6 ≤ i → lin x y i = 0 := fun i hi => by
    rw [at3_e (lin x y) i, lin_at3, if_neg (by omega), if_neg (by omega)]; rfl
  refine quad_deletes (n := 3 * (K + 1) + 9) p1 p2 (by omega) dP (fun i hi => ?_) fun i i1 i2 => hz i (by omega)
  unfold skip
  split_ifs with hh
  · rfl
  · rw [hz _ (by omega), hz _ (by omega)]

theorem add_qc {c2 r : ℝ} {K : ℕ} {h : Heap} {s s1 : RobotState} (g : Good K h s) {aug : V3} {P : Mat} {x : ℤ} {k : ℤ}
    (hP : PSD P) (hr : P.rows = 3 * K + 12) (hd : Deletes P s.P (3 * K + 3) 3)
    (e : s.add_aug_state aug P (r ^ 2 • (1 : M3)) (some (h.alloc x).1) = some (k, s1)) (hQ : QcLe c2 s.Qc) (hc2 : r ^ 2 ≤ c2) :
    QcLe c2 s1.Qc ∧ ∀ x y : V3, quad P (lin x y) = quad s.P (lin x y) := by
  have hl0 := g.len; have hK := g.shape.k; have p1 := g.shape.pr; have p2 := g.shape.pc
  have x2 := g.shape.x.cols
  obtain ⟨s1', e', -, -, -, -, -, -, -, a8, -⟩ := add_aug_state_spec g.consistent aug P (r ^ 2 • (1 : M3)) (some (h.alloc x).1)
  rw [e] at e'
  simp only [Option.some.injEq, Prod.mk.injEq] at e'
  obtain ⟨-, rfl⟩ := e'
  have qr := g.q.r
  have qc : s.Qc.cols = 3 * K + 9 := by rw [← g.q.psd.sq, qr]
  refine ⟨qcLe_add hK qr qc (by rw [show 3 + K + 1 = s.dimX + 1 by unfold dimX; omega]; exact a8) hQ hc2, fun x' y => ?_⟩
  have hz : ∀ i, 6 ≤ i → lin x' y i = 0 := fun i hi => by
    rw [at3_e (lin x' y) i, lin_at3, if_neg (by omega), if_neg (by omega)]; rfl
  symm
  refine quad_deletes (n := 3 * K + 12) hr (by rw [← hP.sq, hr]) (by omega) hd (fun i hi => ?_) fun i i1 i2 => hz i (by omega)
  unfold skip
  split_ifs with hh
  · rfl
  · rw [hz _ (by omega), hz _ (by omega)]

/-- the position of a new foot relative to the body is known up to the noise of the measurement -/
theorem aug_new {K : ℕ} (hK : 2 ≤ K) (pose : V3) (W cov : M3) {P : Mat} (hr : P.rows = 3 * K + 9) (hc : P.cols = 3 * K + 9) (x y w : V3) :
    quad (augP K false pose W cov P) (footL (K + 1) x y w) = quad P (lin x y) + w ⬝ᵥ (W * cov * Wᵀ).mulVec w := by
  unfold augP
  rw [quad_add (by simp) (by simp), quad_congr_mul (by simp [hr]; ring) (by rw [hr, hc]), quad_congr_mul (by simp) (by simp)]
  congr 1
  · refine quad_ext hr hc fun i hi => ?_
    change pull (augF K false pose) (footL (K + 1) x y w) i = _
    rw [at3_e (pull (augF K false pose) (footL (K + 1) x y w)) i, at3_e (lin x y) i, lin_at3,
      at3_pull_footL (n := K + 4) (augF_rows _ _ _) (by omega) (by omega)]
    refine congrFun ?_ _
    have b0 := ofBlk_blk3 (a := K + 4) (b := K + 3) (fun i j =>
      if i = K + 1 then (if j = 2 then 1 else if (false : Bool) = true ∧ j = 0 then skew (-pose) else 0)
      else if i < K + 1 then (if i = j then 1 else 0)
      else (if i - 1 = j then (1 : M3) else 0)) (i := 0) (j := i / 3) (by omega) (by omega)
    have b1 := ofBlk_blk3 (a := K + 4) (b := K + 3) (fun i j =>
      if i = K + 1 then (if j = 2 then 1 else if (false : Bool) = true ∧ j = 0 then skew (-pose) else 0)
      else if i < K + 1 then (if i = j then 1 else 0)
      else (if i - 1 = j then (1 : M3) else 0)) (i := 1) (j := i / 3) (by omega) (by omega)
    have b2 := ofBlk_blk3 (a := K + 4) (b := K + 3) (fun i j =>
      if i = K + 1 then (if j = 2 then 1 else if (false : Bool) = true ∧ j = 0 then skew (-pose) else 0)
      else if i < K + 1 then (if i = j then 1 else 0)
      else (if i - 1 = j then (1 : M3) else 0)) (i := 2) (j := i / 3) (by omega) (by omega)
    have b3 := ofBlk_blk3 (a := K + 4) (b := K + 3) (fun i j =>
      if i = K + 1 then (if j = 2 then 1 else if (false : Bool) = true ∧ j = 0 then skew (-pose) else 0)
      else if i < K + 1 then (if i = j then 1 else 0)
      else (if i - 1 = j then (1 : M3) else 0)) (i := K + 1) (j := i / 3) (by omega) (by omega)
    unfold augF
    simp only [Nat.mul_zero, Nat.mul_one, show 3 * 2 = 6 from rfl] at b0 b1 b2 b3
    rw [if_neg (by omega), if_pos (by omega)] at b0 b1 b2
    rw [if_pos trivial] at b3
    rw [b0, b1, b2, b3]
    by_cases h0 : i / 3 = 0
    · simp [h0]
    · by_cases h1 : i / 3 = 1
      · simp [h1]
      · by_cases h2 : i / 3 = 2
        · simp [h2]
        · simp [h0, h1, h2, Ne.symm h0, Ne.symm h1, Ne.symm h2]
  · have e : at3 (pull (augG K W) (footL (K + 1) x y w)) 0 = -(Wᵀ.mulVec w) := by
      rw [at3_pull_footL (n := K + 4) (augG_rows _ _) (by omega) (by omega)]
      have bb := fun {i : ℕ} (hi : i < K + 4) => ofBlk_blk3 (a := K + 4) (b := 1) (fun i _ => if i = K + 1 then W else (0 : M3)) (i := i) (j := 0) hi (by omega)
      have b0 := bb (i := 0) (by omega)
      have b1 := bb (i := 1) (by omega)
      have b2 := bb (i := 2) (by omega)
      have b3 := bb (i := K + 1) (by omega)
      unfold augG
      simp only [Nat.mul_zero, Nat.mul_one, show 3 * 2 = 6 from rfl] at b0 b1 b2 b3 ⊢
      rw [b0, b1, b2, b3, if_neg (by omega), if_neg (by omega), if_neg (by omega), if_pos trivial]
      simp
    rw [quad_of3]
    change ∑ k : Fin 3, ∑ l : Fin 3, pull (augG K W) (footL (K + 1) x y w) k * cov k l * pull (augG K W) (footL (K + 1) x y w) l = _
    have hk : ∀ k : Fin 3, pull (augG K W) (footL (K + 1) x y w) k = -(Wᵀ.mulVec w) k := fun k => by
      have := congrFun e k
      simpa [at3] using this
    simp only [hk]
    have e2 : w ⬝ᵥ (W * cov * Wᵀ).mulVec w = Wᵀ.mulVec w ⬝ᵥ cov.mulVec (Wᵀ.mulVec w) := by
      rw [Matrix.mul_assoc, ← mulVec_mulVec, dotProduct_mulVec, ← mulVec_transpose, ← mulVec_mulVec]
    rw [e2]
    obtain ⟨ω, hω⟩ : ∃ ω, Wᵀ.mulVec w = ω := ⟨_, rfl⟩
    rw [hω]
    simp only [dotProduct, mulVec, Finset.mul_sum]
    refine sum_congr rfl fun k _ => sum_congr rfl fun l _ => ?_
    ring

end Drift
