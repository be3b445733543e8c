import Verif.Spec.Legged
import Verif.Lemmas.Correction

/-! # Lemmas: deleting and adding augmented columns keeps the filter well formed -/
set_option linter.unusedSimpArgs false
namespace Drift
open Mat Matrix Finset RobotState

/-- selection matrix: drops the coordinates `i, ..., i+k-1` of `n` -/
def sel (n i k : ℕ) : Mat := ofFn (n - k) n fun a c => if c = skip i k a then 1 else 0

@[simp] theorem sel_rows (n i k) : (sel n i k).rows = n - k := rfl
@[simp] theorem sel_cols (n i k) : (sel n i k).cols = n := rfl

theorem skip_lt {n i k a : ℕ} (h : i + k ≤ n) (ha : a < n - k) : skip i k a < n := by
  unfold skip; split_ifs <;> omega

theorem sel_mul_e {A : Mat} {n i k : ℕ} (h : i + k ≤ n) {a : ℕ} (ha : a < n - k) (b : ℕ) :
    (sel n i k * A).e a b = A.e (skip i k a) b := by
  rw [mul_e, sum_eq_single (skip i k a)]
  · unfold sel; rw [ofFn_e_of_lt ha (skip_lt h ha), if_pos rfl, one_mul]
  · intro c hc hne
    unfold sel; rw [ofFn_e_of_lt ha (by simpa using hc), if_neg hne, zero_mul]
  · intro hh; simp only [sel_cols, mem_range] at hh; exact absurd (skip_lt h ha) hh

theorem mul_selT_e {A : Mat} {n i k : ℕ} (hA : A.cols = n) (h : i + k ≤ n) (a : ℕ) {b : ℕ} (hb : b < n - k) :
    (A * (sel n i k).T).e a b = A.e a (skip i k b) := by
  rw [mul_e, hA, sum_eq_single (skip i k b)]
  · rw [T_e]; unfold sel; rw [ofFn_e_of_lt hb (skip_lt h hb), if_pos rfl, mul_one]
  · intro c hc hne
    rw [T_e]; unfold sel; rw [ofFn_e_of_lt hb (by simpa using hc), if_neg hne, mul_zero]
  · intro hh; simp only [mem_range] at hh; exact absurd (skip_lt h hb) hh

theorem deletes_eq {M M' : Mat} {n i k : ℕ} (hr : M.rows = n) (hc : M.cols = n) (h : i + k ≤ n) (hd : Deletes M M' i k) :
    M' = sel n i k * M * (sel n i k).T := by
  obtain ⟨h1, h2, h3⟩ := hd
  refine ext' (by simp [h1, hr]) (by simp [h2, hc]) fun a b ha hb => ?_
  rw [h3 a b (by omega) (by omega), mul_selT_e (by simp [hc]) h a (by omega), sel_mul_e h (by omega)]

theorem eq_deletes {M : Mat} {n i k : ℕ} (hr : M.rows = n) (hc : M.cols = n) (h : i + k ≤ n) :
    Deletes M (sel n i k * M * (sel n i k).T) i k := by
  refine ⟨by simp [hr], by simp [hc], fun a b ha hb => ?_⟩
  rw [mul_selT_e (by simp [hc]) h a (by omega), sel_mul_e h (by omega)]

theorem psd_deletes {M M' : Mat} {i k : ℕ} (hM : PSD M) (h : i + k ≤ M.rows) (hd : Deletes M M' i k) : PSD M' := by
  rw [deletes_eq rfl hM.sq.symm h hd]
  exact hM.congr rfl

theorem qcOK_del {K i : ℕ} {Q Q' : Mat} (hQ : QcOK (K + 1) Q) (h6 : 6 ≤ i) (hi : i ≤ 3 * K + 3)
    (hd : Deletes Q Q' i 3) : QcOK K Q' := by
  have hr := hQ.r
  refine ⟨by rw [hd.1]; omega, psd_deletes hQ.psd (by omega) hd, fun a b hab => ?_⟩
  by_cases h : a < Q'.rows ∧ b < Q'.cols
  · rw [hd.2.2 a b (by rw [← hd.1]; exact h.1) (by rw [← hd.2.1]; exact h.2)]
    refine hQ.zero _ _ ?_
    unfold skip; split_ifs <;> omega
  · exact Q'.supp a b h

/-- sum of a PSD matrix and a PSD block placed elsewhere on the diagonal -/
theorem psd_placed {Q B : Mat} {n r : ℕ} (hB : PSD B) (hr : Q.rows = n) (hc : Q.cols = n) (h : r + B.rows ≤ n)
    (he : ∀ i j, Q.e i j = if (r ≤ i ∧ i < r + B.rows) ∧ (r ≤ j ∧ j < r + B.rows) then B.e (i - r) (j - r) else 0) :
    PSD Q := by
  obtain ⟨E, hEr, hEc, hEe⟩ : ∃ E : Mat, E.rows = n ∧ E.cols = B.rows ∧
      ∀ i k, i < n → k < B.rows → E.e i k = if i = r + k then 1 else 0 :=
    ⟨ofFn n B.rows fun i k => if i = r + k then 1 else 0, rfl, rfl, fun i k hi hk => ofFn_e_of_lt hi hk⟩
  have : Q = E * B * E.T := by
    refine ext' (by simp [hr, hEr]) (by simp [hc, hEr]) fun i j hi hj => ?_
    rw [hr] at hi; rw [hc] at hj
    have hL : ∀ i b, i < n → (E * B).e i b = if r ≤ i ∧ i < r + B.rows then B.e (i - r) b else 0 := by
      intro i b hi
      rw [mul_e, hEc]
      by_cases h1 : r ≤ i ∧ i < r + B.rows
      · rw [if_pos h1, sum_eq_single (i - r)]
        · rw [hEe _ _ hi (by omega), if_pos (by omega), one_mul]
        · intro c hc' hne
          rw [hEe _ _ hi (by simpa using hc'), if_neg (by omega), zero_mul]
        · intro hh; simp at hh; omega
      · rw [if_neg h1]
        refine sum_eq_zero fun c hc' => ?_
        rw [hEe _ _ hi (by simpa using hc'), if_neg (by simp at hc'; omega), zero_mul]
    have hBc : (E * B).cols = B.rows := by simp [hB.sq]
    rw [he, mul_e, hBc]
    by_cases h2 : r ≤ j ∧ j < r + B.rows
    · rw [sum_eq_single (j - r)]
      · rw [T_e, hEe _ _ hj (by omega), if_pos (c := j = r + (j - r)) (by omega), mul_one, hL i _ hi]
        by_cases h1 : r ≤ i ∧ i < r + B.rows
        · rw [if_pos ⟨h1, h2⟩, if_pos h1]
        · rw [if_neg (by tauto), if_neg h1]
      · intro c hc' hne
        rw [T_e, hEe _ _ hj (by simpa using hc'), if_neg (by omega), mul_zero]
      · intro hh; simp at hh; omega
    · rw [if_neg (by tauto)]
      symm
      refine sum_eq_zero fun c hc' => ?_
      rw [T_e, hEe _ _ hj (by simpa using hc'), if_neg (by simp at hc'; omega), mul_zero]
  rw [this]
  exact hB.congr hEc

theorem qcOK_add {K : ℕ} {Q Q' : Mat} {noise : M3} (hK : 2 ≤ K) (hQ : QcOK K Q) (hn : PSD (of3 noise))
    (he : augQc Q 6 (3 + K + 1) noise = some Q') : QcOK (K + 1) Q' := by
  have hr := hQ.r
  have hc : Q.cols = 3 * K + 9 := by rw [← hQ.psd.sq, hr]
  obtain ⟨Q1, e1, q1, q2, q3⟩ := augQc_spec (Qc := Q) (dX := 3 + K) (noise := noise) (by omega) (by omega) (by omega)
  rw [he] at e1
  cases e1
  have hz : ∀ i j, (i < 6 ∨ 3 * K + 3 ≤ i) ∨ (j < 6 ∨ 3 * K + 3 ≤ j) → Q.e i j = 0 := by
    rintro i j (h | h)
    · exact hQ.zero i j h
    · rw [hQ.psd.sym.e]; exact hQ.zero j i h
  -- the two summands
  set A := ofFn (3 * K + 12) (3 * K + 12) fun i j => if i ≤ 3 + K ∧ j ≤ 3 + K then Q.e i j else 0 with hA
  set B := ofFn (3 * K + 12) (3 * K + 12) fun i j =>
    if (3 * K + 3 ≤ i ∧ i < 3 * K + 3 + (of3 noise).rows) ∧ (3 * K + 3 ≤ j ∧ j < 3 * K + 3 + (of3 noise).rows)
      then (of3 noise).e (i - (3 * K + 3)) (j - (3 * K + 3)) else 0 with hB
  have hApsd : PSD A := by
    have hM : PSD (mask (· ≤ 3 + K) 0 Q) := mask_psd hQ.psd le_rfl
    refine ⟨sym_of rfl ?_, fun x => ?_⟩
    · intro i j hi hj
      rw [hA, ofFn_e_of_lt (by simpa [hA] using hi) (by simpa [hA] using hj),
        ofFn_e_of_lt (by simpa [hA] using hj) (by simpa [hA] using hi)]
      by_cases h : i ≤ 3 + K ∧ j ≤ 3 + K
      · rw [if_pos h, if_pos ⟨h.2, h.1⟩, hQ.psd.sym.e]
      · rw [if_neg h, if_neg (by tauto)]
    · have : quad A x = quad (mask (· ≤ 3 + K) 0 Q) x := by
        have hAe : ∀ i j, A.e i j = (mask (· ≤ 3 + K) 0 Q).e i j := by
          intro i j
          by_cases h : i < 3 * K + 9 ∧ j < 3 * K + 9
          · rw [hA, ofFn_e_of_lt (by omega) (by omega), mask_e (by omega) (by omega)]
            by_cases h' : i ≤ 3 + K ∧ j ≤ 3 + K
            · rw [if_pos h', if_pos h']
            · rw [if_neg h', if_neg h']; simp
          · rw [(mask (· ≤ 3 + K) 0 Q).supp i j (by simp only [mask_rows, mask_cols]; omega), hA, ofFn_e]
            by_cases h' : i < 3 * K + 12 ∧ j < 3 * K + 12
            · rw [if_pos h', if_neg (by omega)]
            · rw [if_neg h']
        unfold quad
        simp only [hAe, mask_rows, mask_cols, hr, hc]
        symm
        show _ = ∑ i ∈ range (3 * K + 12), ∑ j ∈ range (3 * K + 12), _
        have hz' : ∀ i j, ¬ (i < 3 * K + 9 ∧ j < 3 * K + 9) → (mask (· ≤ 3 + K) 0 Q).e i j = 0 := by
          intro i j h; exact (mask (· ≤ 3 + K) 0 Q).supp i j (by simp only [mask_rows, mask_cols]; omega)
        rw [← sum_subset (s₁ := range (3 * K + 9)) (s₂ := range (3 * K + 12)) (by intro y; simp; omega)]
        · refine sum_congr rfl fun i _ => ?_
          rw [← sum_subset (s₁ := range (3 * K + 9)) (s₂ := range (3 * K + 12)) (by intro y; simp; omega)]
          intro j _ hj
          rw [hz' i j (by simp at hj; omega)]; ring
        · intro i _ hi
          refine sum_eq_zero fun j _ => ?_
          rw [hz' i j (by simp at hi; omega)]; ring
      rw [this]; exact hM.2 x
  have hBpsd : PSD B := by
    refine psd_placed hn (n := 3 * K + 12) (r := 3 * K + 3) rfl rfl (by simp) fun i j => ?_
    by_cases h : i < 3 * K + 12 ∧ j < 3 * K + 12
    · rw [hB, ofFn_e_of_lt h.1 h.2]
    · rw [B.supp i j h, if_neg (by simp; omega)]
  have hAe : ∀ i j, i < 3 * K + 12 → j < 3 * K + 12 → A.e i j = if i ≤ 3 + K ∧ j ≤ 3 + K then Q.e i j else 0 :=
    fun i j hi hj => ofFn_e_of_lt hi hj
  have hBe : ∀ i j, i < 3 * K + 12 → j < 3 * K + 12 → B.e i j =
      if (3 * K + 3 ≤ i ∧ i < 3 * K + 3 + 3) ∧ (3 * K + 3 ≤ j ∧ j < 3 * K + 3 + 3)
      then (of3 noise).e (i - (3 * K + 3)) (j - (3 * K + 3)) else 0 :=
    fun i j hi hj => ofFn_e_of_lt hi hj
  have hQ' : Q' = A + B := by
    refine ext' (by simp [hA, q1, hr]) (by simp [hA, q2, hc]) fun i j hi hj => ?_
    rw [add_e' (by simp [hA, hB]) (by simp [hA, hB]), q3 i j (by omega) (by omega), hAe i j (by omega) (by omega),
      hBe i j (by omega) (by omega)]
    by_cases h1 : (3 * K + 3 ≤ i ∧ i < 3 * K + 3 + 3) ∧ (3 * K + 3 ≤ j ∧ j < 3 * K + 3 + 3)
    · rw [dif_pos (by omega), if_pos h1, if_neg (c := i ≤ 3 + K ∧ j ≤ 3 + K) (by omega), zero_add,
        of3_e noise (i := i - (3 * K + 3)) (j := j - (3 * K + 3)) (by omega) (by omega)]
      have e : Q.cols - 6 = 3 * K + 3 := by omega
      simp only [e]
    · rw [dif_neg (by omega), if_neg h1, add_zero]
      by_cases h2 : i ≤ 3 + K ∧ j ≤ 3 + K
      · rw [if_neg (by omega), if_neg (by omega), if_neg (by omega), if_pos h2]
      · rw [if_neg h2]
        by_cases h3 : Q.cols - 3 ≤ i ∧ Q.cols - 3 ≤ j
        · rw [if_pos h3]; exact hz _ _ (by omega)
        rw [if_neg h3]
        by_cases h4 : i ≤ 3 + K ∧ Q.cols - 3 ≤ j
        · rw [if_pos h4]; exact hz _ _ (by omega)
        rw [if_neg h4]
        by_cases h5 : Q.cols - 3 ≤ i ∧ j ≤ 3 + K
        · rw [if_pos h5]; exact hz _ _ (by omega)
        rw [if_neg h5]
  refine ⟨by rw [q1, hr]; ring, by rw [hQ']; exact hApsd.add rfl hBpsd, fun i j hij => ?_⟩
  rw [hQ', add_e' (by simp [hA, hB]) (by simp [hA, hB])]
  have h1 : A.e i j = 0 := by
    rw [hA, ofFn_e]
    by_cases h : i < 3 * K + 12 ∧ j < 3 * K + 12
    · rw [if_pos h]
      by_cases h' : i ≤ 3 + K ∧ j ≤ 3 + K
      · rw [if_pos h']; exact hz _ _ (by omega)
      · rw [if_neg h']
    · rw [if_neg h]
  have h2 : B.e i j = 0 := by
    rw [hB, ofFn_e]
    by_cases h : i < 3 * K + 12 ∧ j < 3 * K + 12
    · rw [if_pos h, if_neg (by simp; omega)]
    · rw [if_neg h]
  rw [h1, h2, add_zero]

end Drift
