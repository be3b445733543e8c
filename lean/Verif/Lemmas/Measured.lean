import Verif.Props.BestUpdate
import Verif.Props.Velocity
import Verif.Props.Legged

/-! # Lemmas: the uncertainty of what is measured -/
set_option linter.unusedSimpArgs false
namespace Drift
open Mat Matrix Finset

theorem quad_errCov {P H N L : Mat} (hP : PSD P) (hH : H.cols = P.rows) (hN : PSD N) (hNr : N.rows = H.rows) (hr : L.rows = P.rows)
    (hc : L.cols = H.rows) (y : ℕ → ℝ) :
    quad (errCov P H N L) y = quad P (fun k => ∑ i ∈ range P.rows, y i * (one P.rows - L * H).e i k) + quad N (fun k => ∑ i ∈ range L.rows, y i * L.e i k) := by
  have h1 : (one P.rows - L * H).cols = P.rows := rfl
  unfold errCov
  rw [quad_add (by show P.rows = L.rows; rw [hr]) (by show P.rows = L.rows; rw [hr]), quad_congr_mul h1 hP.sq, quad_congr_mul (by rw [hc, hNr]) hN.sq]
  rfl

/-- the gain that replaces the estimate of `yᵀe`, `y = Hᵀx`, by the measurement of it -/
theorem exists_gain {P H N : Mat} (hP : PSD P) (hH : H.cols = P.rows) (hN : PSD N) (hNr : N.rows = H.rows) (x : ℕ → ℝ)
    (hy : ∃ k < P.rows, ∑ i ∈ range H.rows, x i * H.e i k ≠ 0) :
    ∃ L : Mat, L.rows = P.rows ∧ L.cols = H.rows ∧ quad (errCov P H N L) (fun k => ∑ i ∈ range H.rows, x i * H.e i k) = quad N x := by
  set y : ℕ → ℝ := fun k => ∑ i ∈ range H.rows, x i * H.e i k with hyd
  obtain ⟨k0, hk0, hne⟩ := hy
  have hs : 0 < ∑ k ∈ range P.rows, y k ^ 2 := by
    refine Finset.sum_pos' (fun k _ => sq_nonneg _) ⟨k0, mem_range.mpr hk0, ?_⟩
    exact lt_of_le_of_ne (sq_nonneg _) (pow_ne_zero 2 hne).symm
  set q := ∑ k ∈ range P.rows, y k ^ 2 with hq
  refine ⟨Mat.ofFn P.rows H.rows fun i j => y i * x j / q, rfl, rfl, ?_⟩
  rw [quad_errCov (L := Mat.ofFn P.rows H.rows fun i j => y i * x j / q) hP hH hN hNr rfl rfl]
  have hL : ∀ k, k < H.rows → ∑ i ∈ range P.rows, y i * (Mat.ofFn P.rows H.rows fun i j => y i * x j / q).e i k = x k := by
    intro k hk
    rw [Finset.sum_congr rfl fun i hi => by rw [ofFn_e_of_lt (mem_range.mp hi) hk]]
    have : ∀ i ∈ range P.rows, y i * (y i * x k / q) = y i ^ 2 * (x k / q) := fun i _ => by ring
    rw [Finset.sum_congr rfl this, ← Finset.sum_mul, ← hq]
    field_simp
  have h0 : ∀ k, k < P.rows → ∑ i ∈ range P.rows, y i * (one P.rows - (Mat.ofFn P.rows H.rows fun i j => y i * x j / q) * H).e i k = 0 := by
    intro k hk
    have e : ∀ i ∈ range P.rows, y i * (one P.rows - (Mat.ofFn P.rows H.rows fun i j => y i * x j / q) * H).e i k =
        y i * (if i = k then 1 else 0) - ∑ l ∈ range H.rows, (y i * (Mat.ofFn P.rows H.rows fun i j => y i * x j / q).e i l) * H.e l k := by
      intro i hi
      have hi := mem_range.mp hi
      rw [sub_e, if_pos ⟨hi, hk⟩, one_e, mul_e, mul_sub, Finset.mul_sum]
      congr 1
      · by_cases h : i = k
        · subst h; simp [hi]
        · simp [h]
      · exact Finset.sum_congr rfl fun l _ => by ring
    rw [Finset.sum_congr rfl e, Finset.sum_sub_distrib, Finset.sum_comm]
    have e2 : ∀ l ∈ range H.rows, ∑ i ∈ range P.rows, (y i * (Mat.ofFn P.rows H.rows fun i j => y i * x j / q).e i l) * H.e l k = x l * H.e l k := by
      intro l hl
      rw [← Finset.sum_mul, hL l (mem_range.mp hl)]
    rw [Finset.sum_congr rfl e2]
    simp [hk, hyd]
  have q0 : quad P (fun k => ∑ i ∈ range P.rows, y i * (one P.rows - (Mat.ofFn P.rows H.rows fun i j => y i * x j / q) * H).e i k) = 0 := by
    unfold quad
    refine Finset.sum_eq_zero fun i hi => Finset.sum_eq_zero fun j hj => ?_
    dsimp only
    rw [h0 i (mem_range.mp hi)]; ring
  rw [q0, zero_add]
  unfold quad
  refine Finset.sum_congr rfl fun i hi => Finset.sum_congr rfl fun j hj => ?_
  have hi' : i < H.rows := by rw [← hNr]; exact mem_range.mp hi
  have hj' : j < H.rows := by rw [← hNr, hN.sq]; exact mem_range.mp hj
  show (∑ a ∈ range P.rows, _) * _ * (∑ a ∈ range P.rows, _) = _
  rw [hL i hi', hL j hj']

/-- after a minimum-variance update the measured combination is at most as uncertain as the measurement -/
theorem minVar_le_noise {P H N L : Mat} (hP : PSD P) (hH : H.cols = P.rows) (hN : PSD N) (hNr : N.rows = H.rows) (hm : MinVar P H N L) (x : ℕ → ℝ) :
    quad (errCov P H N L) (fun k => ∑ i ∈ range H.rows, x i * H.e i k) ≤ quad N x := by
  by_cases hy : ∃ k < P.rows, ∑ i ∈ range H.rows, x i * H.e i k ≠ 0
  · obtain ⟨L', h1, h2, h3⟩ := exists_gain hP hH hN hNr x hy
    rw [← h3]
    exact hm.2.2 L' h1 h2 _
  · have hz : ∀ k, k < P.rows → ∑ i ∈ range H.rows, x i * H.e i k = 0 := by
      intro k hk
      by_contra h
      exact hy ⟨k, hk, h⟩
    have : quad (errCov P H N L) (fun k => ∑ i ∈ range H.rows, x i * H.e i k) = 0 := by
      unfold quad
      refine Finset.sum_eq_zero fun i hi => Finset.sum_eq_zero fun j hj => ?_
      have hi' : i < P.rows := mem_range.mp hi
      dsimp only
      rw [hz i hi']; ring
    rw [this]
    exact hN.2 x

/-- no update makes any combination more uncertain -/
theorem minVar_le_prior {P H N L : Mat} (hP : PSD P) (hH : H.cols = P.rows) (hN : PSD N) (hNr : N.rows = H.rows) (hm : MinVar P H N L) (x : ℕ → ℝ) :
    quad (errCov P H N L) x ≤ quad P x := by
  have h := hm.2.2 (zero P.rows H.rows) rfl rfl x
  rw [quad_errCov (L := zero P.rows H.rows) hP hH hN hNr rfl rfl] at h
  refine h.trans (le_of_eq ?_)
  have q0 : quad N (fun k => ∑ i ∈ range (zero P.rows H.rows).rows, x i * (zero P.rows H.rows).e i k) = 0 := by
    unfold quad
    simp
  rw [q0, add_zero]
  unfold quad
  refine Finset.sum_congr rfl fun i hi => Finset.sum_congr rfl fun j hj => ?_
  have hi' : i < P.rows := mem_range.mp hi
  have hj' : j < P.rows := by rw [hP.sq]; exact mem_range.mp hj
  have key : ∀ k, k < P.rows → ∑ a ∈ range P.rows, x a * (one P.rows - zero P.rows H.rows * H).e a k = x k := by
    intro k hk
    have e : ∀ a ∈ range P.rows, x a * (one P.rows - zero P.rows H.rows * H).e a k = if a = k then x a else 0 := by
      intro a ha
      rw [sub_e, if_pos ⟨mem_range.mp ha, by show k < P.rows; exact hk⟩, one_e, mul_e]
      by_cases h : a = k
      · subst h; simp [mem_range.mp ha]
      · simp [h]
    rw [Finset.sum_congr rfl e]
    simp [hk]
  dsimp only
  rw [key i hi', key j hj']

end Drift
