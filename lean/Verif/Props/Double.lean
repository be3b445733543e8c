import Verif.Lemmas.Double
import Verif.Model.Double

/-!
# Time stamps and log files in binary64 arithmetic
-/
namespace Drift
open F64

/-! ### C126 -/

/-- a stamp as ROS delivers it: nanoseconds below one second, seconds below 2^32 -/
def Stamp.Valid (s : Stamp) : Prop := s.sec < 2 ^ 32 ∧ s.nsec < 1000000000

theorem nsec_le_one (R : Round) {s : Stamp} (h : s.Valid) : 0 ≤ R.rn (s.nsec / 1000000000) ∧ R.rn (s.nsec / 1000000000) ≤ 1 := by
  have h1 : (s.nsec : ℝ) ≤ 1000000000 := by exact_mod_cast h.2.le
  constructor
  · rw [← rn_of_F R IsF.zero]; exact rn_mono R (by positivity)
  · have : R.rn 1 = 1 := rn_of_F R (by simpa using IsF.nat (n := 1) (by norm_num))
    rw [← this]; exact rn_mono R (by rw [div_le_one (by norm_num)]; exact h1)

/-- **C126**: converted stamps are in the order of the stamps of the messages. -/
theorem C126_order (R : Round) {a b : Stamp} (ha : a.Valid) (hb : b.Valid) (h : a.toSec ≤ b.toSec) : stamp R a ≤ stamp R b := by
  have h1 : (a.nsec : ℝ) < 1000000000 := by exact_mod_cast ha.2
  have h2 : (b.nsec : ℝ) < 1000000000 := by exact_mod_cast hb.2
  unfold Stamp.toSec at h
  have hs : a.sec ≤ b.sec := by
    by_contra hc
    have hc : b.sec + 1 ≤ a.sec := by omega
    have hc : (b.sec : ℝ) + 1 ≤ a.sec := by exact_mod_cast hc
    have h3 : (b.nsec : ℝ) / 1000000000 < 1 := by rw [div_lt_one (by norm_num)]; exact h2
    have h4 : 0 ≤ (a.nsec : ℝ) / 1000000000 := by positivity
    linarith
  apply rn_mono
  rcases hs.lt_or_eq with hs | hs
  · have hs : (a.sec : ℝ) + 1 ≤ b.sec := by exact_mod_cast hs
    have h3 := (nsec_le_one R ha).2
    have h4 := (nsec_le_one R hb).1
    linarith
  · rw [hs] at h ⊢
    have := rn_mono R (show (a.nsec : ℝ) / 1000000000 ≤ b.nsec / 1000000000 by linarith)
    linarith

/-- **C126**: until the year 2038 a converted stamp is within 120 ns of the stamp of the message. -/
theorem C126_accuracy (R : Round) {s : Stamp} (h : s.Valid) (hs : s.sec < 2 ^ 31) : |stamp R s - s.toSec| < 120 / 1000000000 := by
  obtain ⟨h0, h1⟩ := nsec_le_one R h
  have hn : (s.nsec : ℝ) < 1000000000 := by exact_mod_cast h.2
  have hs' : (s.sec : ℝ) ≤ 2 ^ 31 - 1 := by
    have : s.sec + 1 ≤ 2 ^ 31 := hs
    have : (s.sec : ℝ) + 1 ≤ 2 ^ 31 := by exact_mod_cast this
    linarith
  have e1 := rn_err R (x := (s.nsec : ℝ) / 1000000000) (e := -53) (by norm_num) (by
    rw [abs_of_nonneg (by positivity), show (2 : ℝ) ^ 53 * (2 : ℝ) ^ (-53 : ℤ) = 1 by norm_num, div_le_one (by norm_num)]; linarith)
  have hx0 : (0 : ℝ) ≤ s.sec + R.rn (s.nsec / 1000000000) := by positivity
  have e2 := rn_err R (x := (s.sec : ℝ) + R.rn (s.nsec / 1000000000)) (e := -22) (by norm_num) (by
    rw [abs_of_nonneg hx0, show (2 : ℝ) ^ 53 * (2 : ℝ) ^ (-22 : ℤ) = 2 ^ 31 by norm_num]; linarith)
  unfold stamp Stamp.toSec
  generalize R.rn (s.sec + R.rn (s.nsec / 1000000000)) = y at *
  generalize R.rn ((s.nsec : ℝ) / 1000000000) = f at *
  rw [abs_lt]
  rw [abs_le] at e1 e2
  norm_num at e1 e2
  constructor <;> norm_num <;> linarith

/-- **C126**, what holds of distinctness: stamps that differ by at least 240 ns (until 2038) stay different. -/
theorem C126_distinct_partial (R : Round) {a b : Stamp} (ha : a.Valid) (hb : b.Valid) (hs : b.sec < 2 ^ 31)
    (h : a.toSec + 240 / 1000000000 ≤ b.toSec) : stamp R a < stamp R b := by
  have hs' : a.sec < 2 ^ 31 := by
    by_contra hc
    have h1 : b.sec + 1 ≤ a.sec := by omega
    have h1 : (b.sec : ℝ) + 1 ≤ a.sec := by exact_mod_cast h1
    have h2 : (b.nsec : ℝ) < 1000000000 := by exact_mod_cast hb.2
    have h3 : (b.nsec : ℝ) / 1000000000 < 1 := by rw [div_lt_one (by norm_num)]; exact h2
    have h4 : 0 ≤ (a.nsec : ℝ) / 1000000000 := by positivity
    unfold Stamp.toSec at h
    linarith
  have h1 := abs_lt.mp (C126_accuracy R ha hs')
  have h2 := abs_lt.mp (C126_accuracy R hb hs)
  linarith

/-- **C126 is false**: messages whose stamps differ by 119 ns or less can get the same stamp, at every whole second since
2004. -/
theorem C126_false (R : Round) (s n : ℕ) (h : 2 ^ 30 ≤ s) (hs : s < 2 ^ 32) (hn : n ≤ 119) : stamp R ⟨s, n⟩ = stamp R ⟨s, 0⟩ := by
  have h1 : (2 ^ 30 : ℝ) ≤ s := by exact_mod_cast h
  have hn' : (n : ℝ) ≤ 119 := by exact_mod_cast hn
  have hF : IsF (s : ℝ) := IsF.nat (by omega)
  have e0 : stamp R ⟨s, 0⟩ = s := by
    simp only [stamp, Nat.cast_zero, zero_div]
    rw [rn_of_F R IsF.zero, add_zero, rn_of_F R hF]
  rw [e0]
  have e1 := rn_err R (x := (n : ℝ) / 1000000000) (e := -53) (by norm_num) (by
    rw [abs_of_nonneg (by positivity), div_le_iff₀ (by norm_num)]; norm_num; linarith)
  obtain ⟨f0, -⟩ := nsec_le_one R (s := ⟨s, n⟩) ⟨hs, by simp only; omega⟩
  unfold stamp
  simp only at f0 ⊢
  generalize hf : R.rn ((n : ℝ) / 1000000000) = f at *
  have f1 : f < 2 ^ 30 * (2 : ℝ) ^ (-53 : ℤ) := by
    have := abs_le.mp e1
    norm_num at this ⊢
    linarith
  by_contra hne
  -- a number within less than half a step of `s` other than `s` is not a binary64 number
  have h2 := R.near (s + f) s hF
  rw [add_sub_cancel_left, abs_of_nonneg f0] at h2
  have hy := R.isF (s + f)
  generalize R.rn (s + f) = y at *
  obtain ⟨m, e, hm, he, rfl⟩ := hy
  have h3 : |(m : ℝ) * (2 : ℝ) ^ e - s| < 2 ^ 31 * (2 : ℝ) ^ (-53 : ℤ) := by
    have h4 := abs_le.mp h2
    rw [abs_lt]; norm_num at f1 h4 ⊢; constructor <;> linarith
  by_cases hc : -22 ≤ e
  · obtain ⟨k, hk⟩ := Int.eq_ofNat_of_zero_le (show 0 ≤ e + 22 by omega)
    have e2 : (m : ℝ) * (2 : ℝ) ^ e - s = ((m * 2 ^ k - s * 2 ^ 22 : ℤ) : ℝ) * (2 : ℝ) ^ (-22 : ℤ) := by
      have : e = (k : ℤ) + (-22) := by omega
      rw [this, zpow_add₀ (by norm_num), zpow_natCast]; push_cast; norm_num; ring
    rw [e2, abs_mul, abs_of_pos (zpow_pos' _)] at h3
    have h5 : |((m * 2 ^ k - s * 2 ^ 22 : ℤ) : ℝ)| < 1 := by
      norm_num at h3 ⊢; linarith
    have h6 : m * 2 ^ k - (s : ℤ) * 2 ^ 22 = 0 := by
      have : |(m * 2 ^ k - s * 2 ^ 22 : ℤ)| < 1 := by exact_mod_cast h5
      exact Int.abs_lt_one_iff.mp this
    rw [h6] at e2
    apply hne
    simp at e2; linarith
  · have h5 : |(m : ℝ)| ≤ 2 ^ 53 - 1 := by
      have : |m| ≤ 2 ^ 53 - 1 := by omega
      exact_mod_cast this
    have h6 : (2 : ℝ) ^ e ≤ (2 : ℝ) ^ (-23 : ℤ) := zpow_le_zpow_right₀ (by norm_num) (by omega)
    have h7 : (m : ℝ) * (2 : ℝ) ^ e ≤ (2 ^ 53 - 1) * (2 : ℝ) ^ (-23 : ℤ) :=
      (mul_le_mul_of_nonneg_right (le_of_abs_le h5) (zpow_pos' e).le).trans (mul_le_mul_of_nonneg_left h6 (by norm_num))
    have h4 := (abs_le.mp h2).2
    have h8 : (2 ^ 53 - 1 : ℝ) * (2 : ℝ) ^ (-23 : ℤ) < 2 ^ 30 := by norm_num
    linarith

/-- the hypotheses are met, and the consequence shows: two odometry messages of 2023, 100 ns apart, get the same stamp -/
example (R : Round) : stamp R ⟨1684000000, 100⟩ = stamp R ⟨1684000000, 0⟩ := C126_false R _ _ (by norm_num) (by norm_num) (by norm_num)
example : (⟨1684000000, 100⟩ : Stamp).Valid ∧ (⟨1684000000, 400⟩ : Stamp).Valid ∧
    (⟨1684000000, 100⟩ : Stamp).toSec + 240 / 1000000000 ≤ (⟨1684000000, 400⟩ : Stamp).toSec := by
  refine ⟨⟨by norm_num, by norm_num⟩, ⟨by norm_num, by norm_num⟩, ?_⟩
  simp only [Stamp.toSec]; norm_num

/-! ### C127 -/

/-- **C127**: the difference of two stamps within a factor of two of each other (any two between 2004 and 2038) is computed
without rounding. -/
theorem C127_exact (R : Round) (a b : Stamp) (h1 : stamp R b ≤ 2 * stamp R a) (h2 : stamp R a ≤ 2 * stamp R b) :
    diff R (stamp R b) (stamp R a) = stamp R b - stamp R a :=
  rn_of_F R ((R.isF _).sub (R.isF _) h1 h2)

theorem stamp_bounds (R : Round) {s : Stamp} (h : s.Valid) {k : ℕ} (hk : k ≤ 52) (h1 : 2 ^ k ≤ s.sec) (h2 : s.sec < 2 ^ (k + 1)) :
    2 ^ k ≤ stamp R s ∧ stamp R s ≤ 2 ^ (k + 1) := by
  obtain ⟨f0, f1⟩ := nsec_le_one R h
  have hF : IsF ((2 : ℝ) ^ k) := by
    have := IsF.nat (n := 2 ^ k) (Nat.pow_lt_pow_right (by norm_num) (by omega)); simpa using this
  have hF' : IsF ((2 : ℝ) ^ (k + 1)) := by
    have := IsF.grid (m := 1) (e := (k + 1 : ℕ)) (by omega) (by norm_num)
    rw [zpow_natCast] at this; simpa using this
  have g1 : (2 : ℝ) ^ k ≤ s.sec := by exact_mod_cast h1
  have g2 : (s.sec : ℝ) + 1 ≤ 2 ^ (k + 1) := by exact_mod_cast h2
  constructor
  · rw [← rn_of_F R hF]; exact rn_mono R (by linarith)
  · rw [← rn_of_F R hF']; exact rn_mono R (by linarith)

/-- **C127**: between 2004 and 2038 every time step is exact, so the steps of any number of measurements add up to the
difference of the first and the last stamp: rounding errors do not accumulate, and the sum is within 240 ns of the time
that has passed. -/
theorem C127_no_drift (R : Round) (s : Stamp) (l : List Stamp) (hv : ∀ a ∈ s :: l, a.Valid ∧ 2 ^ 30 ≤ a.sec ∧ a.sec < 2 ^ 31) :
    (List.zipWith (fun a b => diff R (stamp R b) (stamp R a)) (s :: l) l).sum = stamp R (l.getLastD s) - stamp R s ∧
    |(List.zipWith (fun a b => diff R (stamp R b) (stamp R a)) (s :: l) l).sum - ((l.getLastD s).toSec - s.toSec)| < 240 / 1000000000 := by
  have key : ∀ l s, (∀ a ∈ s :: l, a.Valid ∧ 2 ^ 30 ≤ a.sec ∧ a.sec < 2 ^ 31) →
      (List.zipWith (fun a b => diff R (stamp R b) (stamp R a)) (s :: l) l).sum = stamp R (l.getLastD s) - stamp R s := by
    intro l
    induction l with
    | nil => intro s _; simp
    | cons b l ih =>
      intro s hv
      obtain ⟨v1, v2, v3⟩ := hv s (by simp)
      obtain ⟨w1, w2, w3⟩ := hv b (by simp)
      obtain ⟨p1, p2⟩ := stamp_bounds R v1 (k := 30) (by norm_num) v2 v3
      obtain ⟨q1, q2⟩ := stamp_bounds R w1 (k := 30) (by norm_num) w2 w3
      rw [List.zipWith_cons_cons, List.sum_cons, ih b (fun a ha => hv a (by simp at ha ⊢; tauto)),
        C127_exact R s b (by rw [pow_succ] at q2; linarith) (by rw [pow_succ] at p2; linarith), List.getLastD_cons]
      ring
  have h1 := key l s hv
  refine ⟨h1, ?_⟩
  have hm : l.getLastD s ∈ s :: l := by
    cases l with
    | nil => simp
    | cons b l => simp only [List.getLastD_cons]; right; exact List.getLastD_mem_cons
  obtain ⟨v1, -, v3⟩ := hv s (by simp)
  obtain ⟨w1, -, w3⟩ := hv _ hm
  have a1 := abs_lt.mp (C126_accuracy R v1 v3)
  have a2 := abs_lt.mp (C126_accuracy R w1 w3)
  rw [h1, abs_lt]
  constructor <;> linarith

/-- **C127**: the clock of the wheel odometry, which is advanced by each time step, is always exactly the last stamp. -/
theorem C127_wheel_clock (R : Round) (t : ℝ) (ts : List ℝ) (hF : ∀ x ∈ t :: ts, IsF x)
    (h : ∀ x ∈ t :: ts, ∀ y ∈ t :: ts, x ≤ 2 * y) : wheelClock R t ts = (ts.getLastD t, ts.getLastD t) := by
  unfold wheelClock
  induction ts generalizing t with
  | nil => rfl
  | cons x ts ih =>
    rw [List.foldl_cons]
    have e1 : R.rn (x - t) = x - t := rn_of_F R ((hF x (by simp)).sub (hF t (by simp)) (h x (by simp) t (by simp)) (h t (by simp) x (by simp)))
    have e2 : R.rn (t + (x - t)) = x := by rw [add_sub_cancel]; exact rn_of_F R (hF x (by simp))
    rw [e1, e2, ih x (fun a ha => hF a (by simp at ha ⊢; tauto)) (fun a ha b hb => h a (by simp at ha ⊢; tauto) b (by simp at hb ⊢; tauto)), List.getLastD_cons]

/-- the hypotheses are met -/
example : ∀ a ∈ [⟨1684000000, 100⟩, ⟨1684000000, 5000100⟩, (⟨1684000000, 9999873⟩ : Stamp)], a.Valid ∧ 2 ^ 30 ≤ a.sec ∧ a.sec < 2 ^ 31 := by
  intro a ha
  simp at ha
  rcases ha with rfl | rfl | rfl <;> exact ⟨⟨by norm_num, by norm_num⟩, by norm_num, by norm_num⟩
example : (∀ x ∈ (1 : ℝ) :: [3 / 2, 2], IsF x) ∧ ∀ x ∈ (1 : ℝ) :: [3 / 2, 2], ∀ y ∈ (1 : ℝ) :: [3 / 2, 2], x ≤ 2 * y := by
  refine ⟨?_, ?_⟩
  · simp only [List.mem_cons, List.not_mem_nil, or_false, forall_eq_or_imp, forall_eq]
    refine ⟨⟨1, 0, by norm_num, by norm_num, by norm_num⟩, ⟨3, -1, by norm_num, by norm_num, by norm_num⟩, ⟨2, 0, by norm_num, by norm_num, by norm_num⟩⟩
  · simp only [List.mem_cons, List.not_mem_nil, or_false, forall_eq_or_imp, forall_eq]
    norm_num

/-! ### C128 -/

theorem fromSec_toSec (R : Round) {t : ℝ} (hF : IsF t) (h0 : 0 ≤ t) :
    |(fromSec R t).toSec - t| ≤ (1 / 2 + 1 / 2 ^ 24) / 1000000000 ∧ (fromSec R t).nsec < 1000000000 := by
  have hfl : ((⌊t⌋₊ : ℕ) : ℝ) = ((⌊t⌋ : ℤ) : ℝ) := natCast_floor_eq_intCast_floor h0
  have hfr : IsF (t - ⌊t⌋₊) := by rw [hfl]; exact hF.fract h0
  have f0 : 0 ≤ t - ⌊t⌋₊ := by linarith [Nat.floor_le h0]
  have f1 : t - ⌊t⌋₊ < 1 := by linarith [Nat.lt_floor_add_one t]
  refine ⟨?_, Nat.mod_lt _ (by norm_num)⟩
  simp only [fromSec, Stamp.toSec, rn_of_F R hfr]
  generalize ⌊t⌋₊ = k at *
  generalize hf : t - k = f at *
  have e1 := rn_err R (x := f * 1000000000) (e := -23) (by norm_num) (by
    rw [abs_of_nonneg (by positivity), show (2 : ℝ) ^ 53 * (2 : ℝ) ^ (-23 : ℤ) = 2 ^ 30 by norm_num]; linarith)
  have y0 : 0 ≤ R.rn (f * 1000000000) := by
    rw [← rn_of_F R IsF.zero]; exact rn_mono R (by positivity)
  generalize R.rn (f * 1000000000) = y at *
  have n1 := Nat.floor_le (show 0 ≤ y + 1 / 2 by linarith)
  have n2 := Nat.lt_floor_add_one (y + 1 / 2)
  generalize ⌊y + 1 / 2⌋₊ = N at *
  have e2 : ((k + N / 1000000000 : ℕ) : ℝ) + ((N % 1000000000 : ℕ) : ℝ) / 1000000000 = k + N / 1000000000 := by
    have h3 : (N : ℝ) = ((1000000000 * (N / 1000000000) + N % 1000000000 : ℕ) : ℝ) := by rw [Nat.div_add_mod]
    rw [h3]; push_cast; ring
  rw [e2]
  have h4 := abs_le.mp e1
  norm_num at h4
  have e3 : (k : ℝ) + N / 1000000000 - t = (N - f * 1000000000) / 1000000000 := by rw [← hf]; ring
  rw [e3, abs_div, abs_of_pos (show (0 : ℝ) < 1000000000 by norm_num)]
  apply div_le_div_of_nonneg_right _ (by norm_num)
  rw [abs_le]; constructor <;> norm_num <;> linarith

theorem fromSec_mono (R : Round) {t t' : ℝ} (hF : IsF t) (hF' : IsF t') (h0 : 0 ≤ t) (h : t ≤ t') :
    (fromSec R t).toSec ≤ (fromSec R t').toSec := by
  have h0' : 0 ≤ t' := h0.trans h
  have hfr : IsF (t - ⌊t⌋₊) := by rw [natCast_floor_eq_intCast_floor h0]; exact hF.fract h0
  have hfr' : IsF (t' - ⌊t'⌋₊) := by rw [natCast_floor_eq_intCast_floor h0']; exact hF'.fract h0'
  have f1 : t - ⌊t⌋₊ < 1 := by linarith [Nat.lt_floor_add_one t]
  have f0' : 0 ≤ t' - ⌊t'⌋₊ := by linarith [Nat.floor_le h0']
  have hk : ⌊t⌋₊ ≤ ⌊t'⌋₊ := Nat.floor_mono h
  have key : ∀ k N : ℕ, (Stamp.mk (k + N / 1000000000) (N % 1000000000)).toSec = k + N / 1000000000 := by
    intro k N
    simp only [Stamp.toSec]
    have h3 : (N : ℝ) = ((1000000000 * (N / 1000000000) + N % 1000000000 : ℕ) : ℝ) := by rw [Nat.div_add_mod]
    rw [h3]; push_cast; ring
  simp only [fromSec, rn_of_F R hfr, rn_of_F R hfr', key]
  rcases hk.lt_or_eq with hk | hk
  · have hN : ⌊R.rn ((t - ⌊t⌋₊) * 1000000000) + 1 / 2⌋₊ ≤ 1000000000 := by
      have h1 : R.rn ((t - ⌊t⌋₊) * 1000000000) ≤ 1000000000 := by
        have : R.rn 1000000000 = 1000000000 := rn_of_F R (by simpa using IsF.nat (n := 1000000000) (by norm_num))
        calc _ ≤ R.rn 1000000000 := rn_mono R (by linarith)
          _ = _ := this
      have : ⌊R.rn ((t - ⌊t⌋₊) * 1000000000) + 1 / 2⌋₊ < 1000000001 := by
        rw [Nat.floor_lt' (by norm_num)]; push_cast; linarith
      omega
    have hN : ((⌊R.rn ((t - ⌊t⌋₊) * 1000000000) + 1 / 2⌋₊ : ℕ) : ℝ) ≤ 1000000000 := by exact_mod_cast hN
    have hk : ((⌊t⌋₊ : ℕ) : ℝ) + 1 ≤ ((⌊t'⌋₊ : ℕ) : ℝ) := by exact_mod_cast hk
    have h2 : (0 : ℝ) ≤ ((⌊R.rn ((t' - ⌊t'⌋₊) * 1000000000) + 1 / 2⌋₊ : ℕ) : ℝ) / 1000000000 := by positivity
    have h3 : ((⌊R.rn ((t - ⌊t⌋₊) * 1000000000) + 1 / 2⌋₊ : ℕ) : ℝ) / 1000000000 ≤ 1 := by rw [div_le_one (by norm_num)]; exact hN
    linarith
  · rw [hk]
    have h1 : ⌊R.rn ((t - ⌊t'⌋₊) * 1000000000) + 1 / 2⌋₊ ≤ ⌊R.rn ((t' - ⌊t'⌋₊) * 1000000000) + 1 / 2⌋₊ := by
      apply Nat.floor_mono
      have := rn_mono R (show (t - ⌊t'⌋₊) * 1000000000 ≤ (t' - ⌊t'⌋₊) * 1000000000 by linarith)
      linarith
    have h1 : ((⌊R.rn ((t - ⌊t'⌋₊) * 1000000000) + 1 / 2⌋₊ : ℕ) : ℝ) ≤ ((⌊R.rn ((t' - ⌊t'⌋₊) * 1000000000) + 1 / 2⌋₊ : ℕ) : ℝ) := by
      exact_mod_cast h1
    have := div_le_div_of_nonneg_right h1 (show (0 : ℝ) ≤ 1000000000 by norm_num)
    linarith

theorem stamp_nonneg (R : Round) {s : Stamp} (h : s.Valid) : 0 ≤ stamp R s := by
  rw [← rn_of_F R IsF.zero]
  refine rn_mono R ?_
  have := (nsec_le_one R h).1
  positivity

/-- the error of a converted stamp below 2^k seconds -/
theorem stamp_err (R : Round) {s : Stamp} (h : s.Valid) {k : ℕ} (hs : s.sec < 2 ^ k) :
    |stamp R s - s.toSec| ≤ (2 : ℝ) ^ ((k : ℤ) - 53) / 2 + 1 / 2 ^ 54 := by
  obtain ⟨h0, h1⟩ := nsec_le_one R h
  have hn : (s.nsec : ℝ) < 1000000000 := by exact_mod_cast h.2
  have hs' : (s.sec : ℝ) + 1 ≤ 2 ^ k := by exact_mod_cast hs
  have e1 := rn_err R (x := (s.nsec : ℝ) / 1000000000) (e := -53) (by norm_num) (by
    rw [abs_of_nonneg (by positivity), show (2 : ℝ) ^ 53 * (2 : ℝ) ^ (-53 : ℤ) = 1 by norm_num, div_le_one (by norm_num)]; linarith)
  have hx0 : (0 : ℝ) ≤ s.sec + R.rn (s.nsec / 1000000000) := by positivity
  have e2 := rn_err R (x := (s.sec : ℝ) + R.rn (s.nsec / 1000000000)) (e := (k : ℤ) - 53) (by omega) (by
    rw [abs_of_nonneg hx0, zpow_sub₀ (by norm_num), zpow_natCast]; norm_num; linarith)
  unfold stamp Stamp.toSec
  generalize R.rn (s.sec + R.rn (s.nsec / 1000000000)) = y at *
  generalize R.rn ((s.nsec : ℝ) / 1000000000) = f at *
  generalize (2 : ℝ) ^ ((k : ℤ) - 53) = g at *
  rw [abs_le] at *
  norm_num at e1 e2
  constructor <;> norm_num <;> linarith

/-- **C128**: the stamp of a published message is within 120 ns of the stamp of the message it was computed from (until 2038). -/
theorem C128_accuracy (R : Round) {s : Stamp} (h : s.Valid) (hs : s.sec < 2 ^ 31) :
    |(fromSec R (stamp R s)).toSec - s.toSec| < 120 / 1000000000 ∧ (fromSec R (stamp R s)).nsec < 1000000000 := by
  obtain ⟨h1, h2⟩ := fromSec_toSec R (t := stamp R s) (R.isF _) (stamp_nonneg R h)
  refine ⟨?_, h2⟩
  have h3 := stamp_err R h hs
  norm_num at h3
  rw [abs_le] at h1 h3
  rw [abs_lt]
  norm_num at h1
  constructor <;> norm_num <;> linarith

/-- **C128**: published stamps are in the order of the received ones. -/
theorem C128_order (R : Round) {a b : Stamp} (ha : a.Valid) (hb : b.Valid) (h : a.toSec ≤ b.toSec) :
    (fromSec R (stamp R a)).toSec ≤ (fromSec R (stamp R b)).toSec :=
  fromSec_mono R (R.isF _) (R.isF _) (stamp_nonneg R ha) (C126_order R ha hb h)

theorem digits_eq {D a b c d : ℕ} (hb : b < D) (hd : d < D) (h : a * D + b = c * D + d) : a = c ∧ b = d := by
  have h0 : 0 < D := by omega
  have h1 : (a * D + b) / D = a := by rw [mul_comm, Nat.mul_add_div h0, Nat.div_eq_of_lt hb, add_zero]
  have h2 : (c * D + d) / D = c := by rw [mul_comm, Nat.mul_add_div h0, Nat.div_eq_of_lt hd, add_zero]
  have h3 : a = c := by rw [← h1, ← h2, h]
  subst h3
  exact ⟨rfl, by omega⟩

theorem near_int {D : ℕ} (hD : 0 < D) {x y : ℕ} (h : |(x : ℝ) / D - y / D| < 1 / D) : x = y := by
  have hD' : (0 : ℝ) < D := by exact_mod_cast hD
  rw [← sub_div, abs_div, abs_of_pos hD', div_lt_div_iff_of_pos_right hD'] at h
  have h6 : |(x - y : ℤ)| < 1 := by exact_mod_cast h
  have := sub_eq_zero.mp (Int.abs_lt_one_iff.mp h6)
  exact_mod_cast this

theorem near_stamp {q s : Stamp} (h : |q.toSec - s.toSec| < 1 / 1000000000) :
    q.sec * 1000000000 + q.nsec = s.sec * 1000000000 + s.nsec := by
  apply near_int (D := 1000000000) (by norm_num)
  have e : ∀ s : Stamp, ((s.sec * 1000000000 + s.nsec : ℕ) : ℝ) / (1000000000 : ℕ) = s.toSec := by
    intro s; simp only [Stamp.toSec]; push_cast; ring
  rw [e, e]; exact_mod_cast h

/-- **C128**, what holds: in the first 97 days (a simulation whose clock starts at zero) the published stamp is exactly the
received one. -/
theorem C128_same_partial (R : Round) {s : Stamp} (h : s.Valid) (hs : s.sec < 2 ^ 23) : fromSec R (stamp R s) = s := by
  obtain ⟨h1, h2⟩ := fromSec_toSec R (t := stamp R s) (R.isF _) (stamp_nonneg R h)
  have h3 := stamp_err R h hs
  norm_num at h3
  generalize fromSec R (stamp R s) = q at *
  generalize stamp R s = t at *
  have h4 : |q.toSec - s.toSec| < 1 / 1000000000 := by
    rw [abs_le] at h1 h3
    rw [abs_lt]
    norm_num at h1
    constructor <;> norm_num <;> linarith
  have h5 := near_stamp h4
  obtain ⟨h6, h7⟩ := digits_eq (D := 1000000000) h2 h.2 h5
  cases q; cases s
  simp only at h6 h7
  rw [h6, h7]

/-- **C128 is false**: since 2004 the stamp of a published message is in general not that of a message received; here it is
the whole second for every message within the next 119 ns, so a program that looks for the pose of a given image or
scan by its stamp does not find it. -/
theorem C128_false (R : Round) (s n : ℕ) (h : 2 ^ 30 ≤ s) (hs : s < 2 ^ 32) (hn : n ≤ 119) : fromSec R (stamp R ⟨s, n⟩) = ⟨s, 0⟩ := by
  have hF : IsF (s : ℝ) := IsF.nat (by omega)
  have e0 : stamp R ⟨s, n⟩ = s := by
    rw [C126_false R s n h hs hn]
    simp only [stamp, Nat.cast_zero, zero_div]
    rw [rn_of_F R IsF.zero, add_zero, rn_of_F R hF]
  rw [e0]
  simp only [fromSec, Nat.floor_natCast, sub_self, rn_of_F R IsF.zero, zero_mul, zero_add]
  have : ⌊(1 / 2 : ℝ)⌋₊ = 0 := by rw [Nat.floor_eq_zero]; norm_num
  rw [this, Nat.zero_div, Nat.zero_mod, add_zero]

/-- the hypotheses are met -/
example : (⟨3, 141592653⟩ : Stamp).Valid ∧ (⟨3, 141592653⟩ : Stamp).sec < 2 ^ 23 := ⟨⟨by norm_num, by norm_num⟩, by norm_num⟩
example (R : Round) : fromSec R (stamp R ⟨1684000000, 100⟩) ≠ ⟨1684000000, 100⟩ := by
  rw [C128_false R _ _ (by norm_num) (by norm_num) (by norm_num)]; simp

/-! ### C129 -/

/-- `y` is what is printed for `x` with `p` significant decimal digits (`ostream` with `precision(p)`): a decimal number with
`p` digits that is nearest to `x` -/
def Printed (p : ℕ) (x y : ℝ) : Prop :=
  (x = 0 ∧ y = 0) ∨ ∃ j n : ℤ, (10 : ℝ) ^ j ≤ |x| ∧ y = n * (10 : ℝ) ^ (j - p + 1) ∧ |x - y| ≤ (10 : ℝ) ^ (j - p + 1) / 2

/-- different binary64 numbers differ by more than 10^-16 of their size -/
theorem isF_sep {x z : ℝ} (hx : IsF x) (hz : IsF z) (h : x ≠ z) : |x| / 10 ^ 16 < |x - z| := by
  obtain ⟨m, e, hm, he, rfl⟩ := hx
  obtain ⟨n, f, hn, hf, rfl⟩ := hz
  have hm' : |(m : ℝ)| ≤ 2 ^ 53 - 1 := by
    have : |m| ≤ 2 ^ 53 - 1 := by omega
    exact_mod_cast this
  have hn' : |(n : ℝ)| ≤ 2 ^ 53 - 1 := by
    have : |n| ≤ 2 ^ 53 - 1 := by omega
    exact_mod_cast this
  have ge : (0 : ℝ) < (2 : ℝ) ^ e := zpow_pos' e
  have gf : (0 : ℝ) < (2 : ℝ) ^ f := zpow_pos' f
  rcases le_total e f with hef | hef
  · obtain ⟨k, hk⟩ := Int.eq_ofNat_of_zero_le (show 0 ≤ f - e by omega)
    have e1 : (m : ℝ) * (2 : ℝ) ^ e - n * (2 : ℝ) ^ f = ((m - n * 2 ^ k : ℤ) : ℝ) * (2 : ℝ) ^ e := by
      rw [show f = (k : ℤ) + e by omega, zpow_add₀ (by norm_num), zpow_natCast]; push_cast; ring
    have h1 : 1 ≤ |(m - n * 2 ^ k : ℤ)| := by
      apply Int.one_le_abs
      intro h0
      rw [h0] at e1
      apply h; simp at e1; linarith
    have h1 : (1 : ℝ) ≤ |((m - n * 2 ^ k : ℤ) : ℝ)| := by exact_mod_cast h1
    rw [e1, abs_mul, abs_mul, abs_of_pos ge]
    have h2 := mul_le_mul_of_nonneg_right h1 ge.le
    have h3 := mul_le_mul_of_nonneg_right hm' ge.le
    rw [div_lt_iff₀ (by norm_num)]
    nlinarith
  · obtain ⟨k, hk⟩ := Int.eq_ofNat_of_zero_le (show 0 ≤ e - f by omega)
    have e1 : (m : ℝ) * (2 : ℝ) ^ e - n * (2 : ℝ) ^ f = ((m * 2 ^ k - n : ℤ) : ℝ) * (2 : ℝ) ^ f := by
      rw [show e = (k : ℤ) + f by omega, zpow_add₀ (by norm_num), zpow_natCast]; push_cast; ring
    have h1 : 1 ≤ |(m * 2 ^ k - n : ℤ)| := by
      apply Int.one_le_abs
      intro h0
      rw [h0] at e1
      apply h; simp at e1; linarith
    have h1 : (1 : ℝ) ≤ |((m * 2 ^ k - n : ℤ) : ℝ)| := by exact_mod_cast h1
    have h2 : (2 : ℝ) ^ f ≤ |(m : ℝ) * (2 : ℝ) ^ e - n * (2 : ℝ) ^ f| := by
      rw [e1, abs_mul, abs_of_pos gf]
      have h2 := mul_le_mul_of_nonneg_right h1 gf.le
      linarith
    have h3 : |(n : ℝ) * (2 : ℝ) ^ f| ≤ (2 ^ 53 - 1) * (2 : ℝ) ^ f := by
      rw [abs_mul, abs_of_pos gf]; exact mul_le_mul_of_nonneg_right hn' gf.le
    have h4 := abs_sub_abs_le_abs_sub ((m : ℝ) * (2 : ℝ) ^ e) (n * (2 : ℝ) ^ f)
    generalize |(m : ℝ) * (2 : ℝ) ^ e| = a at *
    generalize |(n : ℝ) * (2 : ℝ) ^ f| = b at *
    generalize |(m : ℝ) * (2 : ℝ) ^ e - n * (2 : ℝ) ^ f| = c at *
    generalize (2 : ℝ) ^ f = g at *
    rw [div_lt_iff₀ (by norm_num)]
    by_cases hc : a ≤ 2 ^ 53 * g
    · nlinarith
    · nlinarith

/-- **C129**: reading a value from a log file (which is written with 17 digits) gives exactly the `double` that was logged. -/
theorem C129_read_back (R : Round) {x y : ℝ} (hx : IsF x) (h : Printed 17 x y) : R.rn y = x := by
  rcases h with ⟨rfl, rfl⟩ | ⟨j, n, h1, -, h3⟩
  · exact rn_of_F R IsF.zero
  · by_contra hne
    have h4 := isF_sep hx (R.isF y) (Ne.symm hne)
    have h5 := R.near y x hx
    have h6 := abs_sub_le x y (R.rn y)
    have e1 : (10 : ℝ) ^ (j - (17 : ℕ) + 1) = (10 : ℝ) ^ j / 10 ^ 16 := by
      rw [show j - ((17 : ℕ) : ℤ) + 1 = j - 16 by norm_num; ring, zpow_sub₀ (by norm_num)]
      norm_num
    rw [e1] at h3
    rw [abs_sub_comm y x] at h5
    generalize (10 : ℝ) ^ j = d at *
    have h7 : d / 10 ^ 16 ≤ |x| / 10 ^ 16 := div_le_div_of_nonneg_right h1 (by norm_num)
    linarith

/-- **C129**: two different values never look the same in a log file. -/
theorem C129_distinct {x x' y : ℝ} (hx : IsF x) (hx' : IsF x') (h : Printed 17 x y) (h' : Printed 17 x' y) : x = x' := by
  rw [← C129_read_back Round.some hx h, ← C129_read_back Round.some hx' h']

/-- the hypotheses are met: 1/10 as a `double` is printed as 0.10000000000000001 -/
example : IsF (3602879701896397 / 36028797018963968) ∧
    Printed 17 (3602879701896397 / 36028797018963968) (10000000000000001 / 100000000000000000) := by
  refine ⟨⟨3602879701896397, -55, by norm_num, by norm_num, by norm_num⟩, Or.inr ⟨-1, 10000000000000001, ?_, ?_, ?_⟩⟩
  · rw [abs_of_pos (by norm_num)]; norm_num
  · norm_num
  · rw [abs_le]; norm_num

end Drift
