import Verif.Lemmas.Gauge4
import Verif.Spec.Gauge

/-!
# Property C95: the filter never claims to know heading and absolute position better than at the start

No sensor of the filter observes them.
-/
set_option linter.unusedSimpArgs false
namespace Drift
open Mat Matrix Finset RobotState

/-- **C95**: for every right-invariant estimator built from a configuration and every history (any measurements,
any schedule, `clear()` and re-initialisation included): while the filter runs, and in every state it publishes or
hands to the logger, the covariance is at least that of a common unknown heading and a common unknown shift of
position and contacts with the configured initial variances. -/
theorem C95_right {h c ic cs e0 evs e} (hc : Estimator.ctor .rightInvariant h c ic cs = some e0) (u : Usable ic cs (imuArrivals evs))
    (hr : e0.run evs = some e) :
    (e.enabled = true → ∃ K, Shape K e.state ∧ UnknownFrame K e0.rotCov e0.posCov e.state.P) ∧
      (∀ s ∈ e.outQ ++ e.log.queue, ∃ K, Shape K s ∧ UnknownFrame K e0.rotCov e0.posCov s.P) := by
  have l := run_ginv evs (fut := []) (by rw [List.append_nil]; exact (ctor_inv u hc).1) (ctor_ginv hc) hr
  refine ⟨fun hen => ?_, fun s hs => ?_⟩
  · obtain ⟨K, g, hl⟩ := l.on hen
    exact ⟨K, g.shape, (low_iff g.shape.k g.shape.pr).mp hl⟩
  · rcases List.mem_append.mp hs with hs | hs
    · obtain ⟨K, g, hl⟩ := l.out s hs
      exact ⟨K, g, (low_iff g.k g.pr).mp hl⟩
    · obtain ⟨K, g, hl⟩ := l.logs s hs
      exact ⟨K, g, (low_iff g.k g.pr).mp hl⟩

/-- the initial variances are the configured ones -/
theorem C95_initial_variances {et h c ic cs e0} (hc : Estimator.ctor et h c ic cs = some e0) :
    e0.rotCov = (c.rotation_std_value.map (· ^ 2)).getD 0.03 ∧ e0.posCov = (c.position_std_value.map (· ^ 2)).getD 0.00001 := by
  unfold Estimator.ctor at hc
  simp only [Option.bind_eq_bind, Option.bind_eq_some_iff] at hc
  obtain ⟨p, hp, corrs, hc, he⟩ := hc
  rw [← Option.some.inj he]
  exact ⟨rfl, rfl⟩

/-- a function of the error reading blocks `0` and `2` only -/
def two (a w : V3) (i : ℕ) : ℝ := if h : i < 3 then a ⟨i, h⟩ else if h : 6 ≤ i ∧ i < 9 then w ⟨i - 6, by omega⟩ else 0

theorem two_0 (a w : V3) (l : Fin 3) : two a w (3 * 0 + l) = a l := by
  unfold two; rw [dif_pos (by omega)]; congr 1; ext; simp
theorem two_2 (a w : V3) (l : Fin 3) : two a w (3 * 2 + l) = w l := by
  unfold two; rw [dif_neg (by omega), dif_pos (by omega)]; congr 1; ext; simp
theorem two_z (a w : V3) {b : ℕ} (h0 : b ≠ 0) (h2 : b ≠ 2) (l : Fin 3) : two a w (3 * b + l) = 0 := by
  unfold two; rw [dif_neg (by omega), dif_neg (by omega)]

theorem sum_0_2 {n : ℕ} (hn : 3 ≤ n) {f : ℕ → ℝ} (h : ∀ b, b ≠ 0 → b ≠ 2 → f b = 0) : ∑ b ∈ range n, f b = f 0 + f 2 := by
  rw [← sum_subset (s₁ := {0, 2})]
  · simp
  · intro x hx; simp at hx ⊢; omega
  · intro b _ hb; simp at hb; exact h b hb.1 hb.2

theorem quad_two {P : Mat} {n : ℕ} (hn : 3 ≤ n) (hr : P.rows = 3 * n) (hc : P.cols = 3 * n) (a w : V3) :
    quad P (two a w) = a ⬝ᵥ (P.blk3 0 0).mulVec a + a ⬝ᵥ (P.blk3 0 6).mulVec w + w ⬝ᵥ (P.blk3 6 0).mulVec a + w ⬝ᵥ (P.blk3 6 6).mulVec w := by
  rw [quad_blocks hr hc, sum_0_2 hn, sum_0_2 hn, sum_0_2 hn]
  · simp only [two_0, two_2]
    simp [dotProduct, Matrix.mulVec, Fin.sum_univ_three]
    ring
  · intro b h0 h2; simp [two_z a w h0 h2]
  · intro b h0 h2; simp [two_z a w h0 h2]
  · intro b h0 h2; simp [two_z a w h0 h2]

theorem frame_two {K : ℕ} (hK : 2 ≤ K) {rc pc : ℝ} {P : Mat} (h : UnknownFrame K rc pc P) (a w : V3) :
    rc * a 2 ^ 2 + pc * (w ⬝ᵥ w) ≤ quad P (two a w) := by
  refine le_trans (le_of_eq ?_) (h (two a w))
  have : ∀ k : Fin 3, ∑ b ∈ Icc 2 K, two a w (3 * b + k) = w k := by
    intro k
    rw [sum_eq_single 2]
    · exact two_2 a w k
    · intro b hb h2; simp at hb; exact two_z a w (by omega) h2 k
    · intro h; simp at h; omega
  rw [Finset.sum_range (f := fun k => (∑ b ∈ Icc 2 K, two a w (3 * b + k)) ^ 2)]
  simp only [this]
  rw [show two a w 2 = a 2 from two_0 a w 2]
  simp only [dotProduct, Fin.sum_univ_three]; ring

/-- **C95**: hence the heading variance read from the estimate is never below the initial one, and neither is the
variance of the position along any direction. -/
theorem C95_right_marginals {h c ic cs e0 evs e} (hc : Estimator.ctor .rightInvariant h c ic cs = some e0) (u : Usable ic cs (imuArrivals evs))
    (hr : e0.run evs = some e) (hen : e.enabled = true) :
    ∃ Pr Pp, e.state.get_rotation_covariance = some Pr ∧ e.state.get_position_covariance = some Pp ∧
      e0.rotCov ≤ Pr 2 2 ∧ ∀ w : V3, e0.posCov * (w ⬝ᵥ w) ≤ w ⬝ᵥ Pp.mulVec w := by
  obtain ⟨K, g, hf⟩ := (C95_right hc u hr).1 hen
  have hK := g.k; have p1 := g.pr; have p2 := g.pc
  refine ⟨_, _, blk3?_eq (by omega) (by omega), blk3?_eq (by omega) (by omega), ?_, fun w => ?_⟩
  · have := frame_two hK hf (Pi.single 2 1) 0
    rw [quad_two (n := K + 3) (by omega) (by omega) (by omega)] at this
    simpa using this
  · have := frame_two hK hf 0 w
    rw [quad_two (n := K + 3) (by omega) (by omega) (by omega)] at this
    simpa using this

/-- **C95** for the left-invariant filter (started at rest, see C60): its errors are expressed in the body, so the
heading is the world vertical seen from the body.  The position covariance moreover contains the effect of the
unknown heading at the distance travelled. -/
theorem C95_left {h c ic cs e0 evs e} (hc : Estimator.ctor .leftInvariant h c ic cs = some e0) (u : Usable ic cs (imuArrivals evs))
    (hz : StartsAtRest e0 evs) (hr : e0.run evs = some e) (hen : e.enabled = true) :
    ∃ R p Pr Pp, e.state.get_rotation = some R ∧ e.state.get_position = some p ∧
      e.state.get_rotation_covariance = some Pr ∧ e.state.get_position_covariance = some Pp ∧
      e0.rotCov ≤ (R * Pr * Rᵀ) 2 2 ∧
      ∀ w : V3, e0.posCov * (w ⬝ᵥ w) + e0.rotCov * (p ⨯₃ R.mulVec w) 2 ^ 2 ≤ w ⬝ᵥ Pp.mulVec w := by
  obtain ⟨eR, eL', eR', hR, h1, h2, hsame, -, -, hen', hadj⟩ := C60_same_trajectory hc evs u hz
  rw [hr] at h1; cases h1
  obtain ⟨K, ad⟩ := hadj hen
  have hi : EstInv [] e := inUse_inv ⟨_, _, _, _, _, _, _, u, hc, hr⟩
  obtain ⟨K1, g⟩ := hi.good
  obtain ⟨K2, gR, hf⟩ := (C95_right hR u h2).1 (hen' ▸ hen)
  have v1 := C95_initial_variances hc
  have v2 := C95_initial_variances hR
  rw [v2.1, v2.2, ← v1.1, ← v1.2] at hf
  have hX : eR'.state.X = e.state.X := by rw [hsame]
  obtain rfl : K2 = K1 := by
    have a := gR.x.rows; have b := g.shape.x.rows
    rw [hX] at a; omega
  have e1 := gR.pr; have e2 := g.shape.pr; have e3 := g.shape.pc; have hK := g.shape.k
  have x1 := g.shape.x.rows; have x2 := g.shape.x.cols
  obtain rfl : K = K2 := by
    obtain ⟨A, -, hA⟩ := ad
    rw [hA] at e1; simp at e1; omega
  rw [adjRelated_iff g.shape.x, EA_eq] at ad
  set R := e.state.X.blk3 0 0 with hRdef
  set p := e.state.X.blkV 0 4 with hp
  have key : ∀ a w : V3, quad eR'.state.P (two a w) = quad e.state.P (two (Rᵀ.mulVec a - Rᵀ.mulVec ((skew p).mulVec w)) (Rᵀ.mulVec w)) := by
    intro a w
    rw [ad, quad_congr_mul (by simp; omega) (by omega)]
    unfold quad
    have hF : ∀ b c : ℕ, b < K + 3 → c < K + 3 → ∀ j l : Fin 3,
        (ofBlk (K + 3) (K + 3) (legEaF K e.state.X)).e (3 * b + j) (3 * c + l) = legEaF K e.state.X b c j l := by
      intro b c hb hc j l
      rw [← ofBlk_blk3 (legEaF K e.state.X) hb hc, blk3_apply]
    have : ∀ k ∈ range (3 * (K + 3)), ∑ i ∈ range (ofBlk (K + 3) (K + 3) (legEaF K e.state.X)).rows, two a w i *
        (ofBlk (K + 3) (K + 3) (legEaF K e.state.X)).e i k = two (Rᵀ.mulVec a - Rᵀ.mulVec ((skew p).mulVec w)) (Rᵀ.mulVec w) k := by
      intro k hk
      have hk := mem_range.mp hk
      obtain ⟨c, l, rfl⟩ : ∃ (c : ℕ) (l : Fin 3), k = 3 * c + l := ⟨k / 3, ⟨k % 3, by omega⟩, by simp; omega⟩
      have hcK : c < K + 3 := by have := l.2; omega
      rw [show (ofBlk (K + 3) (K + 3) (legEaF K e.state.X)).rows = 3 * (K + 3) from rfl, sum_range_three_mul, sum_0_2 (by omega)]
      · simp only [hF 0 c (by omega) hcK, hF 2 c (by omega) hcK, two_0, two_2]
        have v0 : legEaF K e.state.X 0 c = if c = 0 then R else 0 := by
          unfold legEaF adjF
          by_cases h : c = 0
          · subst h; rw [if_pos ⟨by omega, by omega⟩]; rfl
          · by_cases hc : c ≤ K
            · rw [if_pos ⟨by omega, hc⟩, if_neg (by omega), if_neg h, if_neg h]
            · rw [if_neg (by omega), if_neg (by omega), if_neg h]
        have v2 : legEaF K e.state.X 2 c = if c = 2 then R else if c = 0 then skew p * R else 0 := by
          unfold legEaF adjF
          by_cases h2 : c = 2
          · subst h2; rw [if_pos ⟨by omega, by omega⟩]
          · rw [if_neg h2]
            by_cases h : c = 0
            · subst h; rw [if_pos ⟨by omega, by omega⟩]; rfl
            · rw [if_neg h]
              by_cases hc : c ≤ K
              · rw [if_pos ⟨by omega, hc⟩, if_neg (by omega)]
              · rw [if_neg (by omega), if_neg (by omega)]
        rw [v0, v2]
        by_cases h0 : c = 0
        · subst h0
          rw [if_pos rfl, if_neg (by omega), if_pos rfl, two_0]
          fin_cases l <;>
          simp [Matrix.mulVec, dotProduct, Fin.sum_univ_three, Matrix.mul_apply, skew] <;> ring
        · by_cases h2 : c = 2
          · subst h2
            rw [if_neg (by omega), if_pos rfl, two_2]
            simp [Matrix.mulVec, dotProduct, Fin.sum_univ_three]; ring
          · rw [two_z _ _ h0 h2, if_neg h0, if_neg h0, if_neg h2]
            simp
      · intro b h0 h2; simp [two_z a w h0 h2]
    have q1 : e.state.P.rows = 3 * (K + 3) := by omega
    have q2 : e.state.P.cols = 3 * (K + 3) := by omega
    rw [q1, q2]
    exact sum_congr rfl fun i hi => sum_congr rfl fun j hj => by beta_reduce; rw [this i hi, this j hj]
  refine ⟨R, p, _, _, blk3?_eq (by omega) (by omega), blkV?_eq (by omega) (by omega), blk3?_eq (by omega) (by omega), blk3?_eq (by omega) (by omega), ?_, fun w => ?_⟩
  · have := frame_two hK hf (Pi.single 2 1) 0
    rw [key, quad_two (n := K + 3) (by omega) (by omega) (by omega)] at this
    simp only [Matrix.mulVec_zero, sub_zero, zero_dotProduct, dotProduct_zero, add_zero, Pi.single_eq_same, one_pow, mul_one, mul_zero] at this
    refine this.trans (le_of_eq ?_)
    simp [Matrix.mulVec, dotProduct, Fin.sum_univ_three, Matrix.mul_apply]; ring
  · have := frame_two hK hf (p ⨯₃ R.mulVec w) (R.mulVec w)
    rw [key, quad_two (n := K + 3) (by omega) (by omega) (by omega)] at this
    have z : Rᵀ.mulVec (p ⨯₃ R.mulVec w) - Rᵀ.mulVec ((skew p).mulVec (R.mulVec w)) = 0 := by
      rw [skew_mulVec, sub_self]
    have hRR : Rᵀ * R = 1 := g.shape.x.rot.1
    have hw : Rᵀ.mulVec (R.mulVec w) = w := by rw [Matrix.mulVec_mulVec, hRR, Matrix.one_mulVec]
    have hn : R.mulVec w ⬝ᵥ R.mulVec w = w ⬝ᵥ w := by
      rw [Matrix.dotProduct_mulVec, Matrix.vecMul_mulVec, hRR]; simp
    rw [z, hw, hn] at this
    simp only [Matrix.mulVec_zero, zero_dotProduct, dotProduct_zero, zero_add, add_zero] at this
    linarith

/-- the hypotheses are met by both kinds of estimator: a velocity correction, initialised at rest, then any
measurements and any schedule (without `clear()`); the default configuration has the positive initial variances
`0.03` and `0.00001` -/
example (m : ImuMeas) (tv : ℝ) (evs : List EstEv) (hne : EstEv.clear ∉ evs) (hs : (m :: imuArrivals evs).Pairwise fun a b => a.time ≤ b.time) :
    ∃ eL eL' eR eR', Estimator.ctor .leftInvariant ⟨fun _ => 0, 0⟩ {} { static_bias_initialization := some false } [.vel {}] = some eL ∧
      Estimator.ctor .rightInvariant ⟨fun _ => 0, 0⟩ {} { static_bias_initialization := some false } [.vel {}] = some eR ∧
      Usable { static_bias_initialization := some false } [.vel {}] (imuArrivals (.tick :: .imu m :: .vel 0 ⟨tv, 0⟩ :: .tick :: evs)) ∧
      StartsAtRest eL (.tick :: .imu m :: .vel 0 ⟨tv, 0⟩ :: .tick :: evs) ∧
      eL.run (.tick :: .imu m :: .vel 0 ⟨tv, 0⟩ :: .tick :: evs) = some eL' ∧
      eR.run (.tick :: .imu m :: .vel 0 ⟨tv, 0⟩ :: .tick :: evs) = some eR' ∧ eL'.enabled = true ∧ eR'.enabled = true ∧
      eR.rotCov = 0.03 ∧ eR.posCov = 0.00001 := by
  obtain ⟨eL, h0, u, hz, e, h1, hen, K, hK⟩ := exRest m tv evs hne hs
  obtain ⟨eR, eL', eR', h2, h3, h4, -, -, -, h5, -⟩ := C60_same_trajectory h0 _ u hz
  have hv := C95_initial_variances h2
  have hen' : eL'.enabled = true := by
    have i := (ctor_inv u h0).1
    have h6 : eL.run ([.tick, .imu m, .vel 0 ⟨tv, 0⟩, .tick] ++ evs) = some eL' := h3
    obtain ⟨e1, h7, i1⟩ := run_estInv [.tick, .imu m, .vel 0 ⟨tv, 0⟩, .tick] (fut := imuArrivals evs) (e := eL) (by simpa [imuArrivals] using i)
    rw [h1] at h7; cases h7
    have h8 : e.run evs = some eL' := by
      simp only [Estimator.run, List.cons_append, List.nil_append, Option.bind_eq_some_iff] at h1 h6
      obtain ⟨a, p1, b, p2, c, p3, d, p4, p5⟩ := h1
      obtain ⟨a', q1, b', q2, c', q3, d', q4, q5⟩ := h6
      rw [p1] at q1; cases q1
      rw [p2] at q2; cases q2
      rw [p3] at q3; cases q3
      rw [p4] at q4; cases q4
      cases p5
      exact q5
    clear h3 h4 h6 h1 hz h0 i u hs hK hv h5 h2
    revert hen i1 h8
    induction evs generalizing e with
    | nil => intro hen _ h8; cases h8; exact hen
    | cons ev evs ih =>
      intro hen i h8
      rw [← List.append_nil (imuArrivals (ev :: evs)), imuArrivals_cons, List.append_assoc] at i
      obtain ⟨e2, k2, i2⟩ := step_inv ev i
      simp only [Estimator.run, k2, Option.bind_some] at h8
      exact ih (fun q => hne (by simp [q])) e2 (step_enabled k2 hen (i.run hen).1 (fun q => hne (by simp [q]))) (by simpa using i2) h8
  refine ⟨eL, eL', eR, eR', h0, h2, u, hz, h3, h4, hen', by rw [← h5]; exact hen', ?_, ?_⟩
  · rw [hv.1]; simp
  · rw [hv.2]; simp

end Drift
