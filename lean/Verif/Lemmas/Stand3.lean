import Verif.Lemmas.Stand2

/-! # Lemmas: a linear function of rotation, velocity and the position of a foot through a kinematic measurement (C160) -/
set_option linter.unusedSimpArgs false
namespace Drift
open Mat Matrix Finset RobotState ImuProp

theorem removeLoop_foot {c2 : ℝ} (hc2 : 0 ≤ c2) (rem : List ℕ) : ∀ {K : ℕ} {h : Heap} {s : RobotState} {ids : ℕ → Option ℕ} (_ : Good K h s)
    (_ : QcLe c2 s.Qc) (_ : IdsOK s ids) (_ : rem.Nodup) (_ : ∀ id ∈ rem, (ids id).isSome = true),
    ∃ K' ids' h' s', LegCorr.removeLoop rem ids h s = some (ids', h', s') ∧ Good K' h' s' ∧ QcLe c2 s'.Qc ∧
      (∀ x y : V3, quad s'.P (lin x y) = quad s.P (lin x y)) ∧
      ∀ b, some b ∈ s.colMap → (∀ id ∈ rem, ids id ≠ some b) → some b ∈ s'.colMap ∧
      ∀ x y w : V3, quad s'.P (footL (blkOf h' b) x y w) = quad s.P (footL (blkOf h b) x y w) := by
  induction rem with
  | nil => intro K h s ids g hl _ _ _; exact ⟨K, ids, h, s, rfl, g, hl, fun _ _ => rfl, fun b hb _ => ⟨hb, fun _ _ _ => rfl⟩⟩
  | cons id rest ih =>
    intro K h s ids g hl hi hnd hsome
    obtain ⟨hnid, hnd'⟩ := List.nodup_cons.mp hnd
    obtain ⟨a, ha⟩ := Option.isSome_iff_exists.mp (hsome id (by simp))
    have hmem := hi.mem id a ha
    obtain ⟨j, h5, hj, -, hja, -⟩ := g.col hmem
    have hl0 := g.len
    obtain ⟨K1, rfl⟩ : ∃ K1, K = K1 + 1 := ⟨K - 1, by omega⟩
    obtain ⟨h1, s1, e1, g1, d⟩ := del_good g hmem
    have hi1 : IdsOK s1 (fun j => if j = id then none else ids j) := by
      refine ⟨fun id' b hb => ?_, fun id' id'' b hb hb' => ?_⟩
      · by_cases h : id' = id
        · rw [if_pos h] at hb; simp at hb
        · rw [if_neg h] at hb
          rw [d.mem]
          refine ⟨hi.mem _ _ hb, ?_⟩
          rintro rfl
          exact h (hi.inj _ _ _ hb ha)
      · by_cases h : id' = id
        · rw [if_pos h] at hb; simp at hb
        · by_cases h' : id'' = id
          · rw [if_pos h'] at hb'; simp at hb'
          · rw [if_neg h] at hb; rw [if_neg h'] at hb'
            exact hi.inj _ _ _ hb hb'
    obtain ⟨l1, n1⟩ := del_qc g hmem e1 hl hc2
    obtain ⟨K', ids', h', s', e, g', l', n', f'⟩ := ih g1 l1 hi1 hnd' (by
      intro id' hid'
      have : id' ≠ id := by rintro rfl; exact hnid hid'
      rw [if_neg this]
      exact hsome id' (by simp [hid']))
    refine ⟨K', ids', h', s', ?_, g', l', fun x y => by rw [n', n1], fun b hb hnb => ?_⟩
    · unfold LegCorr.removeLoop
      rw [ha]
      simp only [Option.bind_eq_bind, Option.bind_some]
      rw [e1]
      simp only [Option.bind_some]
      rw [e]
    · have hba : b ≠ a := by
        rintro rfl
        exact hnb id (by simp) ha
      obtain ⟨-, m1, f1⟩ := del_foot g hmem hb hba e1 hl hc2
      obtain ⟨m', k'⟩ := f' b m1 (by
        intro id' hid'
        have : id' ≠ id := by rintro rfl; exact hnid hid'
        rw [if_neg this]
        exact hnb id' (by simp [hid']))
      exact ⟨m', fun x y w => by rw [k', f1]⟩

theorem addLoop_foot {c2 r : ℝ} (hc2 : r ^ 2 ≤ c2) (c : LegCorr) (hr : c.errorType = .rightInvariant) (hcn : PSD (of3 c.contactNoise))
    (hn : c.contactNoise = r ^ 2 • (1 : M3)) (news : List (ℕ × V3 × M3)) :
    ∀ {K : ℕ} {h : Heap} {s : RobotState} {ids : ℕ → Option ℕ} (_ : Good K h s) (_ : QcLe c2 s.Qc)
      (_ : ∀ t ∈ news, PSD (of3 t.2.2)) (_ : (news.map Prod.fst).Nodup),
    ∃ K' ids' h' s', LegCorr.addLoop c news s.P ids h s = some (ids', h', s') ∧ Good K' h' s' ∧ QcLe c2 s'.Qc ∧
      (∀ x y : V3, quad s'.P (lin x y) = quad s.P (lin x y)) ∧ (∀ j, j ∉ news.map Prod.fst → ids' j = ids j) ∧
      (∀ b, some b ∈ s.colMap → some b ∈ s'.colMap ∧
      ∀ x y w : V3, quad s'.P (footL (blkOf h' b) x y w) = quad s.P (footL (blkOf h b) x y w)) ∧
      ∀ t ∈ news, ∃ b R, ids' t.1 = some b ∧ IsRot R ∧ some b ∈ s'.colMap ∧
      ∀ x y w : V3, quad s'.P (footL (blkOf h' b) x y w) = quad s.P (lin x y) + w ⬝ᵥ (R * t.2.2 * Rᵀ).mulVec w := by
  induction news with
  | nil =>
    intro K h s ids g hl _ _
    exact ⟨K, ids, h, s, rfl, g, hl, fun _ _ => rfl, fun _ _ => rfl, fun b hb => ⟨hb, fun _ _ _ => rfl⟩, by simp⟩
  | cons t rest ih =>
    intro K h s ids g hl hps hnd
    obtain ⟨id, pose, cov⟩ := t
    rw [List.map_cons, List.nodup_cons] at hnd
    obtain ⟨hnid, hnd'⟩ := hnd
    have hcov : PSD (of3 cov) := hps (id, pose, cov) (by simp)
    have ea := augment_eq g c pose cov g.shape.pr g.shape.pc
    rw [hr] at ea
    simp only [reduceCtorEq, decide_false, if_false] at ea
    have hP1 : PSD (augP K false pose (s.X.blk3 0 0) cov s.P) := augP_psd g.psd g.shape.pr hcov
    have hPr : (augP K false pose (s.X.blk3 0 0) cov s.P).rows = 3 * K + 12 := by rw [augP_rows]; ring
    have hPd := augP_deletes (l := false) (pose := pose) (W := s.X.blk3 0 0) (cov := cov) g.shape.pr g.shape.pc
    obtain ⟨k, s1, e1, g1, d1⟩ := add_good g (s.X.blkV 0 4 + (s.X.blk3 0 0).mulVec pose) hP1 hPr hcn (s.dimX : ℤ)
    have e1' := e1
    rw [hn] at e1'
    have hcn' : PSD (of3 (r ^ 2 • (1 : M3))) := by rw [← hn]; exact hcn
    obtain ⟨l1, n1⟩ := add_qc g hP1 hPr hPd e1' hl hc2
    obtain ⟨K', ids', h', s', e, g', l', n', i', f', w'⟩ := ih (ids := fun j => if j = id then some h.next else ids j) g1 l1
      (fun t ht => hps t (by simp [ht])) hnd'
    rw [d1.p] at n' w'
    refine ⟨K', ids', h', s', ?_, g', l', fun x y => by rw [n', n1], fun j hj => ?_, fun b hb => ?_, fun t ht => ?_⟩
    · unfold LegCorr.addLoop
      rw [ea]
      simp only [Option.bind_eq_bind, Option.bind_some]
      rw [e1]
      simp only [Option.bind_some]
      rw [← d1.p]
      exact e
    · rw [List.map_cons, List.mem_cons, not_or] at hj
      rw [i' j hj.2]
      exact if_neg hj.1
    · obtain ⟨-, m1, b1, f1⟩ := add_foot g hb hP1 hPr hPd hcn' e1' hl hc2
      obtain ⟨m', k'⟩ := f' b m1
      exact ⟨m', fun x y w => by rw [k', b1, f1]⟩
    · rcases List.mem_cons.mp ht with rfl | ht
      · have hb1 : some h.next ∈ s1.colMap := (d1.mem _).mpr (.inr rfl)
        obtain ⟨m', k'⟩ := f' h.next hb1
        have hblk : blkOf ((h.alloc (s.dimX : ℤ)).2.write (h.alloc (s.dimX : ℤ)).1 k) h.next = K + 1 := by
          have x2 := g.shape.x.cols
          unfold blkOf
          rw [d1.col]
          unfold dimX
          omega
        refine ⟨h.next, s.X.blk3 0 0, ?_, g.shape.x.rot, m', fun x y w => ?_⟩
        · rw [i' id hnid]; exact if_pos rfl
        · rw [k', hblk, d1.p]
          exact aug_new g.shape.k pose _ cov g.shape.pr g.shape.pc x y w
      · obtain ⟨b, R, q1, q2, q3, q4⟩ := w' t ht
        exact ⟨b, R, q1, q2, q3, fun x y w => by rw [q4, n1]⟩

/-- what the rows of a stance leg read along `z` -/
theorem pull_stance {K k : ℕ} {R : M3} {p : V3} {d : ℕ → V3} {cov : LegObs → M3} {L : List (ℕ × LegObs)} {Z H N : Mat}
    (ob : StanceObs (K + 3) R p d cov L Z H N) (hk : k < L.length) {q : ℕ} (hq : 3 ≤ q) (hL : L[k].1 = q + 2) (a b c z : V3) {i : ℕ} (hi : i < 3 * K + 9) :
    footL q a b c i - pull H (spread k z) i = footL q a b (c + z) i := by
  have key : at3 (pull H (spread k z)) (i / 3) = if i / 3 = q then z else if i / 3 = 2 then -z else 0 := by
    rw [at3_pull_spread (n := L.length) ob.hr hk, ob.h k hk (i / 3) (by omega), hL, show q + 2 - 2 = q by omega]
    split_ifs <;> simp [transpose_neg, neg_mulVec]
  rw [at3_e (footL q a b c) i, at3_e (footL q a b (c + z)) i, at3_e (pull H (spread k z)) i, key, footL_at3 hq, footL_at3 hq]
  by_cases h0 : i / 3 = 0
  · rw [if_pos h0, if_pos h0, if_neg (by omega), if_neg (by omega)]; simp
  · rw [if_neg h0, if_neg h0]
    by_cases h1 : i / 3 = 1
    · rw [if_pos h1, if_pos h1, if_neg (by omega), if_neg (by omega)]; simp
    · rw [if_neg h1, if_neg h1]
      by_cases h2 : i / 3 = 2
      · rw [if_pos h2, if_pos h2, if_neg (by omega), if_pos h2]; simp
      · by_cases h3 : i / 3 = q
        · simp only [if_neg h2, if_pos h3]; simp; ring
        · simp only [if_neg h2, if_neg h3]; simp

/-- the noise of a foot in any orientation -/
theorem foot_noise {c : LegCorr} {o : LegObs} {R : M3} (hR : IsRot R) {σ : ℝ}
    (hσ : ∀ u : V3, u ⬝ᵥ (footCovSpec c.encStd c.kinStd o).mulVec u ≤ σ ^ 2 * (u ⬝ᵥ u)) (z : V3) :
    z ⬝ᵥ (R * c.footCov o * Rᵀ).mulVec z ≤ σ ^ 2 * nsq z := by
  have hRt : IsRot Rᵀ := by
    obtain ⟨h1, h2, h3⟩ := hR
    exact ⟨by rw [transpose_transpose]; exact h2, by rw [transpose_transpose]; exact h1, by rw [det_transpose]; exact h3⟩
  rw [footCov_eq]
  have e2 : z ⬝ᵥ (R * footCovSpec c.encStd c.kinStd o * Rᵀ).mulVec z = Rᵀ.mulVec z ⬝ᵥ (footCovSpec c.encStd c.kinStd o).mulVec (Rᵀ.mulVec z) := by
    rw [Matrix.mul_assoc, ← mulVec_mulVec, dotProduct_mulVec, ← mulVec_transpose, ← mulVec_mulVec]
  have e3 := hσ (Rᵀ.mulVec z)
  rw [nsq_dot, nsq_rot hRt] at e3
  rw [e2]
  exact e3

/-- A kinematic measurement, for a foot of reference `b` that the measurement does not report lifted: if it reports the foot in contact, the
function can be changed along `z` at the price of the variance of the foot.  For a foot that gets its reference from this measurement, the position
of the foot can be taken out of the function altogether at this price. -/
theorem legApply_foot {c2 r : ℝ} (hc2 : r ^ 2 ≤ c2) {K h s} (g : Good K h s) (hl : QcLe c2 s.Qc) (c : LegCorr)
    (hr : c.errorType = .rightInvariant) (hids : IdsOK s c.ids) (hk : c.kinStd ≠ 0) (hcn : PSD (of3 c.contactNoise))
    (hn : c.contactNoise = r ^ 2 • (1 : M3)) (m : LegMeas) :
    ∃ K' ids' h' s', c.apply m h s = some (ids', h', s') ∧ Good K' h' s' ∧ QcLe c2 s'.Qc ∧
      (∀ b, some b ∈ s.colMap → (∀ (id : ℕ) o, m.legs[id]? = some o → o.contact = false → c.ids id ≠ some b) →
        some b ∈ s'.colMap ∧ ∀ x y w : V3,
        quad s'.P (footL (blkOf h' b) x y w) ≤ quad s.P (footL (blkOf h b) x y w) ∧
        ∀ (id : ℕ) o, m.legs[id]? = some o → o.contact = true → c.ids id = some b → ∀ σ : ℝ,
          (∀ u : V3, u ⬝ᵥ (footCovSpec c.encStd c.kinStd o).mulVec u ≤ σ ^ 2 * (u ⬝ᵥ u)) → ∀ z : V3,
          quad s'.P (footL (blkOf h' b) x y w) ≤ quad s.P (footL (blkOf h b) x y (w + z)) + σ ^ 2 * nsq z) ∧
      ∀ (id : ℕ) o, m.legs[id]? = some o → o.contact = true → c.ids id = none → ∃ b, ids' id = some b ∧ some b ∈ s'.colMap ∧ ∀ σ : ℝ,
        (∀ u : V3, u ⬝ᵥ (footCovSpec c.encStd c.kinStd o).mulVec u ≤ σ ^ 2 * (u ⬝ᵥ u)) → ∀ x y w : V3,
        quad s'.P (footL (blkOf h' b) x y w) ≤ quad s.P (lin x y) + σ ^ 2 * nsq w := by
  have gt := g.setT (some m.time)
  have h0 : 0 ≤ c2 := le_trans (sq_nonneg r) hc2
  obtain ⟨acc, e, hrem, hnew, hobs⟩ := legLoop gt c ⟨hids.mem, hids.inj⟩ m
  have hN : PD acc.N := stance_pd hobs g.shape.x.rot (fun o => footCov_pd c hk o)
  obtain ⟨s1, k1, g1, f1, q1⟩ := kalman_step gt hobs hN c.errorType
  have hcm : s1.colMap = s.colMap := by rw [f1]
  have hqc : s1.Qc = s.Qc := by rw [f1]
  have hi1 : IdsOK s1 c.ids := ⟨by rw [hcm]; exact hids.mem, hids.inj⟩
  have hlow : ∀ x : ℕ → ℝ, (∀ i, 3 * K + 3 ≤ i → x i = 0) → quad s1.P x ≤ quad s.P x := by
    intro x hx
    by_cases hne : stanceL m c.ids h m.legs.length = []
    · rw [if_pos hne] at q1; rw [q1]
    · rw [if_neg hne, hr] at q1
      exact corr_le gt.shape gt.psd hN q1 _ hx
  obtain ⟨K2, ids2, h2, s2, a1, g2, l2, n2, f2⟩ := removeLoop_foot h0 acc.rem g1 (by rw [hqc]; exact hl) hi1 (by rw [hrem]; exact endedL_nodup _ _ _)
    (by intro id hid; rw [hrem] at hid; exact ((mem_endedL rfl).mp hid).2)
  obtain ⟨K3, ids3, h3, s3, b1, g3, l3, n3, -, f3, w3⟩ := addLoop_foot hc2 c hr hcn hn acc.new (ids := ids2) g2 l2 (by
    intro t ht
    rw [hnew] at ht
    obtain ⟨o, -, -, -, -, q⟩ := (mem_startedL rfl).mp ht
    rw [q]; exact (footCov_pd c hk o).psd) (by rw [hnew]; exact startedL_nodup _ _ _)
  refine ⟨K3, ids3, h3, s3, ?_, g3, l3, fun b hb hst => ?_, fun id o ho hoc hid => ?_⟩
  · unfold LegCorr.apply
    extract_lets st
    show (forRange m.legs.length LegCorr.acc0 (c.legStep h { s with t := some m.time } m)).bind _ = _
    refine bind_eq_of e ?_
    refine bind_eq_of k1 ?_
    refine bind_eq_of a1 ?_
    exact b1
  · obtain ⟨t1, t2, t3, t4⟩ := g.blkOf hb
    have hb1 : some b ∈ s1.colMap := by rw [hcm]; exact hb
    obtain ⟨m2, e2⟩ := f2 b hb1 (by
      intro id hid
      rw [hrem] at hid
      obtain ⟨⟨o, ho, hoc⟩, -⟩ := (mem_endedL rfl).mp hid
      exact hst id o ho hoc)
    obtain ⟨m3, e3⟩ := f3 b m2
    refine ⟨m3, fun x y w => ?_⟩
    rw [e3, e2]
    have hxz : ∀ i, 3 * K + 3 ≤ i → footL (blkOf h b) x y w i = 0 := fun i hi => footL_high t1 _ _ _ (by omega)
    refine ⟨hlow _ hxz, ?_⟩
    intro id o ho hoc hid σ hσ z
    have hmem : (blkOf h b + 2, o) ∈ stanceL m c.ids h m.legs.length := by
      rw [← t3]
      exact (C59_stance_legs m c.ids h _ o).mpr ⟨id, b, ho, hoc, hid, rfl⟩
    have hne : stanceL m c.ids h m.legs.length ≠ [] := List.ne_nil_of_mem hmem
    rw [if_neg hne, hr] at q1
    obtain ⟨k, hk', hko⟩ := List.getElem_of_mem hmem
    have hL1 : (stanceL m c.ids h m.legs.length)[k].1 = blkOf h b + 2 := by rw [hko]
    have hL2 : (stanceL m c.ids h m.legs.length)[k].2 = o := by rw [hko]
    have hps := fun {i : ℕ} (hi : i < 3 * K + 9) => pull_stance hobs hk' t1 hL1 x y w z hi
    have hHc := hobs.hc hne
    have hpz : ∀ i, 3 * K + 3 ≤ i → pull acc.H (spread k z) i = 0 := by
      intro i hi
      by_cases hi9 : i < 3 * K + 9
      · have := hps hi9
        rw [hxz i hi, footL_high t1 _ _ _ (by omega)] at this
        linarith
      · unfold pull
        refine Finset.sum_eq_zero fun j _ => ?_
        rw [acc.H.supp j i (by rintro ⟨-, q⟩; rw [hHc] at q; omega), mul_zero]
    have key := corr_shift gt.shape gt.psd hN q1 (footL (blkOf h b) x y w) (spread k z) hxz hpz
    refine le_trans key (add_le_add (le_of_eq ?_) ?_)
    · exact quad_ext g.shape.pr g.shape.pc fun i hi => hps hi
    · rw [quad_spread (by rw [hobs.nr]; omega) (by rw [hobs.nc]; omega), hobs.nn k hk' k hk', if_pos rfl, hL2]
      exact foot_noise g.shape.x.rot hσ z
  · obtain ⟨b, R, q4, q5, q6, q7⟩ := w3 (id, o.pos, c.footCov o) (by rw [hnew]; exact (mem_startedL rfl).mpr ⟨o, ho, hoc, hid, rfl, rfl⟩)
    refine ⟨b, q4, q6, fun σ hσ x y w => ?_⟩
    rw [q7, n2]
    refine add_le_add (hlow _ fun i hi => ?_) (foot_noise q5 hσ w)
    have := g.shape.k
    rw [at3_e (lin x y) i, lin_at3, if_neg (by omega), if_neg (by omega)]; rfl

end Drift
