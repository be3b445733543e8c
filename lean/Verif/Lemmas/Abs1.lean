import Verif.Lemmas.Stand5

/-! # Lemmas: the position of a foot in the world through an IMU step and through the removal and addition of contacts (C163) -/
set_option linter.unusedSimpArgs false
namespace Drift
open Mat Matrix Finset RobotState ImuProp

theorem spread_high {q : ℕ} (w : V3) {i : ℕ} (h : 3 * q + 3 ≤ i) : spread q w i = 0 := by
  rw [at3_e (spread q w) i, spread_at3, if_neg (by omega)]; rfl

theorem spread_ext {q q' : ℕ} (w : V3) {i i' : ℕ} (hm : i % 3 = i' % 3) (h : i / 3 = q ↔ i' / 3 = q') : spread q w i = spread q' w i' := by
  rw [at3_e (spread q w) i, at3_e (spread q' w) i', spread_at3, spread_at3]
  have hf : (⟨i % 3, Nat.mod_lt _ (by norm_num)⟩ : Fin 3) = ⟨i' % 3, Nat.mod_lt _ (by norm_num)⟩ := Fin.ext hm
  rw [hf]
  refine congrFun ?_ _
  by_cases hh : i / 3 = q
  · rw [if_pos hh, if_pos (h.mp hh)]
  · rw [if_neg hh, if_neg (fun k => hh (h.mpr k))]

/-- the transition matrix of the right-invariant filter without bias estimation leaves the position of a foot as it is -/
theorem pull_phi_spread {K q : ℕ} {p : ImuProp} (hK : 2 ≤ K) (hq : 3 ≤ q) (hqK : q < K + 1) (het : p.errorType = .rightInvariant)
    (hen : p.enableBias = false) (w a' : V3) (dt : ℝ) (X : Mat) (u : V3) {i : ℕ} (hi : i < 3 * K + 9) :
    pull (phiK K p w a' dt X) (spread q u) i = spread q u i := by
  rw [at3_e (pull _ _) i, at3_e (spread _ _) i]
  refine congrFun ?_ _
  obtain ⟨k, hk⟩ : ∃ k, i / 3 = k := ⟨_, rfl⟩
  have hk' : k < K + 3 := by omega
  rw [hk, at3_pull_spread (n := K + 3) (by simp; ring) (by omega), spread_at3]
  have h3 : (phiK K p w a' dt X).blk3 (3 * q) (3 * k) = if K + 1 ≤ k then 0 else phiRB dt q k := by
    unfold phiK
    rw [het]
    dsimp only
    rw [ofBlk_blk3 _ (by omega) hk']
    unfold phiRF
    dsimp only
    rw [hen, if_neg (by simp)]
  rw [h3]
  by_cases hk1 : K + 1 ≤ k
  · simp [hk1, show k ≠ q by omega]
  · rw [if_neg hk1]
    unfold phiRB
    by_cases c3 : k = q
    · subst c3
      simp [show k ≠ 0 by omega, show k ≠ 1 by omega, show k ≠ 2 by omega]
    · simp [c3, Ne.symm c3, show q ≠ 0 by omega, show q ≠ 1 by omega, show q ≠ 2 by omega]

/-- the variance of the position of a foot through one IMU step -/
theorem prop_abs {K : ℕ} {h : Heap} {s s' : RobotState} (g : Good K h s) {p p' : ImuProp} {sg sc D : ℝ} (het : p.errorType = .rightInvariant)
    (hen : p.enableBias = false) (hg : p.gyroCov = sg ^ 2 • (1 : M3)) (hQ : QcLe (sc ^ 2) s.Qc)
    {q : ℕ} (hq : 3 ≤ q) (hqK : q < K + 1) (hD : norm3 (s.X.blkV 0 (q + 2)) ≤ D)
    {m f : ImuMeas} {rest : List ImuMeas} {tp : ℝ} (hb : p.buffer = f :: rest) (hm : p.prev = some m) (ht : s.tProp = some tp) (hle : tp ≤ m.time)
    {bb : Bool} (e : p.propagate s = some (bb, p', s')) (u : V3) :
    quad s'.P (spread q u) ≤ quad s.P (spread q u) + (m.time - tp) * ((sg ^ 2 * D ^ 2 + sc ^ 2) * nsq u) := by
  have hsq := g.q.psd.sq
  have hr : PropReady K p s m f rest tp := ⟨g.shape, g.world, g.q.r, by rw [← hsq]; exact g.q.r, hb, hm, ht⟩
  obtain ⟨bg, ba, w, a', Φ, -, -, -, hΦ, key⟩ := C96_process_noise hr g.q e
  have hK := g.shape.k
  rw [stateTransitionMatrix_eq g.shape g.world] at hΦ
  obtain rfl := Option.some.inj hΦ
  have hpull := fun {i : ℕ} (hi : i < 3 * K + 9) => pull_phi_spread hK hq hqK het hen w a' (m.time - tp) s.X u hi
  have hx := key (spread q u) (pull (bd (AdM K s.X) (3 * K + 9)) (pull (phiK K p w a' (m.time - tp) s.X) (spread q u)))
    (fun _ i hi => spread_high _ (by omega)) (by
    unfold Channels; rw [het]; exact ⟨_, adjoint_AdM g.shape.x.rows g.shape.x.cols, rfl⟩)
  rw [hx, quad_ext g.shape.pr g.shape.pc fun i hi => hpull hi]
  refine add_le_add le_rfl (mul_le_mul_of_nonneg_left ?_ (by linarith))
  clear hx key
  obtain ⟨n, hn⟩ : ∃ n, pull (bd (AdM K s.X) (3 * K + 9)) (pull (phiK K p w a' (m.time - tp) s.X) (spread q u)) = n := ⟨_, rfl⟩
  rw [hn]
  have hn' : n = pull (bd (AdM K s.X) (3 * K + 9)) (spread q u) := by
    funext k
    rw [← hn]
    unfold pull
    refine sum_congr rfl fun i hi => ?_
    have hi' : i < 3 * K + 9 := mem_range.mp hi
    congr 1
    exact hpull hi'
  have hn3 : ∀ k, k < K + 3 → at3 n k = if k < K + 1 then (adjF (s.X.blk3 0 0) (fun k => s.X.blkV 0 (3 + k)) q k)ᵀ.mulVec u else 0 := by
    intro k hk
    have e3 := bd_blk (K := K) s.X (j := q) (by omega) hk
    rw [hn', at3_pull_spread (n := K + 3) (by show 3 * K + 9 = _; ring) (by omega), e3]
    split_ifs
    · rfl
    · simp
  obtain ⟨R, hRd⟩ : ∃ R, s.X.blk3 0 0 = R := ⟨_, rfl⟩
  rw [hRd] at hn3
  have n0 : at3 n 0 = Rᵀ.mulVec ((skew (s.X.blkV 0 (q + 2)))ᵀ.mulVec u) := by
    rw [hn3 0 (by omega), if_pos (by omega)]
    unfold adjF
    rw [if_neg (by omega), if_pos rfl]
    simp only [transpose_mul, mulVec_mulVec]
    rw [show 3 + (q - 1) = q + 2 by omega]
  have n1 : at3 n 1 = 0 := by
    rw [hn3 1 (by omega), if_pos (by omega)]
    unfold adjF
    simp [show q ≠ 1 by omega, show q ≠ 0 by omega]
  have nq : at3 n q = Rᵀ.mulVec u := by
    rw [hn3 q (by omega), if_pos (by omega)]
    unfold adjF
    simp [show q ≠ 1 by omega, show q ≠ 0 by omega, show q ≠ 2 by omega, show (0 : ℕ) ≠ q by omega]
  have nr : ∀ k, 3 ≤ k → k < K + 3 → k ≠ q → at3 n k = 0 := by
    intro k h3 hk hne
    rw [hn3 k hk]
    split_ifs
    · unfold adjF
      simp [show k ≠ 0 by omega, show k ≠ 1 by omega, show k ≠ 2 by omega, hne, Ne.symm hne, show q ≠ 0 by omega]
    · rfl
  have hR : IsRot Rᵀ := by
    obtain ⟨h1, h2, h3⟩ := g.shape.x.rot
    rw [hRd] at h1 h2 h3
    exact ⟨by rw [transpose_transpose]; exact h2, by rw [transpose_transpose]; exact h1, by rw [det_transpose]; exact h3⟩
  have hqc : quad s.Qc n ≤ sc ^ 2 * nsq u := by
    refine le_trans (hQ.quad (sq_nonneg _) hsq n) ?_
    rw [g.q.r, show 3 * K + 9 = 3 * (K + 3) by ring, sum_block hq (by omega) n nr, nq, nsq_rot hR]
  unfold noiseRate
  rw [hen, if_neg (by simp), n0, n1, hg, add_zero]
  have hz : ∀ M : M3, (0 : V3) ⬝ᵥ M.mulVec 0 = 0 := fun M => by simp
  simp only [smul_mulVec, one_mulVec, dotProduct_smul, nsq_dot, smul_eq_mul, nsq_rot hR, hz, add_zero]
  rw [add_mul, mul_assoc]
  refine add_le_add (mul_le_mul_of_nonneg_left ?_ (sq_nonneg _)) hqc
  rw [← norm3_sq, ← norm3_sq, ← mul_pow]
  refine pow_le_pow_left₀ (norm3_nonneg _) ?_ 2
  exact le_trans (norm3_skew_le _ _) (mul_le_mul_of_nonneg_right hD (norm3_nonneg _))

theorem del_abs {K : ℕ} {h h1 : Heap} {s s1 : RobotState} (g : Good (K + 1) h s) {a b : ℕ} (ha : some a ∈ s.colMap) (hb : some b ∈ s.colMap)
    (hne : b ≠ a) (e : s.del_aug_state h (h.val a) = some (h1, s1)) :
    some b ∈ s1.colMap ∧ ∀ w : V3, quad s1.P (spread (blkOf h1 b) w) = quad s.P (spread (blkOf h b) w) := by
  obtain ⟨h1', s1', e', g1, d⟩ := del_good g ha
  rw [e] at e'
  simp only [Option.some.injEq, Prod.mk.injEq] at e'
  obtain ⟨rfl, rfl⟩ := e'
  obtain ⟨j, h5, hj, hja, hva, -⟩ := g.col ha
  have x1 := g.shape.x.rows; have x2 := g.shape.x.cols; have p1 := g.shape.pr; have p2 := g.shape.pc
  have hl0 := g.len
  obtain ⟨h1', s1', e', dX, dP, dQ, hl, hn, hm, -⟩ := del_aug_state_spec (idx := j) g.consistent g.tab h5 (by unfold dimX; omega)
  rw [← hva, e] at e'
  simp only [Option.some.injEq, Prod.mk.injEq] at e'
  obtain ⟨rfl, rfl⟩ := e'
  have hb1 : some b ∈ s1.colMap := (d.mem b).mpr ⟨hb, hne⟩
  refine ⟨hb1, fun w => ?_⟩
  obtain ⟨r1, r2, r3, r4⟩ := g1.blkOf hb1
  obtain ⟨t1, t2, t3, t4⟩ := g.blkOf hb
  have hl1 := g1.len
  have hsk : skip j 1 (blkOf h1 b + 2) = blkOf h b + 2 := by
    rw [hm _ (by omega)] at r4
    exact g.col_unique r4 t4
  have hjb : j ≠ blkOf h b + 2 := by
    rintro rfl
    rw [t4] at hja
    exact hne (Option.some.inj (Option.some.inj hja))
  have dP' : Deletes s.P s1.P (3 * (j - 2)) 3 := by rw [show 3 * (j - 2) = 3 * j - 6 by omega]; exact dP
  have hsk' : (blkOf h1 b < j - 2 → blkOf h b = blkOf h1 b) ∧ (j - 2 ≤ blkOf h1 b → blkOf h b = blkOf h1 b + 1) := by
    unfold skip at hsk
    split_ifs at hsk <;> omega
  refine quad_deletes (n := 3 * (K + 1) + 9) p1 p2 (by omega) dP' (fun i hi => ?_) fun i i1 i2 => ?_
  · by_cases hij : i < 3 * (j - 2)
    · unfold skip
      rw [if_pos hij]
      refine spread_ext w rfl ?_
      constructor
      · intro hh; by_contra; omega
      · intro hh; by_contra; omega
    · unfold skip
      rw [if_neg hij]
      refine spread_ext w (by omega) ?_
      rw [show (i + 3) / 3 = i / 3 + 1 by omega]
      constructor
      · intro hh; by_contra; omega
      · intro hh; by_contra; omega
  · rw [at3_e (spread _ w) i, spread_at3, if_neg (by omega)]; rfl

theorem add_abs {r : ℝ} {K : ℕ} {h : Heap} {s s1 : RobotState} (g : Good K h s) {b : ℕ} (hb : some b ∈ s.colMap) {aug : V3} {P : Mat} {x : ℤ} {k : ℤ}
    (hP : PSD P) (hr : P.rows = 3 * K + 12) (hd : Deletes P s.P (3 * K + 3) 3) (hpsd : PSD (of3 (r ^ 2 • (1 : M3))))
    (e : s.add_aug_state aug P (r ^ 2 • (1 : M3)) (some (h.alloc x).1) = some (k, s1)) :
    some b ∈ s1.colMap ∧ blkOf ((h.alloc x).2.write (h.alloc x).1 k) b = blkOf h b ∧
      ∀ w : V3, quad s1.P (spread (blkOf h b) w) = quad s.P (spread (blkOf h b) w) := by
  obtain ⟨k', s1', e', g1, d⟩ := add_good g aug hP hr hpsd x
  rw [e] at e'
  simp only [Option.some.injEq, Prod.mk.injEq] at e'
  obtain ⟨rfl, rfl⟩ := e'
  have hb1 : some b ∈ s1.colMap := (d.mem b).mpr (.inl hb)
  have hl0 := g.len
  obtain ⟨t1, t2, t3, t4⟩ := g.blkOf hb
  obtain ⟨r1, r2, r3, r4⟩ := g1.blkOf hb1
  refine ⟨hb1, ?_, fun w => ?_⟩
  · have hm : s1.colMap = s.colMap ++ [some h.next] := by rw [d.frame]
    have : s1.colMap[blkOf h b + 2]? = some (some b) := by
      rw [hm, List.getElem?_append_left (by omega)]; exact t4
    have := g1.col_unique r4 this
    omega
  · rw [d.p]
    symm
    refine quad_deletes (n := 3 * K + 12) hr (by rw [← hP.sq, hr]) (by omega) hd (fun i hi => ?_) fun i i1 i2 => ?_
    · by_cases hij : i < 3 * K + 3
      · unfold skip; rw [if_pos hij]
      · unfold skip
        rw [if_neg hij, spread_high _ (by omega), spread_high _ (by omega)]
    · exact spread_high _ (by omega)

theorem removeLoop_abs (rem : List ℕ) : ∀ {K : ℕ} {h : Heap} {s : RobotState} {ids : ℕ → Option ℕ} (_ : Good K h s)
    (_ : IdsOK s ids) (_ : rem.Nodup) (_ : ∀ id ∈ rem, (ids id).isSome = true),
    ∃ K' ids' h' s', LegCorr.removeLoop rem ids h s = some (ids', h', s') ∧ Good K' h' s' ∧
      ∀ b, some b ∈ s.colMap → (∀ id ∈ rem, ids id ≠ some b) → some b ∈ s'.colMap ∧
      ∀ w : V3, quad s'.P (spread (blkOf h' b) w) = quad s.P (spread (blkOf h b) w) := by
  induction rem with
  | nil => intro K h s ids g _ _ _; exact ⟨K, ids, h, s, rfl, g, fun b hb _ => ⟨hb, fun _ => rfl⟩⟩
  | cons id rest ih =>
    intro K h s ids g hi hnd hsome
    obtain ⟨hnid, hnd'⟩ := List.nodup_cons.mp hnd
    obtain ⟨a, ha⟩ := Option.isSome_iff_exists.mp (hsome id (by simp))
    have hmem := hi.mem id a ha
    obtain ⟨j, h5, hj, -, hja, -⟩ := g.col hmem
    have hl0 := g.len
    obtain ⟨K1, rfl⟩ : ∃ K1, K = K1 + 1 := ⟨K - 1, by omega⟩
    obtain ⟨h1, s1, e1, g1, d⟩ := del_good g hmem
    have hi1 : IdsOK s1 (fun j => if j = id then none else ids j) := by
      refine ⟨fun id' b hb => ?_, fun id' id'' b hb hb' => ?_⟩
      · by_cases h : id' = id
        · rw [if_pos h] at hb; simp at hb
        · rw [if_neg h] at hb
          rw [d.mem]
          refine ⟨hi.mem _ _ hb, ?_⟩
          rintro rfl
          exact h (hi.inj _ _ _ hb ha)
      · by_cases h : id' = id
        · rw [if_pos h] at hb; simp at hb
        · by_cases h' : id'' = id
          · rw [if_pos h'] at hb'; simp at hb'
          · rw [if_neg h] at hb; rw [if_neg h'] at hb'
            exact hi.inj _ _ _ hb hb'
    obtain ⟨K', ids', h', s', e, g', f'⟩ := ih g1 hi1 hnd' (by
      intro id' hid'
      have : id' ≠ id := by rintro rfl; exact hnid hid'
      rw [if_neg this]
      exact hsome id' (by simp [hid']))
    refine ⟨K', ids', h', s', ?_, g', fun b hb hnb => ?_⟩
    · unfold LegCorr.removeLoop
      rw [ha]
      simp only [Option.bind_eq_bind, Option.bind_some]
      rw [e1]
      simp only [Option.bind_some]
      rw [e]
    · have hba : b ≠ a := by
        rintro rfl
        exact hnb id (by simp) ha
      obtain ⟨m1, f1⟩ := del_abs g hmem hb hba e1
      obtain ⟨m', k'⟩ := f' b m1 (by
        intro id' hid'
        have : id' ≠ id := by rintro rfl; exact hnid hid'
        rw [if_neg this]
        exact hnb id' (by simp [hid']))
      exact ⟨m', fun w => by rw [k', f1]⟩

theorem addLoop_abs {r : ℝ} (c : LegCorr) (hr : c.errorType = .rightInvariant) (hcn : PSD (of3 c.contactNoise))
    (hn : c.contactNoise = r ^ 2 • (1 : M3)) (news : List (ℕ × V3 × M3)) :
    ∀ {K : ℕ} {h : Heap} {s : RobotState} {ids : ℕ → Option ℕ} (_ : Good K h s)
      (_ : ∀ t ∈ news, PSD (of3 t.2.2)) (_ : (news.map Prod.fst).Nodup),
    ∃ K' ids' h' s', LegCorr.addLoop c news s.P ids h s = some (ids', h', s') ∧ Good K' h' s' ∧
      ∀ b, some b ∈ s.colMap → some b ∈ s'.colMap ∧ ∀ w : V3, quad s'.P (spread (blkOf h' b) w) = quad s.P (spread (blkOf h b) w) := by
  induction news with
  | nil =>
    intro K h s ids g _ _
    exact ⟨K, ids, h, s, rfl, g, fun b hb => ⟨hb, fun _ => rfl⟩⟩
  | cons t rest ih =>
    intro K h s ids g hps hnd
    obtain ⟨id, pose, cov⟩ := t
    rw [List.map_cons, List.nodup_cons] at hnd
    obtain ⟨hnid, hnd'⟩ := hnd
    have hcov : PSD (of3 cov) := hps (id, pose, cov) (by simp)
    have ea := augment_eq g c pose cov g.shape.pr g.shape.pc
    rw [hr] at ea
    simp only [reduceCtorEq, decide_false, if_false] at ea
    have hP1 : PSD (augP K false pose (s.X.blk3 0 0) cov s.P) := augP_psd g.psd g.shape.pr hcov
    have hPr : (augP K false pose (s.X.blk3 0 0) cov s.P).rows = 3 * K + 12 := by rw [augP_rows]; ring
    have hPd := augP_deletes (l := false) (pose := pose) (W := s.X.blk3 0 0) (cov := cov) g.shape.pr g.shape.pc
    obtain ⟨k, s1, e1, g1, d1⟩ := add_good g (s.X.blkV 0 4 + (s.X.blk3 0 0).mulVec pose) hP1 hPr hcn (s.dimX : ℤ)
    have e1' := e1
    rw [hn] at e1'
    have hcn' : PSD (of3 (r ^ 2 • (1 : M3))) := by rw [← hn]; exact hcn
    obtain ⟨K', ids', h', s', e, g', f'⟩ := ih (ids := fun j => if j = id then some h.next else ids j) g1
      (fun t ht => hps t (by simp [ht])) hnd'
    refine ⟨K', ids', h', s', ?_, g', fun b hb => ?_⟩
    · unfold LegCorr.addLoop
      rw [ea]
      simp only [Option.bind_eq_bind, Option.bind_some]
      rw [e1]
      simp only [Option.bind_some]
      rw [← d1.p]
      exact e
    · obtain ⟨m1, b1, f1⟩ := add_abs g hb hP1 hPr hPd hcn' e1'
      obtain ⟨m', k'⟩ := f' b m1
      exact ⟨m', fun w => by rw [k', b1, f1]⟩

/-- a kinematic measurement that does not report the foot lifted does not make its position more uncertain -/
theorem legApply_abs {r : ℝ} {K h s} (g : Good K h s) (c : LegCorr)
    (hr : c.errorType = .rightInvariant) (hids : IdsOK s c.ids) (hk : c.kinStd ≠ 0) (hcn : PSD (of3 c.contactNoise))
    (hn : c.contactNoise = r ^ 2 • (1 : M3)) (m : LegMeas) :
    ∃ K' ids' h' s', c.apply m h s = some (ids', h', s') ∧ Good K' h' s' ∧
      ∀ b, some b ∈ s.colMap → (∀ (id : ℕ) o, m.legs[id]? = some o → o.contact = false → c.ids id ≠ some b) →
        some b ∈ s'.colMap ∧ ∀ w : V3, quad s'.P (spread (blkOf h' b) w) ≤ quad s.P (spread (blkOf h b) w) := by
  have gt := g.setT (some m.time)
  obtain ⟨acc, e, hrem, hnew, hobs⟩ := legLoop gt c ⟨hids.mem, hids.inj⟩ m
  have hN : PD acc.N := stance_pd hobs g.shape.x.rot (fun o => footCov_pd c hk o)
  obtain ⟨s1, k1, g1, f1, q1⟩ := kalman_step gt hobs hN c.errorType
  have hcm : s1.colMap = s.colMap := by rw [f1]
  have hi1 : IdsOK s1 c.ids := ⟨by rw [hcm]; exact hids.mem, hids.inj⟩
  have hlow : ∀ x : ℕ → ℝ, (∀ i, 3 * K + 3 ≤ i → x i = 0) → quad s1.P x ≤ quad s.P x := by
    intro x hx
    by_cases hne : stanceL m c.ids h m.legs.length = []
    · rw [if_pos hne] at q1; rw [q1]
    · rw [if_neg hne, hr] at q1
      exact corr_le gt.shape gt.psd hN q1 _ hx
  obtain ⟨K2, ids2, h2, s2, a1, g2, f2⟩ := removeLoop_abs acc.rem g1 hi1 (by rw [hrem]; exact endedL_nodup _ _ _)
    (by intro id hid; rw [hrem] at hid; exact ((mem_endedL rfl).mp hid).2)
  obtain ⟨K3, ids3, h3, s3, b1, g3, f3⟩ := addLoop_abs c hr hcn hn acc.new (ids := ids2) g2 (by
    intro t ht
    rw [hnew] at ht
    obtain ⟨o, -, -, -, -, q⟩ := (mem_startedL rfl).mp ht
    rw [q]; exact (footCov_pd c hk o).psd) (by rw [hnew]; exact startedL_nodup _ _ _)
  refine ⟨K3, ids3, h3, s3, ?_, g3, fun b hb hst => ?_⟩
  · unfold LegCorr.apply
    extract_lets st
    show (forRange m.legs.length LegCorr.acc0 (c.legStep h { s with t := some m.time } m)).bind _ = _
    refine bind_eq_of e ?_
    refine bind_eq_of k1 ?_
    refine bind_eq_of a1 ?_
    exact b1
  · obtain ⟨t1, t2, t3, t4⟩ := g.blkOf hb
    have hb1 : some b ∈ s1.colMap := by rw [hcm]; exact hb
    obtain ⟨m2, e2⟩ := f2 b hb1 (by
      intro id hid
      rw [hrem] at hid
      obtain ⟨⟨o, ho, hoc⟩, -⟩ := (mem_endedL rfl).mp hid
      exact hst id o ho hoc)
    obtain ⟨m3, e3⟩ := f3 b m2
    refine ⟨m3, fun w => ?_⟩
    rw [e3, e2]
    exact hlow _ fun i hi => spread_high _ (by omega)

end Drift
