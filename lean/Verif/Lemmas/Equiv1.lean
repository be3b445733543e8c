import Verif.Lemmas.Est4

/-! # Lemmas: the left- and the right-invariant filter run in parallel -/
set_option linter.unusedSimpArgs false
namespace Drift
open Mat Matrix RobotState Finset

/-- two states that differ only in the covariance, which is the left- resp. right-invariant one of the same
uncertainty -/
structure StRel (K : ℕ) (h : Heap) (sL sR : RobotState) : Prop where
  gL : Good K h sL
  gR : Good K h sR
  same : sR = { sL with P := sR.P }
  rel : AdjRelated K sL.X sL.P sR.P

theorem StRel.x {K h sL sR} (r : StRel K h sL sR) : sR.X = sL.X := by rw [r.same]
theorem StRel.th {K h sL sR} (r : StRel K h sL sR) : sR.Theta = sL.Theta := by rw [r.same]
theorem StRel.cm {K h sL sR} (r : StRel K h sL sR) : sR.colMap = sL.colMap := by rw [r.same]
theorem StRel.dimP {K h sL sR} (r : StRel K h sL sR) : sR.dimP = sL.dimP := by
  show sR.P.cols = sL.P.cols
  rw [r.gL.shape.pc, r.gR.shape.pc]

theorem StRel.setT {K h sL sR} (r : StRel K h sL sR) (t : Option ℝ) : StRel K h { sL with t := t } { sR with t := t } := by
  refine ⟨r.gL.setT t, r.gR.setT t, ?_, r.rel⟩
  rw [r.same]

theorem kalman_rel {K h sL sR} (r : StRel K h sL sR) {Z H N : Mat} (ho : ObsSizes (3 * K + 9) Z H N) (hN : PD N) :
    ∃ sL' sR', correctRightInvariant Z H N sL .leftInvariant = some sL' ∧ correctRightInvariant Z H N sR .rightInvariant = some sR' ∧
      StRel K h sL' sR' := by
  obtain ⟨sL', e1, g1, f1⟩ := kalman_good r.gL ho hN .leftInvariant
  obtain ⟨sR', e2, g2, f2⟩ := kalman_good r.gR ho hN .rightInvariant
  refine ⟨sL', sR', e1, e2, g1, g2, ?_, ?_⟩
  all_goals
    rcases C28_error_types_equivalent r.gL.shape r.gR.shape r.x.symm r.th.symm (by rw [r.same]) r.rel Z H N with ⟨h1, -⟩ | ⟨a, b, h1, h2, h3, h4, h5, h6⟩
    · rw [e1] at h1; cases h1
    rw [e1] at h1; rw [e2] at h2
    cases h1; cases h2
  · rw [f2, f1, h3, h4]
    have := r.same
    conv_lhs => rw [this]
  · exact h6

theorem velApply_rel {K h sL sR} (r : StRel K h sL sR) (c : VelCorr) (hC : PD (of3 c.cov)) (m : VelMeas) (hl : c.errorType = .leftInvariant) :
    ∃ sL' sR', c.apply m sL = some sL' ∧ VelCorr.apply { c with errorType := .rightInvariant } m sR = some sR' ∧ StRel K h sL' sR' := by
  have r' := r.setT (some m.time)
  have x1 := r.gL.shape.x.rows; have x2 := r.gL.shape.x.cols; have hK := r.gL.shape.k
  have hp : sL.dimP = 3 * K + 9 := r.gL.shape.pc
  have hp' : sR.dimP = 3 * K + 9 := r.gR.shape.pc
  have e0 : sL.get_rotation = some (sL.X.blk3 0 0) := blk3?_eq (by omega) (by omega)
  have e3 : sL.get_velocity = some (sL.X.blkV 0 3) := blkV?_eq (by omega) (by omega)
  have e0' : sR.get_rotation = some (sL.X.blk3 0 0) := by show sR.X.blk3? 0 0 = _; rw [r.x]; exact e0
  have e3' : sR.get_velocity = some (sL.X.blkV 0 3) := by show sR.X.blkV? 0 3 = _; rw [r.x]; exact e3
  obtain ⟨sL', sR', k1, k2, k3⟩ := kalman_rel r'
    (velH_obs (K := K) (c.scale • (sL.X.blk3 0 0).mulVec (c.R_vel2body.mulVec m.vel) - sL.X.blkV 0 3) (sL.X.blk3 0 0 * c.cov * (sL.X.blk3 0 0)ᵀ))
    (pd_rot r.gL.shape.x.rot hC)
  refine ⟨sL', sR', ?_, ?_, k3⟩
  · rw [velApply_iff r.gL.shape r.gL.world]
    refine ⟨_, _, e0, e3, ?_⟩
    rw [show RobotState.dimP { sL with t := some m.time } = 3 * K + 9 from hp, hl]
    exact k1
  · rw [velApply_iff r.gR.shape r.gR.world]
    refine ⟨_, _, e0', e3', ?_⟩
    rw [show RobotState.dimP { sR with t := some m.time } = 3 * K + 9 from hp']
    exact k2

theorem stackLeg_congr (c : LegCorr) (et : ErrorType) {sL sR : RobotState} (hs : sR = { sL with P := sR.P }) (hd : sR.dimP = sL.dimP) (o : LegObs) (col : ℤ) (acc : LegAcc) :
    LegCorr.stackLeg { c with errorType := et } sR o col acc = c.stackLeg sL o col acc := by
  unfold LegCorr.stackLeg
  rw [hd]
  rw [hs]
  rfl

theorem legStep_congr (c : LegCorr) (et : ErrorType) {sL sR : RobotState} (hs : sR = { sL with P := sR.P }) (hd : sR.dimP = sL.dimP) (h : Heap) (m : LegMeas) :
    LegCorr.legStep { c with errorType := et } h sR m = c.legStep h sL m := by
  funext id acc
  unfold LegCorr.legStep
  cases ho : m.legs[id]? with
  | none => rfl
  | some o =>
    simp only [Option.bind_eq_bind, Option.bind_some]
    cases o.contact <;> cases c.ids id <;> simp only
    · rfl
    · exact stackLeg_congr c et hs hd o _ acc

theorem del_rel {K h sL sR} (r : StRel (K + 1) h sL sR) {a : ℕ} (ha : some a ∈ sL.colMap) :
    ∃ h' sL' sR', sL.del_aug_state h (h.val a) = some (h', sL') ∧ sR.del_aug_state h (h.val a) = some (h', sR') ∧ StRel K h' sL' sR' ∧
      DelSpec h sL a h' sL' := by
  obtain ⟨h1, sL', e1, g1, d1⟩ := del_good r.gL ha
  obtain ⟨h2, sR', e2, g2, d2⟩ := del_good r.gR (by rw [r.cm]; exact ha)
  have key : h2 = h1 ∧ sR' = { sL' with P := sR'.P } := by
    have e1' := e1; have e2' := e2
    rw [r.same] at e2'
    unfold del_aug_state at e1' e2'
    split_ifs at e1' e2'
    simp only [Option.bind_eq_bind, Option.bind_eq_some_iff] at e1' e2'
    obtain ⟨⟨h3, m3⟩, q1, e1'⟩ := e1'
    obtain ⟨⟨h4, m4⟩, q2, e2'⟩ := e2'
    have q3 := q1.symm.trans q2
    simp only [Option.some.injEq, Prod.mk.injEq] at q3
    obtain ⟨rfl, rfl⟩ := q3
    simp only at e1' e2'
    split_ifs at e1' e2'
    simp only [Option.bind_eq_some_iff] at e1' e2'
    obtain ⟨X, x1, P, p1, Q, c1, e1'⟩ := e1'
    obtain ⟨X', x1', P', p1', Q', c1', e2'⟩ := e2'
    have hx := x1.symm.trans x1'
    have hq := c1.symm.trans c1'
    cases hx; cases hq
    simp only [Option.some.injEq, Prod.mk.injEq] at e1' e2'
    obtain ⟨rfl, rfl⟩ := e1'
    obtain ⟨rfl, rfl⟩ := e2'
    exact ⟨rfl, rfl⟩
  obtain ⟨rfl, hs⟩ := key
  have := C54_removal_equivalent r.gL r.gR r.x.symm r.cm.symm r.rel ha e1 e2
  exact ⟨h2, sL', sR', e1, e2, ⟨g1, g2, hs, this.2⟩, d1⟩

theorem removeLoop_rel (rem : List ℕ) : ∀ {K : ℕ} {h : Heap} {sL sR : RobotState} {ids : ℕ → Option ℕ} (_ : StRel K h sL sR)
    (_ : IdsOK sL ids) (_ : rem.Nodup) (_ : ∀ id ∈ rem, (ids id).isSome = true),
    ∃ K' ids' h' sL' sR', LegCorr.removeLoop rem ids h sL = some (ids', h', sL') ∧ LegCorr.removeLoop rem ids h sR = some (ids', h', sR') ∧
      StRel K' h' sL' sR' := by
  induction rem with
  | nil => intro K h sL sR ids r _ _ _; exact ⟨K, ids, h, sL, sR, rfl, rfl, r⟩
  | cons id rest ih =>
    intro K h sL sR ids r hi hnd hsome
    obtain ⟨hnid, hnd'⟩ := List.nodup_cons.mp hnd
    obtain ⟨a, ha⟩ := Option.isSome_iff_exists.mp (hsome id (by simp))
    have hmem := hi.mem id a ha
    obtain ⟨j, h5, hj, -⟩ := r.gL.col hmem
    obtain ⟨K1, rfl⟩ : ∃ K1, K = K1 + 1 := ⟨K - 1, by omega⟩
    obtain ⟨h1, s1, s1', e1, e1', r1, d⟩ := del_rel r hmem
    have hi1 : IdsOK s1 (fun j => if j = id then none else ids j) := by
      refine ⟨fun id' b hb => ?_, fun id' id'' b hb hb' => ?_⟩
      · by_cases h : id' = id
        · rw [if_pos h] at hb; simp at hb
        · rw [if_neg h] at hb
          rw [d.mem]
          refine ⟨hi.mem _ _ hb, ?_⟩
          rintro rfl
          exact h (hi.inj _ _ _ hb ha)
      · by_cases h : id' = id
        · rw [if_pos h] at hb; simp at hb
        · by_cases h' : id'' = id
          · rw [if_pos h'] at hb'; simp at hb'
          · rw [if_neg h] at hb; rw [if_neg h'] at hb'
            exact hi.inj _ _ _ hb hb'
    obtain ⟨K', ids', h', sL', sR', e, e', r'⟩ := ih r1 hi1 hnd' (by
      intro id' hid'
      have : id' ≠ id := by rintro rfl; exact hnid hid'
      rw [if_neg this]
      exact hsome id' (by simp [hid']))
    refine ⟨K', ids', h', sL', sR', ?_, ?_, r'⟩
    · unfold LegCorr.removeLoop
      rw [ha]
      simp only [Option.bind_eq_bind, Option.bind_some]
      rw [e1]
      simp only [Option.bind_some]
      rw [e]
    · unfold LegCorr.removeLoop
      rw [ha]
      simp only [Option.bind_eq_bind, Option.bind_some]
      rw [e1']
      simp only [Option.bind_some]
      rw [e']

theorem addLoop_rel (c : LegCorr) (hl : c.errorType = .leftInvariant) (hcn : PSD (of3 c.contactNoise)) (news : List (ℕ × V3 × M3)) :
    ∀ {K : ℕ} {h : Heap} {sL sR : RobotState} {ids : ℕ → Option ℕ} (_ : StRel K h sL sR) (_ : ∀ t ∈ news, PSD (of3 t.2.2)),
    ∃ K' ids' h' sL' sR', LegCorr.addLoop c news sL.P ids h sL = some (ids', h', sL') ∧
      LegCorr.addLoop { c with errorType := .rightInvariant } news sR.P ids h sR = some (ids', h', sR') ∧ StRel K' h' sL' sR' := by
  induction news with
  | nil => intro K h sL sR ids r _; exact ⟨K, ids, h, sL, sR, rfl, rfl, r⟩
  | cons t rest ih =>
    intro K h sL sR ids r hps
    obtain ⟨id, pose, cov⟩ := t
    have hcov : PSD (of3 cov) := hps (id, pose, cov) (by simp)
    have ea := augment_eq r.gL c pose cov r.gL.shape.pr r.gL.shape.pc
    have ea' := augment_eq r.gR { c with errorType := .rightInvariant } pose cov r.gR.shape.pr r.gR.shape.pc
    have hd : sR.dimX = sL.dimX := by show sR.X.cols = sL.X.cols; rw [r.x]
    obtain ⟨PL, hPL⟩ : ∃ PL, augP K (decide (c.errorType = .leftInvariant)) pose (if c.errorType = .leftInvariant then (1 : M3) else sL.X.blk3 0 0) cov sL.P = PL := ⟨_, rfl⟩
    obtain ⟨PR, hPR⟩ : ∃ PR, augP K (decide (ErrorType.rightInvariant = .leftInvariant)) pose (if ErrorType.rightInvariant = .leftInvariant then (1 : M3) else sR.X.blk3 0 0) cov sR.P = PR := ⟨_, rfl⟩
    rw [hPL] at ea
    rw [show augP K (decide (LegCorr.errorType { c with errorType := .rightInvariant } = .leftInvariant)) pose
      (if LegCorr.errorType { c with errorType := .rightInvariant } = .leftInvariant then (1 : M3) else sR.X.blk3 0 0) cov sR.P = PR from hPR, r.x] at ea'
    have hPLp : PSD PL := hPL ▸ augP_psd r.gL.psd r.gL.shape.pr hcov
    have hPRp : PSD PR := hPR ▸ augP_psd r.gR.psd r.gR.shape.pr hcov
    obtain ⟨k, s1, e1, g1, d1⟩ := add_good r.gL (sL.X.blkV 0 4 + (sL.X.blk3 0 0).mulVec pose) hPLp
      (by rw [← hPL, augP_rows]; ring) hcn (sL.dimX : ℤ)
    obtain ⟨k', s2, e2, g2, d2⟩ := add_good r.gR (sL.X.blkV 0 4 + (sL.X.blk3 0 0).mulVec pose) hPRp
      (by rw [← hPR, augP_rows]; ring) hcn (sL.dimX : ℤ)
    have hrel := C54_augmentation_equivalent r.gL r.gR r.x.symm r.rel c { c with errorType := .rightInvariant } hl rfl pose cov ea (by rw [ea']) e1
    have key : k' = k ∧ s2 = { s1 with P := s2.P } := by
      have e1' := e1; have e2' := e2
      rw [r.same] at e2'
      unfold add_aug_state at e1' e2'
      simp only [Option.bind_eq_bind, Option.bind_eq_some_iff] at e1' e2'
      obtain ⟨X, x1, Q, q1, e1'⟩ := e1'
      obtain ⟨X', x1', Q', q1', e2'⟩ := e2'
      have hx := x1.symm.trans x1'
      have hq := q1.symm.trans q1'
      cases hx; cases hq
      simp only [Option.some.injEq, Prod.mk.injEq] at e1' e2'
      obtain ⟨rfl, rfl⟩ := e1'
      obtain ⟨rfl, rfl⟩ := e2'
      exact ⟨rfl, rfl⟩
    obtain ⟨rfl, hs⟩ := key
    have r1 : StRel (K + 1) ((h.alloc (sL.dimX : ℤ)).2.write (h.alloc (sL.dimX : ℤ)).1 k') s1 s2 :=
      ⟨g1, g2, hs, by rw [d1.p, d2.p]; exact hrel.2⟩
    obtain ⟨K', ids', h', sL', sR', e, e', r'⟩ := ih (ids := fun j => if j = id then some h.next else ids j) r1 (fun t ht => hps t (by simp [ht]))
    refine ⟨K', ids', h', sL', sR', ?_, ?_, r'⟩
    · unfold LegCorr.addLoop
      rw [ea]
      simp only [Option.bind_eq_bind, Option.bind_some]
      rw [e1]
      simp only [Option.bind_some]
      rw [← d1.p]
      exact e
    · unfold LegCorr.addLoop
      rw [ea', hd]
      simp only [Option.bind_eq_bind, Option.bind_some]
      rw [e2]
      simp only [Option.bind_some]
      rw [← d2.p]
      exact e'

theorem legApply_rel {K h sL sR} (r : StRel K h sL sR) (c : LegCorr) (hl : c.errorType = .leftInvariant) (hids : IdsOK sL c.ids) (hk : c.kinStd ≠ 0)
    (hcn : PSD (of3 c.contactNoise)) (m : LegMeas) :
    ∃ K' ids' h' sL' sR', c.apply m h sL = some (ids', h', sL') ∧
      LegCorr.apply { c with errorType := .rightInvariant } m h sR = some (ids', h', sR') ∧ StRel K' h' sL' sR' := by
  have rt := r.setT (some m.time)
  obtain ⟨acc, e, hrem, hnew, hobs⟩ := legLoop rt.gL c ⟨hids.mem, hids.inj⟩ m
  have e' : forRange m.legs.length LegCorr.acc0 (LegCorr.legStep { c with errorType := .rightInvariant } h { sR with t := some m.time } m) = some acc := by
    rw [legStep_congr c .rightInvariant rt.same rt.dimP]; exact e
  have hN : PD acc.N := stance_pd hobs r.gL.shape.x.rot (fun o => footCov_pd c hk o)
  have hstep : ∃ s1 s1', (if acc.Z.rows > 0 then correctRightInvariant acc.Z acc.H acc.N { sL with t := some m.time } .leftInvariant else some { sL with t := some m.time }) = some s1 ∧
      (if acc.Z.rows > 0 then correctRightInvariant acc.Z acc.H acc.N { sR with t := some m.time } .rightInvariant else some { sR with t := some m.time }) = some s1' ∧
      StRel K h s1 s1' ∧ s1.colMap = sL.colMap := by
    by_cases hz : acc.Z.rows > 0
    · rw [if_pos hz, if_pos hz]
      have hLne : stanceL m c.ids h m.legs.length ≠ [] := by
        intro h0
        have := hobs.zr
        rw [h0] at this
        simp at this; omega
      obtain ⟨a, b, h1, h2, h3⟩ := kalman_rel rt (by have := stance_obsSizes hobs hLne; rwa [show 3 * (K + 3) = 3 * K + 9 by ring] at this) hN
      refine ⟨a, b, h1, h2, h3, ?_⟩
      rw [C23_frame rt.gL.shape (.inl h1)]
    · rw [if_neg hz, if_neg hz]
      exact ⟨_, _, rfl, rfl, rt, rfl⟩
  obtain ⟨s1, s1', k1, k2, r1, hcm⟩ := hstep
  have hi1 : IdsOK s1 c.ids := ⟨by rw [hcm]; exact hids.mem, hids.inj⟩
  obtain ⟨K2, ids2, h2, s2, s2', a1, a2, r2⟩ := removeLoop_rel acc.rem r1 hi1 (by rw [hrem]; exact endedL_nodup _ _ _)
    (by intro id hid; rw [hrem] at hid; exact ((mem_endedL rfl).mp hid).2)
  obtain ⟨K3, ids3, h3, s3, s3', b1, b2, r3⟩ := addLoop_rel c hl hcn acc.new (ids := ids2) r2 (by
    intro t ht
    rw [hnew] at ht
    obtain ⟨o, -, -, -, -, q⟩ := (mem_startedL rfl).mp ht
    rw [q]; exact (footCov_pd c hk o).psd)
  refine ⟨K3, ids3, h3, s3, s3', ?_, ?_, r3⟩
  · unfold LegCorr.apply
    extract_lets st
    show (forRange m.legs.length LegCorr.acc0 (c.legStep h { sL with t := some m.time } m)).bind _ = _
    refine bind_eq_of e ?_
    have hw : st.stateType = .worldCentric := r.gL.world
    rw [hw, hl]
    refine bind_eq_of k1 ?_
    refine bind_eq_of a1 ?_
    exact b1
  · unfold LegCorr.apply
    extract_lets st
    show (forRange m.legs.length LegCorr.acc0 (LegCorr.legStep { c with errorType := .rightInvariant } h { sR with t := some m.time } m)).bind _ = _
    refine bind_eq_of e' ?_
    have hw : st.stateType = .worldCentric := r.gR.world
    rw [hw]
    refine bind_eq_of k2 ?_
    refine bind_eq_of a2 ?_
    exact b2

end Drift
