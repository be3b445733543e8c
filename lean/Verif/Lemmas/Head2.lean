import Verif.Lemmas.Head1
import Verif.Lemmas.Gauge3

/-! # Lemmas: the corrections commute with a turn of the world frame -/
set_option linter.unusedSimpArgs false
namespace Drift
open Mat Matrix RobotState Finset

theorem turn_ext {K : ℕ} {Q : M3} {A B : Mat} (hA : IsSEK K A) (hB : IsSEK K B) (h0 : B.blk3 0 0 = Q * A.blk3 0 0)
    (hk : ∀ k, k < K → B.blkV 0 (3 + k) = Q.mulVec (A.blkV 0 (3 + k))) : B = turnX K Q * A := by
  unfold turnX
  conv_rhs => rw [hA.eq_mk, mkSE_mul]
  conv_lhs => rw [hB.eq_mk]
  refine mkSE_congr h0 fun k hk' => ?_
  rw [hk k hk', add_zero]

theorem velH_blk {n : ℕ} (j : ℕ) (hj : j < n) : (velH (3 * n)).blk3 0 (3 * j) = if j = 1 then 1 else 0 := by
  funext a b
  have ha := a.2; have hb := b.2
  rw [blk3_apply]
  unfold velH
  rw [ofFn_e_of_lt (by omega) (by omega)]
  by_cases h : j = 1
  · subst h
    by_cases hab : a = b
    · subst hab; simp; omega
    · have : (a : ℕ) ≠ b := fun q => hab (Fin.ext q)
      rw [if_neg (by omega), if_pos rfl, Matrix.one_apply, if_neg hab]
  · rw [if_neg (by omega), if_neg h]; rfl

theorem velApply_head {Q K h s s'} (hQ : IsRot Q) (r : HRel Q K h s s') (c : VelCorr) (hC : PD (of3 c.cov)) (m : VelMeas)
    (hl : c.errorType = .leftInvariant) :
    ∃ a b, c.apply m s = some a ∧ c.apply m s' = some b ∧ HRel Q K h a b := by
  have r' := r.setT (some m.time)
  have x1 := r.gL.shape.x.rows; have x2 := r.gL.shape.x.cols; have hK := r.gL.shape.k
  have y1 := r.gR.shape.x.rows; have y2 := r.gR.shape.x.cols
  have hp : s.dimP = 3 * K + 9 := r.gL.shape.pc
  have hp' : s'.dimP = 3 * K + 9 := r.gR.shape.pc
  have e0 : s.get_rotation = some (s.X.blk3 0 0) := blk3?_eq (by omega) (by omega)
  have e3 : s.get_velocity = some (s.X.blkV 0 3) := blkV?_eq (by omega) (by omega)
  have e0' : s'.get_rotation = some (s'.X.blk3 0 0) := blk3?_eq (by omega) (by omega)
  have e3' : s'.get_velocity = some (s'.X.blkV 0 3) := blkV?_eq (by omega) (by omega)
  have hH : velH (3 * K + 9) * EA K (turnX K Q) = of3 Q * velH (3 * K + 9) := by
    rw [EA_turn, show 3 * K + 9 = 3 * (K + 3) by ring]
    refine ext_blk3 (a := 1) (b := K + 3) rfl rfl rfl rfl fun i j hi hj => ?_
    obtain rfl : i = 0 := by omega
    rw [mul_bdg_blk _ rfl hj, blk3_mul (n := 1) _ _ rfl]
    simp only [Finset.range_one, Finset.sum_singleton, Nat.mul_zero]
    rw [velH_blk j hj, blk3_of3]
    by_cases h : j = 1
    · rw [if_pos h, if_pos (by omega)]; simp
    · rw [if_neg h]; simp
  have hZ : ofV (c.scale • (s'.X.blk3 0 0).mulVec (c.R_vel2body.mulVec m.vel) - s'.X.blkV 0 3) =
      of3 Q * ofV (c.scale • (s.X.blk3 0 0).mulVec (c.R_vel2body.mulVec m.vel) - s.X.blkV 0 3) := by
    rw [r.rot, r.col (by omega) (by omega)]
    refine ext' rfl rfl fun i j hi hj => ?_
    simp only [ofV_rows, ofV_cols] at hi hj
    obtain rfl : j = 0 := by omega
    have h2 := congrFun (blkV_mul (of3 Q) (ofV (c.scale • (s.X.blk3 0 0).mulVec (c.R_vel2body.mulVec m.vel) - s.X.blkV 0 3)) (n := 1) rfl 0 0) ⟨i, hi⟩
    simp only [Finset.range_one, Finset.sum_singleton, Nat.mul_zero, blk3_of3, blkV_ofV, blkV_apply, Nat.zero_add] at h2
    rw [h2, ofV_e _ hi, Matrix.mulVec_sub, Matrix.mulVec_smul, Matrix.mulVec_mulVec _ Q]
  have hN : of3 (s'.X.blk3 0 0 * c.cov * (s'.X.blk3 0 0)ᵀ) = of3 Q * of3 (s.X.blk3 0 0 * c.cov * (s.X.blk3 0 0)ᵀ) * (of3 Q).T := by
    rw [of3_T, ← of3_mul, ← of3_mul, r.rot, Matrix.transpose_mul]
    congr 1
    simp only [Matrix.mul_assoc]
  obtain ⟨a, b, k1, k2, k3⟩ := kalman_head hQ r'
    (velH_obs (K := K) (c.scale • (s.X.blk3 0 0).mulVec (c.R_vel2body.mulVec m.vel) - s.X.blkV 0 3) (s.X.blk3 0 0 * c.cov * (s.X.blk3 0 0)ᵀ))
    (pd_rot r.gL.shape.x.rot hC)
    (velH_obs (K := K) (c.scale • (s'.X.blk3 0 0).mulVec (c.R_vel2body.mulVec m.vel) - s'.X.blkV 0 3) (s'.X.blk3 0 0 * c.cov * (s'.X.blk3 0 0)ᵀ))
    (pd_rot r.gR.shape.x.rot hC) (E := of3 Q) rfl rfl
    (by rw [of3_T, ← of3_mul, hQ.1, of3_one]; rfl) (by rw [of3_T, ← of3_mul, hQ.2.1, of3_one]; rfl) hH hZ hN
  refine ⟨a, b, ?_, ?_, k3⟩
  · rw [velApply_iff r.gL.shape r.gL.world]
    refine ⟨_, _, e0, e3, ?_⟩
    rw [show RobotState.dimP { s with t := some m.time } = 3 * K + 9 from hp, hl]
    exact k1
  · rw [velApply_iff r.gR.shape r.gR.world]
    refine ⟨_, _, e0', e3', ?_⟩
    rw [show RobotState.dimP { s' with t := some m.time } = 3 * K + 9 from hp', hl]
    exact k2

theorem skip_lt_three {j k : ℕ} (h : 3 ≤ j) (hk : k < 3) : skip j 1 k = k := by unfold skip; rw [if_pos (by omega)]

theorem del_head {Q K h s s'} (r : HRel Q (K + 1) h s s') {a : ℕ} (ha : some a ∈ s.colMap) :
    ∃ h' s1 s1', s.del_aug_state h (h.val a) = some (h', s1) ∧ s'.del_aug_state h (h.val a) = some (h', s1') ∧ HRel Q K h' s1 s1' ∧
      DelSpec h s a h' s1 := by
  obtain ⟨h1, s1, e1, g1, d1⟩ := del_good r.gL ha
  obtain ⟨h2, s1', e2, g2, d2⟩ := del_good r.gR (by rw [r.cm]; exact ha)
  have hd : s'.dimX = s.dimX := by
    show s'.X.cols = s.X.cols
    rw [r.gL.shape.x.cols, r.gR.shape.x.cols]
  have key : h2 = h1 ∧ s1' = { s1 with X := s1'.X } := by
    have e1' := e1; have e2' := e2
    unfold del_aug_state at e1' e2'
    rw [hd] at e2'
    rw [show s'.colMap = s.colMap from r.cm, show s'.P = s.P from r.p, show s'.Qc = s.Qc by rw [r.same]] at e2'
    split_ifs at e1' e2'
    simp only [Option.bind_eq_bind, Option.bind_eq_some_iff] at e1' e2'
    obtain ⟨⟨h3, m3⟩, q1, e1'⟩ := e1'
    obtain ⟨⟨h4, m4⟩, q2, e2'⟩ := e2'
    have q3 := q1.symm.trans q2
    simp only [Option.some.injEq, Prod.mk.injEq] at q3
    obtain ⟨rfl, rfl⟩ := q3
    simp only at e1' e2'
    split_ifs at e1' e2'
    simp only [Option.bind_eq_some_iff] at e1' e2'
    obtain ⟨X, x1, P, p1, Q', c1, e1'⟩ := e1'
    obtain ⟨X', x1', P', p1', Q'', c1', e2'⟩ := e2'
    have hx := p1.symm.trans p1'
    have hq := c1.symm.trans c1'
    cases hx; cases hq
    simp only [Option.some.injEq, Prod.mk.injEq] at e1' e2'
    obtain ⟨rfl, rfl⟩ := e1'
    obtain ⟨rfl, rfl⟩ := e2'
    refine ⟨rfl, ?_⟩
    rw [r.same]
  obtain ⟨rfl, hs⟩ := key
  refine ⟨h2, s1, s1', e1, e2, ⟨g1, g2, hs, ?_⟩, d1⟩
  obtain ⟨j, h5, hj, -, hva, -⟩ := r.gL.col ha
  have hj3 : 3 ≤ (h.val a).toNat := by rw [hva]; simp; omega
  have x1 := r.gL.shape.x.rows; have x2 := r.gL.shape.x.cols
  have y1 := r.gR.shape.x.rows; have y2 := r.gR.shape.x.cols
  obtain ⟨-, -, dX⟩ := d1.delX
  obtain ⟨-, -, dX'⟩ := d2.delX
  have hK := g1.shape.k
  refine turn_ext g1.shape.x g2.shape.x ?_ fun k hk => ?_
  · have b1 : s1.X.blk3 0 0 = s.X.blk3 0 0 := by
      funext i j; have := i.2; have := j.2
      rw [blk3_apply, blk3_apply]; exact d1.base _ (by omega) _ (by omega)
    have b2 : s1'.X.blk3 0 0 = s'.X.blk3 0 0 := by
      funext i j; have := i.2; have := j.2
      rw [blk3_apply, blk3_apply]; exact d2.base _ (by omega) _ (by omega)
    rw [b1, b2]; exact r.rot
  · have hlt : skip (h.val a).toNat 1 (3 + k) < 3 + (K + 1) ∧ 3 ≤ skip (h.val a).toNat 1 (3 + k) := by
      unfold skip; split_ifs <;> omega
    have b1 : s1.X.blkV 0 (3 + k) = s.X.blkV 0 (skip (h.val a).toNat 1 (3 + k)) := by
      funext i; have hi := i.2
      rw [blkV_apply, blkV_apply, Nat.zero_add, dX _ _ (by omega) (by omega), skip_lt_three hj3 hi]
    have b2 : s1'.X.blkV 0 (3 + k) = s'.X.blkV 0 (skip (h.val a).toNat 1 (3 + k)) := by
      funext i; have hi := i.2
      rw [blkV_apply, blkV_apply, Nat.zero_add, dX' _ _ (by omega) (by omega), skip_lt_three hj3 hi]
    rw [b1, b2]
    exact r.col hlt.2 hlt.1

theorem removeLoop_head {Q} (rem : List ℕ) : ∀ {K : ℕ} {h : Heap} {s s' : RobotState} {ids : ℕ → Option ℕ} (_ : HRel Q K h s s')
    (_ : IdsOK s ids) (_ : rem.Nodup) (_ : ∀ id ∈ rem, (ids id).isSome = true),
    ∃ K' ids' h' s1 s1', LegCorr.removeLoop rem ids h s = some (ids', h', s1) ∧ LegCorr.removeLoop rem ids h s' = some (ids', h', s1') ∧
      HRel Q K' h' s1 s1' := by
  induction rem with
  | nil => intro K h s s' ids r _ _ _; exact ⟨K, ids, h, s, s', rfl, rfl, r⟩
  | cons id rest ih =>
    intro K h s s' ids r hi hnd hsome
    obtain ⟨hnid, hnd'⟩ := List.nodup_cons.mp hnd
    obtain ⟨a, ha⟩ := Option.isSome_iff_exists.mp (hsome id (by simp))
    have hmem := hi.mem id a ha
    obtain ⟨j, h5, hj, -⟩ := r.gL.col hmem
    obtain ⟨K1, rfl⟩ : ∃ K1, K = K1 + 1 := ⟨K - 1, by omega⟩
    obtain ⟨h1, s1, s1', e1, e1', r1, d⟩ := del_head r hmem
    have hi1 : IdsOK s1 (fun j => if j = id then none else ids j) := by
      refine ⟨fun id' b hb => ?_, fun id' id'' b hb hb' => ?_⟩
      · by_cases h : id' = id
        · rw [if_pos h] at hb; simp at hb
        · rw [if_neg h] at hb
          rw [d.mem]
          refine ⟨hi.mem _ _ hb, ?_⟩
          rintro rfl
          exact h (hi.inj _ _ _ hb ha)
      · by_cases h : id' = id
        · rw [if_pos h] at hb; simp at hb
        · by_cases h' : id'' = id
          · rw [if_pos h'] at hb'; simp at hb'
          · rw [if_neg h] at hb; rw [if_neg h'] at hb'
            exact hi.inj _ _ _ hb hb'
    obtain ⟨K', ids', h', sL', sR', e, e', r'⟩ := ih r1 hi1 hnd' (by
      intro id' hid'
      have : id' ≠ id := by rintro rfl; exact hnid hid'
      rw [if_neg this]
      exact hsome id' (by simp [hid']))
    refine ⟨K', ids', h', sL', sR', ?_, ?_, r'⟩
    · unfold LegCorr.removeLoop
      rw [ha]
      simp only [Option.bind_eq_bind, Option.bind_some]
      rw [e1]
      simp only [Option.bind_some]
      rw [e]
    · unfold LegCorr.removeLoop
      rw [ha]
      simp only [Option.bind_eq_bind, Option.bind_some]
      rw [e1']
      simp only [Option.bind_some]
      rw [e']

theorem addLoop_head {Q} (c : LegCorr) (hl : c.errorType = .leftInvariant) (hcn : PSD (of3 c.contactNoise)) (news : List (ℕ × V3 × M3)) :
    ∀ {K : ℕ} {h : Heap} {s s' : RobotState} {ids : ℕ → Option ℕ} (_ : HRel Q K h s s') (_ : ∀ t ∈ news, PSD (of3 t.2.2)),
    ∃ K' ids' h' s1 s1', LegCorr.addLoop c news s.P ids h s = some (ids', h', s1) ∧
      LegCorr.addLoop c news s'.P ids h s' = some (ids', h', s1') ∧ HRel Q K' h' s1 s1' := by
  induction news with
  | nil => intro K h s s' ids r _; exact ⟨K, ids, h, s, s', rfl, rfl, r⟩
  | cons t rest ih =>
    intro K h s s' ids r hps
    obtain ⟨id, pose, cov⟩ := t
    have hcov : PSD (of3 cov) := hps (id, pose, cov) (by simp)
    have ea := augment_eq r.gL c pose cov r.gL.shape.pr r.gL.shape.pc
    have ea' := augment_eq r.gR c pose cov r.gR.shape.pr r.gR.shape.pc
    simp only [hl, if_true] at ea ea'
    rw [show s'.P = s.P from r.p] at ea'
    obtain ⟨PL, hPL⟩ : ∃ PL, augP K (decide True) pose 1 cov s.P = PL := ⟨_, rfl⟩
    have hd : s'.dimX = s.dimX := by
      show s'.X.cols = s.X.cols
      rw [r.gL.shape.x.cols, r.gR.shape.x.cols]
    have hK := r.gL.shape.k
    rw [hPL] at ea ea'
    have hPLp : PSD PL := hPL ▸ augP_psd r.gL.psd r.gL.shape.pr hcov
    have hPLr : PL.rows = 3 * K + 12 := by rw [← hPL, augP_rows]; ring
    obtain ⟨k, s1, e1, g1, d1⟩ := add_good r.gL (s.X.blkV 0 4 + (s.X.blk3 0 0).mulVec pose) hPLp hPLr hcn (s.dimX : ℤ)
    obtain ⟨k', s2, e2, g2, d2⟩ := add_good r.gR (s'.X.blkV 0 4 + (s'.X.blk3 0 0).mulVec pose) hPLp hPLr hcn (s.dimX : ℤ)
    have key : k' = k ∧ s2 = { s1 with X := s2.X } := by
      have e1' := e1; have e2' := e2
      unfold add_aug_state at e1' e2'
      rw [hd, show s'.Qc = s.Qc by rw [r.same], show s'.dimTheta = s.dimTheta by unfold dimTheta; rw [r.th], r.cm] at e2'
      simp only [Option.bind_eq_bind, Option.bind_eq_some_iff] at e1' e2'
      obtain ⟨X, x1, Q, q1, e1'⟩ := e1'
      obtain ⟨X', x1', Q', q1', e2'⟩ := e2'
      have hq := q1.symm.trans q1'
      cases hq
      simp only [Option.some.injEq, Prod.mk.injEq] at e1' e2'
      obtain ⟨rfl, rfl⟩ := e1'
      obtain ⟨rfl, rfl⟩ := e2'
      refine ⟨rfl, ?_⟩
      rw [r.same]
    obtain ⟨rfl, hs⟩ := key
    have x1 := r.gL.shape.x.rows; have x2 := r.gL.shape.x.cols
    have y1 := r.gR.shape.x.rows; have y2 := r.gR.shape.x.cols
    have r1 : HRel Q (K + 1) ((h.alloc (s.dimX : ℤ)).2.write (h.alloc (s.dimX : ℤ)).1 k') s1 s2 := by
      refine ⟨g1, g2, hs, turn_ext g1.shape.x g2.shape.x ?_ fun k hk => ?_⟩
      · have b1 : s1.X.blk3 0 0 = s.X.blk3 0 0 := by
          funext i j; have := i.2; have := j.2
          rw [blk3_apply, blk3_apply]; exact d1.x _ _ (by omega) (by omega)
        have b2 : s2.X.blk3 0 0 = s'.X.blk3 0 0 := by
          funext i j; have := i.2; have := j.2
          rw [blk3_apply, blk3_apply]; exact d2.x _ _ (by omega) (by omega)
        rw [b1, b2]; exact r.rot
      · by_cases hkK : k < K
        · have b1 : s1.X.blkV 0 (3 + k) = s.X.blkV 0 (3 + k) := by
            funext i; have := i.2
            rw [blkV_apply, blkV_apply]; exact d1.x _ _ (by omega) (by omega)
          have b2 : s2.X.blkV 0 (3 + k) = s'.X.blkV 0 (3 + k) := by
            funext i; have := i.2
            rw [blkV_apply, blkV_apply]; exact d2.x _ _ (by omega) (by omega)
          rw [b1, b2]; exact r.col (by omega) (by omega)
        · obtain rfl : k = K := by omega
          have n1 := d1.newcol
          have n2 := d2.newcol
          rw [hd] at n2
          have hdx : s.dimX = 3 + k := x2
          rw [hdx] at n1 n2
          rw [n1, n2, r.rot, r.col (by omega) (by omega), Matrix.mulVec_add, Matrix.mulVec_mulVec]
    obtain ⟨K', ids', h', sL', sR', e, e', r'⟩ := ih (ids := fun j => if j = id then some h.next else ids j) r1 (fun t ht => hps t (by simp [ht]))
    refine ⟨K', ids', h', sL', sR', ?_, ?_, r'⟩
    · unfold LegCorr.addLoop
      rw [ea]
      simp only [Option.bind_eq_bind, Option.bind_some]
      rw [e1]
      simp only [Option.bind_some]
      rw [← d1.p]
      exact e
    · unfold LegCorr.addLoop
      rw [show s'.P = s.P from r.p, ea', hd]
      simp only [Option.bind_eq_bind, Option.bind_some]
      rw [e2]
      simp only [Option.bind_some]
      rw [← d2.p]
      exact e'

theorem legApply_head {Q K h s s'} (hQ : IsRot Q) (r : HRel Q K h s s') (c : LegCorr) (hl : c.errorType = .leftInvariant) (hids : IdsOK s c.ids)
    (hk : c.kinStd ≠ 0) (hcn : PSD (of3 c.contactNoise)) (m : LegMeas) :
    ∃ K' ids' h' a b, c.apply m h s = some (ids', h', a) ∧ c.apply m h s' = some (ids', h', b) ∧ HRel Q K' h' a b := by
  have rt := r.setT (some m.time)
  obtain ⟨acc, e, hrem, hnew, hobs⟩ := legLoop rt.gL c ⟨hids.mem, hids.inj⟩ m
  obtain ⟨acc', e', hrem', hnew', hobs'⟩ := legLoop rt.gR c ⟨by rw [show RobotState.colMap { s' with t := some m.time } = s.colMap from r.cm]; exact hids.mem, hids.inj⟩ m
  have hN : PD acc.N := stance_pd hobs r.gL.shape.x.rot (fun o => footCov_pd c hk o)
  have hN' : PD acc'.N := stance_pd hobs' r.gR.shape.x.rot (fun o => footCov_pd c hk o)
  have hzz : acc'.Z.rows = acc.Z.rows := by rw [hobs.zr, hobs'.zr]
  set L := stanceL m c.ids h m.legs.length with hLdef
  have hstep : ∃ s1 s1', (if acc.Z.rows > 0 then correctRightInvariant acc.Z acc.H acc.N { s with t := some m.time } .leftInvariant else some { s with t := some m.time }) = some s1 ∧
      (if acc'.Z.rows > 0 then correctRightInvariant acc'.Z acc'.H acc'.N { s' with t := some m.time } .leftInvariant else some { s' with t := some m.time }) = some s1' ∧
      HRel Q K h s1 s1' ∧ s1.colMap = s.colMap := by
    by_cases hz : acc.Z.rows > 0
    · rw [if_pos hz, if_pos (by rw [hzz]; exact hz)]
      have hLne : L ≠ [] := by
        intro h0
        have := hobs.zr
        rw [h0] at this
        simp at this; omega
      have hHc := hobs.hc hLne
      have hHH : acc'.H = acc.H := by
        refine ext_blk3 (a := L.length) (b := K + 3) hobs'.hr (hobs'.hc hLne) hobs.hr hHc fun i j hi hj => ?_
        rw [hobs.h i hi j hj, hobs'.h i hi j hj]
      have hcol : ∀ k (hk : k < L.length), 3 ≤ L[k].1 ∧ L[k].1 < 3 + K := by
        intro k hk
        have hmem : L[k] ∈ L := List.getElem_mem hk
        obtain ⟨id, a, q1, q2⟩ := mem_stanceL hmem
        obtain ⟨j, h5, hj, -, hva, -⟩ := r.gL.col (hids.mem _ _ q1)
        rw [q2, hva]
        simp; omega
      obtain ⟨a, b, h1, h2, h3⟩ := kalman_head hQ rt (by have := stance_obsSizes hobs hLne; rwa [show 3 * (K + 3) = 3 * K + 9 by ring] at this) hN
        (Z' := acc'.Z) (N' := acc'.N)
        (by have := stance_obsSizes hobs' hLne; rwa [show 3 * (K + 3) = 3 * K + 9 by ring, hHH] at this) hN'
        (E := bdg L.length fun _ => Q) hobs.hr.symm hobs.hr.symm
        (by rw [bdg_T, bdg_mul, hobs.hr]; exact bdg_one _ fun _ _ => hQ.1)
        (by rw [bdg_T, bdg_mul, hobs.hr]; exact bdg_one _ fun _ _ => hQ.2.1)
        (by
          rw [EA_turn]
          refine ext_blk3 (a := L.length) (b := K + 3) (by simp [hobs.hr]) (by simp) (by simp) (by simp [hHc]) fun i j hi hj => ?_
          rw [mul_bdg_blk _ hHc hj, bdg_mul_blk _ _ hi, hobs.h i hi j hj]
          have := hcol i hi
          have hK := r.gL.shape.k
          by_cases c1 : j = L[i].1 - 2
          · rw [if_pos c1, if_pos (by omega)]; simp
          · by_cases c2 : j = 2
            · rw [if_neg c1, if_pos c2, if_pos (by omega)]; simp
            · rw [if_neg c1, if_neg c2]; simp)
        (by
          refine ext' (by simp [hobs'.zr]) (by simp [hobs.zc, hobs'.zc]) fun i j hi hj => ?_
          rw [hobs'.zr] at hi
          rw [hobs'.zc] at hj
          obtain rfl : j = 0 := by omega
          have hi3 : i / 3 < L.length := by omega
          have q1 := congrFun (hobs'.z (i / 3) hi3) ⟨i % 3, Nat.mod_lt _ (by norm_num)⟩
          have q2 := congrFun (bdg_mul_blkV (n := L.length) (fun _ => Q) acc.Z hi3 0) ⟨i % 3, Nat.mod_lt _ (by norm_num)⟩
          rw [hobs.z (i / 3) hi3] at q2
          simp only [blkV_apply] at q1 q2
          rw [show 3 * (i / 3) + i % 3 = i by omega] at q1 q2
          rw [q1, q2]
          obtain ⟨c3, c4⟩ := hcol (i / 3) hi3
          have hK := r.gL.shape.k
          rw [r.rot, r.col c3 c4, r.col (j := 4) (by omega) (by omega), Matrix.mulVec_sub, Matrix.mulVec_sub, Matrix.mulVec_mulVec])
        (by
          rw [bdg_T]
          refine ext_blk3 (a := L.length) (b := L.length) hobs'.nr hobs'.nc (by simp) (by simp) fun i j hi hj => ?_
          rw [mul_bdg_blk _ (by simp [hobs.nc]) hj, bdg_mul_blk _ _ hi, hobs.nn i hi j hj, hobs'.nn i hi j hj]
          by_cases c1 : j = i
          · rw [if_pos c1, if_pos c1]
            simp only
            rw [r.rot, Matrix.transpose_mul]
            simp only [Matrix.mul_assoc]
          · rw [if_neg c1, if_neg c1]; simp)
      refine ⟨a, b, h1, by rw [hHH]; exact h2, h3, ?_⟩
      rw [C23_frame rt.gL.shape (.inl h1)]
    · rw [if_neg hz, if_neg (by rw [hzz]; exact hz)]
      exact ⟨_, _, rfl, rfl, rt, rfl⟩
  obtain ⟨s1, s1', k1, k2, r1, hcm⟩ := hstep
  have hi1 : IdsOK s1 c.ids := ⟨by rw [hcm]; exact hids.mem, hids.inj⟩
  obtain ⟨K2, ids2, h2, s2, s2', a1, a2, r2⟩ := removeLoop_head acc.rem r1 hi1 (by rw [hrem]; exact endedL_nodup _ _ _)
    (by intro id hid; rw [hrem] at hid; exact ((mem_endedL rfl).mp hid).2)
  obtain ⟨K3, ids3, h3, s3, s3', b1, b2, r3⟩ := addLoop_head c hl hcn acc.new (ids := ids2) r2 (by
    intro t ht
    rw [hnew] at ht
    obtain ⟨o, -, -, -, -, q⟩ := (mem_startedL rfl).mp ht
    rw [q]; exact (footCov_pd c hk o).psd)
  refine ⟨K3, ids3, h3, s3, s3', ?_, ?_, r3⟩
  · unfold LegCorr.apply
    extract_lets st
    show (forRange m.legs.length LegCorr.acc0 (c.legStep h { s with t := some m.time } m)).bind _ = _
    refine bind_eq_of e ?_
    have hw : st.stateType = .worldCentric := r.gL.world
    rw [hw, hl]
    refine bind_eq_of k1 ?_
    refine bind_eq_of a1 ?_
    exact b1
  · unfold LegCorr.apply
    extract_lets st
    show (forRange m.legs.length LegCorr.acc0 (c.legStep h { s' with t := some m.time } m)).bind _ = _
    refine bind_eq_of e' ?_
    have hw : st.stateType = .worldCentric := r.gR.world
    rw [hw, hl]
    refine bind_eq_of k2 ?_
    rw [hrem', ← hrem, hnew', ← hnew]
    refine bind_eq_of a2 ?_
    exact b2

end Drift
