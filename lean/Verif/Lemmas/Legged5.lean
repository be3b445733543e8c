import Verif.Lemmas.Legged4

/-! # Lemmas: removal and addition of contacts -/
set_option linter.unusedSimpArgs false
namespace Drift
open Mat Matrix Finset RobotState

theorem SameButCols.trans {a b c : RobotState} (h : SameButCols a b) (h' : SameButCols b c) : SameButCols a c := by
  unfold SameButCols at *
  rw [h'] ; rw [h]

theorem SameButCols.refl (a : RobotState) : SameButCols a a := rfl

theorem removeLoop_spec (rem : List ℕ) : ∀ {K : ℕ} {h : Heap} {s : RobotState} {ids : ℕ → Option ℕ} (_ : Good K h s)
    (_ : IdsOK s ids) (_ : rem.Nodup) (_ : ∀ id ∈ rem, (ids id).isSome = true),
    ∃ K' h' s', LegCorr.removeLoop rem ids h s = some (fun j => if j ∈ rem then none else ids j, h', s') ∧
      Good K' h' s' ∧ K = K' + rem.length ∧ h'.next = h.next ∧
      (∀ b, some b ∈ s'.colMap ↔ some b ∈ s.colMap ∧ ∀ id ∈ rem, ids id ≠ some b) ∧
      (∀ b, some b ∈ s'.colMap → s'.get_vector (h'.val b) = s.get_vector (h.val b)) ∧
      (∀ j, j < 5 → ∀ i, i < 3 → s'.X.e i j = s.X.e i j) ∧ SameButCols s s' := by
  induction rem with
  | nil =>
    intro K h s ids g hi _ _
    exact ⟨K, h, s, by simp [LegCorr.removeLoop], g, by simp, rfl, by simp, fun _ _ => rfl, fun _ _ _ _ => rfl,
      SameButCols.refl s⟩
  | cons id rest ih =>
    intro K h s ids g hi hnd hsome
    obtain ⟨hnid, hnd'⟩ := List.nodup_cons.mp hnd
    obtain ⟨a, ha⟩ := Option.isSome_iff_exists.mp (hsome id (by simp))
    have hmem := hi.mem id a ha
    obtain ⟨j, h5, hj, -⟩ := g.col hmem
    obtain ⟨K1, rfl⟩ : ∃ K1, K = K1 + 1 := ⟨K - 1, by omega⟩
    obtain ⟨h1, s1, e1, g1, d⟩ := del_good g hmem
    have hi1 : IdsOK s1 (fun j => if j = id then none else ids j) := by
      refine ⟨fun id' b hb => ?_, fun id' id'' b hb hb' => ?_⟩
      · by_cases h : id' = id
        · rw [if_pos h] at hb; simp at hb
        · rw [if_neg h] at hb
          rw [d.mem]
          refine ⟨hi.mem _ _ hb, ?_⟩
          rintro rfl
          exact h (hi.inj _ _ _ hb ha)
      · by_cases h : id' = id
        · rw [if_pos h] at hb; simp at hb
        · by_cases h' : id'' = id
          · rw [if_pos h'] at hb'; simp at hb'
          · rw [if_neg h] at hb; rw [if_neg h'] at hb'
            exact hi.inj _ _ _ hb hb'
    obtain ⟨K', h', s', e, g', hK, hn, hm, hv, hb, hf⟩ := ih g1 hi1 hnd' (by
      intro id' hid'
      have : id' ≠ id := by rintro rfl; exact hnid hid'
      rw [if_neg this]
      exact hsome id' (by simp [hid']))
    refine ⟨K', h', s', ?_, g', by simp [hK]; omega, by rw [hn, d.next], ?_, ?_, ?_, ?_⟩
    · unfold LegCorr.removeLoop
      rw [ha]
      simp only [Option.bind_eq_bind, Option.bind_some]
      rw [e1]
      simp only [Option.bind_some]
      rw [e]
      congr 1
      refine Prod.ext ?_ rfl
      funext j
      by_cases h1 : j = id
      · simp [h1]
      · by_cases h2 : j ∈ rest <;> simp [h1, h2]
    · intro b
      rw [hm, d.mem]
      constructor
      · rintro ⟨⟨q1, q2⟩, q3⟩
        refine ⟨q1, fun id' hid' hcon => ?_⟩
        rcases List.mem_cons.mp hid' with rfl | hid2
        · rw [ha] at hcon; cases hcon; exact q2 rfl
        · have hne : id' ≠ id := by rintro rfl; exact hnid hid2
          exact q3 id' hid2 (by rw [if_neg hne]; exact hcon)
      · rintro ⟨q1, q2⟩
        refine ⟨⟨q1, ?_⟩, fun id' hid' hcon => ?_⟩
        · rintro rfl; exact q2 id (by simp) ha
        · have hne : id' ≠ id := by rintro rfl; exact hnid hid'
          rw [if_neg hne] at hcon
          exact q2 id' (by simp [hid']) hcon
    · intro b hb'
      rw [hv b hb']
      obtain ⟨q, -⟩ := (hm b).mp hb'
      obtain ⟨q1, q2⟩ := (d.mem b).mp q
      exact d.vec b q1 q2
    · intro j hj i hi
      rw [hb j hj i hi, d.base j hj i hi]
    · exact SameButCols.trans d.frame hf

theorem blkV_congr_base {X Y : Mat} (h : ∀ j, j < 5 → ∀ i, i < 3 → Y.e i j = X.e i j) {j : ℕ} (hj : j < 5) :
    Y.blkV 0 j = X.blkV 0 j := by
  funext i
  rw [blkV_apply, blkV_apply, Nat.zero_add, h j hj i i.2]

theorem blk3_congr_base {X Y : Mat} (h : ∀ j, j < 5 → ∀ i, i < 3 → Y.e i j = X.e i j) :
    Y.blk3 0 0 = X.blk3 0 0 := by
  funext i k
  have hk := k.2
  rw [blk3_apply, blk3_apply, Nat.zero_add, Nat.zero_add, h k (by omega) i i.2]

theorem addLoop_spec (c : LegCorr) (hcn : PSD (of3 c.contactNoise)) (news : List (ℕ × V3 × M3)) :
    ∀ {K : ℕ} {h : Heap} {s : RobotState} {ids : ℕ → Option ℕ} (_ : Good K h s)
    (_ : (news.map Prod.fst).Nodup) (_ : ∀ t ∈ news, PSD (of3 t.2.2)),
    ∃ ids' h' s', LegCorr.addLoop c news s.P ids h s = some (ids', h', s') ∧
      Good (K + news.length) h' s' ∧ h.next ≤ h'.next ∧
      (∀ j, j ∉ news.map Prod.fst → ids' j = ids j) ∧
      (∀ t ∈ news, ∃ a, ids' t.1 = some a ∧ h.next ≤ a ∧ a < h'.next ∧ some a ∈ s'.colMap ∧
        s'.get_vector (h'.val a) = some (s.X.blkV 0 4 + (s.X.blk3 0 0).mulVec t.2.1)) ∧
      (∀ j ∈ news.map Prod.fst, ∀ j' ∈ news.map Prod.fst, ids' j = ids' j' → j = j') ∧
      (∀ b, some b ∈ s'.colMap ↔ some b ∈ s.colMap ∨ ∃ j ∈ news.map Prod.fst, ids' j = some b) ∧
      (∀ b, some b ∈ s.colMap → s'.get_vector (h'.val b) = s.get_vector (h.val b)) ∧
      (∀ j, j < 5 → ∀ i, i < 3 → s'.X.e i j = s.X.e i j) ∧ SameButCols s s' := by
  induction news with
  | nil =>
    intro K h s ids g _ _
    exact ⟨ids, h, s, by simp [LegCorr.addLoop], g, le_rfl, fun _ _ => rfl, by simp, by simp, by simp,
      fun _ _ => rfl, fun _ _ _ _ => rfl, SameButCols.refl s⟩
  | cons t rest ih =>
    intro K h s ids g hnd hps
    obtain ⟨id, pose, cov⟩ := t
    rw [List.map_cons, List.nodup_cons] at hnd
    obtain ⟨hnid, hnd'⟩ := hnd
    simp only at hnid
    have hcov : PSD (of3 cov) := hps (id, pose, cov) (by simp)
    have ea := augment_eq g c pose cov g.shape.pr g.shape.pc
    set W := (if c.errorType = .leftInvariant then (1 : M3) else s.X.blk3 0 0) with hW
    set P1 := augP K (decide (c.errorType = .leftInvariant)) pose W cov s.P with hP1
    have hP1psd : PSD P1 := augP_psd g.psd g.shape.pr hcov
    obtain ⟨k, s1, e1, g1, d⟩ := add_good g (s.X.blkV 0 4 + (s.X.blk3 0 0).mulVec pose) hP1psd
      (by rw [hP1, augP_rows]; ring) hcn (s.dimX : ℤ)
    set h1 := (h.alloc (s.dimX : ℤ)).2.write (h.alloc (s.dimX : ℤ)).1 k with hh1
    obtain ⟨ids', h', s', e, g', hn, hold, hnew, hinj, hm, hv, hb, hf⟩ :=
      ih (ids := fun j => if j = id then some h.next else ids j) g1 hnd' (fun t ht => hps t (by simp [ht]))
    have hidn : ids' id = some h.next := by rw [hold id hnid, if_pos rfl]
    have hnext : h1.next = h.next + 1 := d.next
    have hmem1 : some h.next ∈ s1.colMap := (d.mem h.next).mpr (.inr rfl)
    have hposR : s1.X.blkV 0 4 = s.X.blkV 0 4 ∧ s1.X.blk3 0 0 = s.X.blk3 0 0 :=
      ⟨blkV_congr_base d.base (by norm_num), blk3_congr_base d.base⟩
    refine ⟨ids', h', s', ?_, ?_, by omega, ?_, ?_, ?_, ?_, ?_, ?_, ?_⟩
    · unfold LegCorr.addLoop
      rw [ea]
      simp only [Option.bind_eq_bind, Option.bind_some]
      rw [e1]
      simp only [Option.bind_some]
      rw [← d.p]
      exact e
    · rw [show K + ((id, pose, cov) :: rest).length = K + 1 + rest.length by simp; ring]
      exact g'
    · intro j hj
      rw [List.map_cons, List.mem_cons, not_or] at hj
      rw [hold j hj.2, if_neg hj.1]
    · intro t ht
      rcases List.mem_cons.mp ht with rfl | ht
      · refine ⟨h.next, hidn, le_rfl, by omega, (hm _).mpr (.inl hmem1), ?_⟩
        rw [hv _ hmem1, d.new]
      · obtain ⟨a, q1, q2, q3, q4, q5⟩ := hnew t ht
        refine ⟨a, q1, by omega, q3, q4, ?_⟩
        rw [q5, hposR.1, hposR.2]
    · intro j hj j' hj' he
      rw [List.map_cons, List.mem_cons] at hj hj'
      have key : ∀ j ∈ rest.map Prod.fst, ids' j ≠ some h.next := by
        intro j hj hcon
        obtain ⟨t, ht, rfl⟩ := List.mem_map.mp hj
        obtain ⟨a, q1, q2, -⟩ := hnew t ht
        rw [q1] at hcon
        have := Option.some.inj hcon
        omega
      rcases hj with rfl | hj
      · rcases hj' with rfl | hj'
        · rfl
        · exact absurd (he.symm.trans hidn) (key j' hj')
      · rcases hj' with rfl | hj'
        · exact absurd (he.trans hidn) (key j hj)
        · exact hinj j hj j' hj' he
    · intro b
      rw [hm, d.mem, List.map_cons]
      constructor
      · rintro ((h | rfl) | ⟨j, hj, he⟩)
        · exact .inl h
        · exact .inr ⟨id, by simp, hidn⟩
        · exact .inr ⟨j, by simp [hj], he⟩
      · rintro (h | ⟨j, hj, he⟩)
        · exact .inl (.inl h)
        · rcases List.mem_cons.mp hj with rfl | hj
          · left; right
            have := he.symm.trans hidn
            exact Option.some.inj this
          · exact .inr ⟨j, hj, he⟩
    · intro b hb'
      rw [hv b ((d.mem b).mpr (.inl hb')), d.vec b hb']
    · intro j hj i hi
      rw [hb j hj i hi, d.base j hj i hi]
    · exact SameButCols.trans (by unfold SameButCols; rw [d.p]; conv_lhs => rw [d.frame]
                                  have : s1.colMap = s.colMap ++ [some h.next] := by rw [d.frame]
                                  rw [this]) hf

/-! ### one measurement -/

theorem footCov_eq (c : LegCorr) : c.footCov = footCovSpec c.encStd c.kinStd := by
  funext o
  unfold LegCorr.footCov footCovSpec
  rw [sq, sq]

theorem Good.setT {K h s} (g : Good K h s) (t : Option ℝ) : Good K h { s with t := t } :=
  ⟨g.shape.setT t, g.world, g.psd, g.q, g.len, g.tab⟩

theorem stance_obsSizes {n : ℕ} {R p d cov L Z H N} (h : StanceObs n R p d cov L Z H N) (hL : L ≠ []) :
    ObsSizes (3 * n) Z H N :=
  ⟨h.hc hL, by rw [h.nr, h.hr], by rw [h.nc, h.hr], by rw [h.zr, h.hr], h.zc⟩

theorem stance_pd {n : ℕ} {R p d cov L Z H N} (h : StanceObs n R p d cov L Z H N) (hR : IsRot R)
    (hc : ∀ o, PD (of3 (cov o))) : PD N := by
  refine pd_blockdiag (n := L.length) h.nr h.nc
    (C := fun k => if hk : k < L.length then R * cov L[k].2 * Rᵀ else 1) ?_ ?_
  · intro a b ha hb
    rw [h.nn a ha b hb]
    simp [ha]
  · intro a ha
    simp only [ha, dite_true]
    exact pd_rot hR (hc _)

/-- state after the Kalman update -/
theorem kalman_good {K h s} (g : Good K h s) {Z H N : Mat} (ho : ObsSizes (3 * K + 9) Z H N) (hN : PD N)
    (et : ErrorType) : ∃ s1, correctRightInvariant Z H N s et = some s1 ∧ Good K h s1 ∧
      s1 = { s with X := s1.X, Theta := s1.Theta, P := s1.P } := by
  obtain ⟨s1, e⟩ := C31_right_defined g.shape g.psd ho hN et
  have hf := C23_frame g.shape (.inl e)
  refine ⟨s1, e, ⟨C23_right_on_group g.shape e, ?_, C24_right_psd g.shape g.psd hN e, ?_, ?_, ?_, ?_⟩, hf⟩
  · rw [hf]; exact g.world
  · rw [hf]; exact g.q
  · rw [hf]; exact g.len
  · rw [hf]; exact g.tab.1
  · rw [hf]; exact g.tab.2

theorem kalman_step {K h st} (g : Good K h st) {R p d cov L Z H N} (hobs : StanceObs (K + 3) R p d cov L Z H N)
    (hN : PD N) (et : ErrorType) : ∃ s1, (if Z.rows > 0 then
      match st.stateType with
      | .worldCentric => correctRightInvariant Z H N st et
      | .bodyCentric => correctLeftInvariant Z H N st et
      else some st) = some s1 ∧ Good K h s1 ∧
      s1 = { st with X := s1.X, Theta := s1.Theta, P := s1.P } ∧
      (if L = [] then s1 = st else correctRightInvariant Z H N st et = some s1) := by
  by_cases hLe : L = []
  · refine ⟨st, ?_, g, rfl, ?_⟩
    · rw [if_neg (by rw [hobs.zr, hLe]; simp)]
    · rw [if_pos hLe]
  · have ho := stance_obsSizes hobs hLe
    obtain ⟨s1, e1, g1, hf⟩ := kalman_good g (by rw [show 3 * K + 9 = 3 * (K + 3) by ring]; exact ho) hN et
    refine ⟨s1, ?_, g1, hf, ?_⟩
    · have : L.length ≠ 0 := fun h => hLe (List.length_eq_zero_iff.mp h)
      rw [if_pos (by rw [hobs.zr]; omega), g.world]
      exact e1
    · rw [if_neg hLe]; exact e1

theorem bind_eq_of {α β : Type} {x : Option α} {a : α} {f : α → Option β} {r : Option β} (h : x = some a)
    (h' : f a = r) : x.bind f = r := by rw [h]; exact h'

theorem legApply_spec {K h s} (g : Good K h s) (c : LegCorr) (hids : IdsOK s c.ids) (hk : c.kinStd ≠ 0)
    (hcn : PSD (of3 c.contactNoise)) (m : LegMeas) :
    ∃ K' s1 ids' h' s', c.apply m h s = some (ids', h', s') ∧ Good K' h' s' ∧ LegStep c m h s s1 ids' h' s' := by
  have gt := g.setT (some m.time)
  have hids_t : IdsOK { s with t := some m.time } c.ids := ⟨hids.mem, hids.inj⟩
  obtain ⟨acc, e, hrem, hnew, hobs⟩ := legLoop gt c hids_t m
  have x1 := g.shape.x.rows; have x2 := g.shape.x.cols; have hK := g.shape.k
  have e0 : s.get_rotation = some (s.X.blk3 0 0) := blk3?_eq (by omega) (by omega)
  have e4 : s.get_position = some (s.X.blkV 0 4) := blkV?_eq (by omega) (by omega)
  have hdim : s.dimX = K + 3 := by unfold dimX; omega
  set L := stanceL m c.ids h m.legs.length with hL
  have hN : PD acc.N := stance_pd hobs g.shape.x.rot (footCov_pd c hk)
  -- the Kalman update
  obtain ⟨s1, ek, g1, hf1, hS⟩ : ∃ s1, (if acc.Z.rows > 0 then
      match RobotState.stateType { s with t := some m.time } with
      | .worldCentric => correctRightInvariant acc.Z acc.H acc.N { s with t := some m.time } c.errorType
      | .bodyCentric => correctLeftInvariant acc.Z acc.H acc.N { s with t := some m.time } c.errorType
      else some { s with t := some m.time }) = some s1 ∧ Good K h s1 ∧
      s1 = { s with t := some m.time, X := s1.X, Theta := s1.Theta, P := s1.P } ∧ StanceUpdate c m h s s1 := by
    obtain ⟨s1, q1, q2, q3, q4⟩ := kalman_step gt hobs hN c.errorType
    exact ⟨s1, q1, q2, q3, s.X.blk3 0 0, s.X.blkV 0 4, acc.Z, acc.H, acc.N, e0, e4, by rw [hdim, ← footCov_eq]; exact hobs, q4⟩
  have hcol1 : s1.colMap = s.colMap := by rw [hf1]
  have hids1 : IdsOK s1 c.ids := ⟨by rw [hcol1]; exact hids.mem, hids.inj⟩
  -- removal
  obtain ⟨K2, h2, s2, er, g2, hK2, hn2, hm2, hv2, hb2, hf2⟩ := removeLoop_spec acc.rem g1 hids1
    (by rw [hrem]; exact endedL_nodup _ _ _)
    (by intro id hid; rw [hrem] at hid; exact ((mem_endedL rfl).mp hid).2)
  -- addition
  have hpsd : ∀ t ∈ acc.new, PSD (of3 t.2.2) := by
    intro t ht
    rw [hnew] at ht
    obtain ⟨o, -, -, -, -, h5⟩ := (mem_startedL rfl).mp ht
    rw [h5]; exact (footCov_pd c hk o).psd
  obtain ⟨ids', h', s', ea, g', hn', hold, hmade, hinj, hm', hv', hb', hf'⟩ := addLoop_spec c hcn acc.new
    (ids := fun j => if j ∈ acc.rem then none else c.ids j) g2 (by rw [hnew]; exact startedL_nodup _ _ _) hpsd
  have hnewmem : ∀ id, id ∈ acc.new.map Prod.fst ↔ ∃ o, m.legs[id]? = some o ∧ o.contact = true ∧ c.ids id = none := by
    intro id
    rw [List.mem_map, hnew]
    constructor
    · rintro ⟨t, ht, rfl⟩
      obtain ⟨o, q1, q2, q3, -⟩ := (mem_startedL rfl).mp ht
      exact ⟨o, q1, q2, q3⟩
    · rintro ⟨o, q1, q2, q3⟩
      exact ⟨(id, o.pos, c.footCov o), (mem_startedL rfl).mpr ⟨o, q1, q2, q3, rfl, rfl⟩, rfl⟩
  have hremmem : ∀ id, id ∈ acc.rem ↔ (∃ o, m.legs[id]? = some o ∧ o.contact = false) ∧ (c.ids id).isSome = true := by
    intro id; rw [hrem]; exact mem_endedL rfl
  have hpos : s2.X.blkV 0 4 = s1.X.blkV 0 4 ∧ s2.X.blk3 0 0 = s1.X.blk3 0 0 :=
    ⟨blkV_congr_base hb2 (by norm_num), blk3_congr_base hb2⟩
  have hkeep : ∀ id a, id ∉ acc.new.map Prod.fst → ids' id = some a → c.ids id = some a ∧ id ∉ acc.rem := by
    intro id a hid hia
    rw [hold id hid] at hia
    by_cases hr : id ∈ acc.rem
    · rw [if_pos hr] at hia; simp at hia
    · rw [if_neg hr] at hia; exact ⟨hia, hr⟩
  have hin2 : ∀ id a, id ∉ acc.rem → c.ids id = some a → some a ∈ s2.colMap := by
    intro id a hr hia
    rw [hm2, hcol1]
    refine ⟨hids.mem _ _ hia, fun id' hid' hcon => ?_⟩
    have := hids.inj _ _ _ hia hcon
    subst this
    exact hr hid'
  have hfresh : ∀ id a, id ∈ acc.new.map Prod.fst → ids' id = some a → h.next ≤ a := by
    intro id a hid hia
    obtain ⟨t, ht, rfl⟩ := List.mem_map.mp hid
    obtain ⟨b, q1, q2, -⟩ := hmade t ht
    rw [q1] at hia
    have := Option.some.inj hia
    omega
  have hlt : ∀ b, some b ∈ s.colMap → b < h.next := by
    intro b hb
    obtain ⟨_, _, _, _, _, q⟩ := g.col hb
    exact q
  refine ⟨_, s1, ids', h', s', ?_, g', hS, hf1, hf2.trans hf', ?_, by omega, ⟨?_, ?_⟩, ?_, ?_, ?_, ?_, ?_, ?_⟩
  · unfold LegCorr.apply
    extract_lets st
    show (forRange m.legs.length LegCorr.acc0 (c.legStep h st m)).bind _ = _
    rw [e, Option.bind_some]
    exact bind_eq_of ek (bind_eq_of er ea)
  · intro j hj i hi
    rw [hb' j hj i hi, hb2 j hj i hi]
  · intro id a hia
    rw [hm']
    by_cases hid : id ∈ acc.new.map Prod.fst
    · exact .inr ⟨id, hid, hia⟩
    · obtain ⟨q1, q2⟩ := hkeep id a hid hia
      exact .inl (hin2 id a q2 q1)
  · intro id id' a hia hia'
    by_cases hid : id ∈ acc.new.map Prod.fst
    · by_cases hid' : id' ∈ acc.new.map Prod.fst
      · exact hinj id hid id' hid' (hia.trans hia'.symm)
      · obtain ⟨q1, q2⟩ := hkeep id' a hid' hia'
        have := hlt a (hids.mem _ _ q1)
        have := hfresh id a hid hia
        omega
    · obtain ⟨q1, q2⟩ := hkeep id a hid hia
      by_cases hid' : id' ∈ acc.new.map Prod.fst
      · have := hlt a (hids.mem _ _ q1)
        have := hfresh id' a hid' hia'
        omega
      · exact hids.inj _ _ _ q1 (hkeep id' a hid' hia').1
  · intro id hid
    have h1 : id ∉ acc.new.map Prod.fst := by rw [hnewmem]; rintro ⟨o, q, -⟩; rw [hid] at q; simp at q
    have h2 : id ∉ acc.rem := by rw [hremmem]; rintro ⟨⟨o, q, -⟩, -⟩; rw [hid] at q; simp at q
    rw [hold id h1, if_neg h2]
  · intro id o ho hc
    have h1 : id ∉ acc.new.map Prod.fst := by
      rw [hnewmem]; rintro ⟨o', q, q', -⟩; rw [ho] at q; cases q; rw [hc] at q'; simp at q'
    rw [hold id h1]
    by_cases hr : id ∈ acc.rem
    · rw [if_pos hr]
    · rw [if_neg hr]
      cases hi : c.ids id with
      | none => rfl
      | some a => exact absurd ((hremmem id).mpr ⟨⟨o, ho, hc⟩, by rw [hi]; rfl⟩) hr
  · intro id o a ho hc hi
    have h1 : id ∉ acc.new.map Prod.fst := by
      rw [hnewmem]; rintro ⟨o', -, -, q⟩; rw [hi] at q; simp at q
    have h2 : id ∉ acc.rem := by
      rw [hremmem]; rintro ⟨⟨o', q, q'⟩, -⟩; rw [ho] at q; cases q; rw [hc] at q'; simp at q'
    rw [hold id h1, if_neg h2]; exact hi
  · intro id o ho hc hi
    obtain ⟨a, q1, q2, q3, q4, q5⟩ := hmade (id, o.pos, c.footCov o)
      (by rw [hnew]; exact (mem_startedL rfl).mpr ⟨o, ho, hc, hi, rfl, rfl⟩)
    exact ⟨a, q1, by omega, q3, by rw [q5, hpos.1, hpos.2]⟩
  · intro b
    rw [hm', hm2, hcol1]
    constructor
    · rintro (⟨q1, q2⟩ | ⟨j, hj, he⟩)
      · refine .inl ⟨q1, fun id o ho hc hcon => q2 id ?_ hcon⟩
        rw [hremmem]; exact ⟨⟨o, ho, hc⟩, by rw [hcon]; rfl⟩
      · exact .inr ⟨hfresh j b hj he, j, he⟩
    · rintro (⟨q1, q2⟩ | ⟨hb, id, he⟩)
      · refine .inl ⟨q1, fun id hid hcon => ?_⟩
        obtain ⟨⟨o, ho, hc⟩, -⟩ := (hremmem id).mp hid
        exact q2 id o ho hc hcon
      · right
        refine ⟨id, ?_, he⟩
        by_contra hid
        obtain ⟨q1, q2⟩ := hkeep id b hid he
        have := hlt b (hids.mem _ _ q1)
        omega
  · intro b hb hb'
    have hb2 : some b ∈ s2.colMap := by
      rcases (hm' b).mp hb' with h | ⟨j, hj, he⟩
      · exact h
      · have := hfresh j b hj he
        have := hlt b hb
        omega
    rw [hv' b hb2, hv2 b hb2]

end Drift
