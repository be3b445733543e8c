import Verif.Lemmas.Gauge2
import Verif.Lemmas.Equiv3

/-! # Lemmas: the unobserved directions over estimator histories -/
set_option linter.unusedSimpArgs false
namespace Drift
open Mat Matrix Finset RobotState

theorem removeLoop_low {rc pc : ℝ} (rem : List ℕ) : ∀ {K : ℕ} {h : Heap} {s : RobotState} {ids : ℕ → Option ℕ} (_ : Good K h s)
    (_ : Low (gN K) (gD rc pc) s.P) (_ : IdsOK s ids) (_ : rem.Nodup) (_ : ∀ id ∈ rem, (ids id).isSome = true),
    ∃ K' ids' h' s', LegCorr.removeLoop rem ids h s = some (ids', h', s') ∧ Good K' h' s' ∧ Low (gN K') (gD rc pc) s'.P := by
  induction rem with
  | nil => intro K h s ids g hl _ _ _; exact ⟨K, ids, h, s, rfl, g, hl⟩
  | cons id rest ih =>
    intro K h s ids g hl hi hnd hsome
    obtain ⟨hnid, hnd'⟩ := List.nodup_cons.mp hnd
    obtain ⟨a, ha⟩ := Option.isSome_iff_exists.mp (hsome id (by simp))
    have hmem := hi.mem id a ha
    obtain ⟨j, h5, hj, -, hja, -⟩ := g.col hmem
    obtain ⟨K1, rfl⟩ : ∃ K1, K = K1 + 1 := ⟨K - 1, by omega⟩
    obtain ⟨h1, s1, e1, g1, d⟩ := del_good g hmem
    have hi1 : IdsOK s1 (fun j => if j = id then none else ids j) := by
      refine ⟨fun id' b hb => ?_, fun id' id'' b hb hb' => ?_⟩
      · by_cases h : id' = id
        · rw [if_pos h] at hb; simp at hb
        · rw [if_neg h] at hb
          rw [d.mem]
          refine ⟨hi.mem _ _ hb, ?_⟩
          rintro rfl
          exact h (hi.inj _ _ _ hb ha)
      · by_cases h : id' = id
        · rw [if_pos h] at hb; simp at hb
        · by_cases h' : id'' = id
          · rw [if_pos h'] at hb'; simp at hb'
          · rw [if_neg h] at hb; rw [if_neg h'] at hb'
            exact hi.inj _ _ _ hb hb'
    have hl1 : Low (gN K1) (gD rc pc) s1.P := by
      have hd := d.delP
      rw [hja, Int.toNat_natCast, show 3 * j - 6 = 3 * (j - 2) by omega] at hd
      exact del_low g1.shape.k (by omega) (by omega) (by rw [g.shape.pr]; ring) (by rw [g.shape.pc]; ring) hd hl
    obtain ⟨K', ids', h', s', e, g', hl'⟩ := ih g1 hl1 hi1 hnd' (by
      intro id' hid'
      have : id' ≠ id := by rintro rfl; exact hnid hid'
      rw [if_neg this]
      exact hsome id' (by simp [hid']))
    refine ⟨K', ids', h', s', ?_, g', hl'⟩
    unfold LegCorr.removeLoop
    rw [ha]
    simp only [Option.bind_eq_bind, Option.bind_some]
    rw [e1]
    simp only [Option.bind_some]
    rw [e]

theorem addLoop_low {rc pc : ℝ} (c : LegCorr) (hr : c.errorType = .rightInvariant) (hcn : PSD (of3 c.contactNoise))
    (news : List (ℕ × V3 × M3)) :
    ∀ {K : ℕ} {h : Heap} {s : RobotState} {ids : ℕ → Option ℕ} (_ : Good K h s) (_ : Low (gN K) (gD rc pc) s.P)
      (_ : ∀ t ∈ news, PSD (of3 t.2.2)),
    ∃ K' ids' h' s', LegCorr.addLoop c news s.P ids h s = some (ids', h', s') ∧ Good K' h' s' ∧ Low (gN K') (gD rc pc) s'.P := by
  induction news with
  | nil => intro K h s ids g hl _; exact ⟨K, ids, h, s, rfl, g, hl⟩
  | cons t rest ih =>
    intro K h s ids g hl hps
    obtain ⟨id, pose, cov⟩ := t
    have hcov : PSD (of3 cov) := hps (id, pose, cov) (by simp)
    have ea := augment_eq g c pose cov g.shape.pr g.shape.pc
    rw [hr] at ea
    simp only [reduceCtorEq, decide_false, if_false] at ea
    have hP1 : PSD (augP K false pose (s.X.blk3 0 0) cov s.P) := augP_psd g.psd g.shape.pr hcov
    obtain ⟨k, s1, e1, g1, d1⟩ := add_good g (s.X.blkV 0 4 + (s.X.blk3 0 0).mulVec pose) hP1
      (by rw [augP_rows]; ring) hcn (s.dimX : ℤ)
    have hl1 : Low (gN (K + 1)) (gD rc pc) s1.P := by
      rw [d1.p]; exact augP_low g.shape.k g.shape.pr g.shape.pc hcov hl
    obtain ⟨K', ids', h', s', e, g', hl'⟩ := ih (ids := fun j => if j = id then some h.next else ids j) g1 hl1 (fun t ht => hps t (by simp [ht]))
    refine ⟨K', ids', h', s', ?_, g', hl'⟩
    unfold LegCorr.addLoop
    rw [ea]
    simp only [Option.bind_eq_bind, Option.bind_some]
    rw [e1]
    simp only [Option.bind_some]
    rw [← d1.p]
    exact e

theorem mem_stanceL {m : LegMeas} {ids : ℕ → Option ℕ} {h : Heap} {n : ℕ} {x : ℕ × LegObs} (hx : x ∈ stanceL m ids h n) :
    ∃ id a, ids id = some a ∧ x.1 = (h.val a).toNat := by
  unfold stanceL at hx
  rw [List.mem_filterMap] at hx
  obtain ⟨id, -, hx⟩ := hx
  cases ho : m.legs[id]? with
  | none => rw [ho] at hx; cases hx
  | some o =>
    cases hi : ids id with
    | none => rw [ho, hi] at hx; cases hx
    | some a =>
      rw [ho, hi] at hx
      dsimp only at hx
      split_ifs at hx
      obtain rfl := Option.some.inj hx
      exact ⟨id, a, hi, rfl⟩

theorem legApply_low {rc pc : ℝ} {K h s} (g : Good K h s) (hl : Low (gN K) (gD rc pc) s.P) (c : LegCorr)
    (hr : c.errorType = .rightInvariant) (hids : IdsOK s c.ids) (hk : c.kinStd ≠ 0) (hcn : PSD (of3 c.contactNoise)) (m : LegMeas) :
    ∃ K' ids' h' s', c.apply m h s = some (ids', h', s') ∧ Good K' h' s' ∧ Low (gN K') (gD rc pc) s'.P := by
  have gt := g.setT (some m.time)
  obtain ⟨acc, e, hrem, hnew, hobs⟩ := legLoop gt c ⟨hids.mem, hids.inj⟩ m
  have hN : PD acc.N := stance_pd hobs g.shape.x.rot (fun o => footCov_pd c hk o)
  have hL5 : ∀ x ∈ stanceL m c.ids h m.legs.length, 5 ≤ x.1 ∧ x.1 < 3 + K := by
    intro x hx
    obtain ⟨id, a, q1, q2⟩ := mem_stanceL hx
    obtain ⟨j, h5, hj, -, hja, -⟩ := g.col (hids.mem id a q1)
    rw [q2, hja]; simp; omega
  obtain ⟨s1, k1, g1, f1, q1⟩ := kalman_step gt hobs hN c.errorType
  have hl1 : Low (gN K) (gD rc pc) s1.P := by
    by_cases hne : stanceL m c.ids h m.legs.length = []
    · rw [if_pos hne] at q1; rw [q1]; exact hl
    · rw [if_neg hne, hr] at q1
      exact kalman_low gt.shape hl hN.psd (stance_gcol g.shape.k hobs hL5 hne) q1
  have hcm : s1.colMap = s.colMap := by rw [f1]
  have hi1 : IdsOK s1 c.ids := ⟨by rw [hcm]; exact hids.mem, hids.inj⟩
  obtain ⟨K2, ids2, h2, s2, a1, g2, l2⟩ := removeLoop_low acc.rem g1 hl1 hi1 (by rw [hrem]; exact endedL_nodup _ _ _)
    (by intro id hid; rw [hrem] at hid; exact ((mem_endedL rfl).mp hid).2)
  obtain ⟨K3, ids3, h3, s3, b1, g3, l3⟩ := addLoop_low c hr hcn acc.new (ids := ids2) g2 l2 (by
    intro t ht
    rw [hnew] at ht
    obtain ⟨o, -, -, -, -, q⟩ := (mem_startedL rfl).mp ht
    rw [q]; exact (footCov_pd c hk o).psd)
  refine ⟨K3, ids3, h3, s3, ?_, g3, l3⟩
  unfold LegCorr.apply
  extract_lets st
  show (forRange m.legs.length LegCorr.acc0 (c.legStep h { s with t := some m.time } m)).bind _ = _
  refine bind_eq_of e ?_
  refine bind_eq_of k1 ?_
  refine bind_eq_of a1 ?_
  exact b1

/-- one `Correct` call -/
theorem corr_low {rc pc : ℝ} {K : ℕ} {h : Heap} {s : RobotState} (g : Good K h s) (hl : Low (gN K) (gD rc pc) s.P) {c : Corr}
    (hc : CorrOK s c) (hr : c.type = .rightInvariant) {tp : ℝ} (ht : s.tProp = some tp) {b c' h' s'}
    (e : c.correct h s = some (b, c', h', s')) : ∃ K', Good K' h' s' ∧ Low (gN K') (gD rc pc) s'.P := by
  cases c with
  | vel c =>
    obtain ⟨b1, c1, s1, e1, -, -, e4, e5⟩ := C48_total c s g.shape g.world g.psd hc.param ht
    have e : (c.correct s).map _ = _ := e
    rw [e1] at e
    simp only [Option.map_some, Option.some.injEq, Prod.mk.injEq] at e
    obtain ⟨rfl, -, rfl, rfl⟩ := e
    cases b1 with
    | false => obtain rfl := e4 rfl; exact ⟨K, g, hl⟩
    | true =>
      obtain ⟨m, -, R, v, hR, hv, hk⟩ := e5 rfl
      have gt := g.setT (some m.time)
      have hr' : c.errorType = .rightInvariant := hr
      have x1 := g.shape.x.rows; have x2 := g.shape.x.cols; have hK := g.shape.k
      have hR' : R = s.X.blk3 0 0 := by
        have hRt : s.get_rotation = some R := hR
        have : s.get_rotation = some (s.X.blk3 0 0) := blk3?_eq (by omega) (by omega)
        rw [this] at hRt; exact (Option.some.inj hRt).symm
      have hdp : RobotState.dimP { s with t := some m.time } = 3 * K + 9 := g.shape.pc
      rw [hdp, hr'] at hk
      have hN : PD (of3 (R * c.cov * Rᵀ)) := pd_rot (by rw [hR']; exact g.shape.x.rot) hc.param
      obtain ⟨s2, k1, k2, -⟩ := kalman_good gt (velH_obs (K := K) (c.scale • R.mulVec (c.R_vel2body.mulVec m.vel) - v) (R * c.cov * Rᵀ))
        hN .rightInvariant
      have := hk.symm.trans k1
      cases this
      exact ⟨K, k2, kalman_low gt.shape hl hN.psd (fun α u => velH_gcol hK α u) hk⟩
  | leg c =>
    have hids : IdsOK s c.ids := hc.ids
    have e : (c.correct h s).map _ = _ := e
    simp only [Option.map_eq_some_iff, Prod.mk.injEq] at e
    obtain ⟨⟨b1, c1, h1, s1⟩, e1, rfl, -, rfl, rfl⟩ := e
    unfold LegCorr.correct at e1
    cases hb : c.buffer with
    | nil =>
      rw [hb] at e1
      simp only [Option.some.injEq, Prod.mk.injEq] at e1
      obtain ⟨-, -, rfl, rfl⟩ := e1
      exact ⟨K, g, hl⟩
    | cons f rest =>
      rw [hb] at e1
      simp only [ht, Option.bind_eq_bind, Option.bind_some] at e1
      cases hp : popFresh LegMeas.time c.tDiffThres tp f rest with
      | none =>
        rw [hp] at e1
        simp only [Option.some.injEq, Prod.mk.injEq] at e1
        obtain ⟨-, -, rfl, rfl⟩ := e1
        exact ⟨K, g, hl⟩
      | some r =>
        obtain ⟨m, rest'⟩ := r
        rw [hp] at e1
        obtain ⟨K', ids', h', s', q, g', l'⟩ := legApply_low g hl c hr hids hc.param.1 hc.param.2 m
        simp only [q, Option.bind_eq_bind, Option.bind_some, Option.some.injEq, Prod.mk.injEq] at e1
        obtain ⟨-, -, rfl, rfl⟩ := e1
        exact ⟨K', g', l'⟩

theorem correctAll_low {rc pc : ℝ} (cs : List Corr) : ∀ {K : ℕ} {h : Heap} {s : RobotState} (_ : Good K h s)
    (_ : Low (gN K) (gD rc pc) s.P) (_ : CorrsOK s cs) (_ : ∀ c ∈ cs, c.type = .rightInvariant) {tp : ℝ} (_ : s.tProp = some tp)
    {b cs' h' s'} (_ : Estimator.correctAll cs h s = some (b, cs', h', s')), ∃ K', Good K' h' s' ∧ Low (gN K') (gD rc pc) s'.P := by
  induction cs with
  | nil =>
    intro K h s g hl _ _ tp _ b cs' h' s' e
    simp only [Estimator.correctAll, Option.some.injEq, Prod.mk.injEq] at e
    obtain ⟨-, -, rfl, rfl⟩ := e
    exact ⟨K, g, hl⟩
  | cons c cs ih =>
    intro K h s g hl hc hty tp ht b cs' h' s' e
    have hcd := List.pairwise_cons.mp hc.disj
    obtain ⟨b1, c', h1, s1, K1, e1, g1, st⟩ := corr_correct g (hc.each c (by simp)) ht
    obtain ⟨K1', g1', l1⟩ := corr_low g hl (hc.each c (by simp)) (hty c (by simp)) ht e1
    have hok1 : CorrsOK s1 cs := by
      refine ⟨fun d hd => (hc.each d (by simp [hd])).keep fun id a ha => ?_, hcd.2⟩
      exact st.keep a ((hc.each d (by simp [hd])).ids.mem id a ha) fun id' q => hcd.1 d hd id' id a q ha
    simp only [Estimator.correctAll, Option.bind_eq_bind, e1, Option.bind_some, Option.bind_eq_some_iff] at e
    obtain ⟨⟨b2, cs2, h2, s2⟩, e2, e⟩ := e
    simp only [Option.some.injEq, Prod.mk.injEq] at e
    obtain ⟨-, -, rfl, rfl⟩ := e
    exact ih g1' l1 hok1 (fun c hc => hty c (by simp [hc])) (st.tp.trans ht) e2

theorem prop_good_low {rc pc : ℝ} {K : ℕ} {h : Heap} {s : RobotState} (g : Good K h s) (hl : Low (gN K) (gD rc pc) s.P) {p : ImuProp}
    (hr : p.errorType = .rightInvariant) (hN : ImuNoisePSD p) {m : ImuMeas} {tp : ℝ}
    (hm : p.prev = some m) (ht : s.tProp = some tp) (hle : tp ≤ m.time) {b p' s'} (e : p.propagate s = some (b, p', s')) :
    Low (gN K) (gD rc pc) s'.P ∧ p'.errorType = .rightInvariant := by
  cases hb : p.buffer with
  | nil =>
    rw [C36_empty p s hb] at e
    simp only [Option.some.injEq, Prod.mk.injEq] at e
    obtain ⟨-, rfl, rfl⟩ := e
    exact ⟨hl, hr⟩
  | cons f rest =>
    have hsq := g.q.psd.sq
    rw [propagate_eq g.shape g.world g.q.r (by rw [← hsq]; exact g.q.r) hb hm ht] at e
    simp only [Option.some.injEq, Prod.mk.injEq] at e
    obtain ⟨-, rfl, rfl⟩ := e
    exact ⟨prop_low g.shape.k hr g.shape.pr g.shape.pc hl (qcK_psd g.shape.k ⟨hN.1, hN.2.1, hN.2.2.1, hN.2.2.2⟩ g.q) g.q.r (by linarith) _, hr⟩

end Drift
