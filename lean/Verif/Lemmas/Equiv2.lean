import Verif.Lemmas.Equiv1

/-! # Lemmas: the left- and the right-invariant estimator run in parallel -/
set_option linter.unusedSimpArgs false
namespace Drift
open Mat Matrix RobotState Finset

theorem StRel.ids {K h sL sR} (r : StRel K h sL sR) {ids} (i : IdsOK sL ids) : IdsOK sR ids := ⟨by rw [r.cm]; exact i.mem, i.inj⟩

theorem corr_rel {K h sL sR} (r : StRel K h sL sR) {c : Corr} (hc : CorrOK sL c) (hl : c.type = .leftInvariant) {tp : ℝ} (ht : sL.tProp = some tp) :
    ∃ b c' h' sL' sR' K', c.correct h sL = some (b, c', h', sL') ∧ c.asRight.correct h sR = some (b, c'.asRight, h', sR') ∧
      StRel K' h' sL' sR' ∧ c'.type = .leftInvariant := by
  have htR : sR.tProp = some tp := by rw [r.same]; exact ht
  cases c with
  | vel c =>
    have e1 : ∀ x, c.correct sL = some x → Corr.correct (.vel c) h sL = some (x.1, .vel x.2.1, h, x.2.2) := by
      intro x hx; show (c.correct sL).map _ = _; rw [hx]; rfl
    have e2 : ∀ x, VelCorr.correct { c with errorType := .rightInvariant } sR = some x →
        Corr.correct (Corr.asRight (.vel c)) h sR = some (x.1, .vel x.2.1, h, x.2.2) := by
      intro x hx; show (VelCorr.correct { c with errorType := .rightInvariant } sR).map _ = _; rw [hx]; rfl
    cases hb : c.buffer with
    | nil =>
      refine ⟨false, .vel c, h, sL, sR, K, e1 (false, c, sL) ?_, e2 (false, { c with errorType := .rightInvariant }, sR) ?_, r, hl⟩
      · unfold VelCorr.correct; rw [hb]
      · unfold VelCorr.correct; rw [hb]
    | cons f rest =>
      by_cases hf : f.time - tp ≥ 0
      · refine ⟨false, .vel c, h, sL, sR, K, e1 (false, c, sL) ?_, e2 (false, { c with errorType := .rightInvariant }, sR) ?_, r, hl⟩
        · unfold VelCorr.correct; simp only [hb, ht, Option.bind_eq_bind, Option.bind_some, if_pos hf]
        · unfold VelCorr.correct; simp only [hb, htR, Option.bind_eq_bind, Option.bind_some, if_pos hf]
      · cases hp : popFresh VelMeas.time c.tDiffThres tp f rest with
        | none =>
          refine ⟨false, .vel { c with buffer := [] }, h, sL, sR, K, e1 (false, { c with buffer := [] }, sL) ?_,
            e2 (false, { c with errorType := .rightInvariant, buffer := [] }, sR) ?_, r, hl⟩
          · unfold VelCorr.correct; simp only [hb, ht, Option.bind_eq_bind, Option.bind_some, if_neg hf, hp]
          · unfold VelCorr.correct; simp only [hb, htR, Option.bind_eq_bind, Option.bind_some, if_neg hf, hp]
        | some x =>
          obtain ⟨m, rest'⟩ := x
          obtain ⟨sL', sR', k1, k2, k3⟩ := velApply_rel r c hc.param m hl
          rw [hb] at k2
          refine ⟨true, .vel { c with buffer := rest' }, h, sL', sR', K, e1 (true, { c with buffer := rest' }, sL') ?_,
            e2 (true, { c with errorType := .rightInvariant, buffer := rest' }, sR') ?_, k3, hl⟩
          · unfold VelCorr.correct; simp only [hb, ht, Option.bind_eq_bind, Option.bind_some, if_neg hf, hp, k1]
          · unfold VelCorr.correct; simp only [hb, htR, Option.bind_eq_bind, Option.bind_some, if_neg hf, hp, k2]
  | leg c =>
    have e1 : ∀ x, c.correct h sL = some x → Corr.correct (.leg c) h sL = some (x.1, .leg x.2.1, x.2.2.1, x.2.2.2) := by
      intro x hx; show (c.correct h sL).map _ = _; rw [hx]; rfl
    have e2 : ∀ x, LegCorr.correct { c with errorType := .rightInvariant } h sR = some x →
        Corr.correct (Corr.asRight (.leg c)) h sR = some (x.1, .leg x.2.1, x.2.2.1, x.2.2.2) := by
      intro x hx; show (LegCorr.correct { c with errorType := .rightInvariant } h sR).map _ = _; rw [hx]; rfl
    cases hb : c.buffer with
    | nil =>
      refine ⟨false, .leg c, h, sL, sR, K, e1 (false, c, h, sL) ?_, e2 (false, { c with errorType := .rightInvariant }, h, sR) ?_, r, hl⟩
      · unfold LegCorr.correct; rw [hb]
      · unfold LegCorr.correct; rw [hb]
    | cons f rest =>
      cases hp : popFresh LegMeas.time c.tDiffThres tp f rest with
      | none =>
        refine ⟨false, .leg { c with buffer := [] }, h, sL, sR, K, e1 (false, { c with buffer := [] }, h, sL) ?_,
          e2 (false, { c with errorType := .rightInvariant, buffer := [] }, h, sR) ?_, r, hl⟩
        · unfold LegCorr.correct; simp only [hb, ht, Option.bind_eq_bind, Option.bind_some, hp]
        · unfold LegCorr.correct; simp only [hb, htR, Option.bind_eq_bind, Option.bind_some, hp]
      | some x =>
        obtain ⟨m, rest'⟩ := x
        obtain ⟨K', ids', h', sL', sR', k1, k2, k3⟩ := legApply_rel r c hl hc.ids hc.param.1 hc.param.2 m
        rw [hb] at k2
        refine ⟨true, .leg { c with buffer := rest', ids := ids' }, h', sL', sR', K', e1 (true, { c with buffer := rest', ids := ids' }, h', sL') ?_,
          e2 (true, { c with errorType := .rightInvariant, buffer := rest', ids := ids' }, h', sR') ?_, k3, hl⟩
        · unfold LegCorr.correct; simp only [hb, ht, Option.bind_eq_bind, Option.bind_some, hp, k1]
        · unfold LegCorr.correct; simp only [hb, htR, Option.bind_eq_bind, Option.bind_some, hp, k2]

theorem correctAll_rel (cs : List Corr) : ∀ {K h sL sR} (_ : StRel K h sL sR) (_ : CorrsOK sL cs) (_ : ∀ c ∈ cs, c.type = .leftInvariant)
    {tp : ℝ} (_ : sL.tProp = some tp), ∃ b cs' h' sL' sR' K', Estimator.correctAll cs h sL = some (b, cs', h', sL') ∧
      Estimator.correctAll (cs.map Corr.asRight) h sR = some (b, cs'.map Corr.asRight, h', sR') ∧ StRel K' h' sL' sR' ∧
      (∀ c ∈ cs', c.type = .leftInvariant) := by
  induction cs with
  | nil => intro K h sL sR r _ _ tp _; exact ⟨false, [], h, sL, sR, K, rfl, rfl, r, by simp⟩
  | cons c cs ih =>
    intro K h sL sR r hc hl tp ht
    have hcd := List.pairwise_cons.mp hc.disj
    obtain ⟨b, c', h1, s1, K1, e1, g1, st⟩ := corr_correct r.gL (hc.each c (by simp)) ht
    obtain ⟨b0, c0, h0, sL1, sR1, K2, f1, f2, r1, l1⟩ := corr_rel r (hc.each c (by simp)) (hl c (by simp)) ht
    rw [e1] at f1
    obtain ⟨rfl, rfl, rfl, rfl⟩ : b = b0 ∧ c' = c0 ∧ h1 = h0 ∧ s1 = sL1 := by
      have := Option.some.inj f1
      simp only [Prod.mk.injEq] at this
      exact this
    have hok1 : CorrsOK s1 cs := by
      refine ⟨fun d hd => (hc.each d (by simp [hd])).keep fun id a ha => ?_, hcd.2⟩
      exact st.keep a ((hc.each d (by simp [hd])).ids.mem id a ha) fun id' q => hcd.1 d hd id' id a q ha
    obtain ⟨b2, cs', h2, sL2, sR2, K3, e2, e3, r2, l2⟩ := ih r1 hok1 (fun d hd => hl d (by simp [hd])) (st.tp.trans ht)
    refine ⟨b || b2, c' :: cs', h2, sL2, sR2, K3, ?_, ?_, r2, ?_⟩
    · simp only [Estimator.correctAll, Option.bind_eq_bind, e1, Option.bind_some, e2]
    · simp only [Estimator.correctAll, List.map_cons, Option.bind_eq_bind, f2, Option.bind_some, e3]
    · intro d hd
      rcases List.mem_cons.mp hd with rfl | hd
      · exact l1
      · exact l2 d hd

/-- the propagation part of a turn -/
theorem prop_rel {K h sL sR} (r : StRel K h sL sR) {p : ImuProp} (hN : ImuNoisePSD p) (hl : p.errorType = .leftInvariant) {m : ImuMeas} {tp : ℝ}
    (hm : p.prev = some m) (ht : sL.tProp = some tp) (hle : tp ≤ m.time) :
    ∃ b p' sL' sR', p.propagate sL = some (b, p', sL') ∧
      ImuProp.propagate { p with errorType := .rightInvariant } sR = some (b, { p' with errorType := .rightInvariant }, sR') ∧
      StRel K h sL' sR' ∧ p'.errorType = .leftInvariant ∧ ∃ tp', sL'.tProp = some tp' := by
  have htR : sR.tProp = some tp := by rw [r.same]; exact ht
  obtain ⟨b, p1, s1, e1, g1, q1, q2⟩ := prop_good r.gL hN hm ht hle
  obtain ⟨b', p2, s2, e2, g2, q3, q4⟩ := prop_good r.gR (p := { p with errorType := .rightInvariant }) hN hm htR hle
  obtain ⟨bu, hb⟩ : ∃ bu, p.buffer = bu := ⟨_, rfl⟩
  cases bu with
  | nil =>
    obtain ⟨rfl, rfl, rfl⟩ := q1 hb
    obtain ⟨rfl, rfl, rfl⟩ := q3 hb
    exact ⟨false, p1, s1, s2, e1, e2, r, hl, tp, ht⟩
  | cons f rest =>
    obtain ⟨rfl, rfl, a1, a2, a3⟩ := q2 f rest hb
    obtain ⟨rfl, rfl, b1, b2, b3⟩ := q4 f rest hb
    have hr : PropReady K p sL m f rest tp := ⟨r.gL.shape, r.gL.world, r.gL.q.r, by rw [← r.gL.q.psd.sq]; exact r.gL.q.r, hb, hm, ht⟩
    obtain ⟨pl, sl, pr, sr, f1, f2, f3, f4, f5⟩ := C39_equivalent hr hl r.rel
    rw [← r.same] at f2
    have u1 := Option.some.inj (e1.symm.trans f1)
    have u2 := Option.some.inj (e2.symm.trans f2)
    simp only [Prod.mk.injEq, true_and] at u1 u2
    rw [← u1.2, ← u2.2] at f3 f4 f5
    refine ⟨true, { p with prev := some f, buffer := rest }, s1, s2, e1, e2, ⟨g1, g2, ?_, f4⟩, hl, _, a2⟩
    exact f5.symm

end Drift
