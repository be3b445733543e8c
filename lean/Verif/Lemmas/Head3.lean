import Verif.Lemmas.Head2
import Verif.Lemmas.Equiv3
import Verif.Spec.Heading

/-! # Lemmas: one turn of the main loop commutes with a turn of the world frame -/
set_option linter.unusedSimpArgs false
namespace Drift
open Mat Matrix RobotState Finset

theorem corr_head {Q K h s s'} (hQ : IsRot Q) (r : HRel Q K h s s') {c : Corr} (hc : CorrOK s c) (hl : c.type = .leftInvariant) {tp : ℝ} (ht : s.tProp = some tp) :
    ∃ b c' h' a a' K', c.correct h s = some (b, c', h', a) ∧ c.correct h s' = some (b, c', h', a') ∧
      HRel Q K' h' a a' ∧ c'.type = .leftInvariant := by
  have htR : s'.tProp = some tp := by rw [r.same]; exact ht
  cases c with
  | vel c =>
    have e1 : ∀ s x, c.correct s = some x → Corr.correct (.vel c) h s = some (x.1, .vel x.2.1, h, x.2.2) := by
      intro s x hx; show (c.correct s).map _ = _; rw [hx]; rfl
    cases hb : c.buffer with
    | nil =>
      refine ⟨false, .vel c, h, s, s', K, e1 s (false, c, s) ?_, e1 s' (false, c, s') ?_, r, hl⟩
      · unfold VelCorr.correct; rw [hb]
      · unfold VelCorr.correct; rw [hb]
    | cons f rest =>
      by_cases hf : f.time - tp ≥ 0
      · refine ⟨false, .vel c, h, s, s', K, e1 s (false, c, s) ?_, e1 s' (false, c, s') ?_, r, hl⟩
        · unfold VelCorr.correct; simp only [hb, ht, Option.bind_eq_bind, Option.bind_some, if_pos hf]
        · unfold VelCorr.correct; simp only [hb, htR, Option.bind_eq_bind, Option.bind_some, if_pos hf]
      · cases hp : popFresh VelMeas.time c.tDiffThres tp f rest with
        | none =>
          refine ⟨false, .vel { c with buffer := [] }, h, s, s', K, e1 s (false, { c with buffer := [] }, s) ?_,
            e1 s' (false, { c with buffer := [] }, s') ?_, r, hl⟩
          · unfold VelCorr.correct; simp only [hb, ht, Option.bind_eq_bind, Option.bind_some, if_neg hf, hp]
          · unfold VelCorr.correct; simp only [hb, htR, Option.bind_eq_bind, Option.bind_some, if_neg hf, hp]
        | some x =>
          obtain ⟨m, rest'⟩ := x
          obtain ⟨a, a', k1, k2, k3⟩ := velApply_head hQ r c hc.param m hl
          refine ⟨true, .vel { c with buffer := rest' }, h, a, a', K, e1 s (true, { c with buffer := rest' }, a) ?_,
            e1 s' (true, { c with buffer := rest' }, a') ?_, k3, hl⟩
          · unfold VelCorr.correct; simp only [hb, ht, Option.bind_eq_bind, Option.bind_some, if_neg hf, hp, k1]
          · unfold VelCorr.correct; simp only [hb, htR, Option.bind_eq_bind, Option.bind_some, if_neg hf, hp, k2]
  | leg c =>
    have e1 : ∀ s x, c.correct h s = some x → Corr.correct (.leg c) h s = some (x.1, .leg x.2.1, x.2.2.1, x.2.2.2) := by
      intro s x hx; show (c.correct h s).map _ = _; rw [hx]; rfl
    cases hb : c.buffer with
    | nil =>
      refine ⟨false, .leg c, h, s, s', K, e1 s (false, c, h, s) ?_, e1 s' (false, c, h, s') ?_, r, hl⟩
      · unfold LegCorr.correct; rw [hb]
      · unfold LegCorr.correct; rw [hb]
    | cons f rest =>
      cases hp : popFresh LegMeas.time c.tDiffThres tp f rest with
      | none =>
        refine ⟨false, .leg { c with buffer := [] }, h, s, s', K, e1 s (false, { c with buffer := [] }, h, s) ?_,
          e1 s' (false, { c with buffer := [] }, h, s') ?_, r, hl⟩
        · unfold LegCorr.correct; simp only [hb, ht, Option.bind_eq_bind, Option.bind_some, hp]
        · unfold LegCorr.correct; simp only [hb, htR, Option.bind_eq_bind, Option.bind_some, hp]
      | some x =>
        obtain ⟨m, rest'⟩ := x
        obtain ⟨K', ids', h', a, a', k1, k2, k3⟩ := legApply_head hQ r c hl hc.ids hc.param.1 hc.param.2 m
        refine ⟨true, .leg { c with buffer := rest', ids := ids' }, h', a, a', K', e1 s (true, { c with buffer := rest', ids := ids' }, h', a) ?_,
          e1 s' (true, { c with buffer := rest', ids := ids' }, h', a') ?_, k3, hl⟩
        · unfold LegCorr.correct; simp only [hb, ht, Option.bind_eq_bind, Option.bind_some, hp, k1]
        · unfold LegCorr.correct; simp only [hb, htR, Option.bind_eq_bind, Option.bind_some, hp, k2]

theorem correctAll_head {Q : M3} (hQ : IsRot Q) (cs : List Corr) : ∀ {K h s s'} (_ : HRel Q K h s s') (_ : CorrsOK s cs) (_ : ∀ c ∈ cs, c.type = .leftInvariant)
    {tp : ℝ} (_ : s.tProp = some tp), ∃ b cs' h' a a' K', Estimator.correctAll cs h s = some (b, cs', h', a) ∧
      Estimator.correctAll cs h s' = some (b, cs', h', a') ∧ HRel Q K' h' a a' ∧
      (∀ c ∈ cs', c.type = .leftInvariant) := by
  induction cs with
  | nil => intro K h s s' r _ _ tp _; exact ⟨false, [], h, s, s', K, rfl, rfl, r, by simp⟩
  | cons c cs ih =>
    intro K h s s' r hc hl tp ht
    have hcd := List.pairwise_cons.mp hc.disj
    obtain ⟨b, c', h1, s1, K1, e1, g1, st⟩ := corr_correct r.gL (hc.each c (by simp)) ht
    obtain ⟨b0, c0, h0, sL1, sR1, K2, f1, f2, r1, l1⟩ := corr_head hQ r (hc.each c (by simp)) (hl c (by simp)) ht
    rw [e1] at f1
    obtain ⟨rfl, rfl, rfl, rfl⟩ : b = b0 ∧ c' = c0 ∧ h1 = h0 ∧ s1 = sL1 := by
      have := Option.some.inj f1
      simp only [Prod.mk.injEq] at this
      exact this
    have hok1 : CorrsOK s1 cs := by
      refine ⟨fun d hd => (hc.each d (by simp [hd])).keep fun id a ha => ?_, hcd.2⟩
      exact st.keep a ((hc.each d (by simp [hd])).ids.mem id a ha) fun id' q => hcd.1 d hd id' id a q ha
    obtain ⟨b2, cs', h2, sL2, sR2, K3, e2, e3, r2, l2⟩ := ih r1 hok1 (fun d hd => hl d (by simp [hd])) (st.tp.trans ht)
    refine ⟨b || b2, c' :: cs', h2, sL2, sR2, K3, ?_, ?_, r2, ?_⟩
    · simp only [Estimator.correctAll, Option.bind_eq_bind, e1, Option.bind_some, e2]
    · simp only [Estimator.correctAll, Option.bind_eq_bind, f2, Option.bind_some, e3]
    · intro d hd
      rcases List.mem_cons.mp hd with rfl | hd
      · exact l1
      · exact l2 d hd

/-- two propagations that differ by a turn of the world frame -/
structure PropTurn (Q : M3) (p p' : ImuProp) : Prop where
  same : p' = { p with buffer := p'.buffer, prev := p'.prev }
  buf : List.Forall₂ (ImuTurn p.useImuOri Q) p.buffer p'.buffer
  prev : Option.Rel (ImuTurn p.useImuOri Q) p.prev p'.prev

theorem meanK_turn {K : ℕ} {Q : M3} {X : Mat} (hQ : IsRot Q) (hg : Q.mulVec gravity = gravity) (hX : IsSEK K X) (w a : V3) (dt : ℝ) (hK : 2 ≤ K) :
    meanK K w a dt (turnX K Q * X) = turnX K Q * meanK K w a dt X := by
  have hT : IsSEK K (turnX K Q * X) := (turnX_isSEK hQ).mul hX
  have hc : ∀ k, 3 ≤ k → k < 3 + K → (turnX K Q * X).blkV 0 k = Q.mulVec (X.blkV 0 k) := by
    intro k h1 h2
    obtain ⟨k, rfl⟩ := Nat.exists_eq_add_of_le h1
    exact turnX_mul_col hX (by omega)
  refine turn_ext (meanK_isSEK hX) (meanK_isSEK hT) ?_ ?_
  · unfold meanK
    rw [turnX_mul_rot hX]
    have e : ∀ (R : M3) (f : ℕ → V3), (mkSE K R f).blk3 0 0 = R := by
      intro R f; funext k l; rw [blk3_apply]; simpa using mkSE_e_rot K _ _ k l
    rw [e, e, Matrix.mul_assoc]
  · intro k hk
    unfold meanK
    rw [mkSE_blkV _ _ _ hk, mkSE_blkV _ _ _ hk, turnX_mul_rot hX]
    by_cases h0 : k = 0
    · rw [if_pos h0, if_pos h0, hc 3 (by omega) (by omega), Matrix.mulVec_add, Matrix.mulVec_smul, Matrix.mulVec_add, hg,
        Matrix.mulVec_mulVec, Matrix.mul_assoc]
    · by_cases h1 : k = 1
      · rw [if_neg h0, if_neg h0, if_pos h1, if_pos h1, hc 3 (by omega) (by omega), hc 4 (by omega) (by omega)]
        simp only [Matrix.mulVec_add, Matrix.mulVec_smul, hg, Matrix.mulVec_mulVec, Matrix.mul_assoc]
      · rw [if_neg h0, if_neg h0, if_neg h1, if_neg h1, hc _ (by omega) (by omega)]

theorem covK_left (K : ℕ) {p : ImuProp} (hl : p.errorType = .leftInvariant) (w a dt X X' P Q) :
    covK K p w a dt X' P Q = covK K p w a dt X P Q := by
  unfold covK phiK gK; rw [hl]

theorem prop_head {Q K h s s'} (hQ : IsRot Q) (hg : Q.mulVec gravity = gravity) (r : HRel Q K h s s') {p p' : ImuProp} (hp : PropTurn Q p p')
    (hN : ImuNoisePSD p) (hl : p.errorType = .leftInvariant) {m : ImuMeas} {tp : ℝ}
    (hm : p.prev = some m) (ht : s.tProp = some tp) (hle : tp ≤ m.time) :
    ∃ b p1 p1' a a', p.propagate s = some (b, p1, a) ∧ p'.propagate s' = some (b, p1', a') ∧
      HRel Q K h a a' ∧ PropTurn Q p1 p1' := by
  have htR : s'.tProp = some tp := by rw [r.same]; exact ht
  have hpr := hp.prev
  obtain ⟨p'p, hp'p⟩ : ∃ x, p'.prev = x := ⟨_, rfl⟩
  rw [hm, hp'p] at hpr
  cases hpr with
  | some hmm =>
  rename_i m'
  have hmt : m'.time = m.time := by rw [hmm.same]
  have hN' : ImuNoisePSD p' := by rw [hp.same]; exact hN
  obtain ⟨b, p1, s1, e1, g1, q1, q2⟩ := prop_good r.gL hN hm ht hle
  obtain ⟨b', p2, s2, e2, g2, q3, q4⟩ := prop_good r.gR hN' hp'p htR (by rw [hmt]; exact hle)
  have hbuf := hp.buf
  obtain ⟨bu, hb⟩ : ∃ bu, p.buffer = bu := ⟨_, rfl⟩
  obtain ⟨bu', hb'⟩ : ∃ bu, p'.buffer = bu := ⟨_, rfl⟩
  rw [hb, hb'] at hbuf
  cases hbuf with
  | nil =>
    obtain ⟨rfl, rfl, rfl⟩ := q1 hb
    obtain ⟨rfl, rfl, rfl⟩ := q3 hb'
    exact ⟨false, p1, p2, s1, s2, e1, e2, r, hp⟩
  | cons hf hrest =>
    rename_i f f' rest rest'
    obtain ⟨rfl, rfl, a1, a2, a3⟩ := q2 f rest hb
    obtain ⟨rfl, rfl, b1, b2, b3⟩ := q4 f' rest' hb'
    have hsq := r.gL.q.psd.sq
    have hsq' := r.gR.q.psd.sq
    have f1 := propagate_eq r.gL.shape r.gL.world r.gL.q.r (by rw [← hsq]; exact r.gL.q.r) hb hm ht
    have f2 := propagate_eq r.gR.shape r.gR.world r.gR.q.r (by rw [← hsq']; exact r.gR.q.r) hb' hp'p htR
    have u1 := Option.some.inj (e1.symm.trans f1)
    have u2 := Option.some.inj (e2.symm.trans f2)
    simp only [Prod.mk.injEq, true_and] at u1 u2
    have hrate : p'.bodyRates m' (s'.Theta.blkV 0 0) (s'.Theta.blkV 3 0) = p.bodyRates m (s.Theta.blkV 0 0) (s.Theta.blkV 3 0) := by
      rw [r.th, hmm.same, hp.same]; rfl
    have hqc : s'.Qc = s.Qc := by rw [r.same]
    have hen : p'.enableBias = p.enableBias := by rw [hp.same]
    have het : p'.errorType = .leftInvariant := by rw [hp.same]; exact hl
    have hcov : ∀ w a dt X P Qc, covK K p' w a dt X P Qc = covK K p w a dt X P Qc := by
      intro w a dt X P Qc
      rw [hp.same]; rfl
    rw [hrate, hen, hqc, r.p, hmt, hcov, covK_left K hl _ _ _ s.X s'.X, r.x, meanK_turn hQ hg r.gL.shape.x _ _ _ r.gL.shape.k] at u2
    refine ⟨true, _, _, s1, s2, e1, e2, ⟨g1, g2, ?_, ?_⟩, ⟨?_, hrest, .some hf⟩⟩
    · rw [u1, u2]
      have := r.same
      conv_lhs => rw [this]
    · rw [u1, u2]
    · conv_lhs => rw [hp.same]

end Drift
