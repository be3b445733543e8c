import Verif.Lemmas.Head3

/-! # Lemmas: one turn of the main loop commutes with a turn of the world frame, for both error types -/
set_option linter.unusedSimpArgs false
namespace Drift
open Mat Matrix RobotState Finset

/-- two states that differ by a turn of the world frame, for an estimator of the given error type -/
structure StT (Q : M3) (et : ErrorType) (K : ℕ) (h : Heap) (s s' : RobotState) : Prop where
  gL : Good K h s
  gR : Good K h s'
  same : s' = { s with X := s'.X, P := s'.P }
  x : s'.X = turnX K Q * s.X
  left : et = .leftInvariant → s'.P = s.P
  right : et = .rightInvariant → s'.P = EA K (turnX K Q) * s.P * (EA K (turnX K Q)).T

theorem stT_of_head {Q K h s s'} (r : HRel Q K h s s') : StT Q .leftInvariant K h s s' := by
  refine ⟨r.gL, r.gR, ?_, r.x, fun _ => r.p, by simp⟩
  have := r.same
  conv_lhs => rw [this]
  rw [r.p]

theorem StT.head {Q K h s s'} (r : StT Q .leftInvariant K h s s') : HRel Q K h s s' := by
  refine ⟨r.gL, r.gR, ?_, r.x⟩
  have := r.same
  rw [r.left rfl] at this
  exact this

theorem good_K {K K' : ℕ} {h h' : Heap} {s s' : RobotState} (g : Good K h s) (g' : Good K' h' s') (hx : s.X.rows = s'.X.rows) : K = K' := by
  have h1 := g.shape.x.rows; have h2 := g'.shape.x.rows
  omega

theorem StT.lower {Q K h s s'} (hQ : IsRot Q) (r : StT Q .rightInvariant K h s s') :
    ∃ sL sL', HRel Q K h sL sL' ∧ StRel K h sL s ∧ StRel K h sL' s' := by
  have hX := r.gL.shape.x
  have hX' := r.gR.shape.x
  set PL := EA K (invSE K s.X) * s.P * (EA K (invSE K s.X)).T with hPL
  have hpsd : PSD PL := r.gL.psd.congr (by rw [r.gL.shape.pr]; rfl)
  have pr : PL.rows = 3 * K + 9 := rfl
  have pc : PL.cols = 3 * K + 9 := rfl
  have hgl : Good K h { s with P := PL } := ⟨⟨hX, r.gL.shape.k, r.gL.shape.thr, r.gL.shape.thc, pr, pc⟩, r.gL.world, hpsd, r.gL.q, r.gL.len, r.gL.tab⟩
  have hgr : Good K h { s' with P := PL } := ⟨⟨hX', r.gR.shape.k, r.gR.shape.thr, r.gR.shape.thc, pr, pc⟩, r.gR.world, hpsd, r.gR.q, r.gR.len, r.gR.tab⟩
  have e1 : s.P = EA K s.X * PL * (EA K s.X).T := by
    rw [hPL, conj_cancel (n := 3 * K + 9) rfl rfl r.gL.shape.pr r.gL.shape.pc rfl (EA_mul_inv hX)]
  refine ⟨{ s with P := PL }, { s' with P := PL }, ⟨hgl, hgr, ?_, r.x⟩, ⟨hgl, r.gL, rfl, ?_⟩, ⟨hgr, r.gR, rfl, ?_⟩⟩
  · have := r.same
    show { s' with P := PL } = { s with X := s'.X, P := PL }
    conv_lhs => rw [this]
  · exact (adjRelated_iff hX).mpr e1
  · refine (adjRelated_iff hX').mpr ?_
    show s'.P = _
    rw [r.right rfl, r.x, EA_mul (turnX_isSEK hQ) hX, T_mul (by simp), e1]
    simp only [mul_assoc']

theorem raise {Q K h sL sL' s s'} (hQ : IsRot Q) (r : HRel Q K h sL sL') (a : StRel K h sL s) (a' : StRel K h sL' s') :
    StT Q .rightInvariant K h s s' := by
  have hX := r.gL.shape.x
  have hX' := r.gR.shape.x
  refine ⟨a.gR, a'.gR, ?_, ?_, by simp, fun _ => ?_⟩
  · have h1 := a'.same
    have h2 := r.same
    have h3 := a.same
    conv_lhs => rw [h1, h2]
    rw [a'.x]
    conv_rhs => rw [h3]
  · rw [a'.x, a.x, r.x]
  · rw [(adjRelated_iff hX').mp a'.rel, (adjRelated_iff hX).mp a.rel, r.x, r.p, EA_mul (turnX_isSEK hQ) hX, T_mul (by simp)]
    simp only [mul_assoc']

/-- the same correction for the left-invariant error -/
def Corr.asLeft : Corr → Corr
  | .vel c => .vel { c with errorType := .leftInvariant }
  | .leg c => .leg { c with errorType := .leftInvariant }

theorem asLeft_asRight {c : Corr} (h : c.type = .rightInvariant) : c.asLeft.asRight = c := by
  cases c with
  | vel c => obtain ⟨⟩ := c; cases h; rfl
  | leg c => obtain ⟨⟩ := c; cases h; rfl

theorem asLeft_type (c : Corr) : c.asLeft.type = .leftInvariant := by cases c <;> rfl
theorem asRight_type (c : Corr) : c.asRight.type = .rightInvariant := by cases c <;> rfl

theorem asLeft_ok {s : RobotState} {c : Corr} (h : CorrOK s c) : CorrOK s c.asLeft := by
  cases c <;> exact ⟨h.param, h.ids⟩

theorem asLeft_refs (c : Corr) : c.asLeft.refs = c.refs := by cases c <;> rfl

theorem asLeft_all {s : RobotState} {cs : List Corr} (h : CorrsOK s cs) : CorrsOK s (cs.map Corr.asLeft) := by
  refine ⟨?_, ?_⟩
  · intro c hc
    obtain ⟨d, hd, rfl⟩ := List.mem_map.mp hc
    exact asLeft_ok (h.each d hd)
  · rw [List.pairwise_map]
    refine h.disj.imp ?_
    intro a b hab
    unfold Disj at hab ⊢
    rw [asLeft_refs, asLeft_refs]; exact hab

/-- all corrections, both error types -/
theorem correctAll_turn {Q : M3} {et : ErrorType} (hQ : IsRot Q) {cs : List Corr} {K h s s'} (r : StT Q et K h s s') (hc : CorrsOK s cs)
    (hl : ∀ c ∈ cs, c.type = et) {tp : ℝ} (ht : s.tProp = some tp) :
    ∃ b cs' h' a a' K', Estimator.correctAll cs h s = some (b, cs', h', a) ∧
      Estimator.correctAll cs h s' = some (b, cs', h', a') ∧ StT Q et K' h' a a' ∧ (∀ c ∈ cs', c.type = et) := by
  cases et with
  | leftInvariant =>
    obtain ⟨b, cs', h', a, a', K', e1, e2, r1, l1⟩ := correctAll_head hQ cs r.head hc hl ht
    exact ⟨b, cs', h', a, a', K', e1, e2, stT_of_head r1, l1⟩
  | rightInvariant =>
    obtain ⟨sL, sL', r0, q, q'⟩ := r.lower hQ
    have hcs : (cs.map Corr.asLeft).map Corr.asRight = cs := by
      rw [List.map_map]
      conv_rhs => rw [← List.map_id cs]
      exact List.map_congr_left fun c hc => asLeft_asRight (hl c hc)
    have hty : ∀ c ∈ cs.map Corr.asLeft, c.type = .leftInvariant := by
      intro c hc
      obtain ⟨d, -, rfl⟩ := List.mem_map.mp hc
      exact asLeft_type d
    have hok : CorrsOK sL (cs.map Corr.asLeft) := by
      have h1 := asLeft_all hc
      exact ⟨fun c hc => (h1.each c hc).keep (by rw [← q.cm]; exact (h1.each c hc).ids.mem), h1.disj⟩
    have hok' : CorrsOK sL' (cs.map Corr.asLeft) :=
      ⟨fun c hc => (hok.each c hc).keep (by rw [r0.cm]; exact (hok.each c hc).ids.mem), hok.disj⟩
    have htL : sL.tProp = some tp := by rw [← ht, q.same]
    have htL' : sL'.tProp = some tp := by rw [r0.same]; exact htL
    obtain ⟨b, cs1, h1, a, a', K1, e1, e2, r1, l1⟩ := correctAll_head hQ (cs.map Corr.asLeft) r0 hok hty htL
    obtain ⟨b2, cs2, h2, a2, c2, K2, e3, e4, r2, l2⟩ := correctAll_rel (cs.map Corr.asLeft) q hok hty htL
    obtain ⟨b3, cs3, h3, a3, c3, K3, e5, e6, r3, l3⟩ := correctAll_rel (cs.map Corr.asLeft) q' hok' hty htL'
    have u2 := Option.some.inj (e1.symm.trans e3)
    have u3 := Option.some.inj (e2.symm.trans e5)
    simp only [Prod.mk.injEq] at u2 u3
    obtain ⟨rfl, rfl, rfl, rfl⟩ := u2
    obtain ⟨rfl, rfl, rfl, rfl⟩ := u3
    obtain rfl : K1 = K2 := good_K r1.gL r2.gL rfl
    obtain rfl : K1 = K3 := good_K r1.gR r3.gL rfl
    rw [hcs] at e4 e6
    refine ⟨b, _, h1, c2, c3, K1, e4, e6, raise hQ r1 r2 r3, ?_⟩
    intro c hc
    obtain ⟨d, -, rfl⟩ := List.mem_map.mp hc
    exact asRight_type d

/-- the propagation, both error types -/
theorem prop_turn {Q : M3} {et : ErrorType} {K h s s'} (hQ : IsRot Q) (hg : Q.mulVec gravity = gravity) (r : StT Q et K h s s') {p p' : ImuProp}
    (hp : PropTurn Q p p') (hN : ImuNoisePSD p) (hl : p.errorType = et) {m : ImuMeas} {tp : ℝ}
    (hm : p.prev = some m) (ht : s.tProp = some tp) (hle : tp ≤ m.time) :
    ∃ b p1 p1' a a', p.propagate s = some (b, p1, a) ∧ p'.propagate s' = some (b, p1', a') ∧
      StT Q et K h a a' ∧ PropTurn Q p1 p1' ∧ p1.errorType = et ∧ ∃ tp', a.tProp = some tp' := by
  have hfin : ∀ {b p1 a}, p.propagate s = some (b, p1, a) → p1.errorType = et ∧ ∃ tp', a.tProp = some tp' := by
    intro b p1 a e
    obtain ⟨b', p2, s2, e2, -, q3, q4⟩ := prop_good r.gL hN hm ht hle
    have u := Option.some.inj (e.symm.trans e2)
    simp only [Prod.mk.injEq] at u
    obtain ⟨rfl, rfl, rfl⟩ := u
    obtain ⟨bu, hb⟩ : ∃ bu, p.buffer = bu := ⟨_, rfl⟩
    cases bu with
    | nil =>
      obtain ⟨-, rfl, rfl⟩ := q3 hb
      exact ⟨hl, tp, ht⟩
    | cons f rest =>
      obtain ⟨-, rfl, -, h2, -⟩ := q4 f rest hb
      exact ⟨hl, _, h2⟩
  cases et with
  | leftInvariant =>
    obtain ⟨b, p1, p1', a, a', e1, e2, r1, t1⟩ := prop_head hQ hg r.head hp hN hl hm ht hle
    exact ⟨b, p1, p1', a, a', e1, e2, stT_of_head r1, t1, hfin e1⟩
  | rightInvariant =>
    obtain ⟨sL, sL', r0, q, q'⟩ := r.lower hQ
    have htL : sL.tProp = some tp := by rw [← ht, q.same]
    have htL' : sL'.tProp = some tp := by rw [r0.same]; exact htL
    set pL : ImuProp := { p with errorType := .leftInvariant } with hpL
    set pL' : ImuProp := { p' with errorType := .leftInvariant } with hpL'
    have hpt : PropTurn Q pL pL' := by
      refine ⟨?_, hp.buf, hp.prev⟩
      show { p' with errorType := .leftInvariant } = _
      have := hp.same
      conv_lhs => rw [this]
    have hN' : ImuNoisePSD pL' := by
      show ImuNoisePSD { p' with errorType := .leftInvariant }
      rw [hp.same]; exact hN
    have hpr := hp.prev
    obtain ⟨x, hx⟩ : ∃ x, p'.prev = x := ⟨_, rfl⟩
    rw [hm, hx] at hpr
    cases hpr with
    | some hmm =>
    rename_i m'
    have hmt : m'.time = m.time := by rw [hmm.same]
    obtain ⟨b, p1, p1', a, a', e1, e2, r1, t1⟩ := prop_head hQ hg r0 hpt hN rfl hm htL hle
    obtain ⟨b2, p2, a2, c2, e3, e4, r2, -, -⟩ := prop_rel q (p := pL) hN rfl hm htL hle
    obtain ⟨b3, p3, a3, c3, e5, e6, r3, -, -⟩ := prop_rel q' (p := pL') hN' rfl hx htL' (by rw [hmt]; exact hle)
    have u2 := Option.some.inj (e1.symm.trans e3)
    have u3 := Option.some.inj (e2.symm.trans e5)
    simp only [Prod.mk.injEq] at u2 u3
    obtain ⟨rfl, rfl, rfl⟩ := u2
    obtain ⟨rfl, rfl, rfl⟩ := u3
    have hpe : { pL with errorType := .rightInvariant } = p := by
      rw [hpL, ← hl]
    have hpe' : { pL' with errorType := .rightInvariant } = p' := by
      have : p'.errorType = .rightInvariant := by rw [hp.same]; exact hl
      rw [hpL', ← this]
    rw [hpe] at e4
    rw [hpe'] at e6
    refine ⟨b, _, _, c2, c3, e4, e6, raise hQ r1 r2 r3, ?_, hfin e4⟩
    refine ⟨?_, t1.buf, t1.prev⟩
    have := t1.same
    conv_lhs => rw [this]

end Drift
