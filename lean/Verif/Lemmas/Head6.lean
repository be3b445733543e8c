import Verif.Lemmas.Head5

/-! # Lemmas: the estimator commutes with a turn of the world frame -/
set_option linter.unusedSimpArgs false
namespace Drift
open Mat Matrix RobotState Finset

/-- states that were published -/
def OutT (Q : M3) (et : ErrorType) (s s' : RobotState) : Prop := ∃ h K, StT Q et K h s s'

/-- two estimators that differ by a turn of the world frame -/
structure HPar (Q : M3) (et : ErrorType) (e e' : Estimator) : Prop where
  ptype : e.prop.errorType = et
  ctype : ∀ c ∈ e.corrs, c.type = et
  same : e' = { e with prop := e'.prop, state := e'.state, outQ := e'.outQ, log := e'.log }
  prop : PropTurn Q e.prop e'.prop
  on : e.enabled = true → ∃ K, StT Q et K e.heap e.state e'.state
  pend : e.pending ≠ none → InitT Q e.state e'.state
  off : e.enabled = false → e.pending = none → e'.state = e.state ∧ e.state.get_velocity = some 0
  out : List.Forall₂ (OutT Q et) e.outQ e'.outQ
  logq : List.Forall₂ (OutT Q et) e.log.queue e'.log.queue
  logw : List.Forall₂ (RowTurned Q) e.log.written e'.log.written
  log : e'.log = { e.log with queue := e'.log.queue, written := e'.log.written }

theorem hpar_pushLog {Q : M3} {et : ErrorType} {l l' : Logger} {s s' : RobotState} (hq : List.Forall₂ (OutT Q et) l.queue l'.queue)
    (hw : List.Forall₂ (RowTurned Q) l.written l'.written)
    (hl : l' = { l with queue := l'.queue, written := l'.written }) (hs : OutT Q et s s') :
    List.Forall₂ (OutT Q et) (l.push s).queue (l'.push s').queue ∧ List.Forall₂ (RowTurned Q) (l.push s).written (l'.push s').written ∧
      l'.push s' = { l.push s with queue := (l'.push s').queue, written := (l'.push s').written } := by
  have he : l'.enabled = l.enabled := by rw [hl]
  unfold Logger.push
  rw [he]
  split_ifs
  · refine ⟨List.rel_append hq (.cons hs .nil), hw, ?_⟩
    show Logger.mk _ _ _ _ _ _ _ _ _ = Logger.mk _ _ _ _ _ _ _ _ _
    rw [hl]
  · exact ⟨hq, hw, hl⟩

theorem hpar_runOnce {Q : M3} {et : ErrorType} {fut : List ImuMeas} {e e' : Estimator} (ok : TurnOK Q e.prop) (i : EstInv fut e) (p : HPar Q et e e')
    (hen : e.enabled = true) : ∃ a a', e.runOnce = some a ∧ e'.runOnce = some a' ∧ HPar Q et a a' := by
  obtain ⟨K, r⟩ := p.on hen
  obtain ⟨hpend, tp, m, htp, hm, hle, ht⟩ := i.run hen
  obtain ⟨b, p1, p1', s1, s1', e1, e2, r1, t1, l1, tp', ht'⟩ := prop_turn ok.rot ok.grav r p.prop i.noise p.ptype hm htp hle
  obtain ⟨b0, p0, s0, e10, g10, q1, q2⟩ := prop_good r.gL i.noise hm htp hle
  have u := Option.some.inj (e10.symm.trans e1)
  simp only [Prod.mk.injEq] at u
  obtain ⟨rfl, rfl, rfl⟩ := u
  have hcm : s0.colMap = e.state.colMap := by
    obtain ⟨bu, hb⟩ : ∃ bu, e.prop.buffer = bu := ⟨_, rfl⟩
    cases bu with
    | nil => rw [(q1 hb).2.2]
    | cons f rest => exact (q2 f rest hb).2.2.2.2
  have hc1 : CorrsOK s0 e.corrs := ⟨fun c hc => (i.corrs.each c hc).keep (by rw [hcm]; exact (i.corrs.each c hc).ids.mem), i.corrs.disj⟩
  obtain ⟨b', cs', h', s2, s2', K', f1, f2, r2, l2⟩ := correctAll_turn ok.rot r1 hc1 p.ctype ht'
  have hst : OutT Q et s2 s2' := ⟨_, _, r2⟩
  have hcs : e'.corrs = e.corrs := by rw [p.same]
  have hhp : e'.heap = e.heap := by rw [p.same]
  have f2' : Estimator.correctAll e'.corrs e'.heap s1' = some (b', cs', h', s2') := by rw [hcs, hhp]; exact f2
  have hpend' : e'.pending = none := by rw [p.same]; exact hpend
  by_cases hbb : (b0 || b') = true
  · obtain ⟨k1, k2, k3⟩ := hpar_pushLog p.logq p.logw p.log hst
    refine ⟨{ e with prop := p0, corrs := cs', heap := h', state := s2, outQ := e.outQ ++ [s2], log := e.log.push s2 },
      { e' with prop := p1', corrs := cs', heap := h', state := s2', outQ := e'.outQ ++ [s2'], log := e'.log.push s2' }, ?_, ?_, ?_⟩
    · simp only [Estimator.runOnce, e10, f1, Option.bind_eq_bind, Option.bind_some, hbb, if_true]
    · simp only [Estimator.runOnce, e2, f2', Option.bind_eq_bind, Option.bind_some, hbb, if_true]
    · refine ⟨l1, l2, ?_, t1, fun _ => ⟨K', r2⟩, fun h => absurd hpend h, fun h => absurd (hen.symm.trans h) (by simp),
        List.rel_append p.out (.cons hst .nil), k1, k2, k3⟩
      have := p.same
      conv_lhs => rw [this]
  · have hb' : (b0 || b') = false := by simpa using hbb
    refine ⟨{ e with prop := p0, corrs := cs', heap := h', state := s2 },
      { e' with prop := p1', corrs := cs', heap := h', state := s2' }, ?_, ?_, ?_⟩
    · simp only [Estimator.runOnce, e10, f1, Option.bind_eq_bind, Option.bind_some, hb', if_false, Bool.false_eq_true]
    · simp only [Estimator.runOnce, e2, f2', Option.bind_eq_bind, Option.bind_some, hb', if_false, Bool.false_eq_true]
    · refine ⟨l1, l2, ?_, t1, fun _ => ⟨K', r2⟩, fun h => absurd hpend h, fun h => absurd (hen.symm.trans h) (by simp),
        p.out, p.logq, p.logw, p.log⟩
      have := p.same
      conv_lhs => rw [this]

theorem hpar_initFrom {Q : M3} {et : ErrorType} {e e' : Estimator} (ok : TurnOK Q e.prop)
    (rc : 0 ≤ e.rotCov) (vc : 0 ≤ e.velCov) (pc : 0 ≤ e.posCov)
    (ptype : e.prop.errorType = et) (ctype : ∀ c ∈ e.corrs, c.type = et)
    (same : e' = { e with prop := e'.prop, state := e'.state, outQ := e'.outQ, log := e'.log }) (prop : PropTurn Q e.prop e'.prop)
    (out : List.Forall₂ (OutT Q et) e.outQ e'.outQ) (logq : List.Forall₂ (OutT Q et) e.log.queue e'.log.queue)
    (logw : List.Forall₂ (RowTurned Q) e.log.written e'.log.written)
    (log : e'.log = { e.log with queue := e'.log.queue, written := e'.log.written })
    (hen : e.enabled = false) (g : InitOK e.heap e.state) (g' : InitOK e.heap e'.state) (t : InitT Q e.state e'.state)
    {w : V3} (hw : e.state.bodyAngVel = some w) (k : ℕ) :
    ∃ a a', e.initFrom k = some a ∧ e'.initFrom k = some a' ∧ HPar Q et a a' := by
  obtain ⟨s, s', pre, post, gs, gs', ts, q1, q4, q4'⟩ := initCorrs_turn (e.corrs.drop k) (e.corrs.take k) g g' t hw
  have hcs : e'.corrs = e.corrs := by rw [same]
  have hq4 : Estimator.initCorrs (e'.corrs.take k) (e'.corrs.drop k) e'.state = some (e.corrs.take k ++ pre.map Corr.drained, post, s') := by
    rw [hcs]; exact q4'
  have htype : ∀ c ∈ e.corrs.take k ++ pre.map Corr.drained ++ post, c.type = et := by
    have hd : ∀ c ∈ pre ++ post, c ∈ e.corrs := fun c hc => List.mem_of_mem_drop (q1 ▸ hc)
    intro c hc
    simp only [List.mem_append, List.mem_map] at hc
    rcases hc with (hc | ⟨d, hd1, rfl⟩) | hc
    · exact ctype c (List.mem_of_mem_take hc)
    · rw [type_drained]; exact ctype d (hd d (by simp [hd1]))
    · exact ctype c (hd c (by simp [hc]))
  cases hpost : post with
  | nil =>
    subst hpost
    obtain ⟨s1, s2, s3, s1', s2', s3', c1, c2, c3, c1', c2', c3', st⟩ := finishInit_turn ok.rot et gs gs' ts rc vc pc
    have hL : e.initFrom k = some { e with corrs := e.corrs.take k ++ pre.map Corr.drained ++ [], state := s3, outQ := e.outQ ++ [s3], enabled := true, pending := none } := by
      unfold Estimator.initFrom
      rw [q4]
      simp only [Option.bind_eq_bind, Option.bind_some, Estimator.finishInit]
      rw [c1]
      simp only [Option.bind_some]
      rw [c2]
      simp only [Option.bind_some]
      rw [c3]
      rfl
    have hR : e'.initFrom k = some { e' with corrs := e.corrs.take k ++ pre.map Corr.drained ++ [], state := s3', outQ := e'.outQ ++ [s3'], enabled := true, pending := none } := by
      have k1 : e'.rotCov = e.rotCov := by rw [same]
      have k2 : e'.velCov = e.velCov := by rw [same]
      have k3 : e'.posCov = e.posCov := by rw [same]
      unfold Estimator.initFrom
      rw [hq4]
      simp only [Option.bind_eq_bind, Option.bind_some, Estimator.finishInit]
      rw [k1, c1']
      simp only [Option.bind_some]
      rw [k2, c2']
      simp only [Option.bind_some]
      rw [k3, c3']
      rfl
    refine ⟨_, _, hL, hR, ptype, htype, ?_, prop, fun _ => ⟨2, st⟩, by simp, by simp, List.rel_append out (.cons ⟨_, _, st⟩ .nil), logq, logw, log⟩
    conv_lhs => rw [same]
  | cons c cs =>
    have hL : e.initFrom k = some { e with corrs := e.corrs.take k ++ pre.map Corr.drained ++ post, state := s, pending := some (e.corrs.take k ++ pre.map Corr.drained).length } := by
      unfold Estimator.initFrom
      rw [q4]
      simp only [Option.bind_eq_bind, Option.bind_some, hpost]
    have hR : e'.initFrom k = some { e' with corrs := e.corrs.take k ++ pre.map Corr.drained ++ post, state := s', pending := some (e.corrs.take k ++ pre.map Corr.drained).length } := by
      unfold Estimator.initFrom
      rw [hq4]
      simp only [Option.bind_eq_bind, Option.bind_some, hpost]
    refine ⟨_, _, hL, hR, ptype, htype, ?_, prop, fun h => absurd (hen.symm.trans h) (by simp), fun _ => ts, fun _ h => by simp at h, out, logq, logw, log⟩
    conv_lhs => rw [same]

theorem hpar_initState {Q : M3} {et : ErrorType} {fut fut' : List ImuMeas} {e e' : Estimator} (ok : TurnOK Q e.prop) (i : EstInv fut e) (i' : EstInv fut' e')
    (p : HPar Q et e e') (hen : e.enabled = false) (hpn : e.pending = none) :
    ∃ a a', e.initState = some a ∧ e'.initState = some a' ∧ HPar Q et a a' := by
  obtain ⟨hst, hv⟩ := p.off hen hpn
  obtain ⟨g, hrefs⟩ := i.idle hen
  have hbuf := p.prop.buf
  obtain ⟨bu, hb⟩ : ∃ bu, e.prop.buffer = bu := ⟨_, rfl⟩
  obtain ⟨bu', hb'⟩ : ∃ bu, e'.prop.buffer = bu := ⟨_, rfl⟩
  rw [hb, hb'] at hbuf
  cases hbuf with
  | nil =>
    have e1 : e.prop.setInitialState e.state = some (false, e.prop, e.state) := by unfold ImuProp.setInitialState; rw [hb]
    have e2 : e'.prop.setInitialState e'.state = some (false, e'.prop, e'.state) := by unfold ImuProp.setInitialState; rw [hb']
    have h1 : e.initState = some e := by unfold Estimator.initState; rw [e1]; rfl
    have h2 : e'.initState = some e' := by unfold Estimator.initState; rw [e2]; rfl
    exact ⟨e, e', h1, h2, p⟩
  | cons hm hrest =>
    rename_i m m' rest rest'
    obtain ⟨s, s', e1, e2, g1, g2, t, hw⟩ := propInit_turn g hv i.noise p.prop ok.ori hm hb hb'
      (i.ori m (by rw [hb]; simp)) (i'.ori m' (by rw [hb']; simp))
    have hL : e.initState = Estimator.initFrom { e with prop := { e.prop with buffer := rest, prev := some m }, state := s } 0 := by
      unfold Estimator.initState; rw [e1]; rfl
    have hR : e'.initState = Estimator.initFrom { e' with prop := { e'.prop with buffer := rest', prev := some m' }, state := s' } 0 := by
      unfold Estimator.initState; rw [hst, e2]; rfl
    rw [hL, hR]
    refine hpar_initFrom (e := { e with prop := { e.prop with buffer := rest, prev := some m }, state := s })
      (e' := { e' with prop := { e'.prop with buffer := rest', prev := some m' }, state := s' }) ⟨ok.rot, ok.grav, ok.ori, ok.bias⟩
      i.rc i.vc i.pc p.ptype p.ctype ?_ ⟨?_, hrest, .some hm⟩ p.out p.logq p.logw p.log hen g1 g2 t hw 0
    · have := p.same
      conv_lhs => rw [this]
    · have := p.prop.same
      conv_lhs => rw [this]

theorem biasSample_turn {Q : M3} {p p' : ImuProp} (ok : TurnOK Q p) (hs : p.staticInit = true) (hp : PropTurn Q p p') {m m' : ImuMeas} (hm : ImuTurn p.useImuOri Q m m') :
    p'.biasSample m' = p.biasSample m := by
  have h1 : p'.R_imu2body = p.R_imu2body := by rw [hp.same]
  have h2 : p'.t_imu2body = p.t_imu2body := by rw [hp.same]
  have h3 : p'.useImuOri = p.useImuOri := by rw [hp.same]
  have h4 : m'.angVel = m.angVel := by rw [hm.same]
  have h5 : m'.linAcc = m.linAcc := by rw [hm.same]
  unfold ImuProp.biasSample
  rw [h1, h2, h3, h4, h5]
  cases hu : p.useImuOri with
  | false => rfl
  | true =>
    obtain ⟨k1, k2⟩ := ok.bias hu hs
    simp only [if_true, hm.quat hu]
    refine Prod.ext rfl ?_
    simp only [Matrix.mulVec_add, Matrix.transpose_mul, Matrix.mulVec_mulVec]
    have e1 : ((m.quat.toRot)ᵀ * Qᵀ * p.R_imu2bodyᵀ) * (p.R_imu2body * (Q * m.quat.toRot)) = (m.quat.toRot)ᵀ * p.R_imu2bodyᵀ * (p.R_imu2body * m.quat.toRot) := by
      have : Qᵀ * (p.R_imu2bodyᵀ * p.R_imu2body) * Q = p.R_imu2bodyᵀ * p.R_imu2body := by rw [k1, Matrix.mul_one, ok.rot.1]
      calc _ = (m.quat.toRot)ᵀ * (Qᵀ * (p.R_imu2bodyᵀ * p.R_imu2body) * Q) * m.quat.toRot := by simp only [Matrix.mul_assoc]
        _ = _ := by rw [this]; simp only [Matrix.mul_assoc]
    have e2 : ((m.quat.toRot)ᵀ * Qᵀ * p.R_imu2bodyᵀ).mulVec gravity = ((m.quat.toRot)ᵀ * p.R_imu2bodyᵀ).mulVec gravity := by
      have : Qᵀ.mulVec (p.R_imu2bodyᵀ.mulVec gravity) = p.R_imu2bodyᵀ.mulVec gravity := by
        conv_lhs => rw [← k2]
        rw [Matrix.mulVec_mulVec, ok.rot.1, Matrix.one_mulVec]
      rw [← Matrix.mulVec_mulVec, ← Matrix.mulVec_mulVec, this, Matrix.mulVec_mulVec]
    rw [e1, e2]

theorem hpar_initBias {Q : M3} {et : ErrorType} {e e' a : Estimator} (ok : TurnOK Q e.prop) (p : HPar Q et e e') (ha : e.initBias = some a) :
    ∃ a', e'.initBias = some a' ∧ HPar Q et a a' := by
  unfold Estimator.initBias at ha
  simp only [Option.map_eq_some_iff] at ha
  obtain ⟨q, hq, rfl⟩ := ha
  have h1 : e'.prop.staticInit = e.prop.staticInit := by rw [p.prop.same]
  have h2 : e'.prop.biasInitVec = e.prop.biasInitVec := by rw [p.prop.same]
  have h3 : e'.prop.initBiasSize = e.prop.initBiasSize := by rw [p.prop.same]
  have key : ∃ q', e'.prop.initImuBias = some q' ∧ PropTurn Q q q' ∧ q.errorType = e.prop.errorType := by
    unfold ImuProp.initImuBias at hq ⊢
    rw [h1, h2, h3]
    by_cases c1 : e.prop.staticInit = false
    · rw [if_pos c1] at hq ⊢
      rw [← Option.some.inj hq]
      refine ⟨_, rfl, ⟨?_, p.prop.buf, p.prop.prev⟩, rfl⟩
      have := p.prop.same
      conv_lhs => rw [this]
    · by_cases c2 : e.prop.biasInitVec.length < ImuProp.toSizeT e.prop.initBiasSize
      · rw [if_neg c1, if_pos c2] at hq ⊢
        have hbuf := p.prop.buf
        obtain ⟨bu, hb⟩ : ∃ bu, e.prop.buffer = bu := ⟨_, rfl⟩
        obtain ⟨bu', hb'⟩ : ∃ bu, e'.prop.buffer = bu := ⟨_, rfl⟩
        rw [hb, hb'] at hbuf
        rw [hb] at hq
        rw [hb']
        cases hbuf with
        | nil =>
          simp only at hq ⊢
          rw [← Option.some.inj hq]
          exact ⟨_, rfl, p.prop, rfl⟩
        | cons hm hrest =>
          simp only at hq ⊢
          rw [← Option.some.inj hq]
          refine ⟨_, rfl, ⟨?_, hrest, .some hm⟩, rfl⟩
          rw [biasSample_turn ok (by simpa using c1) p.prop hm]
          have := p.prop.same
          conv_lhs => rw [this]
      · rw [if_neg c1, if_neg c2] at hq ⊢
        simp only at hq ⊢
        by_cases c3 : e.prop.biasInitVec.length = 0
        · rw [if_pos c3] at hq; cases hq
        · rw [if_neg c3] at hq ⊢
          rw [← Option.some.inj hq]
          refine ⟨_, rfl, ⟨?_, p.prop.buf, p.prop.prev⟩, rfl⟩
          have := p.prop.same
          conv_lhs => rw [this]
  obtain ⟨q', k1, k2, k3⟩ := key
  refine ⟨{ e' with prop := q' }, by unfold Estimator.initBias; rw [k1]; rfl, k3.trans p.ptype, p.ctype, ?_, k2, p.on, p.pend, p.off, p.out, p.logq, p.logw, p.log⟩
  have := p.same
  conv_lhs => rw [this]

end Drift
