import Verif.Lemmas.Head6

/-! # Lemmas: histories of the estimator commute with a turn of the world frame -/
set_option linter.unusedSimpArgs false
namespace Drift
open Mat Matrix RobotState Finset

theorem OutT.row {Q : M3} {et : ErrorType} (hQ : IsRot Q) {s s' : RobotState} (o : OutT Q et s s') :
    s'.t = s.t ∧ ∃ p R v, s.get_world_position = some p ∧ s.get_world_rotation = some R ∧ s.get_world_velocity = some v ∧
      s.get_body_velocity = some (Rᵀ.mulVec v) ∧ s'.get_world_position = some (Q.mulVec p) ∧ s'.get_world_rotation = some (Q * R) ∧
      s'.get_world_velocity = some (Q.mulVec v) ∧ s'.get_body_velocity = some (Rᵀ.mulVec v) := by
  obtain ⟨h, K, r⟩ := o
  have x1 := r.gL.shape.x.rows; have x2 := r.gL.shape.x.cols; have hK := r.gL.shape.k
  have y1 := r.gR.shape.x.rows; have y2 := r.gR.shape.x.cols
  have a1 : s.get_rotation = some (s.X.blk3 0 0) := blk3?_eq (by omega) (by omega)
  have a2 : s.get_velocity = some (s.X.blkV 0 3) := blkV?_eq (by omega) (by omega)
  have a3 : s.get_position = some (s.X.blkV 0 4) := blkV?_eq (by omega) (by omega)
  have b1 : s'.get_rotation = some (s'.X.blk3 0 0) := blk3?_eq (by omega) (by omega)
  have b2 : s'.get_velocity = some (s'.X.blkV 0 3) := blkV?_eq (by omega) (by omega)
  have b3 : s'.get_position = some (s'.X.blkV 0 4) := blkV?_eq (by omega) (by omega)
  have c1 : s'.X.blk3 0 0 = Q * s.X.blk3 0 0 := by rw [r.x]; exact turnX_mul_rot r.gL.shape.x
  have c2 : s'.X.blkV 0 3 = Q.mulVec (s.X.blkV 0 3) := by rw [r.x]; exact turnX_mul_col r.gL.shape.x (k := 0) (by omega)
  have c3 : s'.X.blkV 0 4 = Q.mulVec (s.X.blkV 0 4) := by rw [r.x]; exact turnX_mul_col r.gL.shape.x (k := 1) (by omega)
  refine ⟨by rw [r.same], s.X.blkV 0 4, s.X.blk3 0 0, s.X.blkV 0 3, ?_, ?_, ?_, ?_, ?_, ?_, ?_, ?_⟩
  · unfold get_world_position; rw [r.gL.world]; exact a3
  · unfold get_world_rotation; rw [r.gL.world]; exact a1
  · unfold get_world_velocity; rw [r.gL.world]; exact a2
  · unfold get_body_velocity; rw [r.gL.world, a1, a2]; rfl
  · unfold get_world_position; rw [r.gR.world]; exact b3.trans (by rw [c3])
  · unfold get_world_rotation; rw [r.gR.world]; exact b1.trans (by rw [c1])
  · unfold get_world_velocity; rw [r.gR.world]; exact b2.trans (by rw [c2])
  · unfold get_body_velocity; rw [r.gR.world, b1, b2, c1, c2]
    show some _ = some _
    rw [Matrix.transpose_mul, Matrix.mulVec_mulVec, Matrix.mul_assoc, hQ.1, Matrix.mul_one]

theorem hpar_log {Q : M3} {et : ErrorType} (hQ : IsRot Q) {l l' a : Logger} (hq : List.Forall₂ (OutT Q et) l.queue l'.queue)
    (hw : List.Forall₂ (RowTurned Q) l.written l'.written)
    (hl : l' = { l with queue := l'.queue, written := l'.written }) (h : l.iter = some a) :
    ∃ a', l'.iter = some a' ∧ List.Forall₂ (OutT Q et) a.queue a'.queue ∧ List.Forall₂ (RowTurned Q) a.written a'.written ∧
      a' = { a with queue := a'.queue, written := a'.written } := by
  obtain ⟨L, hL⟩ : ∃ L, l.queue = L := ⟨_, rfl⟩
  obtain ⟨L', hL'⟩ : ∃ L', l'.queue = L' := ⟨_, rfl⟩
  have hq0 := hq
  rw [hL, hL'] at hq
  cases hq with
  | nil =>
    have e1 : l.iter = some l := by unfold Logger.iter; rw [hL]
    have e2 : l'.iter = some l' := by unfold Logger.iter; rw [hL']
    rw [e1] at h; cases h
    exact ⟨l', e2, hq0, hw, hl⟩
  | cons hs ht =>
    rename_i s s' rest rest'
    obtain ⟨r1, p, R, v, k1, k2, k3, k4, k5, k6, k7, k8⟩ := hs.row hQ
    have hen : l'.enabled = l.enabled := by rw [hl]
    have hrate : l'.rate = l.rate := by rw [hl]
    have hlp : l'.lastPub = l.lastPub := by rw [hl]
    have hdue : ∀ t q q', Logger.due { l' with queue := q' } t ↔ Logger.due { l with queue := q } t := by
      intro t q q'; unfold Logger.due; simp only [hrate, hlp]
    unfold Logger.iter at h ⊢
    rw [hL] at h
    rw [hL']
    simp only [Option.bind_eq_bind, r1, k1, k2, k3, k4, k5, k6, k7, k8, Option.bind_some] at h ⊢
    cases ht1 : s.t with
    | none => rw [ht1] at h; cases h
    | some t =>
      rw [ht1] at h
      simp only [Option.bind_some] at h ⊢
      by_cases hd : l.enabled = true ∧ Logger.due { l with queue := rest } t
      · rw [if_pos hd] at h
        rw [if_pos ⟨by rw [hen]; exact hd.1, (hdue t _ _).mpr hd.2⟩]
        rw [← Option.some.inj h]
        refine ⟨_, rfl, ht, List.rel_append hw (.cons ⟨rfl, rfl, rfl, rfl, rfl⟩ .nil), ?_⟩
        conv_lhs => rw [hl]
      · rw [if_neg hd] at h
        rw [if_neg (fun q => hd ⟨by rw [← hen]; exact q.1, (hdue t _ _).mp q.2⟩)]
        rw [← Option.some.inj h]
        refine ⟨_, rfl, ht, hw, ?_⟩
        conv_lhs => rw [hl]

theorem clear_written (l : Logger) : l.clear.written = l.written := by unfold Logger.clear; simp only; split_ifs <;> rfl

theorem clear_vel (s : RobotState) : s.clear.get_velocity = some 0 := by
  show (one 5).blkV? 0 3 = some 0
  rw [blkV?_eq (by simp) (by simp)]
  congr 1
  funext i
  rw [blkV_apply, one_e]
  have := i.2
  rw [if_neg (by omega)]; rfl

theorem hpar_step {Q : M3} {et : ErrorType} {fut fut' : List ImuMeas} {e e' a a' : Estimator} {ev ev' : EstEv} (ok : TurnOK Q e.prop)
    (hev : EvTurn e.prop.useImuOri Q ev ev') (i : EstInv fut e) (i' : EstInv fut' e') (p : HPar Q et e e')
    (hs : e.step ev = some a) (hs' : e'.step ev' = some a') : HPar Q et a a' := by
  have hrest : ∀ {b}, e'.step ev' = some b → HPar Q et a b → HPar Q et a a' := by
    intro b h1 h2; rw [hs'] at h1; cases h1; exact h2
  cases ev with
  | imu m =>
    obtain ⟨m', rfl, hm⟩ := hev
    rw [← Option.some.inj hs, ← Option.some.inj hs']
    refine ⟨p.ptype, p.ctype, ?_, ⟨?_, List.rel_append p.prop.buf (.cons hm .nil), p.prop.prev⟩, p.on, p.pend, p.off, p.out, p.logq, p.logw, p.log⟩
    · have := p.same
      conv_lhs => rw [this]
    · have := p.prop.same
      conv_lhs => rw [this]
  | vel j m =>
    obtain rfl : ev' = .vel j m := hev
    rw [← Option.some.inj hs, ← Option.some.inj hs']
    refine ⟨p.ptype, type_modify (type_pushVel m) p.ctype j, ?_, p.prop, p.on, p.pend, p.off, p.out, p.logq, p.logw, p.log⟩
    have := p.same
    conv_lhs => rw [this]
  | leg j m =>
    obtain rfl : ev' = .leg j m := hev
    rw [← Option.some.inj hs, ← Option.some.inj hs']
    refine ⟨p.ptype, type_modify (type_pushLeg m) p.ctype j, ?_, p.prop, p.on, p.pend, p.off, p.out, p.logq, p.logw, p.log⟩
    have := p.same
    conv_lhs => rw [this]
  | tick =>
    obtain rfl : ev' = .tick := hev
    have hs : e.tick = some a := hs
    have hpend : e'.pending = e.pending := by rw [p.same]
    have henb : e'.enabled = e.enabled := by rw [p.same]
    have hbi : e'.prop.biasInitialized = e.prop.biasInitialized := by rw [p.prop.same]
    have hheap : e'.heap = e.heap := by rw [p.same]
    cases hp : e.pending with
    | some k =>
      obtain ⟨hen, hrun, w, hw⟩ := i.pend k hp
      obtain ⟨g, -⟩ := i.idle hen
      obtain ⟨g', -⟩ := i'.idle (henb.trans hen)
      rw [hheap] at g'
      obtain ⟨b, b', h1, h2, h3⟩ := hpar_initFrom ok i.rc i.vc i.pc p.ptype p.ctype p.same p.prop p.out p.logq p.logw p.log hen g g'
        (p.pend (by rw [hp]; simp)) hw k
      unfold Estimator.tick at hs
      rw [hp] at hs
      simp only at hs
      rw [h1] at hs; cases hs
      refine hrest (b := b') ?_ h3
      show e'.tick = _
      unfold Estimator.tick; rw [hpend, hp]; exact h2
    | none =>
      cases hen : e.enabled with
      | true =>
        obtain ⟨b, b', h1, h2, h3⟩ := hpar_runOnce ok i p hen
        have k1 : e.tick = e.runOnce := by unfold Estimator.tick; rw [hp, hen]; rfl
        have k2 : e'.tick = e'.runOnce := by unfold Estimator.tick; rw [hpend, hp, henb, hen]; rfl
        rw [k1, h1] at hs; cases hs
        exact hrest (b := b') (k2.trans h2) h3
      | false =>
        by_cases hB : e.prop.biasInitialized = true
        · obtain ⟨b, b', h1, h2, h3⟩ := hpar_initState ok i i' p hen hp
          have k1 : e.tick = e.initState := by unfold Estimator.tick; rw [hp, hen, hB]; rfl
          have k2 : e'.tick = e'.initState := by unfold Estimator.tick; rw [hpend, hp, henb, hen, hbi, hB]; rfl
          rw [k1, h1] at hs; cases hs
          exact hrest (b := b') (k2.trans h2) h3
        · have hB' : e.prop.biasInitialized = false := by simpa using hB
          have k1 : e.tick = e.initBias := by unfold Estimator.tick; rw [hp, hen, hB']; rfl
          have k2 : e'.tick = e'.initBias := by unfold Estimator.tick; rw [hpend, hp, henb, hen, hbi, hB']; rfl
          rw [k1] at hs
          obtain ⟨b', h2, h3⟩ := hpar_initBias ok p hs
          exact hrest (b := b') (k2.trans h2) h3
  | clear =>
    obtain rfl : ev' = .clear := hev
    have hpend : e'.pending = e.pending := by rw [p.same]
    have hs : (match e.pending with | none => some e.clear | some _ => some e) = some a := hs
    cases hp : e.pending with
    | some k =>
      rw [hp] at hs
      simp only [Option.some.injEq] at hs
      subst hs
      refine hrest (b := e') ?_ p
      show (match e'.pending with | none => some e'.clear | some _ => some e') = some e'
      rw [hpend, hp]
    | none =>
      rw [hp] at hs
      simp only [Option.some.injEq] at hs
      subst hs
      refine hrest (b := e'.clear) ?_ ?_
      · show (match e'.pending with | none => some e'.clear | some _ => some e') = _
        rw [hpend, hp]
      · have hsame : e'.state = { e.state with X := e'.state.X, P := e'.state.P } := by
          cases hen : e.enabled with
          | true =>
            obtain ⟨K, r⟩ := p.on hen
            exact r.same
          | false =>
            rw [(p.off hen hp).1]
        refine ⟨p.ptype, ?_, ?_, ⟨?_, .nil, p.prop.prev⟩, by simp [Estimator.clear], fun h => absurd hp h, fun _ _ => ⟨?_, clear_vel _⟩, .nil, ?_, ?_, ?_⟩
        · intro c hc
          obtain ⟨d, hd, rfl⟩ := List.mem_map.mp hc
          rw [type_clear]; exact p.ctype d hd
        · have := p.same
          show Estimator.clear e' = _
          conv_lhs => rw [this]
          rfl
        · have := p.prop.same
          show ImuProp.clear e'.prop = _
          conv_lhs => rw [this]
          rfl
        · show e'.state.clear = e.state.clear
          rw [hsame]; rfl
        · show List.Forall₂ _ e.log.clear.queue e'.log.clear.queue
          rw [logClear_queue, logClear_queue]; exact .nil
        · show List.Forall₂ _ e.log.clear.written e'.log.clear.written
          rw [clear_written, clear_written]; exact p.logw
        · show e'.log.clear = { e.log.clear with queue := e'.log.clear.queue, written := e'.log.clear.written }
          have hl := p.log
          have hen : e'.log.enabled = e.log.enabled := by rw [hl]
          unfold Logger.clear
          simp only [hen]
          by_cases h : e.log.enabled = true
          · rw [if_pos h, if_pos h]
            conv_lhs => rw [hl]
          · rw [if_neg h, if_neg h]
            conv_lhs => rw [hl]
  | log =>
    obtain rfl : ev' = .log := hev
    have hs : e.log.iter.map _ = some a := hs
    simp only [Option.map_eq_some_iff] at hs
    obtain ⟨l, hl, rfl⟩ := hs
    obtain ⟨l', h1, h2, h3, h4⟩ := hpar_log ok.rot p.logq p.logw p.log hl
    refine hrest (b := { e' with log := l' }) ?_ ⟨p.ptype, p.ctype, ?_, p.prop, p.on, p.pend, p.off, p.out, h2, h3, h4⟩
    · show e'.log.iter.map _ = _
      rw [h1]; rfl
    · have := p.same
      conv_lhs => rw [this]
  | consume =>
    obtain rfl : ev' = .consume := hev
    rw [← Option.some.inj hs, ← Option.some.inj hs']
    refine ⟨p.ptype, p.ctype, ?_, p.prop, p.on, p.pend, p.off, ?_, p.logq, p.logw, p.log⟩
    · have := p.same
      conv_lhs => rw [this]
    · show List.Forall₂ _ e.outQ.tail e'.outQ.tail
      have := p.out
      cases h : e.outQ with
      | nil => rw [h] at this; cases h2 : e'.outQ with
        | nil => exact .nil
        | cons a b => rw [h2] at this; cases this
      | cons a b => rw [h] at this; cases h2 : e'.outQ with
        | nil => rw [h2] at this; cases this
        | cons c d => rw [h2] at this; cases this; assumption

/-- the configuration members of the propagation never change -/
theorem step_config {e a : Estimator} {ev : EstEv} {fut : List ImuMeas} (i : EstInv fut e) (h : e.step ev = some a) :
    a.prop.useImuOri = e.prop.useImuOri ∧ a.prop.staticInit = e.prop.staticInit ∧ a.prop.R_imu2body = e.prop.R_imu2body := by
  have hcorr : ∀ k (b : Estimator), e.initFrom k = some b → b.prop = e.prop := by
    intro k b hb
    unfold Estimator.initFrom at hb
    simp only [Option.bind_eq_bind, Option.bind_eq_some_iff] at hb
    obtain ⟨⟨d, t, s⟩, -, hb⟩ := hb
    cases t with
    | nil =>
      simp only [Estimator.finishInit, Option.bind_eq_bind, Option.bind_eq_some_iff] at hb
      obtain ⟨s1, -, s2, -, s3, -, hb⟩ := hb
      rw [← Option.some.inj hb]
    | cons c cs => rw [← Option.some.inj hb]
  cases ev with
  | imu m => rw [← Option.some.inj h]; exact ⟨rfl, rfl, rfl⟩
  | vel j m => rw [← Option.some.inj h]; exact ⟨rfl, rfl, rfl⟩
  | leg j m => rw [← Option.some.inj h]; exact ⟨rfl, rfl, rfl⟩
  | consume => rw [← Option.some.inj h]; exact ⟨rfl, rfl, rfl⟩
  | log =>
    have h : e.log.iter.map _ = some a := h
    simp only [Option.map_eq_some_iff] at h
    obtain ⟨l, -, rfl⟩ := h
    exact ⟨rfl, rfl, rfl⟩
  | clear =>
    have h : (match e.pending with | none => some e.clear | some _ => some e) = some a := h
    cases hp : e.pending with
    | none => rw [hp] at h; rw [← Option.some.inj h]; exact ⟨rfl, rfl, rfl⟩
    | some k => rw [hp] at h; rw [← Option.some.inj h]; exact ⟨rfl, rfl, rfl⟩
  | tick =>
    have h : e.tick = some a := h
    unfold Estimator.tick at h
    cases hp : e.pending with
    | some k => rw [hp] at h; rw [hcorr k a h]; exact ⟨rfl, rfl, rfl⟩
    | none =>
      rw [hp] at h
      simp only at h
      split_ifs at h with h1 h2
      · obtain ⟨-, tp, m, htp, hm, hle, ht⟩ := i.run h1
        obtain ⟨K, g⟩ := i.good
        unfold Estimator.runOnce at h
        simp only [Option.bind_eq_bind, Option.bind_eq_some_iff] at h
        obtain ⟨⟨b, p, s⟩, hpr, ⟨b', cs, hh, s'⟩, -, h⟩ := h
        obtain ⟨b0, p0, s0, e10, g10, q1, q2⟩ := prop_good g i.noise hm htp hle
        have u := Option.some.inj (e10.symm.trans hpr)
        simp only [Prod.mk.injEq] at u
        obtain ⟨rfl, rfl, rfl⟩ := u
        have hpp : p0.useImuOri = e.prop.useImuOri ∧ p0.staticInit = e.prop.staticInit ∧ p0.R_imu2body = e.prop.R_imu2body := by
          obtain ⟨bu, hb⟩ : ∃ bu, e.prop.buffer = bu := ⟨_, rfl⟩
          cases bu with
          | nil => rw [(q1 hb).2.1]; exact ⟨rfl, rfl, rfl⟩
          | cons f rest => rw [(q2 f rest hb).2.1]; exact ⟨rfl, rfl, rfl⟩
        simp only at h
        split_ifs at h
        · rw [← Option.some.inj h]; exact hpp
        · rw [← Option.some.inj h]; exact hpp
      · unfold Estimator.initState at h
        simp only [Option.bind_eq_bind, Option.bind_eq_some_iff] at h
        obtain ⟨⟨b, p, s⟩, hpr, h⟩ := h
        have hpp : p.useImuOri = e.prop.useImuOri ∧ p.staticInit = e.prop.staticInit ∧ p.R_imu2body = e.prop.R_imu2body := by
          unfold ImuProp.setInitialState at hpr
          split at hpr
          · simp only [Option.some.injEq, Prod.mk.injEq] at hpr
            rw [← hpr.2.1]; exact ⟨rfl, rfl, rfl⟩
          · simp only [Option.bind_eq_bind, Option.bind_eq_some_iff] at hpr
            obtain ⟨s1, -, s2, -, s3, -, s4, -, s5, -, s6, -, hpr⟩ := hpr
            simp only [Option.some.injEq, Prod.mk.injEq] at hpr
            rw [← hpr.2.1]; exact ⟨rfl, rfl, rfl⟩
        simp only at h
        split_ifs at h
        · unfold Estimator.initFrom at h
          simp only [Option.bind_eq_bind, Option.bind_eq_some_iff] at h
          obtain ⟨⟨d, t, s⟩, -, h⟩ := h
          cases t with
          | nil =>
            simp only [Estimator.finishInit, Option.bind_eq_bind, Option.bind_eq_some_iff] at h
            obtain ⟨s1, -, s2, -, s3, -, h⟩ := h
            rw [← Option.some.inj h]; exact hpp
          | cons c cs => rw [← Option.some.inj h]; exact hpp
        · rw [← Option.some.inj h]; exact hpp
      · unfold Estimator.initBias at h
        simp only [Option.map_eq_some_iff] at h
        obtain ⟨q, hq, rfl⟩ := h
        unfold ImuProp.initImuBias at hq
        split_ifs at hq
        · rw [← Option.some.inj hq]; exact ⟨rfl, rfl, rfl⟩
        · cases hb : e.prop.buffer with
          | nil => rw [hb] at hq; rw [← Option.some.inj hq]; exact ⟨rfl, rfl, rfl⟩
          | cons m rest => rw [hb] at hq; rw [← Option.some.inj hq]; exact ⟨rfl, rfl, rfl⟩
        · rw [← Option.some.inj hq]; exact ⟨rfl, rfl, rfl⟩

theorem hpar_run {Q : M3} {et : ErrorType} {uo : Bool} (evs : List EstEv) : ∀ {evs' : List EstEv} {fut fut' : List ImuMeas} {e e' : Estimator} (_ : TurnOK Q e.prop)
    (_ : e.prop.useImuOri = uo) (_ : List.Forall₂ (EvTurn uo Q) evs evs') (_ : EstInv (imuArrivals evs ++ fut) e) (_ : EstInv (imuArrivals evs' ++ fut') e')
    (_ : HPar Q et e e'), ∃ a a', e.run evs = some a ∧ e'.run evs' = some a' ∧ HPar Q et a a' := by
  induction evs with
  | nil => intro evs' fut fut' e e' _ _ hf _ _ p; cases hf; exact ⟨e, e', rfl, rfl, p⟩
  | cons ev evs ih =>
    intro evs' fut fut' e e' ok hu hf i i' p
    cases hf with
    | cons hev hf =>
    rename_i ev' evs'
    rw [imuArrivals_cons, List.append_assoc] at i i'
    obtain ⟨a, h1, i1⟩ := step_inv ev i
    obtain ⟨a', h1', i1'⟩ := step_inv ev' i'
    have p1 := hpar_step ok (by rw [hu]; exact hev) i i' p h1 h1'
    obtain ⟨c1, c2, c3⟩ := step_config i h1
    have ok1 : TurnOK Q a.prop := ⟨ok.rot, ok.grav, by rw [c1]; exact ok.ori, by rw [c1, c2, c3]; exact ok.bias⟩
    obtain ⟨b, b', h2, h2', p2⟩ := ih ok1 (c1.trans hu) hf i1 i1' p1
    exact ⟨b, b', by simp [Estimator.run, h1, h2], by simp [Estimator.run, h1', h2'], p2⟩

end Drift
