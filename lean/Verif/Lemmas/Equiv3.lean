import Verif.Lemmas.Equiv2

/-! # Lemmas: simulation between the left- and the right-invariant estimator -/
set_option linter.unusedSimpArgs false
namespace Drift
open Mat Matrix RobotState Finset

/-- at rest in the origin with isotropic blocks, left and right covariance coincide -/
theorem adjRelated_rest {X P : Mat} (hX : IsSEK 2 X) (h3 : X.blkV 0 3 = 0) (h4 : X.blkV 0 4 = 0) (pr : P.rows = 15) (pc : P.cols = 15)
    (hb : BlockDiag3 P) {a b c : ℝ} (e0 : P.blk3 0 0 = a • (1 : M3)) (e1 : P.blk3 3 3 = b • (1 : M3)) (e2 : P.blk3 6 6 = c • (1 : M3)) :
    AdjRelated 2 X P P := by
  rw [adjRelated_iff hX, EA_eq]
  have hP : P = ofBlk 5 5 fun i j => P.blk3 (3 * i) (3 * j) := eq_ofBlk pr pc
  have hz : ∀ i j, i ≠ j → P.blk3 (3 * i) (3 * j) = 0 := by
    intro i j hij
    funext k l
    have hk := k.2; have hl := l.2
    rw [blk3_apply]
    exact hb _ _ (by omega)
  have hR := hX.rot
  have hRR : X.blk3 0 0 * (X.blk3 0 0)ᵀ = 1 := hR.2.1
  have hc : ∀ x : ℝ, X.blk3 0 0 * (x • (1 : M3)) * (X.blk3 0 0)ᵀ = x • (1 : M3) := by
    intro x; rw [Matrix.mul_smul, Matrix.mul_one, Matrix.smul_mul, hRR]
  have hs : skew (0 : V3) = 0 := by ext i j; fin_cases i <;> fin_cases j <;> simp [skew]
  rw [hP, ofBlk_mul, ofBlk_T, ofBlk_mul]
  refine ofBlk_congr fun i j hi hj => ?_
  have hle : ∀ i j, i < 5 → j < 5 → legEaF 2 X i j = if i = j then (if i ≤ 2 then X.blk3 0 0 else 1) else 0 := by
    intro i j hi hj
    have k3 : X.blkV 0 (3 + 0) = 0 := h3
    have k4 : X.blkV 0 (3 + 1) = 0 := h4
    unfold legEaF adjF
    interval_cases i <;> interval_cases j <;> simp [k3, k4, hs]
  have hrow : ∀ k, k < 5 → (∑ l ∈ range (2 + 3), legEaF 2 X i l * P.blk3 (3 * l) (3 * k)) = (if i ≤ 2 then X.blk3 0 0 else 1) * P.blk3 (3 * i) (3 * k) := by
    intro k hk
    rw [Finset.sum_eq_single i]
    · rw [hle i i hi hi, if_pos rfl]
    · intro l hl hne
      rw [hle i l hi (by simpa using hl), if_neg (fun q => hne q.symm), Matrix.zero_mul]
    · intro h; exact absurd (Finset.mem_range.mpr hi) h
  rw [Finset.sum_eq_single j]
  · rw [hrow j hj, hle j j hj hj, if_pos rfl]
    by_cases hij : i = j
    · subst hij
      by_cases h2 : i ≤ 2
      · rw [if_pos h2]
        have : ∃ x : ℝ, P.blk3 (3 * i) (3 * i) = x • (1 : M3) := by
          interval_cases i
          · exact ⟨a, e0⟩
          · exact ⟨b, e1⟩
          · exact ⟨c, e2⟩
        obtain ⟨x, hx⟩ := this
        rw [hx, hc]
      · rw [if_neg h2]; simp
    · rw [hz i j hij]; simp
  · intro k hk hne
    rw [hle j k hj (by simpa using hk), if_neg (fun q => hne q.symm)]
    simp
  · intro h; exact absurd (Finset.mem_range.mpr hj) h

/-- left and right estimator in step -/
structure Par (eL eR : Estimator) : Prop where
  left : IsLeft eL
  ety : eR.errorType = .rightInvariant
  prop : eR.prop = { eL.prop with errorType := .rightInvariant }
  corrs : eR.corrs = eL.corrs.map Corr.asRight
  heap : eR.heap = eL.heap
  enabled : eR.enabled = eL.enabled
  pending : eR.pending = eL.pending
  rc : eR.rotCov = eL.rotCov
  vc : eR.velCov = eL.velCov
  pc : eR.posCov = eL.posCov
  same : SameMean eL.state eR.state
  on : eL.enabled = true → ∃ K, AdjRelated K eL.state.X eL.state.P eR.state.P
  off : eL.enabled = false → eR.state.P = eL.state.P
  pos : eL.pending ≠ none → eL.state.get_position = some 0
  out : List.Forall₂ SameMean eL.outQ eR.outQ
  logq : List.Forall₂ SameMean eL.log.queue eR.log.queue
  log : eR.log = { eL.log with queue := eR.log.queue }

theorem asRight_clear (c : Corr) : c.asRight.clear = c.clear.asRight := by cases c <;> rfl
theorem asRight_pushVel (m) (c : Corr) : c.asRight.pushVel m = (c.pushVel m).asRight := by cases c <;> rfl
theorem asRight_pushLeg (m) (c : Corr) : c.asRight.pushLeg m = (c.pushLeg m).asRight := by cases c <;> rfl
theorem type_clear (c : Corr) : c.clear.type = c.type := by cases c <;> rfl
theorem type_pushVel (m) (c : Corr) : (c.pushVel m).type = c.type := by cases c <;> rfl
theorem type_pushLeg (m) (c : Corr) : (c.pushLeg m).type = c.type := by cases c <;> rfl

theorem map_modify_asRight {f : Corr → Corr} (hf : ∀ c, f (Corr.asRight c) = (f c).asRight) : ∀ (cs : List Corr) (i : ℕ),
    (cs.map Corr.asRight).modify i f = (cs.modify i f).map Corr.asRight := by
  intro cs
  induction cs with
  | nil => intro i; cases i <;> simp
  | cons c cs ih =>
    intro i
    cases i with
    | zero => simp [hf]
    | succ i => simp [ih]

theorem type_modify {f : Corr → Corr} (hf : ∀ c, (f c).type = Corr.type c) {cs : List Corr} {t : ErrorType} (h : ∀ c ∈ cs, c.type = t) (i : ℕ) :
    ∀ c ∈ cs.modify i f, c.type = t := by
  intro c hc
  rcases modify_eq_map f cs i c hc with h1 | ⟨d, h1, rfl⟩
  · exact h c h1
  · rw [hf]; exact h d h1

theorem push_log {l l' : Logger} {s s' : RobotState} (hq : List.Forall₂ SameMean l.queue l'.queue) (hl : l' = { l with queue := l'.queue })
    (hs : SameMean s s') : List.Forall₂ SameMean (l.push s).queue (l'.push s').queue ∧ l'.push s' = { l.push s with queue := (l'.push s').queue } := by
  have he : l'.enabled = l.enabled := by rw [hl]
  unfold Logger.push
  rw [he]
  split_ifs
  · refine ⟨List.rel_append hq (.cons hs .nil), ?_⟩
    show Logger.mk _ _ _ _ _ _ _ _ _ = Logger.mk _ _ _ _ _ _ _ _ _
    rw [hl]
  · exact ⟨hq, hl⟩

theorem par_runOnce {fut : List ImuMeas} {eL eR : Estimator} (iL : EstInv fut eL) (iR : EstInv fut eR) (p : Par eL eR) (hen : eL.enabled = true) :
    ∃ eL' eR', eL.runOnce = some eL' ∧ eR.runOnce = some eR' ∧ Par eL' eR' := by
  obtain ⟨K, hrel⟩ := p.on hen
  obtain ⟨KL, gL⟩ := iL.good
  obtain ⟨KR, gR⟩ := iR.good
  obtain ⟨A, hA, hP⟩ := hrel
  have hX : eR.state.X = eL.state.X := by rw [p.same]
  have hK : KR = KL := by
    have h1 := gL.shape.x.rows; have h2 := gR.shape.x.rows
    rw [hX] at h2; omega
  subst hK
  have hKK : K = KR := by
    have h1 := gR.shape.pr
    rw [hP] at h1
    simp at h1; omega
  subst hKK
  rw [p.heap] at gR
  have r : StRel K eL.heap eL.state eR.state := ⟨gL, gR, p.same, A, hA, hP⟩
  obtain ⟨hpend, tp, m, htp, hm, hle, ht⟩ := iL.run hen
  obtain ⟨b, p', sL1, sR1, e1, e2, r1, l1, tp', ht'⟩ := prop_rel r iL.noise p.left.prop hm htp hle
  obtain ⟨b0, p0, s0, e10, g10, q1, q2⟩ := prop_good gL iL.noise hm htp hle
  have u := Option.some.inj (e10.symm.trans e1)
  simp only [Prod.mk.injEq] at u
  obtain ⟨rfl, rfl, rfl⟩ := u
  have hcm : s0.colMap = eL.state.colMap := by
    obtain ⟨bu, hb⟩ : ∃ bu, eL.prop.buffer = bu := ⟨_, rfl⟩
    cases bu with
    | nil => rw [(q1 hb).2.2]
    | cons f rest => exact (q2 f rest hb).2.2.2.2
  have hc1 : CorrsOK s0 eL.corrs := ⟨fun c hc => (iL.corrs.each c hc).keep (by rw [hcm]; exact (iL.corrs.each c hc).ids.mem), iL.corrs.disj⟩
  obtain ⟨b', cs', h', sL2, sR2, K', f1, f2, r2, l2⟩ := correctAll_rel eL.corrs r1 hc1 p.left.corrs ht'
  have hsm : SameMean sL2 sR2 := r2.same
  have e2' : eR.prop.propagate eR.state = some (b0, { p0 with errorType := .rightInvariant }, sR1) := by rw [p.prop]; exact e2
  have f2' : Estimator.correctAll eR.corrs eR.heap sR1 = some (b', cs'.map Corr.asRight, h', sR2) := by rw [p.corrs, p.heap]; exact f2
  by_cases hbb : (b0 || b') = true
  · obtain ⟨k1, k2⟩ := push_log p.logq p.log hsm
    refine ⟨{ eL with prop := p0, corrs := cs', heap := h', state := sL2, outQ := eL.outQ ++ [sL2], log := eL.log.push sL2 },
      { eR with
          prop := { p0 with errorType := .rightInvariant }
          corrs := cs'.map Corr.asRight
          heap := h'
          state := sR2
          outQ := eR.outQ ++ [sR2]
          log := eR.log.push sR2 }, ?_, ?_, ?_⟩
    · simp only [Estimator.runOnce, e10, f1, Option.bind_eq_bind, Option.bind_some, hbb, if_true]
    · simp only [Estimator.runOnce, e2', f2', Option.bind_eq_bind, Option.bind_some, hbb, if_true]
    · exact ⟨⟨p.left.self, l1, l2⟩, p.ety, rfl, rfl, rfl, p.enabled, p.pending, p.rc, p.vc, p.pc, hsm, fun _ => ⟨K', r2.rel⟩,
        fun h => absurd (hen.symm.trans h) (by simp), fun h => absurd hpend h, List.rel_append p.out (.cons hsm .nil), k1, k2⟩
  · have hb' : (b0 || b') = false := by simpa using hbb
    refine ⟨{ eL with prop := p0, corrs := cs', heap := h', state := sL2 },
      { eR with
          prop := { p0 with errorType := .rightInvariant }
          corrs := cs'.map Corr.asRight
          heap := h'
          state := sR2 }, ?_, ?_, ?_⟩
    · simp only [Estimator.runOnce, e10, f1, Option.bind_eq_bind, Option.bind_some, hb', if_false, Bool.false_eq_true]
    · simp only [Estimator.runOnce, e2', f2', Option.bind_eq_bind, Option.bind_some, hb', if_false, Bool.false_eq_true]
    · exact ⟨⟨p.left.self, l1, l2⟩, p.ety, rfl, rfl, rfl, p.enabled, p.pending, p.rc, p.vc, p.pc, hsm, fun _ => ⟨K', r2.rel⟩,
        fun h => absurd (hen.symm.trans h) (by simp), fun h => absurd hpend h, p.out, p.logq, p.log⟩

theorem setInitial_asRight (c : Corr) (s : RobotState) :
    c.asRight.setInitial s = (c.setInitial s).map fun r => (r.1, r.2.1.asRight, r.2.2) := by
  cases c with
  | vel c =>
    show (VelCorr.setInitial { c with errorType := .rightInvariant } s).map _ = ((c.setInitial s).map _).map _
    unfold VelCorr.setInitial
    show Option.map _ (match c.buffer.getLast? with | none => _ | some m => _) = _
    cases c.buffer.getLast? with
    | none => rfl
    | some m =>
      simp only [Option.bind_eq_bind]
      cases s.get_rotation with
      | none => rfl
      | some R =>
        simp only [Option.bind_some]
        cases s.set_velocity (R.mulVec m.vel) with
        | none => rfl
        | some s => rfl
  | leg c =>
    show (LegCorr.setInitial { c with errorType := .rightInvariant } s).map _ = ((c.setInitial s).map _).map _
    unfold LegCorr.setInitial
    show Option.map _ (match c.buffer.getLast? with | none => _ | some m => _) = _
    cases c.buffer.getLast? with
    | none => rfl
    | some m =>
      simp only [Option.bind_eq_bind]
      cases s.bodyAngVel with
      | none => rfl
      | some w =>
        simp only [Option.bind_some]
        cases s.get_rotation with
        | none => rfl
        | some R =>
          simp only [Option.bind_some]
          cases s.set_velocity (R.mulVec (m.initVel w)) with
          | none => rfl
          | some s => rfl

theorem initCorrs_asRight (cs : List Corr) : ∀ (done : List Corr) (s : RobotState),
    Estimator.initCorrs (done.map Corr.asRight) (cs.map Corr.asRight) s =
      (Estimator.initCorrs done cs s).map fun r => (r.1.map Corr.asRight, r.2.1.map Corr.asRight, r.2.2) := by
  induction cs with
  | nil => intro done s; rfl
  | cons c cs ih =>
    intro done s
    simp only [List.map_cons, Estimator.initCorrs, setInitial_asRight, Option.bind_eq_bind]
    cases c.setInitial s with
    | none => rfl
    | some r =>
      obtain ⟨b, c', s'⟩ := r
      simp only [Option.map_some, Option.bind_some]
      cases b with
      | false => rfl
      | true =>
        simp only [if_true]
        rw [← ih]; simp

theorem type_drained (c : Corr) : c.drained.type = c.type := by cases c <;> rfl

theorem setInitialState_asRight (p : ImuProp) (s : RobotState) :
    ImuProp.setInitialState { p with errorType := .rightInvariant } s =
      (p.setInitialState s).map fun r => (r.1, { r.2.1 with errorType := .rightInvariant }, r.2.2) := by
  obtain ⟨et, bu, p3, p4, p5, p6, p7, p8, p9, p10, p11, p12, p13, p14, p15, p16, p17⟩ := p
  unfold ImuProp.setInitialState
  cases bu with
  | nil => rfl
  | cons m rest =>
    simp only [Option.bind_eq_bind]
    simp only [Option.map_bind, Function.comp_def, Option.map_some]

theorem initImuBias_asRight (p : ImuProp) :
    ImuProp.initImuBias { p with errorType := .rightInvariant } = p.initImuBias.map fun r => { r with errorType := .rightInvariant } := by
  obtain ⟨et, bu, p3, p4, p5, p6, p7, p8, p9, p10, p11, p12, p13, p14, p15, p16, p17⟩ := p
  unfold ImuProp.initImuBias
  by_cases h1 : p13 = false
  · simp only [if_pos h1, Option.map_some]
  · by_cases h2 : p17.length < ImuProp.toSizeT p16
    · simp only [if_neg h1, if_pos h2]
      cases bu <;> rfl
    · by_cases h3 : p17.length = 0
      · simp only [if_neg h1, if_neg h2, if_pos h3, Option.map_none]
      · simp only [if_neg h1, if_neg h2, if_neg h3, Option.map_some]

theorem par_initFrom {fut : List ImuMeas} {eL eR : Estimator} (iL : EstInv fut eL) (p : Par eL eR) (hen : eL.enabled = false)
    (hpos : eL.state.get_position = some 0) {w : V3} (hw : eL.state.bodyAngVel = some w) (k : ℕ) {eL' : Estimator}
    (hs : eL.initFrom k = some eL') (hz : eL'.enabled = true → eL'.state.get_velocity = some 0) :
    ∃ eR', eR.initFrom k = some eR' ∧ Par eL' eR' := by
  have hst : eR.state = eL.state := by rw [p.same, p.off hen]
  obtain ⟨g, hrefs⟩ := iL.idle hen
  have x1 := g.good.shape.x.rows; have x2 := g.good.shape.x.cols
  have e0 : eL.state.get_rotation = some (eL.state.X.blk3 0 0) := blk3?_eq (by omega) (by omega)
  obtain ⟨s', g', f', r', p', t', pre, post, q1, q2, q3, q4, q5⟩ := initCorrs_ok (eL.corrs.drop k) (eL.corrs.take k) g hw e0
  have hq4 : Estimator.initCorrs (eR.corrs.take k) (eR.corrs.drop k) eR.state =
      some ((eL.corrs.take k ++ pre.map Corr.drained).map Corr.asRight, post.map Corr.asRight, s') := by
    rw [p.corrs, hst, ← List.map_take, ← List.map_drop, initCorrs_asRight, q4]; rfl
  have htype : ∀ c ∈ eL.corrs.take k ++ pre.map Corr.drained ++ post, c.type = .leftInvariant := by
    have hd : ∀ c ∈ pre ++ post, c ∈ eL.corrs := fun c hc => List.mem_of_mem_drop (q1 ▸ hc)
    intro c hc
    simp only [List.mem_append, List.mem_map] at hc
    rcases hc with (hc | ⟨d, hd1, rfl⟩) | hc
    · exact p.left.corrs c (List.mem_of_mem_take hc)
    · rw [type_drained]; exact p.left.corrs d (hd d (by simp [hd1]))
    · exact p.left.corrs c (hd c (by simp [hc]))
  cases hpost : post with
  | nil =>
    subst hpost
    obtain ⟨s1, s2, s3, c1, c2, c3, g3, fr, d1, d2, d3, -⟩ := finishInit_ok g' iL.rc iL.vc iL.pc
    have hL : eL.initFrom k = some { eL with corrs := eL.corrs.take k ++ pre.map Corr.drained ++ [], state := s3, outQ := eL.outQ ++ [s3], enabled := true, pending := none } := by
      unfold Estimator.initFrom
      rw [q4]
      simp only [Option.bind_eq_bind, Option.bind_some, Estimator.finishInit]
      rw [c1]
      simp only [Option.bind_some]
      rw [c2]
      simp only [Option.bind_some]
      rw [c3]
      rfl
    have hR : eR.initFrom k = some { eR with corrs := (eL.corrs.take k ++ pre.map Corr.drained).map Corr.asRight ++ [], state := s3, outQ := eR.outQ ++ [s3], enabled := true, pending := none } := by
      unfold Estimator.initFrom
      rw [hq4]
      simp only [Option.bind_eq_bind, Option.bind_some, Estimator.finishInit, List.map_nil]
      rw [p.rc, c1]
      simp only [Option.bind_some]
      rw [p.vc, c2]
      simp only [Option.bind_some]
      rw [p.pc, c3]
      rfl
    rw [hL] at hs
    have hs := Option.some.inj hs
    subst hs
    refine ⟨_, hR, ?_⟩
    have hv : s3.get_velocity = some 0 := hz rfl
    have hx : s3.get_position = some 0 := by
      have : s3.get_position = s'.get_position := by rw [fr]; rfl
      rw [this, p', hpos]
    have y1 := g3.good.shape.x.rows; have y2 := g3.good.shape.x.cols
    have z1 := g3.good.shape.pr; have z2 := g3.good.shape.pc
    have a3 : s3.X.blkV 0 3 = 0 := Option.some.inj ((blkV?_eq (A := s3.X) (r := 0) (c := 3) (by omega) (by omega)).symm.trans hv)
    have a4 : s3.X.blkV 0 4 = 0 := Option.some.inj ((blkV?_eq (A := s3.X) (r := 0) (c := 4) (by omega) (by omega)).symm.trans hx)
    have b0 : s3.P.blk3 0 0 = _ := Option.some.inj ((blk3?_eq (A := s3.P) (r := 0) (c := 0) (by omega) (by omega)).symm.trans d1)
    have b1 : s3.P.blk3 3 3 = _ := Option.some.inj ((blk3?_eq (A := s3.P) (r := 3) (c := 3) (by omega) (by omega)).symm.trans d2)
    have b2 : s3.P.blk3 6 6 = _ := Option.some.inj ((blk3?_eq (A := s3.P) (r := 6) (c := 6) (by omega) (by omega)).symm.trans d3)
    refine ⟨⟨p.left.self, p.left.prop, htype⟩, p.ety, p.prop, ?_, p.heap, rfl, rfl, p.rc, p.vc, p.pc, rfl,
      fun _ => ⟨2, adjRelated_rest g3.good.shape.x a3 a4 z1 z2 g3.bd b0 b1 b2⟩, by simp, by simp, List.rel_append p.out (.cons rfl .nil), p.logq, p.log⟩
    simp
  | cons c cs =>
    have hL : eL.initFrom k = some { eL with corrs := eL.corrs.take k ++ pre.map Corr.drained ++ post, state := s', pending := some (eL.corrs.take k ++ pre.map Corr.drained).length } := by
      unfold Estimator.initFrom
      rw [q4]
      simp only [Option.bind_eq_bind, Option.bind_some, hpost]
    have hR : eR.initFrom k = some { eR with corrs := (eL.corrs.take k ++ pre.map Corr.drained).map Corr.asRight ++ post.map Corr.asRight, state := s', pending := some ((eL.corrs.take k ++ pre.map Corr.drained).map Corr.asRight).length } := by
      unfold Estimator.initFrom
      rw [hq4]
      simp only [Option.bind_eq_bind, Option.bind_some, hpost, List.map_cons]
    rw [hL] at hs
    have hs := Option.some.inj hs
    subst hs
    refine ⟨_, hR, ?_⟩
    refine ⟨⟨p.left.self, p.left.prop, htype⟩, p.ety, p.prop, ?_, p.heap, p.enabled, ?_, p.rc, p.vc, p.pc, rfl,
      fun h => absurd (hen.symm.trans h) (by simp), fun _ => rfl, fun _ => p'.trans hpos, p.out, p.logq, p.log⟩
    · simp
    · simp

theorem par_initState {fut : List ImuMeas} {eL eR : Estimator} (iL : EstInv fut eL) (p : Par eL eR) (hen : eL.enabled = false) (hpn : eL.pending = none)
    {eL' : Estimator} (hs : eL.initState = some eL') (hz : eL'.enabled = true → eL'.state.get_velocity = some 0) :
    ∃ eR', eR.initState = some eR' ∧ Par eL' eR' := by
  have hst : eR.state = eL.state := by rw [p.same, p.off hen]
  obtain ⟨g, hrefs⟩ := iL.idle hen
  obtain ⟨bu, hb⟩ : ∃ bu, eL.prop.buffer = bu := ⟨_, rfl⟩
  cases bu with
  | nil =>
    have e1 : eL.prop.setInitialState eL.state = some (false, eL.prop, eL.state) := by unfold ImuProp.setInitialState; rw [hb]
    have e2 : eR.prop.setInitialState eR.state = some (false, eR.prop, eR.state) := by
      rw [p.prop]; unfold ImuProp.setInitialState; rw [hb]
    have h1 : eL.initState = some eL := by unfold Estimator.initState; rw [e1]; rfl
    have h2 : eR.initState = some eR := by unfold Estimator.initState; rw [e2]; rfl
    rw [h1] at hs; cases hs
    exact ⟨eR, h2, p⟩
  | cons m rest =>
    obtain ⟨s1, e1, g1, p1⟩ := propInit_ok g iL.noise hb (iL.ori m (by rw [hb]; simp))
    have e2 : eR.prop.setInitialState eR.state = some (true, { eL.prop with errorType := .rightInvariant, buffer := rest, prev := some m }, s1) := by
      rw [hst, p.prop, setInitialState_asRight, e1]; rfl
    have hL : eL.initState = Estimator.initFrom { eL with prop := { eL.prop with buffer := rest, prev := some m }, state := s1 } 0 := by
      unfold Estimator.initState; rw [e1]; rfl
    have hR : eR.initState = Estimator.initFrom { eR with prop := { eL.prop with errorType := .rightInvariant, buffer := rest, prev := some m }, state := s1 } 0 := by
      unfold Estimator.initState; rw [e2]; rfl
    rw [hL] at hs
    rw [hR]
    have hss := iL.sorted
    rw [hb] at hss
    have hs' := (List.pairwise_append.mp hss).2.1
    simp only [List.cons_append, List.pairwise_cons] at hs'
    refine par_initFrom (fut := fut) (eL := { eL with prop := { eL.prop with buffer := rest, prev := some m }, state := s1 }) ?_ ?_ hen p1.pos p1.w 0 hs hz
    · refine ⟨⟨2, g1.good⟩, corrsOK_of_none (fun c hc => (iL.corrs.each c hc).param) hrefs, iL.noise, iL.rc, iL.vc, iL.pc, iL.bias, ?_, ?_, iL.outs, iL.logs,
        fun _ => ⟨g1, hrefs⟩, ?_, ?_⟩
      · intro x hx
        exact iL.ori x (by rw [hb]; simp at hx ⊢; tauto)
      · show (m :: (rest ++ fut)).Pairwise _
        exact List.pairwise_cons.mpr hs'
      · intro k hk; rw [show eL.pending = some k from hk] at hpn; cases hpn
      · intro h; rw [show eL.enabled = true from h] at hen; cases hen
    · exact ⟨⟨p.left.self, p.left.prop, p.left.corrs⟩, p.ety, rfl, p.corrs, p.heap, p.enabled, p.pending, p.rc, p.vc, p.pc, rfl,
        fun h => absurd (hen.symm.trans h) (by simp), fun _ => rfl, fun h => absurd hpn h, p.out, p.logq, p.log⟩

theorem par_initBias {eL eR : Estimator} (p : Par eL eR) (hen : eL.enabled = false) (hpn : eL.pending = none) {eL' : Estimator}
    (hs : eL.initBias = some eL') : ∃ eR', eR.initBias = some eR' ∧ Par eL' eR' := by
  unfold Estimator.initBias at hs
  simp only [Option.map_eq_some_iff] at hs
  obtain ⟨q, hq, rfl⟩ := hs
  refine ⟨{ eR with prop := { q with errorType := .rightInvariant } }, ?_, ?_⟩
  · unfold Estimator.initBias
    rw [p.prop, initImuBias_asRight, hq]; rfl
  · have hqt : q.errorType = .leftInvariant := by
      have := p.left.prop
      unfold ImuProp.initImuBias at hq
      split_ifs at hq
      · rw [← Option.some.inj hq]; exact this
      · cases hb : eL.prop.buffer with
        | nil => rw [hb] at hq; rw [← Option.some.inj hq]; exact this
        | cons m rest => rw [hb] at hq; rw [← Option.some.inj hq]; exact this
      · rw [← Option.some.inj hq]; exact this
    exact ⟨⟨p.left.self, hqt, p.left.corrs⟩, p.ety, rfl, p.corrs, p.heap, p.enabled, p.pending, p.rc, p.vc, p.pc, p.same, p.on, p.off, p.pos, p.out, p.logq, p.log⟩

theorem row_same {s s' : RobotState} (h : SameMean s s') : s'.t = s.t ∧ s'.get_world_position = s.get_world_position ∧
    s'.get_world_rotation = s.get_world_rotation ∧ s'.get_world_velocity = s.get_world_velocity ∧ s'.get_body_velocity = s.get_body_velocity := by
  rw [h]; exact ⟨rfl, rfl, rfl, rfl, rfl⟩

theorem par_log {l l' a : Logger} (hq : List.Forall₂ SameMean l.queue l'.queue) (hl : l' = { l with queue := l'.queue }) (h : l.iter = some a) :
    ∃ a', l'.iter = some a' ∧ List.Forall₂ SameMean a.queue a'.queue ∧ a' = { a with queue := a'.queue } := by
  obtain ⟨L, hL⟩ : ∃ L, l.queue = L := ⟨_, rfl⟩
  obtain ⟨L', hL'⟩ : ∃ L', l'.queue = L' := ⟨_, rfl⟩
  rw [hL, hL'] at hq
  cases hq with
  | nil =>
    have e1 : l.iter = some l := by unfold Logger.iter; rw [hL]
    have e2 : l'.iter = some l' := by unfold Logger.iter; rw [hL']
    rw [e1] at h; cases h
    exact ⟨l', e2, by rw [hL, hL']; exact .nil, hl⟩
  | cons hs ht =>
    rename_i s s' rest rest'
    obtain ⟨r1, r2, r3, r4, r5⟩ := row_same hs
    have hen : l'.enabled = l.enabled := by rw [hl]
    have hrate : l'.rate = l.rate := by rw [hl]
    have hlp : l'.lastPub = l.lastPub := by rw [hl]
    have hdue : ∀ t q q', Logger.due { l' with queue := q' } t ↔ Logger.due { l with queue := q } t := by
      intro t q q'; unfold Logger.due; simp only [hrate, hlp]
    unfold Logger.iter at h ⊢
    rw [hL] at h
    rw [hL']
    simp only [Option.bind_eq_bind, r1, r2, r3, r4, r5] at h ⊢
    cases ht1 : s.t with
    | none => rw [ht1] at h; cases h
    | some t =>
      rw [ht1] at h
      simp only [Option.bind_some] at h ⊢
      by_cases hd : l.enabled = true ∧ Logger.due { l with queue := rest } t
      · rw [if_pos hd] at h
        rw [if_pos ⟨by rw [hen]; exact hd.1, (hdue t _ _).mpr hd.2⟩]
        simp only [Option.bind_eq_some_iff] at h
        obtain ⟨x1, y1, x2, y2, x3, y3, x4, y4, h⟩ := h
        rw [y1, y2, y3, y4]
        rw [← Option.some.inj h]
        refine ⟨_, rfl, ht, ?_⟩
        rw [hl]
      · rw [if_neg hd] at h
        rw [if_neg (fun q => hd ⟨by rw [← hen]; exact q.1, (hdue t _ _).mp q.2⟩)]
        rw [← Option.some.inj h]
        refine ⟨_, rfl, ht, ?_⟩
        rw [hl]

theorem logClear_eq {l l' : Logger} (hl : l' = { l with queue := l'.queue }) : l'.clear = l.clear := by
  rw [hl]; rfl

theorem logClear_queue (l : Logger) : l.clear.queue = [] := by unfold Logger.clear; simp only; split_ifs <;> rfl

theorem par_step {fut : List ImuMeas} {eL eR : Estimator} (ev : EstEv) (iL : EstInv fut eL) (iR : EstInv fut eR) (p : Par eL eR)
    {eL' : Estimator} (hs : eL.step ev = some eL') (hz : eL.enabled = false → eL'.enabled = true → eL'.state.get_velocity = some 0) :
    ∃ eR', eR.step ev = some eR' ∧ Par eL' eR' := by
  cases ev with
  | imu m =>
    rw [← Option.some.inj hs]
    refine ⟨_, rfl, ⟨p.left.self, p.left.prop, p.left.corrs⟩, p.ety, ?_, p.corrs, p.heap, p.enabled, p.pending, p.rc, p.vc, p.pc, p.same, p.on, p.off, p.pos, p.out, p.logq, p.log⟩
    simp only [p.prop]
  | vel i m =>
    rw [← Option.some.inj hs]
    refine ⟨_, rfl, ⟨p.left.self, p.left.prop, type_modify (type_pushVel m) p.left.corrs i⟩, p.ety, p.prop, ?_, p.heap, p.enabled, p.pending, p.rc, p.vc, p.pc, p.same, p.on, p.off, p.pos, p.out, p.logq, p.log⟩
    simp only [p.corrs]
    exact map_modify_asRight (asRight_pushVel m) _ _
  | leg i m =>
    rw [← Option.some.inj hs]
    refine ⟨_, rfl, ⟨p.left.self, p.left.prop, type_modify (type_pushLeg m) p.left.corrs i⟩, p.ety, p.prop, ?_, p.heap, p.enabled, p.pending, p.rc, p.vc, p.pc, p.same, p.on, p.off, p.pos, p.out, p.logq, p.log⟩
    simp only [p.corrs]
    exact map_modify_asRight (asRight_pushLeg m) _ _
  | tick =>
    have hs : eL.tick = some eL' := hs
    show ∃ eR', eR.tick = some eR' ∧ _
    unfold Estimator.tick at hs ⊢
    rw [p.pending]
    cases hp : eL.pending with
    | some k =>
      rw [hp] at hs
      obtain ⟨hen, hrun, w, hw⟩ := iL.pend k hp
      exact par_initFrom iL p hen (p.pos (by rw [hp]; simp)) hw k hs (hz hen)
    | none =>
      rw [hp] at hs
      simp only [p.enabled] at hs ⊢
      cases hen : eL.enabled with
      | true =>
        rw [hen] at hs
        simp only [if_true] at hs ⊢
        obtain ⟨a, b, h1, h2, h3⟩ := par_runOnce iL iR p hen
        rw [h1] at hs; cases hs
        exact ⟨b, h2, h3⟩
      | false =>
        have hbi : eR.prop.biasInitialized = eL.prop.biasInitialized := by rw [p.prop]
        rw [hen] at hs
        simp only [if_false, Bool.false_eq_true, hbi] at hs ⊢
        by_cases hB : eL.prop.biasInitialized = true
        · rw [if_pos hB] at hs ⊢
          exact par_initState iL p hen hp hs (hz hen)
        · rw [if_neg hB] at hs ⊢
          exact par_initBias p hen hp hs
  | clear =>
    have hs : (match eL.pending with | none => some eL.clear | some _ => some eL) = some eL' := hs
    show ∃ eR', (match eR.pending with | none => some eR.clear | some _ => some eR) = some eR' ∧ _
    rw [p.pending]
    cases hp : eL.pending with
    | some k => rw [hp] at hs; cases hs; exact ⟨eR, rfl, p⟩
    | none =>
      rw [hp] at hs
      rw [← Option.some.inj hs]
      refine ⟨_, rfl, ⟨p.left.self, p.left.prop, ?_⟩, p.ety, ?_, ?_, p.heap, rfl, p.pending, p.rc, p.vc, p.pc, ?_, by simp [Estimator.clear], ?_, ?_, .nil, ?_, ?_⟩
      · intro c hc
        obtain ⟨d, hd, rfl⟩ := List.mem_map.mp hc
        rw [type_clear]; exact p.left.corrs d hd
      · simp only [Estimator.clear, ImuProp.clear, p.prop]
      · simp only [Estimator.clear, p.corrs, List.map_map]
        exact List.map_congr_left fun c _ => asRight_clear c
      · show SameMean eL.state.clear eR.state.clear
        have := p.same
        rw [this]; rfl
      · intro _
        show eR.state.clear.P = eL.state.clear.P
        rfl
      · intro h; exact absurd hp h
      · show List.Forall₂ _ eL.log.clear.queue eR.log.clear.queue
        rw [logClear_queue, logClear_queue]; exact .nil
      · show eR.log.clear = { eL.log.clear with queue := eR.log.clear.queue }
        rw [logClear_eq p.log]
  | log =>
    have hs : eL.log.iter.map _ = some eL' := hs
    simp only [Option.map_eq_some_iff] at hs
    obtain ⟨a, ha, rfl⟩ := hs
    obtain ⟨a', h1, h2, h3⟩ := par_log p.logq p.log ha
    refine ⟨{ eR with log := a' }, ?_, ⟨p.left.self, p.left.prop, p.left.corrs⟩, p.ety, p.prop, p.corrs, p.heap, p.enabled, p.pending, p.rc, p.vc, p.pc, p.same, p.on, p.off, p.pos, p.out, h2, h3⟩
    show eR.log.iter.map _ = _
    rw [h1]; rfl
  | consume =>
    rw [← Option.some.inj hs]
    refine ⟨_, rfl, ⟨p.left.self, p.left.prop, p.left.corrs⟩, p.ety, p.prop, p.corrs, p.heap, p.enabled, p.pending, p.rc, p.vc, p.pc, p.same, p.on, p.off, p.pos, ?_, p.logq, p.log⟩
    show List.Forall₂ SameMean eL.outQ.tail eR.outQ.tail
    have := p.out
    cases h : eL.outQ with
    | nil => rw [h] at this; cases h2 : eR.outQ with
      | nil => exact .nil
      | cons a b => rw [h2] at this; cases this
    | cons a b => rw [h] at this; cases h2 : eR.outQ with
      | nil => rw [h2] at this; cases this
      | cons c d => rw [h2] at this; cases this; assumption

theorem par_run (evs : List EstEv) : ∀ {fut : List ImuMeas} {eL eR : Estimator} (_ : EstInv (imuArrivals evs ++ fut) eL)
    (_ : EstInv (imuArrivals evs ++ fut) eR) (_ : Par eL eR) (_ : StartsAtRest eL evs),
    ∃ eL' eR', eL.run evs = some eL' ∧ eR.run evs = some eR' ∧ Par eL' eR' ∧ EstInv fut eL' ∧ EstInv fut eR' := by
  induction evs with
  | nil => intro fut eL eR iL iR p _; exact ⟨eL, eR, rfl, rfl, p, by simpa [imuArrivals] using iL, by simpa [imuArrivals] using iR⟩
  | cons ev evs ih =>
    intro fut eL eR iL iR p hz
    rw [imuArrivals_cons, List.append_assoc] at iL iR
    obtain ⟨eL1, h1, i1⟩ := step_inv ev iL
    obtain ⟨hz1, hz2⟩ := hz eL1 h1
    obtain ⟨eR0, k1, j1⟩ := step_inv ev iR
    obtain ⟨eR1, h2, p1⟩ := par_step ev iL iR p h1 hz1
    rw [k1] at h2; cases h2
    obtain ⟨eL2, eR2, a1, a2, a3, a4, a5⟩ := ih i1 j1 p1 hz2
    exact ⟨eL2, eR2, by simp [Estimator.run, h1, a1], by simp [Estimator.run, k1, a2], a3, a4, a5⟩

end Drift
