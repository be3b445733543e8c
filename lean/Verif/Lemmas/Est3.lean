import Verif.Lemmas.Est2

/-! # Lemmas: the invariant of the estimator over whole histories -/
set_option linter.unusedSimpArgs false
namespace Drift
open Mat Matrix RobotState Finset

theorem toRot_isRot {q : Quat} (h : q.w ^ 2 + q.x ^ 2 + q.y ^ 2 + q.z ^ 2 = 1) : IsRot q.toRot := by
  obtain ⟨w, x, y, z⟩ := q
  have hw : w ^ 2 = 1 - x ^ 2 - y ^ 2 - z ^ 2 := by simp only at h; linarith
  refine ⟨?_, ?_, ?_⟩
  · ext i j
    fin_cases i <;> fin_cases j <;>
      simp [Quat.toRot, Matrix.mul_apply, Fin.sum_univ_three] <;> ring_nf <;> simp only [hw] <;> ring
  · ext i j
    fin_cases i <;> fin_cases j <;>
      simp [Quat.toRot, Matrix.mul_apply, Fin.sum_univ_three] <;> ring_nf <;> simp only [hw] <;> ring
  · simp [Quat.toRot, Matrix.det_fin_three]
    ring_nf
    have h4 : w ^ 4 = (1 - x ^ 2 - y ^ 2 - z ^ 2) ^ 2 := by rw [← hw]; ring
    simp only [hw, h4] <;> ring

/-- what makes a filter ready to run: the last propagation time is not after the held measurement -/
def Running (e : Estimator) : Prop :=
  ∃ tp m, e.state.tProp = some tp ∧ e.prop.prev = some m ∧ tp ≤ m.time ∧ e.state.t.isSome = true

/-- The invariant.  `fut` are the IMU measurements still to arrive. -/
structure EstInv (fut : List ImuMeas) (e : Estimator) : Prop where
  good : ∃ K, Good K e.heap e.state
  corrs : CorrsOK e.state e.corrs
  noise : ImuNoisePSD e.prop
  rc : 0 ≤ e.rotCov
  vc : 0 ≤ e.velCov
  pc : 0 ≤ e.posCov
  bias : e.prop.staticInit = false ∨ 1 ≤ ImuProp.toSizeT e.prop.initBiasSize
  ori : ∀ m ∈ e.prop.buffer ++ fut, IsRot (if e.prop.useImuOri then m.quat.toRot else 1)
  sorted : (e.prop.prev.toList ++ (e.prop.buffer ++ fut)).Pairwise fun a b => a.time ≤ b.time
  outs : ∀ s ∈ e.outQ, ValidEstimate s
  logs : ∀ s ∈ e.log.queue, s.t.isSome = true ∧ s.stateType = .worldCentric ∧ ValidEstimate s
  idle : e.enabled = false → InitOK e.heap e.state ∧ ∀ c ∈ e.corrs, ∀ id, c.refs id = none
  pend : ∀ i, e.pending = some i → e.enabled = false ∧ Running e ∧ ∃ w, e.state.bodyAngVel = some w
  run : e.enabled = true → e.pending = none ∧ Running e

theorem Good.valid {K h s} (g : Good K h s) : ValidEstimate s := ⟨K, g.shape, g.psd⟩

theorem logPush_mem {l : Logger} {s x : RobotState} (h : x ∈ (l.push s).queue) : x ∈ l.queue ∨ x = s := by
  unfold Logger.push at h
  split_ifs at h
  · simpa using h
  · exact .inl h

theorem refs_drained (c : Corr) : c.drained.refs = c.refs := by cases c <;> rfl
theorem param_drained {c : Corr} (h : c.ParamOK) : c.drained.ParamOK := by cases c <;> exact h
theorem refs_pushVel (m) (c : Corr) : (c.pushVel m).refs = c.refs := by cases c <;> rfl
theorem refs_pushLeg (m) (c : Corr) : (c.pushLeg m).refs = c.refs := by cases c <;> rfl
theorem param_pushVel (m) {c : Corr} (h : c.ParamOK) : (c.pushVel m).ParamOK := by cases c <;> exact h
theorem param_pushLeg (m) {c : Corr} (h : c.ParamOK) : (c.pushLeg m).ParamOK := by cases c <;> exact h
theorem param_clear {c : Corr} (h : c.ParamOK) : c.clear.ParamOK := by cases c <;> exact h
theorem refs_clear (c : Corr) (id : ℕ) : c.clear.refs id = none := by cases c <;> rfl

theorem corrOK_map {s : RobotState} {c : Corr} {f : Corr → Corr} (hr : (f c).refs = c.refs) (hp : (f c).ParamOK) (h : CorrOK s c) :
    CorrOK s (f c) := ⟨hp, by rw [hr]; exact h.ids⟩

theorem modify_eq_map (f : Corr → Corr) : ∀ (cs : List Corr) (i : ℕ) (d : Corr), d ∈ cs.modify i f → d ∈ cs ∨ ∃ c ∈ cs, d = f c := by
  intro cs
  induction cs with
  | nil => intro i d hd; cases i <;> simp at hd
  | cons c cs ih =>
    intro i d hd
    cases i with
    | zero =>
      simp at hd
      rcases hd with rfl | hd
      · exact .inr ⟨c, by simp, rfl⟩
      · exact .inl (by simp [hd])
    | succ i =>
      simp at hd
      rcases hd with rfl | hd
      · exact .inl (by simp)
      · rcases ih i d hd with h | ⟨c', h1, h2⟩
        · exact .inl (by simp [h])
        · exact .inr ⟨c', by simp [h1], h2⟩

theorem pairwise_modify {f : Corr → Corr} (hf : ∀ c, (f c).refs = c.refs) : ∀ {cs : List Corr} (i : ℕ), cs.Pairwise Disj →
    (cs.modify i f).Pairwise Disj := by
  intro cs
  induction cs with
  | nil => intro i h; cases i <;> simp
  | cons c cs ih =>
    intro i h
    have hcd := List.pairwise_cons.mp h
    cases i with
    | zero =>
      simp only [List.modify_zero_cons]
      refine List.pairwise_cons.mpr ⟨fun d hd id id' a q1 q2 => hcd.1 d hd id id' a (by rw [← hf]; exact q1) q2, hcd.2⟩
    | succ i =>
      simp only [List.modify_succ_cons]
      refine List.pairwise_cons.mpr ⟨fun d hd id id' a q1 q2 => ?_, ih i hcd.2⟩
      rcases modify_eq_map f cs i d hd with h1 | ⟨c', h1, rfl⟩
      · exact hcd.1 d h1 id id' a q1 q2
      · exact hcd.1 c' h1 id id' a q1 (by rw [← hf]; exact q2)

theorem corrsOK_modify {s : RobotState} {cs : List Corr} {f : Corr → Corr} (hf : ∀ c, (f c).refs = c.refs)
    (hp : ∀ c, c.ParamOK → (f c).ParamOK) (h : CorrsOK s cs) (i : ℕ) : CorrsOK s (cs.modify i f) := by
  refine ⟨fun d hd => ?_, pairwise_modify hf i h.disj⟩
  rcases modify_eq_map f cs i d hd with h1 | ⟨c, h1, rfl⟩
  · exact h.each d h1
  · exact corrOK_map (hf c) (hp c (h.each c h1).param) (h.each c h1)

/-- corrections without references -/
theorem corrsOK_of_none {s : RobotState} {cs : List Corr} (hp : ∀ c ∈ cs, c.ParamOK) (hr : ∀ c ∈ cs, ∀ id, c.refs id = none) :
    CorrsOK s cs := by
  refine ⟨fun c hc => ⟨hp c hc, ⟨fun id a q => (by rw [hr c hc] at q; cases q), fun id _ a q => (by rw [hr c hc] at q; cases q)⟩⟩, ?_⟩
  refine List.Pairwise.imp_of_mem (R := fun _ _ => True) ?_ (by induction cs with
    | nil => exact List.Pairwise.nil
    | cons c cs ih => exact List.pairwise_cons.mpr ⟨fun _ _ => trivial, ih (fun c hc => hp c (by simp [hc])) (fun c hc => hr c (by simp [hc]))⟩)
  intro c d hc hd _ id id' a q
  rw [hr c hc] at q; cases q

theorem clear_initOK (h : Heap) {s : RobotState} (hw : s.stateType = .worldCentric) : InitOK h s.clear := by
  have g := init_good h
  exact ⟨⟨⟨g.shape.x, g.shape.k, g.shape.thr, g.shape.thc, g.shape.pr, g.shape.pc⟩, hw, g.psd, g.q, g.len, g.tab⟩, blockDiag3_one 15⟩

/-- `RunOnce` -/
theorem runOnce_inv {fut : List ImuMeas} {e : Estimator} (i : EstInv fut e) (hen : e.enabled = true) :
    ∃ e', e.runOnce = some e' ∧ EstInv fut e' := by
  obtain ⟨K, g⟩ := i.good
  obtain ⟨hpend, tp, m, htp, hm, hle, ht⟩ := i.run hen
  obtain ⟨b, p', s1, e1, g1, q1, q2⟩ := prop_good g i.noise hm htp hle
  have hs1 : (∃ tp', s1.tProp = some tp' ∧ ∃ m', p'.prev = some m' ∧ tp' ≤ m'.time) ∧ s1.t.isSome = true ∧ s1.colMap = e.state.colMap ∧
      ImuNoisePSD p' ∧ (p'.staticInit = e.prop.staticInit ∧ p'.initBiasSize = e.prop.initBiasSize ∧ p'.useImuOri = e.prop.useImuOri) ∧
      (∀ x ∈ p'.buffer ++ fut, x ∈ e.prop.buffer ++ fut) ∧
      (p'.prev.toList ++ (p'.buffer ++ fut)).Pairwise (fun a b => a.time ≤ b.time) := by
    cases hb : e.prop.buffer with
    | nil =>
      obtain ⟨-, rfl, rfl⟩ := q1 hb
      exact ⟨⟨tp, htp, m, hm, hle⟩, ht, rfl, i.noise, ⟨rfl, rfl, rfl⟩, fun x hx => by rw [hb] at hx; exact hx, i.sorted⟩
    | cons f rest =>
      obtain ⟨-, rfl, h1, h2, h3⟩ := q2 f rest hb
      have hs := i.sorted
      rw [hm, hb] at hs
      simp only [Option.toList_some, List.cons_append, List.nil_append, List.pairwise_cons] at hs
      refine ⟨⟨m.time, h2, f, rfl, hs.1 f (by simp)⟩, by rw [h1]; rfl, h3, i.noise, ⟨rfl, rfl, rfl⟩, fun x hx => ?_, ?_⟩
      · simp at hx ⊢; tauto
      · simpa using hs.2
  obtain ⟨⟨tp', htp', m', hm', hle'⟩, ht', hcm, hN', ⟨f1, f2, f3⟩, hbuf, hsort⟩ := hs1
  have hc1 : CorrsOK s1 e.corrs := ⟨fun c hc => (i.corrs.each c hc).keep (by rw [hcm]; exact (i.corrs.each c hc).ids.mem), i.corrs.disj⟩
  obtain ⟨b', bs, cs', h', s2, K', e2, -, -, g2, ok2, tp2, t2, -, -, -, -⟩ := correctAll_spec e.corrs g1 hc1 htp'
  have hrun : ∀ {e' : Estimator}, e'.state = s2 → e'.prop = p' → Running e' := by
    intro e' q1 q2
    exact ⟨tp', m', by rw [q1, tp2, htp'], by rw [q2, hm'], hle', by rw [q1]; exact t2 ht'⟩
  by_cases hbb : (b || b') = true
  · refine ⟨{ e with prop := p', corrs := cs', heap := h', state := s2, outQ := e.outQ ++ [s2], log := e.log.push s2 }, ?_,
      ⟨⟨K', g2⟩, ok2, hN', i.rc, i.vc, i.pc, by rw [f1, f2]; exact i.bias, ?_, hsort, ?_, ?_, ?_, ?_, fun _ => ⟨hpend, hrun rfl rfl⟩⟩⟩
    · simp only [Estimator.runOnce, e1, e2, Option.bind_eq_bind, Option.bind_some, hbb, if_true]
    · intro x hx
      show IsRot (if p'.useImuOri = true then _ else _)
      rw [f3]; exact i.ori x (hbuf x hx)
    · intro s hs
      rcases List.mem_append.mp hs with hs | hs
      · exact i.outs s hs
      · rw [List.mem_singleton.mp hs]; exact g2.valid
    · intro s hs
      rcases logPush_mem hs with hs | rfl
      · exact i.logs s hs
      · exact ⟨t2 ht', g2.world, g2.valid⟩
    · intro h; rw [show e.enabled = false from h] at hen; cases hen
    · intro k hk; rw [show e.pending = some k from hk] at hpend; cases hpend
  · refine ⟨{ e with prop := p', corrs := cs', heap := h', state := s2 }, ?_,
      ⟨⟨K', g2⟩, ok2, hN', i.rc, i.vc, i.pc, by rw [f1, f2]; exact i.bias, ?_, hsort, i.outs, i.logs, ?_, ?_, fun _ => ⟨hpend, hrun rfl rfl⟩⟩⟩
    · have : (b || b') = false := by simpa using hbb
      simp only [Estimator.runOnce, e1, e2, Option.bind_eq_bind, Option.bind_some, this, if_false, Bool.false_eq_true]
    · intro x hx
      show IsRot (if p'.useImuOri = true then _ else _)
      rw [f3]; exact i.ori x (hbuf x hx)
    · intro h; rw [show e.enabled = false from h] at hen; cases hen
    · intro k hk; rw [show e.pending = some k from hk] at hpend; cases hpend

/-- the second half of `InitState` -/
theorem initFrom_inv {fut : List ImuMeas} {e : Estimator} (i : EstInv fut e) (hen : e.enabled = false) (hrun : Running e)
    {w : V3} (hw : e.state.bodyAngVel = some w) (k : ℕ) : ∃ e', e.initFrom k = some e' ∧ EstInv fut e' := by
  obtain ⟨g, hrefs⟩ := i.idle hen
  have x1 := g.good.shape.x.rows; have x2 := g.good.shape.x.cols
  have e0 : e.state.get_rotation = some (e.state.X.blk3 0 0) := blk3?_eq (by omega) (by omega)
  obtain ⟨s', g', f', r', p', t', pre, post, q1, q2, q3, q4, q5⟩ := initCorrs_ok (e.corrs.drop k) (e.corrs.take k) g hw e0
  have hcs : ∀ c ∈ e.corrs.take k ++ pre.map Corr.drained ++ post, c.ParamOK ∧ ∀ id, c.refs id = none := by
    have hmem : ∀ c ∈ e.corrs, c.ParamOK ∧ ∀ id, c.refs id = none := fun c hc => ⟨(i.corrs.each c hc).param, hrefs c hc⟩
    have hd : ∀ c ∈ pre ++ post, c ∈ e.corrs := fun c hc => List.mem_of_mem_drop (q1 ▸ hc)
    intro c hc
    simp only [List.mem_append, List.mem_map] at hc
    rcases hc with (hc | ⟨d, hd1, rfl⟩) | hc
    · exact hmem c (List.mem_of_mem_take hc)
    · have := hmem d (hd d (by simp [hd1]))
      exact ⟨param_drained this.1, by rw [refs_drained]; exact this.2⟩
    · exact hmem c (hd c (by simp [hc]))
  obtain ⟨tp, m, h1, h2, h3, h4⟩ := hrun
  have hrun' : ∀ {e' : Estimator}, e'.state.t = s'.t → e'.state.tProp = s'.tProp → e'.prop = e.prop → Running e' := by
    intro e' q1 q2 q3
    refine ⟨tp, m, ?_, by rw [q3]; exact h2, h3, by rw [q1]; exact t' h4⟩
    rw [q2, f']; exact h1
  cases hpost : post with
  | nil =>
    subst hpost
    obtain ⟨s1, s2, s3, c1, c2, c3, g3, fr, -, -, -, -⟩ := finishInit_ok g' i.rc i.vc i.pc
    refine ⟨{ e with corrs := e.corrs.take k ++ pre.map Corr.drained ++ [], state := s3, outQ := e.outQ ++ [s3], enabled := true, pending := none }, ?_,
      ⟨⟨2, g3.good⟩, corrsOK_of_none (fun c hc => (hcs c hc).1) (fun c hc => (hcs c hc).2), i.noise, i.rc, i.vc, i.pc, i.bias, i.ori, i.sorted,
        ?_, i.logs, by simp, by simp, fun _ => ⟨rfl, hrun' ?_ ?_ rfl⟩⟩⟩
    · unfold Estimator.initFrom
      rw [q4]
      simp only [Option.bind_eq_bind, Option.bind_some, Estimator.finishInit]
      rw [c1]
      simp only [Option.bind_some]
      rw [c2]
      simp only [Option.bind_some]
      rw [c3]
      rfl
    · intro s hs
      rcases List.mem_append.mp hs with hs | hs
      · exact i.outs s hs
      · rw [List.mem_singleton.mp hs]; exact g3.good.valid
    · rw [fr]
    · rw [fr]
  | cons c cs =>
    refine ⟨{ e with corrs := e.corrs.take k ++ pre.map Corr.drained ++ post, state := s', pending := some (e.corrs.take k ++ pre.map Corr.drained).length }, ?_,
      ⟨⟨2, g'.good⟩, corrsOK_of_none (fun c hc => (hcs c hc).1) (fun c hc => (hcs c hc).2), i.noise, i.rc, i.vc, i.pc, i.bias, i.ori, i.sorted,
        i.outs, i.logs, fun _ => ⟨g', fun c hc => (hcs c hc).2⟩, fun k' _ => ⟨hen, hrun' rfl rfl rfl, w, ?_⟩, ?_⟩⟩
    · unfold Estimator.initFrom
      rw [q4]
      simp only [Option.bind_eq_bind, Option.bind_some, hpost]
    · show s'.bodyAngVel = _
      rw [f']; exact hw
    · intro h; rw [show e.enabled = true from h] at hen; cases hen

theorem initState_inv {fut : List ImuMeas} {e : Estimator} (i : EstInv fut e) (hen : e.enabled = false) (hpn : e.pending = none) :
    ∃ e', e.initState = some e' ∧ EstInv fut e' := by
  obtain ⟨g, hrefs⟩ := i.idle hen
  unfold Estimator.initState
  cases hb : e.prop.buffer with
  | nil =>
    refine ⟨e, ?_, i⟩
    unfold ImuProp.setInitialState; rw [hb]; simp
  | cons m rest =>
    obtain ⟨s1, e1, g1, p1⟩ := propInit_ok g i.noise hb (i.ori m (by rw [hb]; simp))
    rw [e1]
    simp only [Option.bind_eq_bind, Option.bind_some, if_true]
    have hs := i.sorted
    rw [hb] at hs
    have hs' := (List.pairwise_append.mp hs).2.1
    simp only [List.cons_append, List.pairwise_cons] at hs'
    refine initFrom_inv (fut := fut) (e := { e with prop := { e.prop with buffer := rest, prev := some m }, state := s1 }) (w := m.angVel) ?_ hen
      ⟨m.time, m, p1.tp, rfl, le_refl _, by show s1.t.isSome = true; rw [p1.t]; rfl⟩ p1.w 0
    refine ⟨⟨2, g1.good⟩, corrsOK_of_none (fun c hc => (i.corrs.each c hc).param) hrefs, i.noise, i.rc, i.vc, i.pc, i.bias, ?_, ?_, i.outs, i.logs,
      fun _ => ⟨g1, hrefs⟩, ?_, ?_⟩
    · intro x hx
      exact i.ori x (by rw [hb]; simp at hx ⊢; tauto)
    · show (m :: (rest ++ fut)).Pairwise _
      exact List.pairwise_cons.mpr hs'
    · intro k hk; rw [show e.pending = some k from hk] at hpn; cases hpn
    · intro h; rw [show e.enabled = true from h] at hen; cases hen

theorem initBias_inv {fut : List ImuMeas} {e : Estimator} (i : EstInv fut e) (hen : e.enabled = false) (hpn : e.pending = none) :
    ∃ e', e.initBias = some e' ∧ EstInv fut e' := by
  have key : ∀ p' : ImuProp, ImuNoisePSD p' → (p'.staticInit = e.prop.staticInit ∧ p'.initBiasSize = e.prop.initBiasSize ∧ p'.useImuOri = e.prop.useImuOri) →
      (∀ x ∈ p'.buffer ++ fut, x ∈ e.prop.buffer ++ fut) → (p'.prev.toList ++ (p'.buffer ++ fut)).Pairwise (fun a b => a.time ≤ b.time) →
      EstInv fut { e with prop := p' } := by
    intro p' h1 h2 h3 h4
    refine ⟨i.good, i.corrs, h1, i.rc, i.vc, i.pc, by rw [show Estimator.prop { e with prop := p' } = p' from rfl, h2.1, h2.2.1]; exact i.bias, ?_, h4, i.outs, i.logs,
      i.idle, ?_, ?_⟩
    · intro x hx
      show IsRot (if p'.useImuOri = true then _ else _)
      rw [h2.2.2]; exact i.ori x (h3 x hx)
    · intro k hk; rw [show e.pending = some k from hk] at hpn; cases hpn
    · intro h; rw [show e.enabled = true from h] at hen; cases hen
  unfold Estimator.initBias ImuProp.initImuBias
  by_cases hst : e.prop.staticInit = false
  · rw [if_pos hst]
    exact ⟨_, rfl, key _ i.noise ⟨rfl, rfl, rfl⟩ (fun _ h => h) i.sorted⟩
  · rw [if_neg hst]
    have hsz : 1 ≤ ImuProp.toSizeT e.prop.initBiasSize := i.bias.resolve_left hst
    by_cases hl : e.prop.biasInitVec.length < ImuProp.toSizeT e.prop.initBiasSize
    · rw [if_pos hl]
      cases hb : e.prop.buffer with
      | nil => exact ⟨_, rfl, key _ i.noise ⟨rfl, rfl, rfl⟩ (fun _ h => h) i.sorted⟩
      | cons m rest =>
        refine ⟨_, rfl, key _ i.noise ⟨rfl, rfl, rfl⟩ (fun x h => by rw [hb]; simp at h ⊢; tauto) ?_⟩
        have hs := i.sorted
        rw [hb] at hs
        exact (List.pairwise_append.mp hs).2.1
    · rw [if_neg hl]
      dsimp only
      rw [if_neg (by omega)]
      exact ⟨_, rfl, key _ i.noise ⟨rfl, rfl, rfl⟩ (fun _ h => h) i.sorted⟩

theorem logIter_ok {l : Logger} (h : ∀ s ∈ l.queue, s.t.isSome = true ∧ s.stateType = .worldCentric ∧ ValidEstimate s) :
    ∃ l', l.iter = some l' ∧ l'.queue = l.queue.tail := by
  unfold Logger.iter
  cases hq : l.queue with
  | nil => exact ⟨l, rfl, by simp [hq]⟩
  | cons s rest =>
    obtain ⟨h1, h2, K, h3, -⟩ := h s (by rw [hq]; simp)
    obtain ⟨t, ht⟩ := Option.isSome_iff_exists.mp h1
    have x1 := h3.x.rows; have x2 := h3.x.cols; have hk := h3.k
    have e0 : s.get_rotation = some (s.X.blk3 0 0) := blk3?_eq (by omega) (by omega)
    have e3 : s.get_velocity = some (s.X.blkV 0 3) := blkV?_eq (by omega) (by omega)
    have e4 : s.get_position = some (s.X.blkV 0 4) := blkV?_eq (by omega) (by omega)
    simp only [ht, Option.bind_eq_bind, Option.bind_some, get_world_position, get_world_rotation, get_world_velocity, get_body_velocity, h2, e0, e3, e4]
    split_ifs
    · exact ⟨_, rfl, rfl⟩
    · exact ⟨_, rfl, rfl⟩

theorem step_inv {fut : List ImuMeas} {e : Estimator} (ev : EstEv) (i : EstInv (imuArrivals [ev] ++ fut) e) :
    ∃ e', e.step ev = some e' ∧ EstInv fut e' := by
  cases ev with
  | imu m =>
    refine ⟨_, rfl, ⟨i.good, i.corrs, i.noise, i.rc, i.vc, i.pc, i.bias, ?_, ?_, i.outs, i.logs, i.idle, i.pend, i.run⟩⟩
    · intro x hx
      exact i.ori x (by simpa [imuArrivals] using hx)
    · have := i.sorted
      simpa [imuArrivals] using this
  | vel k m =>
    refine ⟨_, rfl, ⟨i.good, corrsOK_modify (refs_pushVel m) (fun _ => param_pushVel m) i.corrs k, i.noise, i.rc, i.vc, i.pc, i.bias, i.ori, i.sorted, i.outs, i.logs, ?_, i.pend, i.run⟩⟩
    intro h
    obtain ⟨g, hr⟩ := i.idle h
    refine ⟨g, fun c hc id => ?_⟩
    rcases modify_eq_map _ _ k c hc with h1 | ⟨c', h1, rfl⟩
    · exact hr c h1 id
    · rw [refs_pushVel]; exact hr c' h1 id
  | leg k m =>
    refine ⟨_, rfl, ⟨i.good, corrsOK_modify (refs_pushLeg m) (fun _ => param_pushLeg m) i.corrs k, i.noise, i.rc, i.vc, i.pc, i.bias, i.ori, i.sorted, i.outs, i.logs, ?_, i.pend, i.run⟩⟩
    intro h
    obtain ⟨g, hr⟩ := i.idle h
    refine ⟨g, fun c hc id => ?_⟩
    rcases modify_eq_map _ _ k c hc with h1 | ⟨c', h1, rfl⟩
    · exact hr c h1 id
    · rw [refs_pushLeg]; exact hr c' h1 id
  | tick =>
    have i : EstInv fut e := i
    show ∃ e', e.tick = some e' ∧ _
    unfold Estimator.tick
    cases hp : e.pending with
    | some k =>
      obtain ⟨hen, hrun, w, hw⟩ := i.pend k hp
      exact initFrom_inv i hen hrun hw k
    | none =>
      cases hen : e.enabled with
      | true => simp only [if_true]; exact runOnce_inv i hen
      | false =>
        simp only [if_false, Bool.false_eq_true]
        split_ifs
        · exact initState_inv i hen hp
        · exact initBias_inv i hen hp
  | clear =>
    have i : EstInv fut e := i
    show ∃ e', (match e.pending with | none => some e.clear | some _ => some e) = some e' ∧ _
    cases hp : e.pending with
    | some k => exact ⟨e, rfl, i⟩
    | none =>
      obtain ⟨K, g⟩ := i.good
      have g' := clear_initOK e.heap g.world
      have hr : ∀ c ∈ e.corrs.map Corr.clear, ∀ id, c.refs id = none := by
        intro c hc id
        obtain ⟨d, -, rfl⟩ := List.mem_map.mp hc
        exact refs_clear d id
      refine ⟨_, rfl, ⟨⟨2, g'.good⟩, corrsOK_of_none ?_ hr, i.noise, i.rc, i.vc, i.pc, i.bias, ?_, ?_, ?_, ?_, fun _ => ⟨g', hr⟩, ?_, ?_⟩⟩
      · intro c hc
        obtain ⟨d, hd, rfl⟩ := List.mem_map.mp hc
        exact param_clear (i.corrs.each d hd).param
      · intro x hx
        exact i.ori x (List.mem_append_right _ hx)
      · have hs := i.sorted
        refine List.Pairwise.sublist ?_ hs
        show List.Sublist (e.prop.prev.toList ++ ([] ++ fut)) _
        exact List.Sublist.append (List.Sublist.refl _) (List.sublist_append_right _ _)
      · simp [Estimator.clear]
      · intro s hs
        have : (Estimator.clear e).log.queue = [] := by
          simp only [Estimator.clear, Logger.clear]; split_ifs <;> rfl
        rw [this] at hs; cases hs
      · intro k hk; rw [show e.pending = some k from hk] at hp; cases hp
      · intro h; cases h
  | log =>
    have i : EstInv fut e := i
    obtain ⟨l', e1, e2⟩ := logIter_ok i.logs
    refine ⟨{ e with log := l' }, ?_, ⟨i.good, i.corrs, i.noise, i.rc, i.vc, i.pc, i.bias, i.ori, i.sorted, i.outs, ?_, i.idle, i.pend, i.run⟩⟩
    · show e.log.iter.map _ = _
      rw [e1]; rfl
    · intro s hs
      have hs : s ∈ l'.queue := hs
      rw [e2] at hs
      exact i.logs s (List.mem_of_mem_tail hs)
  | consume =>
    have i : EstInv fut e := i
    exact ⟨_, rfl, ⟨i.good, i.corrs, i.noise, i.rc, i.vc, i.pc, i.bias, i.ori, i.sorted, fun s hs => i.outs s (List.mem_of_mem_tail hs), i.logs, i.idle, i.pend, i.run⟩⟩

theorem imuArrivals_cons (ev : EstEv) (evs : List EstEv) : imuArrivals (ev :: evs) = imuArrivals [ev] ++ imuArrivals evs := by
  cases ev <;> rfl

theorem run_estInv (evs : List EstEv) : ∀ {fut : List ImuMeas} {e : Estimator}, EstInv (imuArrivals evs ++ fut) e →
    ∃ e', e.run evs = some e' ∧ EstInv fut e' := by
  induction evs with
  | nil => intro fut e i; exact ⟨e, rfl, by simpa [imuArrivals] using i⟩
  | cons ev evs ih =>
    intro fut e i
    rw [imuArrivals_cons, List.append_assoc] at i
    obtain ⟨e1, h1, i1⟩ := step_inv ev i
    obtain ⟨e2, h2, i2⟩ := ih i1
    exact ⟨e2, by simp [Estimator.run, h1, h2], i2⟩

end Drift
