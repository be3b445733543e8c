import Verif.Props.Estimator2
import Verif.Lemmas.Equiv3

/-!
# Property C60: the left- and the right-invariant filter estimate the same trajectory
-/
set_option linter.unusedSimpArgs false
namespace Drift
open Mat Matrix RobotState Finset

theorem velCtor_types (et : ErrorType) (c : VelConfig) :
    VelCorr.ctor [] .rightInvariant c = (VelCorr.ctor [] et c).map fun v => { v with errorType := .rightInvariant } := by
  unfold VelCorr.ctor
  simp only [Option.bind_eq_bind]
  cases quat? (c.rotation_vel2body.getD [1, 0, 0, 0]) with
  | none => rfl
  | some q => rfl

theorem build_types (c : CorrConfig) :
    c.build .rightInvariant = (c.build .leftInvariant).map Corr.asRight ∧ ∀ d, c.build .leftInvariant = some d → d.type = .leftInvariant := by
  cases c with
  | vel c =>
    refine ⟨?_, ?_⟩
    · simp only [CorrConfig.build, velCtor_types .leftInvariant c, Option.map_map]; rfl
    · intro d hd
      simp only [CorrConfig.build, VelCorr.ctor, Option.bind_eq_bind, Option.map_eq_some_iff, Option.bind_eq_some_iff] at hd
      obtain ⟨v, ⟨q, -, hv⟩, rfl⟩ := hd
      rw [← Option.some.inj hv]; rfl
  | leg c =>
    refine ⟨rfl, ?_⟩
    intro d hd
    rw [← Option.some.inj hd]; rfl

theorem mapM_types (cs : List CorrConfig) {a : List Corr} (h : cs.mapM (CorrConfig.build .leftInvariant) = some a) :
    cs.mapM (CorrConfig.build .rightInvariant) = some (a.map Corr.asRight) ∧ ∀ c ∈ a, c.type = .leftInvariant := by
  induction cs generalizing a with
  | nil => simp at h; subst h; simp
  | cons c cs ih =>
    rw [List.mapM_cons] at h ⊢
    simp only [Option.bind_eq_bind, Option.bind_eq_some_iff] at h
    obtain ⟨b, hb, bs, hbs, h⟩ := h
    rw [← Option.some.inj h]
    obtain ⟨h1, h2⟩ := ih hbs
    rw [(build_types c).1, hb]
    simp only [Option.map_some, Option.bind_eq_bind, Option.bind_some, h1]
    refine ⟨rfl, ?_⟩
    intro d hd
    rcases List.mem_cons.mp hd with rfl | hd
    · exact (build_types c).2 d hb
    · exact h2 d hd

theorem propCtor_types (c : ImuPropConfig) :
    ImuProp.ctor [] .rightInvariant c = (ImuProp.ctor [] .leftInvariant c).map (fun v => { v with errorType := .rightInvariant }) ∧
      ∀ p, ImuProp.ctor [] .leftInvariant c = some p → p.errorType = .leftInvariant := by
  refine ⟨?_, ?_⟩
  · unfold ImuProp.ctor
    simp only [Option.bind_eq_bind, Option.map_bind, Function.comp_def, Option.map_some]
  · intro p hp
    unfold ImuProp.ctor at hp
    simp only [Option.bind_eq_bind, Option.bind_eq_some_iff] at hp
    obtain ⟨q, -, bg, -, ba, -, t, -, hp⟩ := hp
    rw [← Option.some.inj hp]

theorem ctor_par {h c ic cs eL} (hL : Estimator.ctor .leftInvariant h c ic cs = some eL) :
    ∃ eR, Estimator.ctor .rightInvariant h c ic cs = some eR ∧ Par eL eR := by
  unfold Estimator.ctor at hL ⊢
  simp only [Option.bind_eq_bind, Option.bind_eq_some_iff] at hL
  obtain ⟨p, hp, corrs, hc, he⟩ := hL
  obtain ⟨h1, h2⟩ := mapM_types cs hc
  rw [(propCtor_types ic).1, hp]
  simp only [Option.map_some, Option.bind_eq_bind, Option.bind_some, h1]
  rw [← Option.some.inj he]
  refine ⟨_, rfl, ⟨rfl, (propCtor_types ic).2 p hp, h2⟩, rfl, rfl, rfl, rfl, rfl, rfl, rfl, rfl, rfl, rfl, by simp, fun _ => rfl, by simp, .nil, ?_, rfl⟩
  show List.Forall₂ _ (Logger.ctor _ _ _ _).queue (Logger.ctor _ _ _ _).queue
  rw [logCtor_queue]; exact .nil

/-- **C60**: build two estimators from the same configuration, one with the left-invariant and one with the
right-invariant error.  Whatever measurements arrive and however the main loop, `clear()`, the logger and the
publisher are scheduled, as long as the robot is at rest when the filter is initialised, both behave the same:
the estimates (orientation, velocity, position, contacts, biases, time stamps) agree, the published sequences
agree, and the same rows are written to the log.  Bias estimation may be on. -/
theorem C60_same_trajectory {h c ic cs eL} (hL : Estimator.ctor .leftInvariant h c ic cs = some eL) (evs : List EstEv)
    (u : Usable ic cs (imuArrivals evs)) (hz : StartsAtRest eL evs) :
    ∃ eR eL' eR', Estimator.ctor .rightInvariant h c ic cs = some eR ∧ eL.run evs = some eL' ∧ eR.run evs = some eR' ∧
      SameMean eL'.state eR'.state ∧ List.Forall₂ SameMean eL'.outQ eR'.outQ ∧ eL'.log.written = eR'.log.written ∧
      eL'.enabled = eR'.enabled ∧ (eL'.enabled = true → ∃ K, AdjRelated K eL'.state.X eL'.state.P eR'.state.P) := by
  obtain ⟨eR, hR, p⟩ := ctor_par hL
  obtain ⟨eL', eR', h1, h2, p', -, -⟩ := par_run evs (fut := []) (by rw [List.append_nil]; exact (ctor_inv u hL).1)
    (by rw [List.append_nil]; exact (ctor_inv u hR).1) p hz
  exact ⟨eR, eL', eR', hR, h1, h2, p'.same, p'.out, by rw [p'.log], p'.enabled.symm, p'.on⟩

theorem step_enabled {e e' : Estimator} {ev : EstEv} (h : e.step ev = some e') (hen : e.enabled = true) (hp : e.pending = none) (hne : ev ≠ .clear) :
    e'.enabled = true := by
  cases ev with
  | imu m => rw [← Option.some.inj h]; exact hen
  | vel i m => rw [← Option.some.inj h]; exact hen
  | leg i m => rw [← Option.some.inj h]; exact hen
  | clear => exact absurd rfl hne
  | log =>
    have h : e.log.iter.map _ = some e' := h
    simp only [Option.map_eq_some_iff] at h
    obtain ⟨a, -, rfl⟩ := h
    exact hen
  | consume => rw [← Option.some.inj h]; exact hen
  | tick =>
    have h : e.tick = some e' := h
    cases tick_out h with
    | quiet o l en => rw [en]; exact hen
    | init o l en how =>
      rcases en with q | q
      · rw [hen] at q; cases q
      · exact absurd hp q
    | run o l en => exact en.2

theorem startsAtRest_running (evs : List EstEv) (hne : EstEv.clear ∉ evs) : ∀ {fut : List ImuMeas} {e : Estimator},
    EstInv (imuArrivals evs ++ fut) e → e.enabled = true → StartsAtRest e evs := by
  induction evs with
  | nil => intro fut e _ _; trivial
  | cons ev evs ih =>
    intro fut e i hen e' h
    rw [imuArrivals_cons, List.append_assoc] at i
    obtain ⟨e1, h1, i1⟩ := step_inv ev i
    rw [h] at h1; cases h1
    refine ⟨fun q => (by rw [hen] at q; cases q), ih (fun q => hne (by simp [q])) i1 ?_⟩
    exact step_enabled h hen (i.run hen).1 (fun q => hne (by simp [q]))

theorem correct_type {c c' : Corr} {h h' : Heap} {s s' : RobotState} {b : Bool} (e : c.correct h s = some (b, c', h', s')) : c'.type = c.type := by
  cases c with
  | vel c =>
    have e : (c.correct s).map _ = _ := e
    simp only [Option.map_eq_some_iff, Prod.mk.injEq] at e
    obtain ⟨⟨b1, c1, s1⟩, e1, -, rfl, -⟩ := e
    show c1.errorType = c.errorType
    unfold VelCorr.correct at e1
    split at e1
    · simp only [Option.some.injEq, Prod.mk.injEq] at e1; rw [← e1.2.1]
    · simp only [Option.bind_eq_bind, Option.bind_eq_some_iff] at e1
      obtain ⟨tp, -, e1⟩ := e1
      split at e1
      · simp only [Option.some.injEq, Prod.mk.injEq] at e1; rw [← e1.2.1]
      · split at e1
        · simp only [Option.some.injEq, Prod.mk.injEq] at e1; rw [← e1.2.1]
        · simp only [Option.bind_eq_bind, Option.bind_eq_some_iff] at e1
          obtain ⟨x, -, e1⟩ := e1
          simp only [Option.some.injEq, Prod.mk.injEq] at e1; rw [← e1.2.1]
  | leg c =>
    have e : (c.correct h s).map _ = _ := e
    simp only [Option.map_eq_some_iff, Prod.mk.injEq] at e
    obtain ⟨⟨b1, c1, s1⟩, e1, -, rfl, -⟩ := e
    show c1.errorType = c.errorType
    unfold LegCorr.correct at e1
    split at e1
    · simp only [Option.some.injEq, Prod.mk.injEq] at e1; rw [← e1.2.1]
    · simp only [Option.bind_eq_bind, Option.bind_eq_some_iff] at e1
      obtain ⟨tp, -, e1⟩ := e1
      split at e1
      · simp only [Option.some.injEq, Prod.mk.injEq] at e1; rw [← e1.2.1]
      · simp only [Option.bind_eq_bind, Option.bind_eq_some_iff] at e1
        obtain ⟨x, -, e1⟩ := e1
        simp only [Option.some.injEq, Prod.mk.injEq] at e1; rw [← e1.2.1]

theorem correctAll_type (cs : List Corr) : ∀ {h h' : Heap} {s s' : RobotState} {b : Bool} {cs' : List Corr} {t : ErrorType},
    Estimator.correctAll cs h s = some (b, cs', h', s') → (∀ c ∈ cs, c.type = t) → ∀ c ∈ cs', c.type = t := by
  induction cs with
  | nil => intro h h' s s' b cs' t e _; simp only [Estimator.correctAll, Option.some.injEq, Prod.mk.injEq] at e; rw [← e.2.1]; simp
  | cons c cs ih =>
    intro h h' s s' b cs' t e ht
    simp only [Estimator.correctAll, Option.bind_eq_bind, Option.bind_eq_some_iff] at e
    obtain ⟨⟨b1, c1, h1, s1⟩, e1, ⟨b2, cs2, h2, s2⟩, e2, e3⟩ := e
    simp only [Option.some.injEq, Prod.mk.injEq] at e3
    rw [← e3.2.1]
    intro d hd
    rcases List.mem_cons.mp hd with rfl | hd
    · rw [correct_type e1]; exact ht c (by simp)
    · exact ih e2 (fun c hc => ht c (by simp [hc])) d hd

theorem propagate_type {p p' : ImuProp} {s s' : RobotState} {b : Bool} (e : p.propagate s = some (b, p', s')) : p'.errorType = p.errorType := by
  unfold ImuProp.propagate at e
  split at e
  · simp only [Option.some.injEq, Prod.mk.injEq] at e; rw [← e.2.1]
  · simp only [Option.bind_eq_bind, Option.bind_eq_some_iff] at e
    obtain ⟨_, -, _, -, _, -, _, -, _, -, _, -, _, -, e⟩ := e
    simp only [Option.some.injEq, Prod.mk.injEq] at e
    rw [← e.2.1]

theorem initCorrs_type (cs : List Corr) : ∀ {done d t : List Corr} {s s' : RobotState} {ty : ErrorType},
    Estimator.initCorrs done cs s = some (d, t, s') → (∀ c ∈ done ++ cs, c.type = ty) → ∀ c ∈ d ++ t, c.type = ty := by
  induction cs with
  | nil => intro done d t s s' ty e ht; simp only [Estimator.initCorrs, Option.some.injEq, Prod.mk.injEq] at e; rw [← e.1, ← e.2.1]; exact ht
  | cons c cs ih =>
    intro done d t s s' ty e ht
    simp only [Estimator.initCorrs, Option.bind_eq_bind, Option.bind_eq_some_iff] at e
    obtain ⟨⟨b1, c1, s1⟩, e1, e2⟩ := e
    have hc1 : c1.type = ty := by
      rw [← ht c (by simp)]
      cases c with
      | vel c =>
        have e1 : (c.setInitial s).map _ = _ := e1
        simp only [Option.map_eq_some_iff, Prod.mk.injEq] at e1
        obtain ⟨⟨b1, c1, s1⟩, e0, -, rfl, -⟩ := e1
        unfold VelCorr.setInitial at e0
        split at e0
        · simp only [Option.some.injEq, Prod.mk.injEq] at e0; rw [← e0.2.1]
        · simp only [Option.bind_eq_bind, Option.bind_eq_some_iff] at e0
          obtain ⟨_, -, _, -, e0⟩ := e0
          simp only [Option.some.injEq, Prod.mk.injEq] at e0; rw [← e0.2.1]; rfl
      | leg c =>
        have e1 : (c.setInitial s).map _ = _ := e1
        simp only [Option.map_eq_some_iff, Prod.mk.injEq] at e1
        obtain ⟨⟨b1, c1, s1⟩, e0, -, rfl, -⟩ := e1
        unfold LegCorr.setInitial at e0
        split at e0
        · simp only [Option.some.injEq, Prod.mk.injEq] at e0; rw [← e0.2.1]
        · simp only [Option.bind_eq_bind, Option.bind_eq_some_iff] at e0
          obtain ⟨_, -, _, -, _, -, e0⟩ := e0
          simp only [Option.some.injEq, Prod.mk.injEq] at e0; rw [← e0.2.1]; rfl
    cases b1 with
    | true =>
      simp only [if_true] at e2
      refine ih e2 ?_
      intro x hx
      simp only [List.append_assoc, List.mem_append, List.mem_singleton, List.cons_append, List.nil_append, List.mem_cons] at hx
      rcases hx with hx | rfl | hx
      · exact ht x (by simp [hx])
      · exact hc1
      · exact ht x (by simp [hx])
    | false =>
      simp only [Bool.false_eq_true, if_false, Option.some.injEq, Prod.mk.injEq] at e2
      rw [← e2.1, ← e2.2.1]
      intro x hx
      simp only [List.mem_append, List.mem_cons] at hx
      rcases hx with hx | rfl | hx
      · exact ht x (by simp [hx])
      · exact hc1
      · exact ht x (by simp [hx])

theorem isLeft_initFrom {e e' : Estimator} {k : ℕ} (h : e.initFrom k = some e') (l : IsLeft e) : IsLeft e' := by
  unfold Estimator.initFrom at h
  simp only [Option.bind_eq_bind, Option.bind_eq_some_iff] at h
  obtain ⟨⟨d, t, s⟩, e1, h⟩ := h
  have ht := initCorrs_type _ e1 (ty := .leftInvariant) (by rw [List.take_append_drop]; exact l.corrs)
  cases t with
  | nil =>
    simp only [Estimator.finishInit, Option.bind_eq_bind, Option.bind_eq_some_iff] at h
    obtain ⟨_, -, _, -, _, -, h⟩ := h
    rw [← Option.some.inj h]
    exact ⟨l.self, l.prop, ht⟩
  | cons c cs =>
    simp only at h
    rw [← Option.some.inj h]
    exact ⟨l.self, l.prop, ht⟩

theorem isLeft_step {e e' : Estimator} {ev : EstEv} (h : e.step ev = some e') (l : IsLeft e) : IsLeft e' := by
  cases ev with
  | imu m => rw [← Option.some.inj h]; exact ⟨l.self, l.prop, l.corrs⟩
  | vel i m => rw [← Option.some.inj h]; exact ⟨l.self, l.prop, type_modify (type_pushVel m) l.corrs i⟩
  | leg i m => rw [← Option.some.inj h]; exact ⟨l.self, l.prop, type_modify (type_pushLeg m) l.corrs i⟩
  | clear =>
    have h : (match e.pending with | none => some e.clear | some _ => some e) = some e' := h
    split at h
    · rw [← Option.some.inj h]
      refine ⟨l.self, l.prop, ?_⟩
      intro c hc
      obtain ⟨d, hd, rfl⟩ := List.mem_map.mp hc
      rw [type_clear]; exact l.corrs d hd
    · rw [← Option.some.inj h]; exact l
  | log =>
    have h : e.log.iter.map _ = some e' := h
    simp only [Option.map_eq_some_iff] at h
    obtain ⟨a, -, rfl⟩ := h
    exact ⟨l.self, l.prop, l.corrs⟩
  | consume => rw [← Option.some.inj h]; exact ⟨l.self, l.prop, l.corrs⟩
  | tick =>
    have h : e.tick = some e' := h
    unfold Estimator.tick at h
    split at h
    · exact isLeft_initFrom h l
    · split at h
      · unfold Estimator.runOnce at h
        simp only [Option.bind_eq_bind, Option.bind_eq_some_iff] at h
        obtain ⟨⟨b, p, s⟩, e1, ⟨b', cs, hh, s'⟩, e2, h⟩ := h
        have k1 : p.errorType = .leftInvariant := (propagate_type e1).trans l.prop
        have k2 := correctAll_type _ e2 l.corrs
        simp only at h
        split at h
        · rw [← Option.some.inj h]; exact ⟨l.self, k1, k2⟩
        · rw [← Option.some.inj h]; exact ⟨l.self, k1, k2⟩
      · split at h
        · unfold Estimator.initState at h
          simp only [Option.bind_eq_bind, Option.bind_eq_some_iff] at h
          obtain ⟨⟨b, p, s⟩, e1, h⟩ := h
          have k1 : p.errorType = .leftInvariant := by
            rw [← l.prop]
            unfold ImuProp.setInitialState at e1
            split at e1
            · simp only [Option.some.injEq, Prod.mk.injEq] at e1; rw [← e1.2.1]
            · simp only [Option.bind_eq_bind, Option.bind_eq_some_iff] at e1
              obtain ⟨_, -, _, -, _, -, _, -, _, -, _, -, e1⟩ := e1
              simp only [Option.some.injEq, Prod.mk.injEq] at e1
              rw [← e1.2.1]
          simp only at h
          split at h
          · exact isLeft_initFrom h ⟨l.self, k1, l.corrs⟩
          · rw [← Option.some.inj h]; exact ⟨l.self, k1, l.corrs⟩
        · unfold Estimator.initBias at h
          simp only [Option.map_eq_some_iff] at h
          obtain ⟨q, hq, rfl⟩ := h
          refine ⟨l.self, ?_, l.corrs⟩
          show q.errorType = _
          rw [← l.prop]
          unfold ImuProp.initImuBias at hq
          split_ifs at hq
          · rw [← Option.some.inj hq]
          · split at hq
            · rw [← Option.some.inj hq]
            · rw [← Option.some.inj hq]
          · rw [← Option.some.inj hq]

theorem isLeft_run (evs : List EstEv) : ∀ {e e' : Estimator}, e.run evs = some e' → IsLeft e → IsLeft e' := by
  induction evs with
  | nil => intro e e' h l; cases h; exact l
  | cons ev evs ih =>
    intro e e' h l
    simp only [Estimator.run, Option.bind_eq_some_iff] at h
    obtain ⟨e1, h1, h2⟩ := h
    exact ih h2 (isLeft_step h1 l)

theorem estInv_asRight {fut : List ImuMeas} {e : Estimator} (i : EstInv fut e) (hen : e.enabled = true) {K : ℕ} {P : Mat}
    (hr : AdjRelated K e.state.X e.state.P P) (hK : Shape K e.state) : EstInv fut (e.asRight P) ∧ (IsLeft e → Par e (e.asRight P)) := by
  obtain ⟨K', g⟩ := i.good
  have : K' = K := by
    have h1 := g.shape.x.rows; have h2 := hK.x.rows
    omega
  subst this
  have hrr : AdjRelated K' e.state.X e.state.P P := hr
  rw [adjRelated_iff hK.x] at hr
  have hpr : P.rows = 3 * K' + 9 := by rw [hr]; simp
  have hpc : P.cols = 3 * K' + 9 := by rw [hr]; simp
  have hpsd : PSD P := by
    rw [hr]
    exact PSD.congr (by rw [g.shape.pr]; simp) g.psd
  have hpar : ∀ c : Corr, c.asRight.ParamOK ↔ c.ParamOK := by intro c; cases c <;> exact Iff.rfl
  have href : ∀ c : Corr, c.asRight.refs = c.refs := by intro c; cases c <;> rfl
  have hco : CorrsOK { e.state with P := P } (e.corrs.map Corr.asRight) := by
    refine ⟨?_, ?_⟩
    · intro c hc
      obtain ⟨d, hd, rfl⟩ := List.mem_map.mp hc
      have := i.corrs.each d hd
      exact ⟨(hpar d).mpr this.param, by rw [href]; exact ⟨this.ids.mem, this.ids.inj⟩⟩
    · rw [List.pairwise_map]
      refine i.corrs.disj.imp ?_
      intro a b hab id id' x
      rw [href, href]; exact hab id id' x
  refine ⟨⟨⟨K', ⟨⟨g.shape.x, g.shape.k, g.shape.thr, g.shape.thc, hpr, hpc⟩, g.world, hpsd, g.q, g.len, g.tab⟩⟩, hco, i.noise, i.rc, i.vc, i.pc,
    i.bias, i.ori, i.sorted, i.outs, i.logs, fun h => absurd (hen.symm.trans h) (by simp), i.pend, i.run⟩, ?_⟩
  intro hl
  refine ⟨hl, rfl, rfl, rfl, rfl, rfl, rfl, rfl, rfl, rfl, rfl, fun _ => ⟨K', hrr⟩, fun h => absurd (hen.symm.trans h) (by simp), ?_, ?_, ?_, rfl⟩
  · intro h; exact absurd (i.run hen).1 h
  · exact List.forall₂_same.mpr fun _ _ => rfl
  · exact List.forall₂_same.mpr fun _ _ => rfl

/-- **C60**, from any running estimator: replace the error type by the right-invariant one and the covariance by
any adjoint-related one; without further `clear()` the two estimators produce the same estimates, publish the
same sequence and write the same log, whatever arrives.  No assumption on the velocity is needed. -/
theorem C60_from_related {h c ic cs e0 e evs0} (hc : Estimator.ctor .leftInvariant h c ic cs = some e0) (hr : e0.run evs0 = some e)
    (evs : List EstEv) (u : Usable ic cs (imuArrivals (evs0 ++ evs))) (hen : e.enabled = true)
    {K : ℕ} {P : Mat} (hK : Shape K e.state) (hP : AdjRelated K e.state.X e.state.P P) (hne : EstEv.clear ∉ evs) :
    ∃ eL' eR', e.run evs = some eL' ∧ (e.asRight P).run evs = some eR' ∧ SameMean eL'.state eR'.state ∧
      List.Forall₂ SameMean eL'.outQ eR'.outQ ∧ eL'.log.written = eR'.log.written ∧
      ∃ K', AdjRelated K' eL'.state.X eL'.state.P eR'.state.P := by
  have himu : ∀ a b : List EstEv, imuArrivals (a ++ b) = imuArrivals a ++ imuArrivals b := by
    intro a b
    induction a with
    | nil => rfl
    | cons x xs ih => rw [List.cons_append, imuArrivals_cons, ih, imuArrivals_cons x xs, List.append_assoc]
  obtain ⟨e1, h1, i⟩ := run_estInv evs0 (fut := imuArrivals evs) (e := e0) (by rw [← himu]; exact (ctor_inv u hc).1)
  rw [hr] at h1; cases h1
  have hl : IsLeft e := isLeft_run evs0 hr (by obtain ⟨_, -, p⟩ := ctor_par hc; exact p.left)
  obtain ⟨iR, p⟩ := estInv_asRight i hen hP hK
  obtain ⟨eL', eR', k1, k2, p', iL', -⟩ := par_run evs (fut := []) (by rw [List.append_nil]; exact i) (by rw [List.append_nil]; exact iR) (p hl)
    (startsAtRest_running evs hne (fut := []) (by rw [List.append_nil]; exact i) hen)
  refine ⟨eL', eR', k1, k2, p'.same, p'.out, by rw [p'.log], p'.on ?_⟩
  clear p' iL' k2 iR p hP hK hl hr hc
  revert i hen k1
  clear u
  induction evs generalizing e with
  | nil => intro hen i k1; cases k1; exact hen
  | cons ev evs ih =>
    intro hen i k1
    rw [imuArrivals_cons] at i
    obtain ⟨e2, h2, i2⟩ := step_inv ev i
    simp only [Estimator.run, h2, Option.bind_some] at k1
    exact ih (fun q => hne (by simp [q])) (step_enabled h2 hen (i.run hen).1 (fun q => hne (by simp [q]))) i2 k1

/-- **C60**, the condition at initialisation is needed: `InitState` sets the same block-diagonal covariance for
both error types.  If the robot moves (velocity `v ≠ 0`) this does not describe the same uncertainty in the two
error definitions, so the two filters start from different priors. -/
theorem C60_moving_start {e : Estimator} (hu : InUse e) (hen : e.enabled = false) (hp : e.pending = none) {m rest} (hb : e.prop.buffer = m :: rest)
    (hc : ∀ c ∈ e.corrs, 0 < c.queued) (hr : e.rotCov ≠ 0) {v : V3} (hv : v ≠ 0) {e' : Estimator} (he : e.initState = some e')
    (hev : e'.state.get_velocity = some v) : ¬ AdjRelated 2 e'.state.X e'.state.P e'.state.P := by
  obtain ⟨s', h1, ini, -, -, -, -, -, g⟩ := C45_all_data hu hen hp hb hc
  rw [h1] at he
  rw [← Option.some.inj he] at hev ⊢
  have hev : s'.get_velocity = some v := hev
  show ¬ AdjRelated 2 s'.X s'.P s'.P
  intro hrel
  rw [adjRelated_iff g.good.shape.x, EA_eq] at hrel
  have y1 := g.good.shape.x.rows; have y2 := g.good.shape.x.cols
  have z1 := g.good.shape.pr; have z2 := g.good.shape.pc
  have hP : s'.P = ofBlk 5 5 fun i j => s'.P.blk3 (3 * i) (3 * j) := eq_ofBlk z1 z2
  have hz : ∀ i j, i ≠ j → s'.P.blk3 (3 * i) (3 * j) = 0 := by
    intro i j hij
    funext k l
    have hk := k.2; have hl := l.2
    rw [blk3_apply]
    exact g.bd _ _ (by omega)
  have a3 : s'.X.blkV 0 (3 + 0) = v := Option.some.inj ((blkV?_eq (A := s'.X) (r := 0) (c := 3) (by omega) (by omega)).symm.trans hev)
  have b0 : s'.P.blk3 (3 * 0) (3 * 0) = e.rotCov • (1 : M3) :=
    Option.some.inj ((blk3?_eq (A := s'.P) (r := 0) (c := 0) (by omega) (by omega)).symm.trans ini.rotCov)
  have hR := g.good.shape.x.rot.2.1
  have h10 : s'.P.blk3 (3 * 1) (3 * 0) = e.rotCov • skew v := by
    conv_lhs => rw [hrel, hP, ofBlk_mul, ofBlk_T, ofBlk_mul]
    rw [ofBlk_blk3 _ (by norm_num) (by norm_num)]
    simp only [Finset.sum_range_succ, Finset.sum_range_zero, legEaF, adjF]
    rw [a3]
    have z01 := hz 0 1 (by norm_num); have z10 := hz 1 0 (by norm_num)
    simp only [Nat.mul_zero, Nat.mul_one] at z10 b0
    simp [z10, b0, Matrix.mul_assoc, hR]
  rw [hz 1 0 (by norm_num)] at h10
  apply hv
  have hs : skew v = 0 := by
    have := h10.symm
    rw [smul_eq_zero] at this
    exact this.resolve_left hr
  funext i
  have e1 := congrFun (congrFun hs 2) 1
  have e2 := congrFun (congrFun hs 0) 2
  have e3 := congrFun (congrFun hs 1) 0
  simp [skew] at e1 e2 e3
  fin_cases i <;> simp [e1, e2, e3]

/-- the hypotheses of `C60_same_trajectory` are met: a velocity correction whose newest measurement at
initialisation is zero, and any measurements and schedule afterwards (without a second initialisation) -/
theorem exRest (m : ImuMeas) (tv : ℝ) (evs : List EstEv) (hne : EstEv.clear ∉ evs)
    (hs : (m :: imuArrivals evs).Pairwise fun a b => a.time ≤ b.time) :
    ∃ eL, Estimator.ctor .leftInvariant ⟨fun _ => 0, 0⟩ {} { static_bias_initialization := some false } [.vel {}] = some eL ∧
      Usable { static_bias_initialization := some false } [.vel {}] (imuArrivals (.tick :: .imu m :: .vel 0 ⟨tv, 0⟩ :: .tick :: evs)) ∧
      StartsAtRest eL (.tick :: .imu m :: .vel 0 ⟨tv, 0⟩ :: .tick :: evs) ∧
      ∃ e, eL.run [.tick, .imu m, .vel 0 ⟨tv, 0⟩, .tick] = some e ∧ e.enabled = true ∧ ∃ K, Shape K e.state := by
  obtain ⟨eL, h0⟩ : ∃ eL, Estimator.ctor .leftInvariant ⟨fun _ => 0, 0⟩ {} { static_bias_initialization := some false } [.vel {}] = some eL := ⟨_, rfl⟩
  have u : Usable { static_bias_initialization := some false } [.vel {}] (imuArrivals (.tick :: .imu m :: .vel 0 ⟨tv, 0⟩ :: .tick :: evs)) := by
    refine ⟨?_, by simp, .inl rfl, .inl rfl, by simpa [imuArrivals] using hs⟩
    intro c hc
    simp at hc; subst hc; norm_num
  refine ⟨eL, h0, u, ?_⟩
  rw [and_comm]
  have hinv := (ctor_inv u h0).1
  obtain ⟨e3, h3, hen3, hp3, hb3, hc3⟩ : ∃ e3, eL.run [.tick, .imu m, .vel 0 ⟨tv, 0⟩] = some e3 ∧ e3.enabled = false ∧ e3.pending = none ∧
      e3.prop.biasInitialized = true ∧ ∃ c : VelCorr, e3.corrs = [.vel c] ∧ c.buffer = [⟨tv, 0⟩] := by
    rw [← Option.some.inj h0]
    simp only [Estimator.run, Estimator.step, Estimator.tick, Estimator.initBias, ImuProp.initImuBias, Option.getD_some, if_true,
      Option.map_some, Option.bind_some, if_false, Bool.false_eq_true]
    exact ⟨_, rfl, rfl, rfl, rfl, _, rfl, rfl⟩
  have hbuf : e3.prop.buffer = [m] := by
    rw [← Option.some.inj h0] at h3
    simp only [Estimator.run, Estimator.step, Estimator.tick, Estimator.initBias, ImuProp.initImuBias, Option.getD_some, if_true,
      Option.map_some, Option.bind_some, if_false, Bool.false_eq_true] at h3
    rw [← Option.some.inj h3]; rfl
  have hen12 : ∀ e1 e2, eL.step .tick = some e1 → e1.step (.imu m) = some e2 → e1.enabled = false ∧ e2.enabled = false := by
    intro e1 e2 q1 q2
    rw [← Option.some.inj h0] at q1
    simp only [Estimator.step, Estimator.tick, Estimator.initBias, ImuProp.initImuBias, Option.getD_some, if_true,
      Option.map_some, Option.bind_some, if_false, Bool.false_eq_true] at q1
    rw [← Option.some.inj q1] at q2 ⊢
    rw [← Option.some.inj q2]
    exact ⟨rfl, rfl⟩
  have hu3 : InUse e3 := exInUse h0 (evs := [.tick, .imu m, .vel 0 ⟨tv, 0⟩])
    ⟨u.vel, u.leg, u.bias, .inl rfl, by simp [imuArrivals]⟩ h3
  obtain ⟨c, hcc, hcb⟩ := hc3
  obtain ⟨s', k1, ini, -⟩ := C45_all_data hu3 hen3 hp3 hbuf (by intro d hd; rw [hcc] at hd; simp at hd; subst hd; simp [Corr.queued, hcb])
  have htick : e3.step .tick = e3.initState := by
    show e3.tick = _
    unfold Estimator.tick
    rw [hp3]
    simp only [hen3, hb3, if_true, if_false, Bool.false_eq_true]
  refine ⟨⟨_, (by rw [show [EstEv.tick, .imu m, .vel 0 ⟨tv, 0⟩, .tick] = [.tick, .imu m, .vel 0 ⟨tv, 0⟩] ++ [.tick] from rfl, run_append_one, h3]; exact htick.trans k1), rfl, ?_⟩, ?_⟩
  · obtain ⟨K, g⟩ := (inUse_inv (hu3.tick (htick.trans k1))).good
    exact ⟨K, g.shape⟩
  intro e1 q1
  have i1 := (step_inv (fut := imuArrivals (.imu m :: .vel 0 ⟨tv, 0⟩ :: .tick :: evs)) .tick (by simpa [imuArrivals] using hinv))
  obtain ⟨e1', q1', i1⟩ := i1
  rw [q1] at q1'; cases q1'
  have i2 := (step_inv (fut := imuArrivals (.vel 0 ⟨tv, 0⟩ :: .tick :: evs)) (.imu m) (by simpa [imuArrivals] using i1))
  obtain ⟨e2, q2, i2⟩ := i2
  obtain ⟨d1, d2⟩ := hen12 e1 e2 q1 q2
  refine ⟨fun _ q => (by rw [d1] at q; cases q), ?_⟩
  intro e2' q2'
  rw [q2] at q2'; cases q2'
  refine ⟨fun _ q => (by rw [d2] at q; cases q), ?_⟩
  have i3 := (step_inv (fut := imuArrivals (.tick :: evs)) (.vel 0 ⟨tv, 0⟩) (by simpa [imuArrivals] using i2))
  obtain ⟨e3', q3, i3⟩ := i3
  have : e3' = e3 := by
    simp only [Estimator.run, q1, q2, q3, Option.bind_some] at h3
    exact Option.some.inj h3
  subst this
  intro e3'' q3''
  rw [q3] at q3''; cases q3''
  refine ⟨fun _ q => (by rw [hen3] at q; cases q), ?_⟩
  have i4 := (step_inv (fut := imuArrivals evs) .tick (by simpa [imuArrivals] using i3))
  obtain ⟨e4, q4, i4⟩ := i4
  intro e4' q4'
  rw [q4] at q4'; cases q4'
  rw [htick, k1] at q4
  refine ⟨fun _ _ => ?_, startsAtRest_running evs hne (fut := []) (by rw [List.append_nil]; exact i4) (by rw [← Option.some.inj q4])⟩
  rw [← Option.some.inj q4]
  show s'.get_velocity = some 0
  rw [ini.vel, hcc]
  simp [Corr.newestVel, hcb]

/-- and those of `C60_from_related`: `P = (Ad_X ⊕ I) P_L (Ad_X ⊕ I)ᵀ` exists for every state -/
example (m m2 : ImuMeas) (tv : ℝ) (v : VelMeas) (hm : m.time ≤ m2.time) :
    ∃ e0 e, ∃ K P, Estimator.ctor .leftInvariant ⟨fun _ => 0, 0⟩ {} { static_bias_initialization := some false } [.vel {}] = some e0 ∧
      e0.run [.tick, .imu m, .vel 0 ⟨tv, 0⟩, .tick] = some e ∧
      Usable { static_bias_initialization := some false } [.vel {}]
        (imuArrivals ([.tick, .imu m, .vel 0 ⟨tv, 0⟩, .tick] ++ [.imu m2, .vel 0 v, .tick, .consume])) ∧
      e.enabled = true ∧ Shape K e.state ∧ AdjRelated K e.state.X e.state.P P := by
  obtain ⟨e0, h0, u, -, e, h1, h2, K, h3⟩ := exRest m tv [.imu m2, .vel 0 v, .tick, .consume] (by simp) (by simpa [imuArrivals] using hm)
  refine ⟨e0, e, K, EA K e.state.X * e.state.P * (EA K e.state.X).T, h0, h1, u, h2, h3, ?_⟩
  rw [adjRelated_iff h3.x]

/-- and those of `C60_moving_start`: any estimator as in `exIdle` (default covariances) whose last correction
reports a moving body -/
example {e : Estimator} (hu : InUse e) (hen : e.enabled = false) (hp : e.pending = none) {m rest} (hb : e.prop.buffer = m :: rest)
    {c : VelCorr} {x : VelMeas} (hc : e.corrs = [.vel c]) (hx : c.buffer = [x]) (hv : x.vel = ![1, 0, 0]) (ho : e.prop.useImuOri = false) :
    ∃ e', e.initState = some e' ∧ e'.state.get_velocity = some ![1, 0, 0] := by
  obtain ⟨s', h1, ini, -⟩ := C45_all_data hu hen hp hb (by intro d hd; rw [hc] at hd; simp at hd; subst hd; simp [Corr.queued, hx])
  refine ⟨_, h1, ?_⟩
  show s'.get_velocity = _
  rw [ini.vel, hc]
  simp [Corr.newestVel, hx, hv, ho]

end Drift
