import Verif.Lemmas.Walk1

/-! # Lemmas: a walking robot, with sensors without error: the history -/
set_option linter.unusedSimpArgs false
namespace Drift
open Mat Matrix RobotState

/-- the invariant of a history -/
structure WalkInv (T : Truth) (foot : ℕ → ℝ → V3) (n : ℕ) (Rm : M3) (tm bg ba : V3) (last : Option LegMeas) (fut : List ImuMeas) (e : Estimator) : Prop where
  inv : EstInv fut e
  en : e.enabled = true
  hrm : e.prop.R_imu2body = Rm
  htm : e.prop.t_imu2body = tm
  ex : ∃ tp m, TrueAt T bg ba tp e.state ∧ e.prop.prev = some m ∧ T.Imus Rm tm bg ba tp (m :: (e.prop.buffer ++ fut))
  cs : ∃ c, e.corrs = [.leg c] ∧ FeetAt foot n last c.ids e.heap e.state

/-- a propagation does not touch the columns -/
theorem feet_prop {foot : ℕ → ℝ → V3} {n : ℕ} {last : Option LegMeas} {ids : ℕ → Option ℕ} {K : ℕ} {h : Heap} {s s' : RobotState} {p p' : ImuProp} {tp : ℝ}
    {m : ImuMeas} {b : Bool} (g : Good K h s) (hids : IdsOK s ids) (ht : s.tProp = some tp) (hm : p.prev = some m) (hf : FeetAt foot n last ids h s)
    (e : p.propagate s = some (b, p', s')) : FeetAt foot n last ids h s' ∧ s'.colMap = s.colMap := by
  obtain ⟨bu, hb⟩ : ∃ bu, p.buffer = bu := ⟨_, rfl⟩
  cases bu with
  | nil =>
    rw [C36_empty p s hb] at e
    obtain ⟨rfl, rfl, rfl⟩ := Option.some.inj e
    exact ⟨hf, rfl⟩
  | cons f rest =>
    have hsq := g.q.psd.sq
    have hr : PropReady K p s m f rest tp := ⟨g.shape, g.world, g.q.r, by rw [← hsq]; exact g.q.r, hb, hm, ht⟩
    obtain ⟨f1, -, -, -, -, f2, -⟩ := C34_frame hr e
    refine ⟨fun id a ha => ?_, f2⟩
    obtain ⟨l, o, l1, l2, l3, l4, l5⟩ := hf id a ha
    obtain ⟨j, h5, -, -, hj, -⟩ := g.col (hids.mem id a ha)
    exact ⟨l, o, l1, l2, l3, l4, by rw [f1 _ (by omega)]; exact l5⟩

theorem WalkInv.step {T : Truth} {foot : ℕ → ℝ → V3} {n : ℕ} {Rm : M3} {tm bg ba : V3} {last : Option LegMeas} {fut : List ImuMeas} {e e' : Estimator}
    {ev : EstEv} (i : WalkInv T foot n Rm tm bg ba last (imuArrivals [ev] ++ fut) e) (hne : ev ≠ .clear)
    (hw : ev = .tick → ∀ q, e.nextKin = some q → T.Kin foot n q.2 ∧ q.2.time = q.1 ∧ Planted foot last q.2) (he : e.step ev = some e') :
    WalkInv T foot n Rm tm bg ba (e.lastKin last ev) fut e' ∧
      ∀ s ∈ publishedBy e ev, s = e'.state ∧ ∃ tp, TrueAt T bg ba tp s ∧ s.t = some tp := by
  obtain ⟨e2, h2, inv⟩ := step_inv ev i.inv
  rw [he] at h2
  obtain rfl := Option.some.inj h2
  have pub0 : ev ≠ .tick → publishedBy e ev = [] := by
    intro h
    cases ev <;> first | rfl | exact absurd rfl h
  obtain ⟨tp, m, hx, hm, hI⟩ := i.ex
  obtain ⟨c, hc, hf⟩ := i.cs
  cases ev with
  | clear => exact absurd rfl hne
  | imu f =>
    rw [pub0 (by simp)]
    obtain rfl := Option.some.inj he
    refine ⟨⟨inv, i.en, i.hrm, i.htm, ⟨tp, m, hx, hm, ?_⟩, ⟨c, hc, hf⟩⟩, by simp⟩
    simpa [imuArrivals] using hI
  | vel k f =>
    rw [pub0 (by simp)]
    obtain rfl := Option.some.inj he
    refine ⟨⟨inv, i.en, i.hrm, i.htm, ⟨tp, m, hx, hm, by simpa [imuArrivals] using hI⟩, ⟨c, ?_, hf⟩⟩, by simp⟩
    show e.corrs.modify k (Corr.pushVel f) = _
    rw [hc]
    cases k <;> simp [Corr.pushVel]
  | leg k f =>
    rw [pub0 (by simp)]
    obtain rfl := Option.some.inj he
    have : ∃ c', e.corrs.modify k (Corr.pushLeg f) = [.leg c'] ∧ c'.ids = c.ids := by
      rw [hc]
      cases k with
      | zero => exact ⟨_, rfl, rfl⟩
      | succ k => exact ⟨c, by simp, rfl⟩
    obtain ⟨c', h1, h2⟩ := this
    exact ⟨⟨inv, i.en, i.hrm, i.htm, ⟨tp, m, hx, hm, by simpa [imuArrivals] using hI⟩, ⟨c', h1, by rw [h2]; exact hf⟩⟩, by simp⟩
  | log =>
    rw [pub0 (by simp)]
    simp only [Estimator.step, Option.map_eq_some_iff] at he
    obtain ⟨l, -, rfl⟩ := he
    exact ⟨⟨inv, i.en, i.hrm, i.htm, ⟨tp, m, hx, hm, by simpa [imuArrivals] using hI⟩, ⟨c, hc, hf⟩⟩, by simp⟩
  | consume =>
    rw [pub0 (by simp)]
    obtain rfl := Option.some.inj he
    exact ⟨⟨inv, i.en, i.hrm, i.htm, ⟨tp, m, hx, hm, by simpa [imuArrivals] using hI⟩, ⟨c, hc, hf⟩⟩, by simp⟩
  | tick =>
    have hpend := (i.inv.run i.en).1
    have hrun : e.runOnce = some e' := by
      have : e.tick = some e' := he
      unfold Estimator.tick at this
      rw [hpend] at this
      simpa [i.en] using this
    obtain ⟨K, g⟩ := i.inv.good
    have hco : CorrOK e.state (.leg c) := i.inv.corrs.each _ (by rw [hc]; simp)
    have hids : IdsOK e.state c.ids := hco.ids
    obtain ⟨hkin, hcn⟩ : c.kinStd ≠ 0 ∧ PSD (of3 c.contactNoise) := hco.param
    unfold Estimator.runOnce at hrun
    simp only [Option.bind_eq_bind, Option.bind_eq_some_iff] at hrun
    obtain ⟨⟨b, p, s1⟩, e1, ⟨b', cs, hh, s2⟩, e2, hrun⟩ := hrun
    have hle : tp ≤ m.time := hI.1.1
    obtain ⟨b9, p9, s9, e9, g1, -⟩ := prop_good g i.inv.noise hm hx.time hle
    rw [e1] at e9
    obtain ⟨rfl, rfl, rfl⟩ := Option.some.inj e9
    obtain ⟨q1, q2, q3, tp', m', hx1, hm', hI'⟩ := prop_exact g hx i.hrm i.htm hm (by simpa [imuArrivals] using hI) e1
    obtain ⟨hf1, hcol⟩ := feet_prop g hids hx.time hm hf e1
    have hids1 : IdsOK s1 c.ids := ⟨by rw [hcol]; exact hids.mem, hids.inj⟩
    -- the correction
    have hall : ∃ c', cs = [.leg c'] ∧ TrueAt T bg ba tp' s2 ∧ FeetAt foot n ((e.nextKin.map Prod.snd).or last) c'.ids hh s2 ∧
        (b' = true → s2.t = some tp') ∧ (b' = false → s2 = s1) := by
      rw [hc] at e2
      simp only [Estimator.correctAll, Corr.correct, Option.bind_eq_bind, Option.bind_eq_some_iff, Option.map_eq_some_iff, Option.bind_some] at e2
      obtain ⟨⟨b3, c3, h3, s3⟩, ⟨⟨b4, c4, h4, s4⟩, e4, e5⟩, e6⟩ := e2
      obtain ⟨rfl, rfl, rfl, rfl⟩ := e5
      simp only [Option.some.injEq, Prod.mk.injEq, Bool.or_false] at e6
      obtain ⟨rfl, rfl, rfl, rfl⟩ := e6
      refine ⟨c4, rfl, ?_⟩
      have hnk : e.nextKin = match c.buffer with
          | [] => none
          | f :: rest => (popFresh LegMeas.time c.tDiffThres tp' f rest).map fun q => (tp', q.1) := by
        unfold Estimator.nextKin
        rw [e1, Option.bind_some]
        dsimp only
        rw [hx1.time, Option.bind_some, hc]
        rfl
      unfold LegCorr.correct at e4
      obtain ⟨bu, hb⟩ : ∃ bu, c.buffer = bu := ⟨_, rfl⟩
      rw [hb] at e4 hnk
      cases bu with
      | nil =>
        obtain ⟨rfl, rfl, rfl, rfl⟩ := Option.some.inj e4
        rw [hnk]
        exact ⟨hx1, hf1, by simp, fun _ => rfl⟩
      | cons f rest =>
        simp only [Option.bind_eq_bind, hx1.time, Option.bind_some] at e4
        obtain ⟨pf, hp⟩ : ∃ pf, popFresh LegMeas.time c.tDiffThres tp' f rest = pf := ⟨_, rfl⟩
        rw [hp] at e4
        dsimp only at hnk
        rw [hp] at hnk
        cases pf with
        | none =>
          obtain ⟨rfl, rfl, rfl, rfl⟩ := Option.some.inj e4
          rw [hnk]
          exact ⟨hx1, hf1, by simp, fun _ => rfl⟩
        | some q =>
          obtain ⟨k, r⟩ := q
          simp only [Option.bind_eq_some_iff] at e4
          obtain ⟨⟨ids', h', s'⟩, e7, e8⟩ := e4
          obtain ⟨rfl, rfl, rfl, rfl⟩ := Option.some.inj e8
          rw [Option.map_some] at hnk
          obtain ⟨w1, w2, w3⟩ := hw rfl _ hnk
          dsimp only at w1 w2 w3
          subst w2
          obtain ⟨k1, k2, k3⟩ := walk_apply g1 hids1 hkin hcn hx1 hf1 w1 w3 e7
          rw [hnk]
          exact ⟨k1, k3, fun _ => k2, by simp⟩
    obtain ⟨c', hc', hx2, hf2, ht1, ht0⟩ := hall
    have hst : e'.state = s2 ∧ e'.prop = p ∧ e'.corrs = cs ∧ e'.enabled = true ∧ e'.heap = hh := by
      simp only at hrun
      split_ifs at hrun <;> (rw [← Option.some.inj hrun]; exact ⟨rfl, rfl, rfl, i.en, rfl⟩)
    obtain ⟨r1, r2, r3, r4, r5⟩ := hst
    refine ⟨⟨inv, r4, by rw [r2]; exact q1, by rw [r2]; exact q2, ⟨tp', m', by rw [r1]; exact hx2, by rw [r2]; exact hm', by rw [r2]; simpa [imuArrivals] using hI'⟩,
      ⟨c', by rw [r3]; exact hc', by rw [r1, r5]; exact hf2⟩⟩, ?_⟩
    intro s hs'
    have hpb : publishedBy e .tick = e'.outQ.drop e.outQ.length := by unfold publishedBy; rw [he]
    rw [hpb] at hs'
    have hcase : s = s2 ∧ (b || b') = true := by
      simp only at hrun
      split_ifs at hrun with hb
      · rw [← Option.some.inj hrun] at hs'
        simp at hs'
        exact ⟨hs', by simpa using hb⟩
      · rw [← Option.some.inj hrun] at hs'
        simp at hs'
    obtain ⟨rfl, hb⟩ := hcase
    refine ⟨r1.symm, tp', hx2, ?_⟩
    cases hb' : b' with
    | true => exact ht1 hb'
    | false =>
      rw [hb', Bool.or_false] at hb
      have h9 := ht0 hb'
      have hq := q3 hb
      rw [← h9] at hq
      rw [hq]; exact hx2.time

end Drift
