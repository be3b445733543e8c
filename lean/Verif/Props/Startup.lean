import Verif.Lemmas.Boot3
import Verif.Props.Estimator2
import Verif.Props.System

/-!
# C107: the estimator starts as soon as it can, and keeps up
-/
namespace Drift
open Mat Matrix RobotState

theorem build_kinds {et : ErrorType} {cs : List CorrConfig} {corrs : List Corr} (h : cs.mapM (CorrConfig.build et) = some corrs) :
    corrs.map Corr.isVel = cs.map CorrConfig.isVel := by
  induction cs generalizing corrs with
  | nil => simp at h; subst h; rfl
  | cons a cs ih =>
    rw [List.mapM_cons] at h
    simp only [Option.bind_eq_bind, Option.bind_eq_some_iff] at h
    obtain ⟨b, hb, bs, hbs, h⟩ := h
    rw [← Option.some.inj h, List.map_cons, List.map_cons, ih hbs]
    congr 1
    cases a with
    | vel a =>
      simp only [CorrConfig.build, Option.map_eq_some_iff] at hb
      obtain ⟨v, -, rfl⟩ := hb; rfl
    | leg a => rw [← Option.some.inj hb]; rfl

/-- at the start -/
theorem phase_start {et h c ic cs e0} {imu : List ImuMeas} (u : Usable ic cs imu) (hc : Estimator.ctor et h c ic cs = some e0) :
    SampleCount e0.prop (biasSamples ic) ∧ Phase e0 (biasSamples ic) cs [] [] e0 ∧ togo (biasSamples ic) e0 = biasSamples ic + 2 := by
  obtain ⟨-, hen, hpe, -⟩ := ctor_inv u hc
  unfold Estimator.ctor at hc
  simp only [Option.bind_eq_bind, Option.bind_eq_some_iff] at hc
  obtain ⟨p, hp, corrs, hcs, he⟩ := hc
  have hb := build_ok u.vel u.leg hcs
  have hk := build_kinds hcs
  have hpf : p.buffer = [] ∧ p.staticInit = ic.static_bias_initialization.getD true ∧
      p.initBiasSize = ic.init_bias_size.getD 0 ∧ p.biasInitVec = [] ∧ p.biasInitialized = false := by
    unfold ImuProp.ctor at hp
    simp only [Option.bind_eq_bind, Option.bind_eq_some_iff] at hp
    obtain ⟨q, -, bg, -, ba, -, t, -, hp⟩ := hp
    rw [← Option.some.inj hp]
    exact ⟨rfl, rfl, rfl, rfl, rfl⟩
  obtain ⟨f1, f2, f3, f4, f5⟩ := hpf
  obtain rfl := Option.some.inj he
  refine ⟨⟨fun h => ?_, fun h => ?_⟩, ?_, ?_⟩
  · have h : p.staticInit = false := h
    rw [f2] at h
    unfold biasSamples; rw [h]; rfl
  · have h : p.staticInit = true := h
    rw [f2] at h
    have hb := u.bias.resolve_left (by rw [h]; simp)
    unfold biasSamples
    rw [h, if_pos rfl]
    show p.initBiasSize = _ ∧ _
    rw [f3]
    omega
  · refine .bias rfl rfl f5 rfl (SameSetup.refl _) 0 (by omega) (by simp) f1 f4 rfl rfl ⟨hk, by simp, ?_⟩
    intro i d hd hi
    have h0 := (hb d (List.mem_of_getElem? hd)).2.2
    refine ⟨fun h => by omega, fun hg => ?_⟩
    exfalso
    have hd' : corrs[i]? = some d := hd
    have hi : i < cs.length := by
      have : i < corrs.length := by
        by_contra hn
        rw [List.getElem?_eq_none (by omega)] at hd'
        cases hd'
      have h2 := congrArg List.length hk
      simp at h2
      omega
    unfold GotData at hg
    rw [List.getElem?_eq_getElem hi] at hg
    split at hg
    · simp at hg
    · simp at hg
    · next hx => cases hx
  · unfold togo
    simp [f5, f4]

theorem turns_append (a b : List EstEv) : turns (a ++ b) = turns a + turns b := by
  induction a with
  | nil => simp [turns]
  | cons x a ih => cases x <;> simp [turns, ih] <;> omega

theorem togo_other {N : ℕ} {e e' : Estimator} {ev : EstEv} (h1 : ev ≠ .tick) (h2 : ev ≠ .clear) (h : e.step ev = some e') : togo N e' = togo N e := by
  cases ev with
  | tick => exact absurd rfl h1
  | clear => exact absurd rfl h2
  | log => obtain ⟨l, -, rfl⟩ := Option.map_eq_some_iff.mp h; rfl
  | imu m => obtain rfl := Option.some.inj h; rfl
  | vel i m => obtain rfl := Option.some.inj h; rfl
  | leg i m => obtain rfl := Option.some.inj h; rfl
  | consume => obtain rfl := Option.some.inj h; rfl

theorem enough_mono {N cs evs ev} (h : Enough N cs evs) : Enough N cs (evs ++ [ev]) :=
  ⟨by rw [imuArrivals_snoc, List.length_append]; have := h.1; omega, fun i hi => gotData_mono (h.2 i hi)⟩

theorem ticksOK_of_inv (evs : List EstEv) : ∀ {fut} {e : Estimator}, EstInv (imuArrivals evs ++ fut) e → TicksOK e evs := by
  induction evs with
  | nil => intro fut e _; trivial
  | cons ev evs ih =>
    intro fut e i
    rw [imuArrivals_cons, List.append_assoc] at i
    obtain ⟨e1', h1', i1⟩ := step_inv ev i
    refine ⟨fun _ => ?_, fun e1 h1 => ?_⟩
    · refine { i with ori := fun m hm => i.ori m ?_, sorted := i.sorted.sublist ?_ }
      · rw [List.append_nil] at hm
        exact List.mem_append_left _ hm
      · rw [List.append_nil]
        exact (List.Sublist.refl _).append (List.sublist_append_left _ _)
    · rw [h1] at h1'
      obtain rfl := Option.some.inj h1'
      exact ih i1

/-- the whole history -/
theorem phase_run_all {e0 N cs} (hN : SampleCount e0.prop N) (evs : List EstEv) : ∀ {past pubs} {e e' : Estimator},
    Phase e0 N cs past pubs e → TicksOK e evs → NoClear evs → e.run evs = some e' →
    Phase e0 N cs (past ++ evs) (pubs ++ published e evs) e' ∧ (Enough N cs past → togo N e' ≤ togo N e - turns evs) := by
  induction evs with
  | nil =>
    intro past pubs e e' ph i hn h
    obtain rfl := Option.some.inj h
    exact ⟨by simpa [published] using ph, fun _ => by simp [turns]⟩
  | cons ev evs ih =>
    intro past pubs e e' ph i hn h
    have hn1 : ev ≠ .clear := fun hh => hn (by simp [hh])
    have hn2 : NoClear evs := fun hh => hn (by simp [hh])
    unfold Estimator.run at h
    obtain ⟨e1, h1, h2⟩ := Option.bind_eq_some_iff.mp h
    have step : Phase e0 N cs (past ++ [ev]) (pubs ++ publishedBy e ev) e1 ∧
        (Enough N cs past → togo N e1 ≤ togo N e - turns [ev]) := by
      by_cases ht : ev = .tick
      · subst ht
        exact ph.tick hN (i.1 rfl) h1
      · refine ⟨ph.other ev ht hn1 h1, fun _ => ?_⟩
        rw [togo_other ht hn1 h1]
        have : turns [ev] = 0 := by cases ev <;> first | rfl | exact absurd rfl ht
        omega
    obtain ⟨a, b⟩ := ih step.1 (i.2 e1 h1) hn2 h2
    refine ⟨?_, fun hE => ?_⟩
    · have e3 : published e (ev :: evs) = publishedBy e ev ++ published e1 evs := by
        simp only [published, h1]
      rw [e3, ← List.append_assoc, show past ++ ev :: evs = past ++ [ev] ++ evs by simp]
      exact a
    · have h3 := b (enough_mono hE)
      have h4 := step.2 hE
      have h5 : turns (ev :: evs) = turns [ev] + turns evs := turns_append [ev] evs
      omega

/-- **C107**, not too early: as soon as anything has been published (or the filter is enabled), the IMU measurements of the
bias initialisation and one more have arrived and every correction has got data. -/
theorem C107_not_before {et h c ic cs e0} (hc : Estimator.ctor et h c ic cs = some e0) {evs : List EstEv} (u : Usable ic cs (imuArrivals evs))
    (hn : NoClear evs) {e : Estimator} (hr : e0.run evs = some e) (hp : e.enabled = true ∨ published e0 evs ≠ []) :
    biasSamples ic + 1 ≤ (imuArrivals evs).length ∧ ∀ i < cs.length, GotData cs evs i := by
  obtain ⟨hN, ph, -⟩ := phase_start u hc
  obtain ⟨a, -⟩ := phase_run_all hN evs ph (ticksOK_of_inv (fut := []) evs (by rw [List.append_nil]; exact (ctor_inv u hc).1)) hn hr
  rw [List.nil_append, List.nil_append] at a
  cases a with
  | bias en _ _ pu => exact absurd hp (by rw [en, pu]; simp)
  | ready en _ _ pu => exact absurd hp (by rw [en, pu]; simp)
  | wait en _ _ pu => exact absurd hp (by rw [en, pu]; simp)
  | run en pe s0 rest pu first data j pr hj => exact ⟨by omega, data⟩

/-- **C107**, not too late: when these data have arrived, the filter is enabled and has published after at most two turns of
the main loop more than there are samples to average. -/
theorem C107_starts {et h c ic cs e0} (hc : Estimator.ctor et h c ic cs = some e0) {evs evs' : List EstEv}
    (u : Usable ic cs (imuArrivals (evs ++ evs'))) (hn : NoClear (evs ++ evs')) (hi : biasSamples ic + 1 ≤ (imuArrivals evs).length)
    (hd : ∀ i < cs.length, GotData cs evs i) (ht : biasSamples ic + 2 ≤ turns evs') :
    ∃ e, e0.run (evs ++ evs') = some e ∧ e.enabled = true ∧ published e0 (evs ++ evs') ≠ [] := by
  obtain ⟨hN, ph, hg⟩ := phase_start u hc
  have i0 := (ctor_inv u hc).1
  rw [imuArrivals_append] at i0
  obtain ⟨e1, h1, i1⟩ := run_estInv evs (fut := imuArrivals evs') i0
  obtain ⟨e2, h2, -⟩ := run_estInv evs' (fut := []) (e := e1) (by rw [List.append_nil]; exact i1)
  have hn1 : NoClear evs := fun hh => hn (by simp [hh])
  have hn2 : NoClear evs' := fun hh => hn (by simp [hh])
  obtain ⟨a, -⟩ := phase_run_all hN evs ph (ticksOK_of_inv evs i0) hn1 h1
  rw [List.nil_append, List.nil_append] at a
  obtain ⟨b, d⟩ := phase_run_all hN evs' a (ticksOK_of_inv (fut := []) evs' (by rw [List.append_nil]; exact i1)) hn2 h2
  have hrun : e0.run (evs ++ evs') = some e2 := by rw [est_run_append, h1]; exact h2
  have hpub : published e0 (evs ++ evs') = published e0 evs ++ published e1 evs' := published_append _ _ h1
  have htogo : ∀ e : Estimator, togo (biasSamples ic) e ≤ biasSamples ic + 2 := by
    intro e
    unfold togo
    cases e.enabled <;> cases e.pending <;> cases e.prop.biasInitialized <;> simp <;> omega
  have h0 := d ⟨by omega, hd⟩
  have h1' := htogo e1
  have h0 : togo (biasSamples ic) e2 = 0 := by omega
  clear d
  have key : e2.enabled = true ∧ published e0 evs ++ published e1 evs' ≠ [] := by
    cases b with
    | run en pe s0 rest pu => exact ⟨en, by rw [pu]; simp⟩
    | bias en pe bi => unfold togo at h0; rw [en, pe, bi] at h0; simp at h0
    | ready en pe bi => unfold togo at h0; rw [en, pe, bi] at h0; simp at h0
    | wait en k pe => unfold togo at h0; rw [en, pe] at h0; simp at h0
  exact ⟨e2, hrun, key.1, by rw [hpub]; exact key.2⟩

/-- **C107**, what is used for what: when the filter is enabled, the first published state is made from the first IMU
measurements (biases) and the next one (orientation, time); every later measurement drives one propagation, in the order of
arrival: after `j` of them measurement number `N + j` is held for the next step and exactly the later ones are waiting; each
propagation was published. -/
theorem C107_accounting {et h c ic cs e0} (hc : Estimator.ctor et h c ic cs = some e0) {evs : List EstEv} (u : Usable ic cs (imuArrivals evs))
    (hn : NoClear evs) {e : Estimator} (hr : e0.run evs = some e) (hen : e.enabled = true) :
    ∃ s0 rest j, published e0 evs = s0 :: rest ∧ StartsWith e0 (biasSamples ic) (imuArrivals evs) s0 ∧ j ≤ rest.length ∧
      biasSamples ic + j < (imuArrivals evs).length ∧ e.prop.prev = (imuArrivals evs)[biasSamples ic + j]? ∧
      e.prop.buffer = (imuArrivals evs).drop (biasSamples ic + j + 1) ∧
      e.state.tProp = (imuArrivals evs)[biasSamples ic + (j - 1)]?.map ImuMeas.time := by
  obtain ⟨hN, ph, -⟩ := phase_start u hc
  obtain ⟨a, -⟩ := phase_run_all hN evs ph (ticksOK_of_inv (fut := []) evs (by rw [List.append_nil]; exact (ctor_inv u hc).1)) hn hr
  rw [List.nil_append, List.nil_append] at a
  cases a with
  | bias en => rw [en] at hen; cases hen
  | ready en => rw [en] at hen; cases hen
  | wait en => rw [en] at hen; cases hen
  | run en pe s0 rest pu first data j pr hj buf tp hp => exact ⟨s0, rest, j, pu, first, hp, hj, pr, buf, tp⟩

theorem runOnce_buffer {e e' : Estimator} (h : e.runOnce = some e') :
    e'.prop.buffer = e.prop.buffer.tail ∧ e'.enabled = e.enabled ∧ e'.pending = e.pending ∧
      (e'.outQ.drop e.outQ.length).length ≤ 1 ∧ (e.prop.buffer ≠ [] → (e'.outQ.drop e.outQ.length).length = 1) := by
  unfold Estimator.runOnce at h
  simp only [Option.bind_eq_bind, Option.bind_eq_some_iff] at h
  obtain ⟨⟨b, p, s⟩, hp, ⟨b', cs, hh, s'⟩, -, h⟩ := h
  have hb : p.buffer = e.prop.buffer.tail ∧ (e.prop.buffer ≠ [] → b = true) := by
    unfold ImuProp.propagate at hp
    obtain ⟨bu, hbu⟩ : ∃ bu, e.prop.buffer = bu := ⟨_, rfl⟩
    rw [hbu] at hp
    cases bu with
    | nil =>
      simp only [Option.some.injEq, Prod.mk.injEq] at hp
      obtain ⟨rfl, rfl, rfl⟩ := hp
      rw [hbu]; simp
    | cons f r =>
      simp only [Option.bind_eq_bind, Option.bind_eq_some_iff] at hp
      obtain ⟨_, _, _, _, _, _, _, _, _, _, _, _, _, _, hp⟩ := hp
      simp only [Option.some.injEq, Prod.mk.injEq] at hp
      obtain ⟨rfl, rfl, -⟩ := hp
      rw [hbu]; simp
  simp only at h
  split_ifs at h with hbb
  · obtain rfl := Option.some.inj h
    exact ⟨hb.1, rfl, rfl, by simp, by simp⟩
  · obtain rfl := Option.some.inj h
    refine ⟨hb.1, rfl, rfl, by simp, fun hne => ?_⟩
    rw [hb.2 hne] at hbb
    simp at hbb

theorem drop_tail_append {α : Type} (l x : List α) (j : ℕ) (h : l ≠ []) : (l.tail ++ x).drop j = (l ++ x).drop (j + 1) := by
  cases l with
  | nil => exact absurd rfl h
  | cons a l => simp

theorem keeps_up_aux (evs : List EstEv) : ∀ {e e' : Estimator}, e.enabled = true → e.pending = none → NoClear evs → e.run evs = some e' →
    e'.enabled = true ∧ ∃ j, min (turns evs) e.prop.buffer.length ≤ j ∧ j ≤ (published e evs).length ∧ (published e evs).length ≤ turns evs ∧
      e'.prop.buffer = (e.prop.buffer ++ imuArrivals evs).drop j := by
  induction evs with
  | nil =>
    intro e e' hen hpe hn h
    obtain rfl := Option.some.inj h
    exact ⟨hen, 0, by simp [turns, published, imuArrivals]⟩
  | cons ev evs ih =>
    intro e e' hen hpe hn h
    have hn1 : ev ≠ .clear := fun hh => hn (by simp [hh])
    have hn2 : NoClear evs := fun hh => hn (by simp [hh])
    unfold Estimator.run at h
    obtain ⟨e1, h1, h2⟩ := Option.bind_eq_some_iff.mp h
    have e3 : published e (ev :: evs) = publishedBy e ev ++ published e1 evs := by
      simp only [published, h1]
    have h5 : turns (ev :: evs) = turns [ev] + turns evs := turns_append [ev] evs
    rw [e3, imuArrivals_cons, h5, List.length_append]
    by_cases ht : ev = .tick
    · subst ht
      have h1' : e.tick = some e1 := h1
      rw [publishedBy_tick h1']
      unfold Estimator.tick at h1'
      rw [hpe, hen] at h1'
      simp only [if_true] at h1'
      obtain ⟨b1, b2, b3, b4, b5⟩ := runOnce_buffer h1'
      obtain ⟨c1, j, c2, c3, c4, c5⟩ := ih (b2.trans hen) (b3.trans hpe) hn2 h2
      refine ⟨c1, ?_⟩
      have ht1 : turns [EstEv.tick] = 1 := rfl
      rw [b1, List.length_tail] at c2
      by_cases hbu : e.prop.buffer = []
      · refine ⟨j, ?_, by omega, by omega, ?_⟩
        · rw [hbu]; simp
        · rw [c5, b1, hbu]; rfl
      · refine ⟨j + 1, ?_, ?_, by omega, ?_⟩
        · have : 0 < e.prop.buffer.length := List.length_pos_iff.mpr hbu
          omega
        · have := b5 hbu; omega
        · rw [c5, b1, drop_tail_append _ _ _ hbu]; rfl
    · have hpub : publishedBy e ev = [] := by
        unfold publishedBy
        cases ev <;> first | rfl | exact absurd rfl ht
      have ht0 : turns [ev] = 0 := by cases ev <;> first | rfl | exact absurd rfl ht
      rw [hpub, ht0]
      have key : e1.enabled = true ∧ e1.pending = none ∧ e1.prop.buffer = e.prop.buffer ++ imuArrivals [ev] := by
        cases ev with
        | tick => exact absurd rfl ht
        | clear => exact absurd rfl hn1
        | log => obtain ⟨l, -, rfl⟩ := Option.map_eq_some_iff.mp h1; exact ⟨hen, hpe, (List.append_nil _).symm⟩
        | imu m => obtain rfl := Option.some.inj h1; exact ⟨hen, hpe, rfl⟩
        | vel i m => obtain rfl := Option.some.inj h1; exact ⟨hen, hpe, (List.append_nil _).symm⟩
        | leg i m => obtain rfl := Option.some.inj h1; exact ⟨hen, hpe, (List.append_nil _).symm⟩
        | consume => obtain rfl := Option.some.inj h1; exact ⟨hen, hpe, (List.append_nil _).symm⟩
      obtain ⟨k1, k2, k3⟩ := key
      obtain ⟨c1, j, c2, c3, c4, c5⟩ := ih k1 k2 hn2 h2
      refine ⟨c1, j, ?_, by simpa using c3, by simpa using c4, ?_⟩
      · rw [k3, List.length_append] at c2; omega
      · rw [c5, k3, List.append_assoc]

/-- **C107**, keeping up: a running filter goes on running; in `turns evs` turns of the main loop it removes `j` measurements
from the front of the IMU queue, at least as many as there were waiting or as there were turns, publishes at least one state
for each of them and at most one for each turn. -/
theorem C107_keeps_up {e e' : Estimator} (hu : InUse e) (hen : e.enabled = true) {evs : List EstEv} (hn : NoClear evs) (hr : e.run evs = some e') :
    e'.enabled = true ∧ ∃ j, min (turns evs) e.prop.buffer.length ≤ j ∧ j ≤ (published e evs).length ∧ (published e evs).length ≤ turns evs ∧
      e'.prop.buffer = (e.prop.buffer ++ imuArrivals evs).drop j :=
  keeps_up_aux evs hen ((inUse_inv hu).run hen).1 hn hr

/-! ### a concrete case: two measurements for the biases, one for the orientation, one correction -/

def exStartImu : ImuPropConfig := { static_bias_initialization := some true, init_bias_size := some 2 }

theorem exStart (et : ErrorType) (h : Heap) : ∃ e0, Estimator.ctor et h {} exStartImu [.vel {}] = some e0 := ⟨_, rfl⟩

theorem exStart_usable (m : ImuMeas) : Usable exStartImu [.vel {}] [m, m, m] :=
  ⟨by norm_num, by simp, .inr (by simp [exStartImu]), .inl rfl, by simp⟩

/-- the hypotheses of `C107_starts`: four turns are enough -/
theorem exStarts (et : ErrorType) (h : Heap) (m : ImuMeas) (v : VelMeas) {e0 : Estimator} (hc : Estimator.ctor et h {} exStartImu [.vel {}] = some e0) :
    ∃ e, e0.run ([.imu m, .imu m, .vel 0 v, .imu m] ++ [.tick, .tick, .tick, .tick]) = some e ∧ e.enabled = true ∧
      published e0 ([.imu m, .imu m, .vel 0 v, .imu m] ++ [.tick, .tick, .tick, .tick]) ≠ [] := by
  refine C107_starts hc (exStart_usable m) (by simp [NoClear]) (by simp [imuArrivals, biasSamples, exStartImu]) ?_
    (by simp [turns, biasSamples, exStartImu])
  intro i hi
  obtain rfl : i = 0 := by simpa using hi
  exact ⟨v, by simp⟩

/-- the hypotheses of `C107_not_before`, `C107_accounting` and `C107_keeps_up` -/
example (et : ErrorType) (h : Heap) (m : ImuMeas) (v : VelMeas) : ∃ e0 e evs, Estimator.ctor et h {} exStartImu [.vel {}] = some e0 ∧
    Usable exStartImu [.vel {}] (imuArrivals evs) ∧ NoClear evs ∧ e0.run evs = some e ∧ e.enabled = true ∧ published e0 evs ≠ [] ∧ InUse e := by
  obtain ⟨e0, h0⟩ := exStart et h
  obtain ⟨e, h1, h2, h3⟩ := exStarts et h m v h0
  have u : Usable exStartImu [.vel {}] (imuArrivals ([.imu m, .imu m, .vel 0 v, .imu m] ++ [.tick, .tick, .tick, .tick])) := exStart_usable m
  exact ⟨e0, e, _, h0, u, by simp [NoClear], h1, h2, h3, et, h, {}, exStartImu, _, e0, _, u, h0, h1⟩

/-! ### the shipped programs -/

theorem turns_besides (l : List EstEv) : turns (besidesImu l) = turns l := by
  induction l with
  | nil => rfl
  | cons ev l ih => cases ev <;> simp [besidesImu, turns] <;> exact ih

theorem gotData_besides {cs : List CorrConfig} (l : List EstEv) (i : ℕ) : GotData cs (besidesImu l) i ↔ GotData cs l i := by
  unfold GotData
  split <;> simp [besidesImu]

theorem noClear_besides (l : List EstEv) : NoClear (besidesImu l) ↔ NoClear l := by simp [NoClear, besidesImu]

theorem portEvs_turns (l : List EstEv) (h : ∀ ev ∈ l, ev ≠ .tick ∧ ev ≠ .consume ∧ ev ≠ .clear) : turns l = 0 ∧ NoClear l := by
  induction l with
  | nil => exact ⟨rfl, by simp [NoClear]⟩
  | cons ev l ih =>
    obtain ⟨a, b⟩ := ih fun x hx => h x (by simp [hx])
    obtain ⟨h1, -, h3⟩ := h ev (by simp)
    refine ⟨?_, fun hh => ?_⟩
    · cases ev <;> first | exact a | exact absurd rfl h1
    · rcases List.mem_cons.mp hh with hh | hh
      · exact h3 hh.symm
      · exact b hh

theorem hear_turns (mlog : M4 → M4) (P : Program) (past : List SysEv) (ev : SysEv) :
    turns (hear mlog P past ev) = mainTurns [ev] ∧ NoClear (hear mlog P past ev) := by
  cases ev with
  | msg i m =>
    refine portEvs_turns _ fun ev hev => ?_
    obtain ⟨x, -, hx⟩ := List.mem_flatMap.mp hev
    exact portEv_quiet _ _ ev hx
  | _ => exact ⟨rfl, by simp [NoClear, hear]⟩

theorem heard_turns (mlog : M4 → M4) (P : Program) (evs : List SysEv) : ∀ past, turns (eachEvent (hear mlog P) past evs) = mainTurns evs ∧
    NoClear (eachEvent (hear mlog P) past evs) := by
  induction evs with
  | nil => intro past; exact ⟨rfl, by simp [NoClear, eachEvent]⟩
  | cons ev evs ih =>
    intro past
    obtain ⟨a, b⟩ := hear_turns mlog P past ev
    obtain ⟨c, d⟩ := ih (past ++ [ev])
    refine ⟨?_, fun hh => ?_⟩
    · simp only [eachEvent, turns_append, a, c]
      cases ev <;> simp [mainTurns] <;> omega
    · rcases List.mem_append.mp hh with hh | hh
      · exact b hh
      · exact d hh

theorem mainTurns_append (a b : List SysEv) : mainTurns (a ++ b) = mainTurns a + mainTurns b := by
  induction a with
  | nil => simp [mainTurns]
  | cons x a ih => cases x <;> simp [mainTurns, ih] <;> omega

theorem sys_run_append (mlog : M4 → M4) (a b : List SysEv) : ∀ s : System, s.run mlog (a ++ b) = (s.run mlog a).bind fun s => s.run mlog b := by
  induction a with
  | nil => intro s; rfl
  | cons ev a ih =>
    intro s
    simp only [List.cons_append, System.run]
    cases s.step mlog ev with
    | none => rfl
    | some s1 => exact ih s1

theorem ticksOK_split (a : List EstEv) : ∀ {b : List EstEv} {e e1 : Estimator}, TicksOK e (a ++ b) → e.run a = some e1 → TicksOK e a ∧ TicksOK e1 b := by
  induction a with
  | nil => intro b e e1 h h1; obtain rfl := Option.some.inj h1; exact ⟨trivial, h⟩
  | cons ev a ih =>
    intro b e e1 h h1
    simp only [Estimator.run, Option.bind_eq_some_iff] at h1
    obtain ⟨e2, h2, h1⟩ := h1
    obtain ⟨x, y⟩ := ih (h.2 e2 h2) h1
    refine ⟨⟨h.1, fun e3 h3 => ?_⟩, y⟩
    rw [h2] at h3
    obtain rfl := Option.some.inj h3
    exact x

/-- the history of the estimator of a shipped program, in two pieces -/
theorem program_phases (P : Program) (hP : P ∈ Program.shipped) (mlog : M4 → M4) (h : Heap) (evs evs' : List SysEv) (hw : WellFormed P (evs ++ evs'))
    (ho : OdomDistinct P (evs ++ evs')) (hs : PropSorted P (evs ++ evs')) (s0 s : System) (h0 : P.start h = some s0)
    (h1 : s0.run mlog (evs ++ evs') = some s) (l : List ImuMeas) (hl : ImuData mlog P evs l) :
    ∃ ev1 ev2 e1, s0.est.run ev1 = some e1 ∧ e1.run ev2 = some s.est ∧ imuArrivals ev1 = l ∧
      (∀ i, GotData P.corrs ev1 i ↔ GotData P.corrs (heard mlog P evs) i) ∧ turns ev2 = mainTurns evs' ∧ (evs' = [] → ev2 = []) ∧
      Phase s0.est (biasSamples P.imu) P.corrs ev1 (published s0.est ev1) e1 ∧
      Phase s0.est (biasSamples P.imu) P.corrs (ev1 ++ ev2) (published s0.est (ev1 ++ ev2)) s.est ∧
      (Enough (biasSamples P.imu) P.corrs ev1 → togo (biasSamples P.imu) s.est ≤ togo (biasSamples P.imu) e1 - mainTurns evs') ∧
      s.pub.sent.length + s.est.outQ.length = (published s0.est (ev1 ++ ev2)).length := by
  have hsd := sound_shipped P hP
  obtain ⟨s0', h0', i⟩ := start_ok hsd h ho hs
  rw [h0] at h0'
  obtain rfl := Option.some.inj h0'
  obtain ⟨r, hf, hp, hq⟩ := start_route hsd (oneMount_shipped P hP) h0
  obtain ⟨parts, q⟩ := sys_run_parts hsd (evs ++ evs') i r hw h1
  have hctor : Estimator.ctor P.et h P.est P.imu P.corrs = some s0.est := by
    simp only [Program.start, Option.bind_eq_bind, Option.bind_eq_some_iff] at h0
    obtain ⟨⟨sub, w⟩, -, e, he, h0⟩ := h0
    rw [← Option.some.inj h0]
    exact he
  obtain ⟨hN, ph, -⟩ := phase_start (imu := []) ⟨hsd.vel, hsd.leg, hsd.bias, .inl hsd.ori, .nil⟩ hctor
  have hfl : parts.flatten = (parts.take evs.length).flatten ++ (parts.drop evs.length).flatten := by
    rw [← List.flatten_append, List.take_append_drop]
  have ht : (evs ++ evs').take evs.length = evs := by simp
  have rest1 := q.rest evs.length
  rw [ht] at rest1
  have rest2 := q.rest (evs ++ evs').length
  rw [List.take_length, ← q.len, List.take_length] at rest2
  have hnc : NoClear parts.flatten := (noClear_besides _).mp (by rw [rest2]; exact (noClear_besides _).mpr (heard_turns mlog P _ _).2)
  have himu : imuArrivals (parts.take evs.length).flatten = l := by
    unfold ImuData at hl
    obtain ⟨fo, hfo⟩ : ∃ fo, P.filter = fo := ⟨_, rfl⟩
    rw [hfo] at hl
    cases fo with
    | none =>
      have := q.plain (hf.trans hfo) evs.length
      rw [ht] at this
      rw [this]; exact hl.symm
    | some f =>
      obtain ⟨f', a1, a2⟩ := q.filt f (hf.trans hfo) evs.length
      obtain ⟨f2, b1, b2⟩ := hl
      rw [ht] at a1
      have : some f' = some f2 := a1.symm.trans b1
      obtain rfl := Option.some.inj this
      rw [← a2, b2]
  obtain ⟨c1, ops, c2, c3⟩ := q.comp
  have e0 : s0.publisher = RosPub.init P.poseRate P.pathRate := by
    unfold System.publisher
    rw [hp, hq]; rfl
  rw [e0] at c2
  obtain ⟨d1, d2, d3⟩ := C90_in_order P.poseRate P.pathRate ops c2
  rw [c3] at d3
  have tk := q.ticks
  rw [hfl] at c1 d3 tk hnc
  have c1' := c1
  rw [est_run_append, Option.bind_eq_some_iff] at c1'
  obtain ⟨e1, r1, r2⟩ := c1'
  obtain ⟨tk1, tk2⟩ := ticksOK_split _ tk r1
  obtain ⟨p1, -⟩ := phase_run_all hN _ ph tk1 (fun hh => hnc (List.mem_append_left _ hh)) r1
  rw [List.nil_append, List.nil_append] at p1
  obtain ⟨p2, g2⟩ := phase_run_all hN _ p1 tk2 (fun hh => hnc (List.mem_append_right _ hh)) r2
  rw [← published_append _ _ r1] at p2
  have hturns : turns (parts.drop evs.length).flatten = mainTurns evs' := by
    have a1 : turns (parts.take evs.length).flatten = mainTurns evs := by
      rw [← turns_besides, rest1, turns_besides]; exact (heard_turns mlog P _ _).1
    have a2 : turns parts.flatten = mainTurns (evs ++ evs') := by
      rw [← turns_besides, rest2, turns_besides]; exact (heard_turns mlog P _ _).1
    rw [hfl, turns_append, mainTurns_append, a1] at a2
    omega
  rw [hturns] at g2
  refine ⟨_, _, e1, r1, r2, himu, fun i => ?_, hturns, fun hh => ?_, p1, p2, g2, d3⟩
  · rw [← gotData_besides, rest1, gotData_besides]
    rfl
  · have := q.len
    rw [hh, List.append_nil] at this
    rw [List.drop_of_length_le (by omega)]
    rfl

/-- **C107**, the shipped programs, not too early: before a shipped program publishes its first pose, the IMU measurements of
the bias initialisation and one more have reached the estimator (directly or from the gyro filter), and so has a measurement
for every correction. -/
theorem C107_program_not_before (P : Program) (hP : P ∈ Program.shipped) (mlog : M4 → M4) (h : Heap) (evs : List SysEv) (hw : WellFormed P evs)
    (ho : OdomDistinct P evs) (hs : PropSorted P evs) (s0 s : System) (h0 : P.start h = some s0) (h1 : s0.run mlog evs = some s)
    (l : List ImuMeas) (hl : ImuData mlog P evs l) (hp : s.pub.sent ≠ []) :
    biasSamples P.imu + 1 ≤ l.length ∧ ∀ i < P.corrs.length, GotData P.corrs (heard mlog P evs) i := by
  obtain ⟨ev1, ev2, e1, r1, r2, himu, hg, -, h2, p1, -, -, hlen⟩ := program_phases P hP mlog h evs [] (by simpa using hw) (by simpa using ho)
    (by simpa using hs) s0 s h0 (by simpa using h1) l hl
  rw [h2 rfl, List.append_nil] at hlen
  have hne : published s0.est ev1 ≠ [] := by
    intro he
    rw [he, List.length_nil] at hlen
    have := List.length_pos_iff.mpr hp
    omega
  generalize published s0.est ev1 = pubs at p1 hne
  cases p1 with
  | bias en _ _ pu => exact absurd pu hne
  | ready en _ _ pu => exact absurd pu hne
  | wait en _ _ pu => exact absurd pu hne
  | run en pe s0 rest pu first data j pr hj => rw [himu] at hj; exact ⟨by omega, fun i hi => (hg i).mp (data i hi)⟩

/-- **C107**, the shipped programs, not too late: when these data have reached the estimator, a shipped program has published
a pose after at most two turns of its main loop more than there are samples to average, and one turn of the publisher. -/
theorem C107_program_starts (P : Program) (hP : P ∈ Program.shipped) (mlog : M4 → M4) (h : Heap) (evs evs' : List SysEv)
    (hw : WellFormed P (evs ++ evs')) (ho : OdomDistinct P (evs ++ evs')) (hs : PropSorted P (evs ++ evs')) (s0 s : System) (h0 : P.start h = some s0)
    (h1 : s0.run mlog (evs ++ evs' ++ [.pose]) = some s) (l : List ImuMeas) (hl : ImuData mlog P evs l) (hi : biasSamples P.imu + 1 ≤ l.length)
    (hd : ∀ i < P.corrs.length, GotData P.corrs (heard mlog P evs) i) (ht : biasSamples P.imu + 2 ≤ mainTurns evs') :
    s.pub.sent ≠ [] := by
  rw [sys_run_append, Option.bind_eq_some_iff] at h1
  obtain ⟨s1, h1, h2⟩ := h1
  obtain ⟨ev1, ev2, e1, r1, r2, himu, hg, -, -, p1, p2, g2, hlen⟩ := program_phases P hP mlog h evs evs' hw ho hs s0 s1 h0 h1 l hl
  have g2 := g2 ⟨by rw [himu]; omega, fun i hi => (hg i).mpr (hd i hi)⟩
  have htogo : togo (biasSamples P.imu) e1 ≤ biasSamples P.imu + 2 := by
    unfold togo
    cases e1.enabled <;> cases e1.pending <;> cases e1.prop.biasInitialized <;> simp <;> omega
  have h0 : togo (biasSamples P.imu) s1.est = 0 := by omega
  have hne : published s0.est (ev1 ++ ev2) ≠ [] := by
    generalize published s0.est (ev1 ++ ev2) = pubs at p2
    cases p2 with
    | run en pe s0 rest pu => rw [pu]; simp
    | bias en pe bi => unfold togo at h0; rw [en, pe, bi] at h0; simp at h0
    | ready en pe bi => unfold togo at h0; rw [en, pe, bi] at h0; simp at h0
    | wait en k pe => unfold togo at h0; rw [en, pe] at h0; simp at h0
  have hpos := List.length_pos_iff.mpr hne
  simp only [System.run, System.step, Option.bind_eq_some_iff, Option.map_eq_some_iff] at h2
  obtain ⟨s2, ⟨p, hp, rfl⟩, h2⟩ := h2
  rw [← Option.some.inj h2]
  show p.sent ≠ []
  obtain ⟨qu, hqu⟩ : ∃ qu, s1.est.outQ = qu := ⟨_, rfl⟩
  simp only [RosPub.posePublish, hqu] at hp
  cases qu with
  | nil =>
    rw [hqu] at hlen
    simp only at hp
    rw [← Option.some.inj hp]
    intro he
    have he : s1.pub.sent = [] := he
    rw [he] at hlen
    simp at hlen
    omega
  | cons st q =>
    simp only [Option.bind_eq_bind, Option.bind_eq_some_iff] at hp
    obtain ⟨m, -, k, -, r, -, hp⟩ := hp
    rw [← Option.some.inj hp]
    simp

/-- the hypotheses are met by a program with odometry in use: the first five events of `exHistory` bring the data, then the
main loop takes two turns -/
example (mlog : M4 → M4) (h : Heap) : ∃ evs evs' l s0 s, WellFormed .huskyOdom (evs ++ evs') ∧ OdomDistinct .huskyOdom (evs ++ evs') ∧
    PropSorted .huskyOdom (evs ++ evs') ∧ Program.huskyOdom.start h = some s0 ∧ s0.run mlog (evs ++ evs' ++ [.pose]) = some s ∧
    ImuData mlog .huskyOdom evs l ∧ biasSamples Program.huskyOdom.imu + 1 ≤ l.length ∧
    (∀ i < Program.huskyOdom.corrs.length, GotData Program.huskyOdom.corrs (heard mlog .huskyOdom evs) i) ∧
    biasSamples Program.huskyOdom.imu + 2 ≤ mainTurns evs' ∧ s.pub.sent ≠ [] := by
  obtain ⟨hw, ho, hs⟩ := exHistory_ok
  have hP : Program.huskyOdom ∈ Program.shipped := by simp [Program.shipped]
  obtain ⟨m1, m2, v, -, -, -, -, hh⟩ := exHistory_heard mlog
  have hsplit : exHistory = exHistory.take 5 ++ [.tick, .pose, .tick] ++ [.pose] ++ [.log, .path] := rfl
  have sub : ∀ {evs}, evs ++ [SysEv.pose] ++ [.log, .path] = exHistory → WellFormed .huskyOdom (evs ++ [.pose]) ∧ WellFormed .huskyOdom evs ∧
      (OdomDistinct .huskyOdom (evs ++ [.pose]) ∧ OdomDistinct .huskyOdom evs) ∧ PropSorted .huskyOdom (evs ++ [.pose]) ∧ PropSorted .huskyOdom evs := by
    intro evs he
    rw [← he] at hw ho hs
    have q : ∀ i, stampsAt i (evs ++ [.pose] ++ [.log, .path]) = stampsAt i evs ∧ stampsAt i (evs ++ [.pose]) = stampsAt i evs := by
      intro i; simp [stampsAt]
    have q' : propStamps .huskyOdom (evs ++ [.pose] ++ [.log, .path]) = propStamps .huskyOdom evs ∧
        propStamps .huskyOdom (evs ++ [.pose]) = propStamps .huskyOdom evs := by
      simp [propStamps]
    unfold PropSorted OdomDistinct at *
    simp only [(q _).1, (q _).2, q'.1, q'.2] at ho hs ⊢
    exact ⟨fun i m x hm => hw i m x (List.mem_append_left _ hm), fun i m x hm => hw i m x (by simp [hm]), ⟨ho, ho⟩, hs, hs⟩
  obtain ⟨w1, w2, ⟨o1, o2⟩, t1, t2⟩ := sub hsplit.symm
  obtain ⟨s0, s, h0, h1⟩ := C104_defined _ hP mlog h _ w1 o1 t1
  have hb : biasSamples Program.huskyOdom.imu = 0 := by simp [biasSamples, Program.huskyOdom, Program.plain]
  have hg : ∀ i < Program.huskyOdom.corrs.length, GotData Program.huskyOdom.corrs (heard mlog .huskyOdom (exHistory.take 5)) i := by
    intro i hi
    obtain rfl : i = 0 := by simpa [Program.huskyOdom, Program.plain] using hi
    rw [hh]
    exact ⟨v, by simp⟩
  have hd : ImuData mlog .huskyOdom (exHistory.take 5) [m1, m2] := by
    show [m1, m2] = imuArrivals (heard mlog .huskyOdom (exHistory.take 5))
    rw [hh]; rfl
  have ht : biasSamples Program.huskyOdom.imu + 2 ≤ mainTurns [.tick, .pose, .tick] := by rw [hb]; simp [mainTurns]
  exact ⟨_, _, _, s0, s, w2, o2, t2, h0, h1, hd, by rw [hb]; simp, hg, ht,
    C107_program_starts _ hP mlog h _ _ w2 o2 t2 s0 s h0 h1 _ hd (by rw [hb]; simp) hg ht⟩

end Drift
