import Verif.Lemmas.Walk2
import Verif.Props.Perfect

/-!
# C145: a walking robot with perfect sensors, C146: a foot that was lifted
-/
set_option linter.unusedSimpArgs false
namespace Drift
open Mat Matrix RobotState

theorem walk_run {T : Truth} {foot : ℕ → ℝ → V3} {n : ℕ} {Rm : M3} {tm bg ba : V3} (evs : List EstEv) :
    ∀ {last : Option LegMeas} {e a : Estimator}, WalkInv T foot n Rm tm bg ba last (imuArrivals evs) e → NoClear evs →
      e.Walking T foot n last evs → e.run evs = some a →
      (∀ s ∈ published e evs, ∃ t, s.t = some t ∧ s.tProp = some t ∧ T.At t s) ∧
        WalkInv T foot n Rm tm bg ba (e.lastUsed last evs) [] a := by
  induction evs with
  | nil =>
    intro last e a i _ _ hr
    obtain rfl := Option.some.inj hr
    exact ⟨by simp [published], i⟩
  | cons ev evs ih =>
    intro last e a i hn hw hr
    have i' : WalkInv T foot n Rm tm bg ba last (imuArrivals [ev] ++ imuArrivals evs) e := by
      rw [← imuArrivals_cons]; exact i
    obtain ⟨e1, h1, -⟩ := step_inv ev i'.inv
    rw [Estimator.run, h1] at hr
    obtain ⟨i1, hp⟩ := WalkInv.step i' (fun h => hn (by simp [h])) hw.1 h1
    obtain ⟨k1, k2⟩ := ih i1 (fun h => hn (by simp [h])) (hw.2 e1 h1) hr
    refine ⟨fun s hs => ?_, by rw [Estimator.lastUsed, h1]; exact k2⟩
    rw [published_cons h1] at hs
    rcases List.mem_append.mp hs with h | h
    · obtain ⟨-, t, hx, ht⟩ := hp s h
      exact ⟨t, ht, hx.time, hx.at_⟩
    · exact k1 s h

/-- **C145**: a legged robot with perfect sensors is estimated exactly.  Take an estimator in use whose only correction is a contact correction, that
runs, has no contact yet, and whose pose, velocity and biases are true at its propagation time; from there on let the IMU readings be without
error, and let every kinematic measurement that is used be without error, be used when the estimate has been propagated to its stamp, and show
feet that stay where they are while in contact.  Then, in every history without `clear()`, every published state is the true pose and velocity at its
stamp, and at the end the column of every leg that has one is the true place of its foot at the last used measurement, in which it is in contact. -/
theorem C145_exact {et h g ic cs} {e0 e a : Estimator} {evs0 evs : List EstEv} (hc : Estimator.ctor et h g ic cs = some e0)
    (u : Usable ic cs (imuArrivals (evs0 ++ evs))) (hr : e0.run evs0 = some e) (hen : e.enabled = true)
    {T : Truth} {foot : ℕ → ℝ → V3} {n : ℕ} {c : LegCorr} {bg ba : V3} {tp : ℝ} {m : ImuMeas} (hcs : e.corrs = [.leg c]) (hids : ∀ id, c.ids id = none)
    (htp : e.state.tProp = some tp) (hat : T.At tp e.state) (hbg : e.state.get_gyroscope_bias = some bg) (hba : e.state.get_accelerometer_bias = some ba)
    (hm : e.prop.prev = some m) (hI : T.Imus e.prop.R_imu2body e.prop.t_imu2body bg ba tp (m :: (e.prop.buffer ++ imuArrivals evs)))
    (hw : e.Walking T foot n none evs) (hn : NoClear evs) (ha : e.run evs = some a) :
    (∀ s ∈ published e evs, ∃ t, s.t = some t ∧ s.tProp = some t ∧ T.At t s) ∧
      ∃ c', a.corrs = [.leg c'] ∧ ∀ id x, c'.ids id = some x →
        ∃ l o, e.lastUsed none evs = some l ∧ l.legs[id]? = some o ∧ o.contact = true ∧ a.state.get_vector (a.heap.val x) = some (foot id l.time) := by
  have himu : imuArrivals (evs0 ++ evs) = imuArrivals evs0 ++ imuArrivals evs := by
    clear * -
    induction evs0 with
    | nil => rfl
    | cons ev l ih => cases ev <;> simp [imuArrivals, ih]
  obtain ⟨e', h1, inv⟩ := run_estInv evs0 (fut := imuArrivals evs) (e := e0) (by rw [← himu]; exact (ctor_inv u hc).1)
  rw [hr] at h1
  obtain rfl := Option.some.inj h1
  obtain ⟨K, g⟩ := inv.good
  obtain ⟨k1, k2⟩ := walk_run evs (T := T) (foot := foot) (n := n) (last := none) ⟨inv, hen, rfl, rfl, ⟨tp, m, ⟨⟨K, g.shape⟩, g.world, htp, hat, hbg, hba⟩, hm, hI⟩,
    ⟨c, hcs, fun id x hx => by rw [hids] at hx; cases hx⟩⟩ hn hw ha
  obtain ⟨c', q1, q2⟩ := k2.cs
  refine ⟨k1, c', q1, fun id x hx => ?_⟩
  obtain ⟨l, o, w1, -, w2⟩ := q2 id x hx
  exact ⟨l, o, w1, w2⟩

/-! ### a concrete case: a robot with two legs moves forward with speed `v`; the first foot stays on the ground, the second is put down at time 1 -/

/-- the places of the feet -/
noncomputable def walkFoot (id : ℕ) (_ : ℝ) : V3 := if id = 0 then ![1, 0, 0] else ![2, 1, 0]

/-- the kinematic measurement at time `t`: the feet seen from the body; the second one is in contact from time 1 on -/
noncomputable def walkKin (v t : ℝ) : LegMeas :=
  ⟨t, [⟨true, ![1 - v * t, 0, 0], 1⟩, ⟨decide (1 ≤ t), ![2 - v * t, 1, 0], 1⟩], fun _ => ![v, 0, 0]⟩

theorem walk_kin (v t : ℝ) : (fwdTruth v 0).Kin walkFoot 2 (walkKin v t) := by
  refine ⟨rfl, fun id o ho _ => ?_⟩
  show (1 : M3).mulVec o.pos = walkFoot id t - ![v * t + 0 * t ^ 2 / 2, 0, 0]
  rw [one_mulVec]
  match id, ho with
  | 0, ho =>
    obtain rfl := Option.some.inj ho
    funext i; fin_cases i <;> simp [walkFoot]
  | 1, ho =>
    obtain rfl := Option.some.inj ho
    funext i; fin_cases i <;> simp [walkFoot]
  | k + 2, ho => simp [walkKin] at ho

/-- the estimator is constructed, gets an IMU reading and a kinematic measurement at time 0 and is initialised from them: the estimate is the truth -/
theorem walk_start (v : ℝ) : ∃ e0 e c, Estimator.ctor .rightInvariant ⟨fun _ => 0, 0⟩ {} fwdConfig [.leg {}] = some e0 ∧
    e0.run [.tick, .imu (fwdImu 0 0), .leg 0 (walkKin v 0), .tick] = some e ∧ e.enabled = true ∧ e.corrs = [.leg c] ∧
    c.buffer = [] ∧ c.tDiffThres = 0.3 ∧ (∀ id, c.ids id = none) ∧
    e.state.tProp = some 0 ∧ (fwdTruth v 0).At 0 e.state ∧ e.state.get_gyroscope_bias = some 0 ∧ e.state.get_accelerometer_bias = some 0 ∧
    e.prop.prev = some (fwdImu 0 0) ∧ e.prop.buffer = [] ∧ e.prop.R_imu2body = 1 ∧ e.prop.t_imu2body = 0 := by
  obtain ⟨e0, h0⟩ : ∃ e0, Estimator.ctor .rightInvariant ⟨fun _ => 0, 0⟩ {} fwdConfig [.leg {}] = some e0 := ⟨_, rfl⟩
  have u : Usable fwdConfig [.leg {}] (imuArrivals [.tick, .imu (fwdImu 0 0), .leg 0 (walkKin v 0)]) :=
    ⟨by simp, by norm_num, .inl rfl, .inl rfl, by simp [imuArrivals]⟩
  obtain ⟨e1, h1⟩ : ∃ e1, e0.run [.tick, .imu (fwdImu 0 0), .leg 0 (walkKin v 0)] = some e1 := (C58_safe h0 _ u).imp fun _ h => h.1
  have hu : InUse e1 := exInUse h0 u h1
  have hrun := h1
  rw [← Option.some.inj h0] at h1
  simp only [Estimator.run, Estimator.step, Estimator.tick, Estimator.initBias, ImuProp.initImuBias, Option.getD_some, if_true,
    Option.map_some, Option.bind_some, if_false, Bool.false_eq_true, fwdConfig] at h1
  have he := (Option.some.inj h1).symm
  have hone : Quat.toRot ⟨1, 0, 0, 0⟩ = 1 := by
    ext i j; fin_cases i <;> fin_cases j <;> simp [Quat.toRot]
  obtain ⟨c, hc, c1, c2, c3⟩ : ∃ c : LegCorr, e1.corrs = [.leg c] ∧ c.buffer = [walkKin v 0] ∧ c.tDiffThres = 0.3 ∧ ∀ id, c.ids id = none :=
    ⟨_, by rw [he]; rfl, rfl, rfl, fun _ => rfl⟩
  obtain ⟨s', k1, k2, k3, k4, k5, k6, -⟩ := C45_all_data hu (by rw [he]) (by rw [he]) (m := fwdImu 0 0) (rest := []) (by rw [he]; rfl) (by
    intro d hd; rw [hc] at hd; obtain rfl := List.mem_singleton.mp hd; simp [Corr.queued, c1])
  have htick : e1.step .tick = e1.initState := by
    show e1.tick = _
    unfold Estimator.tick
    rw [he]; rfl
  have hori : (if e1.prop.useImuOri then (fwdImu 0 0).quat.toRot else 1 : M3) = 1 := by rw [he]; simp
  have hrot := k2.rot
  have hvel := k2.vel
  rw [hori] at hrot hvel
  have hfin : ∀ E, e1.step .tick = some E → e0.run [.tick, .imu (fwdImu 0 0), .leg 0 (walkKin v 0), .tick] = some E := fun E hE => by
    rw [show ([.tick, .imu (fwdImu 0 0), .leg 0 (walkKin v 0), .tick] : List EstEv) = [.tick, .imu (fwdImu 0 0), .leg 0 (walkKin v 0)] ++ [.tick] from rfl,
      run_append_one, hrun]
    exact hE
  refine ⟨e0, _, { c with buffer := [] }, h0, hfin _ (htick.trans k1), rfl, by rw [hc]; rfl, rfl, c2, c3, k6, ⟨?_, ?_, ?_⟩, ?_, ?_, rfl, rfl, ?_, ?_⟩
  · exact hrot
  · dsimp only
    rw [hvel, hc]
    simp [Corr.newestVel, c1, walkKin, fwdTruth]
  · dsimp only
    rw [k3]
    simp [fwdTruth]
    funext i; fin_cases i <;> rfl
  · dsimp only
    rw [k4, he]
    exact congrArg some (by funext i; fin_cases i <;> rfl)
  · dsimp only
    rw [k5, he]
    exact congrArg some (by funext i; fin_cases i <;> rfl)
  · dsimp only
    rw [he]; exact hone
  · dsimp only
    rw [he]
    funext i; fin_cases i <;> rfl

/-- between two cycles: the queues are empty, the held IMU reading is of time `t` -/
structure WalkIdle (t : ℝ) (fut : List ImuMeas) (e : Estimator) : Prop where
  inv : EstInv fut e
  en : e.enabled = true
  prev : ∃ m, e.prop.prev = some m ∧ m.time = t
  buf : e.prop.buffer = []
  corr : ∃ c : LegCorr, e.corrs = [.leg c] ∧ c.buffer = [] ∧ 0 ≤ c.tDiffThres

/-- one cycle: the next IMU reading arrives and the estimate is propagated to the time `t` of the held one, then the kinematic measurement of that
time arrives and is used -/
noncomputable def walkCycle (v : ℝ) (t t' : ℝ) : List EstEv := [.imu (fwdImu 0 t'), .tick, .leg 0 (walkKin v t), .tick]

theorem tick_leg {fut : List ImuMeas} {e e' : Estimator} {c : LegCorr} (i : EstInv fut e) (hen : e.enabled = true) (hc : e.corrs = [.leg c])
    (h : e.step .tick = some e') : ∃ b p s1 b' c' h' s2, e.prop.propagate e.state = some (b, p, s1) ∧ c.correct e.heap s1 = some (b', c', h', s2) ∧
      e'.prop = p ∧ e'.corrs = [.leg c'] ∧ e'.enabled = true ∧ e'.state = s2 ∧ e'.heap = h' := by
  have hpend := (i.run hen).1
  have hrun : e.runOnce = some e' := by
    have : e.tick = some e' := h
    unfold Estimator.tick at this
    rw [hpend] at this
    simpa [hen] using this
  unfold Estimator.runOnce at hrun
  simp only [Option.bind_eq_bind, Option.bind_eq_some_iff] at hrun
  obtain ⟨⟨b, p, s1⟩, e1, ⟨b', cs, hh, s2⟩, e2, hrun⟩ := hrun
  rw [hc] at e2
  simp only [Estimator.correctAll, Corr.correct, Option.bind_eq_bind, Option.bind_eq_some_iff, Option.map_eq_some_iff, Option.bind_some] at e2
  obtain ⟨⟨b3, c3, h3, s3⟩, ⟨⟨b4, c4, h4, s4⟩, e4, e5⟩, e6⟩ := e2
  obtain ⟨rfl, rfl, rfl, rfl⟩ := e5
  simp only [Option.some.injEq, Prod.mk.injEq, Bool.or_false] at e6
  obtain ⟨rfl, rfl, rfl, rfl⟩ := e6
  refine ⟨b, p, s1, b4, c4, h4, s4, e1, e4, ?_⟩
  simp only at hrun
  split_ifs at hrun <;> (rw [← Option.some.inj hrun]; exact ⟨rfl, rfl, hen, rfl, rfl⟩)

theorem walk_cycle {v t t' : ℝ} {fut : List ImuMeas} {e : Estimator} {last : Option LegMeas} {rest : List EstEv} (w : WalkIdle t (fwdImu 0 t' :: fut) e)
    (hr : ∀ e', WalkIdle t' fut e' → e'.Walking (fwdTruth v 0) walkFoot 2 (some (walkKin v t)) rest) :
    e.Walking (fwdTruth v 0) walkFoot 2 last (walkCycle v t t' ++ rest) := by
  obtain ⟨m, hm, rfl⟩ := w.prev
  obtain ⟨c, hc, hcb, hthr⟩ := w.corr
  refine ⟨by simp, fun e1 h1 => ?_⟩
  obtain ⟨e1', h1', i1⟩ := step_inv (.imu (fwdImu 0 t')) (fut := fut) w.inv
  rw [h1] at h1'
  obtain rfl := Option.some.inj h1'
  obtain rfl := Option.some.inj h1
  -- the IMU reading is there
  obtain ⟨tp, m2, htp, hm2, hle, -⟩ := (w.inv.run w.en).2
  rw [hm] at hm2
  obtain rfl := Option.some.inj hm2
  obtain ⟨K, g⟩ := w.inv.good
  obtain ⟨b, p, s1, e1, g1, -, hp⟩ := prop_good (p := { e.prop with buffer := e.prop.buffer ++ [fwdImu 0 t'] }) g w.inv.noise hm htp hle
  obtain ⟨-, rfl, -, htp1, -⟩ := hp (fwdImu 0 t') [] (by rw [w.buf]; rfl)
  have hnk : Estimator.nextKin { e with prop := { e.prop with buffer := e.prop.buffer ++ [fwdImu 0 t'] } } = none := by
    unfold Estimator.nextKin
    dsimp only
    rw [e1, Option.bind_some, htp1, Option.bind_some, hc]
    dsimp only
    rw [hcb]
  refine ⟨fun _ q hq => ?_, fun e2 h2 => ?_⟩
  · have hq : Estimator.nextKin { e with prop := { e.prop with buffer := e.prop.buffer ++ [fwdImu 0 t'] } } = some q := hq
    rw [hnk] at hq
    cases hq
  obtain ⟨b2, p2, s2, b3, c3, h3, s3, q1, q2, q3, q4, q5, q6, -⟩ := tick_leg i1 w.en hc h2
  rw [show ({ e.prop with buffer := e.prop.buffer ++ [fwdImu 0 t'] } : ImuProp).propagate e.state = _ from q1] at e1
  obtain ⟨-, rfl, rfl⟩ := Option.some.inj e1
  have hcor : c.correct e.heap s1 = some (false, c, e.heap, s1) := by
    unfold LegCorr.correct; rw [hcb]
  have q2' := q2
  dsimp only at q2'
  rw [hcor] at q2'
  simp only [Option.some.injEq, Prod.mk.injEq] at q2'
  obtain ⟨r1, r2, r3, r4⟩ := q2'
  rw [← r2] at q4
  obtain ⟨e2', h2', i2⟩ := step_inv .tick (fut := fut) (by simpa [imuArrivals] using i1)
  rw [h2] at h2'
  obtain rfl := Option.some.inj h2'
  have hst2 : e2.state.tProp = some m.time := by rw [q6, ← r4]; exact htp1
  -- the kinematic measurement arrives
  refine ⟨by simp, fun e3 h3 => ?_⟩
  obtain ⟨e3', h3', i3⟩ := step_inv (.leg 0 (walkKin v m.time)) (fut := fut) (by simpa [imuArrivals] using i2)
  rw [h3] at h3'
  obtain rfl := Option.some.inj h3'
  have h3 := (Option.some.inj h3).symm
  have hc3 : e3.corrs = [.leg { c with buffer := [walkKin v m.time] }] := by
    rw [h3]
    show e2.corrs.modify 0 (Corr.pushLeg (walkKin v m.time)) = _
    rw [q4]
    show [Corr.leg { c with buffer := c.buffer ++ [walkKin v m.time] }] = _
    rw [hcb]; rfl
  have hen3 : e3.enabled = true := by rw [h3]; exact q5
  have hprop3 : e3.prop = { e.prop with buffer := [], prev := some (fwdImu 0 t') } := by rw [h3]; exact q3
  have hpe : e3.prop.propagate e3.state = some (false, e3.prop, e3.state) := C36_empty _ _ (by rw [hprop3])
  have htp3 : e3.state.tProp = some m.time := by rw [h3]; exact hst2
  have hpf : popFresh LegMeas.time c.tDiffThres m.time (walkKin v m.time) [] = some (walkKin v m.time, []) :=
    popFresh_some.mpr ⟨[], rfl, by simp, by simp [Stale, walkKin]; linarith⟩
  have hnk3 : e3.nextKin = some (m.time, walkKin v m.time) := by
    unfold Estimator.nextKin
    rw [hpe, Option.bind_some]
    dsimp only
    rw [htp3, Option.bind_some, hc3]
    dsimp only
    rw [hpf]; rfl
  refine ⟨fun _ q hq => ?_, fun e4 h4 => ?_⟩
  · rw [hnk3] at hq
    obtain rfl := Option.some.inj hq
    refine ⟨walk_kin v m.time, rfl, ?_⟩
    intro l hl' id o o' _ _ _ _
    rfl
  · have hlk : ∀ l, Estimator.lastKin l e3 .tick = some (walkKin v m.time) := fun l => by unfold Estimator.lastKin; rw [hnk3]; rfl
    rw [hlk]
    obtain ⟨e4', h4', i4⟩ := step_inv .tick (fut := fut) (by simpa [imuArrivals] using i3)
    rw [h4] at h4'
    obtain rfl := Option.some.inj h4'
    obtain ⟨b5, p5, s5, b6, c6, h6, s6, w1, w2, w3, w4, w5, -⟩ := tick_leg i3 hen3 hc3 h4
    rw [hpe] at w1
    obtain ⟨-, rfl, rfl⟩ := Option.some.inj w1
    refine hr e4 ⟨i4, w5, ⟨fwdImu 0 t', by rw [w3, hprop3], rfl⟩, by rw [w3, hprop3], c6, w4, ?_⟩
    unfold LegCorr.correct at w2
    simp only [htp3, Option.bind_eq_bind, Option.bind_some] at w2
    rw [hpf] at w2
    simp only [Option.bind_eq_some_iff] at w2
    obtain ⟨⟨x, y, z⟩, -, w2⟩ := w2
    obtain ⟨-, rfl, -, -⟩ := Option.some.inj w2
    exact ⟨rfl, hthr⟩

/-- cycle after cycle; the held IMU reading is of time `t` at first -/
noncomputable def walkCycles (v : ℝ) : ℝ → List ℝ → List EstEv
  | _, [] => []
  | t, t' :: ts => walkCycle v t t' ++ walkCycles v t' ts

theorem walkCycles_imu (v : ℝ) (ts : List ℝ) : ∀ t, imuArrivals (walkCycles v t ts) = ts.map (fwdImu 0) := by
  induction ts with
  | nil => intro _; rfl
  | cons t' ts ih => intro t; simp [walkCycles, walkCycle, imuArrivals, ih]

theorem walkCycles_walking (v : ℝ) (ts : List ℝ) : ∀ {t : ℝ} {last : Option LegMeas} {e : Estimator}, WalkIdle t (ts.map (fwdImu 0)) e →
    e.Walking (fwdTruth v 0) walkFoot 2 last (walkCycles v t ts) := by
  induction ts with
  | nil => intro _ _ _ _; trivial
  | cons t' ts ih => intro t last e w; exact walk_cycle w fun e' w' => ih w'

/-- the hypotheses of `C145_exact` are met: the robot walks on, with IMU readings at arbitrary times `ts` and a kinematic measurement for each -/
example (v : ℝ) (ts : List ℝ) (hts : (0 :: ts).Pairwise (· ≤ ·)) : ∃ e0 e a : Estimator,
    e0.run [.tick, .imu (fwdImu 0 0), .leg 0 (walkKin v 0), .tick] = some e ∧ e.run (walkCycles v 0 ts) = some a ∧
    (∀ s ∈ published e (walkCycles v 0 ts), ∃ t, s.t = some t ∧ s.tProp = some t ∧ (fwdTruth v 0).At t s) := by
  obtain ⟨e0, e, c, h0, h1, hen, hc, c1, c2, c3, k1, k2, k3, k4, k5, k6, k7, k8⟩ := walk_start v
  have himu := walkCycles_imu v ts 0
  have harr : imuArrivals ([.tick, .imu (fwdImu 0 0), .leg 0 (walkKin v 0), .tick] ++ walkCycles v 0 ts) = (0 :: ts).map (fwdImu 0) := by
    simp only [List.cons_append, List.nil_append, imuArrivals, himu, List.map_cons]
  have u : Usable fwdConfig [.leg {}] (imuArrivals ([.tick, .imu (fwdImu 0 0), .leg 0 (walkKin v 0), .tick] ++ walkCycles v 0 ts)) := by
    refine ⟨by simp, by norm_num, .inl rfl, .inl rfl, ?_⟩
    rw [harr, List.pairwise_map]
    exact hts
  obtain ⟨e', h1', inv⟩ := run_estInv [.tick, .imu (fwdImu 0 0), .leg 0 (walkKin v 0), .tick] (fut := ts.map (fwdImu 0)) (e := e0)
    (by have := (ctor_inv u h0).1; rwa [harr] at this)
  rw [h1] at h1'
  obtain rfl := Option.some.inj h1'
  have hidle : WalkIdle 0 (ts.map (fwdImu 0)) e := ⟨inv, hen, ⟨_, k5, rfl⟩, k6, c, hc, c1, by rw [c2]; norm_num⟩
  obtain ⟨a, ha, -⟩ := run_estInv (walkCycles v 0 ts) (fut := []) (e := e) (by rw [himu, List.append_nil]; exact inv)
  have hx := C145_exact (evs := walkCycles v 0 ts) h0 u h1 hen hc c3 k1 k2 k3 k4 k5 (by
      rw [k6, k7, k8, himu, List.nil_append]
      exact fwd_imus v 0 (0 :: ts) 0 (List.pairwise_cons.mpr ⟨by simpa using (List.pairwise_cons.mp hts).1, hts⟩))
    (walkCycles_walking v ts hidle) (by
      clear * -
      have : ∀ t, NoClear (walkCycles v t ts) := by
        induction ts with
        | nil => intro _; simp [walkCycles, NoClear]
        | cons t' ts ih =>
          intro t
          have := ih t'
          simp [NoClear] at this
          simpa [NoClear, walkCycles, walkCycle] using this
      exact this 0) ha
  exact ⟨e0, e, a, h1, ha, hx.1⟩

/-! ### C146: a foot that was lifted and put down elsewhere -/

/-- **C146**, what holds: a lift-off in a measurement that is used is noticed.  If the first queued measurement is not too old it is used, and
afterwards a leg that it reports not in contact has no column (so that the next touchdown makes a new one, C53). -/
theorem C146_used_partial {K : ℕ} {h : Heap} {s : RobotState} (g : Good K h s) {c c' : LegCorr} (hids : IdsOK s c.ids) (hk : c.kinStd ≠ 0)
    (hcn : PSD (of3 c.contactNoise)) {tp : ℝ} (htp : s.tProp = some tp) {m : LegMeas} {rest : List LegMeas} (hb : c.buffer = m :: rest)
    (hm : ¬ Stale c.tDiffThres tp m.time) {b h' s'} (e : c.correct h s = some (b, c', h', s')) :
    b = true ∧ c'.buffer = rest ∧ ∀ (id : ℕ) o, m.legs[id]? = some o → o.contact = false → c'.ids id = none := by
  unfold LegCorr.correct at e
  rw [hb] at e
  simp only [htp, Option.bind_eq_bind, Option.bind_some] at e
  rw [show popFresh LegMeas.time c.tDiffThres tp m rest = some (m, rest) from popFresh_some.mpr ⟨[], rfl, by simp, hm⟩] at e
  simp only [Option.bind_eq_some_iff] at e
  obtain ⟨⟨ids', h1, s1⟩, e1, e2⟩ := e
  obtain ⟨rfl, rfl, rfl, rfl⟩ := Option.some.inj e2
  obtain ⟨K', s1, ids1, h1, s2, e3, g1, st⟩ := legApply_spec g c hids hk hcn m
  rw [e1] at e3
  cases e3
  exact ⟨rfl, rfl, fun id o ho hc => st.off id o ho hc⟩

/-- **C146**, the general reason why it is false: measurements that are too old are dropped without a look at their contacts.  However many of
them report that the leg was lifted, a leg that had a column and is in contact in the first measurement that is not too old keeps its reference,
and the update compares the foot with the column made before. -/
theorem C146_dropped_partial {K : ℕ} {h : Heap} {s : RobotState} (g : Good K h s) {c c' : LegCorr} (hids : IdsOK s c.ids) (hk : c.kinStd ≠ 0)
    (hcn : PSD (of3 c.contactNoise)) {tp : ℝ} (htp : s.tProp = some tp) {old : List LegMeas} {m : LegMeas} {rest : List LegMeas}
    (hb : c.buffer = old ++ m :: rest) (ho : ∀ x ∈ old, Stale c.tDiffThres tp x.time) (hm : ¬ Stale c.tDiffThres tp m.time)
    {b h' s'} (e : c.correct h s = some (b, c', h', s')) {id a : ℕ} {o : LegObs} (hi : c.ids id = some a) (hl : m.legs[id]? = some o) (hc : o.contact = true) :
    c'.ids id = some a ∧ ∃ s1 R p d Z H N k, correctRightInvariant Z H N { s with t := some m.time } c.errorType = some s1 ∧
      s.get_rotation = some R ∧ s.get_position = some p ∧ s.get_vector (h.val a) = some d ∧ Z.blkV (3 * k) 0 = R.mulVec o.pos - (d - p) := by
  have hpf : ∀ {f r}, c.buffer = f :: r → popFresh LegMeas.time c.tDiffThres tp f r = some (m, rest) := fun h =>
    popFresh_some.mpr ⟨old, by rw [← h, hb], ho, hm⟩
  unfold LegCorr.correct at e
  obtain ⟨bu, hbu⟩ : ∃ bu, c.buffer = bu := ⟨_, rfl⟩
  cases bu with
  | nil => rw [hb] at hbu; simp at hbu
  | cons f r =>
    rw [hbu] at e
    simp only [htp, Option.bind_eq_bind, Option.bind_some] at e
    rw [hpf hbu] at e
    simp only [Option.bind_eq_some_iff] at e
    obtain ⟨⟨ids', h1, s1⟩, e1, e2⟩ := e
    obtain ⟨rfl, rfl, rfl, rfl⟩ := Option.some.inj e2
    obtain ⟨K', s1, ids1, h1, s2, e3, g1, st⟩ := legApply_spec g c hids hk hcn m
    rw [e1] at e3
    cases e3
    refine ⟨st.stay id o a hl hc hi, ?_⟩
    obtain ⟨R, p, Z, H, N, hR, hp, hobs, hk⟩ := st.kalman
    have hmem := (C59_stance_legs m c.ids h _ o).mpr ⟨id, a, hl, hc, hi, rfl⟩
    obtain ⟨k, hkl, hke⟩ := List.getElem_of_mem hmem
    rw [if_neg (List.ne_nil_of_mem hmem)] at hk
    obtain ⟨j, -, j2, -, j4, -⟩ := g.col (hids.mem id a hi)
    refine ⟨s1, R, p, _, Z, H, N, k, hk, hR, hp, by rw [j4]; exact get_vector_eq g j2, ?_⟩
    rw [hobs.z k hkl, hke, j4, Int.toNat_natCast]

/-- a robot that stands at the origin and moves its first foot, between the times 0 and 1, from one place to another -/
noncomputable def hopFoot (id : ℕ) (t : ℝ) : V3 := if id = 0 then (if t < 1 then ![1, 0, 0] else ![2, 0, 0]) else 0

/-- the kinematic measurement at time `t` -/
noncomputable def hopKin (t : ℝ) : LegMeas := ⟨t, [⟨decide (t ≤ 0 ∨ 1 ≤ t), hopFoot 0 t, 1⟩, ⟨false, 0, 1⟩], fun _ => 0⟩

theorem hop_kin (t : ℝ) : (fwdTruth 0 0).Kin hopFoot 2 (hopKin t) := by
  refine ⟨rfl, fun id o ho hc => ?_⟩
  show (1 : M3).mulVec o.pos = hopFoot id t - ![0 * t + 0 * t ^ 2 / 2, 0, 0]
  rw [one_mulVec]
  match id, ho with
  | 0, ho =>
    obtain rfl := Option.some.inj ho
    funext i; fin_cases i <;> simp
  | 1, ho =>
    obtain rfl := Option.some.inj ho
    simp at hc
  | k + 2, ho => simp [hopKin] at ho

/-- a turn of the main loop with one IMU reading queued and no kinematic measurement: propagation to the held reading -/
theorem idle_tick {fut : List ImuMeas} {e : Estimator} {c : LegCorr} {m f : ImuMeas} (i : EstInv fut e) (hen : e.enabled = true) (hc : e.corrs = [.leg c])
    (hcb : c.buffer = []) (hm : e.prop.prev = some m) (hb : e.prop.buffer = [f]) :
    ∃ e', e.step .tick = some e' ∧ e'.prop = { e.prop with prev := some f, buffer := [] } ∧ e'.corrs = [.leg c] ∧ e'.enabled = true ∧ e'.heap = e.heap ∧
      e'.state.tProp = some m.time ∧ e.nextKin = none := by
  obtain ⟨tp, m2, htp, hm2, hle, -⟩ := (i.run hen).2
  rw [hm] at hm2
  obtain rfl := Option.some.inj hm2
  obtain ⟨K, g⟩ := i.good
  obtain ⟨b, p, s1, e1, g1, -, hp⟩ := prop_good (p := e.prop) g i.noise hm htp hle
  obtain ⟨-, rfl, -, htp1, -⟩ := hp f [] hb
  obtain ⟨e', h', -⟩ := step_inv .tick (fut := fut) (by simpa [imuArrivals] using i)
  obtain ⟨b2, p2, s2, b3, c3, h3, s3, q1, q2, q3, q4, q5, q6, q7⟩ := tick_leg i hen hc h'
  rw [e1] at q1
  simp only [Option.some.injEq, Prod.mk.injEq] at q1
  obtain ⟨-, r2, r3⟩ := q1
  have hcor : c.correct e.heap s2 = some (false, c, e.heap, s2) := by
    unfold LegCorr.correct; rw [hcb]
  rw [hcor] at q2
  simp only [Option.some.injEq, Prod.mk.injEq] at q2
  obtain ⟨-, t2, t3, t4⟩ := q2
  refine ⟨e', h', by rw [q3, r2], by rw [q4, t2], q5, by rw [q7, t3], by rw [q6, ← t4, ← r3]; exact htp1, ?_⟩
  unfold Estimator.nextKin
  rw [e1, Option.bind_some]
  dsimp only
  rw [htp1, Option.bind_some, hc]
  dsimp only
  rw [hcb]

/-- **C146** is false: a robot that stands still, with perfect sensors.  Its first foot is on the ground in the measurement of time 0, lifted in that
of time 0.5, and on the ground again, one metre further, in that of time 2.  When the last two are looked at the estimate has been propagated to
time 2, and is the truth.  The one of time 0.5 is dropped because it is too old; the leg keeps its column, and the filter is told an innovation of one
metre, by which it corrects a pose that was true. -/
theorem C146_false : (∀ t, (fwdTruth 0 0).Kin hopFoot 2 (hopKin t)) ∧ (∀ t0 t, t0 ≤ t → (fwdTruth 0 0).Imu 1 0 0 0 t0 (fwdImu 0 t)) ∧
    (∀ t o, (hopKin t).legs[0]? = some o → (o.contact = true ↔ t ≤ 0 ∨ 1 ≤ t)) ∧
    ∃ e0 e c x a c', Estimator.ctor .rightInvariant ⟨fun _ => 0, 0⟩ {} fwdConfig [.leg {}] = some e0 ∧
      e0.run ([.tick, .imu (fwdImu 0 0), .leg 0 (walkKin 0 0), .tick] ++ [.leg 0 (hopKin 0), .tick, .imu (fwdImu 0 2), .tick, .imu (fwdImu 0 3),
        .leg 0 (hopKin 0.5), .leg 0 (hopKin 2)]) = some e ∧
      e.corrs = [.leg c] ∧ c.ids 0 = some x ∧ c.buffer = [hopKin 0.5, hopKin 2] ∧ e.step .tick = some a ∧ a.corrs = [.leg c'] ∧ c'.ids 0 = some x ∧
      ∃ p s s' Z H N k, e.prop.propagate e.state = some (true, p, s) ∧ s.tProp = some 2 ∧ (fwdTruth 0 0).At 2 s ∧ s.get_vector (e.heap.val x) = some (hopFoot 0 0) ∧
        correctRightInvariant Z H N { s with t := some 2 } c.errorType = some s' ∧ Z.blkV (3 * k) 0 = ![1, 0, 0] := by
  refine ⟨hop_kin, fun t0 t h => fwd_imu 0 0 t0 t h, fun t o ho => by obtain rfl := Option.some.inj ho; simp, ?_⟩
  obtain ⟨e0, e, c, h0, h1, hen, hc, c1, c2, c3, k1, k2, k3, k4, k5, k6, k7, k8⟩ := walk_start 0
  have u : Usable fwdConfig [.leg {}] ([fwdImu 0 0] ++ [fwdImu 0 2, fwdImu 0 3]) :=
    ⟨by simp, by norm_num, .inl rfl, .inl rfl, by simp [fwdImu]; norm_num⟩
  obtain ⟨e', h1', inv⟩ := run_estInv [.tick, .imu (fwdImu 0 0), .leg 0 (walkKin 0 0), .tick] (fut := [fwdImu 0 2, fwdImu 0 3]) (e := e0) (ctor_inv u h0).1
  rw [h1] at h1'
  obtain rfl := Option.some.inj h1'
  obtain ⟨K, g⟩ := inv.good
  have hI : (fwdTruth 0 0).Imus e.prop.R_imu2body e.prop.t_imu2body 0 0 0 (fwdImu 0 0 :: (e.prop.buffer ++ [fwdImu 0 2, fwdImu 0 3])) := by
    rw [k6, k7, k8]
    exact fwd_imus 0 0 [0, 2, 3] 0 (by simp; norm_num)
  have w0 : WalkInv (fwdTruth 0 0) hopFoot 2 e.prop.R_imu2body e.prop.t_imu2body 0 0 none [fwdImu 0 2, fwdImu 0 3] e :=
    ⟨inv, hen, rfl, rfl, ⟨0, _, ⟨⟨K, g.shape⟩, g.world, k1, k2, k3, k4⟩, k5, hI⟩, ⟨c, hc, fun id x hx => by rw [c3] at hx; cases hx⟩⟩
  -- the first kinematic measurement
  obtain ⟨e1, s1, -⟩ := step_inv (.leg 0 (hopKin 0)) (fut := [fwdImu 0 2, fwdImu 0 3]) inv
  have w1 := (WalkInv.step (ev := .leg 0 (hopKin 0)) w0 (by simp) (by simp) s1).1
  have he1 := (Option.some.inj s1).symm
  have hc1 : e1.corrs = [.leg { c with buffer := [hopKin 0] }] := by
    rw [he1]
    show e.corrs.modify 0 (Corr.pushLeg (hopKin 0)) = _
    rw [hc]
    show [Corr.leg { c with buffer := c.buffer ++ [hopKin 0] }] = _
    rw [c1]; rfl
  have hp1 : e1.prop.propagate e1.state = some (false, e1.prop, e1.state) := C36_empty _ _ (by rw [he1]; exact k6)
  have ht1 : e1.state.tProp = some 0 := by rw [he1]; exact k1
  have hpf : popFresh LegMeas.time c.tDiffThres 0 (hopKin 0) [] = some (hopKin 0, []) :=
    popFresh_some.mpr ⟨[], rfl, by simp, by rw [c2]; simp [Stale, hopKin]; norm_num⟩
  have hnk1 : e1.nextKin = some (0, hopKin 0) := by
    unfold Estimator.nextKin
    rw [hp1, Option.bind_some]
    dsimp only
    rw [ht1, Option.bind_some, hc1]
    dsimp only
    rw [hpf]; rfl
  obtain ⟨e2, s2, -⟩ := step_inv .tick (fut := [fwdImu 0 2, fwdImu 0 3]) w1.inv
  have w2 := (WalkInv.step (ev := .tick) w1 (by simp) (fun _ q hq => by
    rw [hnk1] at hq
    obtain rfl := Option.some.inj hq
    exact ⟨hop_kin 0, rfl, fun l hl => by cases hl⟩) s2).1
  have hl2 : Estimator.lastKin (Estimator.lastKin none e (.leg 0 (hopKin 0))) e1 .tick = some (hopKin 0) := by
    unfold Estimator.lastKin; rw [hnk1]; rfl
  rw [hl2] at w2
  obtain ⟨b5, p5, s5, b6, c6, h6, s6, q1, q2, q3, q4, q5, q6, q7⟩ := tick_leg w1.inv w1.en hc1 s2
  rw [hp1] at q1
  simp only [Option.some.injEq, Prod.mk.injEq] at q1
  obtain ⟨-, r2, r3⟩ := q1
  rw [← r3] at q2
  unfold LegCorr.correct at q2
  simp only [ht1, Option.bind_eq_bind, Option.bind_some] at q2
  rw [hpf] at q2
  simp only [Option.bind_eq_some_iff] at q2
  obtain ⟨⟨ids', hh, s'⟩, q8, q9⟩ := q2
  simp only [Option.some.injEq, Prod.mk.injEq] at q9
  obtain ⟨-, t2, t3, t4⟩ := q9
  obtain ⟨K1, g1⟩ := w1.inv.good
  have hco : CorrOK e1.state (.leg { c with buffer := [hopKin 0] }) := w1.inv.corrs.each _ (by rw [hc1]; simp)
  obtain ⟨K', s1', ids1, h1'', s2', f1, -, st⟩ := legApply_spec g1 { c with buffer := [hopKin 0] } hco.ids hco.param.1 hco.param.2 (hopKin 0)
  rw [q8] at f1
  obtain ⟨rfl, rfl, rfl⟩ := f1
  obtain ⟨x, hx, -⟩ := st.made 0 ⟨decide ((0 : ℝ) ≤ 0 ∨ (1 : ℝ) ≤ 0), hopFoot 0 0, 1⟩ rfl (by simp) (c3 0)
  have hid2 : c6.ids 0 = some x := by rw [← t2]; exact hx
  have hb2 : c6.buffer = [] := by rw [← t2]
  have hth2 : c6.tDiffThres = 0.3 := by rw [← t2]; exact c2
  have hprop2 : e2.prop = e.prop := by rw [q3, ← r2, he1]
  -- the next IMU reading
  obtain ⟨e3, s3, -⟩ := step_inv (.imu (fwdImu 0 2)) (fut := [fwdImu 0 3]) w2.inv
  have w3 := (WalkInv.step (ev := .imu (fwdImu 0 2)) (fut := [fwdImu 0 3]) w2 (by simp) (by simp) s3).1
  have he3 := (Option.some.inj s3).symm
  obtain ⟨e4, s4, u1, u2, u3, u4, u5, u6⟩ := idle_tick w3.inv w3.en (c := c6) (by rw [he3]; exact q4) hb2 (m := fwdImu 0 0) (f := fwdImu 0 2)
    (by rw [he3]; show e2.prop.prev = _; rw [hprop2]; exact k5) (by rw [he3]; show e2.prop.buffer ++ _ = _; rw [hprop2, k6]; rfl)
  have w4 := (WalkInv.step (ev := .tick) (fut := [fwdImu 0 3]) w3 (by simp) (fun _ q hq => by rw [u6] at hq; cases hq) s4).1
  have hl4 : Estimator.lastKin (Estimator.lastKin (some (hopKin 0)) e2 (.imu (fwdImu 0 2))) e3 .tick = some (hopKin 0) := by
    unfold Estimator.lastKin; rw [u6]; rfl
  rw [hl4] at w4
  -- the last IMU reading and the two kinematic measurements
  obtain ⟨e5, s5', -⟩ := step_inv (.imu (fwdImu 0 3)) (fut := []) w4.inv
  have w5 := (WalkInv.step (ev := .imu (fwdImu 0 3)) (fut := []) w4 (by simp) (by simp) s5').1
  have he5 := (Option.some.inj s5').symm
  obtain ⟨e6, s6', -⟩ := step_inv (.leg 0 (hopKin 0.5)) (fut := []) w5.inv
  have w6 := (WalkInv.step (ev := .leg 0 (hopKin 0.5)) (fut := []) w5 (by simp) (by simp) s6').1
  have he6 := (Option.some.inj s6').symm
  obtain ⟨e7, s7, -⟩ := step_inv (.leg 0 (hopKin 2)) (fut := []) w6.inv
  have w7 := (WalkInv.step (ev := .leg 0 (hopKin 2)) (fut := []) w6 (by simp) (by simp) s7).1
  have he7 := (Option.some.inj s7).symm
  have hc7 : e7.corrs = [.leg { c6 with buffer := [hopKin 0.5, hopKin 2] }] := by
    rw [he7]
    show e6.corrs.modify 0 (Corr.pushLeg (hopKin 2)) = _
    rw [he6]
    show (e5.corrs.modify 0 (Corr.pushLeg (hopKin 0.5))).modify 0 (Corr.pushLeg (hopKin 2)) = _
    rw [he5]
    show (e4.corrs.modify 0 (Corr.pushLeg (hopKin 0.5))).modify 0 (Corr.pushLeg (hopKin 2)) = _
    rw [u2]
    show [Corr.leg { c6 with buffer := c6.buffer ++ [hopKin 0.5] ++ [hopKin 2] }] = _
    rw [hb2]; rfl
  have hpv : e7.prop.prev = some (fwdImu 0 2) := by
    rw [he7]; show e6.prop.prev = _; rw [he6]; show e5.prop.prev = _; rw [he5]; show e4.prop.prev = _; rw [u1]
  have hpb : e7.prop.buffer = [fwdImu 0 3] := by
    rw [he7]; show e6.prop.buffer = _; rw [he6]; show e5.prop.buffer = _; rw [he5]; show e4.prop.buffer ++ _ = _; rw [u1]; rfl
  obtain ⟨a, s8, -⟩ := step_inv .tick (fut := []) w7.inv
  obtain ⟨b9, p9, s9, b10, c10, h10, s10, v1, v2, v3, v4, -⟩ := tick_leg w7.inv w7.en hc7 s8
  obtain ⟨tp, m2, htp, hm2, hle, -⟩ := (w7.inv.run w7.en).2
  rw [hpv] at hm2
  obtain rfl := Option.some.inj hm2
  obtain ⟨K7, g7⟩ := w7.inv.good
  obtain ⟨b, p, sx, v5, g9, -, hp⟩ := prop_good (p := e7.prop) g7 w7.inv.noise hpv htp hle
  obtain ⟨hb, -, -, htp9, hcol9⟩ := hp _ _ hpb
  rw [v1] at v5
  simp only [Option.some.injEq, Prod.mk.injEq] at v5
  obtain ⟨rfl, rfl, rfl⟩ := v5
  subst hb
  obtain ⟨tp7, m7, hx7, hm7, hI7⟩ := w7.ex
  obtain ⟨-, -, -, tp9, m9, hx9, -, -⟩ := prop_exact g7 hx7 w7.hrm w7.htm hm7 hI7 v1
  have : tp9 = 2 := by
    have := hx9.time
    rw [htp9] at this
    exact (Option.some.inj this).symm
  subst this
  have hco7 : CorrOK e7.state (.leg { c6 with buffer := [hopKin 0.5, hopKin 2] }) := w7.inv.corrs.each _ (by rw [hc7]; simp)
  have hids7 : IdsOK e7.state c6.ids := hco7.ids
  have hids9 : IdsOK s9 c6.ids := ⟨by rw [hcol9]; exact hids7.mem, hids7.inj⟩
  obtain ⟨cc, hcc, hft⟩ := w7.cs
  rw [hc7] at hcc
  simp only [List.cons.injEq, Corr.leg.injEq, and_true] at hcc
  rw [← hcc] at hft
  obtain ⟨hft9, -⟩ := feet_prop g7 hids7 htp hpv hft v1
  obtain ⟨l, o, hl, -, hlo, -, hvec⟩ := hft9 0 x hid2
  have hl0 : l = hopKin 0 := (Option.some.inj hl).symm
  rw [hl0] at hvec
  obtain ⟨y1, s1', R, pp, d, Z, H, N, k, y2, y3, y4, y5, y6⟩ := C146_dropped_partial g9 (c := { c6 with buffer := [hopKin 0.5, hopKin 2] }) hids9 hco7.param.1 hco7.param.2
    (tp := 2) (old := [hopKin 0.5]) (m := hopKin 2) (rest := []) htp9 rfl (by simp [Stale, hopKin, hth2]; norm_num) (by simp [Stale, hopKin, hth2]; norm_num)
    v2 (id := 0) (a := x) (o := ⟨decide ((2 : ℝ) ≤ 0 ∨ (1 : ℝ) ≤ 2), hopFoot 0 2, 1⟩) hid2 rfl (by simp)
  refine ⟨e0, e7, _, x, a, c10, h0, ?_, hc7, hid2, rfl, s8, v4, y1, p9, s9, s1', Z, H, N, k, v1, htp9, hx9.at_, hvec, y2, ?_⟩
  · rw [est_run_append, h1]
    simp only [Option.bind_some, Estimator.run, s1, s2, s3, s4, s5', s6', s7]
  · rw [hx9.at_.1] at y3
    rw [hx9.at_.2.2] at y4
    rw [hvec] at y5
    rw [y6, ← Option.some.inj y3, ← Option.some.inj y4, ← Option.some.inj y5]
    show (1 : M3).mulVec (hopFoot 0 2) - (hopFoot 0 0 - ![0 * 2 + 0 * 2 ^ 2 / 2, 0, 0]) = _
    rw [one_mulVec, show hopFoot 0 2 = ![2, 0, 0] by simp [hopFoot], show hopFoot 0 0 = ![1, 0, 0] by simp [hopFoot]]
    funext i; fin_cases i <;> norm_num

end Drift
