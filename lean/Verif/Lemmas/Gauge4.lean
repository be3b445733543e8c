import Verif.Lemmas.Gauge3
import Verif.Props.Equiv

/-! # Lemmas: the unobserved directions over estimator histories, continued -/
set_option linter.unusedSimpArgs false
namespace Drift
open Mat Matrix Finset RobotState

theorem diag3_psd {a b c : ℝ} (ha : 0 ≤ a) (hb : 0 ≤ b) (hc : 0 ≤ c) : PSD (of3 (Matrix.diagonal ![a, b, c])) := by
  refine ⟨sym_of rfl fun i j hi hj => ?_, fun x => ?_⟩
  · have hi : i < 3 := hi
    have hj : j < 3 := hj
    interval_cases i <;> interval_cases j <;> rfl
  · rw [quad_of3]
    simp [Fin.sum_univ_three, Matrix.diagonal_apply]
    nlinarith [mul_nonneg ha (sq_nonneg (x 0)), mul_nonneg hb (sq_nonneg (x 1)), mul_nonneg hc (sq_nonneg (x 2))]

/-- the covariance at initialisation -/
theorem low_init {h : Heap} {s : RobotState} (g : InitOK h s) {rc pc : ℝ} (hr : 0 ≤ rc) (hrc : s.get_rotation_covariance = some (rc • (1 : M3)))
    (hpc : s.get_position_covariance = some (pc • (1 : M3))) : Low (gN 2) (gD rc pc) s.P := by
  have p1 : s.P.rows = 15 := g.good.shape.pr
  have p2 : s.P.cols = 15 := g.good.shape.pc
  have b0 : s.P.blk3 0 0 = rc • (1 : M3) := by
    have e0 : s.get_rotation_covariance = some (s.P.blk3 0 0) := blk3?_eq (by omega) (by omega)
    rw [e0] at hrc; exact Option.some.inj hrc
  have b6 : s.P.blk3 6 6 = pc • (1 : M3) := by
    have e0 : s.get_position_covariance = some (s.P.blk3 6 6) := blk3?_eq (by omega) (by omega)
    rw [e0] at hpc; exact Option.some.inj hpc
  refine (low_iff (le_refl 2) p1).mpr fun x => ?_
  set A := s.P.setBlockP (3 * 0) (3 * 0) (of3 (Matrix.diagonal ![rc, rc, 0])) with hA
  set B := A.setBlockP (3 * 2) (3 * 2) (of3 (Matrix.diagonal ![0, 0, 0])) with hB
  have a1 : A.rows = 15 := by simp [hA, p1]
  have a2 : A.cols = 15 := by simp [hA, p2]
  have n1 : B.rows = 15 := by simp [hB, a1]
  have n2 : B.cols = 15 := by simp [hB, a2]
  have pA : PSD A := psd_setBlock g.good.psd g.bd (by omega) (diag3_psd hr hr (le_refl 0))
  have pB : PSD B := psd_setBlock pA (blockDiag3_set g.bd (by omega) (by omega)) (by omega) (diag3_psd (le_refl 0) (le_refl 0) (le_refl 0))
  have e : s.P = B + diagM 15 (fun i => if i = 2 then rc else if 6 ≤ i ∧ i < 9 then pc else 0) := by
    refine ext' (by simp [p1, n1]) (by simp [p2, n2, diagM]) fun i j hi hj => ?_
    rw [add_e' (by simp; omega) (by simp; omega), diagM_e, hB, setBlockP_of3_e (by omega) (by omega), hA]
    by_cases h6 : (6 ≤ i ∧ i < 9) ∧ (6 ≤ j ∧ j < 9)
    · rw [dif_pos (by omega)]
      have := congrFun (congrFun b6 ⟨i - 6, by omega⟩) ⟨j - 6, by omega⟩
      rw [blk3_apply] at this
      simp only [show 6 + (i - 6) = i by omega, show 6 + (j - 6) = j by omega] at this
      rw [this]
      obtain ⟨⟨h1, h2⟩, h3, h4⟩ := h6
      interval_cases i <;> interval_cases j <;> simp [Matrix.diagonal_apply, Matrix.one_apply]
    · rw [dif_neg (by omega), setBlockP_of3_e (by omega) (by omega)]
      by_cases h0 : i < 3 ∧ j < 3
      · rw [dif_pos (by omega)]
        have := congrFun (congrFun b0 ⟨i, by omega⟩) ⟨j, by omega⟩
        rw [blk3_apply] at this
        simp only [Nat.zero_add] at this
        rw [this]
        obtain ⟨h1, h2⟩ := h0
        interval_cases i <;> interval_cases j <;> simp [Matrix.diagonal_apply, Matrix.one_apply]
      · rw [dif_neg (by omega)]
        by_cases hij : i = j
        · subst hij
          rw [if_pos ⟨by omega, rfl⟩, if_neg (by omega), if_neg (by omega), add_zero]
        · rw [if_neg (by tauto), add_zero]
  rw [e, quad_add (by simp [n1, diagM]) (by simp [n2, diagM]), quad_diagM]
  have := pB.2 x
  simp [sum_range_succ]
  linarith

/-! ### histories -/

/-- the invariant beside `EstInv` -/
structure GInv (rc pc : ℝ) (e : Estimator) : Prop where
  rot : e.rotCov = rc
  pos : e.posCov = pc
  prop : e.prop.errorType = .rightInvariant
  corrs : ∀ c ∈ e.corrs, c.type = .rightInvariant
  on : e.enabled = true → ∃ K, Good K e.heap e.state ∧ Low (gN K) (gD rc pc) e.state.P
  out : ∀ s ∈ e.outQ, ∃ K, Shape K s ∧ Low (gN K) (gD rc pc) s.P
  logs : ∀ s ∈ e.log.queue, ∃ K, Shape K s ∧ Low (gN K) (gD rc pc) s.P

theorem runOnce_ginv {rc pc : ℝ} {fut : List ImuMeas} {e e' : Estimator} (i : EstInv fut e) (l : GInv rc pc e) (hen : e.enabled = true)
    (h : e.runOnce = some e') : GInv rc pc e' := by
  obtain ⟨K, g, hl⟩ := l.on hen
  obtain ⟨hpend, tp, m, htp, hm, hle, ht⟩ := i.run hen
  obtain ⟨b, p', s1, e1, g1, q1, q2⟩ := prop_good g i.noise hm htp hle
  obtain ⟨l1, ty⟩ := prop_good_low g hl l.prop i.noise hm htp hle e1
  have hs1 : (∃ tp', s1.tProp = some tp') ∧ s1.colMap = e.state.colMap := by
    obtain ⟨bu, hb⟩ : ∃ bu, e.prop.buffer = bu := ⟨_, rfl⟩
    cases bu with
    | nil => obtain ⟨-, rfl, rfl⟩ := q1 hb; exact ⟨⟨tp, htp⟩, rfl⟩
    | cons f rest => obtain ⟨-, rfl, h1, h2, h3⟩ := q2 f rest hb; exact ⟨⟨m.time, h2⟩, h3⟩
  obtain ⟨⟨tp', htp'⟩, hcm⟩ := hs1
  have hc1 : CorrsOK s1 e.corrs := ⟨fun c hc => (i.corrs.each c hc).keep (by rw [hcm]; exact (i.corrs.each c hc).ids.mem), i.corrs.disj⟩
  unfold Estimator.runOnce at h
  simp only [Option.bind_eq_bind, e1, Option.bind_some, Option.bind_eq_some_iff] at h
  obtain ⟨⟨b', cs, hh, s2⟩, e2, h⟩ := h
  obtain ⟨K', g2, l2⟩ := correctAll_low e.corrs g1 l1 hc1 l.corrs htp' e2
  have ty2 := correctAll_type _ e2 l.corrs
  simp only at h
  split at h
  · rw [← Option.some.inj h]
    refine ⟨l.rot, l.pos, ty, ty2, fun _ => ⟨K', g2, l2⟩, ?_, ?_⟩
    · intro s hs
      rcases List.mem_append.mp hs with hs | hs
      · exact l.out s hs
      · rw [List.mem_singleton.mp hs]; exact ⟨K', g2.shape, l2⟩
    · intro s hs
      rcases logPush_mem hs with hs | rfl
      · exact l.logs s hs
      · exact ⟨K', g2.shape, l2⟩
  · rw [← Option.some.inj h]
    exact ⟨l.rot, l.pos, ty, ty2, fun _ => ⟨K', g2, l2⟩, l.out, l.logs⟩

theorem initFrom_ginv {rc pc : ℝ} {fut : List ImuMeas} {e e' : Estimator} (i : EstInv fut e) (l : GInv rc pc e) (hen : e.enabled = false)
    {w : V3} (hw : e.state.bodyAngVel = some w) {k : ℕ} (h : e.initFrom k = some e') : GInv rc pc e' := by
  obtain ⟨g, hrefs⟩ := i.idle hen
  have x1 := g.good.shape.x.rows; have x2 := g.good.shape.x.cols
  have e0 : e.state.get_rotation = some (e.state.X.blk3 0 0) := blk3?_eq (by omega) (by omega)
  obtain ⟨s', g', f', r', p', t', pre, post, q1, q2, q3, q4, q5⟩ := initCorrs_ok (e.corrs.drop k) (e.corrs.take k) g hw e0
  have ty := initCorrs_type _ q4 (ty := .rightInvariant) (by rw [List.take_append_drop]; exact l.corrs)
  unfold Estimator.initFrom at h
  rw [q4] at h
  simp only [Option.bind_eq_bind, Option.bind_some] at h
  cases post with
  | nil =>
    obtain ⟨s1, s2, s3, c1, c2, c3, g3, fr, c4, -, c5, -⟩ := finishInit_ok g' i.rc i.vc i.pc
    simp only [Estimator.finishInit, Option.bind_eq_bind] at h
    rw [c1] at h
    simp only [Option.bind_some] at h
    rw [c2] at h
    simp only [Option.bind_some] at h
    rw [c3] at h
    simp only [Option.bind_some] at h
    rw [← Option.some.inj h]
    have hl : Low (gN 2) (gD rc pc) s3.P := by
      rw [← l.rot, ← l.pos]; exact low_init g3 i.rc c4 c5
    refine ⟨l.rot, l.pos, l.prop, ty, fun _ => ⟨2, g3.good, hl⟩, ?_, l.logs⟩
    intro s hs
    rcases List.mem_append.mp hs with hs | hs
    · exact l.out s hs
    · rw [List.mem_singleton.mp hs]; exact ⟨2, g3.good.shape, hl⟩
  | cons c cs =>
    simp only at h
    rw [← Option.some.inj h]
    exact ⟨l.rot, l.pos, l.prop, ty, fun q => (by rw [show e.enabled = true from q] at hen; cases hen), l.out, l.logs⟩

theorem initState_ginv {rc pc : ℝ} {fut : List ImuMeas} {e e' : Estimator} (i : EstInv fut e) (l : GInv rc pc e) (hen : e.enabled = false)
    (hpn : e.pending = none) (h : e.initState = some e') : GInv rc pc e' := by
  obtain ⟨g, hrefs⟩ := i.idle hen
  unfold Estimator.initState at h
  obtain ⟨bu, hb⟩ : ∃ bu, e.prop.buffer = bu := ⟨_, rfl⟩
  cases bu with
  | nil =>
    unfold ImuProp.setInitialState at h; rw [hb] at h
    simp only [Option.bind_eq_bind, Option.bind_some, Bool.false_eq_true, if_false] at h
    rw [← Option.some.inj h]
    exact ⟨l.rot, l.pos, l.prop, l.corrs, l.on, l.out, l.logs⟩
  | cons m rest =>
    obtain ⟨s1, e1, g1, p1⟩ := propInit_ok g i.noise hb (i.ori m (by rw [hb]; simp))
    rw [e1] at h
    simp only [Option.bind_eq_bind, Option.bind_some, if_true] at h
    have hs := i.sorted
    rw [hb] at hs
    have hs' := (List.pairwise_append.mp hs).2.1
    simp only [List.cons_append, List.pairwise_cons] at hs'
    refine initFrom_ginv (fut := fut) (e := { e with prop := { e.prop with buffer := rest, prev := some m }, state := s1 }) (w := m.angVel) ?_
      ⟨l.rot, l.pos, l.prop, l.corrs, fun q => (by rw [show e.enabled = true from q] at hen; cases hen), l.out, l.logs⟩ hen p1.w h
    refine ⟨⟨2, g1.good⟩, corrsOK_of_none (fun c hc => (i.corrs.each c hc).param) hrefs, i.noise, i.rc, i.vc, i.pc, i.bias, ?_, ?_, i.outs, i.logs,
      fun _ => ⟨g1, hrefs⟩, ?_, ?_⟩
    · intro x hx
      exact i.ori x (by rw [hb]; simp at hx ⊢; tauto)
    · show (m :: (rest ++ fut)).Pairwise _
      exact List.pairwise_cons.mpr hs'
    · intro k hk; rw [show e.pending = some k from hk] at hpn; cases hpn
    · intro h; rw [show e.enabled = true from h] at hen; cases hen

theorem step_ginv {rc pc : ℝ} {fut : List ImuMeas} {e e' : Estimator} {ev : EstEv} (i : EstInv (imuArrivals [ev] ++ fut) e)
    (l : GInv rc pc e) (h : e.step ev = some e') : GInv rc pc e' := by
  cases ev with
  | imu m => rw [← Option.some.inj h]; exact ⟨l.rot, l.pos, l.prop, l.corrs, l.on, l.out, l.logs⟩
  | vel k m => rw [← Option.some.inj h]; exact ⟨l.rot, l.pos, l.prop, type_modify (type_pushVel m) l.corrs k, l.on, l.out, l.logs⟩
  | leg k m => rw [← Option.some.inj h]; exact ⟨l.rot, l.pos, l.prop, type_modify (type_pushLeg m) l.corrs k, l.on, l.out, l.logs⟩
  | clear =>
    have h : (match e.pending with | none => some e.clear | some _ => some e) = some e' := h
    split at h
    · rw [← Option.some.inj h]
      refine ⟨l.rot, l.pos, l.prop, ?_, fun q => (by cases q), by simp [Estimator.clear], ?_⟩
      · intro c hc
        obtain ⟨d, hd, rfl⟩ := List.mem_map.mp hc
        rw [type_clear]; exact l.corrs d hd
      · intro s hs
        have : (Estimator.clear e).log.queue = [] := by
          simp only [Estimator.clear, Logger.clear]; split_ifs <;> rfl
        rw [this] at hs; cases hs
    · rw [← Option.some.inj h]; exact l
  | log =>
    have i : EstInv fut e := i
    obtain ⟨l', e1, e2⟩ := logIter_ok i.logs
    have h : e.log.iter.map _ = some e' := h
    rw [e1] at h
    rw [← Option.some.inj h]
    refine ⟨l.rot, l.pos, l.prop, l.corrs, l.on, l.out, fun s hs => ?_⟩
    have hs : s ∈ l'.queue := hs
    rw [e2] at hs
    exact l.logs s (List.mem_of_mem_tail hs)
  | consume =>
    rw [← Option.some.inj h]
    exact ⟨l.rot, l.pos, l.prop, l.corrs, l.on, fun s hs => l.out s (List.mem_of_mem_tail hs), l.logs⟩
  | tick =>
    have i : EstInv fut e := i
    have h : e.tick = some e' := h
    unfold Estimator.tick at h
    cases hp : e.pending with
    | some k =>
      rw [hp] at h
      obtain ⟨hen, hrun, w, hw⟩ := i.pend k hp
      exact initFrom_ginv i l hen hw h
    | none =>
      rw [hp] at h
      simp only at h
      cases hen : e.enabled with
      | true => rw [hen] at h; exact runOnce_ginv i l hen h
      | false =>
        rw [hen] at h
        simp only [Bool.false_eq_true, if_false] at h
        split at h
        · exact initState_ginv i l hen hp h
        · unfold Estimator.initBias at h
          simp only [Option.map_eq_some_iff] at h
          obtain ⟨q, hq, rfl⟩ := h
          refine ⟨l.rot, l.pos, ?_, l.corrs, fun q => (by rw [show e.enabled = true from q] at hen; cases hen), l.out, l.logs⟩
          show q.errorType = _
          rw [← l.prop]
          unfold ImuProp.initImuBias at hq
          split_ifs at hq
          · rw [← Option.some.inj hq]
          · split at hq
            · rw [← Option.some.inj hq]
            · rw [← Option.some.inj hq]
          · rw [← Option.some.inj hq]

theorem run_ginv {rc pc : ℝ} (evs : List EstEv) : ∀ {fut : List ImuMeas} {e e' : Estimator}, EstInv (imuArrivals evs ++ fut) e →
    GInv rc pc e → e.run evs = some e' → GInv rc pc e' := by
  induction evs with
  | nil => intro fut e e' _ l h; cases h; exact l
  | cons ev evs ih =>
    intro fut e e' i l h
    simp only [Estimator.run, Option.bind_eq_some_iff] at h
    obtain ⟨e1, h1, h2⟩ := h
    rw [imuArrivals_cons, List.append_assoc] at i
    obtain ⟨e1', h1', i1⟩ := step_inv ev i
    rw [h1] at h1'; cases h1'
    exact ih i1 (step_ginv i l h1) h2

theorem ctor_ginv {h c ic cs e} (he : Estimator.ctor .rightInvariant h c ic cs = some e) : GInv e.rotCov e.posCov e := by
  unfold Estimator.ctor at he
  simp only [Option.bind_eq_bind, Option.bind_eq_some_iff] at he
  obtain ⟨p, hp, corrs, hc, he⟩ := he
  have hpt : p.errorType = .rightInvariant := by
    unfold ImuProp.ctor at hp
    simp only [Option.bind_eq_bind, Option.bind_eq_some_iff] at hp
    obtain ⟨q, -, bg, -, ba, -, t, -, hp⟩ := hp
    rw [← Option.some.inj hp]
  have hct : ∀ c ∈ corrs, c.type = .rightInvariant := by
    clear he
    induction cs generalizing corrs with
    | nil => simp at hc; subst hc; simp
    | cons c cs ih =>
      rw [List.mapM_cons] at hc
      simp only [Option.bind_eq_bind, Option.bind_eq_some_iff] at hc
      obtain ⟨b, hb, bs, hbs, hc⟩ := hc
      rw [← Option.some.inj hc]
      intro d hd
      rcases List.mem_cons.mp hd with rfl | hd
      · cases c with
        | vel c =>
          simp only [CorrConfig.build, VelCorr.ctor, Option.bind_eq_bind, Option.map_eq_some_iff, Option.bind_eq_some_iff] at hb
          obtain ⟨v, ⟨q, -, hv⟩, rfl⟩ := hb
          rw [← Option.some.inj hv]; rfl
        | leg c => rw [← Option.some.inj hb]; rfl
      · exact ih _ hbs d hd
  rw [← Option.some.inj he]
  refine ⟨rfl, rfl, hpt, hct, by simp, by simp, ?_⟩
  intro s hs
  rw [logCtor_queue] at hs; cases hs

end Drift
