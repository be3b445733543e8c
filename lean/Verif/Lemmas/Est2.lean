import Verif.Lemmas.Est1

/-! # Lemmas: propagation and initialisation inside the estimator -/
set_option linter.unusedSimpArgs false
namespace Drift
open Mat Matrix RobotState Finset

theorem prop_good {K : ℕ} {h : Heap} {s : RobotState} (g : Good K h s) {p : ImuProp} (hN : ImuNoisePSD p) {m : ImuMeas} {tp : ℝ}
    (hm : p.prev = some m) (ht : s.tProp = some tp) (hle : tp ≤ m.time) :
    ∃ b p' s', p.propagate s = some (b, p', s') ∧ Good K h s' ∧
      (p.buffer = [] → b = false ∧ p' = p ∧ s' = s) ∧
      ∀ f rest, p.buffer = f :: rest → b = true ∧ p' = { p with prev := some f, buffer := rest } ∧ s'.t = some m.time ∧
        s'.tProp = some m.time ∧ s'.colMap = s.colMap := by
  cases hb : p.buffer with
  | nil => exact ⟨false, p, s, C36_empty p s hb, g, fun _ => ⟨rfl, rfl, rfl⟩, by simp⟩
  | cons f rest =>
    have hsq := g.q.psd.sq
    have hr : PropReady K p s m f rest tp := ⟨g.shape, g.world, g.q.r, by rw [← hsq]; exact g.q.r, hb, hm, ht⟩
    obtain ⟨X, P, e⟩ := C36_step hr
    refine ⟨true, _, _, e, ⟨C34_on_group hr e, g.world, C35_psd hr g.psd hN g.q hle e, g.q, g.len, g.tab⟩, by simp, ?_⟩
    intro f' rest' hh
    cases hh
    exact ⟨rfl, rfl, rfl, rfl, rfl⟩

theorem sek_setRot {K : ℕ} {X : Mat} (h : IsSEK K X) {R : M3} (hR : IsRot R) : IsSEK K (X.setBlockP 0 0 (of3 R)) := by
  have hr := h.rows; have hc := h.cols
  refine ⟨by simpa using hr, by simpa using hc, ?_, fun i j h1 h2 h3 => ?_⟩
  · rw [blk3_setBlockP_same (by omega) (by omega)]; exact hR
  · rw [setBlockP_of3_e (by omega) (by omega), dif_neg (by omega)]
    exact h.bot i j h1 h2 h3

theorem setCol_rot {X : Mat} {k : ℕ} (h3 : 3 ≤ k) (hr : 3 ≤ X.rows) (hk : k < X.cols) (v : V3) :
    (X.setBlockP 0 k (ofV v)).blk3 0 0 = X.blk3 0 0 := by
  funext i j
  have hi := i.2; have hj := j.2
  rw [blk3_apply, blk3_apply, setBlockP_ofV_e (by omega) (by omega), dif_neg (by omega)]

theorem sek_setCol {K : ℕ} {X : Mat} (h : IsSEK K X) {k : ℕ} (h3 : 3 ≤ k) (hk : k < 3 + K) (v : V3) :
    IsSEK K (X.setBlockP 0 k (ofV v)) := by
  have hr := h.rows; have hc := h.cols
  refine ⟨by simpa using hr, by simpa using hc, ?_, fun i j h1 h2 h3 => ?_⟩
  · rw [setCol_rot h3 (by omega) (by omega)]; exact h.rot
  · rw [setBlockP_ofV_e (by omega) (by omega), dif_neg (by omega)]
    exact h.bot i j h1 h2 h3

theorem setCol_same {X : Mat} {k : ℕ} (hr : 3 ≤ X.rows) (hk : k < X.cols) (v : V3) :
    (X.setBlockP 0 k (ofV v)).blkV 0 k = v := by
  funext i
  have hi := i.2
  rw [blkV_apply, setBlockP_ofV_e (by omega) (by omega), dif_pos (by omega)]
  congr 1; ext; simp

theorem setCol_other {X : Mat} {k l : ℕ} (hr : 3 ≤ X.rows) (hk : k < X.cols) (hl : l ≠ k) (v : V3) :
    (X.setBlockP 0 k (ofV v)).blkV 0 l = X.blkV 0 l := by
  funext i
  have hi := i.2
  rw [blkV_apply, blkV_apply, setBlockP_ofV_e (by omega) (by omega), dif_neg (by omega)]

theorem setRot_col {X : Mat} {k : ℕ} (h3 : 3 ≤ k) (hr : 3 ≤ X.rows) (hk : 3 ≤ X.cols) (R : M3) :
    (X.setBlockP 0 0 (of3 R)).blkV 0 k = X.blkV 0 k := by
  funext i
  have hi := i.2
  rw [blkV_apply, blkV_apply, setBlockP_of3_e (by omega) (by omega), dif_neg (by omega)]

/-- what `set_initial_state` does -/
structure PropInit (p : ImuProp) (m : ImuMeas) (s s' : RobotState) : Prop where
  rot : s'.get_rotation = some (if p.useImuOri then m.quat.toRot else 1)
  vel : s'.get_velocity = s.get_velocity
  pos : s'.get_position = some 0
  bg : s'.get_gyroscope_bias = some p.bg0
  ba : s'.get_accelerometer_bias = some p.ba0
  w : s'.bodyAngVel = some m.angVel
  t : s'.t = some m.time
  tp : s'.tProp = some m.time
  en : s'.enableBias = p.enableBias
  P : s'.P = (s.P.setBlockP (3 * 3) (3 * 3) (of3 p.gyroBiasCov)).setBlockP (3 * 4) (3 * 4) (of3 p.accelBiasCov)
  map : s'.colMap = s.colMap

theorem propInit_ok {h : Heap} {s : RobotState} (g : InitOK h s) {p : ImuProp} (hN : ImuNoisePSD p) {m : ImuMeas}
    {rest : List ImuMeas} (hb : p.buffer = m :: rest) (hR : IsRot (if p.useImuOri then m.quat.toRot else 1)) :
    ∃ s', p.setInitialState s = some (true, { p with buffer := rest, prev := some m }, s') ∧ InitOK h s' ∧ PropInit p m s s' := by
  have x1 := g.good.shape.x.rows; have x2 := g.good.shape.x.cols
  have p1 := g.good.shape.pr; have p2 := g.good.shape.pc
  have t1 := g.good.shape.thr; have t2 := g.good.shape.thc
  set R0 : M3 := if p.useImuOri then m.quat.toRot else 1 with hR0
  set X1 := s.X.setBlockP 0 0 (of3 R0) with hX1
  set X2 := X1.setBlockP 0 4 (ofV 0) with hX2
  set T1 := s.Theta.setBlockP 0 0 (ofV p.bg0) with hT1
  set T2 := T1.setBlockP 3 0 (ofV p.ba0) with hT2
  set P1 := s.P.setBlockP (3 * 3) (3 * 3) (of3 p.gyroBiasCov) with hP1
  set P2 := P1.setBlockP (3 * 4) (3 * 4) (of3 p.accelBiasCov) with hP2
  have r1 : s.X.setBlock? 0 0 (of3 R0) = some X1 := setBlock?_eq (by simp; omega) (by simp; omega)
  have r2 : X1.setBlock? 0 4 (ofV 0) = some X2 := setBlock?_eq (by simp [hX1]; omega) (by simp [hX1]; omega)
  have r3 : s.Theta.setBlock? 0 0 (ofV p.bg0) = some T1 := setBlock?_eq (by simp; omega) (by simp; omega)
  have r4 : T1.setBlock? 3 0 (ofV p.ba0) = some T2 := setBlock?_eq (by simp [hT1]; omega) (by simp [hT1]; omega)
  have r5 : s.P.setBlock? 9 9 (of3 p.gyroBiasCov) = some P1 := setBlock?_eq (by simp; omega) (by simp; omega)
  have r6 : P1.setBlock? 12 12 (of3 p.accelBiasCov) = some P2 := setBlock?_eq (by simp [hP1]; omega) (by simp [hP1]; omega)
  have h1 : IsSEK 2 X1 := sek_setRot g.good.shape.x hR
  have h2 : IsSEK 2 X2 := sek_setCol h1 (by norm_num) (by norm_num) 0
  have hp1 : PSD P1 := psd_setBlock g.good.psd g.bd (by omega) hN.2.2.1
  have hb1 : BlockDiag3 P1 := blockDiag3_set g.bd (by omega) (by omega)
  have hp2 : PSD P2 := psd_setBlock hp1 hb1 (by simp [hP1]; omega) hN.2.2.2
  have hb2 : BlockDiag3 P2 := blockDiag3_set hb1 (by simp [hP1]; omega) (by simp [hP1]; omega)
  refine ⟨{ s with
      X := X2, Theta := T2, P := P2, bodyAngVel := some m.angVel, enableBias := p.enableBias
      t := some m.time, tProp := some m.time }, ?_, ⟨⟨⟨h2, le_refl _, by simp [hT2, hT1, t1], by simp [hT2, hT1, t2], by simp [hP2, hP1, p1], by simp [hP2, hP1, p2]⟩,
      g.good.world, hp2, g.good.q, g.good.len, g.good.tab⟩, hb2⟩, ?_⟩
  · unfold ImuProp.setInitialState
    rw [hb]
    simp only [set_rotation, set_position, set_gyroscope_bias, set_accelerometer_bias, set_gyroscope_bias_covariance,
      set_accelerometer_bias_covariance, Option.bind_eq_bind]
    rw [r1]
    simp only [Option.map_some, Option.bind_some]
    rw [r2]
    simp only [Option.map_some, Option.bind_some]
    rw [r3]
    simp only [Option.map_some, Option.bind_some]
    rw [r4]
    simp only [Option.map_some, Option.bind_some]
    rw [r5]
    simp only [Option.map_some, Option.bind_some]
    rw [r6]
    simp only [Option.map_some, Option.bind_some]
  · have y1 := h1.rows; have y2 := h1.cols; have z1 := h2.rows; have z2 := h2.cols
    refine ⟨?_, ?_, ?_, ?_, ?_, rfl, rfl, rfl, rfl, rfl, rfl⟩
    · show X2.blk3? 0 0 = _
      rw [blk3?_eq (by omega) (by omega), hX2, setCol_rot (by omega) (by omega) (by omega), hX1, blk3_setBlockP_same (by omega) (by omega)]
    · show X2.blkV? 0 3 = s.X.blkV? 0 3
      rw [blkV?_eq (by omega) (by omega), blkV?_eq (by omega) (by omega), hX2, setCol_other (by omega) (by omega) (by omega), hX1,
        setRot_col (by omega) (by omega) (by omega)]
    · show X2.blkV? 0 4 = _
      rw [blkV?_eq (by omega) (by omega), hX2, setCol_same (by omega) (by omega)]
    · show T2.blkV? 0 0 = _
      rw [blkV?_eq (by simp [hT2, hT1]; omega) (by simp [hT2, hT1]; omega)]
      congr 1
      funext i
      have hi := i.2
      rw [blkV_apply, hT2, setBlockP_ofV_e (by simp [hT1]; omega) (by simp [hT1]; omega), dif_neg (by omega), hT1,
        setBlockP_ofV_e (by omega) (by omega), dif_pos (by omega)]
      congr 1; ext; simp
    · show T2.blkV? 3 0 = _
      rw [blkV?_eq (by simp [hT2, hT1]; omega) (by simp [hT2, hT1]; omega)]
      congr 1
      funext i
      have hi := i.2
      rw [blkV_apply, hT2, setBlockP_ofV_e (by simp [hT1]; omega) (by simp [hT1]; omega), dif_pos (by omega)]
      congr 1; ext; simp

/-- what `initialize` of a correction with data does -/
structure CorrInit (s : RobotState) (c : Corr) (v : V3) (s' : RobotState) : Prop where
  rot : s'.get_rotation = s.get_rotation
  vel : s'.get_velocity = some v
  pos : s'.get_position = s.get_position
  t : s'.t = c.newestTime
  same : s' = { s with X := s'.X, t := s'.t }

theorem setVel_ok {h : Heap} {s : RobotState} (g : InitOK h s) (v : V3) (t : Option ℝ) :
    ∃ s1, s.set_velocity v = some s1 ∧ InitOK h { s1 with t := t } ∧ s1.get_rotation = s.get_rotation ∧ s1.get_velocity = some v ∧
      s1.get_position = s.get_position ∧ s1 = { s with X := s1.X } := by
  have x1 := g.good.shape.x.rows; have x2 := g.good.shape.x.cols
  have h2 := sek_setCol g.good.shape.x (k := 3) (by norm_num) (by norm_num) v
  have y1 := h2.rows; have y2 := h2.cols
  refine ⟨{ s with X := s.X.setBlockP 0 3 (ofV v) }, ?_, ⟨⟨⟨h2, g.good.shape.k, g.good.shape.thr, g.good.shape.thc, g.good.shape.pr, g.good.shape.pc⟩,
    g.good.world, g.good.psd, g.good.q, g.good.len, g.good.tab⟩, g.bd⟩, ?_, ?_, ?_, rfl⟩
  · unfold set_velocity; rw [setBlock?_eq (by simp; omega) (by simp; omega)]; rfl
  · show (s.X.setBlockP 0 3 (ofV v)).blk3? 0 0 = s.X.blk3? 0 0
    rw [blk3?_eq (by omega) (by omega), blk3?_eq (by omega) (by omega), setCol_rot (by omega) (by omega) (by omega)]
  · show (s.X.setBlockP 0 3 (ofV v)).blkV? 0 3 = _
    rw [blkV?_eq (by omega) (by omega), setCol_same (by omega) (by omega)]
  · show (s.X.setBlockP 0 3 (ofV v)).blkV? 0 4 = s.X.blkV? 0 4
    rw [blkV?_eq (by omega) (by omega), blkV?_eq (by omega) (by omega), setCol_other (by omega) (by omega) (by omega)]

theorem corrInit_ok {h : Heap} {s : RobotState} (g : InitOK h s) {w : V3} (hw : s.bodyAngVel = some w) (c : Corr) :
    (c.queued = 0 ∧ c.setInitial s = some (false, c, s)) ∨
    (0 < c.queued ∧ ∃ R v s', s.get_rotation = some R ∧ c.newestVel R w = some v ∧
      c.setInitial s = some (true, c.drained, s') ∧ InitOK h s' ∧ CorrInit s c v s') := by
  have x1 := g.good.shape.x.rows; have x2 := g.good.shape.x.cols
  have e0 : s.get_rotation = some (s.X.blk3 0 0) := blk3?_eq (by omega) (by omega)
  cases c with
  | vel c =>
    rcases List.eq_nil_or_concat c.buffer with hb | ⟨pre, m, hb⟩
    · refine .inl ⟨by simp [Corr.queued, hb], ?_⟩
      show (c.setInitial s).map _ = _
      unfold VelCorr.setInitial; rw [hb]; rfl
    · rw [List.concat_eq_append] at hb
      have hl : c.buffer.getLast? = some m := by rw [hb]; simp
      obtain ⟨s1, e, g1, q1, q2, q3, q4⟩ := setVel_ok g ((s.X.blk3 0 0).mulVec m.vel) (some m.time)
      refine .inr ⟨by simp [Corr.queued, hb], _, _, _, e0, by simp [Corr.newestVel, hl], ?_, g1, q1, q2, q3, by simp [Corr.newestTime, hl], ?_⟩
      · show (c.setInitial s).map _ = _
        unfold VelCorr.setInitial; rw [hl]; simp [e0, e, Corr.drained]
      · rw [q4]
  | leg c =>
    rcases List.eq_nil_or_concat c.buffer with hb | ⟨pre, m, hb⟩
    · refine .inl ⟨by simp [Corr.queued, hb], ?_⟩
      show (c.setInitial s).map _ = _
      unfold LegCorr.setInitial; rw [hb]; rfl
    · rw [List.concat_eq_append] at hb
      have hl : c.buffer.getLast? = some m := by rw [hb]; simp
      obtain ⟨s1, e, g1, q1, q2, q3, q4⟩ := setVel_ok g ((s.X.blk3 0 0).mulVec (m.initVel w)) (some m.time)
      refine .inr ⟨by simp [Corr.queued, hb], _, _, _, e0, by simp [Corr.newestVel, hl], ?_, g1, q1, q2, q3, by simp [Corr.newestTime, hl], ?_⟩
      · show (c.setInitial s).map _ = _
        unfold LegCorr.setInitial; rw [hl]; simp [e0, e, hw, Corr.drained]
      · rw [q4]

theorem finishInit_ok {h : Heap} {s : RobotState} (g : InitOK h s) {rc vc pc : ℝ} (hr : 0 ≤ rc) (hv : 0 ≤ vc) (hp : 0 ≤ pc) :
    ∃ s1 s2 s3, s.set_rotation_covariance (rc • (1 : M3)) = some s1 ∧ s1.set_velocity_covariance (vc • (1 : M3)) = some s2 ∧
      s2.set_position_covariance (pc • (1 : M3)) = some s3 ∧ InitOK h s3 ∧ s3 = { s with P := s3.P } ∧
      s3.get_rotation_covariance = some (rc • (1 : M3)) ∧ s3.get_velocity_covariance = some (vc • (1 : M3)) ∧
      s3.get_position_covariance = some (pc • (1 : M3)) ∧ (∀ i j, 9 ≤ i → s3.P.e i j = s.P.e i j) := by
  have p1 := g.good.shape.pr; have p2 := g.good.shape.pc
  set P1 := s.P.setBlockP (3 * 0) (3 * 0) (of3 (rc • (1 : M3))) with hP1
  set P2 := P1.setBlockP (3 * 1) (3 * 1) (of3 (vc • (1 : M3))) with hP2
  set P3 := P2.setBlockP (3 * 2) (3 * 2) (of3 (pc • (1 : M3))) with hP3
  have n1 : P1.rows = 15 := by simp [hP1, p1]
  have n1' : P1.cols = 15 := by simp [hP1, p2]
  have n2 : P2.rows = 15 := by simp [hP2, n1]
  have n2' : P2.cols = 15 := by simp [hP2, n1']
  have n3 : P3.rows = 15 := by simp [hP3, n2]
  have n3' : P3.cols = 15 := by simp [hP3, n2']
  have r1 : s.P.setBlock? 0 0 (of3 (rc • (1 : M3))) = some P1 := setBlock?_eq (by simp; omega) (by simp; omega)
  have r2 : P1.setBlock? 3 3 (of3 (vc • (1 : M3))) = some P2 := setBlock?_eq (by simp; omega) (by simp; omega)
  have r3 : P2.setBlock? 6 6 (of3 (pc • (1 : M3))) = some P3 := setBlock?_eq (by simp; omega) (by simp; omega)
  have b1 : BlockDiag3 P1 := blockDiag3_set g.bd (by omega) (by omega)
  have b2 : BlockDiag3 P2 := blockDiag3_set b1 (by omega) (by omega)
  have b3 : BlockDiag3 P3 := blockDiag3_set b2 (by omega) (by omega)
  have d1 : PSD P1 := psd_setBlock g.good.psd g.bd (by omega) (smul_one_psd hr)
  have d2 : PSD P2 := psd_setBlock d1 b1 (by omega) (smul_one_psd hv)
  have d3 : PSD P3 := psd_setBlock d2 b2 (by omega) (smul_one_psd hp)
  refine ⟨{ s with P := P1 }, { s with P := P2 }, { s with P := P3 }, ?_, ?_, ?_,
    ⟨⟨⟨g.good.shape.x, g.good.shape.k, g.good.shape.thr, g.good.shape.thc, n3, n3'⟩, g.good.world, d3, g.good.q, g.good.len, g.good.tab⟩, b3⟩, rfl, ?_, ?_, ?_, ?_⟩
  · unfold set_rotation_covariance; rw [r1]; rfl
  · unfold set_velocity_covariance; rw [r2]; rfl
  · unfold set_position_covariance; rw [r3]; rfl
  · show P3.blk3? 0 0 = _
    rw [blk3?_eq (by omega) (by omega), hP3, blk3_setBlockP_disj (by omega) (by omega) (by omega), hP2,
      blk3_setBlockP_disj (by omega) (by omega) (by omega), hP1]
    exact congrArg some (blk3_setBlockP_same (by omega) (by omega))
  · show P3.blk3? 3 3 = _
    rw [blk3?_eq (by omega) (by omega), hP3, blk3_setBlockP_disj (by omega) (by omega) (by omega), hP2]
    exact congrArg some (blk3_setBlockP_same (by omega) (by omega))
  · show P3.blk3? 6 6 = _
    rw [blk3?_eq (by omega) (by omega), hP3]
    exact congrArg some (blk3_setBlockP_same (by omega) (by omega))
  · intro i j hi
    show P3.e i j = _
    rw [hP3, setBlockP_of3_e (by omega) (by omega), dif_neg (by omega), hP2, setBlockP_of3_e (by omega) (by omega), dif_neg (by omega),
      hP1, setBlockP_of3_e (by omega) (by omega), dif_neg (by omega)]

/-- the loop over the corrections -/
theorem initCorrs_ok (cs : List Corr) : ∀ {h : Heap} {s : RobotState} (done : List Corr) (_ : InitOK h s) {w : V3} (_ : s.bodyAngVel = some w)
    {R : M3} (_ : s.get_rotation = some R),
    ∃ s', InitOK h s' ∧ s' = { s with X := s'.X, t := s'.t } ∧ s'.get_rotation = some R ∧ s'.get_position = s.get_position ∧
      ((s.t.isSome = true → s'.t.isSome = true)) ∧
      ∃ pre post, cs = pre ++ post ∧ (∀ c ∈ pre, 0 < c.queued) ∧ (∀ c ∈ post.head?, c.queued = 0) ∧
        Estimator.initCorrs done cs s = some (done ++ pre.map Corr.drained, post, s') ∧
        (match pre.getLast? with
          | none => s' = s
          | some c => s'.get_velocity = c.newestVel R w ∧ s'.t = c.newestTime) := by
  induction cs with
  | nil =>
    intro h s done g w hw R hR
    exact ⟨s, g, rfl, hR, rfl, id, [], [], rfl, by simp, by simp, by simp [Estimator.initCorrs], rfl⟩
  | cons c cs ih =>
    intro h s done g w hw R hR
    rcases corrInit_ok g hw c with ⟨hq, e⟩ | ⟨hq, R', v, s1, hR', hv, e, g1, i1⟩
    · refine ⟨s, g, rfl, hR, rfl, id, [], c :: cs, rfl, by simp, by simpa using hq, ?_, rfl⟩
      simp [Estimator.initCorrs, e]
    · rw [hR] at hR'; cases hR'
      have hw1 : s1.bodyAngVel = some w := by rw [i1.same]; exact hw
      obtain ⟨s2, g2, f2, r2, p2, t2, pre, post, e2, q1, q2, q3, q4⟩ := ih (done ++ [c.drained]) g1 hw1 (i1.rot.trans hR)
      have hts : s1.t.isSome = true := by
        rw [i1.t]
        cases c with
        | vel c =>
          simp only [Corr.queued] at hq
          simp [Corr.newestTime]; intro hn; rw [hn] at hq; simp at hq
        | leg c =>
          simp only [Corr.queued] at hq
          simp [Corr.newestTime]; intro hn; rw [hn] at hq; simp at hq
      refine ⟨s2, g2, ?_, r2, p2.trans i1.pos, fun _ => t2 hts, c :: pre, post, by rw [e2]; rfl, ?_, q2, ?_, ?_⟩
      · rw [f2]; rw [i1.same]
      · intro d hd
        rcases List.mem_cons.mp hd with rfl | hd
        · exact hq
        · exact q1 d hd
      · simp only [Estimator.initCorrs, e, Option.bind_eq_bind, Option.bind_some, if_true]
        rw [q3]; simp
      · cases hp : pre.getLast? with
        | none =>
          have : pre = [] := by simpa using hp
          subst this
          simp only [List.getLast?_nil] at q4
          simp only [List.getLast?_singleton]
          rw [q4, i1.vel, hv]
          exact ⟨rfl, i1.t⟩
        | some d =>
          rw [hp] at q4
          have : (c :: pre).getLast? = some d := by rw [List.getLast?_cons, hp]; rfl
          rw [this]
          exact q4

end Drift
