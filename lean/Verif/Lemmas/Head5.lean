import Verif.Lemmas.Head4

/-! # Lemmas: initialisation commutes with a turn of the world frame -/
set_option linter.unusedSimpArgs false
namespace Drift
open Mat Matrix RobotState Finset

/-- two states during initialisation that differ by a turn of the world frame -/
structure InitT (Q : M3) (s s' : RobotState) : Prop where
  same : s' = { s with X := s'.X }
  x : s'.X = turnX 2 Q * s.X

theorem split_unique {α : Type} {q : α → ℕ} (pre : List α) : ∀ {pre' post post' : List α}, pre ++ post = pre' ++ post' → (∀ c ∈ pre, 0 < q c) →
    (∀ c ∈ post.head?, q c = 0) → (∀ c ∈ pre', 0 < q c) → (∀ c ∈ post'.head?, q c = 0) → pre = pre' ∧ post = post' := by
  induction pre with
  | nil =>
    intro pre' post post' h _ h2 h3 _
    cases pre' with
    | nil => exact ⟨rfl, by simpa using h⟩
    | cons a l =>
      have := h2 a (by simp at h; rw [h]; simp)
      have := h3 a (by simp)
      omega
  | cons a pre ih =>
    intro pre' post post' h h1 h2 h3 h4
    cases pre' with
    | nil =>
      have := h4 a (by simp at h; rw [← h]; simp)
      have := h1 a (by simp)
      omega
    | cons b l =>
      simp only [List.cons_append, List.cons.injEq] at h
      obtain ⟨rfl, h⟩ := h
      obtain ⟨e1, e2⟩ := ih h (fun c hc => h1 c (by simp [hc])) h2 (fun c hc => h3 c (by simp [hc])) h4
      exact ⟨by rw [e1], e2⟩

theorem newestVel_turn (Q R : M3) (w : V3) (c : Corr) : c.newestVel (Q * R) w = (c.newestVel R w).map Q.mulVec := by
  cases c with
  | vel c => simp only [Corr.newestVel, Option.map_map, Function.comp_def, Matrix.mulVec_mulVec]
  | leg c => simp only [Corr.newestVel, Option.map_map, Function.comp_def, Matrix.mulVec_mulVec]

theorem initOK_get {h : Heap} {s : RobotState} (g : InitOK h s) : s.get_rotation = some (s.X.blk3 0 0) ∧ s.get_velocity = some (s.X.blkV 0 3) ∧
    s.get_position = some (s.X.blkV 0 4) := by
  have x1 := g.good.shape.x.rows; have x2 := g.good.shape.x.cols
  exact ⟨blk3?_eq (by omega) (by omega), blkV?_eq (by omega) (by omega), blkV?_eq (by omega) (by omega)⟩

theorem turn2_ext {Q : M3} {h h' : Heap} {s s' : RobotState} (g : InitOK h s) (g' : InitOK h' s') {R : M3} {v p : V3}
    (r1 : s.get_rotation = some R) (r2 : s'.get_rotation = some (Q * R)) (v1 : s.get_velocity = some v) (v2 : s'.get_velocity = some (Q.mulVec v))
    (p1 : s.get_position = some p) (p2 : s'.get_position = some (Q.mulVec p)) : s'.X = turnX 2 Q * s.X := by
  obtain ⟨a1, a2, a3⟩ := initOK_get g
  obtain ⟨b1, b2, b3⟩ := initOK_get g'
  rw [a1] at r1; rw [a2] at v1; rw [a3] at p1
  rw [b1] at r2; rw [b2] at v2; rw [b3] at p2
  simp only [Option.some.injEq] at r1 v1 p1 r2 v2 p2
  refine turn_ext g.good.shape.x g'.good.shape.x (by rw [r2, r1]) fun k hk => ?_
  interval_cases k
  · exact v2.trans (by rw [← v1])
  · exact p2.trans (by rw [← p1])

theorem InitT.get {Q : M3} {h : Heap} {s s' : RobotState} (t : InitT Q s s') (g : InitOK h s) {R : M3} {v p : V3}
    (r1 : s.get_rotation = some R) (v1 : s.get_velocity = some v) (p1 : s.get_position = some p) (g' : InitOK h s') :
    s'.get_rotation = some (Q * R) ∧ s'.get_velocity = some (Q.mulVec v) ∧ s'.get_position = some (Q.mulVec p) := by
  obtain ⟨a1, a2, a3⟩ := initOK_get g
  obtain ⟨b1, b2, b3⟩ := initOK_get g'
  rw [a1] at r1; rw [a2] at v1; rw [a3] at p1
  simp only [Option.some.injEq] at r1 v1 p1
  rw [b1, b2, b3, t.x, turnX_mul_rot g.good.shape.x, ← r1, ← v1, ← p1]
  refine ⟨rfl, ?_, ?_⟩
  · exact congrArg some (turnX_mul_col g.good.shape.x (k := 0) (by omega))
  · exact congrArg some (turnX_mul_col g.good.shape.x (k := 1) (by omega))

theorem initCorrs_turn {Q : M3} {h : Heap} {s s' : RobotState} (cs done : List Corr) (g : InitOK h s) (g' : InitOK h s') (t : InitT Q s s')
    {w : V3} (hw : s.bodyAngVel = some w) :
    ∃ a a' pre post, InitOK h a ∧ InitOK h a' ∧ InitT Q a a' ∧ cs = pre ++ post ∧
      Estimator.initCorrs done cs s = some (done ++ pre.map Corr.drained, post, a) ∧
      Estimator.initCorrs done cs s' = some (done ++ pre.map Corr.drained, post, a') := by
  obtain ⟨a1, a2, a3⟩ := initOK_get g
  obtain ⟨b1, b2, b3⟩ := t.get g a1 a2 a3 g'
  have hw' : s'.bodyAngVel = some w := by rw [t.same]; exact hw
  obtain ⟨u, gu, fu, ru, pu, tu, pre, post, q1, q2, q3, q4, q5⟩ := initCorrs_ok cs done g hw a1
  obtain ⟨u', gu', fu', ru', pu', tu', pre', post', q1', q2', q3', q4', q5'⟩ := initCorrs_ok cs done g' hw' b1
  obtain ⟨rfl, rfl⟩ := split_unique (q := Corr.queued) pre (q1.symm.trans q1') q2 q3 q2' q3'
  refine ⟨u, u', pre, post, gu, gu', ?_, q1, q4, q4'⟩
  cases hl : pre.getLast? with
  | none =>
    rw [hl] at q5 q5'
    rw [q5, q5']; exact t
  | some c =>
    rw [hl] at q5 q5'
    obtain ⟨v1, t1⟩ := q5
    obtain ⟨v1', t1'⟩ := q5'
    obtain ⟨c1, c2, c3⟩ := initOK_get gu
    have hv : u'.get_velocity = some (Q.mulVec (u.X.blkV 0 3)) := by
      rw [v1', newestVel_turn, ← v1, c2]; rfl
    have hp : u'.get_position = some (Q.mulVec (s.X.blkV 0 4)) := by rw [pu', b3]
    refine ⟨?_, turn2_ext gu gu' ru ru' c2 hv (pu.trans a3) hp⟩
    rw [fu', t1', ← t1]
    conv_lhs => rw [t.same]
    conv_rhs => rw [fu]

/-- the isotropic initial covariance is not changed by a turn -/
theorem stT_init {Q : M3} {h : Heap} {s s' : RobotState} (hQ : IsRot Q) (et : ErrorType) (g : InitOK h s) (g' : InitOK h s') (t : InitT Q s s') {a b c : ℝ}
    (e0 : s.get_rotation_covariance = some (a • (1 : M3))) (e1 : s.get_velocity_covariance = some (b • (1 : M3)))
    (e2 : s.get_position_covariance = some (c • (1 : M3))) : StT Q et 2 h s s' := by
  have z1 := g.good.shape.pr; have z2 := g.good.shape.pc
  have b0 : s.P.blk3 0 0 = _ := Option.some.inj ((blk3?_eq (A := s.P) (r := 0) (c := 0) (by omega) (by omega)).symm.trans e0)
  have b1 : s.P.blk3 3 3 = _ := Option.some.inj ((blk3?_eq (A := s.P) (r := 3) (c := 3) (by omega) (by omega)).symm.trans e1)
  have b2 : s.P.blk3 6 6 = _ := Option.some.inj ((blk3?_eq (A := s.P) (r := 6) (c := 6) (by omega) (by omega)).symm.trans e2)
  have hP : s'.P = s.P := by rw [t.same]
  have hG : IsSEK 2 (turnX 2 Q) := turnX_isSEK hQ
  have h3 : (turnX 2 Q).blkV 0 3 = 0 := mkSE_blkV 2 Q (fun _ => 0) (k := 0) (by omega)
  have h4 : (turnX 2 Q).blkV 0 4 = 0 := mkSE_blkV 2 Q (fun _ => 0) (k := 1) (by omega)
  have had := (adjRelated_iff hG).mp (adjRelated_rest hG h3 h4 z1 z2 g.bd b0 b1 b2)
  refine ⟨g.good, g'.good, ?_, t.x, fun _ => hP, fun _ => by rw [hP]; exact had⟩
  rw [hP]; exact t.same

theorem setRotCov_X (s : RobotState) (X : Mat) (c : M3) : RobotState.set_rotation_covariance { s with X := X } c = (s.set_rotation_covariance c).map fun r => { r with X := X } := by
  unfold RobotState.set_rotation_covariance; rw [Option.map_map]; rfl
theorem setVelCov_X (s : RobotState) (X : Mat) (c : M3) : RobotState.set_velocity_covariance { s with X := X } c = (s.set_velocity_covariance c).map fun r => { r with X := X } := by
  unfold RobotState.set_velocity_covariance; rw [Option.map_map]; rfl
theorem setPosCov_X (s : RobotState) (X : Mat) (c : M3) : RobotState.set_position_covariance { s with X := X } c = (s.set_position_covariance c).map fun r => { r with X := X } := by
  unfold RobotState.set_position_covariance; rw [Option.map_map]; rfl

theorem finishInit_turn {Q : M3} {h : Heap} {s s' : RobotState} (hQ : IsRot Q) (et : ErrorType) (g : InitOK h s) (g' : InitOK h s') (t : InitT Q s s')
    {rc vc pc : ℝ} (hr : 0 ≤ rc) (hv : 0 ≤ vc) (hp : 0 ≤ pc) :
    ∃ s1 s2 s3 s1' s2' s3', s.set_rotation_covariance (rc • (1 : M3)) = some s1 ∧ s1.set_velocity_covariance (vc • (1 : M3)) = some s2 ∧
      s2.set_position_covariance (pc • (1 : M3)) = some s3 ∧
      s'.set_rotation_covariance (rc • (1 : M3)) = some s1' ∧ s1'.set_velocity_covariance (vc • (1 : M3)) = some s2' ∧
      s2'.set_position_covariance (pc • (1 : M3)) = some s3' ∧ StT Q et 2 h s3 s3' := by
  obtain ⟨s1, s2, s3, c1, c2, c3, g3, fr, d1, d2, d3, -⟩ := finishInit_ok g hr hv hp
  obtain ⟨s1', s2', s3', c1', c2', c3', g3', fr', d1', d2', d3', -⟩ := finishInit_ok g' hr hv hp
  refine ⟨s1, s2, s3, s1', s2', s3', c1, c2, c3, c1', c2', c3', ?_⟩
  have hs3 : s3' = { s3 with X := s'.X } := by
    rw [t.same, setRotCov_X, c1] at c1'
    rw [← Option.some.inj c1', setVelCov_X, c2] at c2'
    rw [← Option.some.inj c2', setPosCov_X, c3] at c3'
    exact (Option.some.inj c3').symm
  have hx : s3.X = s.X := by rw [fr]
  have hx' : s3'.X = s'.X := by rw [fr']
  refine stT_init hQ et g3 g3' ⟨?_, ?_⟩ d1 d2 d3
  · rw [hx']; exact hs3
  · rw [hx', hx]; exact t.x

theorem propInit_turn {Q : M3} {h : Heap} {s : RobotState} (g : InitOK h s) (hv : s.get_velocity = some 0) {p p' : ImuProp} (hN : ImuNoisePSD p)
    (hp : PropTurn Q p p') (hQ1 : p.useImuOri = false → Q = 1) {m m' : ImuMeas} (hm : ImuTurn p.useImuOri Q m m')
    {rest rest' : List ImuMeas} (hb : p.buffer = m :: rest) (hb' : p'.buffer = m' :: rest')
    (hR : IsRot (if p.useImuOri then m.quat.toRot else 1)) (hR' : IsRot (if p'.useImuOri then m'.quat.toRot else 1)) :
    ∃ a a', p.setInitialState s = some (true, { p with buffer := rest, prev := some m }, a) ∧
      p'.setInitialState s = some (true, { p' with buffer := rest', prev := some m' }, a') ∧ InitOK h a ∧ InitOK h a' ∧
      InitT Q a a' ∧ a.bodyAngVel = some m.angVel := by
  have hN' : ImuNoisePSD p' := by rw [hp.same]; exact hN
  have huo : p'.useImuOri = p.useImuOri := by rw [hp.same]
  obtain ⟨a, e1, g1, i1⟩ := propInit_ok g hN hb hR
  obtain ⟨a', e2, g2, i2⟩ := propInit_ok g hN' hb' hR'
  refine ⟨a, a', e1, e2, g1, g2, ⟨?_, ?_⟩, i1.w⟩
  · have hmt : m'.time = m.time := by rw [hm.same]
    have hma : m'.angVel = m.angVel := by rw [hm.same]
    have k1 : p'.bg0 = p.bg0 := by rw [hp.same]
    have k2 : p'.ba0 = p.ba0 := by rw [hp.same]
    have k3 : p'.enableBias = p.enableBias := by rw [hp.same]
    have k4 : p'.gyroBiasCov = p.gyroBiasCov := by rw [hp.same]
    have k5 : p'.accelBiasCov = p.accelBiasCov := by rw [hp.same]
    unfold ImuProp.setInitialState at e1 e2
    rw [hb] at e1
    rw [hb'] at e2
    simp only [set_rotation, set_position, set_gyroscope_bias, set_accelerometer_bias, set_gyroscope_bias_covariance,
      set_accelerometer_bias_covariance, Option.bind_eq_bind, Option.bind_eq_some_iff, Option.map_eq_some_iff, Option.some.injEq, Prod.mk.injEq,
      hmt, hma, k1, k2, k3, k4, k5] at e1 e2
    obtain ⟨s1, ⟨X1, -, rfl⟩, s2, ⟨X2, -, rfl⟩, s3, ⟨T1, hT1, rfl⟩, s4, ⟨T2, hT2, rfl⟩, s5, ⟨P1, hP1, rfl⟩, s6, ⟨P2, hP2, rfl⟩, -, -, rfl⟩ := e1
    obtain ⟨s1, ⟨X1', -, rfl⟩, s2, ⟨X2', -, rfl⟩, s3, ⟨T1', hT1', rfl⟩, s4, ⟨T2', hT2', rfl⟩, s5, ⟨P1', hP1', rfl⟩, s6, ⟨P2', hP2', rfl⟩, -, -, rfl⟩ := e2
    simp only at hT1 hT2 hP1 hP2 hT1' hT2' hP1' hP2'
    rw [hT1] at hT1'; cases hT1'
    rw [hT2] at hT2'; cases hT2'
    rw [hP1] at hP1'; cases hP1'
    rw [hP2] at hP2'; cases hP2'
    rfl
  · refine turn2_ext g1 g2 i1.rot (by
      rw [i2.rot, huo]
      cases hu : p.useImuOri with
      | true => simp only [if_true]; rw [hm.quat hu]
      | false => simp [hQ1 hu]) (i1.vel.trans hv) ?_ i1.pos ?_
    · rw [i2.vel, hv, Matrix.mulVec_zero]
    · rw [i2.pos, Matrix.mulVec_zero]

end Drift
