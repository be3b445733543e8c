import Verif.Props.Equiv
import Verif.Lemmas.Head7

/-!
# Property C98: the estimate does not depend on the heading of the world frame
-/
set_option linter.unusedSimpArgs false
namespace Drift
open Mat Matrix RobotState Finset

theorem build_type_eq {et : ErrorType} {c : CorrConfig} {d : Corr} (h : c.build et = some d) : d.type = et := by
  cases c with
  | vel c =>
    simp only [CorrConfig.build, VelCorr.ctor, Option.bind_eq_bind, Option.map_eq_some_iff, Option.bind_eq_some_iff] at h
    obtain ⟨v, ⟨q, -, hv⟩, rfl⟩ := h
    rw [← Option.some.inj hv]; rfl
  | leg c => rw [← Option.some.inj h]; rfl

theorem mapM_type_eq {et : ErrorType} (cs : List CorrConfig) {a : List Corr} (h : cs.mapM (CorrConfig.build et) = some a) : ∀ c ∈ a, c.type = et := by
  induction cs generalizing a with
  | nil => simp at h; subst h; simp
  | cons c cs ih =>
    rw [List.mapM_cons] at h
    simp only [Option.bind_eq_bind, Option.bind_eq_some_iff] at h
    obtain ⟨b, hb, bs, hbs, h⟩ := h
    rw [← Option.some.inj h]
    intro d hd
    rcases List.mem_cons.mp hd with rfl | hd
    · exact build_type_eq hb
    · exact ih hbs d hd

theorem ctor_facts {et h c ic cs e} (he : Estimator.ctor et h c ic cs = some e) :
    e.prop.errorType = et ∧ (∀ d ∈ e.corrs, d.type = et) ∧ e.prop.buffer = [] ∧ e.prop.prev = none ∧ e.state = RobotState.init ∧
      e.log.queue = [] ∧ e.log.written = [] ∧ e.outQ = [] ∧ e.enabled = false ∧ e.pending = none := by
  unfold Estimator.ctor at he
  simp only [Option.bind_eq_bind, Option.bind_eq_some_iff] at he
  obtain ⟨p, hp, corrs, hc, he⟩ := he
  unfold ImuProp.ctor at hp
  simp only [Option.bind_eq_bind, Option.bind_eq_some_iff] at hp
  obtain ⟨q, -, bg, -, ba, -, t, -, hp⟩ := hp
  rw [← Option.some.inj he, ← Option.some.inj hp]
  exact ⟨rfl, mapM_type_eq cs hc, rfl, rfl, rfl, logCtor_queue .., rfl, rfl, rfl, rfl⟩

theorem hpar_ctor {Q : M3} {et h c ic cs e} (he : Estimator.ctor et h c ic cs = some e) : HPar Q et e e := by
  obtain ⟨h1, h2, h3, h4, h5, h6, h7, h8, h9, h10⟩ := ctor_facts he
  refine ⟨h1, h2, rfl, ⟨rfl, by rw [h3]; exact .nil, by rw [h4]; exact .none⟩, fun q => (by rw [h9] at q; cases q), fun q => absurd h10 q,
    fun _ _ => ⟨rfl, ?_⟩, by rw [h8]; exact .nil, by rw [h6]; exact .nil, by rw [h7]; exact .nil, rfl⟩
  rw [h5]
  exact clear_vel RobotState.init

theorem arrivals_turn {uo : Bool} {Q : M3} (evs : List EstEv) : ∀ {evs' : List EstEv}, List.Forall₂ (EvTurn uo Q) evs evs' →
    List.Forall₂ (ImuTurn uo Q) (imuArrivals evs) (imuArrivals evs') := by
  induction evs with
  | nil => intro evs' h; cases h; exact .nil
  | cons ev evs ih =>
    intro evs' h
    cases h with
    | cons hev h =>
    rename_i ev' evs'
    have := ih h
    cases ev with
    | imu m =>
      obtain ⟨m', rfl, hm⟩ := hev
      exact .cons hm this
    | _ => obtain rfl := hev; exact this

theorem estInv_turn {uo : Bool} {Q : M3} {fut fut' : List ImuMeas} {e : Estimator} (hQ : IsRot Q) (hu : e.prop.useImuOri = uo) (hb : e.prop.buffer = [])
    (hp : e.prop.prev = none) (h : List.Forall₂ (ImuTurn uo Q) fut fut') (i : EstInv fut e) : EstInv fut' e := by
  refine ⟨i.good, i.corrs, i.noise, i.rc, i.vc, i.pc, i.bias, ?_, ?_, i.outs, i.logs, i.idle, i.pend, i.run⟩
  · have := i.ori
    rw [hb, List.nil_append] at this ⊢
    clear i
    induction h with
    | nil => simp
    | cons hm h ih =>
      rename_i m m' l l'
      intro x hx
      rcases List.mem_cons.mp hx with rfl | hx
      · have h0 := this m (by simp)
        rw [hu] at h0 ⊢
        cases huo : uo with
        | true =>
          rw [huo] at h0
          simp only [if_true] at h0 ⊢
          rw [hm.quat huo]; exact hQ.mul h0
        | false => rw [huo] at h0; simpa using h0
      · exact ih (fun y hy => this y (by simp [hy])) x hx
  · have := i.sorted
    rw [hb, hp] at this ⊢
    simp only [Option.toList_none, List.nil_append] at this ⊢
    clear i
    have hmem : ∀ {l l' : List ImuMeas}, List.Forall₂ (ImuTurn uo Q) l l' → ∀ x ∈ l', ∃ y ∈ l, x.time = y.time := by
      intro l l' h
      induction h with
      | nil => simp
      | cons hm h ih =>
        intro x hx
        rcases List.mem_cons.mp hx with rfl | hx
        · exact ⟨_, List.mem_cons_self, by rw [hm.same]⟩
        · obtain ⟨y, hy, e⟩ := ih x hx
          exact ⟨y, by simp [hy], e⟩
    induction h with
    | nil => exact .nil
    | cons hm h ih =>
      obtain ⟨k1, k2⟩ := List.pairwise_cons.mp this
      refine List.pairwise_cons.mpr ⟨fun x hx => ?_, ih k2⟩
      obtain ⟨y, hy, e⟩ := hmem h x hx
      rw [e, hm.same]; exact k1 y hy

theorem stT_turned {Q : M3} {et : ErrorType} {K : ℕ} {h : Heap} {s s' : RobotState} (r : StT Q et K h s s') : Turned Q et s s' := by
  have x1 := r.gL.shape.x.rows; have x2 := r.gL.shape.x.cols; have hK := r.gL.shape.k
  have y1 := r.gR.shape.x.rows; have y2 := r.gR.shape.x.cols
  have p1 := r.gL.shape.pr; have p2 := r.gL.shape.pc
  have p3 := r.gR.shape.pr; have p4 := r.gR.shape.pc
  have dP : s.dimP = 3 * K + 9 := p2
  have dX : s.dimX = 3 + K := x2
  refine ⟨r.same, y2.trans x2.symm, ⟨s.X.blk3 0 0, blk3?_eq (by omega) (by omega), ?_⟩, ?_, r.left, p4.trans p2.symm, ?_⟩
  · show s'.X.blk3? 0 0 = _
    rw [blk3?_eq (by omega) (by omega), r.x, turnX_mul_rot r.gL.shape.x]
  · intro i h3 hi
    rw [dX] at hi
    obtain ⟨k, rfl⟩ := Nat.exists_eq_add_of_le h3
    refine ⟨s.X.blkV 0 (3 + k), ?_, ?_⟩
    · unfold get_vector
      rw [if_neg (by omega), Int.toNat_natCast, blkV?_eq (by omega) (by omega)]
    · unfold get_vector
      rw [if_neg (by omega), Int.toNat_natCast, blkV?_eq (by omega) (by omega), r.x, turnX_mul_col r.gL.shape.x (by omega)]
  · intro hr i j hi hj
    rw [dP] at hi hj ⊢
    rw [r.right hr, EA_turn, bdg_T, mul_bdg_blk _ (by simp [p2]; ring) (by omega), bdg_mul_blk _ _ (by omega)]
    have hiff : ∀ k, k ≤ K ↔ 3 * k + 6 < 3 * K + 9 := fun k => by omega
    simp only [hiff]

/-- **C98**: turn the world frame by a rotation `Q` that fixes gravity: every orientation reported by the IMU is
turned, everything else that arrives is the same.  Then the same configuration processes both histories, whatever
arrives and however the main loop, `clear()`, the logger and the publisher are scheduled, and the results differ
by the turn only: every estimate and every published state is turned (orientation, velocity, position and contact
positions; biases and time stamps are the same; the left-invariant covariance is the same and the right-invariant
one is turned blockwise), and so are the log rows, whose body velocities are the same.  `et` is either error
type.  Not covered: static bias initialisation with an IMU mounted such that the turn changes gravity seen through
the mounting (`TurnOK.bias`), where the claim is false (`C98_mounting`). -/
theorem C98_heading_partial {et h c ic cs e} (he : Estimator.ctor et h c ic cs = some e) {Q : M3} (ok : TurnOK Q e.prop) {evs evs' : List EstEv}
    (u : Usable ic cs (imuArrivals evs)) (hev : List.Forall₂ (EvTurn e.prop.useImuOri Q) evs evs') :
    ∃ a a', e.run evs = some a ∧ e.run evs' = some a' ∧ a'.enabled = a.enabled ∧ a'.pending = a.pending ∧
      (a.enabled = true → Turned Q et a.state a'.state) ∧ List.Forall₂ (Turned Q et) a.outQ a'.outQ ∧
      List.Forall₂ (RowTurned Q) a.log.written a'.log.written := by
  obtain ⟨-, -, h3, h4, -⟩ := ctor_facts he
  have i : EstInv (imuArrivals evs) e := (ctor_inv u he).1
  have i' : EstInv (imuArrivals evs') e := estInv_turn ok.rot rfl h3 h4 (arrivals_turn evs hev) i
  obtain ⟨a, a', k1, k2, p⟩ := hpar_run (fut := []) (fut' := []) evs ok rfl hev (by rw [List.append_nil]; exact i)
    (by rw [List.append_nil]; exact i') (hpar_ctor he)
  refine ⟨a, a', k1, k2, by rw [p.same], by rw [p.same], fun hen => ?_, ?_, p.logw⟩
  · obtain ⟨K, r⟩ := p.on hen
    exact stT_turned r
  · exact p.out.imp fun _ _ ⟨_, _, r⟩ => stT_turned r

theorem turnX_one (K : ℕ) : turnX K 1 = one (3 + K) := by
  unfold turnX
  exact (one_eq_mkSE K).symm

theorem stT_one {et : ErrorType} {K : ℕ} {h : Heap} {s s' : RobotState} (r : StT 1 et K h s s') : s' = s := by
  have hx : s'.X = s.X := by rw [r.x, turnX_one, one_mul_of r.gL.shape.x.rows]
  have hp : s'.P = s.P := by
    cases et with
    | leftInvariant => exact r.left rfl
    | rightInvariant =>
      rw [r.right rfl, turnX_one, EA_one, one_mul_of r.gL.shape.pr, T_one, mul_one_of r.gL.shape.pc]
  rw [r.same, hx, hp]

/-- **C98**: if the IMU orientation is not used to initialise the filter, the orientations the IMU reports have no
effect at all: two histories that differ only in them give the same estimates, published states and log. -/
theorem C98_orientation_unused {et h c ic cs e} (he : Estimator.ctor et h c ic cs = some e) (hu : e.prop.useImuOri = false) {evs evs' : List EstEv}
    (u : Usable ic cs (imuArrivals evs)) (hev : List.Forall₂ (EvTurn false 1) evs evs') :
    ∃ a a', e.run evs = some a ∧ e.run evs' = some a' ∧ a'.enabled = a.enabled ∧ (a.enabled = true → a'.state = a.state) ∧
      a'.outQ = a.outQ ∧ a'.log.written = a.log.written := by
  obtain ⟨-, -, h3, h4, -⟩ := ctor_facts he
  have ok : TurnOK 1 e.prop := ⟨IsRot.one, by simp, fun _ => rfl, fun q => (by rw [hu] at q; cases q)⟩
  have i : EstInv (imuArrivals evs) e := (ctor_inv u he).1
  have i' : EstInv (imuArrivals evs') e := estInv_turn ok.rot hu h3 h4 (arrivals_turn evs hev) i
  obtain ⟨a, a', k1, k2, p⟩ := hpar_run (fut := []) (fut' := []) evs ok hu hev (by rw [List.append_nil]; exact i)
    (by rw [List.append_nil]; exact i') (hpar_ctor he)
  have hall : ∀ {l l' : List RobotState}, List.Forall₂ (OutT 1 et) l l' → l' = l := by
    intro l l' h
    induction h with
    | nil => rfl
    | cons hm h ih =>
      obtain ⟨_, _, r⟩ := hm
      rw [stT_one r, ih]
  have hrow : ∀ {l l' : List LogRow}, List.Forall₂ (RowTurned 1) l l' → l' = l := by
    intro l l' h
    induction h with
    | nil => rfl
    | cons hm h ih =>
      rename_i x y _ _
      obtain ⟨t, p, R, v, b⟩ := x
      obtain ⟨t', p', R', v', b'⟩ := y
      obtain ⟨k1, k2, k3, k4, k5⟩ := hm
      simp only [Matrix.one_mulVec, Matrix.one_mul] at k1 k2 k3 k4 k5
      rw [ih, k1, k2, k3, k4, k5]
  refine ⟨a, a', k1, k2, by rw [p.same], fun hen => ?_, hall p.out, hrow p.logw⟩
  obtain ⟨K, r⟩ := p.on hen
  exact stT_one r

/-- rotation about the vertical -/
noncomputable def yawQ (θ : ℝ) : Quat := ⟨Real.cos (θ / 2), 0, 0, Real.sin (θ / 2)⟩

theorem yawQ_rot (θ : ℝ) : IsRot (yawQ θ).toRot ∧ (yawQ θ).toRot.mulVec gravity = gravity := by
  refine ⟨toRot_isRot ?_, ?_⟩
  · simp only [yawQ]
    have := Real.cos_sq_add_sin_sq (θ / 2)
    nlinarith
  · funext i
    fin_cases i <;> simp [yawQ, Quat.toRot, gravity, Matrix.mulVec, dotProduct, Fin.sum_univ_three]

/-- the hypotheses of `C98_heading_partial` are met for every heading `θ`, with the orientation of the IMU used and
static bias initialisation on, for an IMU aligned with the body, and any events -/
example (θ : ℝ) (et : ErrorType) (t1 t2 : ℝ) (w a : V3) (h12 : t1 ≤ t2) (rest : List EstEv) (hr : imuArrivals rest = []) :
    ∃ e, Estimator.ctor et ⟨fun _ => 0, 0⟩ {} { use_imu_ori_to_init := some true, init_bias_size := some 1 } [.vel {}, .leg {}] = some e ∧
      TurnOK (yawQ θ).toRot e.prop ∧
      Usable { use_imu_ori_to_init := some true, init_bias_size := some 1 } [.vel {}, .leg {}]
        (imuArrivals (.imu ⟨t1, w, a, Quat.id⟩ :: .imu ⟨t2, w, a, Quat.id⟩ :: rest)) ∧
      List.Forall₂ (EvTurn e.prop.useImuOri (yawQ θ).toRot) (.imu ⟨t1, w, a, Quat.id⟩ :: .imu ⟨t2, w, a, Quat.id⟩ :: rest)
        (.imu ⟨t1, w, a, yawQ θ⟩ :: .imu ⟨t2, w, a, yawQ θ⟩ :: rest) := by
  have hid : Quat.id.toRot = 1 := by
    ext i j
    fin_cases i <;> fin_cases j <;> simp [Quat.id, Quat.toRot]
  have hid' : Quat.toRot ⟨1, 0, 0, 0⟩ = 1 := hid
  refine ⟨_, rfl, ?_, ?_, ?_⟩
  · obtain ⟨h1, h2⟩ := yawQ_rot θ
    refine ⟨h1, h2, fun q => by simp at q, fun _ _ => ?_⟩
    show (Quat.toRot ⟨1, 0, 0, 0⟩)ᵀ * Quat.toRot ⟨1, 0, 0, 0⟩ = 1 ∧ _ = (Quat.toRot ⟨1, 0, 0, 0⟩)ᵀ.mulVec gravity
    refine ⟨by rw [hid']; simp, ?_⟩
    show (yawQ θ).toRot.mulVec ((Quat.toRot ⟨1, 0, 0, 0⟩)ᵀ.mulVec gravity) = _
    rw [hid']
    simpa using h2
  · refine ⟨by intro c hc; simp at hc; subst hc; norm_num, by intro c hc; simp at hc; subst hc; norm_num, .inr ⟨by norm_num, by norm_num⟩, .inr ?_, ?_⟩
    · intro m hm
      simp [imuArrivals, hr] at hm
      rcases hm with rfl | rfl <;> norm_num [Quat.id]
    · simp [imuArrivals, hr, h12]
  · have hm : ∀ t, ImuTurn true (yawQ θ).toRot ⟨t, w, a, Quat.id⟩ ⟨t, w, a, yawQ θ⟩ := fun t => ⟨rfl, fun _ => by
      show (yawQ θ).toRot = (yawQ θ).toRot * Quat.id.toRot
      rw [hid, Matrix.mul_one]⟩
    refine .cons ⟨_, rfl, hm t1⟩ (.cons ⟨_, rfl, hm t2⟩ ?_)
    clear h12
    induction rest with
    | nil => exact .nil
    | cons ev l ih =>
      cases ev with
      | imu m => simp [imuArrivals] at hr
      | _ => exact .cons rfl (ih hr)

/-- **C98** fails for an IMU that is not mounted upright, with static bias initialisation and the IMU orientation
in use: `InitImuBias` combines the mounting rotation and the reported orientation the other way round than
gravity requires (imu_propagation.cpp:446-455).  For an IMU mounted with the rotation `(1/2, 1/2, 1/2, 1/2)`, a
half turn about the vertical changes the accelerometer bias the filter starts with (and publishes), though the
physical situation is the same. -/
theorem C98_mounting : ∃ (ic : ImuPropConfig) (Q : M3) (evs evs' : List EstEv) (e a a' : Estimator) (s s' : RobotState) (b b' : V3),
    Estimator.ctor .rightInvariant ⟨fun _ => 0, 0⟩ {} ic [] = some e ∧ Usable ic [] (imuArrivals evs) ∧ Usable ic [] (imuArrivals evs') ∧
    IsRot Q ∧ Q.mulVec gravity = gravity ∧ List.Forall₂ (EvTurn e.prop.useImuOri Q) evs evs' ∧ e.run evs = some a ∧ e.run evs' = some a' ∧
    a.outQ = [s] ∧ a'.outQ = [s'] ∧ s.get_accelerometer_bias = some b ∧ s'.get_accelerometer_bias = some b' ∧ b ≠ b' := by
  set ic : ImuPropConfig := { use_imu_ori_to_init := some true, init_bias_size := some 1, rotation_imu2body := some [1/2, 1/2, 1/2, 1/2] } with hic
  set Q : M3 := Quat.toRot ⟨0, 0, 0, 1⟩ with hQ
  have hid : Quat.id.toRot = 1 := by
    ext i j
    fin_cases i <;> fin_cases j <;> simp [Quat.id, Quat.toRot]
  obtain ⟨e, h0⟩ : ∃ e, Estimator.ctor .rightInvariant ⟨fun _ => 0, 0⟩ {} ic [] = some e := ⟨_, rfl⟩
  have key : ∀ q : Quat, q.w ^ 2 + q.x ^ 2 + q.y ^ 2 + q.z ^ 2 = 1 → ∃ a s,
      Usable ic [] (imuArrivals [.imu ⟨0, 0, 0, q⟩, .tick, .tick, .imu ⟨0, 0, 0, q⟩, .tick]) ∧
      e.run [.imu ⟨0, 0, 0, q⟩, .tick, .tick, .imu ⟨0, 0, 0, q⟩, .tick] = some a ∧ a.outQ = [s] ∧
      s.get_accelerometer_bias = some ((e.prop.biasSample ⟨0, 0, 0, q⟩).2) := by
    intro q hq
    have u : ∀ l : List ImuMeas, (∀ m ∈ l, m = ⟨0, 0, 0, q⟩) → Usable ic [] l := by
      intro l hl
      refine ⟨by simp, by simp, .inr ⟨by norm_num [hic], by norm_num [hic]⟩, .inr ?_, ?_⟩
      · intro m hm
        rw [hl m hm]; exact hq
      · refine List.pairwise_of_forall_mem_list ?_
        intro a ha b hb
        rw [hl a ha, hl b hb]
    obtain ⟨e4, h4, hen, hp, hbi, hco, hbu, hba, hout⟩ : ∃ e4, e.run [.imu ⟨0, 0, 0, q⟩, .tick, .tick, .imu ⟨0, 0, 0, q⟩] = some e4 ∧
        e4.enabled = false ∧ e4.pending = none ∧ e4.prop.biasInitialized = true ∧ e4.corrs = [] ∧ e4.prop.buffer = [⟨0, 0, 0, q⟩] ∧
        e4.prop.ba0 = (e.prop.biasSample ⟨0, 0, 0, q⟩).2 ∧ e4.outQ = [] := by
      have h1 : ImuProp.toSizeT 1 = 1 := by unfold ImuProp.toSizeT; norm_num
      rw [← Option.some.inj h0]
      simp only [hic, Estimator.run, Estimator.step, Estimator.tick, Estimator.initBias, ImuProp.initImuBias, Option.getD_some, Option.getD_none, if_true,
        Option.map_some, Option.bind_some, if_false, Bool.false_eq_true, Bool.true_eq_false, List.nil_append, List.length_nil, List.length_cons, h1, Nat.zero_lt_one,
        zero_add, lt_irrefl, one_ne_zero, List.foldl_cons, List.foldl_nil, Nat.cast_one, inv_one, one_smul]
      exact ⟨_, rfl, rfl, rfl, rfl, rfl, rfl, rfl, rfl⟩
    have hu4 : InUse e4 := exInUse h0 (u _ (by simp [imuArrivals])) h4
    obtain ⟨s, k1, -, -, -, k4, -⟩ := C45_all_data hu4 hen hp hbu (by rw [hco]; simp)
    have htick : e4.step .tick = e4.initState := by
      show e4.tick = _
      unfold Estimator.tick
      rw [hp]
      simp only [hen, hbi, if_true, if_false, Bool.false_eq_true]
    refine ⟨{ e4 with
        prop := { e4.prop with buffer := [], prev := some ⟨0, 0, 0, q⟩ }
        corrs := e4.corrs.map Corr.drained
        state := s
        outQ := e4.outQ ++ [s]
        enabled := true
        pending := none }, s, u _ (by simp [imuArrivals]), ?_, by rw [hout]; rfl, by rw [k4, hba]⟩
    · rw [show [EstEv.imu ⟨0, 0, 0, q⟩, .tick, .tick, .imu ⟨0, 0, 0, q⟩, .tick] = [EstEv.imu ⟨0, 0, 0, q⟩, .tick, .tick, .imu ⟨0, 0, 0, q⟩] ++ [.tick] from rfl,
        run_append_one, h4]
      exact htick.trans k1
  obtain ⟨a, s, u, r, o, b⟩ := key Quat.id (by norm_num [Quat.id])
  obtain ⟨a', s', u', r', o', b'⟩ := key ⟨0, 0, 0, 1⟩ (by norm_num)
  refine ⟨ic, Q, _, _, e, a, a', s, s', _, _, h0, u, u', toRot_isRot (by norm_num), ?_, ?_, r, r', o, o', b, b', ?_⟩
  · funext i
    fin_cases i <;> simp [hQ, Quat.toRot, gravity, Matrix.mulVec, dotProduct, Fin.sum_univ_three]
  · have hm : ImuTurn e.prop.useImuOri Q ⟨0, 0, 0, Quat.id⟩ ⟨0, 0, 0, ⟨0, 0, 0, 1⟩⟩ := ⟨rfl, fun _ => by
      show Q = Q * Quat.id.toRot
      rw [hid, Matrix.mul_one]⟩
    exact .cons ⟨_, rfl, hm⟩ (.cons rfl (.cons rfl (.cons ⟨_, rfl, hm⟩ (.cons rfl .nil))))
  · intro hb
    rw [← Option.some.inj h0] at hb
    have := congrFun hb 1
    simp [hic, ImuProp.biasSample, Quat.toRot, Quat.id, gravity, Matrix.mulVec, dotProduct, Fin.sum_univ_three, Matrix.mul_apply] at this
    norm_num at this

end Drift
