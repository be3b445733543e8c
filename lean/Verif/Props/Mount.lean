import Verif.Props.Settings
import Verif.Props.Perfect
import Verif.Props.Startup

/-!
# C148: the configured mounting orientations
-/
namespace Drift
open Matrix

theorem toRot_gram (q : Quat) : q.toRotᵀ * q.toRot - 1 = (4 * (1 - (q.w ^ 2 + q.x ^ 2 + q.y ^ 2 + q.z ^ 2))) •
    !![-(q.y ^ 2 + q.z ^ 2), q.x * q.y, q.x * q.z; q.x * q.y, -(q.x ^ 2 + q.z ^ 2), q.y * q.z; q.x * q.z, q.y * q.z, -(q.x ^ 2 + q.y ^ 2)] := by
  ext i j
  fin_cases i <;> fin_cases j <;> simp [Quat.toRot, Matrix.mul_apply, Fin.sum_univ_three] <;> ring

/-- the matrix computed from a quaternion is a rotation exactly when the quaternion is normalised, or real -/
theorem toRot_isRot_iff (q : Quat) : IsRot q.toRot ↔ q.w ^ 2 + q.x ^ 2 + q.y ^ 2 + q.z ^ 2 = 1 ∨ (q.x = 0 ∧ q.y = 0 ∧ q.z = 0) := by
  constructor
  · intro h
    have hg := toRot_gram q
    rw [h.1, sub_self] at hg
    by_cases hn : q.w ^ 2 + q.x ^ 2 + q.y ^ 2 + q.z ^ 2 = 1
    · exact .inl hn
    have hc : 4 * (1 - (q.w ^ 2 + q.x ^ 2 + q.y ^ 2 + q.z ^ 2)) ≠ 0 := mul_ne_zero (by norm_num) (sub_ne_zero.mpr (Ne.symm hn))
    have h0 := (smul_eq_zero.mp hg.symm).resolve_left hc
    have e1 : -(q.y ^ 2 + q.z ^ 2) = 0 := congrFun (congrFun h0 0) 0
    have e2 : -(q.x ^ 2 + q.z ^ 2) = 0 := congrFun (congrFun h0 1) 1
    exact .inr ⟨by nlinarith [sq_nonneg q.x, sq_nonneg q.y, sq_nonneg q.z], by nlinarith [sq_nonneg q.x, sq_nonneg q.y, sq_nonneg q.z], by nlinarith [sq_nonneg q.x, sq_nonneg q.y, sq_nonneg q.z]⟩
  · rintro (h | ⟨h1, h2, h3⟩)
    · exact toRot_isRot h
    · have : q.toRot = 1 := by ext i j; fin_cases i <;> fin_cases j <;> simp [Quat.toRot, h1, h2, h3]
      rw [this]
      exact ⟨by simp, by simp, by simp⟩

theorem quat_cons (w x y z : ℝ) (rest : List ℝ) : quat? (w :: x :: y :: z :: rest) = some ⟨w, x, y, z⟩ := rfl

theorem imu_mount {et d p} (hp : imuObj et d = some p) :
    (∀ w x y z, SetsQuat d "rotation_imu2body" w x y z → p.R_imu2body = Quat.toRot ⟨w, x, y, z⟩) ∧ (d "settings" "rotation_imu2body" = none → p.R_imu2body = 1) := by
  unfold imuObj at hp
  obtain ⟨c, hc, hp⟩ := Option.bind_eq_some_iff.mp hp
  simp only [Doc.imuConfig, Option.bind_eq_bind, Option.bind_eq_some_iff] at hc
  obtain ⟨a, -, b, -, c', -, r, hr, f, -, g, -, h, -, i, -, j, -, k, -, l, -, m, -, hc⟩ := hc
  rw [← Option.some.inj hc] at hp
  simp only [ImuProp.ctor, Option.bind_eq_bind, Option.bind_eq_some_iff] at hp
  constructor
  · rintro w x y z ⟨v, rest, hv, hv'⟩
    simp only [Doc.opt, hv, hv', Option.map_some] at hr
    obtain ⟨q, hq, hp⟩ := hp
    rw [← Option.some.inj hr, Option.getD_some, quat_cons] at hq
    obtain ⟨bg, -, hp⟩ := hp
    obtain ⟨ba, -, hp⟩ := hp
    obtain ⟨t, -, hp⟩ := hp
    rw [← Option.some.inj hp, ← Option.some.inj hq]
  · intro hv
    simp only [Doc.opt, hv] at hr
    obtain ⟨q, hq, hp⟩ := hp
    rw [← Option.some.inj hr, Option.getD_none, quat_cons] at hq
    obtain ⟨bg, -, hp⟩ := hp
    obtain ⟨ba, -, hp⟩ := hp
    obtain ⟨t, -, hp⟩ := hp
    rw [← Option.some.inj hp, ← Option.some.inj hq]
    ext i j; fin_cases i <;> fin_cases j <;> simp [Quat.toRot]

theorem vel_mount {et d p} (hp : velObj et d = some p) :
    (∀ w x y z, SetsQuat d "rotation_vel2body" w x y z → p.R_vel2body = Quat.toRot ⟨w, x, y, z⟩) ∧ (d "settings" "rotation_vel2body" = none → p.R_vel2body = 1) := by
  unfold velObj at hp
  obtain ⟨c, hc, hp⟩ := Option.bind_eq_some_iff.mp hp
  simp only [Doc.velConfig, Option.bind_eq_bind, Option.bind_eq_some_iff] at hc
  obtain ⟨a, -, b, -, r, hr, f, -, hc⟩ := hc
  rw [← Option.some.inj hc] at hp
  simp only [VelCorr.ctor, Option.bind_eq_bind, Option.bind_eq_some_iff] at hp
  constructor
  · rintro w x y z ⟨v, rest, hv, hv'⟩
    simp only [Doc.opt, hv, hv', Option.map_some] at hr
    obtain ⟨q, hq, hp⟩ := hp
    rw [← Option.some.inj hr, Option.getD_some, quat_cons] at hq
    rw [← Option.some.inj hp, ← Option.some.inj hq]
  · intro hv
    simp only [Doc.opt, hv] at hr
    obtain ⟨q, hq, hp⟩ := hp
    rw [← Option.some.inj hr, Option.getD_none, quat_cons] at hq
    rw [← Option.some.inj hp, ← Option.some.inj hq]
    ext i j; fin_cases i <;> fin_cases j <;> simp [Quat.toRot]

/-- **C148**, what holds, in every file: the mounting orientation used for the IMU and for the velocity sensor is a rotation exactly when the
quaternion in the file is normalised or a multiple of the identity, or is missing. -/
theorem C148_exact_partial (et : ErrorType) (d : Doc) :
    (∀ p, imuObj et d = some p → (d "settings" "rotation_imu2body" = none → p.R_imu2body = 1) ∧
      ∀ w x y z, SetsQuat d "rotation_imu2body" w x y z → (IsRot p.R_imu2body ↔ Accepted w x y z)) ∧
    (∀ p, velObj et d = some p → (d "settings" "rotation_vel2body" = none → p.R_vel2body = 1) ∧
      ∀ w x y z, SetsQuat d "rotation_vel2body" w x y z → (IsRot p.R_vel2body ↔ Accepted w x y z)) := by
  refine ⟨fun p hp => ⟨(imu_mount hp).2, fun w x y z h => ?_⟩, fun p hp => ⟨(vel_mount hp).2, fun w x y z h => ?_⟩⟩
  · rw [(imu_mount hp).1 w x y z h]; exact toRot_isRot_iff _
  · rw [(vel_mount hp).1 w x y z h]; exact toRot_isRot_iff _

theorem quat_husky {d : Doc} (h : d "settings" "rotation_imu2body" = some (.seq [.int 0 "0", .num 0.7071 "0.7071", .num (-0.7071) "-0.7071", .int 0 "0"])) :
    SetsQuat d "rotation_imu2body" 0 0.7071 (-0.7071) 0 :=
  ⟨_, [], h, by simp [YVal.asDoubles, YVal.asDouble, YVal.num, YVal.int]⟩

theorem quat_neya {d : Doc} (h : d "settings" "rotation_imu2body" = some (.seq [.num 0.7071068 "0.7071068", .int 0 "0", .int 0 "0", .num 0.7071068 "0.7071068"])) :
    SetsQuat d "rotation_imu2body" 0.7071068 0 0 0.7071068 :=
  ⟨_, [], h, by simp [YVal.asDoubles, YVal.asDouble, YVal.num, YVal.int]⟩


/-! ### what it does to a robot at rest -/

/-- the motion that starts at the origin at rest and has the constant acceleration `-c` along the vertical axis -/
noncomputable def sinkTruth (c : ℝ) : Truth := ⟨fun _ => 1, fun t => ![0, 0, -c * t], fun t => ![0, 0, -c * t ^ 2 / 2]⟩

theorem sink_imu {Rm : M3} {c t0 : ℝ} {m : ImuMeas} (h : t0 ≤ m.time) (hw : m.angVel = 0) (ha : Rm.mulVec m.linAcc = ![0, 0, 9.8 - c]) :
    (sinkTruth c).Imu Rm 0 0 0 t0 m := by
  refine ⟨h, 0, ![0, 0, 9.8 - c], fun _ => 1, fun s => ![0, 0, -c * (t0 + s)], fun s => ![0, 0, -c * (t0 + s) ^ 2 / 2], by simp [hw],
    by simp [ha], ⟨?_, ?_, ?_⟩, .inr (by simp), ?_⟩
  · intro s i j
    have : ((1 : M3) * skew 0) i j = 0 := by rw [skew_zero]; simp
    rw [this]
    exact hasDerivAt_const _ _
  · intro s i
    have e : ((1 : M3).mulVec ![0, 0, 9.8 - c] + ![0, 0, -9.8] : V3) i = (![0, 0, -c] : V3) i := by fin_cases i <;> simp; ring
    rw [e]
    fin_cases i
    · exact hasDerivAt_const _ _
    · exact hasDerivAt_const _ _
    · show HasDerivAt (fun s => -c * (t0 + s)) (-c) s
      simpa using (((hasDerivAt_id s).const_add t0).const_mul (-c))
  · intro s i
    fin_cases i
    · exact hasDerivAt_const _ _
    · exact hasDerivAt_const _ _
    · show HasDerivAt (fun s => -c * (t0 + s) ^ 2 / 2) (-c * (t0 + s)) s
      have h1 := (hasDerivAt_id s).const_add t0
      have h2 := ((h1.pow 2).const_mul (-c)).div_const 2
      refine HasDerivAt.congr_deriv h2 ?_
      simp
      ring
  · intro τ h1 h2
    have : t0 + (τ - t0) = τ := by ring
    simp only [this]
    exact ⟨rfl, rfl, rfl⟩

/-- the half turn about the axis `(1, -1, 0)`, which exchanges the first two axes: how the IMU is mounted -/
def halfTurn : M3 := !![0, -1, 0; -1, 0, 0; 0, 0, -1]

/-- the reading, at time `t`, of an IMU without error that is mounted this way on a robot at rest -/
noncomputable def restImu (t : ℝ) : ImuMeas := ⟨t, 0, ![0, 0, -9.8], ⟨1, 0, 0, 0⟩⟩

/-- the settings, with the orientation of the husky files -/
noncomputable def huskyMount : ImuPropConfig := { static_bias_initialization := some false, rotation_imu2body := some [0, 0.7071, -0.7071, 0] }

/-- the vertical acceleration that the estimator sees -/
noncomputable def sinkAcc : ℝ := 9.8 * (2 - 4 * 0.7071 ^ 2)

theorem husky_toRot : (Quat.toRot ⟨0, 0.7071, -0.7071, 0⟩).mulVec (![0, 0, -9.8] : V3) = ![0, 0, 9.8 - sinkAcc] := by
  funext i
  fin_cases i <;> simp [Quat.toRot, sinkAcc, Matrix.mulVec, dotProduct, Fin.sum_univ_three] <;> norm_num

theorem sink_run (t : ℝ) (ht : 0 ≤ t) : ∃ e0 e, Estimator.ctor .rightInvariant ⟨fun _ => 0, 0⟩ {} huskyMount [] = some e0 ∧
    e0.run [.tick, .imu (restImu 0), .imu (restImu t), .imu (restImu t), .tick, .tick, .tick] = some e ∧
    e.state.tProp = some t ∧ (sinkTruth sinkAcc).At t e.state := by
  obtain ⟨e0, h0⟩ : ∃ e0, Estimator.ctor .rightInvariant ⟨fun _ => 0, 0⟩ {} huskyMount [] = some e0 := ⟨_, rfl⟩
  have u : ∀ l, (l = [.tick, .imu (restImu 0), .imu (restImu t), .imu (restImu t)] ∨ l = [.tick, .imu (restImu 0), .imu (restImu t), .imu (restImu t), .tick] ∨
      l = [.tick, .imu (restImu 0), .imu (restImu t), .imu (restImu t), .tick, .tick, .tick]) → Usable huskyMount [] (imuArrivals l) := by
    rintro l (rfl | rfl | rfl) <;> exact ⟨by norm_num [huskyMount], by simp, .inl rfl, .inl rfl, by simp [imuArrivals, restImu, ht]⟩
  obtain ⟨e1, h1⟩ : ∃ e1, e0.run [.tick, .imu (restImu 0), .imu (restImu t), .imu (restImu t)] = some e1 := (C58_safe h0 _ (u _ (.inl rfl))).imp fun _ h => h.1
  have hu : InUse e1 := exInUse h0 (u _ (.inl rfl)) h1
  have hrun := h1
  rw [← Option.some.inj h0] at h1
  simp only [Estimator.run, Estimator.step, Estimator.tick, Estimator.initBias, ImuProp.initImuBias, Option.getD_some, if_true,
    Option.map_some, Option.bind_some, if_false, Bool.false_eq_true, huskyMount] at h1
  have he := (Option.some.inj h1).symm
  obtain ⟨s', k1, k2, k3, k4, k5, k6, k7⟩ := C138_start_partial (T := sinkTruth sinkAcc) (vs := []) hu (by rw [he]) (by rw [he]) (by rw [he])
    (m := restImu 0) (rest := [restImu t, restImu t]) (by rw [he]; rfl) (by rw [he]; rfl) (by simp) (by rw [he]; simp [sinkTruth]) (by simp [sinkTruth, restImu])
    (by
      intro _
      rw [he]
      have : RobotState.init.get_velocity = some 0 := by
        unfold RobotState.get_velocity RobotState.init
        rw [Mat.blkV?_eq (by simp) (by simp)]
        congr 1; funext i; simp [Mat.one_e]; omega
      rw [show ({ RobotState.init with } : RobotState).get_velocity = some 0 from this]
      simp only [sinkTruth, restImu, mul_zero]
      exact congrArg some (by funext i; fin_cases i <;> rfl)) (by simp)
  set e2 : Estimator := _ with he2
  replace k1 : e1.step .tick = some e2 := k1
  have hrun2 : e0.run [.tick, .imu (restImu 0), .imu (restImu t), .imu (restImu t), .tick] = some e2 := by
    rw [show ([.tick, .imu (restImu 0), .imu (restImu t), .imu (restImu t), .tick] : List EstEv) = [.tick, .imu (restImu 0), .imu (restImu t), .imu (restImu t)] ++ [.tick] from rfl,
      run_append_one, hrun]
    exact k1
  have hu2 : InUse e2 := exInUse h0 (u _ (.inr (.inl rfl))) hrun2
  obtain ⟨e4, h4, -⟩ := C58_safe h0 [.tick, .imu (restImu 0), .imu (restImu t), .imu (restImu t), .tick, .tick, .tick] (u _ (.inr (.inr rfl)))
  have hi : ExactInv (sinkTruth sinkAcc) (Quat.toRot ⟨0, 0.7071, -0.7071, 0⟩) 0 0 0 [] [] e2 := by
    obtain ⟨K, g⟩ := (inUse_inv hu2).good
    refine ⟨inUse_inv hu2, rfl, by rw [he2, he], ?_, ⟨0, restImu 0, ⟨⟨K, g.shape⟩, g.world, k3, k2, ?_, ?_⟩, rfl, ?_⟩, ⟨[], rfl, .nil, by simp⟩⟩
    · rw [he2, he]; funext i; fin_cases i <;> rfl
    · rw [k4, he]; exact congrArg some (by funext i; fin_cases i <;> rfl)
    · rw [k5, he]; exact congrArg some (by funext i; fin_cases i <;> rfl)
    · exact ⟨sink_imu le_rfl rfl husky_toRot, sink_imu ht rfl husky_toRot, sink_imu le_rfl rfl husky_toRot, trivial⟩
  have hr4 : e2.run [.tick, .tick] = some e4 := by
    have := est_run_append (e := e0) [.tick, .imu (restImu 0), .imu (restImu t), .imu (restImu t), .tick] [.tick, .tick]
    rw [hrun2] at this
    rw [← h4]; exact this.symm
  have hrot : ∀ t, IsRot ((sinkTruth sinkAcc).R t) := fun t => ⟨by simp [sinkTruth], by simp [sinkTruth], by simp [sinkTruth]⟩
  obtain ⟨e3, s3, s4⟩ := Option.bind_eq_some_iff.mp (show (e2.step .tick).bind (fun e => e.run [.tick]) = some e4 from hr4)
  obtain ⟨e5, s5, s6⟩ := Option.bind_eq_some_iff.mp (show (e3.step .tick).bind (fun e => e.run []) = some e4 from s4)
  have s7 : e3.step .tick = some e4 := by rw [s5]; exact s6
  have i3 := (ExactInv.step (ev := .tick) (fut := []) (.inl rfl) hrot hi (by simp) (by simp) s3).1
  have i4 := (ExactInv.step (ev := .tick) (fut := []) (.inl rfl) hrot i3 (by simp) (by simp) s7).1
  obtain ⟨s0, rest, j, a1, a2, a3, a4, a5, a6, a7⟩ := C107_accounting h0 (u _ (.inr (.inr rfl))) (by simp [NoClear]) h4 i4.en
  obtain ⟨-, j', b1, b2, b3, b4⟩ := C107_keeps_up hu2 rfl (evs := [.tick, .tick]) (by simp [NoClear]) hr4
  have hb : biasSamples huskyMount = 0 := by simp [biasSamples, huskyMount]
  have ha : imuArrivals [.tick, .imu (restImu 0), .imu (restImu t), .imu (restImu t), .tick, .tick, .tick] = [restImu 0, restImu t, restImu t] := by simp [imuArrivals]
  rw [hb, ha] at a4 a6 a7
  have hj' : 2 ≤ j' := by simpa [turns, he2] using b1
  have hj : j = 2 := by
    have h1 := congrArg List.length b4
    have h2 := congrArg List.length a6
    rw [h1] at h2
    simp [he2, imuArrivals] at h2 a4
    omega
  have htp : e4.state.tProp = some t := by rw [a7, hj]; rfl
  obtain ⟨tp, m, hx, -⟩ := i4.ex
  have : tp = t := by
    have := hx.time
    rw [htp] at this
    exact (Option.some.inj this).symm
  exact ⟨e0, e4, h0, h4, htp, this ▸ hx.at_⟩

/-- the estimator with the files of a program -/
noncomputable def Files.mount (f : Files) : Option M3 := (imuObj .rightInvariant f.imu).map (·.R_imu2body)

/-- **C148** is false.  In the files of six of the shipped programs the quaternion has a few digits only and is not normalised, so what the
estimator takes for the orientation of the IMU is not a rotation: it also shortens the readings.  And with the value of the husky files and
everything else perfect, a robot that stands still, with an IMU without error that is mounted as meant, is estimated to fall: after `t` seconds
with `c t` and by `c t²/2`, for `c` = 0.00038 m/s², 0.7 m in a minute. -/
theorem C148_false :
    (∀ f ∈ [Shipped.husky, Shipped.huskyOdom, Shipped.huskyDouble, Shipped.huskyGyro, Shipped.neya, Shipped.neyaGyro],
      ∃ R, f.mount = some R ∧ ¬ IsRot R) ∧
    IsRot halfTurn ∧ (∀ t, halfTurn.mulVec (restImu t).linAcc = ![0, 0, 9.8] ∧ (restImu t).angVel = 0) ∧
    (0.00037 < sinkAcc ∧ ∀ t, 0 ≤ t → ∃ e0 e, Estimator.ctor .rightInvariant ⟨fun _ => 0, 0⟩ {} huskyMount [] = some e0 ∧
      e0.run [.tick, .imu (restImu 0), .imu (restImu t), .imu (restImu t), .tick, .tick, .tick] = some e ∧ e.state.tProp = some t ∧
      e.state.get_velocity = some ![0, 0, -sinkAcc * t] ∧ e.state.get_position = some ![0, 0, -sinkAcc * t ^ 2 / 2]) := by
  have hload : ∀ f : Files, (imuObj .rightInvariant f.imu).isSome → ∀ w x y z, SetsQuat f.imu "rotation_imu2body" w x y z → ¬ Accepted w x y z →
      ∃ R, f.mount = some R ∧ ¬ IsRot R := by
    intro f hf w x y z hq ha
    obtain ⟨p, hp⟩ := Option.isSome_iff_exists.mp hf
    exact ⟨p.R_imu2body, by simp [Files.mount, hp], fun h => ha ((((C148_exact_partial .rightInvariant f.imu).1 p hp).2 w x y z hq).mp h)⟩
  have a1 : ¬ Accepted 0 0.7071 (-0.7071) 0 := by unfold Accepted; norm_num
  have a2 : ¬ Accepted 0.7071068 0 0 0.7071068 := by unfold Accepted; norm_num
  refine ⟨?_, ⟨?_, ?_, ?_⟩, fun t => ⟨?_, rfl⟩, by norm_num [sinkAcc], fun t ht => ?_⟩
  · simp only [List.forall_mem_cons, List.not_mem_nil, false_imp_iff, implies_true, and_true]
    refine ⟨hload _ ?_ _ _ _ _ (quat_husky ?_) a1, hload _ ?_ _ _ _ _ (quat_husky ?_) a1, hload _ ?_ _ _ _ _ (quat_husky ?_) a1,
      hload _ ?_ _ _ _ _ (quat_husky ?_) a1, hload _ ?_ _ _ _ _ (quat_neya ?_) a2, hload _ ?_ _ _ _ _ (quat_neya ?_) a2⟩ <;>
    simp [imuObj, ImuProp.ctor, Shipped.husky, Shipped.huskyOdom, Shipped.huskyDouble, Shipped.huskyGyro, Shipped.neya, Shipped.neyaGyro,
      Shipped.huskyImu, Shipped.huskyOdomImu, Shipped.huskyDoubleImu, Shipped.huskyGyroImu, Shipped.neyaImu, Shipped.neyaGyroImu, Doc.of, List.lookup,
      Doc.imuConfig, Doc.opt, YVal.asDouble, YVal.asDoubles, YVal.asBool, YVal.asInt, YVal.bool, YVal.int, YVal.num, quat?, vec3?]
  · ext i j; fin_cases i <;> fin_cases j <;> simp [halfTurn, Matrix.mul_apply, Fin.sum_univ_three]
  · ext i j; fin_cases i <;> fin_cases j <;> simp [halfTurn, Matrix.mul_apply, Fin.sum_univ_three]
  · simp [halfTurn, Matrix.det_fin_three]
  · funext i; fin_cases i <;> simp [halfTurn, restImu, Matrix.mulVec, dotProduct, Fin.sum_univ_three]
  · obtain ⟨e0, e, h1, h2, h3, h4, h5, h6⟩ := sink_run t ht
    exact ⟨e0, e, h1, h2, h3, h5, h6⟩

/-- files whose quaternion is normalised: the ones of fetch -/
example : ∃ p, imuObj .rightInvariant Shipped.fetch.imu = some p ∧ IsRot p.R_imu2body := by
  have : SetsQuat Shipped.fetch.imu "rotation_imu2body" 1 0 0 0 :=
    ⟨.seq [.int 1 "1", .int 0 "0", .int 0 "0", .int 0 "0"], [], by simp [Shipped.fetch, Shipped.fetchImu, Doc.of, List.lookup],
      by simp [YVal.asDoubles, YVal.asDouble, YVal.int]⟩
  obtain ⟨p, hp⟩ : ∃ p, imuObj .rightInvariant Shipped.fetch.imu = some p := Option.isSome_iff_exists.mp (by
    simp [imuObj, ImuProp.ctor, Shipped.fetch, Shipped.fetchImu, Doc.of, List.lookup,
      Doc.imuConfig, Doc.opt, YVal.asDouble, YVal.asDoubles, YVal.asBool, YVal.asInt, YVal.bool, YVal.int, YVal.num, quat?, vec3?])
  exact ⟨p, hp, (((C148_exact_partial .rightInvariant _).1 p hp).2 _ _ _ _ this).mpr (.inr ⟨rfl, rfl, rfl⟩)⟩

end Drift
