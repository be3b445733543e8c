import Verif.Props.Settings

/-!
# C149: which configuration files can be loaded
-/
namespace Drift

theorem opt_isSome {α : Type} (d : Doc) (s k : String) (conv : YVal → Option α) :
    (∃ x, d.opt s k conv = some x) ↔ Fits d s k (fun v => (conv v).isSome) := by
  unfold Doc.opt Fits
  obtain ⟨o, ho⟩ : ∃ o, d s k = o := ⟨_, rfl⟩
  rw [ho]
  cases o with
  | none => simp
  | some v => simp [Option.isSome_iff_exists]

theorem quat_isSome (l : List ℝ) : (∃ q, quat? l = some q) ↔ 4 ≤ l.length := by
  match l with
  | [] => simp [quat?]
  | [_] => simp [quat?]
  | [_, _] => simp [quat?]
  | [_, _, _] => simp [quat?]
  | w :: x :: y :: z :: r => simp [quat?]

theorem vec_isSome (l : List ℝ) : (∃ q, vec3? l = some q) ↔ 3 ≤ l.length := by
  match l with
  | [] => simp [vec3?]
  | [_] => simp [vec3?]
  | [_, _] => simp [vec3?]
  | x :: y :: z :: r => simp [vec3?]

theorem optvec (d : Doc) (s k : String) {β : Type} (f : List ℝ → Option β) (n : ℕ) (hf : ∀ l, (∃ q, f l = some q) ↔ n ≤ l.length) (dflt : List ℝ) (hd : n ≤ dflt.length) :
    (∃ x, d.opt s k YVal.asDoubles = some x ∧ ∃ q, f (x.getD dflt) = some q) ↔ Fits d s k (IsVec n) := by
  unfold Doc.opt Fits IsVec
  obtain ⟨o, ho⟩ : ∃ o, d s k = o := ⟨_, rfl⟩
  rw [ho]
  cases o with
  | none => simp [hf, hd]
  | some v =>
    simp only [Option.map_eq_some_iff, Option.some.injEq]
    constructor
    · rintro ⟨x, ⟨l, hl, rfl⟩, h⟩ v' rfl
      exact ⟨l, hl, (hf l).mp h⟩
    · intro h
      obtain ⟨l, hl, h⟩ := h v rfl
      exact ⟨some l, ⟨l, hl, rfl⟩, (hf l).mpr h⟩

theorem isSome_bind {α β : Type} {o : Option α} {f : α → Option β} : (o.bind f).isSome ↔ ∃ a, o = some a ∧ (f a).isSome := by
  cases o <;> simp

theorem imu_loads (et : ErrorType) (d : Doc) : (imuObj et d).isSome ↔ ImuFile d := by
  have o1 := optvec d "settings" "rotation_imu2body" quat? 4 quat_isSome [1, 0, 0, 0] (by simp)
  have o2 := optvec d "priors" "gyroscope_bias" vec3? 3 vec_isSome [0, 0, 0] (by simp)
  have o3 := optvec d "priors" "accelerometer_bias" vec3? 3 vec_isSome [0, 0, 0] (by simp)
  have o4 := optvec d "settings" "translation_imu2body" vec3? 3 vec_isSome [0, 0, 0] (by simp)
  unfold ImuFile IsBool IsInt IsNum
  rw [← o1, ← o2, ← o3, ← o4]
  simp only [← opt_isSome]
  unfold imuObj
  simp only [Doc.imuConfig, ImuProp.ctor, Option.bind_eq_bind, isSome_bind, Option.bind_some, Option.isSome_some, and_true, Option.bind_eq_some_iff]
  constructor
  · rintro ⟨c, ⟨a, ha, b, hb, c', hc', r, hr, f, hf, g, hg, h, hh, i, hi, j, hj, k, hk, l, hl, m, hm, hc⟩, q, hq, x1, hx1, x2, hx2, x3, hx3⟩
    obtain rfl := Option.some.inj hc
    exact ⟨⟨a, ha⟩, ⟨b, hb⟩, ⟨c', hc'⟩, ⟨r, hr, q, hq⟩, ⟨f, hf⟩, ⟨g, hg⟩, ⟨h, hh⟩, ⟨i, hi⟩, ⟨j, hj, by first | exact ⟨_, hx1⟩ | exact ⟨_, hx2⟩ | exact ⟨_, hx3⟩⟩,
      ⟨k, hk, by first | exact ⟨_, hx1⟩ | exact ⟨_, hx2⟩ | exact ⟨_, hx3⟩⟩, ⟨l, hl⟩, ⟨m, hm, by first | exact ⟨_, hx1⟩ | exact ⟨_, hx2⟩ | exact ⟨_, hx3⟩⟩⟩
  · rintro ⟨⟨a, ha⟩, ⟨b, hb⟩, ⟨c', hc'⟩, ⟨r, hr, q, hq⟩, ⟨f, hf⟩, ⟨g, hg⟩, ⟨h, hh⟩, ⟨i, hi⟩, ⟨j, hj, x1, hx1⟩, ⟨k, hk, x2, hx2⟩, ⟨l, hl⟩, ⟨m, hm, x3, hx3⟩⟩
    exact ⟨_, ⟨a, ha, b, hb, c', hc', r, hr, f, hf, g, hg, h, hh, i, hi, j, hj, k, hk, l, hl, m, hm, rfl⟩, q, hq, x1, hx1, x2, hx2, x3, hx3⟩

theorem vel_loads (et : ErrorType) (d : Doc) : (velObj et d).isSome ↔ VelFile d := by
  have o1 := optvec d "settings" "rotation_vel2body" quat? 4 quat_isSome [1, 0, 0, 0] (by simp)
  unfold VelFile IsNum
  rw [← o1]
  simp only [← opt_isSome]
  unfold velObj
  simp only [Doc.velConfig, VelCorr.ctor, Option.bind_eq_bind, isSome_bind, Option.bind_some, Option.isSome_some, and_true, Option.bind_eq_some_iff]
  constructor
  · rintro ⟨c, ⟨a, ha, b, hb, r, hr, f, hf, hc⟩, q, hq⟩
    obtain rfl := Option.some.inj hc
    exact ⟨⟨a, ha⟩, ⟨b, hb⟩, ⟨r, hr, q, hq⟩, ⟨f, hf⟩⟩
  · rintro ⟨⟨a, ha⟩, ⟨b, hb⟩, ⟨r, hr, q, hq⟩, ⟨f, hf⟩⟩
    exact ⟨_, ⟨a, ha, b, hb, r, hr, f, hf, rfl⟩, q, hq⟩

theorem leg_loads (et : ErrorType) (d : Doc) : (legObj et d).isSome ↔ LegFile d := by
  unfold LegFile IsNum
  simp only [← opt_isSome]
  unfold legObj
  simp only [Doc.legConfig, Option.isSome_map, Option.bind_eq_bind, isSome_bind, Option.isSome_some, and_true]
  constructor
  · rintro ⟨a, ha, b, hb, r, hr, f, hf⟩
    exact ⟨⟨a, ha⟩, ⟨b, hb⟩, ⟨r, hr⟩, ⟨f, hf⟩⟩
  · rintro ⟨⟨a, ha⟩, ⟨b, hb⟩, ⟨r, hr⟩, ⟨f, hf⟩⟩
    exact ⟨a, ha, b, hb, r, hr, f, hf⟩

theorem req_bool (d : Doc) (s k : String) (b : Bool) : d.req s k YVal.asBool = some b ↔ Given d s k (·.asBool = some b) := by
  unfold Doc.req Given
  obtain ⟨o, ho⟩ : ∃ o, d s k = o := ⟨_, rfl⟩
  rw [ho]
  cases o <;> simp

theorem est_loads (d : Doc) : d.estConfig.isSome ↔ EstFile d := by
  unfold EstFile IsNum IsText
  simp only [← opt_isSome]
  simp only [Doc.estConfig, Option.bind_eq_bind, isSome_bind]
  have hg : Given d "logger" "enable_pose_logger" IsBool ↔ ∃ b, d.req "logger" "enable_pose_logger" YVal.asBool = some b := by
    simp only [req_bool, Given, IsBool, Option.isSome_iff_exists]
    constructor
    · rintro ⟨v, h, b, hb⟩; exact ⟨b, v, h, hb⟩
    · rintro ⟨b, v, h, hb⟩; exact ⟨v, h, b, hb⟩
  rw [hg, ← req_bool]
  constructor
  · rintro ⟨en, hen, a, ha, b, hb, c, hc, h⟩
    refine ⟨⟨en, hen⟩, ⟨a, ha⟩, ⟨b, hb⟩, ⟨c, hc⟩, fun ht => ?_⟩
    rw [hen] at ht
    obtain rfl := Option.some.inj ht
    simp only [if_true, isSome_bind, Option.isSome_some, and_true] at h
    obtain ⟨p, hp, v, hv, r, hr⟩ := h
    exact ⟨⟨p, hp⟩, ⟨v, hv⟩, ⟨r, hr⟩⟩
  · rintro ⟨⟨en, hen⟩, ⟨a, ha⟩, ⟨b, hb⟩, ⟨c, hc⟩, h⟩
    refine ⟨en, hen, a, ha, b, hb, c, hc, ?_⟩
    cases en with
    | false => simp
    | true =>
      obtain ⟨⟨p, hp⟩, ⟨v, hv⟩, ⟨r, hr⟩⟩ := h hen
      simp only [if_true, isSome_bind, Option.isSome_some, and_true]
      exact ⟨p, hp, v, hv, r, hr⟩

theorem filter_loads (sized : Bool) (d : Doc) : (d.filterConfig sized).isSome ↔ FilterFile sized d := by
  have o1 := optvec d "settings" "rotation_imu2body" quat? 4 quat_isSome [1, 0, 0, 0] (by simp)
  have o2 := optvec d "priors" "ang_vel_bias" vec3? 3 vec_isSome [0, 0, 0] (by simp)
  unfold FilterFile IsBool IsInt IsNum
  rw [← o1, ← o2]
  simp only [← opt_isSome]
  have hsb : ∀ x, d.opt "settings" "static_bias_initialization" YVal.asBool = some x →
      (Given d "settings" "static_bias_initialization" (·.asBool = some true) ↔ x.getD false = true) := by
    intro x
    unfold Doc.opt Given
    obtain ⟨o, ho⟩ : ∃ o, d "settings" "static_bias_initialization" = o := ⟨_, rfl⟩
    rw [ho]
    cases o with
    | none => intro h; rw [← Option.some.inj h]; simp
    | some v =>
      intro h
      obtain ⟨b, hb, rfl⟩ := Option.map_eq_some_iff.mp h
      simp [hb]
  have hsz : (∃ ib, (if sized = true then d.opt "settings" "init_bias_size" YVal.asInt else some none) = some ib) ↔
      (sized = true → ∃ x, d.opt "settings" "init_bias_size" YVal.asInt = some x) := by
    cases sized <;> simp
  rw [← hsz]
  unfold Doc.filterConfig
  constructor
  · intro H
    obtain ⟨q, hq, H⟩ := isSome_bind.mp H
    obtain ⟨q', hq', H⟩ := isSome_bind.mp H
    obtain ⟨fg, hfg, H⟩ := isSome_bind.mp H
    obtain ⟨tt, htt, H⟩ := isSome_bind.mp H
    obtain ⟨cm, hcm, H⟩ := isSome_bind.mp H
    obtain ⟨ib, hib, H⟩ := isSome_bind.mp H
    obtain ⟨sb, hs, H⟩ := isSome_bind.mp H
    obtain ⟨pr, hpr, H⟩ := isSome_bind.mp H
    obtain ⟨a, ha, H⟩ := isSome_bind.mp H
    obtain ⟨b, hb, H⟩ := isSome_bind.mp H
    obtain ⟨c, hc, H⟩ := isSome_bind.mp H
    obtain ⟨e, he, H⟩ := isSome_bind.mp H
    obtain ⟨f, hf, H⟩ := isSome_bind.mp H
    obtain ⟨g, hg, H⟩ := isSome_bind.mp H
    refine ⟨⟨q, hq, q', hq'⟩, ⟨fg, hfg⟩, ⟨tt, htt⟩, ⟨cm, hcm⟩, ⟨ib, hib⟩, ⟨sb, hs⟩, fun hn => ?_, ⟨a, ha⟩, ⟨b, hb⟩, ⟨c, hc⟩, ⟨e, he⟩, ⟨f, hf⟩, ⟨g, hg⟩⟩
    rw [hsb sb hs] at hn
    rw [if_neg hn] at hpr
    obtain ⟨v, hv, hv'⟩ := Option.bind_eq_some_iff.mp hpr
    exact ⟨v, hv, pr, hv'⟩
  · rintro ⟨⟨q, hq, q', hq'⟩, ⟨fg, hfg⟩, ⟨tt, htt⟩, ⟨cm, hcm⟩, ⟨ib, hib⟩, ⟨sb, hs⟩, hn, ⟨a, ha⟩, ⟨b, hb⟩, ⟨c, hc⟩, ⟨e, he⟩, ⟨f, hf⟩, ⟨g, hg⟩⟩
    rw [hsb sb hs] at hn
    obtain ⟨pr, hpr⟩ : ∃ pr, (if sb.getD false = true then some ![0, 0, 0] else
        (d.opt "priors" "ang_vel_bias" YVal.asDoubles).bind fun v => vec3? (v.getD [0, 0, 0])) = some pr := by
      by_cases h : sb.getD false = true
      · exact ⟨_, by rw [if_pos h]⟩
      · obtain ⟨v, hv, x, hx⟩ := hn h
        exact ⟨x, by rw [if_neg h, hv]; exact hx⟩
    refine isSome_bind.mpr ⟨q, hq, ?_⟩
    refine isSome_bind.mpr ⟨q', hq', ?_⟩
    refine isSome_bind.mpr ⟨fg, hfg, ?_⟩
    refine isSome_bind.mpr ⟨tt, htt, ?_⟩
    refine isSome_bind.mpr ⟨cm, hcm, ?_⟩
    refine isSome_bind.mpr ⟨ib, hib, ?_⟩
    refine isSome_bind.mpr ⟨sb, hs, ?_⟩
    refine isSome_bind.mpr ⟨pr, hpr, ?_⟩
    refine isSome_bind.mpr ⟨a, ha, ?_⟩
    refine isSome_bind.mpr ⟨b, hb, ?_⟩
    refine isSome_bind.mpr ⟨c, hc, ?_⟩
    refine isSome_bind.mpr ⟨e, he, ?_⟩
    refine isSome_bind.mpr ⟨f, hf, ?_⟩
    refine isSome_bind.mpr ⟨g, hg, ?_⟩
    rfl

/-- **C149**, for every file: an object is built, and the program does not end with an exception, exactly when all settings in the file that its class knows
have values of the right kind; no setting need be there but the switch of the logger. -/
theorem C149_exactly_when (et : ErrorType) (d : Doc) :
    ((imuObj et d).isSome ↔ ImuFile d) ∧ ((velObj et d).isSome ↔ VelFile d) ∧ ((legObj et d).isSome ↔ LegFile d) ∧
    (d.estConfig.isSome ↔ EstFile d) ∧ ((filterObj d).isSome ↔ FilterFile true d) ∧ ((filterObj5 d).isSome ↔ FilterFile false d) := by
  refine ⟨imu_loads et d, vel_loads et d, leg_loads et d, est_loads d, ?_, ?_⟩
  · unfold filterObj; rw [Option.isSome_map]; exact filter_loads true d
  · unfold filterObj5; rw [Option.isSome_map]; exact filter_loads false d

/-- **C149**: an empty file is enough for every class but the estimator, which needs the switch of the logger -/
theorem C149_empty (et : ErrorType) : (imuObj et noFile).isSome ∧ (velObj et noFile).isSome ∧ (legObj et noFile).isSome ∧ ¬ noFile.estConfig.isSome ∧
    (filterObj noFile).isSome ∧ (filterObj5 noFile).isSome := by
  obtain ⟨h1, h2, h3, h4, h5, h6⟩ := C149_exactly_when et noFile
  rw [h1, h2, h3, h4, h5, h6]
  refine ⟨?_, ?_, ?_, ?_, ?_, ?_⟩
  · simp [ImuFile, Fits, noFile]
  · simp [VelFile, Fits, noFile]
  · simp [LegFile, Fits, noFile]
  · simp [EstFile, Given, noFile]
  · simp [FilterFile, Fits, noFile]
  · simp [FilterFile, Fits, noFile]

end Drift
