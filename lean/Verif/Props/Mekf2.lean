import Verif.Props.Mekf

/-!
# Properties C118-C121: the multiplicative EKF baseline, continued
-/
namespace Drift
open Matrix NormedSpace
namespace Mekf

/-! ### C118 -/

theorem mean_const {n : ℕ} (hn : n ≠ 0) (u : V3) : mean (List.replicate n u) = some u := by
  unfold mean
  rw [if_neg (by simpa using hn)]
  congr 1
  rw [List.sum_replicate, List.length_replicate]
  ext i
  have : (n : ℝ) ≠ 0 := by exact_mod_cast hn
  simp
  field_simp

theorem init_const {n w : ℕ} (hn : n ≠ 0) (hw : w ≠ 0) (bg acc : V3) (M : M3) :
    init_bias (List.replicate n (bg, acc)) M w = some (M *ᵥ bg, M *ᵥ (acc - ![0, 0, 9.8])) := by
  unfold init_bias
  rw [List.take_replicate, List.map_replicate, List.map_replicate, mean_const (by simp; omega),
    mean_const (by simp; omega)]
  rfl

/-- a run over a robot at rest, from a state with the identity orientation -/
theorem rest_run (c : Cfg) (r : ℝ) (acc gyro d : V3) (hw : c.R_imu2body *ᵥ gyro = c.gyroBias)
    (hd : c.R_imu2body *ᵥ acc - c.accBias - ![0, 0, 9.81] = d) (dts : List ℝ) : ∀ (s : St) (T : ℝ), s.q = Quat.id → s.v = T • d →
    s.p = (T ^ 2 / 2) • d → ∃ s', run c r s (dts.map fun dt => ⟨dt, acc, gyro, none⟩) = some s' ∧
      s'.q = Quat.id ∧ s'.v = (T + dts.sum) • d ∧ s'.p = ((T + dts.sum) ^ 2 / 2) • d := by
  induction dts with
  | nil => intro s T h1 h2 h3; exact ⟨s, rfl, h1, by simpa using h2, by simpa using h3⟩
  | cons dt l ih =>
    intro s T h1 h2 h3
    have hu : s.q.w ^ 2 + s.q.x ^ 2 + s.q.y ^ 2 + s.q.z ^ 2 = 1 := by rw [h1]; simp [Quat.id]
    have hq : quat2rot s.q = some 1 := by
      rw [quat2rot_unit hu, h1]
      congr 1
      ext i j
      fin_cases i <;> fin_cases j <;> simp [Quat.id, Quat.toRot]
    obtain ⟨s1, e1⟩ : ∃ s1, propCore c dt acc gyro s = some s1 := by
      unfold propCore; rw [hq]; exact ⟨_, rfl⟩
    obtain ⟨p1, v1, q1⟩ := C116_mean c dt acc gyro s s1 1 hq e1
    have hid : rot2quat (1 : M3) = Quat.id := by
      unfold rot2quat Quat.id copysign
      simp [Matrix.one_apply]
      rw [show (1 + 1 + 1 + 1 : ℝ) = 2 ^ 2 by norm_num, max_eq_right (by norm_num), Real.sqrt_sq (by norm_num)]
      norm_num
    rw [hw, sub_self, nextR, smul_zero, turned_zero, hid] at q1
    rw [nextV, Matrix.one_mulVec, hd] at v1
    rw [nextP, Matrix.one_mulVec, hd] at p1
    obtain ⟨s', e', g1, g2, g3⟩ := ih { s1 with P := s1.Pᵀ } (T + dt) q1
      (by show s1.v = _; rw [v1, h2, add_smul])
      (by show s1.p = _; rw [p1, h2, h3, smul_smul, ← add_smul, ← add_smul]; congr 1; ring)
    refine ⟨s', ?_, g1, ?_, ?_⟩
    · rw [List.map_cons, run, turn, e1]; exact e'
    · rw [g2, List.sum_cons, add_assoc]
    · rw [g3, List.sum_cons, add_assoc]

/-- **C118**, exactly: a robot at rest and level, with any constant sensor biases `bg`, `ba`, whose biases are
initialised by `init_bias` from a log of it at rest: after the time `T` (whatever the time steps) the orientation is
unchanged, but the velocity is `T d` and the position `T² / 2 d` with `d = 9.8 M e_z - 9.81 e_z` for the mounting `M`. -/
theorem C118_rest_partial (M : M3) (bg ba : V3) (n w : ℕ) (hn : n ≠ 0) (hw : w ≠ 0) (aC gC r : ℝ)
    (dts : List ℝ) : ∃ gb ab s', init_bias (List.replicate n (bg, Mᵀ *ᵥ ![0, 0, 9.81] + ba)) M w = some (gb, ab) ∧
      run ⟨aC, gC, ab, gb, M⟩ r initial (dts.map fun dt => ⟨dt, Mᵀ *ᵥ ![0, 0, 9.81] + ba, bg, none⟩) = some s' ∧
      s'.q = Quat.id ∧ s'.v = dts.sum • (M *ᵥ ![0, 0, 9.8] - ![0, 0, 9.81]) ∧
      s'.p = (dts.sum ^ 2 / 2) • (M *ᵥ ![0, 0, 9.8] - ![0, 0, 9.81]) := by
  obtain ⟨s', h1, h2, h3, h4⟩ := rest_run ⟨aC, gC, M *ᵥ (Mᵀ *ᵥ ![0, 0, 9.81] + ba - ![0, 0, 9.8]), M *ᵥ bg, M⟩ r
    (Mᵀ *ᵥ ![0, 0, 9.81] + ba) bg (M *ᵥ ![0, 0, 9.8] - ![0, 0, 9.81]) rfl
    (by simp only [Matrix.mulVec_sub, sub_sub_cancel]) dts initial 0 rfl (by simp [initial]) (by simp [initial])
  rw [zero_add] at h3 h4
  exact ⟨_, _, s', init_const hn hw _ _ _, h1, h2, h3, h4⟩

/-- **C118 is false** for every mounting: the estimate of a robot at rest moves, as soon as time passes. -/
theorem C118_false (M : M3) (hM : IsRot M) (bg ba : V3) (n w : ℕ) (hn : n ≠ 0) (hw : w ≠ 0) (aC gC r : ℝ)
    (dts : List ℝ) (hT : dts.sum ≠ 0) :
    ∃ gb ab s', init_bias (List.replicate n (bg, Mᵀ *ᵥ ![0, 0, 9.81] + ba)) M w = some (gb, ab) ∧
      run ⟨aC, gC, ab, gb, M⟩ r initial (dts.map fun dt => ⟨dt, Mᵀ *ᵥ ![0, 0, 9.81] + ba, bg, none⟩) = some s' ∧
      s'.v ≠ 0 ∧ s'.p ≠ 0 := by
  obtain ⟨gb, ab, s', h1, h2, -, h3, h4⟩ := C118_rest_partial M bg ba n w hn hw aC gC r dts
  have hd : M *ᵥ ![0, 0, 9.8] - ![0, 0, 9.81] ≠ 0 := by
    intro h
    have e : M *ᵥ ![0, 0, 9.8] = ![0, 0, 9.81] := sub_eq_zero.mp h
    have e2 : Mᵀ *ᵥ (M *ᵥ ![0, 0, 9.8]) = ![0, 0, 9.8] := by
      rw [Matrix.mulVec_mulVec, hM.1, Matrix.one_mulVec]
    have e3 : (M *ᵥ ![0, 0, 9.8]) ⬝ᵥ (M *ᵥ ![0, 0, 9.8]) = (![0, 0, 9.8] : V3) ⬝ᵥ ![0, 0, 9.8] := by
      rw [Matrix.dotProduct_mulVec, Matrix.vecMul_mulVec, ← Matrix.dotProduct_mulVec, hM.1, Matrix.one_mulVec]
    rw [e] at e3
    simp [dotProduct, Fin.sum_univ_three] at e3
    norm_num at e3
  refine ⟨gb, ab, s', h1, h2, ?_, ?_⟩
  · rw [h3]; exact smul_ne_zero hT hd
  · rw [h4]; exact smul_ne_zero (by positivity) hd

/-- with the Husky's mounting: after 10 s at rest the estimate has fallen 980.5 m -/
example : ∀ s' : St, s'.p = ((10 : ℝ) ^ 2 / 2) • (huskyMount *ᵥ ![0, 0, 9.8] - ![0, 0, 9.81]) → s'.p 2 = -980.5 := by
  intro s' h
  rw [h, show huskyMount *ᵥ ![0, 0, 9.8] = ![0, 0, -9.8] by
    ext i; fin_cases i <;> simp [huskyMount, Matrix.mulVec, dotProduct, Fin.sum_univ_three]]
  simp
  norm_num
example : IsRot huskyMount ∧ ([0.01, 0.02] : List ℝ).sum ≠ 0 := ⟨huskyMount_isRot, by norm_num⟩

/-! ### C119 -/

/-- how many velocity rows the first turns used -/
def usedBy (is : List Input) : ℕ := is.countP fun i => i.vel.isSome

theorem plan_length (ms : List ImuRow) : ∀ (t0 : ℝ) (ys : List (ℝ × V3)), (plan t0 ms ys).length = ms.length := by
  induction ms with
  | nil => intro t0 ys; simp [plan]
  | cons m ms ih =>
    intro t0 ys
    cases ys with
    | nil => simp [plan, ih]
    | cons y ys => rw [plan]; split_ifs <;> simp [ih]

theorem plan_used (ms : List ImuRow) : ∀ (t0 : ℝ) (ys : List (ℝ × V3)),
    (plan t0 ms ys).filterMap Input.vel = (ys.take (usedBy (plan t0 ms ys))).map Prod.snd := by
  induction ms with
  | nil => intro t0 ys; simp [plan, usedBy]
  | cons m ms ih =>
    intro t0 ys
    cases ys with
    | nil =>
      have := ih m.t []
      simp only [plan, usedBy, List.take_nil, List.map_nil] at this ⊢
      simpa using this
    | cons y ys =>
      rw [plan]
      split_ifs with h
      · have := ih m.t ys
        simp only [usedBy, List.countP_cons, List.filterMap_cons] at this ⊢
        simp [this]
      · have := ih m.t (y :: ys)
        simp only [usedBy, List.countP_cons, List.filterMap_cons] at this ⊢
        simp [this]

theorem plan_at (ms : List ImuRow) : ∀ (t0 : ℝ) (ys : List (ℝ × V3)) (k : ℕ) (m : ImuRow), ms[k]? = some m →
    ∃ i, (plan t0 ms ys)[k]? = some i ∧ i.acc = m.acc ∧ i.gyro = m.gyro ∧
      i.dt = m.t - (if k = 0 then t0 else (ms[k - 1]?.map ImuRow.t).getD 0) ∧
      i.vel = (ys[usedBy ((plan t0 ms ys).take k)]?).bind fun y => if y.1 ≤ m.t then some y.2 else none := by
  induction ms with
  | nil => intro t0 ys k m h; simp at h
  | cons m0 ms ih =>
    intro t0 ys k m h
    cases k with
    | zero =>
      simp only [List.getElem?_cons_zero, Option.some.injEq] at h
      subst h
      cases ys with
      | nil => exact ⟨_, by rw [plan]; rfl, rfl, rfl, by simp, by simp⟩
      | cons y ys =>
        by_cases hy : m0.t ≥ y.1
        · rw [plan, if_pos hy]
          exact ⟨_, rfl, rfl, rfl, by simp, by simp [usedBy, ge_iff_le.mp hy]⟩
        · rw [plan, if_neg hy]
          exact ⟨_, rfl, rfl, rfl, by simp, by simp [usedBy, lt_of_not_ge hy]⟩
    | succ k =>
      rw [List.getElem?_cons_succ] at h
      have hdt : ∀ t, (if k = 0 then m0.t else (ms[k - 1]?.map ImuRow.t).getD 0) = t →
          (if k + 1 = 0 then t0 else ((m0 :: ms)[k + 1 - 1]?.map ImuRow.t).getD 0) = t := by
        intro t e
        rw [if_neg (by omega), Nat.add_sub_cancel]
        cases k with
        | zero => simpa using e
        | succ k => simpa using e
      cases ys with
      | nil =>
        obtain ⟨i, h1, h2, h3, h4, h5⟩ := ih m0.t [] k m h
        refine ⟨i, by rw [plan]; simpa using h1, h2, h3, by rw [h4, hdt _ rfl], by simpa using h5⟩
      | cons y ys =>
        by_cases hy : m0.t ≥ y.1
        · rw [plan, if_pos hy]
          obtain ⟨i, h1, h2, h3, h4, h5⟩ := ih m0.t ys k m h
          refine ⟨i, by simpa using h1, h2, h3, by rw [h4, hdt _ rfl], ?_⟩
          rw [h5]
          simp [usedBy, List.countP_cons]
        · rw [plan, if_neg hy]
          obtain ⟨i, h1, h2, h3, h4, h5⟩ := ih m0.t (y :: ys) k m h
          refine ⟨i, by simpa using h1, h2, h3, by rw [h4, hdt _ rfl], ?_⟩
          rw [h5]
          simp [usedBy, List.countP_cons]

/-- **C119**: one turn per IMU row after the first, and the velocity measurements used are the first ones of the log, in
order, each once. -/
theorem C119_in_order (t0 : ℝ) (ms : List ImuRow) (ys : List (ℝ × V3)) :
    (plan t0 ms ys).length = ms.length ∧ (plan t0 ms ys).map Input.acc = ms.map ImuRow.acc ∧
      (plan t0 ms ys).map Input.gyro = ms.map ImuRow.gyro ∧
      ∃ n, (plan t0 ms ys).filterMap Input.vel = (ys.take n).map Prod.snd := by
  refine ⟨plan_length ms t0 ys, ?_, ?_, _, plan_used ms t0 ys⟩ <;> apply List.ext_getElem?
  all_goals
    intro k
    rw [List.getElem?_map, List.getElem?_map]
    cases hm : ms[k]? with
    | none =>
      have : (plan t0 ms ys)[k]? = none := by
        rw [List.getElem?_eq_none_iff] at hm ⊢; rw [plan_length]; exact hm
      rw [this]; rfl
    | some m =>
      obtain ⟨i, h1, h2, h3, -⟩ := plan_at ms t0 ys k m hm
      rw [h1]; simp [h2, h3]

/-- **C119**: turn `k` uses the next unused velocity measurement if and only if it is not from the future. -/
theorem C119_not_future (t0 : ℝ) (ms : List ImuRow) (ys : List (ℝ × V3)) (k : ℕ) (m : ImuRow) (h : ms[k]? = some m) :
    ∃ (i : Input) (n : ℕ), (plan t0 ms ys)[k]? = some i ∧
      ((plan t0 ms ys).take k).filterMap Input.vel = (ys.take n).map Prod.snd ∧
      (∀ y, i.vel = some y → ∃ t, ys[n]? = some (t, y) ∧ t ≤ m.t) ∧
      (i.vel = none → ∀ y, ys[n]? = some y → m.t < y.1) := by
  obtain ⟨i, h1, -, -, -, h5⟩ := plan_at ms t0 ys k m h
  refine ⟨i, usedBy ((plan t0 ms ys).take k), h1, ?_, ?_, ?_⟩
  · have e : ∀ (ms : List ImuRow) (t0 : ℝ) (ys : List (ℝ × V3)) (k : ℕ),
        (plan t0 ms ys).take k = plan t0 (ms.take k) ys := by
      intro ms
      induction ms with
      | nil => intro t0 ys k; simp [plan]
      | cons m ms ih =>
        intro t0 ys k
        cases k with
        | zero => simp [plan]
        | succ k =>
          cases ys with
          | nil => simp [plan, ih]
          | cons y ys => rw [List.take_succ_cons, plan, plan]; split_ifs <;> simp [ih]
    rw [e]; exact plan_used _ _ _
  · intro y hy
    rw [h5] at hy
    obtain ⟨⟨t, z⟩, hz, hs⟩ := Option.bind_eq_some_iff.mp hy
    simp only at hs
    split_ifs at hs with ht
    obtain rfl := Option.some.inj hs
    exact ⟨t, hz, ht⟩
  · intro hn y hy
    rw [h5, hy] at hn
    simp only [Option.bind_some] at hn
    split_ifs at hn with ht
    exact not_le.mp ht

theorem turn_spec {c : Cfg} (ha : 0 ≤ c.accCov) (hg : 0 ≤ c.gyroCov) {r : ℝ} (hr : 0 < r) {s : St} (hv : Valid s) (i : Input) :
    ∃ s1 s2, propCore c i.dt i.acc i.gyro s = some s1 ∧ turn c r s i = some s2 ∧ Valid s2 ∧
      (∀ y, i.vel = some y → measurement_update r y s1 = some s2) ∧ (i.vel = none → s2 = s1) := by
  obtain ⟨s1, e1, v1⟩ := prop_valid ha hg hv i.dt i.acc i.gyro
  have ht : ∀ u : St, Valid u → ({ u with P := u.Pᵀ } : St) = u := fun u hu => by
    have : u.Pᵀ = u.P := by simpa using hu.psd.isHermitian.eq
    rw [this]
  unfold turn
  rw [e1]
  cases hvel : i.vel with
  | none =>
    refine ⟨s1, s1, rfl, ?_, v1, by simp, fun _ => rfl⟩
    show some ({ s1 with P := s1.Pᵀ } : St) = _
    rw [ht s1 v1]
  | some y =>
    obtain ⟨s2, e2, v2⟩ := update_valid hr v1 y
    refine ⟨s1, s2, rfl, ?_, v2, fun z hz => by rw [← Option.some.inj hz]; exact e2, by simp⟩
    show (measurement_update r y s1).bind (fun s => some ({ s with P := s.Pᵀ } : St)) = _
    rw [e2, Option.bind_some, ht s2 v2]

theorem run_trace (c : Cfg) (r : ℝ) (l : List Input) : ∀ s, run c r s l = (trace c r s l).bind List.getLast? := by
  induction l with
  | nil => intro s; simp [run, trace]
  | cons i l ih =>
    intro s
    rw [run, trace]
    cases turn c r s i with
    | none => rfl
    | some s1 =>
      rw [Option.bind_some, Option.bind_some, ih]
      have hne : ∀ rows, trace c r s1 l = some rows → rows ≠ [] := by
        intro rows h
        cases l with
        | nil => simp [trace] at h; simp [← h]
        | cons j l =>
          rw [trace, Option.bind_eq_some_iff] at h
          obtain ⟨s2, -, h⟩ := h
          obtain ⟨rs, -, rfl⟩ := Option.map_eq_some_iff.mp h
          simp
      cases ht : trace c r s1 l with
      | none => rfl
      | some rows =>
        obtain ⟨a, rows', rfl⟩ := List.exists_cons_of_ne_nil (hne rows ht)
        simp [List.getLast?_cons_cons]

theorem run_rows {c : Cfg} (ha : 0 ≤ c.accCov) (hg : 0 ≤ c.gyroCov) {r : ℝ} (hr : 0 < r) (ms : List ImuRow) :
    ∀ (s : St) (t0 : ℝ) (ys : List (ℝ × V3)), Valid s → ∃ (rows : List St) (n : ℕ → ℕ),
      rows.length = ms.length + 1 ∧ rows[0]? = some s ∧ trace c r s (plan t0 ms ys) = some rows ∧ n 0 = 0 ∧
      ∀ (k : ℕ) (t : ℝ) (m : ImuRow), (t0 :: ms.map ImuRow.t)[k]? = some t → ms[k]? = some m →
        ∃ u u1 u2, rows[k]? = some u ∧ propCore c (m.t - t) m.acc m.gyro u = some u1 ∧ rows[k + 1]? = some u2 ∧
          ((∃ y, ys[n k]? = some y ∧ y.1 ≤ m.t ∧ measurement_update r y.2 u1 = some u2 ∧ n (k + 1) = n k + 1) ∨
           ((∀ y, ys[n k]? = some y → m.t < y.1) ∧ u2 = u1 ∧ n (k + 1) = n k)) := by
  induction ms with
  | nil => intro s t0 ys hv; exact ⟨[s], fun _ => 0, by simp, by simp, by simp [plan, trace], rfl, by simp⟩
  | cons m ms ih =>
    intro s t0 ys hv
    -- the first turn, and the measurements left after it
    have key : ∀ (i : Input) (ys' : List (ℝ × V3)) (d : ℕ), plan t0 (m :: ms) ys = i :: plan m.t ms ys' → ys' = ys.drop d →
        i.dt = m.t - t0 → i.acc = m.acc → i.gyro = m.gyro →
        ((∃ y, ys[0]? = some y ∧ y.1 ≤ m.t ∧ i.vel = some y.2 ∧ d = 1) ∨
          ((∀ y, ys[0]? = some y → m.t < y.1) ∧ i.vel = none ∧ d = 0)) → ∃ (rows : List St) (n : ℕ → ℕ),
        rows.length = (m :: ms).length + 1 ∧ rows[0]? = some s ∧ trace c r s (plan t0 (m :: ms) ys) = some rows ∧ n 0 = 0 ∧
        ∀ (k : ℕ) (t : ℝ) (m' : ImuRow), (t0 :: (m :: ms).map ImuRow.t)[k]? = some t → (m :: ms)[k]? = some m' →
          ∃ u u1 u2, rows[k]? = some u ∧ propCore c (m'.t - t) m'.acc m'.gyro u = some u1 ∧ rows[k + 1]? = some u2 ∧
            ((∃ y, ys[n k]? = some y ∧ y.1 ≤ m'.t ∧ measurement_update r y.2 u1 = some u2 ∧ n (k + 1) = n k + 1) ∨
             ((∀ y, ys[n k]? = some y → m'.t < y.1) ∧ u2 = u1 ∧ n (k + 1) = n k)) := by
      intro i ys' d hp hd h1 h2 h3 hcase
      obtain ⟨s1, s2, e1, e2, v2, e3, e4⟩ := turn_spec ha hg hr hv i
      obtain ⟨rows, n, g1, g2, g3, g4, g5⟩ := ih s2 m.t ys' v2
      refine ⟨s :: rows, fun k => if k = 0 then 0 else n (k - 1) + d, by simp [g1], rfl, ?_, rfl, ?_⟩
      · rw [hp, trace, e2, Option.bind_some, g3]; rfl
      · intro k t m' ht hm'
        cases k with
        | zero =>
          simp only [List.getElem?_cons_zero, Option.some.injEq] at ht hm'
          subst ht; subst hm'
          rw [h1, h2, h3] at e1
          refine ⟨s, s1, s2, rfl, e1, by simpa using g2, ?_⟩
          rcases hcase with ⟨y, q1, q2, q3, rfl⟩ | ⟨q1, q2, rfl⟩
          · exact Or.inl ⟨y, by simpa using q1, q2, e3 _ q3, by simp [g4]⟩
          · exact Or.inr ⟨by simpa using q1, e4 q2, by simp [g4]⟩
        | succ k =>
          obtain ⟨u, u1, u2, f1, f2, f3, f4⟩ := g5 k t m' (by simpa using ht) (by simpa using hm')
          refine ⟨u, u1, u2, by simpa using f1, f2, by simpa using f3, ?_⟩
          simp only [hd, List.getElem?_drop] at f4
          have e0 : (if k + 1 = 0 then 0 else n (k + 1 - 1) + d) = d + n k := by simp; ring
          have e1 : (if k + 1 + 1 = 0 then 0 else n (k + 1 + 1 - 1) + d) = d + n (k + 1) := by simp; ring
          simp only [e0, e1]
          rcases f4 with ⟨y, q1, q2, q3, q4⟩ | ⟨q1, q2, q3⟩
          · exact Or.inl ⟨y, q1, q2, q3, by omega⟩
          · exact Or.inr ⟨q1, q2, by omega⟩
    cases ys with
    | nil => exact key ⟨m.t - t0, m.acc, m.gyro, none⟩ [] 0 (by rw [plan]) rfl rfl rfl rfl (Or.inr ⟨by simp, rfl, rfl⟩)
    | cons y ys =>
      by_cases hy : m.t ≥ y.1
      · exact key ⟨m.t - t0, m.acc, m.gyro, some y.2⟩ ys 1 (by rw [plan, if_pos hy]) rfl rfl rfl rfl
          (Or.inl ⟨y, rfl, hy, rfl, rfl⟩)
      · exact key ⟨m.t - t0, m.acc, m.gyro, none⟩ (y :: ys) 0 (by rw [plan, if_neg hy]) rfl rfl rfl rfl
          (Or.inr ⟨by simpa using hy, rfl, rfl⟩)

/-- **C119**, the whole driver: it computes one row per IMU row; the first is the initial state; row `k + 1` is row `k`
propagated with IMU row `k + 1` over the time between the two rows, then updated with the next unused velocity
measurement if and only if that is not from the future (`n k` measurements are used before).  The result is the last
row. -/
theorem C119_rows (c : Cfg) (ha : 0 ≤ c.accCov) (hg : 0 ≤ c.gyroCov) (r : ℝ) (hr : 0 < r) (imu : List ImuRow)
    (vel : List (ℝ × V3)) (hi : imu ≠ []) : ∃ (rows : List St) (n : ℕ → ℕ),
      rows.length = imu.length ∧ rows[0]? = some initial ∧ drive c r imu vel = rows.getLast? ∧ n 0 = 0 ∧
      ∀ (k : ℕ) (m0 m : ImuRow), imu[k]? = some m0 → imu[k + 1]? = some m →
        ∃ u u1 u2, rows[k]? = some u ∧ propCore c (m.t - m0.t) m.acc m.gyro u = some u1 ∧ rows[k + 1]? = some u2 ∧
          ((∃ y, vel[n k]? = some y ∧ y.1 ≤ m.t ∧ measurement_update r y.2 u1 = some u2 ∧ n (k + 1) = n k + 1) ∨
           ((∀ y, vel[n k]? = some y → m.t < y.1) ∧ u2 = u1 ∧ n (k + 1) = n k)) := by
  obtain ⟨m0, ms, rfl⟩ := List.exists_cons_of_ne_nil hi
  obtain ⟨rows, n, g1, g2, g3, g4, g5⟩ := run_rows ha hg hr ms initial m0.t vel
    ⟨by simp [initial, Quat.id], Matrix.PosSemidef.zero⟩
  refine ⟨rows, n, by simpa using g1, g2, ?_, g4, fun k m1 m h1 h2 => ?_⟩
  · rw [drive, run_trace, g3, Option.bind_some]
  refine g5 k m1.t m ?_ (by simpa using h2)
  have : (m0.t :: ms.map ImuRow.t) = (m0 :: ms).map ImuRow.t := rfl
  rw [this, List.getElem?_map, h1]; rfl

/-- three IMU rows and two velocity measurements -/
example : ([⟨0, 0, 0⟩, ⟨1, 0, 0⟩, ⟨2, 0, 0⟩] : List ImuRow) ≠ [] ∧ (0 : ℝ) < 0.034 ∧ (0 : ℝ) ≤ 0.01 :=
  ⟨by simp, by norm_num, by norm_num⟩

/-- **C119** (when measurements are fresh): if the IMU rows are in time order and between any two velocity measurements
there is an IMU row, every velocity measurement is used at the first IMU row that is not earlier: after the row before,
`prev`. -/
theorem C119_fresh_partial (ms : List ImuRow) : ∀ (t0 : ℝ) (ys : List (ℝ × V3)) (k : ℕ) (m : ImuRow) (i : Input) (y : V3),
    (t0 :: ms.map ImuRow.t).Pairwise (· ≤ ·) → (∀ z ∈ ys, t0 < z.1) →
    ys.Pairwise (fun a b => ∃ m ∈ ms, a.1 ≤ m.t ∧ m.t < b.1) →
    ms[k]? = some m → (plan t0 ms ys)[k]? = some i → i.vel = some y →
    ∃ prev t, (t0 :: ms.map ImuRow.t)[k]? = some prev ∧ (t, y) ∈ ys ∧ prev < t ∧ t ≤ m.t := by
  induction ms with
  | nil => intro t0 ys k m i y _ _ _ hm; simp at hm
  | cons m0 ms ih =>
    intro t0 ys k m i y hs h0 hp hm hi hy
    have hs' : (m0.t :: ms.map ImuRow.t).Pairwise (· ≤ ·) := (List.pairwise_cons.mp hs).2
    have hle : ∀ m' ∈ ms, m0.t ≤ m'.t := fun m' hm' =>
      (List.pairwise_cons.mp hs').1 _ (List.mem_map_of_mem hm')
    cases ys with
    | nil =>
      exfalso
      obtain ⟨j, e1, -, -, -, e5⟩ := plan_at (m0 :: ms) t0 [] k m hm
      obtain rfl := Option.some.inj (hi.symm.trans e1)
      simp [e5] at hy
    | cons z zs =>
      obtain ⟨hz, hzs⟩ := List.pairwise_cons.mp hp
      by_cases hc : m0.t ≥ z.1
      · rw [plan, if_pos hc] at hi
        cases k with
        | zero =>
          simp only [List.getElem?_cons_zero, Option.some.injEq] at hm hi
          subst hm; subst hi
          obtain rfl := Option.some.inj hy
          exact ⟨t0, z.1, rfl, by simp, h0 z (by simp), hc⟩
        | succ k =>
          rw [List.getElem?_cons_succ] at hm hi
          have h0' : ∀ u ∈ zs, m0.t < u.1 := fun u hu => by
            obtain ⟨m', hm', g1, g2⟩ := hz u hu
            rcases List.mem_cons.mp hm' with rfl | hm'
            · exact g2
            · exact lt_of_le_of_lt (hle _ hm') g2
          have hp' : zs.Pairwise (fun a b => ∃ m ∈ ms, a.1 ≤ m.t ∧ m.t < b.1) := by
            refine hzs.imp_of_mem fun {a b} ha hb ⟨m', hm', g1, g2⟩ => ?_
            rcases List.mem_cons.mp hm' with rfl | hm'
            · exact absurd g1 (not_le.mpr (h0' a ha))
            · exact ⟨m', hm', g1, g2⟩
          obtain ⟨prev, t, q1, q2, q3⟩ := ih m0.t zs k m i y hs' h0' hp' hm hi hy
          exact ⟨prev, t, by simpa using q1, List.mem_cons_of_mem _ q2, q3⟩
      · rw [plan, if_neg hc] at hi
        cases k with
        | zero =>
          simp only [List.getElem?_cons_zero, Option.some.injEq] at hi
          subst hi; simp at hy
        | succ k =>
          rw [List.getElem?_cons_succ] at hm hi
          have hz0 : m0.t < z.1 := not_le.mp hc
          have h0' : ∀ u ∈ z :: zs, m0.t < u.1 := fun u hu => by
            rcases List.mem_cons.mp hu with rfl | hu
            · exact hz0
            · obtain ⟨m', hm', g1, g2⟩ := hz u hu
              linarith
          have hp' : (z :: zs).Pairwise (fun a b => ∃ m ∈ ms, a.1 ≤ m.t ∧ m.t < b.1) := by
            refine hp.imp_of_mem fun {a b} ha hb ⟨m', hm', g1, g2⟩ => ?_
            rcases List.mem_cons.mp hm' with rfl | hm'
            · exact absurd g1 (not_le.mpr (h0' a ha))
            · exact ⟨m', hm', g1, g2⟩
          obtain ⟨prev, t, q1, q2, q3⟩ := ih m0.t (z :: zs) k m i y hs' h0' hp' hm hi hy
          exact ⟨prev, t, by simpa using q1, q2, q3⟩

/-- an IMU at 1 Hz, and a velocity sensor at 2 Hz whose readings tell their time -/
def slowImu (n : ℕ) : List ImuRow := (List.range n).map fun j : ℕ => ⟨(j : ℝ) + 1, 0, 0⟩
noncomputable def fastVel (n : ℕ) : List (ℝ × V3) := (List.range n).map fun j : ℕ => (((j : ℝ) + 1) / 2, ![((j : ℝ) + 1) / 2, 0, 0])

theorem slow_used (n k : ℕ) (hk : k ≤ n) : usedBy ((plan 0 (slowImu n) (fastVel n)).take k) = k := by
  induction k with
  | zero => simp [usedBy]
  | succ k ih =>
    have hk' : k < n := hk
    have ih := ih hk'.le
    have hm : (slowImu n)[k]? = some ⟨(k : ℝ) + 1, 0, 0⟩ := by simp [slowImu, hk']
    obtain ⟨i, h1, -, -, -, h5⟩ := plan_at (slowImu n) 0 (fastVel n) k _ hm
    rw [ih] at h5
    have hv : (fastVel n)[k]? = some (((k : ℝ) + 1) / 2, ![((k : ℝ) + 1) / 2, 0, 0]) := by simp [fastVel, hk']
    rw [hv] at h5
    have hle : ((k : ℝ) + 1) / 2 ≤ (k : ℝ) + 1 := by
      have : (0 : ℝ) ≤ k := Nat.cast_nonneg k
      linarith
    simp only [Option.bind_some, if_pos hle] at h5
    rw [List.take_succ, h1]
    unfold usedBy at ih ⊢
    rw [List.countP_append, ih]
    simp [h5]

/-- **C119 is false** as a claim that measurements are used when they are due: with a velocity sensor faster than the
IMU the driver falls behind without bound. -/
theorem C119_lag_false (A : ℝ) : ∃ (ms : List ImuRow) (ys : List (ℝ × V3)) (k : ℕ) (m : ImuRow) (i : Input) (y : V3),
    (0 :: ms.map ImuRow.t).Pairwise (· < ·) ∧ (ys.map Prod.fst).Pairwise (· < ·) ∧ ms[k]? = some m ∧
      (plan 0 ms ys)[k]? = some i ∧ i.vel = some y ∧ (∃ t, (t, y) ∈ ys) ∧ ∀ t, (t, y) ∈ ys → A < m.t - t := by
  obtain ⟨n, hn⟩ := exists_nat_gt (2 * A)
  have hm : (slowImu (n + 1))[n]? = some ⟨(n : ℝ) + 1, 0, 0⟩ := by simp [slowImu]
  obtain ⟨i, h1, -, -, -, h5⟩ := plan_at (slowImu (n + 1)) 0 (fastVel (n + 1)) n _ hm
  rw [slow_used (n + 1) n (by omega)] at h5
  have hv : (fastVel (n + 1))[n]? = some (((n : ℝ) + 1) / 2, ![((n : ℝ) + 1) / 2, 0, 0]) := by simp [fastVel]
  rw [hv] at h5
  have hle : ((n : ℝ) + 1) / 2 ≤ (n : ℝ) + 1 := by
    have : (0 : ℝ) ≤ n := Nat.cast_nonneg n
    linarith
  simp only [Option.bind_some, if_pos hle] at h5
  refine ⟨slowImu (n + 1), fastVel (n + 1), n, _, i, _, ?_, ?_, hm, h1, h5, ⟨_, List.mem_of_getElem? hv⟩, ?_⟩
  · rw [List.pairwise_cons]
    refine ⟨?_, ?_⟩
    · intro t ht
      simp [slowImu] at ht
      obtain ⟨j, -, rfl⟩ := ht
      positivity
    · simp only [slowImu, List.map_map, List.pairwise_map]
      exact List.pairwise_lt_range.imp fun h => by simpa using h
  · simp only [fastVel, List.map_map, List.pairwise_map]
    refine List.pairwise_lt_range.imp fun {a b} h => ?_
    have : (a : ℝ) < b := by exact_mod_cast h
    simp only [Function.comp]
    linarith
  · intro t ht
    simp only [fastVel, List.mem_map, Prod.mk.injEq] at ht
    obtain ⟨j, -, rfl, hj⟩ := ht
    have := congrFun hj 0
    simp at this
    rw [this]
    show A < (n : ℝ) + 1 - ((n : ℝ) + 1) / 2
    linarith

/-- the hypotheses of `C119_fresh_partial` are met: IMU rows at 1, 2, 3, velocities at 0.5 and 2 -/
example : ((0 : ℝ) :: ([⟨1, 0, 0⟩, ⟨2, 0, 0⟩, ⟨3, 0, 0⟩] : List ImuRow).map ImuRow.t).Pairwise (· ≤ ·) ∧
    ([(0.5, 0), (2, 0)] : List (ℝ × V3)).Pairwise
      (fun a b => ∃ m ∈ ([⟨1, 0, 0⟩, ⟨2, 0, 0⟩, ⟨3, 0, 0⟩] : List ImuRow), a.1 ≤ m.t ∧ m.t < b.1) := by
  constructor
  · simp; norm_num
  · simp; norm_num

/-! ### C120 -/

theorem stride_getElem? {α : Type} (s : ℕ) (hs : s ≠ 0) (k : ℕ) : ∀ l : List α, (stride s l)[k]? = l[s * k]? := by
  induction k with
  | zero => intro l; cases l <;> simp [stride]
  | succ k ih =>
    intro l
    cases l with
    | nil => simp [stride]
    | cons a l =>
      rw [stride, List.getElem?_cons_succ, ih, List.getElem?_drop]
      rw [show s * (k + 1) = (s - 1 + s * k) + 1 by rw [Nat.mul_succ]; omega, List.getElem?_cons_succ]

theorem stride_length {α β : Type} {s : ℕ} (hs : s ≠ 0) {l : List α} {l' : List β} (h : l.length = l'.length) :
    (stride s l).length = (stride s l').length := by
  have key : ∀ {α β : Type} (l : List α) (l' : List β), l.length = l'.length → (stride s l).length ≤ (stride s l').length := by
    intro α β l l' h
    have h2 := stride_getElem? s hs (stride s l').length l'
    rw [List.getElem?_eq_none le_rfl] at h2
    have h3 := List.getElem?_eq_none_iff.mp h2.symm
    have h1 : (stride s l)[(stride s l').length]? = none := by
      rw [stride_getElem? s hs]; exact List.getElem?_eq_none (by omega)
    exact List.getElem?_eq_none_iff.mp h1
  exact le_antisymm (key l l' h) (key l' l h.symm)

/-- **C120**: the saved file has, for estimates of `n` time stamps, one row per estimate if `n ≤ 15000` and one per five
estimates otherwise, starting with the first, in order; each row is time, position, and the quaternion with the real
part last (the TUM format). -/
theorem C120_tum (t : List ℝ) (p : List V3) (q : List Quat) (hp : p.length = t.length) (hq : q.length = t.length) :
    ∃ rows, tumRows t p q = some rows ∧ ∀ k : ℕ, rows[k]? =
      let j := if t.length ≤ 15000 then k else 5 * k
      (t[j]?).bind fun t => (p[j]?).bind fun p => (q[j]?).bind fun q => some [t, p 0, p 1, p 2, q.x, q.y, q.z, q.w] := by
  unfold tumRows
  set s := if t.length > 15000 then 5 else 1 with hs
  have hs0 : s ≠ 0 := by rw [hs]; split_ifs <;> norm_num
  rw [if_pos ⟨stride_length hs0 hp, stride_length hs0 hq⟩]
  refine ⟨_, rfl, fun k => ?_⟩
  have hj : (if t.length ≤ 15000 then k else 5 * k) = s * k := by
    rw [hs]; split_ifs <;> omega
  simp only [hj, List.getElem?_zipWith, List.zip, stride_getElem? s hs0]
  cases t[s * k]? <;> cases p[s * k]? <;> cases q[s * k]? <;> simp

/-- the columns must have the same number of rows; then nothing is lost up to 15000 estimates -/
theorem C120_all_saved (t : List ℝ) (p : List V3) (q : List Quat) (hp : p.length = t.length) (hq : q.length = t.length)
    (hn : t.length ≤ 15000) (rows : List (List ℝ)) (h : tumRows t p q = some rows) : rows.length = t.length := by
  obtain ⟨rows', h1, h2⟩ := C120_tum t p q hp hq
  obtain rfl := Option.some.inj (h.symm.trans h1)
  simp only [if_pos hn] at h2
  apply le_antisymm
  · have := h2 t.length
    rw [List.getElem?_eq_none le_rfl] at this
    simpa using this
  · by_contra hc
    push Not at hc
    have := h2 rows.length
    rw [List.getElem?_eq_none le_rfl, List.getElem?_eq_getElem hc, List.getElem?_eq_getElem (hp ▸ hc),
      List.getElem?_eq_getElem (hq ▸ hc)] at this
    simp at this

example : tumRows [0, 1] [0, ![1, 2, 3]] [Quat.id, ⟨0, 1, 0, 0⟩] =
    some [[0, 0, 0, 0, 0, 0, 0, 1], [1, 1, 2, 3, 1, 0, 0, 0]] := by
  simp [tumRows, stride, Quat.id]

/-! ### C121 -/

/-- **C121 is false** for `propoagate`: after importing the module every call raises `NameError`. -/
theorem C121_imported_false (t : List ℝ) (acc gyro : List V3) (ab gb : V3) (p v : List V3) (q : List Quat) (g : V3)
    (M : M3) : propoagate Globals.imported t acc gyro ab gb p v q g M = none := rfl

/-- **C121** (what holds): once the caller has put `k`, `p_cov`, `acc_cov`, `gyro_cov` into the module's namespace, with
rows `k - 1` and `k` present, the call succeeds and depends on rows `k - 1` of the estimates and row `k` of the data
only; the argument `g` has no influence. -/
theorem C121_with_globals_partial (k : ℕ) (Ps : List M99) (aC gC : ℝ) (ha : 0 ≤ aC) (hg : 0 ≤ gC) (t : List ℝ)
    (acc gyro : List V3) (ab gb : V3) (p v : List V3) (q : List Quat) (g : V3) (M : M3) (t0 t1 : ℝ) (a w p0 v0 : V3)
    (q0 : Quat) (P0 : M99) (e0 : t[k]? = some t0) (e1 : t[k + 1]? = some t1) (e2 : acc[k + 1]? = some a)
    (e3 : gyro[k + 1]? = some w) (e4 : p[k]? = some p0) (e5 : v[k]? = some v0) (e6 : q[k]? = some q0)
    (e7 : Ps[k]? = some P0) (hv : Valid ⟨p0, v0, q0, P0⟩) :
    ∃ s', propoagate ⟨some ((k : ℤ) + 1), some Ps, some aC, some gC⟩ t acc gyro ab gb p v q g M = some s' ∧ Valid s' ∧
      propCore ⟨aC, gC, ab, gb, M⟩ (t1 - t0) a w ⟨p0, v0, q0, P0⟩ = some s' := by
  obtain ⟨s', h1, h2⟩ := prop_valid (c := ⟨aC, gC, ab, gb, M⟩) ha hg hv (t1 - t0) a w
  have i0 : ∀ {α : Type} (l : List α), pyGet l ((k : ℤ) + 1 - 1) = l[k]? := fun l => by
    unfold pyGet; rw [if_pos (by omega)]; congr 1; omega
  have i1 : ∀ {α : Type} (l : List α), pyGet l ((k : ℤ) + 1) = l[k + 1]? := fun l => by
    unfold pyGet; rw [if_pos (by omega)]; congr 1
  refine ⟨s', ?_, h2, h1⟩
  unfold propoagate
  simp only [Option.bind_eq_bind, Option.bind_some, i0, i1, e0, e1, e2, e3, e4, e5, e6, e7]
  exact h1

example : Valid ⟨0, 0, Quat.id, 0⟩ := ⟨by simp [Quat.id], Matrix.PosSemidef.zero⟩

/-! ### C122 -/

theorem huskyRow_of {m : ℝ × JointMsg} (h : 4 ≤ m.2.vel.length) : ∃ a b c d l, m.2.vel = a :: b :: c :: d :: l ∧
    huskyRow m = some (m.1, ![(a + b + c + d) / 4 * 0.158, 0, 0]) := by
  obtain ⟨t, st, pos, vel⟩ := m
  match vel, h with
  | a :: b :: c :: d :: l, _ => exact ⟨a, b, c, d, l, rfl, rfl⟩

theorem huskyRow_none {m : ℝ × JointMsg} (h : m.2.vel.length < 4) : huskyRow m = none := by
  obtain ⟨t, st, pos, vel⟩ := m
  match vel, h with
  | [], _ => rfl
  | [_], _ => rfl
  | [_, _], _ => rfl
  | [_, _, _], _ => rfl
  | _ :: _ :: _ :: _ :: l, h => simp at h; omega

theorem mapM_some_iff {α β : Type} (f : α → Option β) : ∀ (l : List α) (r : List β),
    l.mapM f = some r ↔ r.length = l.length ∧ ∀ (k : ℕ) (a : α), l[k]? = some a → ∃ b, f a = some b ∧ r[k]? = some b := by
  intro l
  induction l with
  | nil => intro r; simp [eq_comm]
  | cons a l ih =>
    intro r
    rw [List.mapM_cons]
    constructor
    · intro h
      simp only [Option.bind_eq_bind, Option.bind_eq_some_iff] at h
      obtain ⟨b, hb, bs, hbs, h⟩ := h
      obtain rfl := Option.some.inj h
      obtain ⟨h1, h2⟩ := (ih bs).mp hbs
      refine ⟨by simp [h1], fun k x hx => ?_⟩
      cases k with
      | zero => simp at hx; subst hx; exact ⟨b, hb, rfl⟩
      | succ k => exact h2 k x (by simpa using hx)
    · rintro ⟨h1, h2⟩
      cases r with
      | nil => simp at h1
      | cons b bs =>
        obtain ⟨b', hb', e⟩ := h2 0 a rfl
        obtain rfl : b = b' := by simpa using e
        have := (ih bs).mpr ⟨by simpa using h1, fun k x hx => h2 (k + 1) x (by simpa using hx)⟩
        simp [hb', this]

/-- the driver's settings for the Husky -/
noncomputable def huskyCfg : Cfg :=
  ⟨0.01, 0.01, ![0.361971, 0.249837, -0.00240915], ![0.0011879, -0.0000255878, -0.00049881], huskyMount⟩

/-- **C122**: from bag to file.  For every IMU bag and every joint bag with four wheel speeds per message the program
saves a file; it lists (all up to 15000, then every fifth) the time of each IMU message with the pose of a row; the rows
start with the initial state, and row `k + 1` is row `k` propagated with IMU message `k + 1` over the time between the
two messages, and updated with the next unused joint message if that was received by then, as a forward velocity of
0.158 m times the mean wheel speed. -/
theorem C122_file (imuBag : List (ℝ × ImuMsg)) (jointBag : List (ℝ × JointMsg)) (hi : imuBag ≠ []) (hj : jointBag ≠ [])
    (h4 : ∀ m ∈ jointBag, 4 ≤ m.2.vel.length) : ∃ (file : List (List ℝ)) (rows : List St) (n : ℕ → ℕ),
      huskyProgram imuBag jointBag = some file ∧ rows.length = imuBag.length ∧ rows[0]? = some initial ∧ n 0 = 0 ∧
      (∀ (k : ℕ) (t0 t : ℝ) (m0 m : ImuMsg), imuBag[k]? = some (t0, m0) → imuBag[k + 1]? = some (t, m) →
        ∃ u u1 u2, rows[k]? = some u ∧ propCore huskyCfg (t - t0) m.linAcc m.angVel u = some u1 ∧ rows[k + 1]? = some u2 ∧
          ((∃ ty jm a b c d l, jointBag[n k]? = some (ty, jm) ∧ jm.vel = a :: b :: c :: d :: l ∧ ty ≤ t ∧
              measurement_update 0.034 ![0.158 * ((a + b + c + d) / 4), 0, 0] u1 = some u2 ∧ n (k + 1) = n k + 1) ∨
           ((∀ ty jm, jointBag[n k]? = some (ty, jm) → t < ty) ∧ u2 = u1 ∧ n (k + 1) = n k))) ∧
      ∀ k : ℕ, file[k]? =
        let j := if imuBag.length ≤ 15000 then k else 5 * k
        (imuBag[j]?).bind fun m => (rows[j]?).bind fun s =>
          some [m.1, s.p 0, s.p 1, s.p 2, s.q.x, s.q.y, s.q.z, s.q.w] := by
  obtain ⟨⟨t0, m0⟩, ims, rfl⟩ := List.exists_cons_of_ne_nil hi
  set conv : ℝ × ImuMsg → ImuRow := fun m => ⟨m.1, m.2.angVel, m.2.linAcc⟩ with hconv
  -- the velocity rows
  obtain ⟨vel, hvel⟩ : ∃ vel, jointBag.mapM huskyRow = some vel := by
    clear hj
    induction jointBag with
    | nil => exact ⟨[], rfl⟩
    | cons m l ih =>
      obtain ⟨vel, hv⟩ := ih fun m hm => h4 m (by simp [hm])
      obtain ⟨a, b, c, d, _, -, h⟩ := huskyRow_of (h4 m (by simp))
      exact ⟨_ :: vel, by rw [List.mapM_cons, h, hv]; rfl⟩
  obtain ⟨hl, hk⟩ := (mapM_some_iff huskyRow jointBag vel).mp hvel
  obtain ⟨rows, n, g1, g2, g3, g4, g5⟩ := run_rows (c := huskyCfg) (by norm_num [huskyCfg]) (by norm_num [huskyCfg])
    (r := 0.034) (by norm_num) (ims.map conv) initial t0 vel ⟨by simp [initial, Quat.id], Matrix.PosSemidef.zero⟩
  have hlen : rows.length = (((t0, m0) :: ims).map fun m => m.1).length := by simpa using g1
  obtain ⟨file, hf, hfk⟩ := C120_tum (((t0, m0) :: ims).map fun m => m.1) (rows.map St.p) (rows.map St.q)
    (by rw [List.length_map, hlen]) (by rw [List.length_map, hlen])
  refine ⟨file, rows, n, ?_, by simpa using g1, g2, g4, ?_, ?_⟩
  · unfold huskyProgram read_imu read_husky
    rw [if_neg hi, if_neg hj, hvel, huskyMount_quat]
    simp only [Option.bind_eq_bind, Option.bind_some, List.map_cons]
    have e : trace ⟨0.01, 0.01, ![0.361971, 0.249837, -0.00240915], ![0.0011879, -0.0000255878, -0.00049881], huskyMount⟩
        0.034 initial (plan t0 (List.map (fun m => (⟨m.1, m.2.angVel, m.2.linAcc⟩ : ImuRow)) ims) vel) = some rows := g3
    rw [e, Option.bind_some]
    rw [List.map_map]
    exact hf
  · intro k ta t ma m h1 h2
    obtain ⟨u, u1, u2, f1, f2, f3, f4⟩ := g5 k ta (conv (t, m)) (by
        have : (t0 :: (ims.map conv).map ImuRow.t) = ((t0, m0) :: ims).map fun m => m.1 := by
          simp [hconv, Function.comp_def]
        rw [this, List.getElem?_map, h1]; rfl) (by
        rw [List.getElem?_cons_succ] at h2
        rw [List.getElem?_map, h2]; rfl)
    refine ⟨u, u1, u2, f1, f2, f3, ?_⟩
    rcases f4 with ⟨y, q1, q2, q3, q4⟩ | ⟨q1, q2, q3⟩
    · left
      have hlt : n k < jointBag.length := by
        rw [← hl]; exact (List.getElem?_eq_some_iff.mp q1).1
      obtain ⟨jm, hjm⟩ : ∃ jm, jointBag[n k]? = some jm := ⟨_, List.getElem?_eq_getElem hlt⟩
      obtain ⟨b, hb, hb2⟩ := hk _ _ hjm
      obtain rfl : b = y := by rw [q1] at hb2; exact (Option.some.inj hb2).symm
      obtain ⟨a, b', c, d, l, e1, e2⟩ := huskyRow_of (h4 jm (List.mem_of_getElem? hjm))
      obtain rfl := Option.some.inj (hb.symm.trans e2)
      refine ⟨jm.1, jm.2, a, b', c, d, l, hjm, e1, q2, ?_, q4⟩
      rw [mul_comm]; exact q3
    · right
      refine ⟨fun ty jm hjm => ?_, q2, q3⟩
      obtain ⟨b, hb, hb2⟩ := hk _ _ hjm
      obtain ⟨a, b', c, d, l, e1, e2⟩ := huskyRow_of (h4 _ (List.mem_of_getElem? hjm))
      obtain rfl := Option.some.inj (hb.symm.trans e2)
      exact q1 _ hb2
  · intro k
    rw [hfk k]
    simp only [List.length_map, List.getElem?_map]
    set j := if ((t0, m0) :: ims).length ≤ 15000 then k else 5 * k
    cases ((t0, m0) :: ims)[j]? <;> cases rows[j]? <;> simp

/-- **C122**: the program fails exactly if there is no IMU message, no joint message, or a joint message without four
wheel speeds. -/
theorem C122_defined (imuBag : List (ℝ × ImuMsg)) (jointBag : List (ℝ × JointMsg)) :
    (∃ file, huskyProgram imuBag jointBag = some file) ↔
      imuBag ≠ [] ∧ jointBag ≠ [] ∧ ∀ m ∈ jointBag, 4 ≤ m.2.vel.length := by
  constructor
  · rintro ⟨file, h⟩
    unfold huskyProgram at h
    simp only [Option.bind_eq_bind, Option.bind_eq_some_iff] at h
    obtain ⟨imu, h1, vel, h2, -⟩ := h
    unfold read_imu at h1
    unfold read_husky at h2
    split_ifs at h1 h2 with hi hj
    refine ⟨hi, hj, fun m hm => ?_⟩
    by_contra hc
    obtain ⟨k, hk⟩ := List.getElem?_of_mem hm
    obtain ⟨b, hb, -⟩ := ((mapM_some_iff _ _ _).mp h2).2 k m hk
    rw [huskyRow_none (by omega)] at hb
    simp at hb
  · rintro ⟨h1, h2, h3⟩
    obtain ⟨file, -, -, h, -⟩ := C122_file imuBag jointBag h1 h2 h3
    exact ⟨file, h⟩

/-- two IMU messages and a joint message -/
example : ([(0, ⟨⟨0, 0⟩, 0, ![0, 0, 9.81], Quat.id⟩), (0.1, ⟨⟨0, 0⟩, 0, ![0, 0, 9.81], Quat.id⟩)] : List (ℝ × ImuMsg)) ≠ [] ∧
    ∀ m ∈ ([(0.05, ⟨⟨0, 0⟩, [], [1, 1, 1, 1]⟩)] : List (ℝ × JointMsg)), 4 ≤ m.2.vel.length := by
  simp

end Mekf
end Drift
