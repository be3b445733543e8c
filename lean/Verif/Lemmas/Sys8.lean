import Verif.Lemmas.Sys7

/-! # Lemmas: routing of the data -/
set_option linter.unusedSimpArgs false
namespace Drift
open Mat Matrix RobotState

namespace GyroFilter

/-- the filter with earlier outputs still in the queue -/
def pre (acc : List ImuMeas) (f : GyroFilter) : GyroFilter := { f with out := acc ++ f.out }

theorem kalman_pre (acc : List ImuMeas) (f : GyroFilter) (H R y) : (pre acc f).kalman H R y = (f.kalman H R y).map (pre acc) := by
  have e : (pre acc f).P = f.P := rfl
  have e2 : (pre acc f).x = f.x := rfl
  unfold kalman
  rw [e, e2]
  by_cases h : (H * f.P * Hᵀ + R).det = 0
  · rw [if_pos h, if_pos h]; rfl
  · rw [if_neg h, if_neg h]; rfl

theorem correctImu_pre (acc : List ImuMeas) (f : GyroFilter) (m) :
    (pre acc f).correctImu m = (f.correctImu m).map fun r => (r.1, pre acc r.2) := by
  unfold correctImu
  rw [kalman_pre]
  simp only [Option.map_map]
  rfl

theorem correctEnc_pre (acc : List ImuMeas) (f : GyroFilter) (m a) :
    (pre acc f).correctEnc m a = (f.correctEnc m a).map fun r => (r.1, pre acc r.2) := by
  unfold correctEnc
  rw [kalman_pre]
  simp only [Option.map_map]
  rfl

theorem push_pre (acc : List ImuMeas) (f : GyroFilter) (m) : (pre acc f).push m = pre acc (f.push m) := by
  simp [push, pre]

theorem propagate_pre (acc : List ImuMeas) (f : GyroFilter) : (pre acc f).propagate = pre acc f.propagate := by
  have e : (pre acc f).gyro = f.gyro := rfl
  unfold propagate
  rw [e]
  obtain ⟨g, hg⟩ : ∃ g, f.gyro = g := ⟨_, rfl⟩
  rw [hg]
  rcases g with _ | _ | ⟨m, q⟩ <;> rfl

theorem fresh_pre (acc : List ImuMeas) (f : GyroFilter) (t) : (pre acc f).Fresh t ↔ f.Fresh t := Iff.rfl

open Classical in
theorem fuseImu_pre (acc : List ImuMeas) (f : GyroFilter) (m q) : (pre acc f).fuseImu m q = (f.fuseImu m q).map (pre acc) := by
  have key : ∀ g : GyroFilter, ((if (pre acc g).Fresh m.time then ((pre acc g).correctImu m).map fun (r : ImuMeas × GyroFilter) => r.2.push r.1 else some (pre acc g)).map
      fun f => { f with imu := some q }) =
      ((if g.Fresh m.time then (g.correctImu m).map fun (r : ImuMeas × GyroFilter) => r.2.push r.1 else some g).map fun f => ({ f with imu := some q } : GyroFilter)).map (pre acc) := by
    intro g
    by_cases h : g.Fresh m.time
    · rw [if_pos ((fresh_pre acc g _).2 h), if_pos h, correctImu_pre]
      simp only [Option.map_map, Function.comp_def, push_pre]
      rfl
    · rw [if_neg (fun h' => h ((fresh_pre acc g _).1 h')), if_neg h]
      rfl
  unfold fuseImu
  exact key { f with latest := some m }

theorem fuseEnc_pre (acc : List ImuMeas) (f : GyroFilter) (a q) : (pre acc f).fuseEnc a q = (f.fuseEnc a q).map (pre acc) := by
  unfold fuseEnc
  have e : (pre acc f).latest = f.latest := rfl
  rw [e]
  obtain ⟨la, hla⟩ : ∃ la, f.latest = la := ⟨_, rfl⟩
  rw [hla]
  cases la with
  | none => rfl
  | some m =>
    simp only
    by_cases h : f.Fresh a.time
    · rw [if_pos ((fresh_pre acc f _).2 h), if_pos h, correctEnc_pre]
      simp only [Option.map_map, Function.comp_def, push_pre]
      rfl
    · rw [if_neg (fun h' => h ((fresh_pre acc f _).1 h')), if_neg h]
      rfl

theorem multiLoop_pre (acc : List ImuMeas) (qs : List (List ImuMeas)) : ∀ (o : Option ImuMeas) (f : GyroFilter),
    multiLoop qs o (pre acc f) = (multiLoop qs o f).map fun r => (r.1, pre acc r.2) := by
  induction qs with
  | nil => intro o f; rfl
  | cons q qs ih =>
    intro o f
    cases q with
    | nil =>
      simp only [multiLoop, ih, Option.map_map]
      rfl
    | cons m q =>
      simp only [multiLoop]
      by_cases h : f.Fresh m.time
      · rw [if_pos ((fresh_pre acc f _).2 h), if_pos h, correctImu_pre]
        cases f.correctImu m with
        | none => rfl
        | some r =>
          simp only [Option.map_some, Option.bind_some, push_pre, ih, Option.map_map]
          rfl
      · rw [if_neg (fun h' => h ((fresh_pre acc f _).1 h')), if_neg h]
        simp only [Option.bind_some]
        cases o with
        | none => simp only [ih, Option.map_map]; rfl
        | some o => simp only [push_pre, ih, Option.map_map]; rfl

theorem correctStep_pre (acc : List ImuMeas) (f : GyroFilter) : (pre acc f).correctStep = f.correctStep.map (pre acc) := by
  unfold correctStep
  have e : (pre acc f).method = f.method := rfl
  rw [e]
  cases f.method with
  | invalid => rfl
  | multiImu =>
    simp only [multiImu]
    have e : (pre acc f).imus = f.imus := rfl
    rw [e, multiLoop_pre]
    simp only [Option.map_map]
    rfl
  | singleImu =>
    simp only [singleImu]
    have e : (pre acc f).imu = f.imu := rfl
    rw [e]
    rcases f.imu with _ | _ | ⟨m, q⟩
    · rfl
    · rfl
    · simp only
      have e : ({ pre acc f with imu := some q } : GyroFilter) = pre acc { f with imu := some q } := rfl
      have e2 : (pre acc f).lastProp = f.lastProp := rfl
      have e3 : (pre acc f).cfg = f.cfg := rfl
      rw [e2, e3]
      split_ifs
      · refine (congrArg _ (correctImu_pre acc { f with imu := some q } m)).trans ?_
        simp only [Option.map_map, Function.comp_def, push_pre]
      · rfl
  | angVel =>
    simp only [angVelCorr]
    have e : (pre acc f).enc = f.enc := rfl
    have e2 : (pre acc f).latest = f.latest := rfl
    rw [e, e2]
    rcases f.enc with _ | _ | ⟨a, q⟩
    · rfl
    · rfl
    · simp only
      cases f.latest with
      | none => rfl
      | some m =>
        simp only [correctEnc_pre, Option.map_map, Function.comp_def, push_pre]
        rfl
  | imuPlusAngVel =>
    simp only [imuPlusAngVel]
    have e : (pre acc f).enc = f.enc := rfl
    have e2 : (pre acc f).imu = f.imu := rfl
    rw [e, e2]
    rcases f.imu with _ | _ | ⟨m, q⟩ <;> rcases f.enc with _ | _ | ⟨a, q'⟩ <;> simp only [fuseImu_pre, fuseEnc_pre] <;> first
      | rfl
      | (split_ifs <;> rfl)

theorem init_pre (acc : List ImuMeas) (f : GyroFilter) : (pre acc f).initializeFilter = f.initializeFilter.map (pre acc) := by
  unfold initializeFilter
  have e : (pre acc f).cfg = f.cfg := rfl
  have e2 : (pre acc f).biasTarget = f.biasTarget := rfl
  have e3 : (pre acc f).biasVec = f.biasVec := rfl
  rw [e, e2, e3]
  split_ifs
  · cases f.biasTarget with
    | none => rfl
    | some n =>
      simp only [Option.bind_some]
      split_ifs
      · unfold collectBias
        have e : (pre acc f).imu = f.imu := rfl
        rw [e]
        rcases f.imu with _ | _ | ⟨m, q⟩
        · rfl
        · rfl
        · simp only
          have e : (pre acc f).gyro = f.gyro := rfl
          rw [e]
          rcases f.gyro with _ | _ | ⟨g, gq⟩ <;> rfl
      · unfold finishInit
        rw [e3]
        split_ifs
        · rfl
        · have hc : ∀ g : GyroFilter, (pre acc g).clearImuQueues = g.clearImuQueues.map (pre acc) := by
            intro g
            unfold clearImuQueues
            have e : (pre acc g).method = g.method := rfl
            have e' : (pre acc g).imu = g.imu := rfl
            rw [e, e']
            cases g.method <;> cases g.imu <;> rfl
          have hd : ∀ g : GyroFilter, (pre acc g).clearEncQueue = g.clearEncQueue.map (pre acc) := by
            intro g
            unfold clearEncQueue
            have e : (pre acc g).method = g.method := rfl
            have e' : (pre acc g).enc = g.enc := rfl
            rw [e, e']
            cases g.method <;> cases g.enc <;> rfl
          have e4 : ({ pre acc f with x := join 0 (mean f.biasVec), gyro := (pre acc f).gyro.map (fun _ => []) } : GyroFilter) =
            pre acc { f with x := join 0 (mean f.biasVec), gyro := f.gyro.map (fun _ => []) } := rfl
          refine (congrArg (fun o => Option.bind o _) (hc { f with x := join 0 (mean f.biasVec), gyro := f.gyro.map (fun _ => []) })).trans ?_
          cases clearImuQueues { f with x := join 0 (mean f.biasVec), gyro := f.gyro.map (fun _ => []) } with
          | none => rfl
          | some g =>
            simp only [Option.map_some, Option.bind_some, hd, Option.map_map]
            rfl
  · rfl

theorem runOnce_pre (acc : List ImuMeas) (f : GyroFilter) : (pre acc f).runOnce = f.runOnce.map (pre acc) := by
  unfold runOnce
  have e : (pre acc f).initialized = f.initialized := rfl
  rw [e]
  split_ifs
  · rw [propagate_pre, correctStep_pre]
  · exact init_pre acc { f with method := f.chooseMethod }

end GyroFilter

/-! ### one element -/

theorem feed_est {s s' : System} {p : Port} {m : RosMeas} (h : s.feed p m = some s') : s.est.run (portEv p m) = some s'.est := by
  have one : ∀ {ev : EstEv}, (s.est.step ev).map (fun e => { s with est := e }) = some s' → s.est.run [ev] = some s'.est := by
    intro ev h
    rw [Option.map_eq_some_iff] at h
    obtain ⟨e, h1, rfl⟩ := h
    simp [Estimator.run, h1]
  have idle : ∀ {x : System}, x.est = s.est → some x = some s' → s.est.run [] = some s'.est := by
    intro x hx h; rw [← Option.some.inj h, hx]; rfl
  unfold System.feed at h
  cases p <;> cases m <;> first
    | exact one h
    | exact idle rfl h
    | exact idle (by rfl) h
    | (simp only [Option.bind_eq_bind, Option.bind_eq_some_iff] at h
       obtain ⟨l, hl, h⟩ := h
       simp only [portEv, hl, Option.toList_some, List.map_cons, List.map_nil]
       exact one h)

theorem feed_filter {s s' : System} {p : Port} {m : RosMeas} (h : s.feed p m = some s') (f : GyroFilter) (hf : s.filter = some f) :
    ∃ f', s'.filter = some f' ∧ GyroFilter.runOps (portOp p m) f = some f' := by
  have est : ∀ {ev : EstEv}, (s.est.step ev).map (fun e => { s with est := e }) = some s' → s'.filter = some f := by
    intro ev h
    rw [Option.map_eq_some_iff] at h
    obtain ⟨e, h1, rfl⟩ := h
    exact hf
  have idle : some s = some s' → s'.filter = some f := by
    intro h; rw [← Option.some.inj h, hf]
  unfold System.feed at h
  cases p <;> cases m <;> first
    | exact ⟨f, est h, rfl⟩
    | exact ⟨f, idle h, rfl⟩
    | (rw [← Option.some.inj h]; exact ⟨_, by simp only [hf, Option.map_some], rfl⟩)
    | (simp only [Option.bind_eq_bind, Option.bind_eq_some_iff] at h
       obtain ⟨l, hl, h⟩ := h
       exact ⟨f, est h, rfl⟩)

theorem feedAll_est (l : List (Port × RosMeas)) : ∀ {s s' : System}, s.feedAll l = some s' →
    s.est.run (l.flatMap fun x => portEv x.1 x.2) = some s'.est := by
  induction l with
  | nil => intro s s' h; rw [← Option.some.inj h]; rfl
  | cons x l ih =>
    intro s s' h
    simp only [System.feedAll, Option.bind_eq_some_iff] at h
    obtain ⟨s1, h1, h⟩ := h
    rw [List.flatMap_cons, est_run_append, feed_est h1]
    exact ih h

theorem feedAll_filter (l : List (Port × RosMeas)) : ∀ {s s' : System}, s.feedAll l = some s' → ∀ f, s.filter = some f →
    ∃ f', s'.filter = some f' ∧ GyroFilter.runOps (l.flatMap fun x => portOp x.1 x.2) f = some f' := by
  induction l with
  | nil => intro s s' h f hf; rw [← Option.some.inj h]; exact ⟨f, hf, rfl⟩
  | cons x l ih =>
    intro s s' h f hf
    simp only [System.feedAll, Option.bind_eq_some_iff] at h
    obtain ⟨s1, h1, h⟩ := h
    obtain ⟨f1, k1, k2⟩ := feed_filter h1 f hf
    obtain ⟨f2, k3, k4⟩ := ih h f1 k1
    exact ⟨f2, k3, by rw [List.flatMap_cons, GyroFilter.runOps_append, k2]; exact k4⟩

/-! ### one message -/

/-- the consumer of each queue, subscription by subscription -/
def wiresOf : List Bound → List (SubKind × Port × Port) → List (ℕ × Port)
  | b :: bs, x :: xs => ((b.q, x.2.1) :: if x.1.two then [(b.q2, x.2.2)] else []) ++ wiresOf bs xs
  | _, _ => []

theorem wiresOf_append {bs : List Bound} {xs : List (SubKind × Port × Port)} (h : bs.length = xs.length) (b x) :
    wiresOf (bs ++ [b]) (xs ++ [x]) = wiresOf bs xs ++ ((b.q, x.2.1) :: if x.1.two then [(b.q2, x.2.2)] else []) := by
  induction bs generalizing xs with
  | nil =>
    cases xs with
    | nil => simp [wiresOf]
    | cons y ys => simp at h
  | cons c cs ih =>
    cases xs with
    | nil => simp at h
    | cons y ys =>
      simp only [List.cons_append, wiresOf]
      rw [ih (by simpa using h)]
      simp

theorem wire_wires (ts : List (SubKind × Port × Port)) : ∀ {done : List (SubKind × Port × Port)} {s s' : RosSub} {w w' : List (ℕ × Port)},
    Program.wire ts s w = some (s', w') → s.subs.length = done.length → w = wiresOf s.subs done → w' = wiresOf s'.subs (done ++ ts) := by
  induction ts with
  | nil =>
    intro done s s' w w' h hl hw
    obtain ⟨rfl, rfl⟩ := Prod.mk.inj (Option.some.inj h)
    simpa using hw
  | cons x ts ih =>
    intro done s s' w w' h hl hw
    obtain ⟨k, p, p2⟩ := x
    simp only [Program.wire, Option.bind_eq_bind, Option.bind_eq_some_iff] at h
    obtain ⟨⟨s1, hd⟩, h1, h⟩ := h
    obtain ⟨b, n, hs, hk, hq, -, -, hbq, -, -, -, e1, -, e2, hcase⟩ := RosSub.add_spec h1
    have := ih (done := done ++ [(k, p, p2)]) h (by rw [hs]; simp [hl]) (by
      rw [hs, wiresOf_append hl, hw, e1]
      by_cases ht : k.two = true
      · simp [ht, (e2 ht).1]
      · simp [ht])
    simpa using this

/-- the elements a callback has just pushed, with their consumers -/
theorem fresh_wiresOf (bs : List Bound) : ∀ (xs : List (SubKind × Port × Port)) (sub : RosSub) (i : ℕ) (b : Bound) (x : SubKind × Port × Port),
    bs[i]? = some b → xs[i]? = some x →
    (∀ (j : ℕ) c, bs[j]? = some c → j ≠ i → sub.queues[c.q]?.getD [] = [] ∧ (∀ y, xs[j]? = some y → y.1.two = true → sub.queues[c.q2]?.getD [] = [])) →
    System.fresh (wiresOf bs xs) sub = ((sub.queues[b.q]?.getD []).map fun m => (x.2.1, m)) ++
      if x.1.two then (sub.queues[b.q2]?.getD []).map fun m => (x.2.2, m) else [] := by
  have silent : ∀ (bs : List Bound) (xs : List (SubKind × Port × Port)) (sub : RosSub),
      (∀ (j : ℕ) c, bs[j]? = some c → sub.queues[c.q]?.getD [] = [] ∧ (∀ y, xs[j]? = some y → y.1.two = true → sub.queues[c.q2]?.getD [] = [])) →
      System.fresh (wiresOf bs xs) sub = [] := by
    intro bs
    induction bs with
    | nil => intro xs sub _; simp [wiresOf, System.fresh]
    | cons c cs ih =>
      intro xs sub h
      cases xs with
      | nil => simp [wiresOf, System.fresh]
      | cons y ys =>
        have h0 := h 0 c rfl
        have := ih ys sub (fun j d hd => h (j + 1) d hd)
        simp only [System.fresh] at this ⊢
        simp only [wiresOf, List.flatMap_append, this, List.append_nil]
        by_cases ht : y.1.two = true
        · simp [ht, h0.1, h0.2 y rfl ht]
        · simp [ht, h0.1]
  induction bs with
  | nil => intro xs sub i b x hb; simp at hb
  | cons c cs ih =>
    intro xs sub i b x hb hx h
    cases xs with
    | nil => simp at hx
    | cons y ys =>
      cases i with
      | zero =>
        simp only [List.getElem?_cons_zero, Option.some.injEq] at hb hx
        subst hb; subst hx
        have := silent cs ys sub (fun j d hd => h (j + 1) d hd (by simp))
        simp only [System.fresh] at this ⊢
        simp only [wiresOf, List.flatMap_append, this, List.append_nil]
        by_cases ht : y.1.two = true
        · simp [ht]
        · simp [ht]
      | succ i =>
        simp only [List.getElem?_cons_succ] at hb hx
        have h0 := h 0 c rfl (by simp)
        have := ih ys sub i b x hb hx (fun j d hd hj => h (j + 1) d hd (by omega))
        simp only [System.fresh] at this ⊢
        simp only [wiresOf, List.flatMap_append, this]
        by_cases ht : y.1.two = true
        · simp [ht, h0.1, h0.2 y rfl ht]
        · simp [ht, h0.1]

end Drift
