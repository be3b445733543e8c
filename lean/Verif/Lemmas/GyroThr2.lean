import Verif.Lemmas.GyroThr1

/-!
# The gyro filter thread: its sections in sequence are `RunOnce`
-/
namespace Drift
open GyroFilter
namespace GyroThr

/-- the front read at 613 is that of the queue -/
def NS : PC → GyroFilter → Prop
  | .frontEnc m, f => ∃ q, f.imu = some q ∧ m = q.head?
  | .push _ k, f => NS k f
  | _, _ => True

/-- 533-539 -/
def finEnc (f : GyroFilter) : Option GyroFilter := f.clearEncQueue.map fun f => { f with initialized := true }

/-- the rest of `RunOnce` in one piece -/
noncomputable def fin : PC → GyroFilter → Option GyroFilter
  | .idle, f => some f
  | .gyroProp, f => f.gyro.bind fun _ => f.propagate.correctStep
  | .imuSingle, f => f.singleImu
  | .imuMulti i fused, f =>
    (multiLoop (f.imus.drop i) fused f).map fun r => { r.2 with imus := f.imus.take i ++ r.1 }
  | .frontImu, f => f.imuPlusAngVel
  | .frontEnc _, f => f.imuPlusAngVel
  | .encOnly, f => f.angVelCorr
  | .push o k, f => fin k (f.push o)
  | .popImu, f => match f.imu with
    | some (_ :: q) => some { f with imu := some q }
    | _ => none
  | .popEnc, f => match f.enc with
    | some (_ :: q) => some { f with enc := some q }
    | _ => none
  | .biasImu, f => f.collectBias
  | .biasGyro, f => match f.gyro with
    | none => none
    | some [] => some f
    | some (g :: q) => some { f with gyro := some q, prev := g.angVel }
  | .clrGyro, f => f.gyro.bind fun _ => (clearImuQueues { f with gyro := some [] }).bind finEnc
  | .clrImu, f => f.imu.bind fun _ => finEnc { f with imu := some [] }
  | .clrImus i, f => finEnc { f with imus := f.imus.take i ++ (f.imus.drop i).map fun _ => [] }
  | .clrEnc, f => f.enc.map fun _ => { f with enc := some [], initialized := true }

/-- a result of the beginning or of a section, completed -/
noncomputable def cont (r : GyroFilter × PC) : Option GyroFilter := fin r.2 r.1

theorem corrPC_fin (f : GyroFilter) : fin (corrPC f.method) f = f.correctStep := by
  unfold correctStep corrPC
  cases f.method with
  | multiImu =>
    show (multiLoop (f.imus.drop 0) none f).map _ = _
    rw [List.drop_zero, List.take_zero]
    rfl
  | _ => rfl

theorem endInit_fin (f : GyroFilter) : cont (endInit f) = finEnc f := by
  rcases f with ⟨c, g, imu, imus, enc, lp, mth, _⟩
  cases mth <;> cases enc <;> rfl

theorem clrPC_fin (f : GyroFilter) : cont (clrPC f) = (clearImuQueues f).bind finEnc := by
  rcases f with ⟨c, g, imu, imus, enc, lp, mth, _⟩
  cases mth <;> cases imu <;> first
    | rfl
    | exact endInit_fin _

theorem propagate_method (f : GyroFilter) : f.propagate.method = f.method := by
  unfold propagate
  dsimp only
  split <;> rfl

theorem kalman_imus (f : GyroFilter) (l : List (List ImuMeas)) (H : M36) (R : M3) (y : V3) :
    kalman { f with imus := l } H R y = (kalman f H R y).map fun g => { g with imus := l } := by
  unfold kalman
  dsimp only
  split <;> rfl

theorem correctImu_imus (f : GyroFilter) (l : List (List ImuMeas)) (m : ImuMeas) :
    correctImu { f with imus := l } m = (correctImu f m).map fun r => (r.1, { r.2 with imus := l }) := by
  unfold correctImu
  dsimp only
  rw [kalman_imus, Option.map_map, Option.map_map]
  rfl

theorem multiLoop_imus (l : List (List ImuMeas)) : ∀ (qs : List (List ImuMeas)) (fused : Option ImuMeas) (f : GyroFilter),
    multiLoop qs fused { f with imus := l } = (multiLoop qs fused f).map fun r => (r.1, { r.2 with imus := l })
  | [], _, f => rfl
  | [] :: qs, fused, f => by
    rw [multiLoop, multiLoop, multiLoop_imus l qs fused f, Option.map_map, Option.map_map]; rfl
  | (m :: q) :: qs, fused, f => by
    rw [multiLoop, multiLoop]
    rw [show ({ f with imus := l } : GyroFilter).Fresh m.time = f.Fresh m.time from rfl, correctImu_imus, Option.map_map]
    by_cases hf : f.Fresh m.time
    · rw [if_pos hf, if_pos hf]
      cases hc : f.correctImu m with
      | none => rfl
      | some r =>
        simp only [Option.map_some, Option.bind_some, Function.comp]
        rw [show GyroFilter.push { r.2 with imus := l } r.1 = { r.2.push r.1 with imus := l } from rfl,
          multiLoop_imus l qs _ _, Option.map_map, Option.map_map]
        rfl
    · rw [if_neg hf, if_neg hf]
      simp only [Option.bind_some]
      cases fused with
      | none => dsimp only; rw [multiLoop_imus l qs _ _, Option.map_map, Option.map_map]; rfl
      | some o =>
        dsimp only
        rw [show GyroFilter.push { f with imus := l } o = { f.push o with imus := l } from rfl,
          multiLoop_imus l qs _ _, Option.map_map, Option.map_map]
        rfl

theorem take_drop_set {α} (l : List α) (i : ℕ) (x y : α) (h : l[i]? = some x) :
    l.drop i = x :: l.drop (i + 1) ∧ (l.set i y).drop (i + 1) = l.drop (i + 1) ∧
      (l.set i y).take (i + 1) = l.take i ++ [y] ∧ l.take (i + 1) = l.take i ++ [x] := by
  obtain ⟨hi, hx⟩ := List.getElem?_eq_some_iff.mp h
  refine ⟨?_, ?_, ?_, ?_⟩
  · rw [List.drop_eq_getElem_cons hi, hx]
  · rw [List.drop_set_of_lt (by omega)]
  · rw [List.take_succ, List.take_set_of_le (le_refl i), List.getElem?_set, if_pos rfl, if_pos hi]; rfl
  · rw [List.take_succ, h]; rfl

theorem start_fin (f : GyroFilter) : (start f).bind cont = f.runOnce := by
  unfold start runOnce
  by_cases hi : f.initialized = true
  · rw [if_pos hi, if_pos hi]
    cases hg : f.gyro with
    | none =>
      show fin (corrPC f.method) f.propagate = _
      rw [← propagate_method f]
      exact corrPC_fin _
    | some l =>
      show f.gyro.bind _ = _
      rw [hg]; rfl
  · rw [if_neg hi, if_neg hi]
    unfold startInit initializeFilter
    by_cases hs : f.cfg.staticBias = true
    · rw [if_pos hs, if_pos hs]
      dsimp only
      cases f.biasTarget with
      | none => rfl
      | some n =>
        simp only [Option.bind_some]
        by_cases hn : f.biasVec.length < n
        · rw [if_pos hn, if_pos hn]; rfl
        · rw [if_neg hn, if_neg hn]
          unfold finishInit
          dsimp only
          by_cases h0 : f.biasVec.length = 0
          · rw [if_pos h0, if_pos h0]; rfl
          · rw [if_neg h0, if_neg h0]
            simp only [Option.bind_some]
            unfold clrStart
            dsimp only
            cases hg : f.gyro with
            | none => exact clrPC_fin _
            | some l => rfl
    · rw [if_neg hs, if_neg hs]
      rfl

theorem useImu_fin (f : GyroFilter) (m : ImuMeas) (q : List ImuMeas) (h : f.imu = some (m :: q)) :
    (useImu f m).bind cont = f.fuseImu m q := by
  unfold useImu fuseImu
  dsimp only
  by_cases hf : GyroFilter.Fresh { f with latest := some m } m.time
  · rw [if_pos hf, if_pos hf]
    cases hc : correctImu { f with latest := some m } m with
    | none => rfl
    | some r =>
      have hr : r.2.imu = some (m :: q) := by
        unfold correctImu at hc
        rw [Option.map_eq_some_iff] at hc
        obtain ⟨g, hg, rfl⟩ := hc
        unfold kalman at hg
        dsimp only at hg
        split at hg
        · simp at hg
        · obtain rfl := Option.some.inj hg
          exact h
      simp only [Option.map_some, Option.bind_some, cont, fin, GyroFilter.push]
      rw [hr]
  · rw [if_neg hf, if_neg hf]
    simp only [Option.bind_some, cont, fin, h, Option.map_some]

theorem correctEnc_enc {f : GyroFilter} {m : ImuMeas} {a : AngVelMeas} {r : ImuMeas × GyroFilter}
    (hc : f.correctEnc m a = some r) : r.2.enc = f.enc := by
  unfold correctEnc at hc
  rw [Option.map_eq_some_iff] at hc
  obtain ⟨g, hg, rfl⟩ := hc
  unfold kalman at hg
  dsimp only at hg
  split at hg
  · simp at hg
  · obtain rfl := Option.some.inj hg
    rfl

theorem useEnc_fin (f : GyroFilter) (a : AngVelMeas) (q : List AngVelMeas) (h : f.enc = some (a :: q)) :
    (useEnc f a).bind cont = f.fuseEnc a q := by
  unfold useEnc fuseEnc
  cases hl : f.latest with
  | none => simp only [Option.bind_some, cont, fin, h, hl]
  | some m =>
    dsimp only
    by_cases hf : f.Fresh a.time
    · rw [if_pos hf, if_pos hf]
      cases hc : f.correctEnc m a with
      | none => rfl
      | some r =>
        have hr := (correctEnc_enc hc).trans h
        simp only [Option.map_some, Option.bind_some, cont, fin, GyroFilter.push]
        rw [hr]
    · rw [if_neg hf, if_neg hf]
      simp only [Option.bind_some, cont, fin, h, Option.map_some]

theorem choose_fin (f : GyroFilter) (I : List ImuMeas) (E : List AngVelMeas) (hi : f.imu = some I) (he : f.enc = some E) :
    (choose f I.head? E.head?).bind cont = f.imuPlusAngVel := by
  unfold imuPlusAngVel
  rcases I with _ | ⟨m, I⟩ <;> rcases E with _ | ⟨a, E⟩
  · rw [hi, he]; rfl
  · rw [hi, he]; exact useEnc_fin f a E he
  · rw [hi, he]; exact useImu_fin f m I hi
  · rw [hi, he]
    show Option.bind (if _ then _ else _) _ = if _ then _ else _
    by_cases ht : m.time ≤ a.time
    · rw [if_pos ht, if_pos ht]; exact useImu_fin f m I hi
    · rw [if_neg ht, if_neg ht]; exact useEnc_fin f a E he

/-- One section, then the rest. -/
theorem fin_step (f : GyroFilter) (pc : PC) (hp : pc ≠ .idle) (hs : NS pc f) : fin pc f = (mstep f pc).bind cont := by
  cases pc with
  | idle => exact absurd rfl hp
  | gyroProp =>
    simp only [mstep, fin]
    cases f.gyro with
    | none => rfl
    | some l =>
      show _ = fin (corrPC f.method) f.propagate
      rw [← propagate_method f, corrPC_fin]
      rfl
  | imuSingle =>
    simp only [mstep, fin, singleImu]
    rcases f.imu with _ | ⟨_ | ⟨m, l⟩⟩
    · rfl
    · rfl
    · dsimp only
      split
      · cases correctImu { f with imu := some l } m <;> rfl
      · rfl
  | imuMulti i fused =>
    simp only [mstep, fin]
    rcases hi : f.imus[i]? with _ | ⟨_ | ⟨m, l⟩⟩
    · have := List.getElem?_eq_none_iff.mp hi
      rw [List.drop_eq_nil_of_le this, List.take_of_length_le this]
      show some _ = some f
      simp
    · obtain ⟨h1, _, _, h4⟩ := take_drop_set f.imus i [] [] hi
      show _ = fin (.imuMulti (i + 1) fused) f
      rw [h1]
      simp only [multiLoop, fin]
      rw [h4, Option.map_map]
      congr 1
      funext r
      simp [Function.comp]
    · obtain ⟨h1, h2, h3, h4⟩ := take_drop_set f.imus i (m :: l) l hi
      rw [h1]
      simp only [multiLoop]
      rw [show ({ f with imus := f.imus.set i l } : GyroFilter).Fresh m.time = f.Fresh m.time from rfl, correctImu_imus f (f.imus.set i l)]
      by_cases hf : f.Fresh m.time
      · rw [if_pos hf, if_pos hf, Option.map_map]
        cases hc : f.correctImu m with
        | none => rfl
        | some r =>
          simp only [Option.map_some, Option.bind_some, Function.comp, cont, fin]
          rw [show GyroFilter.push { r.2 with imus := f.imus.set i l } r.1 =
            { r.2.push r.1 with imus := f.imus.set i l } from rfl, multiLoop_imus (f.imus.set i l), h2, h3, Option.map_map, Option.map_map]
          congr 1
          funext x
          simp [Function.comp]
      · rw [if_neg hf, if_neg hf]
        simp only [Option.bind_some]
        cases fused with
        | none =>
          simp only [Option.bind_some, cont, fin]
          rw [multiLoop_imus (f.imus.set i l), h2, h3, Option.map_map, Option.map_map]
          congr 1
          funext x
          simp [Function.comp]
        | some o =>
          simp only [Option.bind_some, cont, fin]
          rw [show GyroFilter.push { f with imus := f.imus.set i l } o =
            { f.push o with imus := f.imus.set i l } from rfl, multiLoop_imus (f.imus.set i l), h2, h3, Option.map_map, Option.map_map]
          congr 1
          funext x
          simp [Function.comp]
  | frontImu =>
    simp only [mstep, fin]
    cases hi : f.imu with
    | none => unfold imuPlusAngVel; rw [hi]; rfl
    | some l => rfl
  | frontEnc m =>
    obtain ⟨q, hq, rfl⟩ := hs
    simp only [mstep, fin]
    cases he : f.enc with
    | none => unfold imuPlusAngVel; rw [hq, he]; cases q <;> rfl
    | some l => exact (choose_fin f q l hq he).symm
  | encOnly =>
    simp only [mstep, fin, angVelCorr]
    rcases he : f.enc with _ | ⟨_ | ⟨a, l⟩⟩
    · rfl
    · rfl
    · dsimp only
      cases hl : f.latest with
      | none => simp only [Option.bind_some, cont, fin, he, hl]
      | some m =>
        dsimp only
        cases hc : f.correctEnc m a with
        | none => rfl
        | some r =>
          have hr := (correctEnc_enc hc).trans he
          simp only [Option.map_some, Option.bind_some, cont, fin, GyroFilter.push]
          rw [hr]
  | push x k => rfl
  | popImu =>
    simp only [mstep, fin]
    rcases f.imu with _ | ⟨_ | ⟨m, l⟩⟩ <;> rfl
  | popEnc =>
    simp only [mstep, fin]
    rcases f.enc with _ | ⟨_ | ⟨m, l⟩⟩ <;> rfl
  | biasImu =>
    simp only [mstep, fin, collectBias]
    rcases hi : f.imu with _ | ⟨_ | ⟨m, l⟩⟩
    · rfl
    · rfl
    · dsimp only
      cases hg : f.gyro with
      | none => rfl
      | some g => simp only [Option.bind_some, cont, fin, hg]; cases g <;> rfl
  | biasGyro =>
    simp only [mstep, fin]
    rcases f.gyro with _ | ⟨_ | ⟨m, l⟩⟩ <;> rfl
  | clrGyro =>
    simp only [mstep, fin]
    cases f.gyro with
    | none => rfl
    | some l => exact (clrPC_fin _).symm
  | clrImu =>
    simp only [mstep, fin]
    cases f.imu with
    | none => rfl
    | some l => exact (endInit_fin _).symm
  | clrImus i =>
    simp only [mstep, fin, Option.bind_some]
    by_cases hi : i < f.imus.length
    · rw [if_pos hi]
      obtain ⟨h1, h2, h3, h4⟩ := take_drop_set f.imus i _ [] (List.getElem?_eq_getElem hi)
      simp only [cont, fin]
      rw [h1, h2, h3, List.map_cons, List.append_assoc]
      rfl
    · rw [if_neg hi, endInit_fin, List.drop_eq_nil_of_le (by omega), List.take_of_length_le (by omega)]
      simp
  | clrEnc =>
    simp only [mstep, fin]
    cases f.enc <;> rfl

end GyroThr
end Drift
