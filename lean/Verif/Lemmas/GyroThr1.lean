import Verif.Spec.GyroThreads

/-!
# The gyro filter thread: accesses of other threads commute with its sections
-/
namespace Drift
open GyroFilter
namespace GyroThr

/-- the effect of an access of another thread -/
def app (o : Op) (f : GyroFilter) : GyroFilter :=
  match o with
  | .gyroData m => { f with gyro := f.gyro.map (· ++ [m]) }
  | .imuData m => { f with imu := f.imu.map (· ++ [m]) }
  | .imuDataN i m => { f with imus := f.imus.modify i (· ++ [m]) }
  | .encData a => { f with enc := f.enc.map (· ++ [a]) }
  | .popOut => { f with out := f.out.tail }
  | _ => f

theorem step_app {o : Op} {q : Q} (h : res o = some q) (f : GyroFilter) : f.step o = some (app o f) := by
  cases o <;> first | rfl | simp [res] at h

/-- the next section looks at queue `q` -/
def Looks : PC → Q → Prop
  | .gyroProp, .gyro => True
  | .imuSingle, .imu => True
  | .imuMulti i _, .imus j => i = j
  | .frontImu, .imu => True
  | .frontEnc _, .enc => True
  | .encOnly, .enc => True
  | .biasImu, .imu => True
  | .biasGyro, .gyro => True
  | .clrGyro, .gyro => True
  | .clrImu, .imu => True
  | .clrImus i, .imus j => i = j
  | .clrEnc, .enc => True
  | _, _ => False

/-- what the filter thread has seen at the front of a queue is still there -/
def NE : PC → GyroFilter → Prop
  | .popImu, f => ∃ m q, f.imu = some (m :: q)
  | .popEnc, f => ∃ a q, f.enc = some (a :: q)
  | .push _ k, f => NE k f
  | .frontEnc (some _), f => ∃ m q, f.imu = some (m :: q)
  | _, _ => True

section
variable {o : Op} {q : Q} (hr : res o = some q) (f : GyroFilter)

theorem kalman_app (H : M36) (R : M3) (y : V3) : kalman (app o f) H R y = (kalman f H R y).map (app o) := by
  unfold kalman
  cases o <;> (dsimp only [app]; split <;> rfl)

theorem app_cfg : (app o f).cfg = f.cfg := by cases o <;> rfl
theorem app_method : (app o f).method = f.method := by cases o <;> rfl
theorem app_latest : (app o f).latest = f.latest := by cases o <;> rfl
theorem app_fresh (t : ℝ) : (app o f).Fresh t = f.Fresh t := by cases o <;> rfl
theorem app_init : (app o f).initialized = f.initialized := by cases o <;> rfl

theorem correctImu_app (m : ImuMeas) :
    correctImu (app o f) m = (correctImu f m).map fun r => (r.1, app o r.2) := by
  unfold correctImu
  rw [kalman_app, app_cfg, Option.map_map, Option.map_map]
  congr 1
  funext g
  cases o <;> rfl

theorem correctEnc_app (m : ImuMeas) (a : AngVelMeas) :
    correctEnc (app o f) m a = (correctEnc f m a).map fun r => (r.1, app o r.2) := by
  unfold correctEnc
  rw [kalman_app, app_cfg, Option.map_map, Option.map_map]
  congr 1
  funext g
  cases o <;> rfl

include hr in
theorem propagate_app (hq : q ≠ .gyro) : propagate (app o f) = app o f.propagate := by
  rcases f with ⟨c, g, _⟩
  rcases g with _ | ⟨_ | ⟨m, l⟩⟩ <;> cases o <;> first
    | rfl
    | (simp [res] at hr; subst hr; simp at hq; done)

theorem endInit_app : endInit (app o f) = (app o (endInit f).1, (endInit f).2) := by
  unfold endInit
  rw [app_method]
  cases f.method <;> cases o <;> rfl

theorem clrPC_app : clrPC (app o f) = (app o (clrPC f).1, (clrPC f).2) := by
  unfold clrPC
  rw [app_method]
  cases f.method <;> first | rfl | exact endInit_app f

theorem app_chooseMethod : (app o f).chooseMethod = f.chooseMethod := by cases o <;> rfl

theorem useImu_app (m : ImuMeas) : useImu (app o f) m = (useImu f m).map fun r => (app o r.1, r.2) := by
  unfold useImu
  have e : ({ app o f with latest := some m } : GyroFilter) = app o { f with latest := some m } := by cases o <;> rfl
  dsimp only
  rw [e, app_fresh]
  split
  · rw [correctImu_app, Option.map_map, Option.map_map]; rfl
  · rfl

theorem useEnc_app (a : AngVelMeas) : useEnc (app o f) a = (useEnc f a).map fun r => (app o r.1, r.2) := by
  unfold useEnc
  rw [app_latest]
  cases f.latest with
  | none => rfl
  | some m =>
    dsimp only
    rw [app_fresh]
    split
    · rw [correctEnc_app, Option.map_map, Option.map_map]; rfl
    · rfl

theorem choose_app (m : Option ImuMeas) (a : Option AngVelMeas) :
    choose (app o f) m a = (choose f m a).map fun r => (app o r.1, r.2) := by
  cases m <;> cases a <;> simp only [choose, useImu_app, useEnc_app]
  · rfl
  · split <;> rfl

end

theorem clrStart_app {o : Op} (f : GyroFilter) : clrStart (app o f) = (app o (clrStart f).1, (clrStart f).2) := by
  unfold clrStart
  have : (app o f).gyro.isSome = f.gyro.isSome := by cases o <;> simp [app]
  cases hg : f.gyro with
  | none =>
    have h' : (app o f).gyro = none := by rw [hg] at this; simpa using this
    rw [h']
    exact clrPC_app f
  | some l =>
    obtain ⟨l', h'⟩ : ∃ l', (app o f).gyro = some l' := Option.isSome_iff_exists.mp (by rw [this, hg]; rfl)
    rw [h']

theorem startInit_app {o : Op} (f : GyroFilter) :
    startInit (app o f) = (startInit f).map fun r => (app o r.1, r.2) := by
  unfold startInit
  have hb : (app o f).biasTarget = f.biasTarget := by cases o <;> rfl
  have hv : (app o f).biasVec = f.biasVec := by cases o <;> rfl
  have e2 : ({ app o f with x := join 0 (mean (app o f).biasVec) } : GyroFilter) =
    app o { f with x := join 0 (mean f.biasVec) } := by cases o <;> rfl
  rw [e2, app_cfg, hb, hv, clrStart_app]
  split
  · cases f.biasTarget with
    | none => rfl
    | some n =>
      dsimp only [Option.bind_some]
      split
      · rfl
      · split <;> rfl
  · cases o <;> rfl

/-- The beginning of a run looks at no queue. -/
theorem start_app {o : Op} (f : GyroFilter) :
    start (app o f) = (start f).map fun r => (app o r.1, r.2) := by
  have e : ({ app o f with method := (app o f).chooseMethod } : GyroFilter) =
        app o { f with method := f.chooseMethod } := by cases o <;> rfl
  unfold start
  rw [e, app_init]
  split
  · have : (app o f).gyro.isSome = f.gyro.isSome := by cases o <;> simp [app]
    cases hg : f.gyro with
    | none =>
      have h' : (app o f).gyro = none := by rw [hg] at this; simpa using this
      rw [h']
      dsimp only
      rw [app_method]
      have : propagate (app o f) = app o f.propagate := by
        unfold propagate
        rw [h', hg]
        cases o <;> rfl
      rw [this]; rfl
    | some l =>
      obtain ⟨l', h'⟩ : ∃ l', (app o f).gyro = some l' := Option.isSome_iff_exists.mp (by rw [this, hg]; rfl)
      rw [h']; rfl
  · exact startInit_app _

/-- **Commutation**: an access to a queue at which the next section does not look. -/
theorem mstep_app {o : Op} {q : Q} (hr : res o = some q) (f : GyroFilter) (pc : PC) (hl : ¬ Looks pc q) (hn : NE pc f)
    (hf : finds f o = true) : mstep (app o f) pc = (mstep f pc).map fun r => (app o r.1, r.2) := by
  cases pc with
  | idle => rfl
  | gyroProp =>
    have hq : q ≠ .gyro := fun e => hl (by rw [e]; trivial)
    have hg : (app o f).gyro = f.gyro := by cases o <;> first | rfl | (simp [res] at hr; exact absurd hr.symm hq)
    simp only [mstep]
    rw [hg, propagate_app hr f hq, app_method, Option.map_map]
    rfl
  | imuSingle =>
    have hq : q ≠ .imu := fun e => hl (by rw [e]; trivial)
    have hg : (app o f).imu = f.imu := by cases o <;> first | rfl | (simp [res] at hr; exact absurd hr.symm hq)
    simp only [mstep]
    rw [hg]
    rcases hi : f.imu with _ | ⟨_ | ⟨m, l⟩⟩
    · rfl
    · rfl
    · dsimp only
      have e1 : (app o f).lastProp = f.lastProp := by cases o <;> rfl
      have e2 : ({ app o f with imu := some l } : GyroFilter) = app o { f with imu := some l } := by
        cases o <;> first | rfl | (simp [res] at hr; exact absurd hr.symm hq)
      rw [e2, e1, app_cfg]
      split
      · rw [correctImu_app, Option.map_map, Option.map_map]; rfl
      · rfl
  | imuMulti i fused =>
    have hq : q ≠ .imus i := fun e => hl (by rw [e]; exact rfl)
    have hg : (app o f).imus[i]? = f.imus[i]? := by
      cases o <;> first
        | rfl
        | (rename_i j m; simp [res] at hr; subst hr
           have : j ≠ i := fun e => hq (by rw [e])
           simp [app, List.getElem?_modify, this])
    have hs : ∀ l, ({ app o f with imus := (app o f).imus.set i l } : GyroFilter) = app o { f with imus := f.imus.set i l } := by
      intro l
      cases o <;> first
        | rfl
        | (rename_i j m; simp [res] at hr; subst hr
           have : j ≠ i := fun e => hq (by rw [e])
           simp only [app]
           congr 1
           apply List.ext_getElem?
           intro k
           simp only [List.getElem?_set, List.getElem?_modify, List.length_modify]
           by_cases h1 : i = k <;> by_cases h2 : j = k <;> by_cases h3 : i < f.imus.length <;> simp_all)
    simp only [mstep]
    rw [hg]
    rcases hi : f.imus[i]? with _ | ⟨_ | ⟨m, l⟩⟩
    · rfl
    · rfl
    · dsimp only
      rw [hs, app_fresh]
      split
      · rw [correctImu_app, Option.map_map, Option.map_map]; rfl
      · cases fused <;> rfl
  | frontImu =>
    have hq : q ≠ .imu := fun e => hl (by rw [e]; trivial)
    have hg : (app o f).imu = f.imu := by cases o <;> first | rfl | (simp [res] at hr; exact absurd hr.symm hq)
    simp only [mstep]
    rw [hg, Option.map_map]
    rfl
  | frontEnc m =>
    have hq : q ≠ .enc := fun e => hl (by rw [e]; trivial)
    have hg : (app o f).enc = f.enc := by cases o <;> first | rfl | (simp [res] at hr; exact absurd hr.symm hq)
    simp only [mstep]
    rw [hg]
    cases f.enc with
    | none => rfl
    | some l => exact choose_app f m l.head?
  | encOnly =>
    have hq : q ≠ .enc := fun e => hl (by rw [e]; trivial)
    have hg : (app o f).enc = f.enc := by cases o <;> first | rfl | (simp [res] at hr; exact absurd hr.symm hq)
    simp only [mstep]
    rw [hg, app_latest]
    rcases f.enc with _ | ⟨_ | ⟨a, l⟩⟩
    · rfl
    · rfl
    · dsimp only
      cases f.latest with
      | none => rfl
      | some m => dsimp only; rw [correctEnc_app, Option.map_map, Option.map_map]; rfl
  | push x k =>
    simp only [mstep, Option.map_some]
    congr 2
    cases o <;> first
      | rfl
      | (simp only [finds, Bool.not_eq_true'] at hf
         simp only [GyroFilter.push, app]
         congr 1
         cases ho : f.out with
         | nil => rw [ho] at hf; simp at hf
         | cons a l => rfl)
  | popImu =>
    obtain ⟨m, l, hi⟩ := hn
    cases o <;> simp [mstep, app, hi]
  | popEnc =>
    obtain ⟨m, l, hi⟩ := hn
    cases o <;> simp [mstep, app, hi]
  | biasImu =>
    have hq : q ≠ .imu := fun e => hl (by rw [e]; trivial)
    have hg : (app o f).imu = f.imu := by cases o <;> first | rfl | (simp [res] at hr; exact absurd hr.symm hq)
    simp only [mstep]
    rw [hg]
    rcases hi : f.imu with _ | ⟨_ | ⟨m, l⟩⟩
    · rfl
    · rfl
    · dsimp only
      cases o <;> first
        | (simp [res] at hr; exact absurd hr.symm hq)
        | (cases hgy : f.gyro <;> simp [app, hgy])
  | biasGyro =>
    have hq : q ≠ .gyro := fun e => hl (by rw [e]; trivial)
    have hg : (app o f).gyro = f.gyro := by cases o <;> first | rfl | (simp [res] at hr; exact absurd hr.symm hq)
    simp only [mstep]
    rw [hg]
    rcases hi : f.gyro with _ | ⟨_ | ⟨m, l⟩⟩
    · rfl
    · rfl
    · cases o <;> first
        | (simp [res] at hr; exact absurd hr.symm hq)
        | rfl
  | clrGyro =>
    have hq : q ≠ .gyro := fun e => hl (by rw [e]; trivial)
    have hg : (app o f).gyro = f.gyro := by cases o <;> first | rfl | (simp [res] at hr; exact absurd hr.symm hq)
    have e : ({ app o f with gyro := some [] } : GyroFilter) = app o { f with gyro := some [] } := by
      cases o <;> first | rfl | (simp [res] at hr; exact absurd hr.symm hq)
    simp only [mstep]
    rw [hg, e, clrPC_app, Option.map_map]
    rfl
  | clrImu =>
    have hq : q ≠ .imu := fun e => hl (by rw [e]; trivial)
    have hg : (app o f).imu = f.imu := by cases o <;> first | rfl | (simp [res] at hr; exact absurd hr.symm hq)
    have e : ({ app o f with imu := some [] } : GyroFilter) = app o { f with imu := some [] } := by
      cases o <;> first | rfl | (simp [res] at hr; exact absurd hr.symm hq)
    simp only [mstep]
    rw [hg, e, endInit_app, Option.map_map]
    rfl
  | clrImus i =>
    have hq : q ≠ .imus i := fun e => hl (by rw [e]; exact rfl)
    have hs : ∀ l, ({ app o f with imus := (app o f).imus.set i l } : GyroFilter) = app o { f with imus := f.imus.set i l } := by
      intro l
      cases o <;> first
        | rfl
        | (rename_i j m; simp [res] at hr; subst hr
           have : j ≠ i := fun e => hq (by rw [e])
           simp only [app]
           congr 1
           apply List.ext_getElem?
           intro k
           simp only [List.getElem?_set, List.getElem?_modify, List.length_modify]
           by_cases h1 : i = k <;> by_cases h2 : j = k <;> by_cases h3 : i < f.imus.length <;> simp_all)
    have hlen : (app o f).imus.length = f.imus.length := by cases o <;> simp [app]
    simp only [mstep, Option.map_some]
    rw [hlen, hs, endInit_app]
    split <;> rfl
  | clrEnc =>
    have hq : q ≠ .enc := fun e => hl (by rw [e]; trivial)
    have hg : (app o f).enc = f.enc := by cases o <;> first | rfl | (simp [res] at hr; exact absurd hr.symm hq)
    simp only [mstep]
    rw [hg]
    cases f.enc with
    | none => rfl
    | some l => cases o <;> first | (simp [res] at hr; exact absurd hr.symm hq) | rfl

end GyroThr
end Drift
