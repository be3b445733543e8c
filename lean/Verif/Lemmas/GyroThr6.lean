import Verif.Lemmas.GyroThr5
import Verif.Lemmas.Filter8

/-!
# The gyro filter thread: which sections can be undefined, and `clear` between two runs
-/
namespace Drift
open GyroFilter
namespace GyroThr

/-- the queues the rest of the run uses exist -/
def Req (f : GyroFilter) : PC → Prop
  | .gyroProp => f.gyro.isSome
  | .imuSingle => f.imu.isSome
  | .frontImu => f.imu.isSome ∧ f.enc.isSome
  | .frontEnc _ => f.imu.isSome ∧ f.enc.isSome
  | .encOnly => f.enc.isSome
  | .push _ k => Req f k
  | .popImu => f.imu.isSome
  | .popEnc => f.enc.isSome
  | .biasImu => f.imu.isSome
  | .biasGyro => f.gyro.isSome
  | .clrGyro => f.gyro.isSome
  | .clrImu => f.imu.isSome
  | .clrEnc => f.enc.isSome
  | _ => True

/-- nothing the run in progress does is undefined, except perhaps the `pop` of an emptied queue -/
structure GOk (f : GyroFilter) (pc : PC) : Prop where
  safe : Safe f
  need : pc ≠ .idle → f.Need f.method
  req : Req f pc

theorem Req.mono {f g : GyroFilter} (h1 : f.imu.isSome → g.imu.isSome) (h2 : f.enc.isSome → g.enc.isSome)
    (h3 : f.gyro.isSome → g.gyro.isSome) : ∀ {pc : PC}, Req f pc → Req g pc := by
  intro pc
  induction pc with
  | push o k ih => exact ih
  | _ => simp only [Req]; tauto

/-- everything a section leaves alone -/
structure Same (f f' : GyroFilter) : Prop extends Keeps f f' where
  method : f'.method = f.method
  psd : f'.P.PosSemidef

theorem Same.safe {f f' : GyroFilter} (h : Safe f) (s : Same f f') (hi : f.Need f.method) : Safe f' :=
  h.of_keeps s.toKeeps s.psd (chooseMethod_congr s.numImu s.numAngVel s.method) fun _ => by
    rw [s.method]; exact hi.mono s.imu s.enc

theorem Same.need {f f' : GyroFilter} (s : Same f f') (hi : f.Need f.method) : f'.Need f'.method := by
  rw [s.method]; exact hi.mono s.imu s.enc

theorem GOk.of_same {f f' : GyroFilter} {pc pc' : PC} (h : GOk f pc) (hp : pc ≠ .idle) (s : Same f f')
    (hr : Req f' pc') : GOk f' pc' :=
  ⟨s.safe h.safe (h.need hp), fun _ => s.need (h.need hp), hr⟩

theorem corrPC_req {f : GyroFilter} (h : f.Need f.method) : Req f (corrPC f.method) := by
  obtain ⟨me, hme⟩ : ∃ me, f.method = me := ⟨_, rfl⟩
  rw [hme] at h ⊢
  cases me <;> first | exact h | trivial

theorem propagate_same {f : GyroFilter} (hP : f.P.PosSemidef) : Same f f.propagate := by
  obtain ⟨p1, p2, p3, p4, p5, p6, p7, p8, p9, p10⟩ := propagate_frame f
  have pt : f.propagate.biasTarget = f.biasTarget := by
    unfold propagate; split <;> rfl
  exact ⟨⟨p1, pt, p6, p7, fun h => by rwa [p2], fun h => by rwa [p4]⟩, p5, propagate_psd hP⟩

theorem endInit_same (f : GyroFilter) (hP : f.P.PosSemidef) : Same f (endInit f).1 := by
  unfold endInit
  split <;> exact ⟨⟨rfl, rfl, rfl, rfl, id, id⟩, rfl, hP⟩

theorem endInit_req {f : GyroFilter} (h : f.Need f.method) : Req (endInit f).1 (endInit f).2 := by
  obtain ⟨me, hme⟩ : ∃ me, f.method = me := ⟨_, rfl⟩
  unfold endInit
  rw [hme] at h ⊢
  cases me <;> first | exact h | exact h.2 | trivial

theorem clrPC_same (f : GyroFilter) (hP : f.P.PosSemidef) : Same f (clrPC f).1 := by
  unfold clrPC
  split <;> first | exact ⟨⟨rfl, rfl, rfl, rfl, id, id⟩, rfl, hP⟩ | exact endInit_same f hP

theorem clrPC_req {f : GyroFilter} (h : f.Need f.method) : Req (clrPC f).1 (clrPC f).2 := by
  obtain ⟨me, hme⟩ : ∃ me, f.method = me := ⟨_, rfl⟩
  have := endInit_req h
  unfold clrPC
  rw [hme] at h ⊢
  cases me <;> first | exact h | exact h.1 | trivial | exact this

theorem Same.trans {f g k : GyroFilter} (a : Same f g) (b : Same g k) : Same f k :=
  ⟨⟨b.cfg.trans a.cfg, b.target.trans a.target, b.numImu.trans a.numImu, b.numAngVel.trans a.numAngVel,
    fun h => b.imu (a.imu h), fun h => b.enc (a.enc h)⟩, b.method.trans a.method, b.psd⟩

theorem clrStart_same (f : GyroFilter) (hP : f.P.PosSemidef) : Same f (clrStart f).1 := by
  unfold clrStart
  split
  · exact clrPC_same f hP
  · exact ⟨⟨rfl, rfl, rfl, rfl, id, id⟩, rfl, hP⟩

theorem clrStart_req {f : GyroFilter} (h : f.Need f.method) : Req (clrStart f).1 (clrStart f).2 := by
  unfold clrStart
  split
  · exact clrPC_req h
  · rename_i g hg
    simp [Req, hg]

theorem bind_of_some {α β} {o : Option α} {a : α} (h : o = some a) (f : α → Option β) : o.bind f = f a := by
  rw [h]; rfl

/-- the beginning of a run is defined -/
theorem start_gok {f : GyroFilter} (h : Safe f) : ∃ r, start f = some r ∧ GOk r.1 r.2 := by
  have hP := h.psd
  unfold start
  split
  · rename_i hini
    have hm := h.method hini
    split
    · have s := propagate_same hP
      refine ⟨_, rfl, s.safe h hm, fun _ => s.need hm, ?_⟩
      have := corrPC_req (s.need hm)
      rwa [s.method] at this
    · rename_i g hg
      exact ⟨_, rfl, h, fun _ => hm, by simp [Req, hg]⟩
  · have h1 : Safe { f with method := f.chooseMethod } := by
      refine ⟨h.psd, h.noisy, h.static, ?_, fun _ => h.choose⟩
      rw [chooseMethod_idem f]
      exact h.choose
    have h2 : ({ f with method := f.chooseMethod } : GyroFilter).Need
      ({ f with method := f.chooseMethod } : GyroFilter).method := h.choose
    generalize { f with method := f.chooseMethod } = g at h1 h2
    unfold startInit
    split
    · rename_i hs
      obtain ⟨k1, n, k2, k3⟩ := h1.static hs
      rw [bind_of_some k2]
      split
      · exact ⟨_, rfl, h1, fun _ => h2, k1⟩
      · rw [if_neg (by omega)]
        have s0 : Same g { g with x := join 0 (mean g.biasVec) } := ⟨⟨rfl, rfl, rfl, rfl, id, id⟩, rfl, h1.psd⟩
        have s := s0.trans (clrStart_same _ s0.psd)
        exact ⟨_, rfl, s.safe h1 h2, fun _ => s.need h2, clrStart_req (s0.need h2)⟩
    · have s0 : Same g { g with initialized := true } := ⟨⟨rfl, rfl, rfl, rfl, id, id⟩, rfl, h1.psd⟩
      exact ⟨_, rfl, s0.safe h1 h2, fun _ => s0.need h2, trivial⟩

theorem useImu_gok {f : GyroFilter} (h : Safe f) (hm : f.Need f.method) (hi : f.imu.isSome) (m : ImuMeas) :
    ∃ r, useImu f m = some r ∧ Same f r.1 ∧ Req r.1 r.2 := by
  unfold useImu
  dsimp only
  split
  · obtain ⟨x, P, hP, e⟩ := correctImu_total (f := { f with latest := some m }) h.psd h.noisy m
    rw [e]
    exact ⟨_, rfl, ⟨⟨rfl, rfl, rfl, rfl, id, id⟩, rfl, hP⟩, hi⟩
  · exact ⟨_, rfl, ⟨⟨rfl, rfl, rfl, rfl, id, id⟩, rfl, h.psd⟩, hi⟩

theorem useEnc_gok {f : GyroFilter} (h : Safe f) (hi : f.enc.isSome) (a : AngVelMeas) :
    ∃ r, useEnc f a = some r ∧ Same f r.1 ∧ Req r.1 r.2 := by
  unfold useEnc
  split
  · exact ⟨_, rfl, ⟨⟨rfl, rfl, rfl, rfl, id, id⟩, rfl, h.psd⟩, hi⟩
  · rename_i m _
    split
    · obtain ⟨x, P, hP, e⟩ := correctEnc_total h.psd h.noisy m a
      rw [e]
      exact ⟨_, rfl, ⟨⟨rfl, rfl, rfl, rfl, id, id⟩, rfl, hP⟩, hi⟩
    · exact ⟨_, rfl, ⟨⟨rfl, rfl, rfl, rfl, id, id⟩, rfl, h.psd⟩, hi⟩

/-- a section is defined, except the `pop` of an emptied queue -/
theorem mstep_gok {f : GyroFilter} {pc : PC} (h : GOk f pc) (hp : pc ≠ .idle) :
    (∃ r, mstep f pc = some r ∧ GOk r.1 r.2) ∨ (pc = .popImu ∧ f.imu = some []) ∨ (pc = .popEnc ∧ f.enc = some []) := by
  have hs := h.safe
  have hm := h.need hp
  have hr := h.req
  have refl : ∀ pc', Req f pc' → GOk f pc' := fun pc' k => ⟨hs, fun _ => hm, k⟩
  have mk : ∀ r : GyroFilter × PC, Same f r.1 → Req r.1 r.2 → GOk r.1 r.2 := fun r s k => h.of_same hp s k
  cases pc with
  | idle => exact absurd rfl hp
  | gyroProp =>
    left
    obtain ⟨g, hg⟩ := Option.isSome_iff_exists.mp hr
    refine ⟨(f.propagate, corrPC f.method), by simp [mstep, hg], ?_⟩
    have s := propagate_same hs.psd
    refine mk _ s ?_
    have := corrPC_req (s.need hm)
    rwa [s.method] at this
  | imuSingle =>
    left
    obtain ⟨l, hl⟩ := Option.isSome_iff_exists.mp hr
    simp only [mstep, hl]
    cases l with
    | nil => exact ⟨_, rfl, refl _ trivial⟩
    | cons m q =>
      dsimp only
      split
      · obtain ⟨x, P, hP, e⟩ := correctImu_total (f := { f with imu := some q }) hs.psd hs.noisy m
        rw [e]
        exact ⟨_, rfl, mk _ ⟨⟨rfl, rfl, rfl, rfl, fun _ => rfl, id⟩, rfl, hP⟩ trivial⟩
      · exact ⟨_, rfl, refl _ trivial⟩
  | imuMulti i fused =>
    left
    simp only [mstep]
    split
    · exact ⟨_, rfl, refl _ trivial⟩
    · exact ⟨_, rfl, refl _ trivial⟩
    · rename_i m q _
      split
      · obtain ⟨x, P, hP, e⟩ := correctImu_total (f := { f with imus := f.imus.set i q }) hs.psd hs.noisy m
        rw [e]
        exact ⟨_, rfl, mk _ ⟨⟨rfl, rfl, rfl, rfl, id, id⟩, rfl, hP⟩ trivial⟩
      · split <;> exact ⟨_, rfl, mk _ ⟨⟨rfl, rfl, rfl, rfl, id, id⟩, rfl, hs.psd⟩ trivial⟩
  | frontImu =>
    left
    obtain ⟨l, hl⟩ := Option.isSome_iff_exists.mp hr.1
    exact ⟨(f, .frontEnc l.head?), by simp [mstep, hl], refl _ hr⟩
  | frontEnc m =>
    left
    obtain ⟨l, hl⟩ := Option.isSome_iff_exists.mp hr.2
    simp only [mstep, hl, Option.bind_some]
    have k1 : ∀ m, ∃ r, useImu f m = some r ∧ GOk r.1 r.2 := fun m => by
      obtain ⟨r, e, s, q⟩ := useImu_gok hs hm hr.1 m
      exact ⟨r, e, mk _ s q⟩
    have k2 : ∀ a, ∃ r, useEnc f a = some r ∧ GOk r.1 r.2 := fun a => by
      obtain ⟨r, e, s, q⟩ := useEnc_gok hs hr.2 a
      exact ⟨r, e, mk _ s q⟩
    rcases m with _ | m <;> rcases l.head? with _ | a <;> simp only [choose]
    · exact ⟨_, rfl, refl _ trivial⟩
    · exact k2 a
    · exact k1 m
    · split
      · exact k1 m
      · exact k2 a
  | encOnly =>
    left
    obtain ⟨l, hl⟩ := Option.isSome_iff_exists.mp hr
    simp only [mstep, hl]
    cases l with
    | nil => exact ⟨_, rfl, refl _ trivial⟩
    | cons a q =>
      dsimp only
      split
      · exact ⟨_, rfl, refl _ hr⟩
      · rename_i m _
        obtain ⟨x, P, hP, e⟩ := correctEnc_total hs.psd hs.noisy m a
        rw [e]
        exact ⟨_, rfl, mk _ ⟨⟨rfl, rfl, rfl, rfl, id, id⟩, rfl, hP⟩ hr⟩
  | push o k =>
    left
    exact ⟨_, rfl, mk (f.push o, k) ⟨⟨rfl, rfl, rfl, rfl, id, id⟩, rfl, hs.psd⟩ (Req.mono (f := f) (g := f.push o) (pc := k) id id id hr)⟩
  | popImu =>
    obtain ⟨l, hl⟩ := Option.isSome_iff_exists.mp hr
    cases l with
    | nil => exact Or.inr (Or.inl ⟨rfl, hl⟩)
    | cons m q =>
      left
      exact ⟨({ f with imu := some q }, .idle), by simp [mstep, hl],
        mk _ ⟨⟨rfl, rfl, rfl, rfl, fun _ => rfl, id⟩, rfl, hs.psd⟩ trivial⟩
  | popEnc =>
    obtain ⟨l, hl⟩ := Option.isSome_iff_exists.mp hr
    cases l with
    | nil => exact Or.inr (Or.inr ⟨rfl, hl⟩)
    | cons m q =>
      left
      exact ⟨({ f with enc := some q }, .idle), by simp [mstep, hl],
        mk _ ⟨⟨rfl, rfl, rfl, rfl, id, fun _ => rfl⟩, rfl, hs.psd⟩ trivial⟩
  | biasImu =>
    left
    obtain ⟨l, hl⟩ := Option.isSome_iff_exists.mp hr
    simp only [mstep, hl]
    cases l with
    | nil => exact ⟨_, rfl, refl _ trivial⟩
    | cons m q =>
      refine ⟨_, rfl, mk _ ⟨⟨rfl, rfl, rfl, rfl, fun _ => rfl, id⟩, rfl, hs.psd⟩ ?_⟩
      dsimp only
      split
      · trivial
      · rename_i g hg
        simp [Req, hg]
  | biasGyro =>
    left
    obtain ⟨l, hl⟩ := Option.isSome_iff_exists.mp hr
    simp only [mstep, hl]
    cases l with
    | nil => exact ⟨_, rfl, refl _ trivial⟩
    | cons m q => exact ⟨_, rfl, mk _ ⟨⟨rfl, rfl, rfl, rfl, id, id⟩, rfl, hs.psd⟩ trivial⟩
  | clrGyro =>
    left
    obtain ⟨l, hl⟩ := Option.isSome_iff_exists.mp hr
    have s0 : Same f { f with gyro := some [] } := ⟨⟨rfl, rfl, rfl, rfl, id, id⟩, rfl, hs.psd⟩
    exact ⟨_, by simp only [mstep, hl, Option.map_some], mk _ (s0.trans (clrPC_same _ s0.psd)) (clrPC_req (s0.need hm))⟩
  | clrImu =>
    left
    obtain ⟨l, hl⟩ := Option.isSome_iff_exists.mp hr
    have s0 : Same f { f with imu := some [] } := ⟨⟨rfl, rfl, rfl, rfl, fun _ => rfl, id⟩, rfl, hs.psd⟩
    exact ⟨_, by simp only [mstep, hl, Option.map_some], mk _ (s0.trans (endInit_same _ s0.psd)) (endInit_req (s0.need hm))⟩
  | clrImus i =>
    left
    refine ⟨_, rfl, ?_⟩
    split
    · exact mk _ ⟨⟨rfl, rfl, rfl, rfl, id, id⟩, rfl, hs.psd⟩ trivial
    · exact mk _ (endInit_same _ hs.psd) (endInit_req hm)
  | clrEnc =>
    left
    obtain ⟨l, hl⟩ := Option.isSome_iff_exists.mp hr
    refine ⟨({ f with enc := some [], initialized := true }, .idle), by simp only [mstep, hl, Option.map_some],
      mk _ ⟨⟨rfl, rfl, rfl, rfl, id, fun _ => rfl⟩, rfl, hs.psd⟩ trivial⟩

/-- an access of another thread -/
theorem GOk.app {f : GyroFilter} {pc : PC} (h : GOk f pc) (o : Op) : GOk (GyroThr.app o f) pc := by
  have s : Same f (GyroThr.app o f) := by
    cases o <;> exact ⟨⟨rfl, rfl, rfl, rfl, by simp [GyroThr.app], by simp [GyroThr.app]⟩, rfl, h.safe.psd⟩
  have hi : (GyroThr.app o f).initialized = f.initialized := app_init f
  refine ⟨h.safe.of_keeps s.toKeeps s.psd (chooseMethod_congr s.numImu s.numAngVel s.method) fun k => ?_,
    fun k => s.need (h.need k), h.req.mono s.imu s.enc ?_⟩
  · rw [hi] at k
    exact s.need (h.safe.method k)
  · cases o <;> simp [GyroThr.app]

/-- a section of `clear` -/
theorem GOk.clear {f f' : GyroFilter} {pc : PC} (h : GOk f pc) (s : Same f f') (hi : f'.initialized = f.initialized)
    (hg : f'.gyro = f.gyro) : GOk f' pc := by
  refine ⟨h.safe.of_keeps s.toKeeps s.psd (chooseMethod_congr s.numImu s.numAngVel s.method) fun k => ?_,
    fun k => s.need (h.need k), h.req.mono s.imu s.enc fun k => by rwa [hg]⟩
  rw [hi] at k
  exact s.need (h.safe.method k)

theorem act_gok {y y' : Sys} {a : Act} (h : GOk y.f y.pc) (hy : y.act a = some y') : GOk y'.f y'.pc := by
  obtain ⟨f, pc, cl⟩ := y
  cases a with
  | call =>
    simp only [Sys.act] at hy
    cases pc <;> simp only at hy <;> try (simp at hy; done)
    rw [Option.map_eq_some_iff] at hy
    obtain ⟨r, h1, rfl⟩ := hy
    obtain ⟨r', h2, h3⟩ := start_gok h.safe
    rw [h1] at h2
    obtain rfl := Option.some.inj h2
    exact h3
  | filter =>
    simp only [Sys.act, Option.map_eq_some_iff] at hy
    obtain ⟨r, h1, rfl⟩ := hy
    by_cases hp : pc = .idle
    · subst hp; simp [mstep] at h1
    rcases mstep_gok h hp with ⟨r', h2, h3⟩ | ⟨rfl, h2⟩ | ⟨rfl, h2⟩
    · dsimp only at h2
      rw [h1] at h2
      obtain rfl := Option.some.inj h2
      exact h3
    · simp only [mstep] at h1
      dsimp only at h2
      rw [h2] at h1
      simp at h1
    · simp only [mstep] at h1
      dsimp only at h2
      rw [h2] at h1
      simp at h1
  | ev o =>
    simp only [Sys.act] at hy
    cases hq : res o with
    | none => rw [hq] at hy; simp at hy
    | some q =>
      rw [hq] at hy
      dsimp only at hy
      rw [step_app hq] at hy
      obtain rfl := Option.some.inj hy
      exact h.app o
  | clear =>
    simp only [Sys.act] at hy
    cases cl <;> simp only [Option.map_eq_some_iff] at hy
    · obtain rfl := Option.some.inj hy
      exact h
    · obtain ⟨_, _, rfl⟩ := hy
      exact h.clear ⟨⟨rfl, rfl, rfl, rfl, fun _ => rfl, id⟩, rfl, h.safe.psd⟩ rfl rfl
    · obtain ⟨_, _, rfl⟩ := hy
      exact h.clear ⟨⟨rfl, rfl, rfl, rfl, id, fun _ => rfl⟩, rfl, h.safe.psd⟩ rfl rfl
    · obtain rfl := Option.some.inj hy
      exact h.clear ⟨⟨rfl, rfl, rfl, rfl, id, id⟩, rfl, h.safe.psd⟩ rfl rfl

theorem run_gok : ∀ (l : List Act) (y y' : Sys), GOk y.f y.pc → y.run l = some y' → GOk y'.f y'.pc
  | [], y, y', h, hr => by obtain rfl := Option.some.inj hr; exact h
  | a :: l, y, y', h, hr => by
    rw [Sys.run, Option.bind_eq_some_iff] at hr
    obtain ⟨z, h1, h2⟩ := hr
    exact run_gok l z y' (act_gok h h1) h2

/-! ### `clear` between two runs -/

/-- the queues `clear` has emptied after `k` steps -/
def cleared : ℕ → Option Q → Prop
  | 0, _ => False
  | 1, _ => False
  | 2, q => q = some .imu
  | 3, q => q = some .imu ∨ q = some .enc
  | _, _ => True

/-- its effect so far -/
def stage : ℕ → GyroFilter → GyroFilter
  | 0, f => f
  | 1, f => f
  | 2, f => { f with imu := some [] }
  | 3, f => { f with imu := some [], enc := some [] }
  | _, f => { f with imu := some [], enc := some [], out := [] }

/-- where the main thread is -/
def stageCl : ℕ → CPC
  | 0 => .no
  | 1 => .imu
  | 2 => .enc
  | 3 => .out
  | _ => .no

theorem stage_app {k : ℕ} {o : Op} {f : GyroFilter} (h : ¬ cleared k (res o)) :
    GyroThr.app o (stage k f) = stage k (GyroThr.app o f) := by
  rcases k with _ | _ | _ | _ | k
  · rfl
  · rfl
  · cases o <;> first | rfl | exact absurd rfl h
  · cases o <;> first | rfl | exact absurd (Or.inl rfl) h | exact absurd (Or.inr rfl) h
  · exact absurd trivial h

theorem stage_isSome {k : ℕ} {f : GyroFilter} : ((stage k f).imu.isSome ↔ (f.imu.isSome ∨ 2 ≤ k)) ∧
    ((stage k f).enc.isSome ↔ (f.enc.isSome ∨ 3 ≤ k)) := by
  rcases k with _ | _ | _ | _ | k <;> simp [stage]

theorem apps_isSome : ∀ (l : List Op) (f : GyroFilter), ((apps l f).imu.isSome ↔ f.imu.isSome) ∧
    ((apps l f).enc.isSome ↔ f.enc.isSome)
  | [], f => ⟨Iff.rfl, Iff.rfl⟩
  | o :: l, f => by
    rw [apps_cons]
    have := apps_isSome l (GyroThr.app o f)
    rw [this.1, this.2]
    cases o <;> simp [GyroThr.app]

/-- a `clear` in progress: begun at `fA`, `k` steps done, with the accesses `during` since -/
structure Clr (fA : GyroFilter) (k : ℕ) (f : GyroFilter) (during : List Op) (tk : List ImuMeas) (pre post : List Op) : Prop where
  eq : f = apps post (stage k (apps pre fA))
  order : SameOrder (pre ++ post) during
  vis : ∀ o ∈ pre ++ post, res o ≠ none
  done : ∀ o ∈ post, cleared k (res o)
  nopop : ∀ o ∈ post, isPop o = false
  imu : 2 ≤ k → fA.imu.isSome
  enc : 3 ≤ k → fA.enc.isSome
  tk : tk = takenIn fA pre

theorem nopop_count {l : List Op} (h : ∀ o ∈ l, isPop o = false) : l.countP isPop = 0 := by
  rw [List.countP_eq_zero]
  intro o ho
  simp [h o ho]

theorem stage_out {k : ℕ} (f : GyroFilter) : (stage k f).out = if k < 4 then f.out else [] := by
  rcases k with _ | _ | _ | _ | k <;> simp [stage]

theorem Clr.ev {fA f : GyroFilter} {k : ℕ} {during tk pre post} (h : Clr fA k f during tk pre post) {o : Op} {q : Q}
    (hr : res o = some q) (hf : finds f o = true) :
    ∃ pre' post', Clr fA k (GyroThr.app o f) (during ++ [o]) (tk ++ taken f o) pre' post' := by
  have hn : res o ≠ none := by rw [hr]; simp
  have hout : f.out = if k < 4 then (apps pre fA).out else [] := by
    rw [h.eq, apps_out, nopop_count h.nopop, List.drop_zero, stage_out]
  have vis' : ∀ x ∈ pre ++ post ++ [o], res x ≠ none := by
    intro x hx
    rcases List.mem_append.mp hx with hx | hx
    · exact h.vis x hx
    · rw [List.mem_singleton] at hx; rw [hx]; exact hn
  by_cases hc : cleared k (res o)
  · have ho : isPop o = false := by
      cases o <;> first
        | rfl
        | (exfalso
           simp only [finds] at hf
           rcases k with _ | _ | _ | _ | k
           · exact hc
           · exact hc
           · simp [cleared, res] at hc
           · simp [cleared, res] at hc
           · rw [hout] at hf; simp at hf)
    refine ⟨pre, post ++ [o], ?_, h.order.snoc, ?_, ?_, ?_, h.imu, h.enc, ?_⟩
    · rw [apps_append, ← h.eq]; rfl
    · rw [← List.append_assoc]; exact vis'
    · intro x hx
      rcases List.mem_append.mp hx with hx | hx
      · exact h.done x hx
      · rw [List.mem_singleton] at hx; rw [hx]; exact hc
    · intro x hx
      rcases List.mem_append.mp hx with hx | hx
      · exact h.nopop x hx
      · rw [List.mem_singleton] at hx; rw [hx]; exact ho
    · have : taken f o = [] := by cases o <;> first | rfl | simp [isPop] at ho
      rw [this, List.append_nil]; exact h.tk
  · have hd : ∀ x ∈ post, res o ≠ res x := fun x hx e => hc (by rw [e]; exact h.done x hx)
    refine ⟨pre ++ [o], post, ?_, h.order.insert hd, ?_, h.done, h.nopop, h.imu, h.enc, ?_⟩
    · rw [h.eq, apps_comm post _ hd, stage_app hc, apps_append]; rfl
    · intro x hx
      refine vis' x ?_
      simp only [List.mem_append] at hx ⊢
      tauto
    · have hv : ∀ x ∈ pre, res x ≠ none := fun x hx => h.vis x (by simp [hx])
      rw [takenIn_append pre [o] fA (apps pre fA) (apps_runOps pre fA hv), ← h.tk, takenIn, step_app hr]
      dsimp only
      rw [takenIn, List.append_nil]
      have hk : k < 4 := by
        by_contra hk
        obtain ⟨k', rfl⟩ : ∃ k', k = k' + 4 := ⟨k - 4, by omega⟩
        exact hc trivial
      rw [if_pos hk] at hout
      cases o <;> first | rfl | (simp only [taken, hout])

/-- the steps of `clear` with the accesses of other threads in between -/
theorem clr_run {fA : GyroFilter} : ∀ (l : List Act) (y y' : Sys) (k : ℕ) (during : List Op) (tk : List ImuMeas) (pre post : List Op),
    Clr fA k y.f during tk pre post → y.cl = stageCl k → y.run l = some y' → (∀ a ∈ l, a.isCall = false ∧ a.isFilter = false) →
    k + l.countP Act.isClear ≤ 4 →
    ∃ pre' post', Clr fA (k + l.countP Act.isClear) y'.f (during ++ accesses (trace y l)) (tk ++ takenBy y l) pre' post' ∧
      y'.cl = stageCl (k + l.countP Act.isClear) ∧ y'.pc = y.pc
  | [], y, y', k, during, tk, pre, post, h, hcl, hr, _, _ => by
    obtain rfl := Option.some.inj hr
    exact ⟨pre, post, by simpa [trace, accesses, takenBy] using h, hcl, rfl⟩
  | a :: l, y, y', k, during, tk, pre, post, h, hcl, hr, ha, hk => by
    rw [Sys.run, Option.bind_eq_some_iff] at hr
    obtain ⟨z, h1, h2⟩ := hr
    have ha' := fun x hx => ha x (List.mem_cons_of_mem a hx)
    have h1' := h1
    obtain ⟨f, pc, cl⟩ := y
    have acc : ∀ ms ms' : List Mark, accesses (ms ++ ms') = accesses ms ++ accesses ms' := by
      intro ms ms'
      induction ms with
      | nil => rfl
      | cons m ms ih => cases m <;> simp [accesses, ih]
    cases a with
    | call => exact absurd (ha _ List.mem_cons_self).1 (by simp [Act.isCall])
    | filter => exact absurd (ha _ List.mem_cons_self).2 (by simp [Act.isFilter])
    | ev o =>
      simp only [Sys.act] at h1
      cases hq : res o with
      | none => rw [hq] at h1; simp at h1
      | some q =>
        rw [hq] at h1
        dsimp only at h1
        rw [step_app hq] at h1
        obtain rfl := Option.some.inj h1
        have hc : (Act.ev o :: l).countP Act.isClear = l.countP Act.isClear := by simp [Act.isClear]
        rw [hc] at hk ⊢
        rw [trace, takenBy, h1']
        dsimp only [mark, takenAt] at h ⊢
        cases hf : finds f o with
        | false =>
          have ho : o = .popOut := by
            cases o <;> first | rfl | simp [finds] at hf
          subst ho
          have hout : f.out = [] := by simpa [finds] using hf
          have e : GyroThr.app .popOut f = f := by
            obtain ⟨_⟩ := f
            simp only at hout
            subst hout
            rfl
          have := clr_run l ⟨GyroThr.app .popOut f, pc, cl⟩ y' k during tk pre post (by rw [e]; exact h) hcl h2 ha' hk
          simpa [taken, hout] using this
        | true =>
          rw [if_pos rfl]
          obtain ⟨pre', post', h3⟩ := h.ev hq hf
          have := clr_run l ⟨GyroThr.app o f, pc, cl⟩ y' k _ _ pre' post' h3 hcl h2 ha' hk
          simpa [accesses] using this
    | clear =>
      have hc : (Act.clear :: l).countP Act.isClear = l.countP Act.isClear + 1 := List.countP_cons_of_pos rfl
      rw [hc] at hk ⊢
      have key : Clr fA (k + 1) z.f during tk pre post ∧ z.cl = stageCl (k + 1) ∧ z.pc = pc := by
        simp only [Sys.act] at h1
        dsimp only at hcl
        subst hcl
        have hpop := nopop_count h.nopop
        rcases k with _ | _ | _ | _ | k
        · obtain rfl := Option.some.inj h1
          exact ⟨⟨h.eq, h.order, h.vis, h.done, h.nopop, by omega, by omega, h.tk⟩, rfl, rfl⟩
        · have hp0 : post = [] := List.eq_nil_iff_forall_not_mem.mpr fun o ho => h.done o ho
          simp only [stageCl, Option.map_eq_some_iff] at h1
          obtain ⟨I, hI, rfl⟩ := h1
          subst hp0
          have he := h.eq
          dsimp only at he hI
          refine ⟨⟨?_, h.order, h.vis, by simp, h.nopop, fun _ => ?_, by omega, h.tk⟩, rfl, rfl⟩
          · dsimp only
            rw [he]; rfl
          · rw [← (apps_isSome pre fA).1]
            have : (apps pre fA).imu = some I := by rw [← hI, he]; rfl
            rw [this]; rfl
        · simp only [stageCl, Option.map_eq_some_iff] at h1
          obtain ⟨E, hE, rfl⟩ := h1
          have he := h.eq
          dsimp only at he hE
          have hse : f.enc.isSome := by rw [hE]; rfl
          rw [he, (apps_isSome _ _).2, stage_isSome.2, (apps_isSome _ _).2] at hse
          refine ⟨⟨?_, h.order, h.vis, fun o ho => Or.inl (h.done o ho), h.nopop, fun _ => h.imu (by omega),
            fun _ => by rcases hse with hse | hse; exact hse; omega, h.tk⟩, rfl, rfl⟩
          dsimp only
          rw [he]
          have : ∀ (l : List Op) (g : GyroFilter), (∀ o ∈ l, cleared 2 (res o)) →
              ({ apps l g with enc := some [] } : GyroFilter) = apps l { g with enc := some [] } := by
            intro l
            induction l with
            | nil => intro g _; rfl
            | cons o l ih =>
              intro g hl
              rw [apps_cons, ih _ fun o ho => hl o (List.mem_cons_of_mem _ ho), apps_cons]
              have := hl o List.mem_cons_self
              cases o <;> first | rfl | simp [cleared, res] at this
          exact this post _ h.done
        · obtain rfl := Option.some.inj h1
          have he := h.eq
          dsimp only at he
          refine ⟨⟨?_, h.order, h.vis, fun o ho => trivial, h.nopop, fun _ => h.imu (by omega),
            fun _ => h.enc (by omega), h.tk⟩, rfl, rfl⟩
          dsimp only
          rw [he]
          have : ∀ (l : List Op) (g : GyroFilter), (∀ o ∈ l, isPop o = false) →
              ({ apps l g with out := [] } : GyroFilter) = apps l { g with out := [] } := by
            intro l
            induction l with
            | nil => intro g _; rfl
            | cons o l ih =>
              intro g hl
              rw [apps_cons, ih _ fun o ho => hl o (List.mem_cons_of_mem _ ho), apps_cons]
              have := hl o List.mem_cons_self
              cases o <;> first | rfl | simp [isPop] at this
          exact this post _ h.nopop
        · omega
      obtain ⟨pre', post', h3, h4, h5⟩ := clr_run l z y' (k + 1) during tk pre post key.1 key.2.1 h2 ha' (by omega)
      refine ⟨pre', post', ?_, ?_, by rw [h5, key.2.2]⟩
      · rw [trace, takenBy, h1']
        simp only [mark, takenAt, List.nil_append]
        rwa [show k + (l.countP Act.isClear + 1) = k + 1 + l.countP Act.isClear by omega]
      · rwa [show k + (l.countP Act.isClear + 1) = k + 1 + l.countP Act.isClear by omega]

end GyroThr
end Drift
