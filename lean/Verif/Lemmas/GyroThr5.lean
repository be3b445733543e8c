import Verif.Lemmas.GyroThr4

/-!
# The gyro filter thread: executions
-/
namespace Drift
open GyroFilter
namespace GyroThr

theorem run_append : ∀ (l l' : List Act) (y : Sys), y.run (l ++ l') = (y.run l).bind fun y' => y'.run l'
  | [], _, _ => rfl
  | a :: l, l', y => by
    rw [List.cons_append, Sys.run, Sys.run]
    cases y.act a with
    | none => rfl
    | some y' => exact run_append l l' y'

theorem trace_append : ∀ (l l' : List Act) (y y' : Sys), y.run l = some y' → trace y (l ++ l') = trace y l ++ trace y' l'
  | [], _, y, y', h => by obtain rfl := Option.some.inj h; rfl
  | a :: l, l', y, y', h => by
    rw [Sys.run, Option.bind_eq_some_iff] at h
    obtain ⟨z, h1, h2⟩ := h
    rw [List.cons_append, trace, trace, h1]
    dsimp only
    rw [trace_append l l' z y' h2, List.append_assoc]

theorem takenBy_append : ∀ (l l' : List Act) (y y' : Sys), y.run l = some y' →
    takenBy y (l ++ l') = takenBy y l ++ takenBy y' l'
  | [], _, y, y', h => by obtain rfl := Option.some.inj h; rfl
  | a :: l, l', y, y', h => by
    rw [Sys.run, Option.bind_eq_some_iff] at h
    obtain ⟨z, h1, h2⟩ := h
    rw [List.cons_append, takenBy, takenBy, h1]
    dsimp only
    rw [takenBy_append l l' z y' h2, List.append_assoc]

theorem Explains.append {e e' : List Op} {m m' : List Mark} (h : Explains e m) (h' : Explains e' m') :
    Explains (e ++ e') (m ++ m') := by
  induction h with
  | nil => exact h'
  | ev ho _ ih => exact .ev ho ih
  | @call pre post during evs ms hd hn _ ih =>
    rw [List.append_assoc, List.append_assoc]
    have := Explains.call hd hn ih
    simpa using this

/-- what is known of an execution -/
inductive Sim (f₀ : GyroFilter) : GyroFilter → PC → List Mark → List ImuMeas → Prop
  | idle {evs f ms} (he : Explains evs ms) (hr : runOps evs f₀ = some f) : Sim f₀ f .idle ms (takenIn f₀ evs)
  | mid {evs fA f pc ms during tk pre post g} (he : Explains evs ms) (hr : runOps evs f₀ = some fA) (hp : pc ≠ .idle)
      (hm : Mid fA f pc during tk pre post g) : Sim f₀ f pc (ms ++ .call :: during.map .ev) (takenIn f₀ evs ++ tk)

theorem sim_ret {f₀ fA f g : GyroFilter} {evs ms during tk pre post} (he : Explains evs ms) (hr : runOps evs f₀ = some fA)
    (hm : Mid fA f .idle during tk pre post g) :
    Sim f₀ f .idle (ms ++ .call :: during.map .ev ++ [.ret]) (takenIn f₀ evs ++ tk) := by
  obtain ⟨h1, h2⟩ := hm.ret
  have e1 : Explains (evs ++ (pre ++ .run :: post ++ [])) (ms ++ (.call :: during.map .ev ++ .ret :: [])) :=
    he.append (.call hm.order hm.vis .nil)
  rw [List.append_nil] at e1
  have e2 : runOps (evs ++ (pre ++ .run :: post)) f₀ = some f := by rw [runOps_append, hr]; exact h1
  have := Sim.idle e1 e2
  rw [takenIn_append evs _ f₀ fA hr, h2] at this
  simpa using this

theorem isIdle_iff {pc : PC} : pc.isIdle = true ↔ pc = .idle := by
  cases pc <;> simp [PC.isIdle]

theorem Sim.act {f₀ : GyroFilter} {y y' : Sys} {ms : List Mark} {tk : List ImuMeas} (h : Sim f₀ y.f y.pc ms tk) {a : Act}
    (ha : a.isClear = false) (hy : y.act a = some y') : Sim f₀ y'.f y'.pc (ms ++ mark y a) (tk ++ takenAt y a) := by
  cases a with
  | clear => simp [Act.isClear] at ha
  | call =>
    obtain ⟨f, pc, cl⟩ := y
    have hy' := hy
    simp only [Sys.act] at hy
    cases pc <;> simp only at hy <;> try (simp at hy; done)
    rw [Option.map_eq_some_iff] at hy
    obtain ⟨⟨g, pc⟩, h1, rfl⟩ := hy
    simp only [mark, hy', takenAt, List.append_nil]
    dsimp only at h ⊢
    generalize hpc : PC.idle = q at h
    cases h with
    | mid he hr hp hm => exact absurd hpc.symm hp
    | idle he hr =>
      have hm := Mid.call h1
      by_cases hi : pc = .idle
      · subst hi
        have := sim_ret he hr hm
        simpa [PC.isIdle] using this
      · have hi' : pc.isIdle = false := by
          cases h : pc.isIdle with
          | false => rfl
          | true => exact absurd (isIdle_iff.mp h) hi
        rw [hi']
        have := Sim.mid he hr hi hm
        simpa using this
  | filter =>
    obtain ⟨f, pc, cl⟩ := y
    have hy' := hy
    simp only [Sys.act, Option.map_eq_some_iff] at hy
    obtain ⟨⟨g, pc'⟩, h1, rfl⟩ := hy
    simp only [mark, hy', takenAt, List.append_nil]
    dsimp only at h ⊢
    cases h with
    | idle he hr => simp [mstep] at h1
    | mid he hr hp hm =>
      obtain ⟨g', hm'⟩ := hm.step h1
      by_cases hi : pc' = .idle
      · subst hi
        have := sim_ret he hr hm'
        simpa [PC.isIdle] using this
      · have hi' : pc'.isIdle = false := by
          cases h : pc'.isIdle with
          | false => rfl
          | true => exact absurd (isIdle_iff.mp h) hi
        rw [hi']
        have := Sim.mid he hr hi hm'
        simpa using this
  | ev o =>
    obtain ⟨f, pc, cl⟩ := y
    simp only [Sys.act] at hy
    cases hq : res o with
    | none => rw [hq] at hy; simp at hy
    | some q =>
      rw [hq] at hy
      dsimp only at hy
      rw [step_app hq] at hy
      obtain rfl := Option.some.inj hy
      simp only [mark, takenAt]
      dsimp only at h ⊢
      cases hf : finds f o with
      | false =>
        have ho : o = .popOut := by
          cases o <;> first | rfl | simp [finds] at hf
        subst ho
        have hout : f.out = [] := by simpa [finds] using hf
        have e : GyroThr.app .popOut f = f := by
          obtain ⟨_⟩ := f
          simp only at hout
          subst hout
          rfl
        rw [e]
        simpa [taken, hout] using h
      | true =>
        rw [if_pos rfl]
        cases h with
        | @idle evs _ ms he hr =>
          have e1 : Explains (evs ++ [o]) (ms ++ [.ev o]) := he.append (.ev (by rw [hq]; simp) .nil)
          have e2 : runOps (evs ++ [o]) f₀ = some (GyroThr.app o f) := by
            rw [runOps_append, hr, Option.bind_some, runOps, step_app hq]; rfl
          have := Sim.idle e1 e2
          rw [takenIn_append evs _ f₀ f hr] at this
          simp only [takenIn, step_app hq, List.append_nil] at this
          exact this
        | @mid evs fA _ _ ms during tk pre post g he hr hp hm =>
          obtain ⟨pre', post', g', hm'⟩ := hm.ev hq hf
          have := Sim.mid he hr hp hm'
          simpa [List.append_assoc] using this

theorem sim_run {f₀ : GyroFilter} : ∀ (l : List Act) (y y' : Sys) (ms : List Mark) (tk : List ImuMeas), Sim f₀ y.f y.pc ms tk →
    (∀ a ∈ l, a.isClear = false) → y.run l = some y' → Sim f₀ y'.f y'.pc (ms ++ trace y l) (tk ++ takenBy y l)
  | [], y, y', ms, tk, h, _, hr => by
    obtain rfl := Option.some.inj hr
    simpa [trace, takenBy] using h
  | a :: l, y, y', ms, tk, h, hc, hr => by
    rw [Sys.run, Option.bind_eq_some_iff] at hr
    obtain ⟨z, h1, h2⟩ := hr
    have := sim_run l z y' _ _ (h.act (hc a List.mem_cons_self) h1) (fun x hx => hc x (List.mem_cons_of_mem _ hx)) h2
    rw [trace, takenBy, h1]
    dsimp only
    rw [← List.append_assoc, ← List.append_assoc]
    exact this

theorem sim_init {f₀ : GyroFilter} (l : List Act) (y : Sys) (hc : ∀ a ∈ l, a.isClear = false)
    (hr : (Sys.init f₀).run l = some y) : Sim f₀ y.f y.pc (trace (.init f₀) l) (takenBy (.init f₀) l) := by
  have h0 : Sim f₀ (Sys.init f₀).f (Sys.init f₀).pc [] [] := Sim.idle (evs := []) .nil rfl
  simpa using sim_run l _ y [] [] h0 hc hr

/-! ### number of steps -/

/-- a bound on the sections left, with `n` further IMU queues -/
def rank (n : ℕ) : PC → ℕ
  | .idle => 0
  | .gyroProp => 2 * n + 5
  | .imuSingle => 2
  | .imuMulti i _ => 2 * (n - i) + 1
  | .frontImu => 4
  | .frontEnc _ => 3
  | .encOnly => 3
  | .push _ k => rank n k + 1
  | .popImu => 1
  | .popEnc => 1
  | .biasImu => 2
  | .biasGyro => 1
  | .clrGyro => n + 4
  | .clrImu => 2
  | .clrImus i => n - i + 2
  | .clrEnc => 1

theorem corrPC_rank (n : ℕ) (m : FMethod) : rank n (corrPC m) ≤ 2 * n + 4 := by
  cases m <;> simp [corrPC, rank] <;> omega

theorem endInit_rank (n : ℕ) (f : GyroFilter) : rank n (endInit f).2 ≤ 1 ∧ (endInit f).1.imus = f.imus := by
  unfold endInit
  cases f.method <;> simp [rank]

theorem clrPC_rank (n : ℕ) (f : GyroFilter) : rank n (clrPC f).2 ≤ n + 3 ∧ (clrPC f).1.imus = f.imus := by
  unfold clrPC
  have := endInit_rank n f
  cases f.method <;> simp [rank, this.2] <;> omega

theorem propagate_imus (f : GyroFilter) : f.propagate.imus = f.imus := by
  unfold propagate
  dsimp only
  split <;> rfl

theorem start_rank {f : GyroFilter} {r : GyroFilter × PC} (h : start f = some r) :
    rank f.imus.length r.2 ≤ 2 * f.imus.length + 5 ∧ r.1.imus = f.imus := by
  unfold start at h
  split at h
  · split at h
    · obtain rfl := Option.some.inj h
      have := corrPC_rank f.imus.length f.method
      exact ⟨by dsimp only; omega, propagate_imus f⟩
    · obtain rfl := Option.some.inj h
      exact ⟨le_rfl, rfl⟩
  · unfold startInit at h
    split at h
    · rw [Option.bind_eq_some_iff] at h
      obtain ⟨n, _, h⟩ := h
      split at h
      · obtain rfl := Option.some.inj h
        exact ⟨by simp [rank], rfl⟩
      · split at h
        · simp at h
        · obtain rfl := Option.some.inj h
          unfold clrStart
          split
          · have := clrPC_rank f.imus.length
              { f with method := f.chooseMethod, x := join 0 (mean f.biasVec) }
            exact ⟨this.1.trans (by omega), this.2⟩
          · exact ⟨by simp [rank]; omega, rfl⟩
    · obtain rfl := Option.some.inj h
      exact ⟨by simp [rank], rfl⟩

theorem use_rank {f : GyroFilter} {n : ℕ} {m : ImuMeas} {r} (h : useImu f m = some r) :
    rank n r.2 ≤ 2 ∧ r.1.imus = f.imus := by
  unfold useImu at h
  dsimp only at h
  split at h
  · rw [Option.map_eq_some_iff] at h
    obtain ⟨x, hx, rfl⟩ := h
    obtain ⟨a, b, e⟩ := correctImu_frame hx
    exact ⟨by simp [rank], by rw [e]⟩
  · obtain rfl := Option.some.inj h
    exact ⟨by simp [rank], rfl⟩

theorem useEnc_rank {f : GyroFilter} {n : ℕ} {a : AngVelMeas} {r} (h : useEnc f a = some r) :
    rank n r.2 ≤ 2 ∧ r.1.imus = f.imus := by
  unfold useEnc at h
  split at h
  · obtain rfl := Option.some.inj h
    exact ⟨by simp [rank], rfl⟩
  · split at h
    · rw [Option.map_eq_some_iff] at h
      obtain ⟨x, hx, rfl⟩ := h
      obtain ⟨x1, b, e⟩ := correctEnc_frame hx
      exact ⟨by simp [rank], by rw [e]⟩
    · obtain rfl := Option.some.inj h
      exact ⟨by simp [rank], rfl⟩

theorem mstep_rank {f : GyroFilter} {pc : PC} {r : GyroFilter × PC} (h : mstep f pc = some r) :
    rank f.imus.length r.2 < rank f.imus.length pc ∧ r.1.imus.length = f.imus.length := by
  cases pc with
  | idle => simp [mstep] at h
  | gyroProp =>
    simp only [mstep, Option.map_eq_some_iff] at h
    obtain ⟨_, _, rfl⟩ := h
    have := corrPC_rank f.imus.length f.method
    exact ⟨by simp only [rank]; omega, by rw [propagate_imus]⟩
  | imuSingle =>
    simp only [mstep] at h
    split at h
    · simp at h
    · obtain rfl := Option.some.inj h; simp [rank]
    · split at h
      · rw [Option.map_eq_some_iff] at h
        obtain ⟨x, hx, rfl⟩ := h
        obtain ⟨a, b, e⟩ := correctImu_frame hx
        exact ⟨by simp [rank], by rw [e]⟩
      · obtain rfl := Option.some.inj h; simp [rank]
  | imuMulti i fused =>
    simp only [mstep] at h
    rcases hi : f.imus[i]? with _ | ⟨_ | ⟨m, l⟩⟩
    · rw [hi] at h; obtain rfl := Option.some.inj h; simp [rank]
    · rw [hi] at h; obtain rfl := Option.some.inj h
      obtain ⟨hlt, _⟩ := List.getElem?_eq_some_iff.mp hi
      exact ⟨by simp only [rank]; omega, rfl⟩
    · obtain ⟨hlt, _⟩ := List.getElem?_eq_some_iff.mp hi
      rw [hi] at h
      dsimp only at h
      split at h
      · rw [Option.map_eq_some_iff] at h
        obtain ⟨x, hx, rfl⟩ := h
        obtain ⟨a, b, e⟩ := correctImu_frame hx
        exact ⟨by simp only [rank]; omega, by rw [e]; simp⟩
      · cases fused with
        | none =>
          obtain rfl := Option.some.inj h
          exact ⟨by simp only [rank]; omega, by simp⟩
        | some o =>
          obtain rfl := Option.some.inj h
          exact ⟨by simp only [rank]; omega, by simp⟩
  | frontImu =>
    simp only [mstep, Option.map_eq_some_iff] at h
    obtain ⟨l, hl, rfl⟩ := h
    simp [rank]
  | frontEnc m =>
    simp only [mstep, Option.bind_eq_some_iff] at h
    obtain ⟨E, hE, h⟩ := h
    have key : rank f.imus.length r.2 ≤ 2 ∧ r.1.imus = f.imus := by
      cases m with
      | none => cases hh : E.head? with
        | none => rw [hh] at h; obtain rfl := Option.some.inj h; simp [rank]
        | some a => rw [hh] at h; exact useEnc_rank h
      | some m => cases hh : E.head? with
        | none => rw [hh] at h; exact use_rank h
        | some a =>
          rw [hh] at h
          simp only [choose] at h
          split at h
          · exact use_rank h
          · exact useEnc_rank h
    exact ⟨by simp only [rank]; omega, by rw [key.2]⟩
  | encOnly =>
    simp only [mstep] at h
    split at h
    · simp at h
    · obtain rfl := Option.some.inj h; simp [rank]
    · split at h
      · obtain rfl := Option.some.inj h; simp [rank]
      · rw [Option.map_eq_some_iff] at h
        obtain ⟨x, hx, rfl⟩ := h
        obtain ⟨x1, b, e⟩ := correctEnc_frame hx
        exact ⟨by simp [rank], by rw [e]⟩
  | push o k =>
    obtain rfl := Option.some.inj h
    exact ⟨by simp [rank], rfl⟩
  | popImu =>
    simp only [mstep] at h
    split at h
    · obtain rfl := Option.some.inj h; simp [rank]
    · simp at h
  | popEnc =>
    simp only [mstep] at h
    split at h
    · obtain rfl := Option.some.inj h; simp [rank]
    · simp at h
  | biasImu =>
    simp only [mstep] at h
    split at h
    · simp at h
    · obtain rfl := Option.some.inj h; simp [rank]
    · obtain rfl := Option.some.inj h
      refine ⟨?_, rfl⟩
      dsimp only
      split <;> simp [rank]
  | biasGyro =>
    simp only [mstep] at h
    split at h
    · simp at h
    · obtain rfl := Option.some.inj h; simp [rank]
    · obtain rfl := Option.some.inj h; simp [rank]
  | clrGyro =>
    simp only [mstep, Option.map_eq_some_iff] at h
    obtain ⟨l, hl, rfl⟩ := h
    have := clrPC_rank f.imus.length { f with gyro := some [] }
    exact ⟨by simp only [rank]; omega, by rw [this.2]⟩
  | clrImu =>
    simp only [mstep, Option.map_eq_some_iff] at h
    obtain ⟨l, hl, rfl⟩ := h
    have := endInit_rank f.imus.length { f with imu := some [] }
    exact ⟨by simp only [rank]; omega, by rw [this.2]⟩
  | clrImus i =>
    obtain rfl := Option.some.inj h
    split
    · exact ⟨by simp only [rank]; omega, by simp⟩
    · have := endInit_rank f.imus.length f
      exact ⟨by simp only [rank]; omega, by rw [this.2]⟩
  | clrEnc =>
    simp only [mstep, Option.map_eq_some_iff] at h
    obtain ⟨l, hl, rfl⟩ := h
    simp [rank]

theorem steps_bound (n : ℕ) : ∀ (l : List Act) (y y' : Sys), y.run l = some y' → y.f.imus.length = n →
    l.countP Act.isFilter + rank n y'.pc ≤ rank n y.pc + (2 * n + 5) * l.countP Act.isCall ∧ y'.f.imus.length = n
  | [], y, y', h, hn => by obtain rfl := Option.some.inj h; simp [hn]
  | a :: l, y, y', h, hn => by
    rw [Sys.run, Option.bind_eq_some_iff] at h
    obtain ⟨z, h1, h2⟩ := h
    have step : z.f.imus.length = n ∧ (if a.isFilter then 1 else 0) + rank n z.pc ≤
        rank n y.pc + (2 * n + 5) * (if a.isCall then 1 else 0) := by
      obtain ⟨f, pc, cl⟩ := y
      cases a with
      | call =>
        simp only [Sys.act] at h1
        cases pc <;> simp only at h1 <;> try (simp at h1; done)
        rw [Option.map_eq_some_iff] at h1
        obtain ⟨r, hr, rfl⟩ := h1
        have := start_rank hr
        dsimp only at hn ⊢
        rw [hn] at this
        exact ⟨by rw [this.2, hn], by simp [Act.isFilter, Act.isCall]; omega⟩
      | filter =>
        simp only [Sys.act, Option.map_eq_some_iff] at h1
        obtain ⟨r, hr, rfl⟩ := h1
        have := mstep_rank hr
        dsimp only at hn ⊢
        rw [hn] at this
        exact ⟨this.2, by simp [Act.isFilter, Act.isCall]; omega⟩
      | ev o =>
        simp only [Sys.act] at h1
        cases hq : res o with
        | none => rw [hq] at h1; simp at h1
        | some q =>
          rw [hq] at h1
          dsimp only at h1
          rw [step_app hq] at h1
          obtain rfl := Option.some.inj h1
          refine ⟨?_, by simp [Act.isFilter, Act.isCall]⟩
          dsimp only at hn ⊢
          cases o <;> simpa [GyroThr.app] using hn
      | clear =>
        simp only [Sys.act] at h1
        cases cl <;> simp only [Option.map_eq_some_iff] at h1
        · obtain rfl := Option.some.inj h1
          exact ⟨hn, by simp [Act.isFilter, Act.isCall]⟩
        · obtain ⟨_, _, rfl⟩ := h1
          exact ⟨hn, by simp [Act.isFilter, Act.isCall]⟩
        · obtain ⟨_, _, rfl⟩ := h1
          exact ⟨hn, by simp [Act.isFilter, Act.isCall]⟩
        · obtain rfl := Option.some.inj h1
          exact ⟨hn, by simp [Act.isFilter, Act.isCall]⟩
    obtain ⟨h3, h4⟩ := steps_bound n l z y' h2 step.1
    refine ⟨?_, h4⟩
    rw [List.countP_cons, List.countP_cons, Nat.mul_add]
    have := step.2
    omega

end GyroThr
end Drift
