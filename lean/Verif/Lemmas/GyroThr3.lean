import Verif.Lemmas.GyroThr2

/-!
# The gyro filter thread: every queue is looked at once per run
-/
namespace Drift
open GyroFilter
namespace GyroThr

/-- the queues a correction method looks at -/
def methodQ : FMethod → Q → Prop
  | .imuPlusAngVel, q => q = .imu ∨ q = .enc
  | .singleImu, q => q = .imu
  | .multiImu, q => ∃ i, q = .imus i
  | .angVel, q => q = .enc
  | .invalid, _ => False

/-- the queues at which the rest of the run may look -/
def Fut (mth : FMethod) : PC → Q → Prop
  | .idle, _ => False
  | .gyroProp, q => q = .gyro ∨ methodQ mth q
  | .imuSingle, q => q = .imu
  | .imuMulti i _, q => ∃ j, i ≤ j ∧ q = .imus j
  | .frontImu, q => q = .imu ∨ q = .enc
  | .frontEnc _, q => q = .enc
  | .encOnly, q => q = .enc
  | .push _ k, q => Fut mth k q
  | .popImu, _ => False
  | .popEnc, _ => False
  | .biasImu, q => q = .imu ∨ q = .gyro
  | .biasGyro, q => q = .gyro
  | .clrGyro, q => q = .gyro ∨ methodQ mth q
  | .clrImu, q => q = .imu ∨ (q = .enc ∧ mth = .imuPlusAngVel)
  | .clrImus i, q => mth = .multiImu ∧ ∃ j, i ≤ j ∧ q = .imus j
  | .clrEnc, q => q = .enc

theorem corrPC_fut {mth : FMethod} {q : Q} (h : Fut mth (corrPC mth) q) : methodQ mth q := by
  cases mth <;> first
    | exact h
    | (obtain ⟨j, _, e⟩ := h; exact ⟨j, e⟩)

/-- where the emptying of queues may go -/
def ClrOk : PC → GyroFilter → Prop
  | .clrImu, f => f.method = .imuPlusAngVel ∨ f.method = .singleImu
  | .clrImus _, f => f.method = .multiImu
  | .push _ k, f => ClrOk k f
  | _, _ => True

theorem push_ok (o : ImuMeas) (f : GyroFilter) : ∀ k : PC, (NE k f → NE k (f.push o)) ∧ (NS k f → NS k (f.push o)) ∧
    (ClrOk k f → ClrOk k (f.push o))
  | .push _ k => push_ok o f k
  | .frontEnc none => ⟨id, id, id⟩
  | .frontEnc (some _) => ⟨id, id, id⟩
  | .idle | .gyroProp | .imuSingle | .imuMulti _ _ | .frontImu | .encOnly | .popImu | .popEnc | .biasImu | .biasGyro
  | .clrGyro | .clrImu | .clrImus _ | .clrEnc => ⟨id, id, id⟩

theorem endInit_fut {f : GyroFilter} : (endInit f).1.method = f.method ∧ (endInit f).1.out = f.out ∧
    ∀ q, Fut f.method (endInit f).2 q → q = .enc ∧ (f.method = .imuPlusAngVel ∨ f.method = .angVel) := by
  unfold endInit
  cases hm : f.method <;> simp [Fut, hm]

theorem clrPC_fut {f : GyroFilter} : (clrPC f).1.method = f.method ∧ (clrPC f).1.out = f.out ∧
    ClrOk (clrPC f).2 (clrPC f).1 ∧ ∀ q, Fut f.method (clrPC f).2 q → methodQ f.method q := by
  unfold clrPC
  cases hm : f.method
  · refine ⟨hm, rfl, Or.inl hm, ?_⟩
    intro q h
    rcases h with h | h
    · exact Or.inl h
    · exact Or.inr h.1
  · refine ⟨hm, rfl, Or.inr hm, ?_⟩
    intro q h
    rcases h with h | h
    · exact h
    · exact absurd h.2 (by simp)
  · refine ⟨hm, rfl, hm, ?_⟩
    rintro q ⟨_, j, _, h⟩
    exact ⟨j, h⟩
  · dsimp only
    obtain ⟨h1, h2, h3⟩ := @endInit_fut f
    refine ⟨h1.trans hm, h2, ?_, ?_⟩
    · unfold endInit; rw [hm]; trivial
    · intro q h; rw [hm] at h3; exact (h3 q h).1
  · dsimp only
    obtain ⟨h1, h2, h3⟩ := @endInit_fut f
    refine ⟨h1.trans hm, h2, ?_, ?_⟩
    · unfold endInit; rw [hm]; trivial
    · intro q h; rw [hm] at h3; exact absurd (h3 q h).2 (by simp)

theorem correctImu_frame {f : GyroFilter} {m : ImuMeas} {r : ImuMeas × GyroFilter} (hc : f.correctImu m = some r) :
    ∃ x P, r.2 = { f with x := x, P := P } := by
  unfold correctImu at hc
  rw [Option.map_eq_some_iff] at hc
  obtain ⟨g, hg, rfl⟩ := hc
  unfold kalman at hg
  dsimp only at hg
  split at hg
  · simp at hg
  · obtain rfl := Option.some.inj hg
    exact ⟨_, _, rfl⟩

theorem correctEnc_frame {f : GyroFilter} {m : ImuMeas} {a : AngVelMeas} {r : ImuMeas × GyroFilter}
    (hc : f.correctEnc m a = some r) : ∃ x P, r.2 = { f with x := x, P := P } := by
  unfold correctEnc at hc
  rw [Option.map_eq_some_iff] at hc
  obtain ⟨g, hg, rfl⟩ := hc
  unfold kalman at hg
  dsimp only at hg
  split at hg
  · simp at hg
  · obtain rfl := Option.some.inj hg
    exact ⟨_, _, rfl⟩

/-- what a section (or the beginning) leaves behind -/
structure Next (f : GyroFilter) (r : GyroFilter × PC) (P : Q → Prop) : Prop where
  method : r.1.method = f.method
  out : f.out <+: r.1.out
  fut : ∀ q, Fut f.method r.2 q → P q
  ne : NE r.2 r.1
  ns : NS r.2 r.1
  ok : ClrOk r.2 r.1

theorem useImu_next {f : GyroFilter} {m : ImuMeas} {l : List ImuMeas} {r} (hi : f.imu = some (m :: l))
    (h : useImu f m = some r) (P : Q → Prop) : Next f r P := by
  unfold useImu at h
  dsimp only at h
  split at h
  · rw [Option.map_eq_some_iff] at h
    obtain ⟨x, hx, rfl⟩ := h
    obtain ⟨a, b, e⟩ := correctImu_frame hx
    refine ⟨by rw [e], by rw [e], fun q hq => hq.elim, ⟨m, l, by rw [e]; exact hi⟩, trivial, trivial⟩
  · obtain rfl := Option.some.inj h
    exact ⟨rfl, List.prefix_rfl, fun q hq => hq.elim, ⟨m, l, hi⟩, trivial, trivial⟩

theorem useEnc_next {f : GyroFilter} {a : AngVelMeas} {l : List AngVelMeas} {r} (hi : f.enc = some (a :: l))
    (h : useEnc f a = some r) (P : Q → Prop) : Next f r P := by
  unfold useEnc at h
  split at h
  · obtain rfl := Option.some.inj h
    exact ⟨rfl, List.prefix_rfl, fun q hq => hq.elim, ⟨a, l, hi⟩, trivial, trivial⟩
  · split at h
    · rw [Option.map_eq_some_iff] at h
      obtain ⟨x, hx, rfl⟩ := h
      obtain ⟨x1, b, e⟩ := correctEnc_frame hx
      refine ⟨by rw [e], by rw [e], fun q hq => hq.elim, ⟨a, l, by rw [e]; exact hi⟩, trivial, trivial⟩
    · obtain rfl := Option.some.inj h
      exact ⟨rfl, List.prefix_rfl, fun q hq => hq.elim, ⟨a, l, hi⟩, trivial, trivial⟩

theorem propagate_out (f : GyroFilter) : f.propagate.out = f.out := by
  unfold propagate
  dsimp only
  split <;> rfl

theorem corrPC_next (f g : GyroFilter) (hm : g.method = f.method) (ho : g.out = f.out) (P : Q → Prop)
    (hP : ∀ q, methodQ f.method q → P q) : Next f (g, corrPC f.method) P := by
  refine ⟨hm, by rw [ho], fun q h => hP q (corrPC_fut h), ?_, ?_, ?_⟩
  all_goals cases f.method <;> trivial

theorem Next.mono {f : GyroFilter} {r : GyroFilter × PC} {P P' : Q → Prop} (h : Next f r P) (hp : ∀ q, P q → P' q) :
    Next f r P' := ⟨h.method, h.out, fun q hq => hp q (h.fut q hq), h.ne, h.ns, h.ok⟩

theorem endInit_next (f g : GyroFilter) (hm : g.method = f.method) (ho : g.out = f.out) :
    Next f (endInit g) (fun q => q = .enc ∧ (f.method = .imuPlusAngVel ∨ f.method = .angVel)) := by
  obtain ⟨h1, h2, h3⟩ := @endInit_fut g
  refine ⟨h1.trans hm, by rw [h2, ho], fun q hq => ?_, ?_, ?_, ?_⟩
  · rw [← hm] at hq ⊢; exact h3 q hq
  all_goals unfold endInit; cases g.method <;> trivial

theorem clrPC_next (f g : GyroFilter) (hm : g.method = f.method) (ho : g.out = f.out) :
    Next f (clrPC g) (methodQ f.method) := by
  obtain ⟨h1, h2, h4, h3⟩ := @clrPC_fut g
  refine ⟨h1.trans hm, by rw [h2, ho], fun q hq => ?_, ?_, ?_, h4⟩
  · rw [← hm] at hq ⊢; exact h3 q hq
  all_goals unfold clrPC endInit; cases g.method <;> trivial

/-- **Once**: a queue at which the run looks after a section was neither looked at by it nor missing in the forecast
before. -/
theorem mstep_next {f : GyroFilter} {pc : PC} {r : GyroFilter × PC} (h : mstep f pc = some r) (hne : NE pc f)
    (hns : NS pc f) (hok : ClrOk pc f) : Next f r (fun q => Fut f.method pc q ∧ ¬ Looks pc q) := by
  cases pc with
  | idle => simp [mstep] at h
  | gyroProp =>
    simp only [mstep, Option.map_eq_some_iff] at h
    obtain ⟨_, _, rfl⟩ := h
    refine corrPC_next f _ (propagate_method f) (propagate_out f) _ ?_
    intro q hq
    refine ⟨Or.inr hq, ?_⟩
    cases hm : f.method <;> rw [hm] at hq <;> cases q <;> simp_all [methodQ, Looks]
  | imuSingle =>
    simp only [mstep] at h
    rcases hi : f.imu with _ | ⟨_ | ⟨m, l⟩⟩
    · rw [hi] at h; simp at h
    · rw [hi] at h; obtain rfl := Option.some.inj h
      exact ⟨rfl, List.prefix_rfl, fun q hq => hq.elim, trivial, trivial, trivial⟩
    · rw [hi] at h
      dsimp only at h
      split at h
      · rw [Option.map_eq_some_iff] at h
        obtain ⟨x, hx, rfl⟩ := h
        obtain ⟨a, b, e⟩ := correctImu_frame hx
        exact ⟨by rw [e], by rw [e], fun q hq => hq.elim, trivial, trivial, trivial⟩
      · obtain rfl := Option.some.inj h
        exact ⟨rfl, List.prefix_rfl, fun q hq => hq.elim, trivial, trivial, trivial⟩
  | imuMulti i fused =>
    have hfut : ∀ fu q, Fut f.method (.imuMulti (i + 1) fu) q →
        Fut f.method (.imuMulti i fused) q ∧ ¬ Looks (.imuMulti i fused) q := by
      rintro fu q ⟨j, hj, rfl⟩
      refine ⟨⟨j, by omega, rfl⟩, ?_⟩
      show ¬ i = j
      omega
    simp only [mstep] at h
    rcases hi : f.imus[i]? with _ | ⟨_ | ⟨m, l⟩⟩
    · rw [hi] at h; obtain rfl := Option.some.inj h
      exact ⟨rfl, List.prefix_rfl, fun q hq => hq.elim, trivial, trivial, trivial⟩
    · rw [hi] at h; obtain rfl := Option.some.inj h
      exact ⟨rfl, List.prefix_rfl, hfut _, trivial, trivial, trivial⟩
    · rw [hi] at h
      dsimp only at h
      split at h
      · rw [Option.map_eq_some_iff] at h
        obtain ⟨x, hx, rfl⟩ := h
        obtain ⟨a, b, e⟩ := correctImu_frame hx
        exact ⟨by rw [e], by rw [e], hfut (some x.1), trivial, trivial, trivial⟩
      · cases fused with
        | none =>
          obtain rfl := Option.some.inj h
          exact ⟨rfl, List.prefix_rfl, hfut _, trivial, trivial, trivial⟩
        | some o =>
          obtain rfl := Option.some.inj h
          exact ⟨rfl, List.prefix_rfl, hfut (some o), trivial, trivial, trivial⟩
  | frontImu =>
    simp only [mstep, Option.map_eq_some_iff] at h
    obtain ⟨l, hl, rfl⟩ := h
    refine ⟨rfl, List.prefix_rfl, ?_, ?_, ⟨l, hl, rfl⟩, trivial⟩
    · intro q hq
      obtain rfl : q = .enc := hq
      exact ⟨Or.inr rfl, fun h => h⟩
    · cases l with
      | nil => trivial
      | cons m l => exact ⟨m, l, hl⟩
  | frontEnc m =>
    simp only [mstep, Option.bind_eq_some_iff] at h
    obtain ⟨E, hE, h⟩ := h
    obtain ⟨I, hI, rfl⟩ := hns
    rcases I with _ | ⟨m, I⟩ <;> rcases E with _ | ⟨a, E⟩
    · obtain rfl := Option.some.inj h
      exact ⟨rfl, List.prefix_rfl, fun q hq => hq.elim, trivial, trivial, trivial⟩
    · exact useEnc_next hE h _
    · exact useImu_next hI h _
    · dsimp only [List.head?_cons, choose] at h
      split at h
      · exact useImu_next hI h _
      · exact useEnc_next hE h _
  | encOnly =>
    simp only [mstep] at h
    rcases hi : f.enc with _ | ⟨_ | ⟨a, l⟩⟩
    · rw [hi] at h; simp at h
    · rw [hi] at h; obtain rfl := Option.some.inj h
      exact ⟨rfl, List.prefix_rfl, fun q hq => hq.elim, trivial, trivial, trivial⟩
    · rw [hi] at h
      dsimp only at h
      split at h
      · obtain rfl := Option.some.inj h
        exact ⟨rfl, List.prefix_rfl, fun q hq => hq.elim, ⟨a, l, hi⟩, trivial, trivial⟩
      · rw [Option.map_eq_some_iff] at h
        obtain ⟨x, hx, rfl⟩ := h
        obtain ⟨x1, b, e⟩ := correctEnc_frame hx
        exact ⟨by rw [e], by rw [e], fun q hq => hq.elim, ⟨a, l, by rw [e]; exact hi⟩, trivial, trivial⟩
  | push o k =>
    obtain rfl := Option.some.inj h
    refine ⟨rfl, List.prefix_append _ _, fun q hq => ⟨hq, fun h => h⟩, (push_ok o f k).1 hne,
      (push_ok o f k).2.1 hns, (push_ok o f k).2.2 hok⟩
  | popImu =>
    obtain ⟨m, l, hi⟩ := hne
    simp only [mstep, hi] at h
    obtain rfl := Option.some.inj h
    exact ⟨rfl, List.prefix_rfl, fun q hq => hq.elim, trivial, trivial, trivial⟩
  | popEnc =>
    obtain ⟨m, l, hi⟩ := hne
    simp only [mstep, hi] at h
    obtain rfl := Option.some.inj h
    exact ⟨rfl, List.prefix_rfl, fun q hq => hq.elim, trivial, trivial, trivial⟩
  | biasImu =>
    simp only [mstep] at h
    rcases hi : f.imu with _ | ⟨_ | ⟨m, l⟩⟩
    · rw [hi] at h; simp at h
    · rw [hi] at h; obtain rfl := Option.some.inj h
      exact ⟨rfl, List.prefix_rfl, fun q hq => hq.elim, trivial, trivial, trivial⟩
    · rw [hi] at h
      obtain rfl := Option.some.inj h
      cases hg : f.gyro with
      | none => exact ⟨rfl, List.prefix_rfl, fun q hq => hq.elim, trivial, trivial, trivial⟩
      | some g =>
        refine ⟨rfl, List.prefix_rfl, ?_, trivial, trivial, trivial⟩
        intro q hq
        obtain rfl : q = .gyro := hq
        exact ⟨Or.inr rfl, fun h => h⟩
  | biasGyro =>
    simp only [mstep] at h
    rcases hi : f.gyro with _ | ⟨_ | ⟨m, l⟩⟩
    · rw [hi] at h; simp at h
    · rw [hi] at h; obtain rfl := Option.some.inj h
      exact ⟨rfl, List.prefix_rfl, fun q hq => hq.elim, trivial, trivial, trivial⟩
    · rw [hi] at h; obtain rfl := Option.some.inj h
      exact ⟨rfl, List.prefix_rfl, fun q hq => hq.elim, trivial, trivial, trivial⟩
  | clrGyro =>
    simp only [mstep, Option.map_eq_some_iff] at h
    obtain ⟨l, hl, rfl⟩ := h
    refine (clrPC_next f { f with gyro := some [] } rfl rfl).mono ?_
    intro q hq
    refine ⟨Or.inr hq, ?_⟩
    cases hm : f.method <;> rw [hm] at hq <;> cases q <;> simp_all [methodQ, Looks]
  | clrImu =>
    simp only [mstep, Option.map_eq_some_iff] at h
    obtain ⟨l, hl, rfl⟩ := h
    refine (endInit_next f { f with imu := some [] } rfl rfl).mono ?_
    rintro q ⟨rfl, h2⟩
    refine ⟨Or.inr ⟨rfl, ?_⟩, fun h => h⟩
    rcases h2 with h2 | h2
    · exact h2
    · rcases hok with k | k <;> rw [k] at h2 <;> simp at h2
  | clrImus i =>
    obtain rfl := Option.some.inj h
    have hok' : f.method = .multiImu := hok
    split
    · refine ⟨rfl, List.prefix_rfl, ?_, trivial, trivial, hok⟩
      rintro q ⟨hm, j, hj, rfl⟩
      refine ⟨⟨hm, j, by omega, rfl⟩, ?_⟩
      show ¬ i = j
      omega
    · refine (endInit_next f f rfl rfl).mono ?_
      rintro q ⟨rfl, h2⟩
      rw [hok'] at h2
      simp at h2
  | clrEnc =>
    simp only [mstep, Option.map_eq_some_iff] at h
    obtain ⟨l, hl, rfl⟩ := h
    exact ⟨rfl, List.prefix_rfl, fun q hq => hq.elim, trivial, trivial, trivial⟩

theorem looks_fut {pc : PC} {f : GyroFilter} {q : Q} (h : Looks pc q) (hok : ClrOk pc f) : Fut f.method pc q := by
  cases pc <;> cases q <;> first
    | exact h.elim
    | rfl
    | exact Or.inl rfl
    | exact ⟨_, le_of_eq h, rfl⟩
    | exact ⟨hok, _, le_of_eq h, rfl⟩

theorem clrStart_ok (f : GyroFilter) : NE (clrStart f).2 (clrStart f).1 ∧ NS (clrStart f).2 (clrStart f).1 ∧
    ClrOk (clrStart f).2 (clrStart f).1 ∧ (clrStart f).1.out = f.out := by
  unfold clrStart
  split
  · have h1 := clrPC_next f f rfl rfl
    obtain ⟨_, h2, _⟩ := @clrPC_fut f
    exact ⟨h1.ne, h1.ns, h1.ok, h2⟩
  · exact ⟨trivial, trivial, trivial, rfl⟩

theorem startInit_ok {f : GyroFilter} {r : GyroFilter × PC} (h : startInit f = some r) :
    NE r.2 r.1 ∧ NS r.2 r.1 ∧ ClrOk r.2 r.1 ∧ r.1.out = f.out := by
  unfold startInit at h
  split at h
  · rw [Option.bind_eq_some_iff] at h
    obtain ⟨n, _, h⟩ := h
    split at h
    · obtain rfl := Option.some.inj h
      exact ⟨trivial, trivial, trivial, rfl⟩
    · split at h
      · simp at h
      · obtain rfl := Option.some.inj h
        exact clrStart_ok _
  · obtain rfl := Option.some.inj h
    exact ⟨trivial, trivial, trivial, rfl⟩

theorem start_ok {f : GyroFilter} {r : GyroFilter × PC} (h : start f = some r) :
    NE r.2 r.1 ∧ NS r.2 r.1 ∧ ClrOk r.2 r.1 ∧ r.1.out = f.out := by
  unfold start at h
  split at h
  · split at h
    · obtain rfl := Option.some.inj h
      have h1 := corrPC_next f f.propagate (propagate_method f) (propagate_out f) (fun _ => True) (fun _ _ => trivial)
      exact ⟨h1.ne, h1.ns, h1.ok, propagate_out f⟩
    · obtain rfl := Option.some.inj h
      exact ⟨trivial, trivial, trivial, rfl⟩
  · have h1 := startInit_ok h
    exact ⟨h1.1, h1.2.1, h1.2.2.1, h1.2.2.2⟩

end GyroThr
end Drift
