import Verif.Lemmas.Sys1
import Verif.Props.Sensors

/-! # Lemmas: safety of the composed system -/
set_option linter.unusedSimpArgs false
namespace Drift
open Mat Matrix RobotState

/-- the estimator can take any IMU measurements not older than `τ`, in order -/
def Ready (τ : ℝ) (e : Estimator) : Prop :=
  ∀ fut : List ImuMeas, fut.Pairwise (fun a b => a.time ≤ b.time) → (∀ m ∈ fut, τ ≤ m.time) → EstInv fut e

/-- every state handed over has its time set -/
def Dated (e : Estimator) : Prop := ∀ s ∈ e.outQ, s.t.isSome = true

theorem Ready.mono {τ τ' : ℝ} {e : Estimator} (h : Ready τ e) (hτ : τ ≤ τ') : Ready τ' e :=
  fun fut h1 h2 => h fut h1 fun m hm => hτ.trans (h2 m hm)

theorem Ready.inv {τ : ℝ} {e : Estimator} (h : Ready τ e) : EstInv [] e := h [] .nil (by simp)

theorem ready_imu {τ : ℝ} {e : Estimator} (h : Ready τ e) (m : ImuMeas) (hm : τ ≤ m.time) :
    ∃ e', e.step (.imu m) = some e' ∧ Ready m.time e' := by
  refine ⟨_, rfl, fun fut h1 h2 => ?_⟩
  have hi : EstInv (imuArrivals [.imu m] ++ fut) e := h (m :: fut) (List.pairwise_cons.mpr ⟨h2, h1⟩) (by
    intro x hx
    rcases List.mem_cons.mp hx with rfl | hx
    · exact hm
    · exact hm.trans (h2 x hx))
  obtain ⟨e', h3, h4⟩ := step_inv (.imu m) hi
  rw [← Option.some.inj h3] at h4
  exact h4

theorem ready_step {τ : ℝ} {e : Estimator} (h : Ready τ e) (ev : EstEv) (hv : imuArrivals [ev] = []) :
    ∃ e', e.step ev = some e' ∧ Ready τ e' := by
  obtain ⟨e', h1, -⟩ := step_inv (fut := []) ev (by rw [hv]; exact h.inv)
  refine ⟨e', h1, fun fut h2 h3 => ?_⟩
  obtain ⟨e2, h4, h5⟩ := step_inv (fut := fut) ev (by rw [hv]; exact h fut h2 h3)
  rw [h1] at h4
  rw [Option.some.inj h4]
  exact h5

theorem tick_dated {e e' : Estimator} (d : Dated e) (i : EstInv [] e') (h : e.step .tick = some e') : Dated e' := by
  have hon : e'.enabled = true → e'.state.t.isSome = true := by
    intro hen
    obtain ⟨-, tp, m, -, -, -, ht⟩ := i.run hen
    exact ht
  have app : e'.outQ = e.outQ ++ [e'.state] → e'.enabled = true → Dated e' := by
    intro o en s hs
    rw [o] at hs
    rcases List.mem_append.mp hs with hs | hs
    · exact d s hs
    · rw [List.mem_singleton.mp hs]; exact hon en
  cases tick_out h with
  | quiet o l en => intro s hs; rw [o] at hs; exact d s hs
  | init o l en how =>
    have hne : e'.outQ ≠ e.outQ := by rw [o]; simp
    refine app o ?_
    rcases how with ⟨-, -, hi⟩ | ⟨k, -, hi⟩
    · rcases initState_out hi with ⟨h1, -⟩ | ⟨-, -, h3⟩
      · exact absurd h1 hne
      · exact h3
    · rcases initFrom_out hi with ⟨h1, -⟩ | ⟨-, -, h3⟩
      · exact absurd h1 hne
      · exact h3
  | run o l en => exact app o en.2

/-- the order of the data in the gyro filter: what waits in the IMU and angular velocity queues is in order, not older than
`τ` and not newer than `σ` -/
structure FOrd (τ σ : ℝ) (f : GyroFilter) : Prop where
  imu : ∀ q, f.imu = some q → q.Pairwise (fun a b => a.time ≤ b.time) ∧ ∀ m ∈ q, τ ≤ m.time ∧ m.time ≤ σ
  enc : ∀ q, f.enc = some q → q.Pairwise (fun a b => a.time ≤ b.time) ∧ ∀ m ∈ q, τ ≤ m.time ∧ m.time ≤ σ
  out : f.out = []
  num : f.numImu ≤ 1
  meth : f.method ≠ .multiImu
  mode : f.imu = none ∨ f.enc = none ∨ (f.method = .imuPlusAngVel ∧ f.chooseMethod = .imuPlusAngVel)

theorem FOrd.mono {τ σ σ' : ℝ} {f : GyroFilter} (h : FOrd τ σ f) (hs : σ ≤ σ') : FOrd τ σ' f :=
  ⟨fun q hq => ⟨(h.imu q hq).1, fun m hm => ⟨((h.imu q hq).2 m hm).1, ((h.imu q hq).2 m hm).2.trans hs⟩⟩,
   fun q hq => ⟨(h.enc q hq).1, fun m hm => ⟨((h.enc q hq).2 m hm).1, ((h.enc q hq).2 m hm).2.trans hs⟩⟩, h.out, h.num, h.meth, h.mode⟩

theorem push_order {α : Type} {g : α → ℝ} {τ σ : ℝ} {o : Option (List α)} {m : α}
    (h : ∀ q, o = some q → q.Pairwise (fun a b => g a ≤ g b) ∧ ∀ m ∈ q, τ ≤ g m ∧ g m ≤ σ) (hτ : τ ≤ σ) (hm : g m = σ) :
    ∀ q, o.map (· ++ [m]) = some q → q.Pairwise (fun a b => g a ≤ g b) ∧ ∀ m ∈ q, τ ≤ g m ∧ g m ≤ σ := by
  intro q hq
  rw [Option.map_eq_some_iff] at hq
  obtain ⟨q0, e, rfl⟩ := hq
  obtain ⟨h1, h2⟩ := h q0 e
  refine ⟨?_, fun x hx => ?_⟩
  · rw [List.pairwise_append]
    refine ⟨h1, by simp, fun a ha b hb => ?_⟩
    rw [List.mem_singleton.mp hb, hm]
    exact (h2 a ha).2
  · rcases List.mem_append.mp hx with hx | hx
    · exact h2 x hx
    · rw [List.mem_singleton.mp hx, hm]; exact ⟨hτ, le_rfl⟩

/-- what one iteration of the filter leaves: at most one output, not older than `τ`, everything still waiting not older
than it -/
def FNext (τ σ : ℝ) (f' : GyroFilter) : Prop :=
  (f'.out = [] ∧ FOrd τ σ { f' with out := [] }) ∨
    ∃ o, f'.out = [o] ∧ τ ≤ o.time ∧ o.time ≤ σ ∧ FOrd o.time σ { f' with out := [] }

theorem tail_order {α : Type} {g : α → ℝ} {τ σ : ℝ} {a : α} {q : List α}
    (h : (a :: q).Pairwise (fun a b => g a ≤ g b) ∧ ∀ m ∈ a :: q, τ ≤ g m ∧ g m ≤ σ) :
    q.Pairwise (fun a b => g a ≤ g b) ∧ ∀ m ∈ q, τ ≤ g m ∧ g m ≤ σ :=
  ⟨(List.pairwise_cons.mp h.1).2, fun m hm => h.2 m (by simp [hm])⟩

theorem tail_order' {α : Type} {g : α → ℝ} {τ σ : ℝ} {a : α} {q : List α}
    (h : (a :: q).Pairwise (fun a b => g a ≤ g b) ∧ ∀ m ∈ a :: q, τ ≤ g m ∧ g m ≤ σ) :
    q.Pairwise (fun a b => g a ≤ g b) ∧ ∀ m ∈ q, g a ≤ g m ∧ g m ≤ σ :=
  ⟨(List.pairwise_cons.mp h.1).2, fun m hm => ⟨(List.pairwise_cons.mp h.1).1 m hm, (h.2 m (by simp [hm])).2⟩⟩

theorem raise_order {α : Type} {g : α → ℝ} {τ σ t : ℝ} {q : List α}
    (h : q.Pairwise (fun a b => g a ≤ g b) ∧ ∀ m ∈ q, τ ≤ g m ∧ g m ≤ σ) (ht : ∀ a, q.head? = some a → t ≤ g a) :
    q.Pairwise (fun a b => g a ≤ g b) ∧ ∀ m ∈ q, t ≤ g m ∧ g m ≤ σ := by
  refine ⟨h.1, fun m hm => ⟨?_, (h.2 m hm).2⟩⟩
  cases q with
  | nil => simp at hm
  | cons a q =>
    have h1 := ht a rfl
    rcases List.mem_cons.mp hm with rfl | hm
    · exact h1
    · exact h1.trans ((List.pairwise_cons.mp h.1).1 m hm)

namespace GyroFilter

theorem correctImu_out {f : GyroFilter} {m : ImuMeas} {r : ImuMeas × GyroFilter} (h : f.correctImu m = some r) :
    r.1.time = m.time ∧ r.2.out = f.out ∧ r.2.imu = f.imu ∧ r.2.enc = f.enc ∧ r.2.numImu = f.numImu ∧
      r.2.numAngVel = f.numAngVel ∧ r.2.method = f.method := by
  simp only [correctImu, Option.map_eq_some_iff, kalman] at h
  obtain ⟨f1, h, rfl⟩ := h
  split_ifs at h
  rw [← Option.some.inj h]
  exact ⟨rfl, rfl, rfl, rfl, rfl, rfl, rfl⟩

theorem correctEnc_out {f : GyroFilter} {m : ImuMeas} {a : AngVelMeas} {r : ImuMeas × GyroFilter} (h : f.correctEnc m a = some r) :
    r.1.time = a.time ∧ r.2.out = f.out ∧ r.2.imu = f.imu ∧ r.2.enc = f.enc ∧ r.2.numImu = f.numImu ∧
      r.2.numAngVel = f.numAngVel ∧ r.2.method = f.method := by
  simp only [correctEnc, Option.map_eq_some_iff, kalman] at h
  obtain ⟨f1, h, rfl⟩ := h
  split_ifs at h
  rw [← Option.some.inj h]
  exact ⟨rfl, rfl, rfl, rfl, rfl, rfl, rfl⟩

/-- what a step of the filter leaves alone -/
structure Modes (f f' : GyroFilter) : Prop where
  num : f'.numImu = f.numImu
  ang : f'.numAngVel = f.numAngVel
  meth : f'.method = f.method
  imu : f.imu = none → f'.imu = none
  enc : f.enc = none → f'.enc = none

theorem Modes.mode {τ σ : ℝ} {f f' : GyroFilter} (h : FOrd τ σ f) (m : Modes f f') :
    f'.imu = none ∨ f'.enc = none ∨ (f'.method = .imuPlusAngVel ∧ f'.chooseMethod = .imuPlusAngVel) := by
  rcases h.mode with h | h | ⟨h1, h2⟩
  · exact .inl (m.imu h)
  · exact .inr (.inl (m.enc h))
  · refine .inr (.inr ⟨m.meth.trans h1, ?_⟩)
    rw [← h2]
    unfold chooseMethod
    rw [m.num, m.ang, m.meth]

/-- assembling `FNext` without an output -/
theorem next_quiet {τ σ : ℝ} {f f' : GyroFilter} (h : FOrd τ σ f) (ho : f'.out = f.out)
    (hi : ∀ q, f'.imu = some q → q.Pairwise (fun a b => a.time ≤ b.time) ∧ ∀ m ∈ q, τ ≤ m.time ∧ m.time ≤ σ)
    (he : ∀ q, f'.enc = some q → q.Pairwise (fun a b => a.time ≤ b.time) ∧ ∀ m ∈ q, τ ≤ m.time ∧ m.time ≤ σ)
    (M : Modes f f') : FNext τ σ f' :=
  .inl ⟨ho.trans h.out, hi, he, rfl, M.num.le.trans h.num, fun e => h.meth (M.meth.symm.trans e), Modes.mode (f' := { f' with out := [] }) h ⟨M.num, M.ang, M.meth, M.imu, M.enc⟩⟩

theorem next_out {τ σ : ℝ} {f f' : GyroFilter} (h : FOrd τ σ f) {o : ImuMeas} (ho : f'.out = f.out ++ [o]) (h1 : τ ≤ o.time) (h2 : o.time ≤ σ)
    (hi : ∀ q, f'.imu = some q → q.Pairwise (fun a b => a.time ≤ b.time) ∧ ∀ m ∈ q, o.time ≤ m.time ∧ m.time ≤ σ)
    (he : ∀ q, f'.enc = some q → q.Pairwise (fun a b => a.time ≤ b.time) ∧ ∀ m ∈ q, o.time ≤ m.time ∧ m.time ≤ σ)
    (M : Modes f f') : FNext τ σ f' :=
  .inr ⟨o, by rw [ho, h.out]; rfl, h1, h2, hi, he, rfl, M.num.le.trans h.num, fun e => h.meth (M.meth.symm.trans e), Modes.mode (f' := { f' with out := [] }) h ⟨M.num, M.ang, M.meth, M.imu, M.enc⟩⟩

theorem some_order {α : Type} {g : α → ℝ} {τ σ : ℝ} {q : List α}
    (h : q.Pairwise (fun a b => g a ≤ g b) ∧ ∀ m ∈ q, τ ≤ g m ∧ g m ≤ σ) {o : Option (List α)} (ho : o = some q) :
    ∀ q', o = some q' → q'.Pairwise (fun a b => g a ≤ g b) ∧ ∀ m ∈ q', τ ≤ g m ∧ g m ≤ σ := by
  intro q' e
  rw [ho] at e
  rw [← Option.some.inj e]
  exact h

theorem none_order {α : Type} {g : α → ℝ} {τ σ : ℝ} {o : Option (List α)} (ho : o = none) :
    ∀ q', o = some q' → q'.Pairwise (fun a b => g a ≤ g b) ∧ ∀ m ∈ q', τ ≤ g m ∧ g m ≤ σ := by
  intro q' e
  rw [ho] at e
  cases e

theorem fuseImu_next {τ σ : ℝ} {f f' : GyroFilter} (h : FOrd τ σ f) {m : ImuMeas} {q : List ImuMeas} {E : List AngVelMeas}
    (hi : f.imu = some (m :: q)) (he : f.enc = some E) (hmin : ∀ a, E.head? = some a → m.time ≤ a.time)
    (hr : f.fuseImu m q = some f') : FNext τ σ f' := by
  have hI := h.imu _ hi
  have hE := h.enc _ he
  simp only [fuseImu, Option.map_eq_some_iff] at hr
  obtain ⟨f1, hr, rfl⟩ := hr
  split_ifs at hr
  · rw [Option.map_eq_some_iff] at hr
    obtain ⟨r, hr, rfl⟩ := hr
    obtain ⟨e1, e2, e3, e4, e5, e6, e7⟩ := correctImu_out hr
    refine next_out h (o := r.1) (by show r.2.out ++ [r.1] = _; rw [e2]) (by rw [e1]; exact (hI.2 m (by simp)).1)
      (by rw [e1]; exact (hI.2 m (by simp)).2) (some_order (by rw [e1]; exact tail_order' (g := ImuMeas.time) hI) rfl)
      (some_order (by rw [e1]; exact raise_order (g := AngVelMeas.time) hE hmin) (e4.trans he))
      ⟨e5, e6, e7, fun e => (by rw [hi] at e; cases e), fun e => (by rw [he] at e; cases e)⟩
  · rw [← Option.some.inj hr]
    exact next_quiet h rfl (some_order (tail_order (g := ImuMeas.time) hI) rfl) (some_order hE he)
      ⟨rfl, rfl, rfl, fun e => (by rw [hi] at e; cases e), fun e => (by rw [he] at e; cases e)⟩

theorem fuseEnc_next {τ σ : ℝ} {f f' : GyroFilter} (h : FOrd τ σ f) {a : AngVelMeas} {q : List AngVelMeas} {I : List ImuMeas}
    (hi : f.imu = some I) (he : f.enc = some (a :: q)) (hmin : ∀ m, I.head? = some m → a.time ≤ m.time)
    (hr : f.fuseEnc a q = some f') : FNext τ σ f' := by
  have hI := h.imu _ hi
  have hE := h.enc _ he
  unfold fuseEnc at hr
  obtain ⟨la, hla⟩ : ∃ la, f.latest = la := ⟨_, rfl⟩
  rw [hla] at hr
  cases la with
  | none =>
    rw [← Option.some.inj hr]
    exact next_quiet h rfl (some_order hI hi) (some_order (tail_order (g := AngVelMeas.time) hE) rfl)
      ⟨rfl, rfl, rfl, fun e => (by rw [hi] at e; cases e), fun e => (by rw [he] at e; cases e)⟩
  | some m =>
    simp only [Option.map_eq_some_iff] at hr
    obtain ⟨f1, hr, rfl⟩ := hr
    split_ifs at hr
    · rw [Option.map_eq_some_iff] at hr
      obtain ⟨r, hr, rfl⟩ := hr
      obtain ⟨e1, e2, e3, e4, e5, e6, e7⟩ := correctEnc_out hr
      exact next_out h (o := r.1) (by show r.2.out ++ [r.1] = _; rw [e2]) (by rw [e1]; exact (hE.2 a (by simp)).1)
        (by rw [e1]; exact (hE.2 a (by simp)).2)
        (some_order (by rw [e1]; exact raise_order (g := ImuMeas.time) hI hmin) (e3.trans hi))
        (some_order (by rw [e1]; exact tail_order' (g := AngVelMeas.time) hE) rfl)
        ⟨e5, e6, e7, fun e => (by rw [hi] at e; cases e), fun e => (by rw [he] at e; cases e)⟩
    · rw [← Option.some.inj hr]
      exact next_quiet h rfl (some_order hI hi) (some_order (tail_order (g := AngVelMeas.time) hE) rfl)
        ⟨rfl, rfl, rfl, fun e => (by rw [hi] at e; cases e), fun e => (by rw [he] at e; cases e)⟩

theorem correctStep_next {τ σ : ℝ} {f f' : GyroFilter} (h : FOrd τ σ f) (hr : f.correctStep = some f') : FNext τ σ f' := by
  have same : ∀ {f' : GyroFilter}, some f = some f' → FNext τ σ f' := by
    intro f' e
    rw [← Option.some.inj e]
    exact next_quiet h rfl h.imu h.enc ⟨rfl, rfl, rfl, id, id⟩
  unfold correctStep at hr
  cases hm : f.method with
  | multiImu => exact absurd hm h.meth
  | invalid => rw [hm] at hr; exact same hr
  | singleImu =>
    rw [hm] at hr
    simp only [singleImu] at hr
    obtain ⟨iq, hi⟩ : ∃ iq, f.imu = iq := ⟨_, rfl⟩
    rw [hi] at hr
    rcases iq with _ | _ | ⟨m, q⟩
    · simp at hr
    · exact same hr
    · simp only at hr
      split_ifs at hr
      · rw [Option.map_eq_some_iff] at hr
        obtain ⟨r, hr, rfl⟩ := hr
        obtain ⟨e1, e2, e3, e4, e5, e6, e7⟩ := correctImu_out hr
        have hI := h.imu _ hi
        have he : f.enc = none := by
          rcases h.mode with k | k | ⟨k, -⟩
          · rw [hi] at k; cases k
          · exact k
          · rw [hm] at k; cases k
        exact next_out h (o := r.1) (by show r.2.out ++ [r.1] = _; rw [e2]) (by rw [e1]; exact (hI.2 m (by simp)).1)
          (by rw [e1]; exact (hI.2 m (by simp)).2) (some_order (by rw [e1]; exact tail_order' (g := ImuMeas.time) hI) e3)
          (none_order (e4.trans he)) ⟨e5, e6, e7, fun e => (by rw [hi] at e; cases e), fun _ => e4.trans he⟩
      · exact same hr
  | angVel =>
    rw [hm] at hr
    simp only [angVelCorr] at hr
    obtain ⟨eq, he⟩ : ∃ eq, f.enc = eq := ⟨_, rfl⟩
    rw [he] at hr
    rcases eq with _ | _ | ⟨a, q⟩
    · simp at hr
    · exact same hr
    · simp only at hr
      have hE := h.enc _ he
      have hi : f.imu = none := by
        rcases h.mode with k | k | ⟨k, -⟩
        · exact k
        · rw [he] at k; cases k
        · rw [hm] at k; cases k
      obtain ⟨la, hla⟩ : ∃ la, f.latest = la := ⟨_, rfl⟩
      rw [hla] at hr
      cases la with
      | none =>
        rw [← Option.some.inj hr]
        exact next_quiet h rfl (none_order hi) (some_order (tail_order (g := AngVelMeas.time) hE) rfl)
          ⟨rfl, rfl, rfl, fun _ => hi, fun e => (by rw [he] at e; cases e)⟩
      | some m =>
        simp only [Option.map_eq_some_iff] at hr
        obtain ⟨r, hr, rfl⟩ := hr
        obtain ⟨e1, e2, e3, e4, e5, e6, e7⟩ := correctEnc_out hr
        exact next_out h (o := r.1) (by show r.2.out ++ [r.1] = _; rw [e2]) (by rw [e1]; exact (hE.2 a (by simp)).1)
          (by rw [e1]; exact (hE.2 a (by simp)).2) (none_order (e3.trans hi))
          (some_order (by rw [e1]; exact tail_order' (g := AngVelMeas.time) hE) rfl)
          ⟨e5, e6, e7, fun _ => e3.trans hi, fun e => (by rw [he] at e; cases e)⟩
  | imuPlusAngVel =>
    rw [hm] at hr
    simp only [imuPlusAngVel] at hr
    obtain ⟨iq, hi⟩ : ∃ iq, f.imu = iq := ⟨_, rfl⟩
    obtain ⟨eq, he⟩ : ∃ eq, f.enc = eq := ⟨_, rfl⟩
    rw [hi, he] at hr
    rcases iq with _ | _ | ⟨m, q⟩ <;> rcases eq with _ | _ | ⟨a, q'⟩
    · simp at hr
    · simp at hr
    · simp at hr
    · simp at hr
    · exact same hr
    · exact fuseEnc_next h hi he (by simp) hr
    · simp at hr
    · exact fuseImu_next h hi he (by simp) hr
    · simp only at hr
      split_ifs at hr with hle
      · exact fuseImu_next h hi he (by simpa using hle) hr
      · exact fuseEnc_next h hi he (by simpa using (not_le.mp hle).le) hr

theorem propagate_ford {τ σ : ℝ} {f : GyroFilter} (h : FOrd τ σ f) : FOrd τ σ f.propagate := by
  unfold propagate
  obtain ⟨g, hg⟩ : ∃ g, f.gyro = g := ⟨_, rfl⟩
  rw [hg]
  rcases g with _ | _ | ⟨m, q⟩
  · exact ⟨h.imu, h.enc, h.out, h.num, h.meth, h.mode⟩
  · exact h
  · exact ⟨h.imu, h.enc, h.out, h.num, h.meth, h.mode⟩

theorem init_next {τ σ : ℝ} {f f' : GyroFilter} (h : FOrd τ σ f) (hr : f.initializeFilter = some f') : FNext τ σ f' := by
  have nilI : ∀ q : List ImuMeas, (some [] : Option (List ImuMeas)) = some q → q.Pairwise (fun a b => a.time ≤ b.time) ∧ ∀ m ∈ q, τ ≤ m.time ∧ m.time ≤ σ := by
    intro q e; rw [← Option.some.inj e]; simp
  have nilE : ∀ q : List AngVelMeas, (some [] : Option (List AngVelMeas)) = some q → q.Pairwise (fun a b => a.time ≤ b.time) ∧ ∀ m ∈ q, τ ≤ m.time ∧ m.time ≤ σ := by
    intro q e; rw [← Option.some.inj e]; simp
  unfold initializeFilter at hr
  split_ifs at hr with hs
  · rw [Option.bind_eq_some_iff] at hr
    obtain ⟨n, -, hr⟩ := hr
    split_ifs at hr
    · simp only [collectBias] at hr
      obtain ⟨iq, hi⟩ : ∃ iq, f.imu = iq := ⟨_, rfl⟩
      rw [hi] at hr
      rcases iq with _ | _ | ⟨m, q⟩
      · simp at hr
      · rw [← Option.some.inj hr]
        exact next_quiet h rfl h.imu h.enc ⟨rfl, rfl, rfl, id, id⟩
      · have hI := some_order (tail_order (g := ImuMeas.time) (h.imu _ hi)) (o := some q) rfl
        have hM : f.imu = none → (some q : Option (List ImuMeas)) = none := fun e => by rw [hi] at e; cases e
        simp only at hr
        obtain ⟨g, hg⟩ : ∃ g, f.gyro = g := ⟨_, rfl⟩
        rw [hg] at hr
        rcases g with _ | _ | ⟨g, gq⟩ <;> simp only at hr <;> rw [← Option.some.inj hr] <;>
          exact next_quiet h rfl hI h.enc ⟨rfl, rfl, rfl, hM, id⟩
    · unfold finishInit at hr
      split_ifs at hr
      rw [Option.bind_eq_some_iff] at hr
      obtain ⟨f2, h2, hr⟩ := hr
      rw [Option.map_eq_some_iff] at hr
      obtain ⟨f3, h3, rfl⟩ := hr
      have g2 : FOrd τ σ f2 := by
        unfold clearImuQueues at h2
        simp only at h2
        split at h2
        · rw [Option.map_eq_some_iff] at h2
          obtain ⟨q, hq, rfl⟩ := h2
          refine ⟨nilI, h.enc, h.out, h.num, h.meth, ?_⟩
          rcases h.mode with k | k | k
          · exact absurd k (by rw [show f.imu = some q from hq]; simp)
          · exact .inr (.inl k)
          · exact .inr (.inr k)
        · rw [Option.map_eq_some_iff] at h2
          obtain ⟨q, hq, rfl⟩ := h2
          refine ⟨nilI, h.enc, h.out, h.num, h.meth, ?_⟩
          rcases h.mode with k | k | k
          · exact absurd k (by rw [show f.imu = some q from hq]; simp)
          · exact .inr (.inl k)
          · exact .inr (.inr k)
        · rw [← Option.some.inj h2]; exact ⟨h.imu, h.enc, h.out, h.num, h.meth, h.mode⟩
        · rw [← Option.some.inj h2]; exact ⟨h.imu, h.enc, h.out, h.num, h.meth, h.mode⟩
      have g3 : FOrd τ σ f3 := by
        unfold clearEncQueue at h3
        simp only at h3
        split at h3
        · rw [Option.map_eq_some_iff] at h3
          obtain ⟨q, hq, rfl⟩ := h3
          refine ⟨g2.imu, nilE, g2.out, g2.num, g2.meth, ?_⟩
          rcases g2.mode with k | k | k
          · exact .inl k
          · exact absurd k (by rw [hq]; simp)
          · exact .inr (.inr k)
        · rw [Option.map_eq_some_iff] at h3
          obtain ⟨q, hq, rfl⟩ := h3
          refine ⟨g2.imu, nilE, g2.out, g2.num, g2.meth, ?_⟩
          rcases g2.mode with k | k | k
          · exact .inl k
          · exact absurd k (by rw [hq]; simp)
          · exact .inr (.inr k)
        · rw [← Option.some.inj h3]; exact g2
      exact .inl ⟨g3.out, g3.imu, g3.enc, rfl, g3.num, g3.meth, g3.mode⟩
  · rw [← Option.some.inj hr]
    exact next_quiet h rfl h.imu h.enc ⟨rfl, rfl, rfl, id, id⟩

/-- one iteration of the filter: at most one output, in order -/
theorem runOnce_next {τ σ : ℝ} {f f' : GyroFilter} (h : FOrd τ σ f) (hr : f.runOnce = some f') : FNext τ σ f' := by
  unfold runOnce at hr
  split_ifs at hr
  · exact correctStep_next (propagate_ford h) hr
  · refine init_next (f := { f with method := f.chooseMethod }) ⟨h.imu, h.enc, h.out, h.num, ?_, ?_⟩ hr
    · show f.chooseMethod ≠ _
      have := h.meth
      have := h.num
      unfold chooseMethod
      split_ifs <;> first | assumption | (simp; done) | (exfalso; omega)
    · rcases h.mode with k | k | ⟨k1, k2⟩
      · exact .inl k
      · exact .inr (.inl k)
      · exact .inr (.inr ⟨k2, (chooseMethod_idem f).trans k2⟩)

end GyroFilter
end Drift
