import Verif.Spec.GyroOrder
import Verif.Lemmas.Sys8
import Verif.Props.ImuFilter2

/-!
# C112: the gyro filter's outputs in time order
-/
namespace Drift
open Matrix GyroFilter
namespace GyroFilter

/-- the correction method the filter uses, or is about to choose -/
def eff (f : GyroFilter) : FMethod := if f.initialized then f.method else f.chooseMethod

/-- the queues and outputs are in order: outputs up to `τ`, waiting data in `[τ, σ]` -/
structure Ordered (τ σ : ℝ) (f : GyroFilter) : Prop where
  le : τ ≤ σ
  ord : FOrd τ σ { f with out := [], method := f.eff }
  sorted : InOrder (f.out.map ImuMeas.time)
  old : ∀ o ∈ f.out, o.time ≤ τ

theorem runOnce_eff (f : GyroFilter) : runOnce { f with method := f.eff } = f.runOnce := by
  by_cases h : f.initialized = true
  · rw [show f.eff = f.method from if_pos h]
  · rw [show f.eff = f.chooseMethod from if_neg h]
    unfold runOnce
    refine (if_neg h).trans (Eq.trans ?_ (if_neg h).symm)
    rw [show chooseMethod { f with method := f.chooseMethod } = f.chooseMethod from chooseMethod_idem f]

theorem eff_run {f f' : GyroFilter} (hr : f.runOnce = some f') :
    f'.eff = f'.method := by
  unfold eff
  by_cases h : f'.initialized = true
  · exact if_pos h
  · rw [if_neg h]
    unfold runOnce at hr
    split_ifs at hr with hi
    · exfalso
      exact h (correctStep_inv (I := fun f => f.initialized = true) (fun f g _ _ _ _ e k => e.symm.trans k)
        (fun f f' y k hk => by rcases hk with hk | hk <;> (obtain ⟨_, rfl⟩ := kalman_some hk; exact k))
        (by rw [(propagate_core f).2.2.1]; exact hi) hr)
    · obtain ⟨k1, k2, k3, -⟩ := initialize_frame hr
      rw [k3]
      show f'.chooseMethod = f.chooseMethod
      rw [← chooseMethod_idem f]
      exact chooseMethod_congr k1 k2 k3


theorem Ordered.run {τ σ : ℝ} {f f' : GyroFilter} (h : Ordered τ σ f) (hr : f.runOnce = some f') :
    ∃ τ', Ordered τ' σ f' := by
  have e : f.runOnce = (runOnce { f with out := [], method := f.eff }).map (pre f.out) := by
    rw [← runOnce_pre]
    rw [← runOnce_eff f]
    congr 1
    show _ = ({ f with out := f.out ++ [], method := f.eff } : GyroFilter)
    rw [List.append_nil]
  rw [e, Option.map_eq_some_iff] at hr
  obtain ⟨g, hg, rfl⟩ := hr
  have he : f.runOnce = some (pre f.out g) := by rw [e, hg]; rfl
  have hm : (pre f.out g).eff = g.method := eff_run he
  rcases runOnce_next h.ord hg with ⟨k1, k2⟩ | ⟨o, k1, k2, k3, k4⟩
  · refine ⟨τ, h.le, ?_, ?_, ?_⟩
    · rw [hm]; exact k2
    · show InOrder ((f.out ++ g.out).map _)
      rw [k1, List.append_nil]; exact h.sorted
    · show ∀ o ∈ f.out ++ g.out, _
      rw [k1, List.append_nil]; exact h.old
  · refine ⟨o.time, k3, ?_, ?_, ?_⟩
    · rw [hm]; exact k4
    · show InOrder ((f.out ++ g.out).map _)
      rw [k1, List.map_append]
      unfold InOrder
      rw [List.pairwise_append]
      refine ⟨h.sorted, by simp, ?_⟩
      intro a ha b hb
      obtain ⟨s, hs, rfl⟩ := List.mem_map.mp ha
      simp only [List.map_cons, List.map_nil, List.mem_singleton] at hb
      rw [hb]
      exact (h.old s hs).trans k2
    · show ∀ s ∈ f.out ++ g.out, _
      rw [k1]
      intro s hs
      rcases List.mem_append.mp hs with hs | hs
      · exact (h.old s hs).trans k2
      · rw [List.mem_singleton.mp hs]

theorem Ordered.ops : ∀ (l : List Op) {τ σ : ℝ} {f f' : GyroFilter}, Ordered τ σ f → (∀ o ∈ l, o.feeds) →
    InOrder (bothStamps l) → (∀ t ∈ bothStamps l, σ ≤ t) → runOps l f = some f' → InOrder (f'.out.map ImuMeas.time)
  | [], τ, σ, f, f', h, _, _, _, hr => by
    obtain rfl := Option.some.inj hr
    exact h.sorted
  | o :: l, τ, σ, f, f', h, hl, hs, hσ, hr => by
    rw [runOps, Option.bind_eq_some_iff] at hr
    obtain ⟨g, hg, hr⟩ := hr
    have hl' : ∀ o ∈ l, o.feeds := fun o ho => hl o (by simp [ho])
    have ho := hl o (by simp)
    have push : ∀ t : ℝ, bothStamps (o :: l) = t :: bothStamps l →
        InOrder (bothStamps l) ∧ (∀ s ∈ bothStamps l, t ≤ s) ∧ σ ≤ t := by
      intro t e
      rw [e] at hs hσ
      exact ⟨(List.pairwise_cons.mp hs).2, (List.pairwise_cons.mp hs).1, hσ t (by simp)⟩
    cases o with
    | gyroData m =>
      obtain rfl := Option.some.inj hg
      exact Ordered.ops l (f := { f with gyro := f.gyro.map (· ++ [m]) })
        ⟨h.le, ⟨h.ord.imu, h.ord.enc, rfl, h.ord.num, h.ord.meth, h.ord.mode⟩, h.sorted, h.old⟩ hl' hs hσ hr
    | imuData m =>
      obtain rfl := Option.some.inj hg
      obtain ⟨p1, p2, p3⟩ := push m.time rfl
      have h' := h.ord.mono p3
      have hn : f.imu.map (· ++ [m]) = none ↔ f.imu = none := by cases f.imu <;> simp
      exact Ordered.ops l (f := { f with imu := f.imu.map (· ++ [m]) }) (τ := τ) (σ := m.time)
        ⟨h.le.trans p3, ⟨push_order (g := ImuMeas.time) h'.imu (h.le.trans p3) rfl, h'.enc, rfl, h'.num, h'.meth,
          h'.mode.imp_left hn.2⟩, h.sorted, h.old⟩ hl' p1 p2 hr
    | imuDataN i m =>
      obtain rfl := Option.some.inj hg
      exact Ordered.ops l (f := { f with imus := f.imus.modify i (· ++ [m]) })
        ⟨h.le, ⟨h.ord.imu, h.ord.enc, rfl, h.ord.num, h.ord.meth, h.ord.mode⟩, h.sorted, h.old⟩ hl' hs hσ hr
    | encData a =>
      obtain rfl := Option.some.inj hg
      obtain ⟨p1, p2, p3⟩ := push a.time rfl
      have h' := h.ord.mono p3
      have hn : f.enc.map (· ++ [a]) = none ↔ f.enc = none := by cases f.enc <;> simp
      exact Ordered.ops l (f := { f with enc := f.enc.map (· ++ [a]) }) (τ := τ) (σ := a.time)
        ⟨h.le.trans p3, ⟨h'.imu, push_order (g := AngVelMeas.time) h'.enc (h.le.trans p3) rfl, rfl, h'.num, h'.meth,
          h'.mode.imp_right (Or.imp_left hn.2)⟩, h.sorted, h.old⟩ hl' p1 p2 hr
    | run =>
      obtain ⟨τ', h'⟩ := h.run hg
      exact Ordered.ops l h' hl' hs hσ hr
    | addGyro => exact ho.elim
    | addImu => exact ho.elim
    | addAngVel => exact ho.elim
    | popOut => exact ho.elim
    | clear => exact ho.elim

/-- registrations leave empty queues -/
structure Empty (i k : ℕ) (f : GyroFilter) : Prop where
  init : f.initialized = false
  num : f.numImu = i
  ang : f.numAngVel = k
  imu : f.imu = if i = 0 then none else some []
  enc : f.enc = if k = 0 then none else some []
  out : f.out = []

theorem Empty.add : ∀ (l : List Op) {i k : ℕ} {f f' : GyroFilter}, Empty i k f → (∀ o ∈ l, o.isAdd = true) →
    runOps l f = some f' → Empty (i + l.countP Op.isAddImu) (k + l.countP Op.isAddAngVel) f'
  | [], i, k, f, f', h, _, hr => by
    obtain rfl := Option.some.inj hr
    exact h
  | o :: l, i, k, f, f', h, ho, hr => by
    have hol := fun o ho' => ho o (List.mem_cons_of_mem _ ho')
    rw [runOps, Option.bind_eq_some_iff] at hr
    obtain ⟨g, hg, hr⟩ := hr
    cases o with
    | addGyro =>
      obtain rfl := Option.some.inj hg
      have := Empty.add l (f := f.addGyro) ⟨h.init, h.num, h.ang, h.imu, h.enc, h.out⟩ hol hr
      simpa only [List.countP_cons, Op.isAddImu, Op.isAddAngVel, Bool.false_eq_true, if_false, add_zero] using this
    | addImu =>
      obtain rfl := Option.some.inj hg
      have e : Empty (i + 1) k f.addImu := by
        unfold addImu
        dsimp only
        split_ifs with h1
        · exact ⟨h.init, congrArg (· + 1) h.num, h.ang, by simp, h.enc, h.out⟩
        · refine ⟨h.init, congrArg (· + 1) h.num, h.ang, ?_, h.enc, h.out⟩
          show f.imu = _
          rw [h.imu]
          have : i ≠ 0 := by have := h.num; omega
          simp [this]
      have := Empty.add l e hol hr
      rw [List.countP_cons_of_pos rfl, List.countP_cons_of_neg (by simp [Op.isAddAngVel])]
      rwa [show i + (List.countP Op.isAddImu l + 1) = i + 1 + List.countP Op.isAddImu l from by omega]
    | addAngVel =>
      obtain rfl := Option.some.inj hg
      have e : Empty i (k + 1) f.addAngVel :=
        ⟨h.init, h.num, congrArg (· + 1) h.ang, h.imu, by simp [addAngVel], h.out⟩
      have := Empty.add l e hol hr
      rw [List.countP_cons_of_neg (by simp [Op.isAddImu]), List.countP_cons_of_pos rfl]
      rwa [show k + (List.countP Op.isAddAngVel l + 1) = k + 1 + List.countP Op.isAddAngVel l from by omega]
    | gyroData m => simp [Op.isAdd] at ho
    | imuData m => simp [Op.isAdd] at ho
    | imuDataN i m => simp [Op.isAdd] at ho
    | encData a => simp [Op.isAdd] at ho
    | popOut => simp [Op.isAdd] at ho
    | run => simp [Op.isAdd] at ho
    | clear => simp [Op.isAdd] at ho

end GyroFilter

/-! ### C112 -/

/-- **C112** is false with an IMU and an angular velocity sensor, although each sensor delivers in time order: an IMU measurement
stamped `t₁` is processed, then the (slower) angular velocity measurement stamped `t₂ < t₁` arrives, and is processed.  The
filter puts a measurement stamped `t₂` behind the one stamped `t₁`.  For every configuration with non-zero measurement noises,
without static bias initialisation. -/
theorem C112_encoder_false (c : FCfg) (hs : c.staticBias = false) (hn : Noisy c) (m : ImuMeas) (a : AngVelMeas)
    (hlt : a.time < m.time) :
    InOrder (imuStamps [.addImu, .addAngVel, .run, .imuData m, .run, .encData a, .run]) ∧
    InOrder (encStamps [.addImu, .addAngVel, .run, .imuData m, .run, .encData a, .run]) ∧
    ∃ f, runOps [.addImu, .addAngVel, .run, .imuData m, .run, .encData a, .run] (mk1 c) = some f ∧
      f.out.map ImuMeas.time = [m.time, a.time] ∧ ¬ InOrder (f.out.map ImuMeas.time) := by
  refine ⟨by simp [InOrder, imuStamps], by simp [InOrder, encStamps], ?_⟩
  obtain ⟨f, h1, h2, h3, h4, h5, h6⟩ := ex_reaches_plus c hs hn [m] []
  obtain ⟨g1, g2⟩ := propagate_gyro f
  rw [h3] at g1 g2
  simp only [Option.getD_none, List.head?_nil, Option.map_none] at g1 g2
  rw [h4] at g2
  have hfr : ∀ t, f.propagate.Fresh t := fun t => Or.inl g2
  rcases plus_step h2 with ⟨hm, -⟩ | ⟨r, rest, I1, E1, f1, hm, hrest, hr, k1, hc, hg1, hl1, hcfg⟩
  · simp [mergeByTime] at hm
  · rw [show mergeByTime [m] [] = [Sum.inl m] by simp [mergeByTime]] at hm
    obtain ⟨rfl, rfl⟩ := List.cons.inj hm
    obtain ⟨c1, c2, -⟩ := hc
    obtain ⟨w, hw⟩ := c2 (hfr _)
    have he : I1 = [] ∧ E1 = [] := by
      rcases I1 with _ | ⟨x, I1⟩ <;> rcases E1 with _ | ⟨y, E1⟩
      · exact ⟨rfl, rfl⟩
      · simp [mergeByTime] at hrest
      · simp [mergeByTime] at hrest
      · exfalso
        rw [mergeByTime] at hrest
        split_ifs at hrest
    obtain ⟨rfl, rfl⟩ := he
    have k2 : PlusReady [] [a] { f1 with enc := some [a] } :=
      ⟨k1.init, k1.method, k1.imu, rfl, k1.psd, k1.noisy⟩
    rcases plus_step k2 with ⟨hm, -⟩ | ⟨r, rest, I2, E2, f2, hm2, -, hr2, -, hc2, -⟩
    · simp [mergeByTime] at hm
    · rw [show mergeByTime [] [a] = [Sum.inr a] by simp [mergeByTime]] at hm2
      obtain ⟨rfl, -⟩ := List.cons.inj hm2
      obtain ⟨-, d2, -⟩ := hc2
      have hl : ({ f1 with enc := some [a] } : GyroFilter).propagate.lastProp = -1 := by
        obtain ⟨-, q2⟩ := propagate_gyro { f1 with enc := some [a] }
        rw [q2]
        show Option.getD (Option.map _ (f1.gyro.getD []).head?) f1.lastProp = -1
        rw [hg1, g1, hl1, g2]
        rfl
      obtain ⟨w2, hw2⟩ := d2 m c1 (Or.inl hl)
      have ho : f2.out.map ImuMeas.time = [m.time, a.time] := by
        rw [hw2]
        show (f1.out ++ [_]).map _ = _
        rw [hw, h6]
        rfl
      refine ⟨f2, ?_, ho, ?_⟩
      · have e1 : runOps [.addImu, .addAngVel, .run, .imuData m] (mk1 c) = some f := h1
        rw [show ([.addImu, .addAngVel, .run, .imuData m, .run, .encData a, .run] : List Op) =
          [.addImu, .addAngVel, .run, .imuData m] ++ [.run, .encData a, .run] from rfl, runOps_append, e1, Option.bind_some]
        simp only [runOps, step, hr, Option.bind_some, k1.enc, Option.map_some, List.nil_append, hr2]
      · rw [ho]
        simp [InOrder, hlt]

/-- **C112** is false with several IMUs, even when all the measurements of all IMUs are delivered in time order: two from the
second IMU, then one from the third; the first iteration puts out one of each. -/
theorem C112_imus_false (c : FCfg) (hs : c.staticBias = false) (hn : Noisy c) (m₁ m₂ m₃ : ImuMeas)
    (h1 : m₁.time ≤ m₂.time) (h2 : m₂.time < m₃.time) :
    InOrder (stampsImus [.addImu, .addImu, .addImu, .run, .imuDataN 0 m₁, .imuDataN 0 m₂, .imuDataN 1 m₃, .run, .run]) ∧
    ∃ f, runOps [.addImu, .addImu, .addImu, .run, .imuDataN 0 m₁, .imuDataN 0 m₂, .imuDataN 1 m₃, .run, .run] (mk1 c) = some f ∧
      f.out.map ImuMeas.time = [m₁.time, m₃.time, m₂.time] ∧ ¬ InOrder (f.out.map ImuMeas.time) := by
  refine ⟨by simp [stampsImus, InOrder, h1, h2.le, h1.trans h2.le], ?_⟩
  obtain ⟨f, hf⟩ : ∃ f : GyroFilter, f = { base c with
    imu := some []
    imus := [[m₁, m₂], [m₃]]
    numImu := 3
    method := .multiImu
    initialized := true } := ⟨_, rfl⟩
  have r0 : MultiReady f := by rw [hf]; exact ⟨rfl, rfl, diag6_psd _ _, hn⟩
  have e0 : runOps [.addImu, .addImu, .addImu, .run, .imuDataN 0 m₁, .imuDataN 0 m₂, .imuDataN 1 m₃] (mk1 c) = some f := by
    rw [hf]
    simp [runOps, step, mk1, addImu, runOnce, initializeFilter, chooseMethod, base, hs]
  have i0 : f.imus = [[m₁, m₂], [m₃]] := by rw [hf]
  have o0 : f.out = [] := by rw [hf]; rfl
  have l0 : f.propagate.lastProp = -1 ∧ f.propagate.gyro = none := by rw [hf]; exact ⟨rfl, rfl⟩
  obtain ⟨f1, e1, r1, i1, -, -, l1, g1, k1⟩ := r0.run
  obtain ⟨outs, o1, t1, -⟩ := k1 (fun _ _ _ _ => Or.inl l0.1)
  have l2 : f1.propagate.lastProp = -1 := by
    obtain ⟨-, q2⟩ := propagate_gyro f1
    rw [q2, g1, l1, l0.1, l0.2]
    rfl
  obtain ⟨f2, e2, r2, i2, -, -, -, -, k2⟩ := r1.run
  obtain ⟨outs2, o2, t2, -⟩ := k2 (fun _ _ _ _ => Or.inl l2)
  have ho : f2.out.map ImuMeas.time = [m₁.time, m₃.time, m₂.time] := by
    rw [o2, o1, o0, List.nil_append, List.map_append, t1, t2, i1, i0]
    rfl
  refine ⟨f2, ?_, ho, ?_⟩
  · rw [show ([.addImu, .addImu, .addImu, .run, .imuDataN 0 m₁, .imuDataN 0 m₂, .imuDataN 1 m₃, .run, .run] : List Op) =
      [.addImu, .addImu, .addImu, .run, .imuDataN 0 m₁, .imuDataN 0 m₂, .imuDataN 1 m₃] ++ [.run, .run] from rfl,
      runOps_append, e0, Option.bind_some]
    simp only [runOps, step, e1, e2, Option.bind_some]
  · rw [ho]
    simp [InOrder, h2]

/-- **C112**, the part that holds: with one IMU, or one angular velocity sensor, or one of each, if the measurements of the
correction sensors *together* are delivered in time order then everything the filter ever puts out is in time order -- for every
configuration, every order of registration, whatever the propagation gyro delivers and whenever the filter thread runs.  With
a single correction sensor this says that the filter keeps that sensor's order. -/
theorem C112_in_order_partial (c : FCfg) (reg l : List Op) (f : GyroFilter) (hreg : ∀ o ∈ reg, o.isAdd = true)
    (hi : reg.countP Op.isAddImu ≤ 1) (he : reg.countP Op.isAddAngVel ≤ 1)
    (h1 : 1 ≤ reg.countP Op.isAddImu + reg.countP Op.isAddAngVel)
    (hl : ∀ o ∈ l, o.feeds) (ho : InOrder (bothStamps l)) (hr : runOps (reg ++ l) (mk1 c) = some f) :
    InOrder (f.out.map ImuMeas.time) := by
  rw [runOps_append, Option.bind_eq_some_iff] at hr
  obtain ⟨g, hg, hr⟩ := hr
  have E := Empty.add reg (i := 0) (k := 0) (f := mk1 c) ⟨rfl, rfl, rfl, rfl, rfl, rfl⟩ hreg hg
  rw [Nat.zero_add, Nat.zero_add] at E
  obtain ⟨σ, hσ⟩ : ∃ σ, ∀ t ∈ bothStamps l, σ ≤ t := by
    cases hb : bothStamps l with
    | nil => exact ⟨0, by simp⟩
    | cons t q =>
      rw [hb] at ho
      refine ⟨t, fun s hs => ?_⟩
      rcases List.mem_cons.mp hs with rfl | hs
      · exact le_rfl
      · exact (List.pairwise_cons.mp ho).1 s hs
  have hem : ∀ {α : Type} {t : α → ℝ} {b : Prop} [Decidable b] (q : List α), (if b then none else some []) = some q →
      q.Pairwise (fun a b => t a ≤ t b) ∧ ∀ m ∈ q, σ ≤ t m ∧ t m ≤ σ := by
    intro α t b _ q hq
    split_ifs at hq
    rw [← Option.some.inj hq]
    simp
  have hch : g.eff = g.chooseMethod := by unfold eff; rw [E.init]; rfl
  refine Ordered.ops l (τ := σ) (σ := σ) ⟨le_rfl, ⟨?_, ?_, rfl, ?_, ?_, ?_⟩, by rw [E.out]; exact List.Pairwise.nil, by rw [E.out]; simp⟩ hl ho hσ hr
  · intro q hq
    rw [show g.imu = _ from E.imu] at hq
    exact hem q hq
  · intro q hq
    rw [show g.enc = _ from E.enc] at hq
    exact hem q hq
  · show g.numImu ≤ 1
    rw [E.num]; exact hi
  · show g.eff ≠ _
    rw [hch]
    unfold chooseMethod
    rw [E.num, E.ang]
    have : ∀ i k : ℕ, i ≤ 1 → k ≤ 1 → 1 ≤ i + k →
        (if i = 0 ∧ k = 1 then FMethod.angVel else if i = 1 ∧ k = 0 then .singleImu
          else if i = 1 ∧ k = 1 then .imuPlusAngVel else if i > 1 ∧ k = 0 then .multiImu else g.method) ≠ .multiImu := by
      intro i k a b d
      interval_cases i <;> interval_cases k <;> simp_all
    exact this _ _ hi he h1
  · show g.imu = none ∨ g.enc = none ∨ (g.eff = _ ∧ chooseMethod { g with method := g.eff } = _)
    rw [hch, show chooseMethod { g with method := g.chooseMethod } = g.chooseMethod from chooseMethod_idem g, and_self, E.imu, E.enc]
    unfold chooseMethod
    rw [E.num, E.ang]
    have : ∀ i k : ℕ, i ≤ 1 → k ≤ 1 → 1 ≤ i + k → ((if i = 0 then none else some []) : Option (List ImuMeas)) = none ∨
        ((if k = 0 then none else some []) : Option (List AngVelMeas)) = none ∨
        (if i = 0 ∧ k = 1 then FMethod.angVel else if i = 1 ∧ k = 0 then .singleImu
          else if i = 1 ∧ k = 1 then .imuPlusAngVel else if i > 1 ∧ k = 0 then .multiImu else g.method) = .imuPlusAngVel := by
      intro i k a b d
      interval_cases i <;> interval_cases k <;> simp_all
    exact this _ _ hi he h1

/-- the hypotheses are met: an IMU at 1 and 3, an angular velocity sensor at 2, the filter running in between -/
example : ∃ f, runOps ([.addImu, .addAngVel] ++ [.run, .imuData ⟨1, 0, 0, Quat.id⟩, .encData ⟨2, 0⟩, .run, .imuData ⟨3, 0, 0, Quat.id⟩, .run])
    (mk1 (exFCfg false)) = some f ∧ InOrder (f.out.map ImuMeas.time) := by
  obtain ⟨f, hf⟩ := C72_defined_partial (exFCfg false) (exFCfg_noisy _) [.addImu, .addAngVel]
    [.run, .imuData ⟨1, 0, 0, Quat.id⟩, .encData ⟨2, 0⟩, .run, .imuData ⟨3, 0, 0, Quat.id⟩, .run] (by simp [Op.isAdd])
    (Or.inr (Or.inr (Or.inl (by decide)))) (by simp [exFCfg]) (by simp [Op.running])
  refine ⟨f, hf, C112_in_order_partial (exFCfg false) [.addImu, .addAngVel] _ f (by simp [Op.isAdd])
    (by decide) (by decide) (by decide) (by simp [Op.feeds])
    ?_ hf⟩
  simp only [InOrder, bothStamps, List.filterMap_cons, List.filterMap_nil]
  norm_num

end Drift
