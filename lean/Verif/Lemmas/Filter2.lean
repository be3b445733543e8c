import Verif.Lemmas.Filter1

/-! Helper lemmas for the gyro filter: invariants of the estimate along all code paths. -/
namespace Drift
open Matrix
namespace GyroFilter

/-- `I` only looks at the configuration, the estimate, its covariance, the previous gyro sample and the
initialisation flag. -/
def CoreOnly (I : GyroFilter → Prop) : Prop :=
  ∀ f g : GyroFilter, f.cfg = g.cfg → f.x = g.x → f.P = g.P → f.prev = g.prev →
    f.initialized = g.initialized → I f → I g

/-- `I` is preserved by both Kalman corrections. -/
def KeptByKalman (I : GyroFilter → Prop) : Prop :=
  ∀ (f f' : GyroFilter) (y : V3), I f →
    (f.kalman (Himu f.cfg.flatGround) (noise3 f.cfg.imuStd) y = some f' ∨
      f.kalman (Henc f.cfg.flatGround) (noise3 f.cfg.encStd) y = some f') → I f'

theorem correctImu_inv {I : GyroFilter → Prop} (hk : KeptByKalman I) {f : GyroFilter} {m : ImuMeas}
    {r : ImuMeas × GyroFilter} (hI : I f) (h : f.correctImu m = some r) : I r.2 := by
  unfold correctImu at h
  rw [Option.map_eq_some_iff] at h
  obtain ⟨f', h1, rfl⟩ := h
  exact hk f f' _ hI (Or.inl h1)

theorem correctEnc_inv {I : GyroFilter → Prop} (hk : KeptByKalman I) {f : GyroFilter} {m : ImuMeas}
    {a : AngVelMeas} {r : ImuMeas × GyroFilter} (hI : I f) (h : f.correctEnc m a = some r) : I r.2 := by
  unfold correctEnc at h
  rw [Option.map_eq_some_iff] at h
  obtain ⟨f', h1, rfl⟩ := h
  exact hk f f' _ hI (Or.inr h1)

theorem multiLoop_inv {I : GyroFilter → Prop} (hc : CoreOnly I) (hk : KeptByKalman I) :
    ∀ (qs : List (List ImuMeas)) (fu : Option ImuMeas) (f : GyroFilter) (r : List (List ImuMeas) × GyroFilter),
      I f → multiLoop qs fu f = some r → I r.2
  | [], fu, f, r, hI, h => by
    rw [multiLoop] at h
    obtain rfl := Option.some.inj h
    exact hI
  | [] :: qs, fu, f, r, hI, h => by
    rw [multiLoop, Option.map_eq_some_iff] at h
    obtain ⟨r', h1, rfl⟩ := h
    exact multiLoop_inv hc hk qs fu f r' hI h1
  | (m :: q) :: qs, fu, f, r, hI, h => by
    rw [multiLoop, Option.bind_eq_some_iff] at h
    obtain ⟨p, hp, h⟩ := h
    rw [Option.map_eq_some_iff] at h
    obtain ⟨r', h1, rfl⟩ := h
    have hp2 : I p.2 := by
      split_ifs at hp with hf
      · rw [Option.map_eq_some_iff] at hp
        obtain ⟨r0, h0, rfl⟩ := hp
        exact correctImu_inv hk hI h0
      · obtain rfl := Option.some.inj hp
        exact hI
    refine multiLoop_inv hc hk qs _ _ r' ?_ h1
    cases p.1 with
    | none => exact hp2
    | some o => exact hc p.2 _ rfl rfl rfl rfl rfl hp2

theorem fuseImu_inv {I : GyroFilter → Prop} (hc : CoreOnly I) (hk : KeptByKalman I) {f f' : GyroFilter}
    {m : ImuMeas} {q : List ImuMeas} (hI : I f) (h : f.fuseImu m q = some f') : I f' := by
  unfold fuseImu at h
  rw [Option.map_eq_some_iff] at h
  obtain ⟨g, h1, rfl⟩ := h
  have hI1 : I { f with latest := some m } := hc f _ rfl rfl rfl rfl rfl hI
  refine hc g _ rfl rfl rfl rfl rfl ?_
  split_ifs at h1 with hf
  · rw [Option.map_eq_some_iff] at h1
    obtain ⟨r0, h0, rfl⟩ := h1
    exact hc r0.2 _ rfl rfl rfl rfl rfl (correctImu_inv hk hI1 h0)
  · obtain rfl := Option.some.inj h1
    exact hI1

theorem fuseEnc_inv {I : GyroFilter → Prop} (hc : CoreOnly I) (hk : KeptByKalman I) {f f' : GyroFilter}
    {a : AngVelMeas} {q : List AngVelMeas} (hI : I f) (h : f.fuseEnc a q = some f') : I f' := by
  unfold fuseEnc at h
  split at h
  · obtain rfl := Option.some.inj h
    exact hc f _ rfl rfl rfl rfl rfl hI
  · rw [Option.map_eq_some_iff] at h
    obtain ⟨g, h1, rfl⟩ := h
    refine hc g _ rfl rfl rfl rfl rfl ?_
    split_ifs at h1 with hf
    · rw [Option.map_eq_some_iff] at h1
      obtain ⟨r0, h0, rfl⟩ := h1
      exact hc r0.2 _ rfl rfl rfl rfl rfl (correctEnc_inv hk hI h0)
    · obtain rfl := Option.some.inj h1
      exact hI

theorem correctStep_inv {I : GyroFilter → Prop} (hc : CoreOnly I) (hk : KeptByKalman I) {f f' : GyroFilter}
    (hI : I f) (h : f.correctStep = some f') : I f' := by
  unfold correctStep at h
  split at h
  · unfold imuPlusAngVel at h
    split at h
    · obtain rfl := Option.some.inj h; exact hI
    · exact fuseImu_inv hc hk hI h
    · exact fuseEnc_inv hc hk hI h
    · split_ifs at h
      · exact fuseImu_inv hc hk hI h
      · exact fuseEnc_inv hc hk hI h
    · simp at h
  · unfold singleImu at h
    split at h
    · simp at h
    · obtain rfl := Option.some.inj h; exact hI
    · split_ifs at h
      · rw [Option.map_eq_some_iff] at h
        obtain ⟨r0, h0, rfl⟩ := h
        refine hc r0.2 _ rfl rfl rfl rfl rfl (correctImu_inv hk ?_ h0)
        exact hc f _ rfl rfl rfl rfl rfl hI
      · obtain rfl := Option.some.inj h; exact hI
  · unfold multiImu at h
    rw [Option.map_eq_some_iff] at h
    obtain ⟨r0, h0, rfl⟩ := h
    exact hc r0.2 _ rfl rfl rfl rfl rfl (multiLoop_inv hc hk _ _ _ _ hI h0)
  · unfold angVelCorr at h
    split at h
    · simp at h
    · obtain rfl := Option.some.inj h; exact hI
    · split at h
      · obtain rfl := Option.some.inj h
        exact hc f _ rfl rfl rfl rfl rfl hI
      · rw [Option.map_eq_some_iff] at h
        obtain ⟨r0, h0, rfl⟩ := h
        exact hc r0.2 _ rfl rfl rfl rfl rfl (correctEnc_inv hk hI h0)
  · obtain rfl := Option.some.inj h; exact hI

/-! ### What initialisation does to the estimate -/

theorem clearImuQueues_core {f f' : GyroFilter} (h : f.clearImuQueues = some f') :
    f'.cfg = f.cfg ∧ f'.x = f.x ∧ f'.P = f.P ∧ f'.prev = f.prev ∧ f'.initialized = f.initialized ∧
      f'.method = f.method := by
  unfold clearImuQueues at h
  split at h
  · rw [Option.map_eq_some_iff] at h
    obtain ⟨_, _, rfl⟩ := h
    exact ⟨rfl, rfl, rfl, rfl, rfl, rfl⟩
  · rw [Option.map_eq_some_iff] at h
    obtain ⟨_, _, rfl⟩ := h
    exact ⟨rfl, rfl, rfl, rfl, rfl, rfl⟩
  · obtain rfl := Option.some.inj h; exact ⟨rfl, rfl, rfl, rfl, rfl, rfl⟩
  · obtain rfl := Option.some.inj h; exact ⟨rfl, rfl, rfl, rfl, rfl, rfl⟩

theorem clearEncQueue_core {f f' : GyroFilter} (h : f.clearEncQueue = some f') :
    f'.cfg = f.cfg ∧ f'.x = f.x ∧ f'.P = f.P ∧ f'.prev = f.prev ∧ f'.initialized = f.initialized ∧
      f'.method = f.method := by
  unfold clearEncQueue at h
  split at h
  · rw [Option.map_eq_some_iff] at h
    obtain ⟨_, _, rfl⟩ := h
    exact ⟨rfl, rfl, rfl, rfl, rfl, rfl⟩
  · rw [Option.map_eq_some_iff] at h
    obtain ⟨_, _, rfl⟩ := h
    exact ⟨rfl, rfl, rfl, rfl, rfl, rfl⟩
  · obtain rfl := Option.some.inj h; exact ⟨rfl, rfl, rfl, rfl, rfl, rfl⟩

theorem finishInit_core {f f' : GyroFilter} (h : f.finishInit = some f') :
    f.biasVec.length ≠ 0 ∧ f'.cfg = f.cfg ∧ f'.x = join 0 (mean f.biasVec) ∧ f'.P = f.P ∧ f'.prev = f.prev ∧
      f'.initialized = true ∧ f'.method = f.method := by
  unfold finishInit at h
  split_ifs at h with h0
  rw [Option.bind_eq_some_iff] at h
  obtain ⟨g, h1, h⟩ := h
  rw [Option.map_eq_some_iff] at h
  obtain ⟨g', h2, rfl⟩ := h
  obtain ⟨a1, a2, a3, a4, a5, a6⟩ := clearImuQueues_core h1
  obtain ⟨b1, b2, b3, b4, b5, b6⟩ := clearEncQueue_core h2
  exact ⟨h0, b1.trans a1, b2.trans a2, b3.trans a3, b4.trans a4, rfl, b6.trans a6⟩

theorem collectBias_core {f f' : GyroFilter} (h : f.collectBias = some f') :
    f'.cfg = f.cfg ∧ f'.x = f.x ∧ f'.P = f.P ∧ f'.initialized = f.initialized ∧ f'.method = f.method := by
  unfold collectBias at h
  split at h
  · simp at h
  · obtain rfl := Option.some.inj h; exact ⟨rfl, rfl, rfl, rfl, rfl⟩
  · dsimp only at h
    split at h <;> (obtain rfl := Option.some.inj h; exact ⟨rfl, rfl, rfl, rfl, rfl⟩)

theorem propagate_core (f : GyroFilter) :
    f.propagate.cfg = f.cfg ∧ f.propagate.method = f.method ∧ f.propagate.initialized = f.initialized ∧
      (f.propagate.P = f.P ∨ f.propagate.P = f.P + diag6 f.cfg.filterStd f.cfg.filterBiasStd) ∧
      (f.propagate.x = f.x ∧ f.propagate.prev = f.prev ∨
        ∃ m q, f.gyro = some (m :: q) ∧ f.propagate.prev = m.angVel ∧
          f.propagate.x = join (m.angVel - f.prev) 0 + f.x) := by
  unfold propagate
  split
  · exact ⟨rfl, rfl, rfl, Or.inr rfl, Or.inl ⟨rfl, rfl⟩⟩
  · exact ⟨rfl, rfl, rfl, Or.inl rfl, Or.inl ⟨rfl, rfl⟩⟩
  · rename_i m q hg
    exact ⟨rfl, rfl, rfl, Or.inr rfl, Or.inr ⟨m, q, hg, rfl, rfl⟩⟩

/-- the covariance invariant -/
theorem psd_core : CoreOnly fun f => f.P.PosSemidef := fun f g _ _ h3 _ _ hI => by
  dsimp only at hI ⊢
  rw [← h3]; exact hI

theorem psd_kalman : KeptByKalman fun f => f.P.PosSemidef := by
  rintro f f' y hI (h | h)
  all_goals
    obtain ⟨hd, rfl⟩ := kalman_some h
    exact (kalman_cov hI (noise3_psd _) hd).1

theorem propagate_psd {f : GyroFilter} (h : f.P.PosSemidef) : f.propagate.P.PosSemidef := by
  obtain ⟨_, _, _, h4 | h4, _⟩ := propagate_core f
  · rw [h4]; exact h
  · rw [h4]; exact h.add (diag6_psd _ _)

theorem runOnce_psd {f f' : GyroFilter} (h : f.P.PosSemidef) (hr : f.runOnce = some f') : f'.P.PosSemidef := by
  unfold runOnce at hr
  split_ifs at hr with hi
  · exact correctStep_inv psd_core psd_kalman (propagate_psd h) hr
  · unfold initializeFilter at hr
    split_ifs at hr
    · rw [Option.bind_eq_some_iff] at hr
      obtain ⟨n, _, hr⟩ := hr
      split_ifs at hr
      · rw [(collectBias_core hr).2.2.1]; exact h
      · rw [(finishInit_core hr).2.2.2.1]; exact h
    · obtain rfl := Option.some.inj hr; exact h

theorem step_psd {f f' : GyroFilter} {o : Op} (h : f.P.PosSemidef) (hr : f.step o = some f') :
    f'.P.PosSemidef := by
  cases o with
  | run => exact runOnce_psd h hr
  | clear =>
    simp only [step, GyroFilter.clear, Option.bind_eq_some_iff, Option.map_eq_some_iff] at hr
    obtain ⟨_, _, _, _, rfl⟩ := hr
    exact h
  | addImu =>
    simp only [step, Option.some.injEq] at hr
    subst hr
    unfold addImu
    dsimp only
    split_ifs <;> exact h
  | _ =>
    simp only [step, Option.some.injEq] at hr
    subst hr
    exact h

theorem runOps_inv {I : GyroFilter → Prop} (hs : ∀ f f' o, I f → f.step o = some f' → I f') :
    ∀ (l : List Op) (f f' : GyroFilter), I f → runOps l f = some f' → I f'
  | [], f, f', hI, h => by
    rw [runOps] at h
    obtain rfl := Option.some.inj h
    exact hI
  | o :: l, f, f', hI, h => by
    rw [runOps, Option.bind_eq_some_iff] at h
    obtain ⟨g, h1, h2⟩ := h
    exact runOps_inv hs l g f' (hs f g o hI h1) h2

theorem runOps_append (l₁ l₂ : List Op) (f : GyroFilter) :
    runOps (l₁ ++ l₂) f = (runOps l₁ f).bind (runOps l₂) := by
  induction l₁ generalizing f with
  | nil => rfl
  | cons o l ih =>
    simp only [List.cons_append, runOps]
    cases f.step o with
    | none => rfl
    | some g => exact ih g

end GyroFilter
end Drift
