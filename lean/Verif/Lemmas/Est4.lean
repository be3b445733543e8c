import Verif.Lemmas.Est3

/-! # Lemmas: every estimator in use satisfies the invariant -/
namespace Drift
open Mat Matrix RobotState Finset

theorem smul_one_psd' {c : ℝ} (h : 0 ≤ c) : PSD (of3 (c • (1 : M3))) := by
  rcases h.eq_or_lt with h | h
  · rw [← h, zero_smul]
    have : of3 (0 : M3) = zero 3 3 := by
      refine ext' rfl rfl fun i j hi hj => ?_
      rw [of3_e _ hi hj]; simp
    rw [this]; exact zero_psd 3
  · exact (smul_one_pd h).psd

theorem logCtor_queue (a b c d) : (Logger.ctor a b c d).queue = [] := by unfold Logger.ctor; rfl

theorem build_ok {et : ErrorType} {cs : List CorrConfig} (hv : ∀ c, CorrConfig.vel c ∈ cs → c.velocity_std.getD 0.1 ≠ 0)
    (hl : ∀ c, CorrConfig.leg c ∈ cs → c.kinematics_additive_std.getD 0.05 ≠ 0) {corrs : List Corr}
    (h : cs.mapM (CorrConfig.build et) = some corrs) :
    ∀ c ∈ corrs, c.ParamOK ∧ (∀ id, c.refs id = none) ∧ c.queued = 0 := by
  induction cs generalizing corrs with
  | nil => simp at h; subst h; simp
  | cons a cs ih =>
    rw [List.mapM_cons] at h
    simp only [Option.bind_eq_bind, Option.bind_eq_some_iff] at h
    obtain ⟨b, hb, bs, hbs, h⟩ := h
    rw [← Option.some.inj h]
    have ih' := ih (fun c hc => hv c (by simp [hc])) (fun c hc => hl c (by simp [hc])) hbs
    intro c hc
    rcases List.mem_cons.mp hc with rfl | hc
    · cases a with
      | vel a =>
        simp only [CorrConfig.build, Option.map_eq_some_iff] at hb
        obtain ⟨v, hv1, rfl⟩ := hb
        refine ⟨velCtor_pd hv1 (hv a (by simp)), fun _ => rfl, ?_⟩
        unfold VelCorr.ctor at hv1
        simp only [Option.bind_eq_bind, Option.bind_eq_some_iff] at hv1
        obtain ⟨q, _, hv1⟩ := hv1
        rw [← Option.some.inj hv1]; rfl
      | leg a =>
        rw [← Option.some.inj hb]
        exact ⟨⟨hl a (by simp), legCtor_noise _ _ _⟩, fun _ => rfl, rfl⟩
    · exact ih' c hc

theorem ctor_inv {et h c ic cs e0} {imu : List ImuMeas} (u : Usable ic cs imu) (he : Estimator.ctor et h c ic cs = some e0) :
    EstInv imu e0 ∧ e0.enabled = false ∧ e0.pending = none ∧ e0.outQ = [] := by
  unfold Estimator.ctor at he
  simp only [Option.bind_eq_bind, Option.bind_eq_some_iff] at he
  obtain ⟨p, hp, corrs, hc, he⟩ := he
  have hb := build_ok u.vel u.leg hc
  have hN := C35_ctor_noise hp
  have hpf : p.prev = none ∧ p.buffer = [] ∧ p.staticInit = ic.static_bias_initialization.getD true ∧
      p.initBiasSize = ic.init_bias_size.getD 0 ∧ p.useImuOri = ic.use_imu_ori_to_init.getD false := by
    unfold ImuProp.ctor at hp
    simp only [Option.bind_eq_bind, Option.bind_eq_some_iff] at hp
    obtain ⟨q, -, bg, -, ba, -, t, -, hp⟩ := hp
    rw [← Option.some.inj hp]
    exact ⟨rfl, rfl, rfl, rfl, rfl⟩
  obtain ⟨f1, f2, f3, f4, f5⟩ := hpf
  rw [← Option.some.inj he]
  refine ⟨⟨⟨2, init_good h⟩, corrsOK_of_none (fun c hc => (hb c hc).1) (fun c hc => (hb c hc).2.1), hN, ?_, ?_, ?_, ?_, ?_, ?_, by simp, ?_,
    fun _ => ⟨⟨init_good h, blockDiag3_one 15⟩, fun c hc => (hb c hc).2.1⟩, by simp, by simp⟩, rfl, rfl, rfl⟩
  · show 0 ≤ (c.rotation_std_value.map (· ^ 2)).getD (0.03 : ℝ)
    cases c.rotation_std_value <;> simp <;> positivity
  · show 0 ≤ (c.velocity_std_value.map (· ^ 2)).getD (0.01 : ℝ)
    cases c.velocity_std_value <;> simp <;> positivity
  · show 0 ≤ (c.position_std_value.map (· ^ 2)).getD (0.00001 : ℝ)
    cases c.position_std_value <;> simp <;> positivity
  · show p.staticInit = false ∨ 1 ≤ ImuProp.toSizeT p.initBiasSize
    rw [f3, f4]
    refine u.bias.imp id fun h => ?_
    unfold ImuProp.toSizeT
    omega
  · intro m hm
    have hm : m ∈ p.buffer ++ imu := hm
    show IsRot (if p.useImuOri = true then _ else _)
    rw [f2, List.nil_append] at hm
    rw [f5]
    rcases u.ori with h | h
    · rw [h]; exact IsRot.one
    · split_ifs
      · exact toRot_isRot (h m hm)
      · exact IsRot.one
  · show (p.prev.toList ++ (p.buffer ++ imu)).Pairwise _
    rw [f1, f2]; simpa using u.sorted
  · intro s hs
    rw [logCtor_queue] at hs; cases hs

theorem inUse_inv {e : Estimator} (h : InUse e) : EstInv [] e := by
  obtain ⟨et, h, c, ic, cs, e0, evs, u, hc, hr⟩ := h
  obtain ⟨e', h1, i⟩ := run_estInv evs (fut := []) (e := e0) (by rw [List.append_nil]; exact (ctor_inv u hc).1)
  rw [hr] at h1
  cases h1
  exact i

end Drift
