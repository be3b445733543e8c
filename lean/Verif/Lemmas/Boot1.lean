import Verif.Spec.Startup
import Verif.Props.Estimator
import Verif.Props.ImuBias
import Verif.Lemmas.Est5

/-! # Lemmas: starting up -/
namespace Drift
open Mat Matrix RobotState

/-- kind of a correction -/
def Corr.isVel : Corr → Bool
  | .vel _ => true
  | .leg _ => false
def CorrConfig.isVel : CorrConfig → Bool
  | .vel _ => true
  | .leg _ => false

/-- the state before the filter is enabled: what does not change -/
structure SameSetup (e0 e : Estimator) : Prop where
  static : e.prop.staticInit = e0.prop.staticInit
  size : e.prop.initBiasSize = e0.prop.initBiasSize
  R : e.prop.R_imu2body = e0.prop.R_imu2body
  tr : e.prop.t_imu2body = e0.prop.t_imu2body
  ori : e.prop.useImuOri = e0.prop.useImuOri
  rc : e.rotCov = e0.rotCov
  vc : e.velCov = e0.velCov
  pc : e.posCov = e0.posCov

theorem SameSetup.refl (e : Estimator) : SameSetup e e := ⟨rfl, rfl, rfl, rfl, rfl, rfl, rfl, rfl⟩

/-- the queues of the corrections from number `k` on hold data iff some arrived; those before got data -/
structure Queues (cs : List CorrConfig) (evs : List EstEv) (k : ℕ) (l : List Corr) : Prop where
  kinds : l.map Corr.isVel = cs.map CorrConfig.isVel
  before : ∀ i < k, GotData cs evs i
  after : ∀ i c, l[i]? = some c → k ≤ i → (0 < c.queued ↔ GotData cs evs i)

/-- what has happened since construction -/
inductive Phase (e0 : Estimator) (N : ℕ) (cs : List CorrConfig) (evs : List EstEv) (pubs : List RobotState) (e : Estimator) : Prop
  | bias (en : e.enabled = false) (pe : e.pending = none) (bi : e.prop.biasInitialized = false) (pu : pubs = [])
      (set : SameSetup e0 e) (c : ℕ) (hc : c ≤ N) (hc' : c ≤ (imuArrivals evs).length) (buf : e.prop.buffer = (imuArrivals evs).drop c)
      (vec : e.prop.biasInitVec = ((imuArrivals evs).take c).map e0.prop.biasSample) (bg : e.prop.bg0 = e0.prop.bg0)
      (ba : e.prop.ba0 = e0.prop.ba0) (q : Queues cs evs 0 e.corrs)
  | ready (en : e.enabled = false) (pe : e.pending = none) (bi : e.prop.biasInitialized = true) (pu : pubs = [])
      (set : SameSetup e0 e) (hc : N ≤ (imuArrivals evs).length) (buf : e.prop.buffer = (imuArrivals evs).drop N)
      (bg : e.prop.bg0 = startGyroBias e0.prop N (imuArrivals evs)) (ba : e.prop.ba0 = startAccelBias e0.prop N (imuArrivals evs))
      (q : Queues cs evs 0 e.corrs)
  | wait (en : e.enabled = false) (k : ℕ) (pe : e.pending = some k) (pu : pubs = [])
      (set : SameSetup e0 e) (m : ImuMeas) (hm : (imuArrivals evs)[N]? = some m) (buf : e.prop.buffer = (imuArrivals evs).drop (N + 1))
      (pr : e.prop.prev = some m)
      (rot : e.state.get_rotation = some (if e0.prop.useImuOri then m.quat.toRot else 1)) (tp : e.state.tProp = some m.time)
      (pos : e.state.get_position = some 0) (bg : e.state.get_gyroscope_bias = some (startGyroBias e0.prop N (imuArrivals evs)))
      (ba : e.state.get_accelerometer_bias = some (startAccelBias e0.prop N (imuArrivals evs)))
      (q : Queues cs evs k e.corrs)
  | run (en : e.enabled = true) (pe : e.pending = none) (s0 : RobotState) (rest : List RobotState) (pu : pubs = s0 :: rest)
      (first : StartsWith e0 N (imuArrivals evs) s0) (data : ∀ i < cs.length, GotData cs evs i) (j : ℕ)
      (pr : e.prop.prev = (imuArrivals evs)[N + j]?) (hj : N + j < (imuArrivals evs).length)
      (buf : e.prop.buffer = (imuArrivals evs).drop (N + j + 1))
      (tp : e.state.tProp = (imuArrivals evs)[N + (j - 1)]?.map ImuMeas.time) (hp : j ≤ rest.length)

theorem gotData_mono {cs evs ev i} (h : GotData cs evs i) : GotData cs (evs ++ [ev]) i := by
  unfold GotData at h ⊢
  split
  · next hc => rw [hc] at h; obtain ⟨m, h⟩ := h; exact ⟨m, by simp [h]⟩
  · next hc => rw [hc] at h; obtain ⟨m, h⟩ := h; exact ⟨m, by simp [h]⟩
  · trivial

theorem initFrom_phase {e : Estimator} {K : Heap} (g : InitOK K e.state) (rc : 0 ≤ e.rotCov) (vc : 0 ≤ e.velCov) (pc : 0 ≤ e.posCov)
    (hen : e.enabled = false) {w : V3} (hw : e.state.bodyAngVel = some w)
    {R : M3} (hR : e.state.get_rotation = some R) (k : ℕ) {e' : Estimator} (h : e.initFrom k = some e') :
    ∃ pre post, e.corrs.drop k = pre ++ post ∧ (∀ c ∈ pre, 0 < c.queued) ∧ (∀ c ∈ post.head?, c.queued = 0) ∧
      e'.corrs = e.corrs.take k ++ pre.map Corr.drained ++ post ∧ e'.prop = e.prop ∧ SameSetup e e' ∧
      e'.state.get_rotation = some R ∧ e'.state.get_position = e.state.get_position ∧ e'.state.Theta = e.state.Theta ∧
      e'.state.tProp = e.state.tProp ∧
      ((post ≠ [] ∧ e'.enabled = false ∧ e'.pending = some (e.corrs.take k ++ pre).length ∧ e'.outQ = e.outQ) ∨
       (post = [] ∧ e'.enabled = true ∧ e'.pending = none ∧ e'.outQ = e.outQ ++ [e'.state] ∧
        e'.state.get_rotation_covariance = some (e.rotCov • (1 : M3)) ∧ e'.state.get_velocity_covariance = some (e.velCov • (1 : M3)) ∧
        e'.state.get_position_covariance = some (e.posCov • (1 : M3)))) := by
  obtain ⟨s', g', f', r', p', t', pre, post, q1, q2, q3, q4, q5⟩ := initCorrs_ok (e.corrs.drop k) (e.corrs.take k) g hw hR
  refine ⟨pre, post, q1, q2, q3, ?_⟩
  unfold Estimator.initFrom at h
  rw [q4] at h
  simp only [Option.bind_eq_bind, Option.bind_some] at h
  cases post with
  | nil =>
    obtain ⟨s1, s2, s3, c1, c2, c3, g3, fr, k1, k2, k3, -⟩ := finishInit_ok g' rc vc pc
    simp only [Estimator.finishInit] at h
    rw [c1] at h
    simp only [Option.bind_eq_bind, Option.bind_some] at h
    rw [c2] at h
    simp only [Option.bind_some] at h
    rw [c3] at h
    simp only [Option.bind_some] at h
    obtain rfl := Option.some.inj h
    refine ⟨rfl, rfl, ⟨rfl, rfl, rfl, rfl, rfl, rfl, rfl, rfl⟩, ?_, ?_, ?_, ?_, .inr ⟨rfl, rfl, rfl, rfl, k1, k2, k3⟩⟩
    · show s3.get_rotation = _; rw [fr]; exact r'
    · show s3.get_position = _
      have e0 : s3.get_position = s'.get_position := by rw [fr]; rfl
      rw [e0, p']
    · show s3.Theta = _; rw [fr]; show s'.Theta = _; rw [f']
    · show s3.tProp = _; rw [fr]; show s'.tProp = _; rw [f']
  | cons c cs =>
    simp only at h
    obtain rfl := Option.some.inj h
    refine ⟨rfl, rfl, ⟨rfl, rfl, rfl, rfl, rfl, rfl, rfl, rfl⟩, r', p', ?_, ?_, .inl ⟨by simp, hen, by simp, rfl⟩⟩
    · show s'.Theta = _; rw [f']
    · show s'.tProp = _; rw [f']

theorem isVel_drained (c : Corr) : c.drained.isVel = c.isVel := by cases c <;> rfl

theorem gotData_congr {cs : List CorrConfig} {evs ev i} (h : ∀ m, ev ≠ EstEv.vel i m) (h' : ∀ m, ev ≠ EstEv.leg i m) :
    GotData cs (evs ++ [ev]) i ↔ GotData cs evs i := by
  refine ⟨fun g => ?_, gotData_mono⟩
  unfold GotData at g ⊢
  split
  · next hc =>
    rw [hc] at g
    obtain ⟨m, g⟩ := g
    rcases List.mem_append.mp g with g | g
    · exact ⟨m, g⟩
    · rw [List.mem_singleton] at g; exact absurd g.symm (h m)
  · next hc =>
    rw [hc] at g
    obtain ⟨m, g⟩ := g
    rcases List.mem_append.mp g with g | g
    · exact ⟨m, g⟩
    · rw [List.mem_singleton] at g; exact absurd g.symm (h' m)
  · trivial

theorem Queues.other {cs evs k l ev} (q : Queues cs evs k l) (h : ∀ i m, ev ≠ EstEv.vel i m) (h' : ∀ i m, ev ≠ EstEv.leg i m) :
    Queues cs (evs ++ [ev]) k l :=
  ⟨q.kinds, fun i hi => gotData_mono (q.before i hi), fun i c hc hk => (q.after i c hc hk).trans (gotData_congr (h i) (h' i)).symm⟩

theorem isVel_pushVel (m) (c : Corr) : (c.pushVel m).isVel = c.isVel := by cases c <;> rfl
theorem isVel_pushLeg (m) (c : Corr) : (c.pushLeg m).isVel = c.isVel := by cases c <;> rfl

theorem map_modify_isVel {f : Corr → Corr} (hf : ∀ c, (f c).isVel = c.isVel) (l : List Corr) (i : ℕ) :
    (l.modify i f).map Corr.isVel = l.map Corr.isVel := by
  refine List.ext_getElem? fun j => ?_
  rw [List.getElem?_map, List.getElem?_map, List.getElem?_modify]
  cases l[j]? with
  | none => rfl
  | some c => simp only [Option.map_some]; split_ifs <;> simp [hf]

theorem Queues.kind_at {cs evs k l} (q : Queues cs evs k l) {i : ℕ} {c : Corr} (h : l[i]? = some c) :
    ∃ d, cs[i]? = some d ∧ d.isVel = c.isVel := by
  have := congrArg (fun x => x[i]?) q.kinds
  simp only [List.getElem?_map, h, Option.map_some] at this
  obtain ⟨d, h1, h2⟩ := Option.map_eq_some_iff.mp this.symm
  exact ⟨d, h1, h2⟩

theorem Queues.push {cs evs k l} (q : Queues cs evs k l) {f : Corr → Corr} {j : ℕ} {ev : EstEv} (b : Bool)
    (hv : ∀ i m, ev = EstEv.vel i m → i = j ∧ b = true) (hl : ∀ i m, ev = EstEv.leg i m → i = j ∧ b = false)
    (hb : b = true → ∃ m, ev = EstEv.vel j m) (hb' : b = false → ∃ m, ev = EstEv.leg j m)
    (hf : ∀ c, (f c).isVel = c.isVel) (h1 : ∀ c, c.isVel = b → 0 < (f c).queued) (h2 : ∀ c, c.isVel ≠ b → f c = c) :
    Queues cs (evs ++ [ev]) k (l.modify j f) := by
  refine ⟨(map_modify_isVel hf l j).trans q.kinds, fun i hi => gotData_mono (q.before i hi), fun i c hc hk => ?_⟩
  rw [List.getElem?_modify] at hc
  obtain ⟨c0, hc0, hc1⟩ := Option.map_eq_some_iff.mp hc
  have a := q.after i c0 hc0 hk
  by_cases hij : j = i
  · subst hij
    rw [if_pos rfl] at hc1
    subst hc1
    obtain ⟨d, hd, hk'⟩ := q.kind_at hc0
    by_cases hcb : c0.isVel = b
    · refine ⟨fun _ => ?_, fun _ => h1 c0 hcb⟩
      unfold GotData
      rw [hd]
      cases d with
      | vel d =>
        obtain ⟨m, hm⟩ := hb (by rw [← hcb, ← hk']; rfl)
        exact ⟨m, by simp [hm]⟩
      | leg d =>
        obtain ⟨m, hm⟩ := hb' (by rw [← hcb, ← hk']; rfl)
        exact ⟨m, by simp [hm]⟩
    · rw [h2 c0 hcb]
      refine a.trans ⟨gotData_mono, fun g => ?_⟩
      unfold GotData at g ⊢
      rw [hd] at g ⊢
      cases d with
      | vel d =>
        obtain ⟨m, g⟩ := g
        rcases List.mem_append.mp g with g | g
        · exact ⟨m, g⟩
        · rw [List.mem_singleton] at g
          exact absurd (hk'.symm.trans (hv j m g.symm).2.symm) hcb
      | leg d =>
        obtain ⟨m, g⟩ := g
        rcases List.mem_append.mp g with g | g
        · exact ⟨m, g⟩
        · rw [List.mem_singleton] at g
          exact absurd (hk'.symm.trans (hl j m g.symm).2.symm) hcb
  · rw [if_neg hij] at hc1
    subst hc1
    refine a.trans (gotData_congr (fun m hm => ?_) fun m hm => ?_).symm
    · exact hij (hv i m hm).1.symm
    · exact hij (hl i m hm).1.symm

theorem Queues.pushVel {cs evs k l} (q : Queues cs evs k l) (j : ℕ) (m : VelMeas) :
    Queues cs (evs ++ [.vel j m]) k (l.modify j (Corr.pushVel m)) := by
  refine q.push true ?_ ?_ (fun _ => ⟨m, rfl⟩) (by simp) (isVel_pushVel m) ?_ ?_
  · intro i m' h; cases h; exact ⟨rfl, rfl⟩
  · intro i m' h; cases h
  · intro c hc; cases c with
    | vel c => simp [Corr.pushVel, Corr.queued]
    | leg c => cases hc
  · intro c hc; cases c with
    | vel c => exact absurd rfl hc
    | leg c => rfl

theorem Queues.pushLeg {cs evs k l} (q : Queues cs evs k l) (j : ℕ) (m : LegMeas) :
    Queues cs (evs ++ [.leg j m]) k (l.modify j (Corr.pushLeg m)) := by
  refine q.push false ?_ ?_ (by simp) (fun _ => ⟨m, rfl⟩) (isVel_pushLeg m) ?_ ?_
  · intro i m' h; cases h
  · intro i m' h; cases h; exact ⟨rfl, rfl⟩
  · intro c hc; cases c with
    | vel c => cases hc
    | leg c => simp [Corr.pushLeg, Corr.queued]
  · intro c hc; cases c with
    | vel c => rfl
    | leg c => exact absurd rfl hc

end Drift
