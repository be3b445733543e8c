import Verif.Spec.Perfect
import Verif.Props.Imu
import Verif.Props.Velocity
import Verif.Lemmas.Est5

/-! # Lemmas: sensors without error -/
set_option linter.unusedSimpArgs false
namespace Drift
open Mat Matrix RobotState

/-- the estimate is the truth at the propagation time `tp`, and so are the biases -/
structure TrueAt (T : Truth) (bg ba : V3) (tp : ℝ) (s : RobotState) : Prop where
  shape : ∃ K, Shape K s
  world : s.stateType = .worldCentric
  time : s.tProp = some tp
  at_ : T.At tp s
  bg : s.get_gyroscope_bias = some bg
  ba : s.get_accelerometer_bias = some ba

theorem TrueAt.setT {T : Truth} {bg ba : V3} {tp : ℝ} {s : RobotState} (h : TrueAt T bg ba tp s) (t : Option ℝ) : TrueAt T bg ba tp { s with t := t } := by
  obtain ⟨⟨K, hK⟩, h2, h3, h4, h5, h6⟩ := h
  exact ⟨⟨K, hK.setT t⟩, h2, h3, h4, h5, h6⟩

theorem prop_exact {T : Truth} {Rm : M3} {tm bg ba : V3} {K : ℕ} {h : Heap} {s s' : RobotState} {p p' : ImuProp} {tp : ℝ} {m : ImuMeas} {b : Bool}
    {fut : List ImuMeas} (g : Good K h s) (hx : TrueAt T bg ba tp s) (h1 : p.R_imu2body = Rm) (h2 : p.t_imu2body = tm) (hm : p.prev = some m)
    (hI : T.Imus Rm tm bg ba tp (m :: (p.buffer ++ fut))) (e : p.propagate s = some (b, p', s')) :
    p'.R_imu2body = Rm ∧ p'.t_imu2body = tm ∧ (b = true → s'.t = s'.tProp) ∧
      ∃ tp' m', TrueAt T bg ba tp' s' ∧ p'.prev = some m' ∧ T.Imus Rm tm bg ba tp' (m' :: (p'.buffer ++ fut)) := by
  obtain ⟨bu, hb⟩ : ∃ bu, p.buffer = bu := ⟨_, rfl⟩
  cases bu with
  | nil =>
    rw [C36_empty p s hb] at e
    obtain ⟨rfl, rfl, rfl⟩ := Option.some.inj e
    exact ⟨h1, h2, by simp, tp, m, hx, hm, hI⟩
  | cons f rest =>
    have hsq := g.q.psd.sq
    have hr : PropReady K p s m f rest tp := ⟨g.shape, g.world, g.q.r, by rw [← hsq]; exact g.q.r, hb, hm, hx.time⟩
    obtain ⟨hle, w, a, R, v, q, hw, ha, hS, hdt, hT⟩ := hI.1
    have hwa : RatesOf p m bg ba w a := by
      constructor
      · rw [h1, hw]; abel
      · rw [h1, ha, h2]; abel
    have t0 := hT tp (le_refl _) hle
    have t1 := hT m.time hle (le_refl _)
    rw [sub_self] at t0
    obtain ⟨p2, s2, e2, k1, k2, k3⟩ := C32_strapdown hr hx.bg hx.ba hwa hdt hS (by rw [← t0.1]; exact hx.at_.1) (by rw [← t0.2.1]; exact hx.at_.2.1)
      (by rw [← t0.2.2]; exact hx.at_.2.2)
    obtain ⟨X, P, e3⟩ := C36_step hr
    have hgr := C34_on_group hr e3
    rw [e] at e2 e3
    obtain ⟨-, -, rfl⟩ := Option.some.inj e2
    obtain ⟨-, rfl, rfl⟩ := Option.some.inj e3
    refine ⟨h1, h2, fun _ => rfl, m.time, f, ⟨⟨K, hgr⟩, hx.world, rfl, ?_, hx.bg, hx.ba⟩, rfl, ?_⟩
    · exact ⟨by rw [t1.1]; exact k1, by rw [t1.2.1]; exact k2, by rw [t1.2.2]; exact k3⟩
    · have := hI.2
      rw [hb] at this
      exact this

/-- one velocity correction -/
theorem vel_exact {T : Truth} {bg ba : V3} {s s' : RobotState} {c c' : VelCorr} {tp : ℝ} {b : Bool} (hx : TrueAt T bg ba tp s) (hst : T.Steady)
    (hrot : ∀ t, IsRot (T.R t)) (hv : ∀ m ∈ c.buffer, T.Vel c m) (e : c.correct s = some (b, c', s')) :
    TrueAt T bg ba tp s' ∧ (∃ bu, c' = { c with buffer := bu }) ∧ ∀ m ∈ c'.buffer, m ∈ c.buffer := by
  obtain ⟨K, hsh⟩ := hx.shape
  have key : ∀ {l : List VelMeas} {m : VelMeas}, m ∈ c.buffer → (∀ x ∈ l, x ∈ c.buffer) → (c.apply m s).bind (fun s' => some (true, { c with buffer := l }, s')) =
      some (b, c', s') → TrueAt T bg ba tp s' ∧ (∃ bu, c' = { c with buffer := bu }) ∧ ∀ m ∈ c'.buffer, m ∈ c.buffer := by
    intro l m hm hl h
    rw [Option.bind_eq_some_iff] at h
    obtain ⟨s1, h1, h⟩ := h
    obtain ⟨-, rfl, rfl⟩ := Option.some.inj h
    have hu := (velApply_iff hsh hx.world c m).mp h1
    obtain ⟨u, hu'⟩ := hst
    have hz : c.scale • (T.R tp).mulVec (c.R_vel2body.mulVec m.vel) = T.v tp := by
      have h3 : (T.R m.time).mulVec (c.scale • c.R_vel2body.mulVec m.vel) = T.v m.time := hv m hm
      rw [hu' m.time] at h3
      have h4 := congrArg ((T.R m.time)ᵀ.mulVec ·) h3
      simp only [mulVec_mulVec, (hrot m.time).1, one_mulVec] at h4
      rw [hu' tp, ← h4, mulVec_smul]
    obtain ⟨hX, hTh⟩ := C50_perfect_measurement (hsh.setT (some m.time)) (hx.at_.1) (hx.at_.2.1) hz hu
    have hX : s'.X = s.X := hX
    have hTh : s'.Theta = s.Theta := hTh
    obtain ⟨R, v, -, -, h5⟩ := hu
    have hfr := C23_frame (hsh.setT (some m.time)) (Or.inl h5)
    refine ⟨⟨⟨K, C23_right_on_group (hsh.setT (some m.time)) h5⟩, ?_, ?_, ?_, ?_, ?_⟩, ⟨l, rfl⟩, fun x hx => hl x hx⟩
    · rw [hfr]; exact hx.world
    · rw [hfr]; exact hx.time
    · refine ⟨?_, ?_, ?_⟩
      · unfold get_rotation; rw [hX]; exact hx.at_.1
      · unfold get_velocity; rw [hX]; exact hx.at_.2.1
      · unfold get_position; rw [hX]; exact hx.at_.2.2
    · unfold get_gyroscope_bias; rw [hTh]; exact hx.bg
    · unfold get_accelerometer_bias; rw [hTh]; exact hx.ba
  unfold VelCorr.correct at e
  obtain ⟨bu, hb⟩ : ∃ bu, c.buffer = bu := ⟨_, rfl⟩
  rw [hb] at e
  cases bu with
  | nil =>
    obtain ⟨-, rfl, rfl⟩ := Option.some.inj e
    exact ⟨hx, ⟨c.buffer, rfl⟩, fun _ h => h⟩
  | cons front rest =>
    simp only [Option.bind_eq_bind, Option.bind_eq_some_iff] at e
    obtain ⟨tp', -, e⟩ := e
    split_ifs at e
    · obtain ⟨-, rfl, rfl⟩ := Option.some.inj e
      exact ⟨hx, ⟨c.buffer, rfl⟩, fun _ h => h⟩
    · obtain ⟨pf, hp⟩ : ∃ pf, popFresh VelMeas.time c.tDiffThres tp' front rest = pf := ⟨_, rfl⟩
      rw [hp] at e
      cases pf with
      | none =>
        obtain ⟨-, rfl, rfl⟩ := Option.some.inj e
        exact ⟨hx, ⟨[], rfl⟩, by simp⟩
      | some q =>
        obtain ⟨m, r⟩ := q
        obtain ⟨pre, he, -, -⟩ := popFresh_some.mp hp
        refine key (l := r) (m := m) (by rw [hb, he]; simp) (fun x hx => by rw [hb, he]; simp [hx]) ?_
        exact e

/-- the queue of a correction changes, its mounting and scale do not -/
def SameMount (c c' : VelCorr) : Prop := ∃ bu, c' = { c with buffer := bu }

theorem SameMount.vel {T : Truth} {c c' : VelCorr} (h : SameMount c c') {m : VelMeas} : T.Vel c' m ↔ T.Vel c m := by
  obtain ⟨bu, rfl⟩ := h; exact Iff.rfl

theorem SameMount.trans {a b c : VelCorr} (h : SameMount a b) (h' : SameMount b c) : SameMount a c := by
  obtain ⟨_, rfl⟩ := h; obtain ⟨bu, rfl⟩ := h'; exact ⟨bu, rfl⟩

theorem correctAll_exact {T : Truth} {bg ba : V3} {tp : ℝ} (hst : T.Steady) (hrot : ∀ t, IsRot (T.R t)) (vs : List VelCorr) :
    ∀ {h h' : Heap} {s s' : RobotState} {b : Bool} {cs : List Corr}, TrueAt T bg ba tp s → (∀ c ∈ vs, ∀ m ∈ c.buffer, T.Vel c m) →
      Estimator.correctAll (velOnly vs) h s = some (b, cs, h', s') →
      TrueAt T bg ba tp s' ∧ ∃ ws, cs = velOnly ws ∧ List.Forall₂ SameMount vs ws ∧ ∀ c ∈ ws, ∀ m ∈ c.buffer, T.Vel c m := by
  induction vs with
  | nil =>
    intro h h' s s' b cs hx _ e
    obtain ⟨-, rfl, -, rfl⟩ := Option.some.inj e
    exact ⟨hx, [], rfl, .nil, by simp⟩
  | cons c vs ih =>
    intro h h' s s' b cs hx hv e
    unfold velOnly at e
    simp only [List.map_cons, Estimator.correctAll, Option.bind_eq_bind, Option.bind_eq_some_iff] at e
    obtain ⟨⟨b1, c1, h1, s1⟩, e1, ⟨b2, cs2, h2, s2⟩, e2, e⟩ := e
    obtain ⟨-, rfl, -, rfl⟩ := Option.some.inj e
    simp only [Corr.correct, Option.map_eq_some_iff] at e1
    obtain ⟨⟨b3, c3, s3⟩, e3, e4⟩ := e1
    obtain ⟨-, rfl, -, rfl⟩ := e4
    obtain ⟨hx1, hm1, hb1⟩ := vel_exact hx hst hrot (hv c (by simp)) e3
    obtain ⟨hx2, ws, rfl, hf, hw⟩ := ih hx1 (fun c hc => hv c (by simp [hc])) e2
    refine ⟨hx2, c3 :: ws, rfl, .cons hm1 hf, ?_⟩
    intro d hd m hm
    rcases List.mem_cons.mp hd with rfl | hd
    · exact (SameMount.vel hm1).mpr (hv c (by simp) m (hb1 m hm))
    · exact hw d hd m hm

/-- the invariant of a history -/
structure ExactInv (T : Truth) (Rm : M3) (tm bg ba : V3) (vs : List VelCorr) (fut : List ImuMeas) (e : Estimator) : Prop where
  inv : EstInv fut e
  en : e.enabled = true
  hrm : e.prop.R_imu2body = Rm
  htm : e.prop.t_imu2body = tm
  ex : ∃ tp m, TrueAt T bg ba tp e.state ∧ e.prop.prev = some m ∧ T.Imus Rm tm bg ba tp (m :: (e.prop.buffer ++ fut))
  cs : ∃ ws, e.corrs = velOnly ws ∧ List.Forall₂ SameMount vs ws ∧ ∀ c ∈ ws, ∀ m ∈ c.buffer, T.Vel c m

theorem velOnly_modify (m : VelMeas) : ∀ (ws : List VelCorr) (i : ℕ), (velOnly ws).modify i (Corr.pushVel m) =
    velOnly (ws.modify i fun c => { c with buffer := c.buffer ++ [m] }) := by
  intro ws
  induction ws with
  | nil => intro i; cases i <;> rfl
  | cons c ws ih =>
    intro i
    cases i with
    | zero => rfl
    | succ i =>
      have := ih i
      unfold velOnly at this ⊢
      simp only [List.map_cons, List.modify_succ_cons, this]

theorem velOnly_modifyLeg (m : LegMeas) : ∀ (ws : List VelCorr) (i : ℕ), (velOnly ws).modify i (Corr.pushLeg m) = velOnly ws := by
  intro ws
  induction ws with
  | nil => intro i; cases i <;> rfl
  | cons c ws ih =>
    intro i
    cases i with
    | zero => rfl
    | succ i =>
      have := ih i
      unfold velOnly at this ⊢
      simp only [List.map_cons, List.modify_succ_cons, this]

theorem modify_mount {vs ws : List VelCorr} (h : List.Forall₂ SameMount vs ws) (m : VelMeas) : ∀ i : ℕ,
    List.Forall₂ SameMount vs (ws.modify i fun c => { c with buffer := c.buffer ++ [m] }) := by
  induction h with
  | nil => intro i; cases i <;> exact .nil
  | @cons a b l1 l2 hab hl ih =>
    intro i
    cases i with
    | zero =>
      simp only [List.modify_zero_cons]
      exact .cons (hab.trans ⟨_, rfl⟩) hl
    | succ i =>
      simp only [List.modify_succ_cons]
      exact .cons hab (ih i)

theorem modify_perfect {T : Truth} {vs ws : List VelCorr} (h : List.Forall₂ SameMount vs ws) (m : VelMeas) : ∀ i : ℕ,
    (∀ c, vs[i]? = some c → T.Vel c m) → (∀ c ∈ ws, ∀ m ∈ c.buffer, T.Vel c m) →
    ∀ c ∈ ws.modify i (fun c => { c with buffer := c.buffer ++ [m] }), ∀ m ∈ c.buffer, T.Vel c m := by
  induction h with
  | nil => intro i _ _ c hc; cases i <;> simp at hc
  | @cons a b l1 l2 hab hl ih =>
    intro i hi hw
    cases i with
    | zero =>
      simp only [List.modify_zero_cons]
      intro c hc x hx
      rcases List.mem_cons.mp hc with rfl | hc
      · rcases List.mem_append.mp hx with hx | hx
        · exact hw b (by simp) x hx
        · obtain rfl : x = m := by simpa using hx
          exact (SameMount.vel hab).mpr (hi a rfl)
      · exact hw c (by simp [hc]) x hx
    | succ i =>
      simp only [List.modify_succ_cons]
      intro c hc x hx
      rcases List.mem_cons.mp hc with rfl | hc
      · exact hw c (by simp) x hx
      · exact ih i hi (fun c hc => hw c (by simp [hc])) c hc x hx

theorem ExactInv.step {T : Truth} {Rm : M3} {tm bg ba : V3} {vs : List VelCorr} {fut : List ImuMeas} {e e' : Estimator} {ev : EstEv}
    (hs : vs = [] ∨ T.Steady) (hrot : ∀ t, IsRot (T.R t)) (i : ExactInv T Rm tm bg ba vs (imuArrivals [ev] ++ fut) e) (hne : ev ≠ .clear)
    (hv : ∀ k m, ev = .vel k m → ∀ c, vs[k]? = some c → T.Vel c m) (he : e.step ev = some e') :
    ExactInv T Rm tm bg ba vs fut e' ∧
      ∀ s ∈ publishedBy e ev, (∃ tp, TrueAt T bg ba tp s) ∧ (vs = [] → s.t = s.tProp) := by
  obtain ⟨e2, h2, inv⟩ := step_inv ev i.inv
  rw [he] at h2
  obtain rfl := Option.some.inj h2
  have pub0 : ev ≠ .tick → publishedBy e ev = [] := by
    intro h
    cases ev <;> first | rfl | exact absurd rfl h
  obtain ⟨tp, m, hx, hm, hI⟩ := i.ex
  obtain ⟨ws, hws, hf, hw⟩ := i.cs
  cases ev with
  | clear => exact absurd rfl hne
  | imu f =>
    rw [pub0 (by simp)]
    obtain rfl := Option.some.inj he
    refine ⟨⟨inv, i.en, i.hrm, i.htm, ⟨tp, m, hx, hm, ?_⟩, ⟨ws, hws, hf, hw⟩⟩, by simp⟩
    simpa [imuArrivals] using hI
  | vel k f =>
    rw [pub0 (by simp)]
    obtain rfl := Option.some.inj he
    refine ⟨⟨inv, i.en, i.hrm, i.htm, ⟨tp, m, hx, hm, by simpa [imuArrivals] using hI⟩,
      ⟨ws.modify k fun c => { c with buffer := c.buffer ++ [f] }, ?_, modify_mount hf f k, modify_perfect hf f k (hv k f rfl) hw⟩⟩, by simp⟩
    show e.corrs.modify k (Corr.pushVel f) = _
    rw [hws, velOnly_modify]
  | leg k f =>
    rw [pub0 (by simp)]
    obtain rfl := Option.some.inj he
    refine ⟨⟨inv, i.en, i.hrm, i.htm, ⟨tp, m, hx, hm, by simpa [imuArrivals] using hI⟩, ⟨ws, ?_, hf, hw⟩⟩, by simp⟩
    show e.corrs.modify k (Corr.pushLeg f) = _
    rw [hws, velOnly_modifyLeg]
  | log =>
    rw [pub0 (by simp)]
    simp only [Estimator.step, Option.map_eq_some_iff] at he
    obtain ⟨l, -, rfl⟩ := he
    exact ⟨⟨inv, i.en, i.hrm, i.htm, ⟨tp, m, hx, hm, by simpa [imuArrivals] using hI⟩, ⟨ws, hws, hf, hw⟩⟩, by simp⟩
  | consume =>
    rw [pub0 (by simp)]
    obtain rfl := Option.some.inj he
    exact ⟨⟨inv, i.en, i.hrm, i.htm, ⟨tp, m, hx, hm, by simpa [imuArrivals] using hI⟩, ⟨ws, hws, hf, hw⟩⟩, by simp⟩
  | tick =>
    have hpend := (i.inv.run i.en).1
    have hrun : e.runOnce = some e' := by
      have : e.tick = some e' := he
      unfold Estimator.tick at this
      rw [hpend] at this
      simpa [i.en] using this
    obtain ⟨K, g⟩ := i.inv.good
    unfold Estimator.runOnce at hrun
    simp only [Option.bind_eq_bind, Option.bind_eq_some_iff] at hrun
    obtain ⟨⟨b, p, s1⟩, e1, ⟨b', cs, hh, s2⟩, e2, hrun⟩ := hrun
    obtain ⟨q1, q2, q3, tp', m', hx1, hm', hI'⟩ := prop_exact g hx i.hrm i.htm hm hI e1
    have hall : TrueAt T bg ba tp' s2 ∧ (∃ ws', cs = velOnly ws' ∧ List.Forall₂ SameMount vs ws' ∧ ∀ c ∈ ws', ∀ m ∈ c.buffer, T.Vel c m) ∧
        (vs = [] → b' = false ∧ s2 = s1) := by
      rcases hs with rfl | hs
      · cases hf
        rw [hws] at e2
        obtain ⟨rfl, rfl, -, rfl⟩ := Option.some.inj e2
        exact ⟨hx1, ⟨[], rfl, .nil, by simp⟩, fun _ => ⟨rfl, rfl⟩⟩
      · rw [hws] at e2
        obtain ⟨k1, ws', k2, k3, k4⟩ := correctAll_exact hs hrot ws hx1 hw e2
        refine ⟨k1, ⟨ws', k2, ?_, k4⟩, ?_⟩
        · clear * - hf k3
          induction hf generalizing ws' with
          | nil => cases k3; exact .nil
          | cons h1 h2 ih => cases k3 with
            | cons h3 h4 => exact .cons (h1.trans h3) (ih _ h4)
        · rintro rfl
          cases hf
          obtain ⟨rfl, -, -, rfl⟩ := Option.some.inj e2
          exact ⟨rfl, rfl⟩
    obtain ⟨hx2, hcs, hnil⟩ := hall
    have hst : e'.state = s2 ∧ e'.prop = p ∧ e'.corrs = cs ∧ e'.enabled = true := by
      simp only at hrun
      split_ifs at hrun <;> (rw [← Option.some.inj hrun]; exact ⟨rfl, rfl, rfl, i.en⟩)
    obtain ⟨r1, r2, r3, r4⟩ := hst
    refine ⟨⟨inv, r4, by rw [r2]; exact q1, by rw [r2]; exact q2, ⟨tp', m', by rw [r1]; exact hx2, by rw [r2]; exact hm', by rw [r2]; simpa [imuArrivals] using hI'⟩,
      by rw [r3]; exact hcs⟩, ?_⟩
    intro s hs'
    have hpb : publishedBy e .tick = e'.outQ.drop e.outQ.length := by unfold publishedBy; rw [he]
    rw [hpb] at hs'
    have hcase : s = s2 ∧ (b || b') = true := by
      simp only at hrun
      split_ifs at hrun with hb
      · rw [← Option.some.inj hrun] at hs'
        simp at hs'
        exact ⟨hs', by simpa using hb⟩
      · rw [← Option.some.inj hrun] at hs'
        simp at hs'
    obtain ⟨rfl, hb⟩ := hcase
    refine ⟨⟨tp', hx2⟩, fun h0 => ?_⟩
    obtain ⟨rfl, rfl⟩ := hnil h0
    exact q3 (by simpa using hb)

end Drift
