import Verif.Lemmas.Boot1

/-! # Lemmas: starting up, what arrives -/
namespace Drift
open Mat Matrix RobotState

theorem imuArrivals_snoc (evs : List EstEv) (ev : EstEv) : imuArrivals (evs ++ [ev]) = imuArrivals evs ++ imuArrivals [ev] := by
  induction evs with
  | nil => rfl
  | cons a evs ih =>
    rw [List.cons_append, imuArrivals_cons, ih, imuArrivals_cons a evs, List.append_assoc]

theorem startGyroBias_append {p : ImuProp} {N : ℕ} {l x : List ImuMeas} (h : N ≤ l.length) :
    startGyroBias p N (l ++ x) = startGyroBias p N l := by
  unfold startGyroBias
  rw [List.take_append_of_le_length h]

theorem startAccelBias_append {p : ImuProp} {N : ℕ} {l x : List ImuMeas} (h : N ≤ l.length) :
    startAccelBias p N (l ++ x) = startAccelBias p N l := by
  unfold startAccelBias
  rw [List.take_append_of_le_length h]

theorem getElem?_append_some {α : Type} {l x : List α} {i : ℕ} {a : α} (h : l[i]? = some a) : (l ++ x)[i]? = some a := by
  have hi : i < l.length := by
    by_contra hn
    rw [List.getElem?_eq_none (by omega)] at h
    cases h
  rw [List.getElem?_append_left hi]; exact h

theorem StartsWith.append {e0 N l s} (x : List ImuMeas) (h : StartsWith e0 N l s) : StartsWith e0 N (l ++ x) s := by
  obtain ⟨m, h1, h2, h3⟩ := h.first
  have hN : N ≤ l.length := by
    by_contra hn
    rw [List.getElem?_eq_none (by omega)] at h1
    cases h1
  refine ⟨⟨m, getElem?_append_some h1, h2, h3⟩, h.pos, ?_, ?_, h.rotCov, h.velCov, h.posCov⟩
  · rw [startGyroBias_append hN]; exact h.bg
  · rw [startAccelBias_append hN]; exact h.ba

/-- an event that only queues something (or concerns the output) -/
theorem Phase.quiet {e0 N cs evs pubs} {e e' : Estimator} (ph : Phase e0 N cs evs pubs e) (ev : EstEv)
    (hp : e'.prop = { e.prop with buffer := e.prop.buffer ++ imuArrivals [ev] }) (hs : e'.state = e.state) (hen : e'.enabled = e.enabled)
    (hpe : e'.pending = e.pending) (hrc : e'.rotCov = e.rotCov) (hvc : e'.velCov = e.velCov) (hpc : e'.posCov = e.posCov)
    (hq : ∀ k, Queues cs evs k e.corrs → Queues cs (evs ++ [ev]) k e'.corrs) : Phase e0 N cs (evs ++ [ev]) pubs e' := by
  have hset : SameSetup e0 e → SameSetup e0 e' := fun s =>
    ⟨by rw [hp]; exact s.static, by rw [hp]; exact s.size, by rw [hp]; exact s.R, by rw [hp]; exact s.tr, by rw [hp]; exact s.ori,
      hrc.trans s.rc, hvc.trans s.vc, hpc.trans s.pc⟩
  have ha := imuArrivals_snoc evs ev
  cases ph with
  | bias en pe bi pu set c hc hc' buf vec bg ba q =>
    refine .bias (hen.trans en) (hpe.trans pe) (by rw [hp]; exact bi) pu (hset set) c hc ?_ ?_ ?_ (by rw [hp]; exact bg) (by rw [hp]; exact ba) (hq 0 q)
    · rw [ha, List.length_append]; omega
    · rw [hp, ha, List.drop_append_of_le_length hc']
      show e.prop.buffer ++ _ = _
      rw [buf]
    · rw [hp, ha, List.take_append_of_le_length hc']; exact vec
  | ready en pe bi pu set hc buf bg ba q =>
    refine .ready (hen.trans en) (hpe.trans pe) (by rw [hp]; exact bi) pu (hset set) ?_ ?_ ?_ ?_ (hq 0 q)
    · rw [ha, List.length_append]; omega
    · rw [hp, ha, List.drop_append_of_le_length hc]
      show e.prop.buffer ++ _ = _
      rw [buf]
    · rw [hp, ha, startGyroBias_append hc]; exact bg
    · rw [hp, ha, startAccelBias_append hc]; exact ba
  | wait en k pe pu set m hm buf pr rot tp pos bg ba q =>
    have hl : N < (imuArrivals evs).length := by
      by_contra hn
      rw [List.getElem?_eq_none (by omega)] at hm
      cases hm
    refine .wait (hen.trans en) k (hpe.trans pe) pu (hset set) m ?_ ?_ (by rw [hp]; exact pr) (by rw [hs]; exact rot) (by rw [hs]; exact tp)
      (by rw [hs]; exact pos) ?_ ?_ (hq k q)
    · rw [ha]; exact getElem?_append_some hm
    · rw [hp, ha, List.drop_append_of_le_length (by omega)]
      show e.prop.buffer ++ _ = _
      rw [buf]
    · rw [hs, ha, startGyroBias_append (by omega)]; exact bg
    · rw [hs, ha, startAccelBias_append (by omega)]; exact ba
  | run en pe s0 rest pu first data j pr hj buf tp hpu =>
    refine .run (hen.trans en) (hpe.trans pe) s0 rest pu ?_ (fun i hi => gotData_mono (data i hi)) j ?_ ?_ ?_ ?_ hpu
    · rw [ha]; exact first.append _
    · rw [hp, ha, List.getElem?_append_left hj]; exact pr
    · rw [ha, List.length_append]; omega
    · rw [hp, ha, List.drop_append_of_le_length (by omega)]
      show e.prop.buffer ++ _ = _
      rw [buf]
    · rw [hs, ha, List.getElem?_append_left (by omega)]; exact tp

/-- the events other than a turn of the main loop -/
theorem Phase.other {e0 N cs evs pubs} {e e' : Estimator} (ph : Phase e0 N cs evs pubs e) (ev : EstEv) (h1 : ev ≠ .tick) (h2 : ev ≠ .clear)
    (h : e.step ev = some e') : Phase e0 N cs (evs ++ [ev]) (pubs ++ publishedBy e ev) e' := by
  have hpub : publishedBy e ev = [] := by
    unfold publishedBy
    cases ev <;> first | rfl | exact absurd rfl h1
  rw [hpub, List.append_nil]
  have nobuf : e.prop = { e.prop with buffer := e.prop.buffer ++ [] } := by rw [List.append_nil]
  cases ev with
  | imu m =>
    obtain rfl := Option.some.inj h
    exact ph.quiet _ rfl rfl rfl rfl rfl rfl rfl fun k q => q.other (by simp) (by simp)
  | vel i m =>
    obtain rfl := Option.some.inj h
    exact ph.quiet _ nobuf rfl rfl rfl rfl rfl rfl fun k q => q.pushVel i m
  | leg i m =>
    obtain rfl := Option.some.inj h
    exact ph.quiet _ nobuf rfl rfl rfl rfl rfl rfl fun k q => q.pushLeg i m
  | tick => exact absurd rfl h1
  | clear => exact absurd rfl h2
  | log =>
    obtain ⟨l, -, rfl⟩ := Option.map_eq_some_iff.mp h
    exact ph.quiet _ nobuf rfl rfl rfl rfl rfl rfl fun k q => q.other (by simp) (by simp)
  | consume =>
    obtain rfl := Option.some.inj h
    exact ph.quiet _ nobuf rfl rfl rfl rfl rfl rfl fun k q => q.other (by simp) (by simp)

end Drift
