import Verif.Lemmas.Boot2

/-! # Lemmas: starting up, the main loop -/
namespace Drift
open Mat Matrix RobotState

/-- turns of the main loop still needed, if the data are there -/
noncomputable def togo (N : ℕ) (e : Estimator) : ℕ :=
  if e.enabled then 0 else match e.pending with
    | some _ => 1
    | none => if e.prop.biasInitialized then 1 else N - e.prop.biasInitVec.length + 2

/-- the number of samples of the bias initialisation -/
structure SampleCount (p : ImuProp) (N : ℕ) : Prop where
  off : p.staticInit = false → N = 0
  on : p.staticInit = true → p.initBiasSize = N ∧ 1 ≤ N ∧ N < 2 ^ 31

/-- enough data -/
def Enough (N : ℕ) (cs : List CorrConfig) (evs : List EstEv) : Prop :=
  N < (imuArrivals evs).length ∧ ∀ i < cs.length, GotData cs evs i

theorem imuArrivals_tick (evs : List EstEv) : imuArrivals (evs ++ [.tick]) = imuArrivals evs := by
  rw [imuArrivals_snoc]; simp [imuArrivals]

theorem gotData_tick {cs evs i} : GotData cs (evs ++ [.tick]) i ↔ GotData cs evs i := gotData_congr (by simp) (by simp)

theorem Queues.tick {cs evs k l} (q : Queues cs evs k l) : Queues cs (evs ++ [.tick]) k l := q.other (by simp) (by simp)

theorem sample_congr {e0 e : Estimator} (s : SameSetup e0 e) : e.prop.biasSample = e0.prop.biasSample := by
  funext m
  unfold ImuProp.biasSample
  rw [s.R, s.tr, s.ori]

theorem publishedBy_tick {e e' : Estimator} (h : e.tick = some e') : publishedBy e .tick = e'.outQ.drop e.outQ.length := by
  unfold publishedBy
  rw [show e.step .tick = some e' from h]

/-- a turn during the bias initialisation -/
theorem phase_bias {e0 N cs evs} {e e' : Estimator} (hN : SampleCount e0.prop N) (hen : e.enabled = false) (hpe : e.pending = none)
    (bi : e.prop.biasInitialized = false) (set : SameSetup e0 e) (c : ℕ) (hc : c ≤ N) (hc' : c ≤ (imuArrivals evs).length)
    (buf : e.prop.buffer = (imuArrivals evs).drop c)
    (vec : e.prop.biasInitVec = ((imuArrivals evs).take c).map e0.prop.biasSample) (bg : e.prop.bg0 = e0.prop.bg0)
    (ba : e.prop.ba0 = e0.prop.ba0) (q : Queues cs evs 0 e.corrs) (h : e.initBias = some e') :
    Phase e0 N cs (evs ++ [.tick]) (e'.outQ.drop e.outQ.length) e' ∧ (Enough N cs evs → togo N e' < togo N e) := by
  have ht : togo N e = N - c + 2 := by
    unfold togo
    rw [hen, hpe, bi]
    simp [vec, hc']
  unfold Estimator.initBias at h
  obtain ⟨p, hp, rfl⟩ := Option.map_eq_some_iff.mp h
  have hout : (({ e with prop := p } : Estimator).outQ.drop e.outQ.length) = [] := by simp
  rw [hout, ht]
  unfold ImuProp.initImuBias at hp
  cases hst : e0.prop.staticInit with
  | false =>
    have hn := hN.off hst
    have hc0 : c = 0 := by omega
    subst hc0
    rw [if_pos (set.static.trans hst)] at hp
    obtain rfl := Option.some.inj hp
    refine ⟨.ready hen hpe rfl rfl ⟨set.static, set.size, set.R, set.tr, set.ori, set.rc, set.vc, set.pc⟩ (by omega) ?_ ?_ ?_ q.tick, fun _ => ?_⟩
    · rw [imuArrivals_tick, hn]; exact buf
    · unfold startGyroBias; rw [hst]; exact bg
    · unfold startAccelBias; rw [hst]; exact ba
    · unfold togo; simp [hen, hpe]
  | true =>
    obtain ⟨hsz, h1, h2⟩ := hN.on hst
    have hlen : e.prop.biasInitVec.length = c := by rw [vec]; simp [hc']
    rw [if_neg (by rw [set.static, hst]; simp), set.size, hsz, toSizeT_of_nonneg (by omega), hlen] at hp
    by_cases hl : c < N
    · rw [if_pos hl] at hp
      obtain ⟨bu, hb⟩ : ∃ bu, e.prop.buffer = bu := ⟨_, rfl⟩
      cases bu with
      | nil =>
        rw [hb] at hp
        obtain rfl := Option.some.inj hp
        refine ⟨.bias hen hpe bi rfl set c hc (by rw [imuArrivals_tick]; exact hc') (by rw [imuArrivals_tick]; exact buf)
          (by rw [imuArrivals_tick]; exact vec) bg ba q.tick, fun hE => ?_⟩
        exfalso
        rw [hb] at buf
        have := congrArg List.length buf
        rw [List.length_drop] at this
        have := hE.1
        simp at *
        omega
      | cons m rest =>
        rw [hb] at hp
        obtain rfl := Option.some.inj hp
        have hd : (imuArrivals evs).drop c = m :: rest := by rw [← buf, hb]
        have hlt : c < (imuArrivals evs).length := by
          by_contra hn
          rw [List.drop_eq_nil_of_le (by omega)] at hd
          cases hd
        have hg : (imuArrivals evs)[c] = m ∧ (imuArrivals evs).drop (c + 1) = rest := by
          rw [List.drop_eq_getElem_cons hlt] at hd
          exact ⟨(List.cons.inj hd).1, (List.cons.inj hd).2⟩
        refine ⟨.bias hen hpe bi rfl ⟨set.static, hsz.symm, set.R, set.tr, set.ori, set.rc, set.vc, set.pc⟩ (c + 1) hl
          (by rw [imuArrivals_tick]; exact hlt) (by rw [imuArrivals_tick]; exact hg.2.symm) ?_ bg ba q.tick, fun _ => ?_⟩
        · rw [imuArrivals_tick, List.take_succ_eq_append_getElem hlt, hg.1, List.map_append]
          show e.prop.biasInitVec ++ [e.prop.biasSample m] = _
          rw [vec, sample_congr set]; rfl
        · unfold togo
          simp [hen, hpe, bi, hlen]
          omega
    · rw [if_neg hl, if_neg (by omega)] at hp
      obtain rfl := Option.some.inj hp
      have hcN : c = N := by omega
      subst hcN
      have hc0 : ((imuArrivals evs).take c).length = c := by simp [hc']
      refine ⟨.ready hen hpe rfl rfl ⟨set.static, hsz.symm, set.R, set.tr, set.ori, set.rc, set.vc, set.pc⟩
        (by rw [imuArrivals_tick]; exact hc') (by rw [imuArrivals_tick]; exact buf) ?_ ?_ q.tick, fun _ => ?_⟩
      · unfold startGyroBias
        rw [hst, if_pos rfl, imuArrivals_tick]
        simp only [foldl_pair, mean, vec, List.map_map, List.length_map, zero_add, hc0]
        congr 3
      · unfold startAccelBias
        rw [hst, if_pos rfl, imuArrivals_tick]
        simp only [foldl_pair, mean, vec, List.map_map, List.length_map, zero_add, hc0]
        congr 3
        funext m; simp [biasSample_eq]
      · unfold togo; simp [hen, hpe]

/-- `InitState` from correction number `k` on -/
theorem phase_init {e0 N cs evs} {e e' : Estimator} {K : Heap} (g : InitOK K e.state) (rc : 0 ≤ e.rotCov) (vc : 0 ≤ e.velCov) (pc : 0 ≤ e.posCov)
    (hen : e.enabled = false) {w : V3} (hw : e.state.bodyAngVel = some w)
    (set : SameSetup e0 e) (k : ℕ) (m : ImuMeas) (hm : (imuArrivals evs)[N]? = some m) (buf : e.prop.buffer = (imuArrivals evs).drop (N + 1))
    (pr : e.prop.prev = some m)
    (rot : e.state.get_rotation = some (if e0.prop.useImuOri then m.quat.toRot else 1)) (tp : e.state.tProp = some m.time)
    (pos : e.state.get_position = some 0) (bg : e.state.get_gyroscope_bias = some (startGyroBias e0.prop N (imuArrivals evs)))
    (ba : e.state.get_accelerometer_bias = some (startAccelBias e0.prop N (imuArrivals evs)))
    (q : Queues cs evs k e.corrs) (h : e.initFrom k = some e') :
    Phase e0 N cs (evs ++ [.tick]) (e'.outQ.drop e.outQ.length) e' ∧ (Enough N cs evs → e'.enabled = true) := by
  obtain ⟨pre, post, q1, q2, q3, q4, q5, q6, r, p, th, t, alt⟩ := initFrom_phase g rc vc pc hen hw rot k h
  have set' : SameSetup e0 e' :=
    ⟨q6.static.trans set.static, q6.size.trans set.size, q6.R.trans set.R, q6.tr.trans set.tr, q6.ori.trans set.ori, q6.rc.trans set.rc,
      q6.vc.trans set.vc, q6.pc.trans set.pc⟩
  have bg' : e'.state.get_gyroscope_bias = some (startGyroBias e0.prop N (imuArrivals (evs ++ [.tick]))) := by
    rw [imuArrivals_tick, ← bg]; unfold get_gyroscope_bias; rw [th]
  have ba' : e'.state.get_accelerometer_bias = some (startAccelBias e0.prop N (imuArrivals (evs ++ [.tick]))) := by
    rw [imuArrivals_tick, ← ba]; unfold get_accelerometer_bias; rw [th]
  have hcor : e.corrs = e.corrs.take k ++ pre ++ post := by
    rw [List.append_assoc, ← q1, List.take_append_drop]
  have hlen : e.corrs.length = cs.length := by
    have := congrArg List.length q.kinds
    simpa using this
  -- the corrections handled so far have got data
  have hbefore : ∀ i < (e.corrs.take k ++ pre).length, GotData cs evs i := by
    intro i hi
    by_cases hik : i < k
    · exact q.before i hik
    · have hi' : i < e.corrs.length := by
        rw [hcor, List.length_append]; omega
      have e1 : e.corrs[i]? = some e.corrs[i] := List.getElem?_eq_getElem hi'
      refine (q.after i _ e1 (by omega)).mp (q2 _ ?_)
      have htl : (e.corrs.take k).length ≤ i := by rw [List.length_take]; omega
      have : (e.corrs.take k ++ pre ++ post)[i]? = some e.corrs[i] := by rw [← hcor]; exact e1
      rw [List.getElem?_append_left hi, List.getElem?_append_right htl] at this
      exact List.mem_of_getElem? this
  have hl : (e.corrs.take k ++ pre.map Corr.drained).length = (e.corrs.take k ++ pre).length := by simp
  rcases alt with ⟨a1, a2, a3, a4⟩ | ⟨a1, a2, a3, a4, a5, a6, a7⟩
  · refine ⟨?_, fun hE => ?_⟩
    · refine .wait a2 _ a3 (by rw [a4]; simp) set' m (by rw [imuArrivals_tick]; exact hm) (by rw [imuArrivals_tick, q5]; exact buf)
        (by rw [q5]; exact pr) r (t.trans tp) (p.trans pos) bg' ba' ⟨?_, fun i hi => gotData_mono (hbefore i hi), ?_⟩
      · rw [q4, ← q.kinds]
        conv_rhs => rw [hcor]
        simp only [List.map_append, List.map_map]
        congr 2
        refine List.map_congr_left fun c _ => isVel_drained c
      · intro i c hc hi
        rw [gotData_tick]
        have hi' := hi
        rw [q4, List.getElem?_append_right (by rw [hl]; exact hi), hl] at hc
        have : e.corrs[i]? = some c := by
          rw [hcor, List.getElem?_append_right hi]; exact hc
        refine q.after i c this ?_
        by_contra hk
        have h3 : e.corrs.length ≤ k ∨ k ≤ e.corrs.length := Nat.le_total _ _
        rcases h3 with h3 | h3
        · have : e.corrs.drop k = [] := List.drop_eq_nil_of_le h3
          rw [this] at q1
          have := (List.append_eq_nil_iff.mp q1.symm).2
          exact a1 this
        · rw [List.length_append, List.length_take] at hi'
          omega
    · exfalso
      obtain ⟨c, post', rfl⟩ : ∃ c post', post = c :: post' := List.exists_cons_of_ne_nil a1
      have h0 := q3 c (by simp)
      have hi : (e.corrs.take k ++ pre).length < e.corrs.length := by
        have := congrArg List.length hcor
        rw [List.length_append (bs := c :: post'), List.length_cons] at this
        omega
      have e1 : e.corrs[(e.corrs.take k ++ pre).length]? = some c := by
        have e2 : (e.corrs.take k ++ pre ++ c :: post')[(e.corrs.take k ++ pre).length]? = some c := by
          rw [List.getElem?_append_right (le_refl _)]; simp
        rw [← hcor] at e2; exact e2
      have hk : k ≤ (e.corrs.take k ++ pre).length := by
        by_contra hk
        rw [List.length_append, List.length_take] at hk hi
        omega
      have := (q.after _ c e1 hk).mpr (hE.2 _ (by rw [← hlen]; exact hi))
      omega
  · subst a1
    refine ⟨?_, fun _ => a2⟩
    refine .run a2 a3 e'.state [] (by rw [a4]; simp) ⟨⟨m, by rw [imuArrivals_tick]; exact hm, r, t.trans tp⟩, p.trans pos, bg', ba', ?_, ?_, ?_⟩
      (fun i hi => gotData_mono (hbefore i ?_)) 0 ?_ ?_ ?_ ?_ (by simp)
    · rw [a5, set.rc]
    · rw [a6, set.vc]
    · rw [a7, set.pc]
    · rw [List.append_nil] at hcor
      rw [← hcor, hlen]; exact hi
    · rw [q5, pr, imuArrivals_tick]; exact hm.symm
    · rw [imuArrivals_tick]
      by_contra hn
      rw [List.getElem?_eq_none (by omega)] at hm
      cases hm
    · rw [q5, imuArrivals_tick]; exact buf
    · rw [imuArrivals_tick]
      show _ = (imuArrivals evs)[N]?.map _
      rw [hm, t, tp]; rfl

/-- `RunOnce` -/
theorem phase_run {e0 N cs evs pubs} {e e' : Estimator} {fut : List ImuMeas} (i : EstInv fut e) (s0 : RobotState) (rest : List RobotState)
    (en : e.enabled = true) (pe : e.pending = none) (pu : pubs = s0 :: rest)
    (first : StartsWith e0 N (imuArrivals evs) s0) (data : ∀ i < cs.length, GotData cs evs i) (j : ℕ)
    (pr : e.prop.prev = (imuArrivals evs)[N + j]?) (hj : N + j < (imuArrivals evs).length)
    (buf : e.prop.buffer = (imuArrivals evs).drop (N + j + 1))
    (tp : e.state.tProp = (imuArrivals evs)[N + (j - 1)]?.map ImuMeas.time) (hp : j ≤ rest.length) (h : e.runOnce = some e') :
    Phase e0 N cs (evs ++ [.tick]) (pubs ++ e'.outQ.drop e.outQ.length) e' := by
  obtain ⟨K, g⟩ := i.good
  obtain ⟨hpend, tp0, m, htp, hm, hle, ht⟩ := i.run en
  obtain ⟨b, p', s1, e1, g1, q1, q2⟩ := prop_good g i.noise hm htp hle
  have hcm : s1.colMap = e.state.colMap ∧ ∃ tp', s1.tProp = some tp' := by
    obtain ⟨bu, hb⟩ : ∃ bu, e.prop.buffer = bu := ⟨_, rfl⟩
    cases bu with
    | nil => obtain ⟨-, rfl, rfl⟩ := q1 hb; exact ⟨rfl, tp0, htp⟩
    | cons f r => obtain ⟨-, rfl, h1, h2, h3⟩ := q2 f r hb; exact ⟨h3, _, h2⟩
  obtain ⟨hcm, tp', htp'⟩ := hcm
  have hc1 : CorrsOK s1 e.corrs := ⟨fun c hc => (i.corrs.each c hc).keep (by rw [hcm]; exact (i.corrs.each c hc).ids.mem), i.corrs.disj⟩
  obtain ⟨b', bs, cs', h', s2, K', e2, -, -, g2, ok2, tp2, t2, -, -, -, -⟩ := correctAll_spec e.corrs g1 hc1 htp'
  unfold Estimator.runOnce at h
  simp only [e1, e2, Option.bind_eq_bind, Option.bind_some] at h
  have key : e'.enabled = true ∧ e'.pending = none ∧ e'.prop = p' ∧ e'.state = s2 ∧
      (e'.outQ.drop e.outQ.length).length = if (b || b') = true then 1 else 0 := by
    split_ifs at h ⊢
    · obtain rfl := Option.some.inj h; exact ⟨en, pe, rfl, rfl, by simp⟩
    · obtain rfl := Option.some.inj h; exact ⟨en, pe, rfl, rfl, by simp⟩
  obtain ⟨k1, k2, k3, k4, k5⟩ := key
  obtain ⟨bu, hb⟩ : ∃ bu, e.prop.buffer = bu := ⟨_, rfl⟩
  cases bu with
  | nil =>
    obtain ⟨-, rfl, rfl⟩ := q1 hb
    refine .run k1 k2 s0 (rest ++ e'.outQ.drop e.outQ.length) (by rw [pu]; rfl) (by rw [imuArrivals_tick]; exact first) (fun i hi => gotData_mono (data i hi)) j
      (by rw [k3, imuArrivals_tick]; exact pr) (by rw [imuArrivals_tick]; exact hj) (by rw [k3, imuArrivals_tick]; exact buf)
      (by rw [k4, tp2, imuArrivals_tick]; exact tp) (by rw [List.length_append]; omega)
  | cons f r =>
    obtain ⟨hbt, rfl, h1, h2, h3⟩ := q2 f r hb
    have hd : (imuArrivals evs).drop (N + j + 1) = f :: r := by rw [← buf, hb]
    have hlt : N + j + 1 < (imuArrivals evs).length := by
      by_contra hn
      rw [List.drop_eq_nil_of_le (by omega)] at hd
      cases hd
    rw [List.drop_eq_getElem_cons hlt] at hd
    refine .run k1 k2 s0 (rest ++ e'.outQ.drop e.outQ.length) (by rw [pu]; rfl) (by rw [imuArrivals_tick]; exact first) (fun i hi => gotData_mono (data i hi)) (j + 1)
      ?_ (by rw [imuArrivals_tick]; exact hlt) ?_ ?_ ?_
    · rw [k3, imuArrivals_tick, ← add_assoc, List.getElem?_eq_getElem hlt, (List.cons.inj hd).1]
    · rw [k3, imuArrivals_tick]
      exact (List.cons.inj hd).2.symm
    · rw [k4, tp2, imuArrivals_tick, h2, show N + (j + 1 - 1) = N + j by omega, ← pr, hm]; rfl
    · rw [List.length_append, k5, hbt]; simp; omega

/-- one turn of the main loop -/
theorem Phase.tick {e0 N cs evs pubs} {e e' : Estimator} {fut : List ImuMeas} (hN : SampleCount e0.prop N) (i : EstInv fut e)
    (ph : Phase e0 N cs evs pubs e) (h : e.step .tick = some e') :
    Phase e0 N cs (evs ++ [.tick]) (pubs ++ publishedBy e .tick) e' ∧ (Enough N cs evs → togo N e' ≤ togo N e - 1) := by
  have h : e.tick = some e' := h
  rw [publishedBy_tick h]
  unfold Estimator.tick at h
  cases ph with
  | bias en pe bi pu set c hc hc' buf vec bg ba q =>
    rw [pe, en, bi] at h
    simp only [Bool.false_eq_true, if_false] at h
    obtain ⟨a, b⟩ := phase_bias hN en pe bi set c hc hc' buf vec bg ba q h
    rw [pu, List.nil_append]
    exact ⟨a, fun hE => by have := b hE; omega⟩
  | ready en pe bi pu set hc buf bg ba q =>
    rw [pe, en, bi] at h
    simp only [Bool.false_eq_true, if_false, if_true] at h
    rw [pu, List.nil_append]
    obtain ⟨bu, hb⟩ : ∃ bu, e.prop.buffer = bu := ⟨_, rfl⟩
    cases bu with
    | nil =>
      rw [C45_no_imu e hb] at h
      obtain rfl := Option.some.inj h
      refine ⟨.ready en pe bi (by simp) set (by rw [imuArrivals_tick]; exact hc) (by rw [imuArrivals_tick]; exact buf)
        (by rw [imuArrivals_tick]; exact bg) (by rw [imuArrivals_tick]; exact ba) q.tick, fun hE => ?_⟩
      exfalso
      rw [hb] at buf
      have := congrArg List.length buf
      rw [List.length_drop] at this
      have := hE.1
      simp at *
      omega
    | cons m rest =>
      obtain ⟨g, hrefs⟩ := i.idle en
      obtain ⟨s1, e1, g1, p1⟩ := propInit_ok g i.noise hb (i.ori m (by rw [hb]; simp))
      unfold Estimator.initState at h
      rw [e1] at h
      simp only [Option.bind_eq_bind, Option.bind_some, if_true] at h
      have hd : (imuArrivals evs).drop N = m :: rest := by rw [← buf, hb]
      have hlt : N < (imuArrivals evs).length := by
        by_contra hn
        rw [List.drop_eq_nil_of_le (by omega)] at hd
        cases hd
      rw [List.drop_eq_getElem_cons hlt] at hd
      obtain ⟨a, b⟩ := phase_init (e0 := e0) (N := N) (cs := cs) (evs := evs)
        (e := { e with prop := { e.prop with buffer := rest, prev := some m }, state := s1 }) g1 i.rc i.vc i.pc en p1.w
        ⟨set.static, set.size, set.R, set.tr, set.ori, set.rc, set.vc, set.pc⟩ 0 m
        (by rw [List.getElem?_eq_getElem hlt, (List.cons.inj hd).1]) (List.cons.inj hd).2.symm rfl
        (by rw [← set.ori]; exact p1.rot) p1.tp p1.pos (by rw [← bg]; exact p1.bg) (by rw [← ba]; exact p1.ba) q h
      refine ⟨a, fun hE => ?_⟩
      have : togo N e' = 0 := by unfold togo; rw [b hE]; rfl
      omega
  | wait en k pe pu set m hm buf pr rot tp pos bg ba q =>
    rw [pe] at h
    rw [pu, List.nil_append]
    obtain ⟨-, -, w, hw⟩ := i.pend k pe
    obtain ⟨g, hrefs⟩ := i.idle en
    obtain ⟨a, b⟩ := phase_init (e0 := e0) (N := N) (cs := cs) (evs := evs) g i.rc i.vc i.pc en hw set k m hm buf pr rot tp pos bg ba q h
    refine ⟨a, fun hE => ?_⟩
    have : togo N e' = 0 := by unfold togo; rw [b hE]; rfl
    omega
  | run en pe s0 rest pu first data j pr hj buf tp hp =>
    rw [pe, en] at h
    simp only [if_true] at h
    have a := phase_run i s0 rest en pe pu first data j pr hj buf tp hp h
    refine ⟨a, fun _ => ?_⟩
    have : togo N e' = 0 := by
      obtain ⟨K, g⟩ := i.good
      have : e'.enabled = true := by
        unfold Estimator.runOnce at h
        simp only [Option.bind_eq_bind, Option.bind_eq_some_iff] at h
        obtain ⟨_, _, _, _, h⟩ := h
        split_ifs at h <;> (obtain rfl := Option.some.inj h; exact en)
      unfold togo; rw [this]; rfl
    omega

end Drift
