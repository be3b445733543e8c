import Verif.Spec.Estimator
import Verif.Props.Imu
import Verif.Props.Velocity
import Verif.Props.Legged

/-! # Lemmas: corrections inside the estimator -/
set_option linter.unusedSimpArgs false
namespace Drift
open Mat Matrix RobotState Finset

theorem blockDiag3_one (n : ℕ) : BlockDiag3 (one n) := fun i j h => by
  rw [one_e, if_neg]; rintro ⟨_, rfl⟩; exact h rfl

theorem blockDiag3_set {P : Mat} {k : ℕ} {M : M3} (hP : BlockDiag3 P) (hr : 3 * k + 3 ≤ P.rows)
    (hc : 3 * k + 3 ≤ P.cols) : BlockDiag3 (P.setBlockP (3 * k) (3 * k) (of3 M)) := fun i j h => by
  rw [setBlockP_of3_e hr hc, dif_neg (by omega)]
  exact hP i j h

theorem psd_setBlock {P : Mat} {k : ℕ} {M : M3} (hP : PSD P) (hb : BlockDiag3 P) (hr : 3 * k + 3 ≤ P.rows)
    (hM : PSD (of3 M)) : PSD (P.setBlockP (3 * k) (3 * k) (of3 M)) := by
  have hsq : P.cols = P.rows := hP.sq.symm
  set p : ℕ → Prop := fun i => i / 3 ≠ k with hp
  obtain ⟨A, hAr, hAc, hAe⟩ : ∃ A : Mat, A.rows = P.rows ∧ A.cols = P.rows ∧ ∀ i j, i < P.rows → j < P.rows →
      A.e i j = if p i ∧ p j then P.e i j else if i = j then 0 else 0 :=
    ⟨ofFn P.rows P.rows fun i j => if p i ∧ p j then P.e i j else if i = j then 0 else 0, rfl, rfl,
      fun i j hi hj => ofFn_e_of_lt hi hj⟩
  have hA : PSD A := hP.mask p (le_refl 0) hAr (by rw [hAc, hsq]) hAe
  obtain ⟨B, hBr, hBc, hBe⟩ : ∃ B : Mat, B.rows = P.rows ∧ B.cols = P.rows ∧ ∀ i j, B.e i j =
      if (3 * k ≤ i ∧ i < 3 * k + (of3 M).rows) ∧ (3 * k ≤ j ∧ j < 3 * k + (of3 M).rows) then (of3 M).e (i - 3 * k) (j - 3 * k) else 0 := by
    refine ⟨(zero P.rows P.rows).setBlockP (3 * k) (3 * k) (of3 M), rfl, rfl, fun i j => ?_⟩
    rw [setBlockP_e_in (by simpa using hr) (by simpa using hr)]
    by_cases h : (3 * k ≤ i ∧ i < 3 * k + 3) ∧ (3 * k ≤ j ∧ j < 3 * k + 3)
    · rw [if_pos (by simpa using h), if_pos (by simpa using h)]
    · rw [if_neg (by simpa using h), if_neg (by simpa using h)]; simp
  have hB : PSD B := psd_placed hM hBr hBc (by simpa using hr) hBe
  have : P.setBlockP (3 * k) (3 * k) (of3 M) = A + B := by
    refine ext' (by simp [hAr]) (by simp [hAc, hsq]) fun i j hi hj => ?_
    simp only [setBlockP_rows, setBlockP_cols] at hi hj
    rw [add_e' (by omega) (by omega), hAe i j hi (by omega), hBe,
      setBlockP_e_in (by simpa using hr) (by simpa [hsq] using hr)]
    by_cases h1 : (3 * k ≤ i ∧ i < 3 * k + 3) ∧ (3 * k ≤ j ∧ j < 3 * k + 3)
    · rw [if_pos (c := (3 * k ≤ i ∧ i < 3 * k + (of3 M).rows) ∧ (3 * k ≤ j ∧ j < 3 * k + (of3 M).cols)) (by simpa using h1),
        if_pos (c := (3 * k ≤ i ∧ i < 3 * k + (of3 M).rows) ∧ (3 * k ≤ j ∧ j < 3 * k + (of3 M).rows)) (by simpa using h1), if_neg]
      · split_ifs <;> ring
      · rintro ⟨q, -⟩; exact q (by omega)
    · rw [if_neg (c := (3 * k ≤ i ∧ i < 3 * k + (of3 M).rows) ∧ (3 * k ≤ j ∧ j < 3 * k + (of3 M).cols)) (by simpa using h1),
        if_neg (c := (3 * k ≤ i ∧ i < 3 * k + (of3 M).rows) ∧ (3 * k ≤ j ∧ j < 3 * k + (of3 M).rows)) (by simpa using h1)]
      by_cases h2 : p i ∧ p j
      · rw [if_pos h2]; ring
      · rw [if_neg h2]
        have : P.e i j = 0 := by
          refine hb i j fun h3 => h1 ?_
          simp only [hp] at h2
          by_cases h4 : i / 3 = k
          · omega
          · exact absurd ⟨h4, by omega⟩ h2
        rw [this]; split_ifs <;> ring
  rw [this]
  exact hA.add (by omega) hB

/-- a correction with usable parameters whose references are columns of the state -/
structure CorrOK (s : RobotState) (c : Corr) : Prop where
  param : c.ParamOK
  ids : IdsOK s c.refs

/-- no reference is held by both -/
def Disj (c d : Corr) : Prop := ∀ id id' a, c.refs id = some a → d.refs id' = some a → False

/-- what one `Correct` call guarantees -/
structure CorrStep (c : Corr) (h : Heap) (s : RobotState) (b : Bool) (c' : Corr) (h' : Heap) (s' : RobotState) : Prop where
  ok : CorrOK s' c'
  tp : s'.tProp = s.tProp
  t : s.t.isSome = true → s'.t.isSome = true
  next : h.next ≤ h'.next
  keep : ∀ a, some a ∈ s.colMap → (∀ id, c.refs id ≠ some a) → some a ∈ s'.colMap
  refs : ∀ id a, c'.refs id = some a → (∃ id', c.refs id' = some a) ∨ h.next ≤ a
  skip : b = false → s' = s ∧ h' = h ∧ c'.refs = c.refs

theorem corr_correct {K : ℕ} {h : Heap} {s : RobotState} (g : Good K h s) {c : Corr} (hc : CorrOK s c) {tp : ℝ}
    (ht : s.tProp = some tp) :
    ∃ b c' h' s' K', c.correct h s = some (b, c', h', s') ∧ Good K' h' s' ∧ CorrStep c h s b c' h' s' := by
  cases c with
  | vel c =>
    obtain ⟨b, c', s', e, e2, -, e4, e5⟩ := C48_total c s g.shape g.world g.psd hc.param ht
    cases b with
    | false =>
      obtain rfl := e4 rfl
      refine ⟨false, .vel c', h, s', K, ?_, g, ⟨?_, ⟨by simp [Corr.refs], by simp [Corr.refs]⟩⟩, rfl, id, le_refl _, fun _ q _ => q,
        by simp [Corr.refs], fun _ => ⟨rfl, rfl, rfl⟩⟩
      · show (c.correct _).map _ = _; rw [e]; rfl
      · show PD (of3 c'.cov); rw [e2]; exact hc.param
    | true =>
      obtain ⟨m, -, R, v, hR, hv, hk⟩ := e5 rfl
      have gt := g.setT (some m.time)
      have hRt : s.get_rotation = some R := hR
      have x1 := g.shape.x.rows; have x2 := g.shape.x.cols; have hK := g.shape.k
      have hR' : R = s.X.blk3 0 0 := by
        have : s.get_rotation = some (s.X.blk3 0 0) := blk3?_eq (by omega) (by omega)
        rw [this] at hRt; exact (Option.some.inj hRt).symm
      have hdp : RobotState.dimP { s with t := some m.time } = 3 * K + 9 := g.shape.pc
      rw [hdp] at hk
      obtain ⟨s1, k1, k2, k3⟩ := kalman_good gt (velH_obs (K := K) (c.scale • R.mulVec (c.R_vel2body.mulVec m.vel) - v) (R * c.cov * Rᵀ))
        (pd_rot (by rw [hR']; exact g.shape.x.rot) hc.param) c.errorType
      rw [hk] at k1
      cases k1
      refine ⟨true, .vel c', h, s', K, ?_, k2, ⟨?_, ⟨by simp [Corr.refs], by simp [Corr.refs]⟩⟩, ?_, ?_, le_refl _, ?_,
        by simp [Corr.refs], by simp⟩
      · show (c.correct _).map _ = _; rw [e]; rfl
      · show PD (of3 c'.cov); rw [e2]; exact hc.param
      · rw [k3]
      · intro _; rw [k3]; rfl
      · intro a ha _; rw [k3]; exact ha
  | leg c =>
    have hids : IdsOK s c.ids := hc.ids
    cases hb : c.buffer with
    | nil =>
      refine ⟨false, .leg c, h, s, K, ?_, g, hc, rfl, id, le_refl _, fun _ q _ => q, fun id a q => .inl ⟨id, q⟩, fun _ => ⟨rfl, rfl, rfl⟩⟩
      show (c.correct h s).map _ = _; unfold LegCorr.correct; rw [hb]; rfl
    | cons f rest =>
      cases hp : popFresh LegMeas.time c.tDiffThres tp f rest with
      | none =>
        refine ⟨false, .leg { c with buffer := [] }, h, s, K, ?_, g, ⟨hc.param, hc.ids⟩, rfl, id, le_refl _, fun _ q _ => q,
          fun id a q => .inl ⟨id, q⟩, fun _ => ⟨rfl, rfl, rfl⟩⟩
        show (c.correct h s).map _ = _; unfold LegCorr.correct; rw [hb]; simp [ht, hp]
      | some r =>
        obtain ⟨m, rest'⟩ := r
        obtain ⟨K', s1, ids', h', s', e, g', st⟩ := legApply_spec g c hids hc.param.1 hc.param.2 m
        refine ⟨true, .leg { c with buffer := rest', ids := ids' }, h', s', K', ?_, g', ⟨hc.param, st.ids⟩, ?_, ?_, st.next, ?_, ?_, by simp⟩
        · show (c.correct h s).map _ = _; unfold LegCorr.correct; rw [hb]; simp [ht, hp, e]
        · rw [st.frame2]; show s1.tProp = _; rw [st.frame1]
        · intro _; rw [st.frame2]; show s1.t.isSome = _; rw [st.frame1]; rfl
        · intro a ha hne
          rw [st.cols]
          exact .inl ⟨ha, fun id o _ _ => hne id⟩
        · intro id a ha
          have ha : ids' id = some a := ha
          cases ho : m.legs[id]? with
          | none => rw [st.other id ho] at ha; exact .inl ⟨id, ha⟩
          | some o =>
            cases hcc : o.contact with
            | false => rw [st.off id o ho hcc] at ha; cases ha
            | true =>
              cases hi : c.ids id with
              | none =>
                obtain ⟨a', q1, q2, -⟩ := st.made id o ho hcc hi
                rw [ha] at q1; cases q1
                exact .inr q2
              | some a' =>
                rw [st.stay id o a' ho hcc hi] at ha
                cases ha
                exact .inl ⟨id, hi⟩

/-- all corrections of an estimator -/
structure CorrsOK (s : RobotState) (cs : List Corr) : Prop where
  each : ∀ c ∈ cs, CorrOK s c
  disj : cs.Pairwise Disj

theorem CorrOK.keep {s s' : RobotState} {c : Corr} (hc : CorrOK s c)
    (hk : ∀ id a, c.refs id = some a → some a ∈ s'.colMap) : CorrOK s' c :=
  ⟨hc.param, ⟨hk, hc.ids.inj⟩⟩

theorem correctAll_spec (cs : List Corr) : ∀ {K : ℕ} {h : Heap} {s : RobotState} (_ : Good K h s) (_ : CorrsOK s cs) {tp : ℝ}
    (_ : s.tProp = some tp), ∃ b bs cs' h' s' K', Estimator.correctAll cs h s = some (b, cs', h', s') ∧
      CorrRun cs h s bs cs' h' s' ∧ (b = true ↔ true ∈ bs) ∧
      Good K' h' s' ∧ CorrsOK s' cs' ∧ s'.tProp = s.tProp ∧ (s.t.isSome = true → s'.t.isSome = true) ∧ h.next ≤ h'.next ∧
      (∀ a, some a ∈ s.colMap → (∀ c ∈ cs, ∀ id, c.refs id ≠ some a) → some a ∈ s'.colMap) ∧
      (∀ c' ∈ cs', ∀ id a, c'.refs id = some a → (∃ c ∈ cs, ∃ id', c.refs id' = some a) ∨ h.next ≤ a) ∧
      (b = false → s' = s ∧ h' = h) := by
  induction cs with
  | nil =>
    intro K h s g hc tp ht
    exact ⟨false, [], [], h, s, K, rfl, .nil h s, by simp, g, hc, rfl, id, le_refl _, fun _ q _ => q, by simp, fun _ => ⟨rfl, rfl⟩⟩
  | cons c cs ih =>
    intro K h s g hc tp ht
    have hcd := List.pairwise_cons.mp hc.disj
    obtain ⟨b, c', h1, s1, K1, e1, g1, st⟩ := corr_correct g (hc.each c (by simp)) ht
    have hok1 : CorrsOK s1 cs := by
      refine ⟨fun d hd => (hc.each d (by simp [hd])).keep fun id a ha => ?_, hcd.2⟩
      exact st.keep a ((hc.each d (by simp [hd])).ids.mem id a ha) fun id' q => hcd.1 d hd id' id a q ha
    obtain ⟨b2, bs, cs', h2, s2, K2, e2, r2, hb2, g2, ok2, tp2, t2, n2, k2, f2, sk2⟩ := ih g1 hok1 (st.tp.trans ht)
    have hlt : ∀ {d : Corr} {id a : ℕ}, d ∈ cs → d.refs id = some a → a < h.next := by
      intro d id a hd ha
      obtain ⟨j, -, -, -, -, q⟩ := g.col ((hc.each d (by simp [hd])).ids.mem id a ha)
      exact q
    have hlt' : ∀ {id a : ℕ}, c'.refs id = some a → a < h1.next := by
      intro id a ha
      obtain ⟨j, -, -, -, -, q⟩ := g1.col (st.ok.ids.mem id a ha)
      exact q
    have hdis : ∀ d ∈ cs, Disj c' d := by
      intro d hd id id' a q1 q2
      rcases st.refs id a q1 with ⟨id2, q3⟩ | q3
      · exact hcd.1 d hd id2 id' a q3 q2
      · have := hlt hd q2; omega
    refine ⟨b || b2, b :: bs, c' :: cs', h2, s2, K2, ?_, .cons e1 r2, ?_, g2, ⟨?_, ?_⟩, tp2.trans st.tp, fun q => t2 (st.t q), le_trans st.next n2, ?_, ?_, ?_⟩
    · simp only [Estimator.correctAll, Option.bind_eq_bind, e1, Option.bind_some, e2]
    · cases b <;> simp [hb2]
    · intro d hd
      rcases List.mem_cons.mp hd with rfl | hd
      · refine st.ok.keep fun id a ha => k2 a (st.ok.ids.mem id a ha) fun d hd id' q => hdis d hd id id' a ha q
      · exact ok2.each d hd
    · refine List.pairwise_cons.mpr ⟨fun d hd id id' a q1 q2 => ?_, ok2.disj⟩
      rcases f2 d hd id' a q2 with ⟨d0, hd0, id0, q3⟩ | q3
      · exact hdis d0 hd0 id id0 a q1 q3
      · have := hlt' q1; omega
    · intro a ha hne
      exact k2 a (st.keep a ha fun id => hne c (by simp) id) fun d hd => hne d (by simp [hd])
    · intro d hd id a ha
      rcases List.mem_cons.mp hd with rfl | hd
      · rcases st.refs id a ha with ⟨id', q⟩ | q
        · exact .inl ⟨c, by simp, id', q⟩
        · exact .inr q
      · rcases f2 d hd id a ha with ⟨d0, hd0, q⟩ | q
        · exact .inl ⟨d0, by simp [hd0], q⟩
        · exact .inr (le_trans st.next q)
    · intro q
      rw [Bool.or_eq_false_iff] at q
      obtain ⟨q1, q2, -⟩ := st.skip q.1
      obtain ⟨q3, q4⟩ := sk2 q.2
      exact ⟨q3.trans q1, q4.trans q2⟩

end Drift
