import Verif.Lemmas.Thr1

/-!
# What remains of a call
-/
namespace Drift
open RobotState
namespace Thr

/-- what remains of `Correct` -/
noncomputable def corrRest (again : Bool) : Corr → Heap → RobotState → Option (Bool × Corr × Heap × RobotState)
  | .vel c, h, s =>
    if again then
      match c.buffer with
      | [] => some (false, .vel c, h, s)
      | front :: rest => s.tProp.bind fun tp =>
        match popFresh VelMeas.time c.tDiffThres tp front rest with
        | none => some (false, .vel { c with buffer := [] }, h, s)
        | some (m, rest') => (c.apply m s).map fun s' => (true, .vel { c with buffer := rest' }, h, s')
    else Corr.correct (.vel c) h s
  | .leg c, h, s => Corr.correct (.leg c) h s

/-- what remains of the loop over the corrections -/
noncomputable def restAll (again : Bool) : List Corr → Heap → RobotState → Option (Bool × List Corr × Heap × RobotState)
  | [], h, s => some (false, [], h, s)
  | c :: cs, h, s => (corrRest again c h s).bind fun r =>
    (Estimator.correctAll cs r.2.2.1 r.2.2.2).map fun q => (r.1 || q.1, r.2.1 :: q.2.1, q.2.2.1, q.2.2.2)

/-- publish and log -/
def pub (b : Bool) (e : Estimator) : Estimator :=
  if b then { e with outQ := e.outQ ++ [e.state], log := e.log.push e.state } else e

/-- what remains of a call -/
noncomputable def full (e : Estimator) : PC → Option Estimator
  | .idle => some e
  | .prop => e.runOnce
  | .corr i b again => (restAll again (e.corrs.drop i) e.heap e.state).map fun r =>
      pub (b || r.1) { e with corrs := e.corrs.take i ++ r.2.1, heap := r.2.2.1, state := r.2.2.2 }
  | .out => some (pub true e)
  | .log => some { e with log := e.log.push e.state }
  | .bias => e.initBias
  | .initPeek => e.initState
  | .initPop => match e.prop.buffer with
    | [] => none
    | _ :: _ => e.initState
  | .initCorrPeek i => e.initFrom i
  | .initCorr i => match e.corrs[i]? with
    | none => none
    | some c => if corrEmpty c then none else e.initFrom i
  | .finish => e.finishInit
  | .clearProp => some e.clear
  | .clearCorr i => some { e with
      corrs := e.corrs.take i ++ (e.corrs.drop i).map Corr.clear
      state := e.state.clear
      outQ := []
      enabled := false
      log := e.log.clear }
  | .clearOut => some { e with state := e.state.clear, outQ := [], enabled := false, log := e.log.clear }
  | .clearLog => some { e with log := e.log.clear }

theorem addLoop_buffer (c : LegCorr) (b : List LegMeas) (l : List (ℕ × V3 × M3)) : ∀ (P : Mat) (ids : ℕ → Option ℕ) (h : Heap)
    (s : RobotState), LegCorr.addLoop { c with buffer := b } l P ids h s = c.addLoop l P ids h s := by
  induction l with
  | nil => intros; rfl
  | cons x rest ih =>
    intro P ids h s
    obtain ⟨id, pose, cov⟩ := x
    simp only [LegCorr.addLoop, ih]
    rfl

theorem leg_apply_buffer (c : LegCorr) (b : List LegMeas) (m : LegMeas) (h : Heap) (s : RobotState) :
    LegCorr.apply { c with buffer := b } m h s = c.apply m h s := by
  unfold LegCorr.apply
  simp only [addLoop_buffer]
  rfl

theorem corrRest_eq (again : Bool) (c : Corr) (h : Heap) (s : RobotState) :
    corrRest again c h s = (corrSect again c h s).bind fun
      | .done b c h s => some (b, c, h, s)
      | .again c => corrRest true c h s := by
  cases c with
  | vel c =>
    obtain ⟨et, bu, cov, th, R, sc⟩ := c
    cases bu with
    | nil => cases again <;> simp [corrRest, corrSect, velSect, Corr.correct, VelCorr.correct]
    | cons front rest =>
      cases ht : s.tProp with
      | none => cases again <;> simp [corrRest, corrSect, velSect, Corr.correct, VelCorr.correct, ht]
      | some tp =>
        have hap : ∀ (b : List VelMeas) m, VelCorr.apply ⟨et, b, cov, th, R, sc⟩ m s = VelCorr.apply ⟨et, [], cov, th, R, sc⟩ m s :=
          fun _ _ => rfl
        by_cases h0 : again = false ∧ front.time - tp ≥ 0
        · obtain ⟨ha, h0⟩ := h0
          subst ha
          simp only [corrRest, corrSect, velSect, Corr.correct, VelCorr.correct, ht, Option.bind_eq_bind, Option.bind_some,
            Bool.false_eq_true, if_false, true_and, if_pos h0]
          rfl
        · by_cases hst : front.time - tp < -th
          · have e1 : corrSect again (.vel ⟨et, front :: rest, cov, th, R, sc⟩) h s
                = some (.again (.vel ⟨et, rest, cov, th, R, sc⟩)) := by
              simp only [corrSect, velSect, ht, Option.bind_eq_bind, Option.bind_some]
              rw [if_neg h0, if_pos hst]
            have e2 : corrRest again (.vel ⟨et, front :: rest, cov, th, R, sc⟩) h s =
                match popFresh VelMeas.time th tp front rest with
                | none => some (false, .vel ⟨et, [], cov, th, R, sc⟩, h, s)
                | some (m, rest') => (VelCorr.apply ⟨et, [], cov, th, R, sc⟩ m s).map fun s' =>
                    (true, .vel ⟨et, rest', cov, th, R, sc⟩, h, s') := by
              cases again
              · have h1 : ¬ front.time - tp ≥ 0 := fun h1 => h0 ⟨rfl, h1⟩
                simp only [corrRest, Corr.correct, VelCorr.correct, ht, Option.bind_eq_bind, Option.bind_some,
                  Bool.false_eq_true, if_false]
                rw [if_neg h1]
                cases popFresh VelMeas.time th tp front rest with
                | none => rfl
                | some q => simp only [hap, Option.map_bind]; cases VelCorr.apply ⟨et, [], cov, th, R, sc⟩ q.1 s <;> rfl
              · simp only [corrRest, ht, Option.bind_some, if_true, hap]
            rw [e1, e2]
            simp only [Option.bind_some]
            cases rest with
            | nil => simp [popFresh, if_pos hst, corrRest]
            | cons m rest' =>
              simp only [corrRest, popFresh, if_pos hst, ht, Option.bind_some, if_true, hap]
          · have e3 : popFresh VelMeas.time th tp front rest = some (front, rest) := by
              cases rest <;> simp only [popFresh, if_neg hst]
            have e1 : corrSect again (.vel ⟨et, front :: rest, cov, th, R, sc⟩) h s
                = (VelCorr.apply ⟨et, [], cov, th, R, sc⟩ front s).map fun s' => .done true (.vel ⟨et, rest, cov, th, R, sc⟩) h s' := by
              simp only [corrSect, velSect, ht, Option.bind_eq_bind, Option.bind_some, hap]
              rw [if_neg h0, if_neg hst]
              cases VelCorr.apply ⟨et, [], cov, th, R, sc⟩ front s <;> rfl
            rw [e1]
            cases again
            · have h1 : ¬ front.time - tp ≥ 0 := fun h1 => h0 ⟨rfl, h1⟩
              simp only [corrRest, Corr.correct, VelCorr.correct, ht, Option.bind_eq_bind, Option.bind_some,
                Bool.false_eq_true, if_false]
              rw [if_neg h1, e3]
              simp only [hap]
              cases VelCorr.apply ⟨et, [], cov, th, R, sc⟩ front s <;> rfl
            · simp only [corrRest, ht, Option.bind_some, if_true, hap, e3]
              cases VelCorr.apply ⟨et, [], cov, th, R, sc⟩ front s <;> rfl
  | leg c =>
    obtain ⟨et, bu, es, ks, cn, th, ids⟩ := c
    have hap : ∀ (b : List LegMeas) m, LegCorr.apply ⟨et, b, es, ks, cn, th, ids⟩ m h s = LegCorr.apply ⟨et, [], es, ks, cn, th, ids⟩ m h s :=
      fun b m => leg_apply_buffer ⟨et, [], es, ks, cn, th, ids⟩ b m h s
    cases bu with
    | nil => simp [corrRest, corrSect, legSect, Corr.correct, LegCorr.correct]
    | cons front rest =>
      cases ht : s.tProp with
      | none => simp [corrRest, corrSect, legSect, Corr.correct, LegCorr.correct, ht]
      | some tp =>
        by_cases hst : front.time - tp < -th
        · have e1 : corrSect again (.leg ⟨et, front :: rest, es, ks, cn, th, ids⟩) h s
              = some (.again (.leg ⟨et, rest, es, ks, cn, th, ids⟩)) := by
            simp only [corrSect, legSect, ht, Option.bind_eq_bind, Option.bind_some]
            rw [if_pos hst]
          rw [e1]
          simp only [Option.bind_some]
          cases rest with
          | nil => simp [popFresh, if_pos hst, corrRest, Corr.correct, LegCorr.correct, ht]
          | cons m rest' =>
            simp only [corrRest, Corr.correct, LegCorr.correct, popFresh, if_pos hst, ht, Option.bind_eq_bind, Option.bind_some, hap]
        · have e3 : popFresh LegMeas.time th tp front rest = some (front, rest) := by
            cases rest <;> simp only [popFresh, if_neg hst]
          have e1 : corrSect again (.leg ⟨et, front :: rest, es, ks, cn, th, ids⟩) h s
              = (LegCorr.apply ⟨et, [], es, ks, cn, th, ids⟩ front h s).map fun r =>
                .done true (.leg ⟨et, rest, es, ks, cn, th, r.1⟩) r.2.1 r.2.2 := by
            simp only [corrSect, legSect, ht, Option.bind_eq_bind, Option.bind_some, hap]
            rw [if_neg hst]
            cases LegCorr.apply ⟨et, [], es, ks, cn, th, ids⟩ front h s <;> rfl
          rw [e1]
          simp only [corrRest, Corr.correct, LegCorr.correct, ht, Option.bind_eq_bind, Option.bind_some, e3, hap]
          cases LegCorr.apply ⟨et, [], es, ks, cn, th, ids⟩ front h s <;> rfl

theorem restAll_false (l : List Corr) (h : Heap) (s : RobotState) : restAll false l h s = Estimator.correctAll l h s := by
  cases l with
  | nil => rfl
  | cons c cs =>
    have : corrRest false c h s = c.correct h s := by cases c <;> simp [corrRest]
    simp only [restAll, this, Estimator.correctAll, Option.bind_eq_bind]
    cases c.correct h s with
    | none => rfl
    | some r =>
      obtain ⟨b, c', h', s'⟩ := r
      simp only [Option.bind_some]
      cases Estimator.correctAll cs h' s' <;> rfl

theorem pub_or (b b' : Bool) (e : Estimator) : pub (b || b') e = if b || b' then pub true e else e := by
  cases b <;> cases b' <;> rfl

theorem drop_of_get {α : Type} {l : List α} {i : ℕ} {c : α} (h : l[i]? = some c) : l.drop i = c :: l.drop (i + 1) := by
  obtain ⟨hi, rfl⟩ := List.getElem?_eq_some_iff.mp h
  exact List.drop_eq_getElem_cons hi

theorem take_succ_of_get {α : Type} {l : List α} {i : ℕ} {c : α} (h : l[i]? = some c) (c' : α) :
    (l.set i c').take (i + 1) = l.take i ++ [c'] := by
  obtain ⟨hi, rfl⟩ := List.getElem?_eq_some_iff.mp h
  rw [List.take_add_one, List.take_set_of_le (le_refl i)]
  simp [hi]

theorem full_step (e : Estimator) {pc : PC} (hpc : pc ≠ .idle) : full e pc = (mstep e pc).bind fun q => full q.1 q.2 := by
  cases pc with
  | idle => exact absurd rfl hpc
  | prop =>
    simp only [full, mstep, Estimator.runOnce, Option.bind_eq_bind]
    cases e.prop.propagate e.state with
    | none => rfl
    | some r =>
      obtain ⟨b, p, s⟩ := r
      simp only [Option.bind_some, Option.map_some, List.drop_zero, List.take_zero, List.nil_append, restAll_false]
      cases Estimator.correctAll e.corrs e.heap s with
      | none => rfl
      | some q => obtain ⟨b', cs, h, s'⟩ := q; cases b <;> cases b' <;> rfl
  | corr i b again =>
    simp only [mstep]
    cases hc : e.corrs[i]? with
    | none =>
      have hd : e.corrs.drop i = [] := List.drop_eq_nil_of_le (List.getElem?_eq_none_iff.mp hc)
      have htk : e.corrs.take i = e.corrs := List.take_of_length_le (List.getElem?_eq_none_iff.mp hc)
      simp only [full, hd, restAll, Option.map_some, htk, List.append_nil, Option.bind_some, Bool.or_false]
      cases b <;> rfl
    | some c =>
      simp only [full, drop_of_get hc]
      rw [show restAll again (c :: e.corrs.drop (i + 1)) e.heap e.state = (corrRest again c e.heap e.state).bind _ from rfl, corrRest_eq]
      cases corrSect again c e.heap e.state with
      | none => rfl
      | some r =>
        obtain ⟨hi, -⟩ := List.getElem?_eq_some_iff.mp hc
        cases r with
        | done b' c' h s =>
          simp only [Option.bind_some, Option.map_some, full]
          rw [restAll_false, List.drop_set_of_lt (by omega : i < i + 1), take_succ_of_get hc]
          cases Estimator.correctAll (e.corrs.drop (i + 1)) h s with
          | none => rfl
          | some q => simp [Bool.or_assoc]
        | again c' =>
          simp only [Option.bind_some, Option.map_some, full]
          have h1 : (e.corrs.set i c').drop i = c' :: e.corrs.drop (i + 1) := by
            rw [drop_of_get (l := e.corrs.set i c') (c := c') (by simp [hi]), List.drop_set_of_lt (by omega : i < i + 1)]
          rw [h1, List.take_set_of_le (le_refl i)]
          rfl
  | out => rfl
  | log => rfl
  | bias => simp only [full, mstep]; cases e.initBias <;> rfl
  | initPeek =>
    simp only [full, mstep, Option.bind_some]
    cases hb : e.prop.buffer with
    | nil => simp [Estimator.initState, ImuProp.setInitialState, hb, full]
    | cons a l => simp [full, hb]
  | initPop =>
    simp only [full, mstep]
    cases hb : e.prop.buffer with
    | nil => rfl
    | cons a l =>
      simp only [Estimator.initState, Option.bind_eq_bind]
      have hb' : ∀ r, e.prop.setInitialState e.state = some r → r.1 = true := by
        intro r hr
        unfold ImuProp.setInitialState at hr
        rw [hb] at hr
        simp only [Option.bind_eq_bind, Option.bind_eq_some_iff] at hr
        obtain ⟨_, -, _, -, _, -, _, -, _, -, _, -, hr⟩ := hr
        rw [← Option.some.inj hr]
      cases hs : e.prop.setInitialState e.state with
      | none => rfl
      | some r =>
        have := hb' r hs
        obtain ⟨b, p, s⟩ := r
        simp only at this; subst this
        rfl
  | initCorrPeek i =>
    simp only [mstep]
    cases hc : e.corrs[i]? with
    | none =>
      have hd : e.corrs.drop i = [] := List.drop_eq_nil_of_le (List.getElem?_eq_none_iff.mp hc)
      have htk : e.corrs.take i = e.corrs := List.take_of_length_le (List.getElem?_eq_none_iff.mp hc)
      simp only [full, Estimator.initFrom, hd, htk, Estimator.initCorrs, Option.bind_eq_bind, Option.bind_some, List.append_nil]
    | some c =>
      simp only [Option.bind_some]
      by_cases hemp : corrEmpty c = true
      · have hset : c.setInitial e.state = some (false, c, e.state) := by
          cases c with
          | vel c => simp only [corrEmpty, List.isEmpty_iff] at hemp; simp [Corr.setInitial, VelCorr.setInitial, hemp]
          | leg c => simp only [corrEmpty, List.isEmpty_iff] at hemp; simp [Corr.setInitial, LegCorr.setInitial, hemp]
        obtain ⟨hi, -⟩ := List.getElem?_eq_some_iff.mp hc
        have h2 : e.corrs.take i ++ c :: e.corrs.drop (i + 1) = e.corrs := by
          rw [← drop_of_get hc, List.take_append_drop]
        simp only [full, Estimator.initFrom, drop_of_get hc, Estimator.initCorrs, Option.bind_eq_bind, hset, Option.bind_some,
          Bool.false_eq_true, if_false, hemp, if_true, h2, List.length_take]
        rw [min_eq_left hi.le]
      · simp [full, hc, hemp]
  | initCorr i =>
    simp only [full, mstep]
    cases hc : e.corrs[i]? with
    | none => rfl
    | some c =>
      simp only
      by_cases hemp : corrEmpty c = true
      · simp [hemp]
      · simp only [hemp, if_false, Bool.false_eq_true]
        have hb' : ∀ r, c.setInitial e.state = some r → r.1 = true := by
          intro r hr
          cases c with
          | vel c =>
            have hne : c.buffer ≠ [] := by simpa [corrEmpty] using hemp
            simp only [Corr.setInitial, VelCorr.setInitial, List.getLast?_eq_getLast_of_ne_nil hne, Option.bind_eq_bind, Option.map_eq_some_iff, Option.bind_eq_some_iff] at hr
            obtain ⟨_, ⟨_, -, _, -, h1⟩, h2⟩ := hr
            rw [← h2, ← Option.some.inj h1]
          | leg c =>
            have hne : c.buffer ≠ [] := by simpa [corrEmpty] using hemp
            simp only [Corr.setInitial, LegCorr.setInitial, List.getLast?_eq_getLast_of_ne_nil hne, Option.bind_eq_bind, Option.map_eq_some_iff, Option.bind_eq_some_iff] at hr
            obtain ⟨_, ⟨_, -, _, -, _, -, h1⟩, h2⟩ := hr
            rw [← h2, ← Option.some.inj h1]
        simp only [Estimator.initFrom, drop_of_get hc, Estimator.initCorrs, Option.bind_eq_bind]
        cases hs : c.setInitial e.state with
        | none => rfl
        | some r =>
          have := hb' r hs
          obtain ⟨b, c', s⟩ := r
          simp only at this; subst this
          simp only [Option.bind_some, Option.map_some, if_true, full, Estimator.initFrom, Option.bind_eq_bind]
          rw [List.drop_set_of_lt (by omega : i < i + 1), take_succ_of_get hc]
  | finish => simp only [full, mstep]; cases e.finishInit <;> rfl
  | clearProp => rfl
  | clearCorr i =>
    simp only [full, mstep]
    cases hc : e.corrs[i]? with
    | none =>
      have hd : e.corrs.drop i = [] := List.drop_eq_nil_of_le (List.getElem?_eq_none_iff.mp hc)
      have htk : e.corrs.take i = e.corrs := List.take_of_length_le (List.getElem?_eq_none_iff.mp hc)
      simp only [hd, htk, Option.bind_some, List.map_nil, List.append_nil, full]
    | some c =>
      simp only [Option.bind_some, full]
      rw [drop_of_get hc, List.drop_set_of_lt (by omega : i < i + 1), take_succ_of_get hc]
      simp
  | clearOut => rfl
  | clearLog => rfl

theorem full_start {e : Estimator} {op : EstEv} {pc : PC} (h : start e op = some pc) : full e pc = e.step op := by
  cases op <;> simp only [start, reduceCtorEq] at h
  · obtain rfl := Option.some.inj h
    simp only [Estimator.step, Estimator.tick]
    cases e.pending with
    | some i => rfl
    | none => simp only; split_ifs <;> rfl
  · simp only [Estimator.step]
    cases hp : e.pending with
    | some i => rw [hp] at h; cases h
    | none => rw [hp] at h; obtain rfl := Option.some.inj h; rfl

end Thr
end Drift
