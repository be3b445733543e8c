import Verif.Lemmas.Thr5

/-!
# How long a call can take
-/
namespace Drift
open RobotState
namespace Thr

def base (n : ℕ) : PC → ℕ
  | .idle => 0
  | .prop => n + 4
  | .corr i _ _ => (n - i) + 3
  | .out => 2
  | .log => 1
  | .bias => 1
  | .initPeek => 2 * n + 4
  | .initPop => 2 * n + 3
  | .initCorrPeek i => 2 * (n - i) + 2
  | .initCorr i => 2 * (n - i) + 1
  | .finish => 1
  | .clearProp => n + 4
  | .clearCorr i => (n - i) + 3
  | .clearOut => 2
  | .clearLog => 1

/-- do the queues of the corrections matter for the rest of the call? -/
def inCorr : PC → Bool
  | .prop => true
  | .corr _ _ _ => true
  | _ => false

def mu (e : Estimator) (pc : PC) : ℕ := base e.corrs.length pc + if inCorr pc then waiting e else 0

theorem sum_set {l : List Corr} {i : ℕ} {c : Corr} (h : l[i]? = some c) (c' : Corr) :
    ((l.set i c').map Corr.queued).sum + c.queued = (l.map Corr.queued).sum + c'.queued := by
  induction l generalizing i with
  | nil => simp at h
  | cons a l ih =>
    cases i with
    | zero => simp at h; subst h; simp; omega
    | succ i =>
      simp only [List.getElem?_cons_succ] at h
      have := ih h
      simp only [List.set_cons_succ, List.map_cons, List.sum_cons]; omega

theorem corrSect_queued {again : Bool} {c : Corr} {h : Heap} {s : RobotState} {r : Sect} (hs : corrSect again c h s = some r) :
    match r with
    | .done _ c' _ _ => c'.queued ≤ c.queued
    | .again c' => c'.queued + 1 = c.queued := by
  cases c with
  | vel c =>
    obtain ⟨et, bu, cov, th, R, sc⟩ := c
    cases bu with
    | nil => simp only [corrSect, velSect, Option.some.injEq] at hs; subst hs; simp
    | cons front rest =>
      cases ht : s.tProp with
      | none => simp [corrSect, velSect, ht] at hs
      | some tp =>
        simp only [corrSect, velSect, ht, Option.bind_eq_bind, Option.bind_some] at hs
        split_ifs at hs
        · simp only [Option.some.injEq] at hs; subst hs; simp
        · simp only [Option.some.injEq] at hs; subst hs; simp [Corr.queued]
        · simp only [Option.bind_eq_some_iff] at hs
          obtain ⟨_, -, hs⟩ := hs
          simp only [Option.some.injEq] at hs; subst hs; simp [Corr.queued]
  | leg c =>
    obtain ⟨et, bu, es, ks, cn, th, ids⟩ := c
    cases bu with
    | nil => simp only [corrSect, legSect, Option.some.injEq] at hs; subst hs; simp
    | cons front rest =>
      cases ht : s.tProp with
      | none => simp [corrSect, legSect, ht] at hs
      | some tp =>
        simp only [corrSect, legSect, ht, Option.bind_eq_bind, Option.bind_some] at hs
        split_ifs at hs
        · simp only [Option.some.injEq] at hs; subst hs; simp [Corr.queued]
        · simp only [Option.bind_eq_some_iff] at hs
          obtain ⟨_, -, hs⟩ := hs
          simp only [Option.some.injEq] at hs; subst hs; simp [Corr.queued]

theorem initBias_corrs {e x : Estimator} (h : e.initBias = some x) : x.corrs = e.corrs := by
  simp only [Estimator.initBias, Option.map_eq_some_iff] at h
  obtain ⟨_, -, rfl⟩ := h; rfl

/-- every step of the main thread brings the end of the call nearer -/
theorem mu_step {e e' : Estimator} {pc pc' : PC} (h : mstep e pc = some (e', pc')) : mu e' pc' < mu e pc := by
  cases pc with
  | idle => cases h
  | prop =>
    simp only [mstep, Option.map_eq_some_iff, Prod.mk.injEq] at h
    obtain ⟨r, -, rfl, rfl⟩ := h
    simp [mu, base, inCorr, waiting]
  | corr i b again =>
    simp only [mstep] at h
    cases hc : e.corrs[i]? with
    | none =>
      rw [hc] at h
      simp only [Option.some.injEq, Prod.mk.injEq] at h
      obtain ⟨rfl, rfl⟩ := h
      cases b <;> simp [mu, base, inCorr]; omega
    | some c =>
      rw [hc] at h
      obtain ⟨hi, -⟩ := List.getElem?_eq_some_iff.mp hc
      simp only [Option.map_eq_some_iff] at h
      obtain ⟨r, hr, h⟩ := h
      have hq := corrSect_queued hr
      cases r with
      | done b' c' hp s =>
        simp only [Prod.mk.injEq] at h
        obtain ⟨rfl, rfl⟩ := h
        have := sum_set hc c'
        simp only at hq
        simp only [mu, base, inCorr, waiting, List.length_set, if_true]
        omega
      | again c' =>
        simp only [Prod.mk.injEq] at h
        obtain ⟨rfl, rfl⟩ := h
        have := sum_set hc c'
        simp only at hq
        simp only [mu, base, inCorr, waiting, List.length_set, if_true]
        omega
  | out => simp only [mstep, Option.some.injEq, Prod.mk.injEq] at h; obtain ⟨rfl, rfl⟩ := h; simp [mu, base, inCorr]
  | log => simp only [mstep, Option.some.injEq, Prod.mk.injEq] at h; obtain ⟨rfl, rfl⟩ := h; simp [mu, base, inCorr]
  | bias =>
    simp only [mstep, Option.map_eq_some_iff, Prod.mk.injEq] at h; obtain ⟨x, -, rfl, rfl⟩ := h; simp [mu, base, inCorr]
  | initPeek =>
    have := mstep_next h
    obtain ⟨rfl, ⟨-, rfl⟩ | ⟨-, rfl⟩⟩ := this <;> simp [mu, base, inCorr]
  | initPop =>
    simp only [mstep] at h
    cases hb : e.prop.buffer with
    | nil => rw [hb] at h; cases h
    | cons a l =>
      rw [hb] at h
      simp only [Option.map_eq_some_iff, Prod.mk.injEq] at h; obtain ⟨_, -, rfl, rfl⟩ := h; simp [mu, base, inCorr]
  | initCorrPeek i =>
    simp only [mstep] at h
    cases hc : e.corrs[i]? with
    | none =>
      rw [hc] at h
      simp only [Option.some.injEq, Prod.mk.injEq] at h
      obtain ⟨rfl, rfl⟩ := h
      simp [mu, base, inCorr]
    | some c =>
      rw [hc] at h
      simp only [Option.some.injEq] at h
      split_ifs at h with hemp
      · simp only [Prod.mk.injEq] at h; obtain ⟨rfl, rfl⟩ := h; simp [mu, base, inCorr]
      · simp only [Prod.mk.injEq] at h; obtain ⟨rfl, rfl⟩ := h; simp [mu, base, inCorr]
  | initCorr i =>
    simp only [mstep] at h
    cases hc : e.corrs[i]? with
    | none => rw [hc] at h; cases h
    | some c =>
      rw [hc] at h
      obtain ⟨hi, -⟩ := List.getElem?_eq_some_iff.mp hc
      simp only at h
      split_ifs at h
      simp only [Option.map_eq_some_iff, Prod.mk.injEq] at h; obtain ⟨_, -, rfl, rfl⟩ := h
      simp [mu, base, inCorr]; omega
  | finish =>
    simp only [mstep, Option.map_eq_some_iff, Prod.mk.injEq] at h; obtain ⟨_, -, rfl, rfl⟩ := h; simp [mu, base, inCorr]
  | clearProp => simp only [mstep, Option.some.injEq, Prod.mk.injEq] at h; obtain ⟨rfl, rfl⟩ := h; simp [mu, base, inCorr]
  | clearCorr i =>
    simp only [mstep] at h
    cases hc : e.corrs[i]? with
    | none =>
      rw [hc] at h; simp only [Option.some.injEq, Prod.mk.injEq] at h; obtain ⟨rfl, rfl⟩ := h
      simp [mu, base, inCorr]
    | some c =>
      obtain ⟨hi, -⟩ := List.getElem?_eq_some_iff.mp hc
      rw [hc] at h; simp only [Option.some.injEq, Prod.mk.injEq] at h; obtain ⟨rfl, rfl⟩ := h
      simp [mu, base, inCorr]; omega
  | clearOut => simp only [mstep, Option.some.injEq, Prod.mk.injEq] at h; obtain ⟨rfl, rfl⟩ := h; simp [mu, base, inCorr]
  | clearLog => simp only [mstep, Option.some.injEq, Prod.mk.injEq] at h; obtain ⟨rfl, rfl⟩ := h; simp [mu, base, inCorr]

theorem waiting_modify (l : List Corr) (i : ℕ) (f : Corr → Corr) (hf : ∀ c, (f c).queued ≤ c.queued + 1) :
    ((l.modify i f).map Corr.queued).sum ≤ (l.map Corr.queued).sum + 1 := by
  induction l generalizing i with
  | nil => simp
  | cons a l ih =>
    cases i with
    | zero => have := hf a; simp; omega
    | succ i => have := ih i; simp; omega

theorem mu_event {e x : Estimator} {ev : EstEv} {r : Res} (hr : res ev = some r) (hs : e.step ev = some x) (pc : PC) :
    mu x pc ≤ mu e pc + if isArrival (.work ev) then 1 else 0 := by
  have hv : ∀ m c, (Corr.pushVel m c).queued ≤ c.queued + 1 := by intro m c; cases c <;> simp [Corr.pushVel, Corr.queued]
  have hl : ∀ m c, (Corr.pushLeg m c).queued ≤ c.queued + 1 := by intro m c; cases c <;> simp [Corr.pushLeg, Corr.queued]
  cases ev <;> simp only [res, Option.some.injEq, reduceCtorEq] at hr <;> simp only [Estimator.step] at hs
  · obtain rfl := Option.some.inj hs; simp [mu, waiting]
  · rename_i i m
    obtain rfl := Option.some.inj hs
    have := waiting_modify e.corrs i (Corr.pushVel m) (hv m)
    simp only [mu, waiting, List.length_modify, isArrival, if_true]
    split_ifs <;> omega
  · rename_i i m
    obtain rfl := Option.some.inj hs
    have := waiting_modify e.corrs i (Corr.pushLeg m) (hl m)
    simp only [mu, waiting, List.length_modify, isArrival, if_true]
    split_ifs <;> omega
  · simp only [Option.map_eq_some_iff] at hs
    obtain ⟨l, hl, rfl⟩ := hs
    simp [mu, waiting]
  · obtain rfl := Option.some.inj hs; simp [mu, waiting]

def phase : Phase → ℕ
  | .enter => 1
  | .inside => 0
  | .leave _ => 2

def nu (y : Sys) : ℕ := 3 * mu y.e y.pc + phase y.ph

theorem nu_act {y y' : Sys} {a : Act} (h : y.act a = some y') (hc : isCall a = false) :
    (if isMain a then 1 else 0) + nu y' ≤ nu y + 3 * if isArrival a then 1 else 0 := by
  cases a with
  | call op => cases hc
  | main =>
    obtain ⟨e, pc, ph, own⟩ := y
    simp only [Sys.act] at h
    simp only [isMain, isArrival, if_true]
    cases ph with
    | enter =>
      simp only at h
      cases hl : lockOf e pc with
      | none =>
        rw [hl] at h
        simp only [Option.map_eq_some_iff] at h
        obtain ⟨q, hq, rfl⟩ := h
        have := mu_step hq
        simp [nu, phase]; omega
      | some r =>
        rw [hl] at h
        simp only at h
        cases ho : own r with
        | none => rw [ho] at h; obtain rfl := Option.some.inj h; simp [nu, phase]; omega
        | some x => rw [ho] at h; cases h
    | inside =>
      simp only at h
      cases hl : lockOf e pc with
      | none => rw [hl] at h; cases h
      | some r =>
        rw [hl] at h
        simp only [Option.map_eq_some_iff] at h
        obtain ⟨q, hq, rfl⟩ := h
        have := mu_step hq
        simp [nu, phase]; omega
    | leave r => obtain rfl := Option.some.inj h; simp [nu, phase]; omega
  | lock ev =>
    have hph : y'.ph = y.ph := by
      obtain ⟨e, pc, ph, own⟩ := y
      simp only [Sys.act] at h
      cases hr : res ev with
      | none => rw [hr] at h; cases h
      | some r =>
        rw [hr] at h
        simp only at h
        cases ho : own r with
        | none => rw [ho] at h; obtain rfl := Option.some.inj h; rfl
        | some x => rw [ho] at h; cases h
    obtain ⟨h1, h2⟩ := act_lock h
    simp [isMain, isArrival, nu, h1, h2, hph]
  | work ev =>
    have hph : y'.ph = y.ph := by
      obtain ⟨e, pc, ph, own⟩ := y
      simp only [Sys.act] at h
      cases hr : res ev with
      | none => rw [hr] at h; cases h
      | some r =>
        rw [hr] at h
        simp only at h
        cases ho : own r with
        | none => rw [ho] at h; cases h
        | some x =>
          rw [ho] at h
          cases x <;> simp only [reduceCtorEq] at h
          split_ifs at h
          simp only [Option.map_eq_some_iff] at h
          obtain ⟨e', h1, rfl⟩ := h
          rfl
    obtain ⟨⟨r, hr⟩, h1, h2⟩ := act_work h
    have := mu_event hr h1 y.pc
    simp only [isMain, nu, h2, hph]
    simp only [Bool.false_eq_true, if_false]
    omega
  | unlock r =>
    have hph : y'.ph = y.ph := by
      obtain ⟨e, pc, ph, own⟩ := y
      simp only [Sys.act] at h
      cases ho : own r with
      | none => rw [ho] at h; cases h
      | some x =>
        rw [ho] at h
        cases x <;> simp only [reduceCtorEq] at h
        obtain rfl := Option.some.inj h; rfl
    obtain ⟨h1, h2⟩ := act_unlock h
    simp [isMain, isArrival, nu, h1, h2, hph]

theorem nu_run (acts : List Act) : ∀ {y y' : Sys}, y.run acts = some y' → (∀ a ∈ acts, isCall a = false) →
    acts.countP isMain + nu y' ≤ nu y + 3 * acts.countP isArrival := by
  induction acts with
  | nil => intro y y' h _; obtain rfl := Option.some.inj h; simp
  | cons a l ih =>
    intro y y' h hc
    simp only [Sys.run, Option.bind_eq_some_iff] at h
    obtain ⟨y1, h1, h2⟩ := h
    have i1 := ih h2 fun b hb => hc b (List.mem_cons_of_mem _ hb)
    have i2 := nu_act h1 (hc a (by simp))
    rw [List.countP_cons, List.countP_cons]
    omega

theorem mu_start {e : Estimator} {op : EstEv} {pc : PC} (h : start e op = some pc) : mu e pc ≤ 2 * e.corrs.length + waiting e + 4 := by
  cases op <;> simp only [start, reduceCtorEq] at h
  · obtain rfl := Option.some.inj h
    cases e.pending with
    | some i => simp only [mu, base, inCorr]; simp; omega
    | none => simp only; split_ifs <;> simp [mu, base, inCorr] <;> omega
  · cases hp : e.pending with
    | some i => rw [hp] at h; cases h
    | none => rw [hp] at h; obtain rfl := Option.some.inj h; simp [mu, base, inCorr]; omega

/-- the next step of the main thread and an access another thread is about to make do not interfere, unless the main
thread looks at that queue without the mutex -/
theorem diamond {y : Sys} (i : LockInv y) {r : Res} {ev : EstEv} (ho : y.own r = some (.other ev)) (hp : ¬ Peeks y.pc r) :
    ((y.act .main).bind fun y' => y'.act (.work ev)) = (y.act (.work ev)).bind fun y' => y'.act .main := by
  obtain ⟨e, pc, ph, own⟩ := y
  obtain ⟨i1, i2, i3, i4⟩ := i
  simp only at i1 i2 i3 i4 ho hp
  have hr := i4 r ev ho
  have hw : ∀ (e : Estimator) (pc : PC) (ph : Phase) (own : Res → Option Holder), own r = some (.other ev) →
      (Sys.mk e pc ph own).act (.work ev) = (e.step ev).map fun x => ⟨x, pc, ph, setOwn own r (some .otherDone)⟩ := by
    intro e pc ph own ho; simp [Sys.act, hr, ho]
  have hset : ∀ r' o, r' ≠ r → setOwn (setOwn own r' o) r (some .otherDone) = setOwn (setOwn own r (some .otherDone)) r' o := by
    intro r' o hne
    funext q
    simp only [setOwn]
    by_cases h1 : q = r
    · subst h1; simp [Ne.symm hne]
    · simp [h1]
  rw [hw e pc ph own ho]
  cases ph with
  | enter =>
    cases hl : lockOf e pc with
    | none =>
      have e1 : (Sys.mk e pc .enter own).act .main = (mstep e pc).map fun q => ⟨q.1, q.2, .enter, own⟩ := by
        simp [Sys.act, hl]
      have e2 : ∀ x, e.step ev = some x → (Sys.mk x pc .enter (setOwn own r (some .otherDone))).act .main =
          (mstep x pc).map fun q => ⟨q.1, q.2, .enter, setOwn own r (some .otherDone)⟩ := by
        intro x hx; simp [Sys.act, lockOf_step hr hx, hl]
      rw [e1]
      have hc := mstep_comm hr (by rw [hl]; simp) hp
      cases hx : e.step ev with
      | none =>
        rw [hx] at hc
        cases hq : mstep e pc with
        | none => rfl
        | some q =>
          rw [hq] at hc
          simp only [Option.bind_none, Option.bind_some] at hc
          simp only [Option.map_some, Option.bind_some, hw _ _ _ _ ho, Option.map_none, Option.bind_none]
          cases hz : q.1.step ev with
          | none => rfl
          | some z => rw [hz] at hc; cases hc
      | some x =>
        rw [hx] at hc
        simp only [Option.bind_some, Option.map_some] at hc ⊢
        rw [e2 x hx, hc]
        cases hq : mstep e pc with
        | none => rfl
        | some q =>
          simp only [Option.map_some, Option.bind_some, hw _ _ _ _ ho]
          cases q.1.step ev <;> rfl
    | some r0 =>
      have e2 : ∀ x, e.step ev = some x → lockOf x pc = some r0 := by
        intro x hx; rw [lockOf_step hr hx, hl]
      cases ho0 : own r0 with
      | none =>
        have hne : r0 ≠ r := by rintro rfl; rw [ho0] at ho; cases ho
        have e1 : (Sys.mk e pc .enter own).act .main = some ⟨e, pc, .inside, setOwn own r0 (some .main)⟩ := by
          simp [Sys.act, hl, ho0]
        rw [e1, Option.bind_some, hw _ _ _ _ (by rw [setOwn_ne _ (Ne.symm hne)]; exact ho)]
        cases hx : e.step ev with
        | none => rfl
        | some x =>
          simp only [Option.map_some, Option.bind_some]
          have : setOwn own r (some .otherDone) r0 = none := by rw [setOwn_ne _ hne]; exact ho0
          simp [Sys.act, e2 x hx, this, hset r0 _ hne]
      | some h0 =>
        have e1 : (Sys.mk e pc .enter own).act .main = none := by simp [Sys.act, hl, ho0]
        rw [e1, Option.bind_none]
        cases hx : e.step ev with
        | none => rfl
        | some x =>
          simp only [Option.map_some, Option.bind_some]
          have : ∃ h1, setOwn own r (some .otherDone) r0 = some h1 := by
            by_cases hne : r0 = r
            · subst hne; exact ⟨_, setOwn_same _ _ _⟩
            · exact ⟨h0, by rw [setOwn_ne _ hne]; exact ho0⟩
          obtain ⟨h1, hh1⟩ := this
          simp [Sys.act, e2 x hx, hh1]
  | inside =>
    obtain ⟨r0, hl, ho0, -⟩ := i2 rfl
    have hne : r0 ≠ r := by rintro rfl; rw [ho0] at ho; cases ho
    have e1 : (Sys.mk e pc .inside own).act .main = (mstep e pc).map fun q => ⟨q.1, q.2, .leave r0, own⟩ := by
      simp [Sys.act, hl]
    have e2 : ∀ x, e.step ev = some x → (Sys.mk x pc .inside (setOwn own r (some .otherDone))).act .main =
        (mstep x pc).map fun q => ⟨q.1, q.2, .leave r0, setOwn own r (some .otherDone)⟩ := by
      intro x hx; simp [Sys.act, lockOf_step hr hx, hl]
    rw [e1]
    have hc := mstep_comm hr (by rw [hl]; simpa using hne) hp
    cases hx : e.step ev with
    | none =>
      rw [hx] at hc
      cases hq : mstep e pc with
      | none => rfl
      | some q =>
        rw [hq] at hc
        simp only [Option.bind_none, Option.bind_some] at hc
        simp only [Option.map_some, Option.bind_some, hw _ _ _ _ ho, Option.map_none, Option.bind_none]
        cases hz : q.1.step ev with
        | none => rfl
        | some z => rw [hz] at hc; cases hc
    | some x =>
      rw [hx] at hc
      simp only [Option.bind_some, Option.map_some] at hc ⊢
      rw [e2 x hx, hc]
      cases hq : mstep e pc with
      | none => rfl
      | some q =>
        simp only [Option.map_some, Option.bind_some, hw _ _ _ _ ho]
        cases q.1.step ev <;> rfl
  | leave r0 =>
    obtain ⟨ho0, -⟩ := i3 r0 rfl
    have hne : r0 ≠ r := by rintro rfl; rw [ho0] at ho; cases ho
    have e1 : (Sys.mk e pc (.leave r0) own).act .main = some ⟨e, pc, .enter, setOwn own r0 none⟩ := rfl
    rw [e1, Option.bind_some, hw _ _ _ _ (by rw [setOwn_ne _ (Ne.symm hne)]; exact ho)]
    cases hx : e.step ev with
    | none => rfl
    | some x => simp [Sys.act, hset r0 _ hne]

end Thr
end Drift
