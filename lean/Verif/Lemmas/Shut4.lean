import Verif.Lemmas.Shut3

/-!
# Lemmas for C135: the events of the system; nothing is undefined
-/
namespace Drift.Shut

theorem sysInv_quiet {P : Program} {ev : SysEv} {fut : List SysEv} {s : System} (h : SysInv P fut s) (hv : ∀ i m, ev ≠ .msg i m) :
    SysInv P (ev :: fut) s := by
  have e : ∀ i, stampsAt i (ev :: fut) = stampsAt i fut := by
    intro i
    cases ev with
    | msg j m => exact absurd rfl (hv j m)
    | _ => rfl
  have e2 := propStamps_quiet P hv fut
  have b := h.sub
  refine ⟨⟨b.wired, b.kinds, b.queues, b.ports, b.mount, fun i c h1 h2 => ?_, fun i c p h1 h2 h3 => ?_⟩, h.pub, ?_, ?_, h.own⟩
  · rw [e i]; exact b.odom i c h1 h2
  · rw [e i]; exact b.prev i c p h1 h2 h3
  · rw [e2]; exact h.core
  · unfold PropSorted; rw [e2]; exact h.sorted

theorem sysInv_nil {P : Program} {fut : List SysEv} {s : System} (h : SysInv P fut s) : SysInv P [] s := by
  have b := h.sub
  obtain ⟨τ, σ, h1, -⟩ := h.core
  refine ⟨⟨b.wired, b.kinds, b.queues, b.ports, b.mount, fun i c h1 h2 => ?_, fun i c p h1 h2 h3 => ⟨(b.prev i c p h1 h2 h3).1, ?_⟩⟩, h.pub,
    ⟨τ, σ, h1, ?_⟩, ?_, h.own⟩
  · exact .nil
  · exact List.isChain_singleton _
  · intro t ht; cases ht
  · exact List.Pairwise.nil

theorem messages_cons (ev : Ev) (evs : List Ev) : messages (ev :: evs) = messages [ev] ++ messages evs := by
  rw [← List.singleton_append]
  exact List.filterMap_append

theorem defined_step {P : Program} (hP : P.Sound) {mlog : M4 → M4} {ff : Bool} {ev : Ev} {fut : List SysEv} {r : Run}
    (h : r.ended .spin = false → SysInv P (messages [ev] ++ fut) r.sys) (h0 : r.ended .spin = true → SysInv P [] r.sys)
    (hw : WellFormed P (messages [ev])) :
    ∃ r' pl, r.step mlog ff ev = some r' ∧ r.sys.run mlog pl = some r'.sys ∧ (r.ended .spin = false → delivered pl = messages [ev]) ∧
      (r.ended .spin = true → delivered pl = [] ∧ r'.ended .spin = true) ∧
      (r'.ended .spin = false → SysInv P fut r'.sys) ∧ (r'.ended .spin = true → SysInv P [] r'.sys) := by
  have quiet : ∀ e : SysEv, (∀ i m, e ≠ .msg i m) → messages [ev] = [] → ∃ s, r.sys.step mlog e = some s ∧
      (r.ended .spin = false → SysInv P fut s) ∧ (r.ended .spin = true → SysInv P [] s) := by
    intro e he hm
    cases hs : r.ended .spin with
    | false =>
      have := h hs
      rw [hm, List.nil_append] at this
      obtain ⟨s, h1, h2⟩ := sys_step_ok hP (mlog := mlog) (sysInv_quiet this he) (fun i m e1 => absurd e1 (he i m))
      exact ⟨s, h1, fun _ => h2, fun hf => by cases hf⟩
    | true =>
      obtain ⟨s, h1, h2⟩ := sys_step_ok hP (mlog := mlog) (sysInv_quiet (h0 hs) he) (fun i m e1 => absurd e1 (he i m))
      exact ⟨s, h1, (fun hf => by cases hf), fun _ => h2⟩
  have one : ∀ (e : SysEv) s, (∀ i m, e ≠ .msg i m) → r.sys.step mlog e = some s → r.sys.run mlog [e] = some s ∧ delivered [e] = [] := by
    intro e s he hs
    refine ⟨by simp only [System.run, hs, Option.bind_some], ?_⟩
    cases e with
    | msg i m => exact absurd rfl (he i m)
    | _ => rfl
  have same : messages [ev] = [] → (r.ended .spin = false → SysInv P fut r.sys) := by
    intro hm hs
    have := h hs
    rw [hm, List.nil_append] at this
    exact this
  cases ev with
  | shutdown =>
    exact ⟨_, [], rfl, rfl, fun _ => rfl, fun hs => ⟨rfl, hs⟩, same rfl, h0⟩
  | msg i m =>
    cases hs : r.ended .spin with
    | true => exact ⟨r, [], by simp only [Run.step, hs, if_true], rfl, (fun hf => by cases hf), fun _ => ⟨rfl, hs⟩, (fun hf => by rw [hs] at hf; cases hf), h0⟩
    | false =>
      obtain ⟨s, h1, h2⟩ := sys_step_ok hP (mlog := mlog) (ev := .msg i m) (h hs) (fun i' m' e1 x hx => hw i' m' x (by rw [← e1]; exact List.mem_singleton.mpr rfl) hx)
      refine ⟨{ r with sys := s }, [.msg i m], by simp only [Run.step, hs, h1]; rfl, by simp only [System.run, h1, Option.bind_some], fun _ => rfl,
        (fun hf => by cases hf), fun _ => h2, fun hf => ?_⟩
      have : r.ended .spin = true := hf
      rw [hs] at this; cases this
  | thread t =>
    by_cases h1 : r.ended t = true
    · exact ⟨r, [], by simp only [Run.step, h1, if_true], rfl, fun _ => rfl, fun hs => ⟨rfl, hs⟩, same rfl, h0⟩
    · by_cases h2 : r.leaves t = true
      · refine ⟨{ r with ended := Function.update r.ended t true }, [], by simp only [Run.step, h1, h2]; rfl, rfl, fun _ => rfl,
          fun hs => ⟨rfl, update_mono _ _ _ hs⟩, fun hs => same rfl ?_, fun _ => ?_⟩
        · by_contra hc
          have := update_mono r.ended t _ (by simpa using hc : r.ended .spin = true)
          have hs : Function.update r.ended t true .spin = false := hs
          rw [hs] at this; cases this
        · cases hs : r.ended .spin with
          | false => exact sysInv_nil (same rfl hs)
          | true => exact h0 hs
      · obtain ⟨s, pl, h3, h4, h5, h6, h7⟩ : ∃ s pl, r.body mlog t = some s ∧ r.sys.run mlog pl = some s ∧ delivered pl = [] ∧
            (r.ended .spin = false → SysInv P fut s) ∧ (r.ended .spin = true → SysInv P [] s) := by
          cases t with
          | pose => obtain ⟨s, a, b⟩ := quiet .pose (by simp) rfl; obtain ⟨c, d⟩ := one .pose s (by simp) a; exact ⟨s, _, a, c, d, b⟩
          | path => obtain ⟨s, a, b⟩ := quiet .path (by simp) rfl; obtain ⟨c, d⟩ := one .path s (by simp) a; exact ⟨s, _, a, c, d, b⟩
          | log => obtain ⟨s, a, b⟩ := quiet .log (by simp) rfl; obtain ⟨c, d⟩ := one .log s (by simp) a; exact ⟨s, _, a, c, d, b⟩
          | filter => obtain ⟨s, a, b⟩ := quiet .filter (by simp) rfl; obtain ⟨c, d⟩ := one .filter s (by simp) a; exact ⟨s, _, a, c, d, b⟩
          | spin => exact ⟨r.sys, [], rfl, rfl, rfl, same rfl, h0⟩
        exact ⟨{ r with sys := s }, pl, by simp only [Run.step, h1, h2, h3]; rfl, h4, fun _ => h5, fun hs => ⟨h5, hs⟩, h6, h7⟩
  | main =>
    obtain ⟨s, a, b⟩ := quiet .tick (by simp) rfl
    obtain ⟨c, d⟩ := one .tick s (by simp) a
    obtain ⟨sys, ok, todo, ended, stopped, gone⟩ := r
    have stay : ∀ r' : Run, r'.sys = sys → r'.ended = ended →
        (Run.step mlog ff ⟨sys, ok, todo, ended, stopped, gone⟩ .main = some r') → ∃ r' pl, Run.step mlog ff ⟨sys, ok, todo, ended, stopped, gone⟩ .main = some r' ∧
          sys.run mlog pl = some r'.sys ∧ (ended .spin = false → delivered pl = []) ∧
          (ended .spin = true → delivered pl = [] ∧ r'.ended .spin = true) ∧
          (r'.ended .spin = false → SysInv P fut r'.sys) ∧ (r'.ended .spin = true → SysInv P [] r'.sys) := by
      intro r' e1 e2 e3
      exact ⟨r', [], e3, by rw [e1]; rfl, fun _ => rfl, fun hs => ⟨rfl, by rw [e2]; exact hs⟩, by rw [e1, e2]; exact same rfl, by rw [e1, e2]; exact h0⟩
    rcases todo with _ | _ | ⟨x, l⟩
    · by_cases h1 : (ok || sys.est.pending.isSome) = true
      · dsimp only at a c
        exact ⟨⟨s, ok, none, ended, stopped, gone⟩, [.tick], by simp only [Run.step, h1, if_true, a, Option.map_some], c, fun _ => d, fun hs => ⟨d, hs⟩, b.1, b.2⟩
      · exact stay ⟨sys, ok, some (unwind ff sys.est.log.enabled sys.filter.isSome), ended, stopped, gone⟩ rfl rfl (by simp only [Run.step, h1]; rfl)
    · exact stay ⟨sys, ok, some [], ended, stopped, gone⟩ rfl rfl rfl
    · cases x with
      | join t =>
        by_cases h1 : ended t = true
        · exact stay ⟨sys, ok, some l, ended, stopped, gone⟩ rfl rfl (by simp only [Run.step, h1, if_true])
        · exact stay ⟨sys, ok, some (.join t :: l), ended, stopped, gone⟩ rfl rfl (by simp only [Run.step, h1]; rfl)
      | stop t => exact stay ⟨sys, ok, some l, ended, Function.update stopped t true, gone⟩ rfl rfl rfl
      | gone o => exact stay ⟨sys, ok, some l, ended, stopped, Function.update gone o true⟩ rfl rfl rfl

theorem delivered_append (a b : List SysEv) : delivered (a ++ b) = delivered a ++ delivered b := List.filter_append _ _

theorem sys_run_app (mlog : M4 → M4) (a b : List SysEv) : ∀ s : System, s.run mlog (a ++ b) = (s.run mlog a).bind fun s => s.run mlog b := by
  induction a with
  | nil => intro s; rfl
  | cons x a ih =>
    intro s
    simp only [List.cons_append, System.run]
    cases s.step mlog x with
    | none => rfl
    | some r1 => exact ih r1

theorem defined_run {P : Program} (hP : P.Sound) {mlog : M4 → M4} {ff : Bool} (evs : List Ev) : ∀ {r : Run},
    (r.ended .spin = false → SysInv P (messages evs) r.sys) → (r.ended .spin = true → SysInv P [] r.sys) → WellFormed P (messages evs) →
    ∃ r' pl, r.run mlog ff evs = some r' ∧ r.sys.run mlog pl = some r'.sys ∧ delivered pl <+: messages evs ∧ (r.ended .spin = true → delivered pl = []) := by
  induction evs with
  | nil => intro r h h0 hw; exact ⟨r, [], rfl, rfl, List.prefix_rfl, fun _ => rfl⟩
  | cons ev evs ih =>
    intro r h h0 hw
    rw [messages_cons] at h hw
    obtain ⟨r1, pl, a1, a2, a3, a4, a5, a6⟩ := defined_step hP (mlog := mlog) (ff := ff) h h0 (fun i m x hm hx => hw i m x (List.mem_append_left _ hm) hx)
    obtain ⟨r2, pl2, b1, b2, b3, b4⟩ := ih a5 a6 (fun i m x hm hx => hw i m x (List.mem_append_right _ hm) hx)
    refine ⟨r2, pl ++ pl2, by simp only [Run.run, a1, Option.bind_some, b1], by rw [sys_run_app, a2]; exact b2, ?_, fun hs => ?_⟩
    · rw [delivered_append, messages_cons]
      cases hs : r.ended .spin with
      | false => rw [a3 hs]; exact (List.prefix_append_right_inj _).mpr b3
      | true =>
        obtain ⟨c1, c2⟩ := a4 hs
        rw [c1, b4 c2]
        exact List.nil_prefix
    · rw [delivered_append, (a4 hs).1, b4 (a4 hs).2]; rfl

end Drift.Shut
