import Verif.Lemmas.GyroThr3
import Verif.Lemmas.Filter2

/-!
# The gyro filter thread: simulation by whole runs
-/
namespace Drift
open GyroFilter
namespace GyroThr

/-- the filter thread alone, from the beginning of a run at `f₁` -/
inductive Path (f₁ : GyroFilter) : GyroFilter → PC → Prop
  | start {g pc} (h : start f₁ = some (g, pc)) : Path f₁ g pc
  | step {g pc g' pc'} (p : Path f₁ g pc) (h : mstep g pc = some (g', pc')) : Path f₁ g' pc'

theorem Path.good {f₁ g : GyroFilter} {pc : PC} (p : Path f₁ g pc) : NE pc g ∧ NS pc g ∧ ClrOk pc g := by
  induction p with
  | start h => exact ⟨(start_ok h).1, (start_ok h).2.1, (start_ok h).2.2.1⟩
  | step p h ih =>
    have := mstep_next h ih.1 ih.2.1 ih.2.2
    exact ⟨this.ne, this.ns, this.ok⟩

theorem Path.fin_eq {f₁ g : GyroFilter} {pc : PC} (p : Path f₁ g pc) : f₁.runOnce = fin pc g := by
  induction p with
  | start h => rw [← start_fin, h]; rfl
  | @step g pc g' pc' p h ih =>
    have hne : pc ≠ .idle := by rintro rfl; simp [mstep] at h
    rw [ih, fin_step g pc hne p.good.2.1, h]; rfl

theorem finds_of_ne {o : Op} (h : o ≠ .popOut) (f : GyroFilter) : finds f o = true := by
  cases o <;> first | rfl | exact absurd rfl h

/-- an access to a queue at which the run may still look could have come before the run -/
theorem Path.app {f₁ g : GyroFilter} {pc : PC} (p : Path f₁ g pc) {o : Op} {q : Q} (hr : res o = some q)
    (ho : o ≠ .popOut) (hf : Fut g.method pc q) : Path (app o f₁) (app o g) pc := by
  induction p with
  | start h => exact .start (by rw [start_app, h]; rfl)
  | @step g pc g' pc' p h ih =>
    have n := mstep_next h p.good.1 p.good.2.1 p.good.2.2
    have hm : g'.method = g.method := n.method
    rw [hm] at hf
    obtain ⟨h1, h2⟩ := n.fut q hf
    exact .step (ih h1) (by rw [mstep_app hr g pc h2 p.good.1 (finds_of_ne ho g), h]; rfl)

/-- accesses one after the other -/
def apps (l : List Op) (f : GyroFilter) : GyroFilter := l.foldl (fun f o => GyroThr.app o f) f

theorem apps_append (l l' : List Op) (f : GyroFilter) : apps (l ++ l') f = apps l' (apps l f) := List.foldl_append
theorem apps_cons (o : Op) (l : List Op) (f : GyroFilter) : apps (o :: l) f = apps l (GyroThr.app o f) := rfl

theorem apps_runOps : ∀ (l : List Op) (f : GyroFilter), (∀ o ∈ l, res o ≠ none) → runOps l f = some (apps l f)
  | [], f, _ => rfl
  | o :: l, f, h => by
    obtain ⟨q, hq⟩ := Option.ne_none_iff_exists'.mp (h o List.mem_cons_self)
    rw [runOps, step_app hq, Option.bind_some, apps_runOps l _ fun o ho => h o (List.mem_cons_of_mem _ ho)]
    rfl

/-- is it the estimator taking an output -/
def isPop : Op → Bool
  | .popOut => true
  | _ => false

theorem app_out (o : Op) (f : GyroFilter) : (GyroThr.app o f).out = if isPop o then f.out.tail else f.out := by
  cases o <;> rfl

theorem apps_out : ∀ (l : List Op) (f : GyroFilter), (apps l f).out = f.out.drop (l.countP isPop)
  | [], f => rfl
  | o :: l, f => by
    rw [apps_cons, apps_out l, app_out, List.countP_cons]
    split
    · rw [← List.drop_one, List.drop_drop, Nat.add_comm]
    · rw [Nat.add_zero]

theorem apps_method : ∀ (l : List Op) (f : GyroFilter), (apps l f).method = f.method
  | [], f => rfl
  | o :: l, f => by rw [apps_cons, apps_method l, app_method]

theorem app_ne {pc : PC} {f : GyroFilter} (o : Op) (h : NE pc f) : NE pc (GyroThr.app o f) := by
  induction pc with
  | push x k ih => exact ih h
  | popImu =>
    obtain ⟨m, l, h⟩ := h
    cases o <;> first
      | exact ⟨m, l, h⟩
      | (rename_i m'; exact ⟨m, l ++ [m'], by simp [GyroThr.app, h]⟩)
  | popEnc =>
    obtain ⟨m, l, h⟩ := h
    cases o <;> first
      | exact ⟨m, l, h⟩
      | (rename_i m'; exact ⟨m, l ++ [m'], by simp [GyroThr.app, h]⟩)
  | frontEnc x =>
    cases x with
    | none => trivial
    | some x =>
      obtain ⟨m, l, h⟩ := h
      cases o <;> first
        | exact ⟨m, l, h⟩
        | (rename_i m'; exact ⟨m, l ++ [m'], by simp [GyroThr.app, h]⟩)
  | _ => trivial

theorem mstep_apps : ∀ (l : List Op) (g : GyroFilter) (pc : PC), NE pc g → (∀ o ∈ l, ∃ q, res o = some q ∧ ¬ Looks pc q) →
    l.countP isPop ≤ g.out.length → mstep (apps l g) pc = (mstep g pc).map fun r => (apps l r.1, r.2)
  | [], g, pc, _, _, _ => by
    show mstep g pc = _
    cases mstep g pc <;> rfl
  | o :: l, g, pc, hn, hl, hc => by
    obtain ⟨q, hq, hq'⟩ := hl o List.mem_cons_self
    have hf : finds g o = true := by
      cases o <;> first
        | rfl
        | (rw [List.countP_cons] at hc
           simp only [isPop, if_true] at hc
           cases hg : g.out with
           | nil => rw [hg] at hc; simp at hc
           | cons a b => simp [finds, hg])
    rw [apps_cons, mstep_apps l _ pc (app_ne o hn) (fun o ho => hl o (List.mem_cons_of_mem _ ho)) ?_,
      mstep_app hq g pc hq' hn hf, Option.map_map]
    · rfl
    · rw [app_out]
      rw [List.countP_cons] at hc
      split
      · rename_i hp
        rw [if_pos hp] at hc
        rw [List.length_tail]
        omega
      · omega

theorem app_comm {o o' : Op} (h : res o ≠ res o') (f : GyroFilter) :
    GyroThr.app o (GyroThr.app o' f) = GyroThr.app o' (GyroThr.app o f) := by
  cases o <;> cases o' <;> first
    | rfl
    | exact absurd rfl h
    | (rename_i i m j m'
       have hij : i ≠ j := fun e => h (by rw [e]; rfl)
       simp only [GyroThr.app]
       congr 1
       apply List.ext_getElem?
       intro k
       simp only [List.getElem?_modify]
       by_cases h1 : i = k <;> by_cases h2 : j = k <;> simp_all)

theorem apps_comm {o : Op} : ∀ (l : List Op) (f : GyroFilter), (∀ o' ∈ l, res o ≠ res o') →
    GyroThr.app o (apps l f) = apps l (GyroThr.app o f)
  | [], f, _ => rfl
  | o' :: l, f, h => by
    rw [apps_cons, apps_comm l _ fun x hx => h x (List.mem_cons_of_mem _ hx), app_comm (h o' List.mem_cons_self)]
    rfl

theorem takenIn_apps : ∀ (l : List Op) (g : GyroFilter), (∀ o ∈ l, res o ≠ none) → l.countP isPop ≤ g.out.length →
    takenIn g l = g.out.take (l.countP isPop)
  | [], g, _, _ => rfl
  | o :: l, g, h, hc => by
    obtain ⟨q, hq⟩ := Option.ne_none_iff_exists'.mp (h o List.mem_cons_self)
    rw [takenIn, step_app hq]
    dsimp only
    rw [List.countP_cons] at hc
    rw [takenIn_apps l _ (fun o ho => h o (List.mem_cons_of_mem _ ho)), app_out, List.countP_cons]
    · cases hp : isPop o with
      | false =>
        rw [if_neg (by simp), if_neg (by simp), Nat.add_zero]
        cases o <;> first | rfl | simp [isPop] at hp
      | true =>
        rw [hp] at hc
        rw [if_pos rfl, if_pos rfl]
        cases hg : g.out with
        | nil => rw [hg] at hc; simp at hc
        | cons a b =>
          cases o <;> first
            | (simp [isPop] at hp; done)
            | simp [taken, hg]
    · rw [app_out]
      split
      · rename_i hp
        rw [if_pos hp] at hc
        rw [List.length_tail]; omega
      · omega

theorem takenIn_append : ∀ (l l' : List Op) (f f' : GyroFilter), runOps l f = some f' →
    takenIn f (l ++ l') = takenIn f l ++ takenIn f' l'
  | [], l', f, f', h => by obtain rfl := Option.some.inj h; rfl
  | o :: l, l', f, f', h => by
    rw [runOps, Option.bind_eq_some_iff] at h
    obtain ⟨g, h1, h2⟩ := h
    rw [List.cons_append, takenIn, takenIn, h1]
    dsimp only
    rw [takenIn_append l l' g f' h2, List.append_assoc]

/-- a run in progress: begun at `fA`, now at `(f, pc)`, with the accesses `during` since, the estimator having got `tk` -/
structure Mid (fA : GyroFilter) (f : GyroFilter) (pc : PC) (during : List Op) (tk : List ImuMeas) (pre post : List Op)
    (g : GyroFilter) : Prop where
  path : Path (apps pre fA) g pc
  eq : f = apps post g
  order : SameOrder (pre ++ post) during
  vis : ∀ o ∈ pre ++ post, res o ≠ none
  nopop : ∀ o ∈ pre, isPop o = false
  done : ∀ o ∈ post, ∀ q, res o = some q → ¬ Fut g.method pc q
  pops : post.countP isPop ≤ g.out.length
  tk : tk = g.out.take (post.countP isPop)

theorem Mid.call {fA g : GyroFilter} {pc : PC} (h : start fA = some (g, pc)) : Mid fA g pc [] [] [] [] g :=
  ⟨.start h, rfl, fun _ => rfl, by simp, by simp, by simp, by simp, by simp⟩

theorem Mid.mstep_eq {fA f g : GyroFilter} {pc : PC} {during tk pre post} (h : Mid fA f pc during tk pre post g) :
    mstep f pc = (mstep g pc).map fun r => (apps post r.1, r.2) := by
  rw [h.eq]
  refine mstep_apps post g pc h.path.good.1 ?_ h.pops
  intro o ho
  obtain ⟨q, hq⟩ := Option.ne_none_iff_exists'.mp (h.vis o (by simp [ho]))
  exact ⟨q, hq, fun hl => h.done o ho q hq (looks_fut hl h.path.good.2.2)⟩

theorem Mid.step {fA f g f' : GyroFilter} {pc pc' : PC} {during tk pre post} (h : Mid fA f pc during tk pre post g)
    (hs : mstep f pc = some (f', pc')) : ∃ g', Mid fA f' pc' during tk pre post g' := by
  rw [h.mstep_eq, Option.map_eq_some_iff] at hs
  obtain ⟨⟨g', pc''⟩, h1, h2⟩ := hs
  obtain ⟨rfl, rfl⟩ := Prod.mk.inj h2
  have n := mstep_next h1 h.path.good.1 h.path.good.2.1 h.path.good.2.2
  have hm : g'.method = g.method := n.method
  have ho : g.out <+: g'.out := n.out
  refine ⟨g', .step h.path h1, rfl, h.order, h.vis, h.nopop, ?_, h.pops.trans ho.length_le, ?_⟩
  · intro o ho' q hq hf
    rw [hm] at hf
    exact h.done o ho' q hq (n.fut q hf).1
  · rw [h.tk]
    obtain ⟨t, ht⟩ := ho
    rw [← ht, List.take_append_of_le_length h.pops]

theorem Mid.stuck {fA f g : GyroFilter} {pc : PC} {during tk pre post} (h : Mid fA f pc during tk pre post g)
    (hp : pc ≠ .idle) (hs : mstep f pc = none) : (apps pre fA).runOnce = none := by
  rw [h.mstep_eq, Option.map_eq_none_iff] at hs
  rw [h.path.fin_eq, fin_step g pc hp h.path.good.2.1, hs]
  rfl

theorem SameOrder.snoc {a b d : List Op} {o : Op} (h : SameOrder (a ++ b) d) : SameOrder (a ++ (b ++ [o])) (d ++ [o]) := by
  intro q
  rw [← List.append_assoc, List.filter_append, h q, List.filter_append]

theorem SameOrder.insert {a b d : List Op} {o : Op} (h : SameOrder (a ++ b) d) (hb : ∀ x ∈ b, res o ≠ res x) :
    SameOrder (a ++ [o] ++ b) (d ++ [o]) := by
  intro q
  have := h q
  rw [List.filter_append] at this
  rw [List.filter_append, List.filter_append, List.filter_append, ← this]
  by_cases hq : res o = some q
  · have : b.filter (fun x => decide (res x = some q)) = [] := by
      rw [List.filter_eq_nil_iff]
      intro x hx
      simp only [decide_eq_true_eq]
      intro e
      exact hb x hx (hq.trans e.symm)
    rw [this]; simp
  · have : [o].filter (fun x => decide (res x = some q)) = [] := by simp [hq]
    rw [this]; simp

/-- an access during a run -/
theorem Mid.ev {fA f g : GyroFilter} {pc : PC} {during tk pre post} (h : Mid fA f pc during tk pre post g) {o : Op} {q : Q}
    (hr : res o = some q) (hf : finds f o = true) :
    ∃ pre' post' g', Mid fA (GyroThr.app o f) pc (during ++ [o]) (tk ++ taken f o) pre' post' g' := by
  have hn : res o ≠ none := by rw [hr]; simp
  by_cases ho : o = .popOut
  · subst ho
    have hout : f.out = g.out.drop (post.countP isPop) := by rw [h.eq, apps_out]
    have hlt : post.countP isPop < g.out.length := by
      by_contra hc
      rw [List.drop_eq_nil_of_le (by omega)] at hout
      simp [finds, hout] at hf
    have hcount : (post ++ [Op.popOut]).countP isPop = post.countP isPop + 1 := by
      rw [List.countP_append]; rfl
    refine ⟨pre, post ++ [.popOut], g, h.path, ?_, h.order.snoc, ?_, h.nopop, ?_, ?_, ?_⟩
    · rw [apps_append, ← h.eq]; rfl
    · intro o ho
      rw [← List.append_assoc, List.mem_append] at ho
      rcases ho with ho | ho
      · exact h.vis o ho
      · rw [List.mem_singleton.mp ho]; exact hn
    · intro o ho q' hq'
      rw [List.mem_append] at ho
      rcases ho with ho | ho
      · exact h.done o ho q' hq'
      · rw [List.mem_singleton.mp ho] at hq'
        obtain rfl := Option.some.inj hq'
        have : ∀ k : PC, ¬ Fut g.method k .out := by
          intro k
          induction k with
          | push x k ih => exact ih
          | gyroProp => rintro (h | h); · simp at h
                        cases hm : g.method <;> rw [hm] at h <;> simp [methodQ] at h
          | clrGyro => rintro (h | h); · simp at h
                       cases hm : g.method <;> rw [hm] at h <;> simp [methodQ] at h
          | _ => simp [Fut]
        exact this pc
    · rw [hcount]; omega
    · rw [hcount, h.tk, List.take_succ]
      show _ ++ f.out.head?.toList = _
      rw [hout, List.head?_drop]
  · have hp : isPop o = false := by cases o <;> first | rfl | exact absurd rfl ho
    have htk : taken f o = [] := by cases o <;> first | rfl | exact absurd rfl ho
    rw [htk, List.append_nil]
    by_cases hfu : Fut g.method pc q
    · have hdiff : ∀ x ∈ post, res o ≠ res x := by
        intro x hx e
        exact h.done x hx q (e.symm.trans hr) hfu
      have hgo : (GyroThr.app o g).out = g.out := by rw [app_out, hp]; rfl
      refine ⟨pre ++ [o], post, GyroThr.app o g, ?_, ?_, h.order.insert hdiff, ?_, ?_, ?_, ?_, ?_⟩
      · rw [apps_append]
        exact h.path.app hr ho hfu
      · rw [h.eq, apps_comm post g hdiff]
      · intro x hx
        rw [List.append_assoc, List.mem_append, List.mem_append] at hx
        rcases hx with hx | hx | hx
        · exact h.vis x (by simp [hx])
        · rw [List.mem_singleton.mp hx]; exact hn
        · exact h.vis x (by simp [hx])
      · intro x hx
        rw [List.mem_append] at hx
        rcases hx with hx | hx
        · exact h.nopop x hx
        · rw [List.mem_singleton.mp hx]; exact hp
      · rw [app_method]; exact h.done
      · rw [hgo]; exact h.pops
      · rw [hgo]; exact h.tk
    · have hcount : (post ++ [o]).countP isPop = post.countP isPop := by
        rw [List.countP_append, List.countP_cons, hp]; rfl
      refine ⟨pre, post ++ [o], g, h.path, ?_, h.order.snoc, ?_, h.nopop, ?_, ?_, ?_⟩
      · rw [apps_append, ← h.eq]; rfl
      · intro x hx
        rw [← List.append_assoc, List.mem_append] at hx
        rcases hx with hx | hx
        · exact h.vis x hx
        · rw [List.mem_singleton.mp hx]; exact hn
      · intro x hx q' hq'
        rw [List.mem_append] at hx
        rcases hx with hx | hx
        · exact h.done x hx q' hq'
        · rw [List.mem_singleton.mp hx, hr] at hq'
          obtain rfl := Option.some.inj hq'
          exact hfu
      · rw [hcount]; exact h.pops
      · rw [hcount]; exact h.tk

/-- the end of a run -/
theorem Mid.ret {fA f g : GyroFilter} {during tk pre post} (h : Mid fA f .idle during tk pre post g) :
    runOps (pre ++ .run :: post) fA = some f ∧ takenIn fA (pre ++ .run :: post) = tk := by
  have hpre : runOps pre fA = some (apps pre fA) := apps_runOps pre fA fun o ho => h.vis o (by simp [ho])
  have hpost := apps_runOps post g fun o ho => h.vis o (by simp [ho])
  have hrun : (apps pre fA).runOnce = some g := h.path.fin_eq
  have hstep : (apps pre fA).step .run = some g := hrun
  constructor
  · rw [runOps_append, hpre, Option.bind_some, runOps, hstep, Option.bind_some, hpost, h.eq]
  · rw [takenIn_append pre _ fA _ hpre, takenIn, hstep]
    dsimp only
    rw [takenIn_apps post g (fun o ho => h.vis o (by simp [ho])) h.pops, ← h.tk]
    have : ∀ (l : List Op) (f : GyroFilter), (∀ o ∈ l, res o ≠ none) → (∀ o ∈ l, isPop o = false) → takenIn f l = [] := by
      intro l
      induction l with
      | nil => intro f _ _; rfl
      | cons o l ih =>
        intro f h1 h2
        obtain ⟨q, hq⟩ := Option.ne_none_iff_exists'.mp (h1 o List.mem_cons_self)
        rw [takenIn, step_app hq]
        dsimp only
        rw [ih _ (fun o ho => h1 o (List.mem_cons_of_mem _ ho)) fun o ho => h2 o (List.mem_cons_of_mem _ ho)]
        have := h2 o List.mem_cons_self
        cases o <;> first | rfl | simp [isPop] at this
    rw [this pre fA (fun o ho => h.vis o (by simp [ho])) h.nopop]
    rfl

end GyroThr
end Drift
