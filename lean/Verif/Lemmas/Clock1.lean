import Verif.Spec.Clock
import Verif.Model.Estimator
import Mathlib.Tactic

namespace Drift
open Mat Matrix RobotState

/-- the same state with other time stamps -/
def RobotState.clk (a b : Option ℝ) (s : RobotState) : RobotState := { s with t := a, tProp := b }

theorem later_eq (c : ℝ) (s : RobotState) : s.later c = s.clk (s.t.map (· + c)) (s.tProp.map (· + c)) := rfl

variable (a b : Option ℝ) (s : RobotState)

theorem clk_correctRight (Z H N : Mat) (et : ErrorType) :
    correctRightInvariant Z H N (s.clk a b) et = (correctRightInvariant Z H N s et).map (clk a b) := by
  unfold correctRightInvariant
  simp only [Option.bind_eq_bind, Option.map_bind, Function.comp_def]
  rfl

theorem clk_correctLeft (Z H N : Mat) (et : ErrorType) :
    correctLeftInvariant Z H N (s.clk a b) et = (correctLeftInvariant Z H N s et).map (clk a b) := by
  unfold correctLeftInvariant
  simp only [Option.bind_eq_bind, Option.map_bind, Function.comp_def]
  rfl

theorem clk_add (aug : V3) (P : Mat) (n : M3) (p : Option ℕ) :
    (s.clk a b).add_aug_state aug P n p = (s.add_aug_state aug P n p).map fun r => (r.1, r.2.clk a b) := by
  unfold add_aug_state
  simp only [Option.bind_eq_bind, Option.map_bind, Function.comp_def]
  rfl

theorem clk_del (h : Heap) (i : ℤ) : (s.clk a b).del_aug_state h i = (s.del_aug_state h i).map fun r => (r.1, r.2.clk a b) := by
  unfold del_aug_state
  split_ifs
  · rfl
  · simp only [Option.bind_eq_bind, Option.map_bind, Function.comp_def]
    refine congrArg _ (funext fun x => ?_)
    split_ifs
    · rfl
    · simp only [Option.map_bind, Function.comp_def]; rfl

omit a b s in
theorem later_of_clk {β : Type} {f : RobotState → Option (β × RobotState)} (h : ∀ a b s, f (s.clk a b) = (f s).map fun r => (r.1, r.2.clk a b))
    (c : ℝ) (s : RobotState) : f (s.later c) = (f s).map fun r => (r.1, r.2.later c) := by
  rw [later_eq, h]
  have h0 := h s.t s.tProp s
  rw [show s.clk s.t s.tProp = s from rfl] at h0
  cases hf : f s with
  | none => rfl
  | some r =>
    rw [hf] at h0
    have e : r.2 = r.2.clk s.t s.tProp := congrArg Prod.snd (Option.some.inj h0)
    have e1 : r.2.t = s.t := by rw [e]; rfl
    have e2 : r.2.tProp = s.tProp := by rw [e]; rfl
    simp only [Option.map_some, later_eq, e1, e2]

omit a b s in
theorem later_of_clk' {f : RobotState → Option RobotState} (h : ∀ a b s, f (s.clk a b) = (f s).map (clk a b)) (c : ℝ) (s : RobotState) :
    f (s.later c) = (f s).map (later c) := by
  have := later_of_clk (β := Unit) (f := fun s => (f s).map fun r => ((), r)) (fun a b s => by
    simp only [h, Option.map_map]; rfl) c s
  simp only [Option.map_map] at this
  have h2 := congrArg (Option.map Prod.snd) this
  simp only [Option.map_map] at h2
  have e : (Prod.snd ∘ fun r : RobotState => ((), r)) = id := rfl
  rw [e, Option.map_id] at h2
  exact h2

omit a b s in
theorem t_of_clk {β : Type} {f : RobotState → Option (β × RobotState)} (h : ∀ a b s, f (s.clk a b) = (f s).map fun r => (r.1, r.2.clk a b))
    {s : RobotState} {r : β × RobotState} (hr : f s = some r) : r.2.t = s.t := by
  have h0 := h s.t s.tProp s
  rw [show s.clk s.t s.tProp = s from rfl, hr] at h0
  have e : r.2 = r.2.clk s.t s.tProp := congrArg Prod.snd (Option.some.inj h0)
  rw [e]; rfl

omit a b s in
theorem t_of_clk' {f : RobotState → Option RobotState} (h : ∀ a b s, f (s.clk a b) = (f s).map (clk a b)) {s r : RobotState} (hr : f s = some r) :
    r.t = s.t := by
  have h0 := h s.t s.tProp s
  rw [show s.clk s.t s.tProp = s from rfl, hr] at h0
  have e : r = r.clk s.t s.tProp := Option.some.inj h0
  rw [e]; rfl

omit a b s in
theorem popFresh_later {α : Type} {time : α → ℝ} {f : α → α} {c : ℝ} (hf : ∀ x, time (f x) = time x + c) (th tp : ℝ) (l : List α) :
    ∀ x, popFresh time th (tp + c) (f x) (l.map f) = (popFresh time th tp x l).map fun r => (f r.1, r.2.map f) := by
  induction l with
  | nil =>
    intro x
    simp only [popFresh, List.map_nil, hf, add_sub_add_right_eq_sub]
    split_ifs <;> rfl
  | cons y l ih =>
    intro x
    simp only [popFresh, List.map_cons, hf, add_sub_add_right_eq_sub]
    split_ifs
    · exact ih y
    · rfl

/-! ### velocity correction -/

def VelCorr.later (c : ℝ) (v : VelCorr) : VelCorr := { v with buffer := v.buffer.map (VelMeas.later c) }

/-- the velocity update after the time stamp is set -/
noncomputable def velCore (v : VelCorr) (m : VelMeas) (s : RobotState) : Option RobotState := do
  let H ← (zero 3 s.dimP).setBlock? 0 3 (of3 1)
  let Rw ← s.get_world_rotation
  let N := of3 (Rw * v.cov * Rwᵀ)
  let R ← s.get_rotation
  let vv ← s.get_velocity
  let Z := ofV ((v.scale • (R * v.R_vel2body)).mulVec m.vel - vv)
  correctRightInvariant Z H N s v.errorType

omit a b s in
theorem clk_velCore (v : VelCorr) (m : VelMeas) (a b : Option ℝ) (s : RobotState) : velCore v m (s.clk a b) = (velCore v m s).map (clk a b) := by
  unfold velCore
  simp only [Option.bind_eq_bind, Option.map_bind, Function.comp_def, clk_correctRight]; rfl

omit a b s in
theorem vel_apply_later (c : ℝ) (v : VelCorr) (m : VelMeas) (s : RobotState) :
    (v.later c).apply (m.later c) (s.later c) = (v.apply m s).map (RobotState.later c) := 
  later_of_clk' (f := velCore v m) (fun a b s => clk_velCore v m a b s) c { s with t := some m.time }

omit a b s in
theorem vel_correct_later (c : ℝ) (v : VelCorr) (s : RobotState) :
    (v.later c).correct (s.later c) = (v.correct s).map fun r => (r.1, r.2.1.later c, r.2.2.later c) := by
  unfold VelCorr.correct
  obtain ⟨bu, hb⟩ : ∃ bu, v.buffer = bu := ⟨_, rfl⟩
  have hb' : (v.later c).buffer = bu.map (VelMeas.later c) := by rw [← hb]; rfl
  rw [hb, hb']
  cases bu with
  | nil => rfl
  | cons front rest =>
    obtain ⟨tp, ht⟩ : ∃ tp, s.tProp = tp := ⟨_, rfl⟩
    have ht' : (s.later c).tProp = tp.map (· + c) := by rw [← ht]; rfl
    simp only [List.map_cons, ht, ht']
    cases tp with
    | none => rfl
    | some tp =>
      simp only [Option.map_some, Option.bind_eq_bind, Option.bind_some]
      have e : (front.later c).time - (tp + c) = front.time - tp := by show front.time + c - (tp + c) = _; ring
      rw [e]
      split_ifs
      · rfl
      · have := popFresh_later (time := VelMeas.time) (f := VelMeas.later c) (c := c) (fun _ => rfl) v.tDiffThres tp rest front
        have e2 : (v.later c).tDiffThres = v.tDiffThres := rfl
        rw [e2, this]
        cases popFresh VelMeas.time v.tDiffThres tp front rest with
        | none => rfl
        | some r =>
          simp only [Option.map_some, vel_apply_later]
          cases v.apply r.1 s <;> rfl

omit a b s in
theorem clk_set_velocity (a b : Option ℝ) (s : RobotState) (x : V3) : (s.clk a b).set_velocity x = (s.set_velocity x).map (clk a b) := by
  unfold set_velocity
  simp only [Option.map_map]; rfl

omit a b s in
theorem vel_init_later (c : ℝ) (v : VelCorr) (s : RobotState) :
    (v.later c).setInitial (s.later c) = (v.setInitial s).map fun r => (r.1, r.2.1.later c, r.2.2.later c) := by
  unfold VelCorr.setInitial
  have hb' : (v.later c).buffer.getLast? = v.buffer.getLast?.map (VelMeas.later c) := by
    show (v.buffer.map _).getLast? = _
    rw [List.getLast?_map]
  rw [hb']
  cases v.buffer.getLast? with
  | none => rfl
  | some m =>
    simp only [Option.map_some, Option.bind_eq_bind]
    have hg : (s.later c).get_rotation = s.get_rotation := rfl
    rw [hg]
    cases s.get_rotation with
    | none => rfl
    | some R =>
      simp only [Option.bind_some]
      have hm : (m.later c).vel = m.vel := rfl
      rw [hm, later_of_clk' (f := fun s => s.set_velocity (R.mulVec m.vel)) (fun a b s => clk_set_velocity a b s _) c s]
      cases s.set_velocity (R.mulVec m.vel) <;> rfl

/-! ### legged correction -/

def LegCorr.later (c : ℝ) (v : LegCorr) : LegCorr := { v with buffer := v.buffer.map (LegMeas.later c) }

omit a b s in
theorem clk_removeLoop (a b : Option ℝ) (l : List ℕ) : ∀ (ids : ℕ → Option ℕ) (h : Heap) (s : RobotState),
    LegCorr.removeLoop l ids h (s.clk a b) = (LegCorr.removeLoop l ids h s).map fun r => (r.1, r.2.1, r.2.2.clk a b) := by
  induction l with
  | nil => intro ids h s; rfl
  | cons id l ih =>
    intro ids h s
    simp only [LegCorr.removeLoop, Option.bind_eq_bind]
    cases ids id with
    | none => rfl
    | some p =>
      simp only [Option.bind_some, clk_del]
      cases s.del_aug_state h (h.val p) with
      | none => rfl
      | some r => exact ih _ _ _

omit a b s in
theorem clk_addLoop (a b : Option ℝ) (c : LegCorr) (l : List (ℕ × V3 × M3)) : ∀ (P : Mat) (ids : ℕ → Option ℕ) (h : Heap) (s : RobotState),
    LegCorr.addLoop c l P ids h (s.clk a b) = (LegCorr.addLoop c l P ids h s).map fun r => (r.1, r.2.1, r.2.2.clk a b) := by
  induction l with
  | nil => intro P ids h s; rfl
  | cons x l ih =>
    intro P ids h s
    obtain ⟨id, pose, cov⟩ := x
    simp only [LegCorr.addLoop, Option.bind_eq_bind]
    have e : c.augment (s.clk a b) pose cov P = c.augment s pose cov P := rfl
    rw [e]
    cases c.augment s pose cov P with
    | none => rfl
    | some r =>
      simp only [Option.bind_some, clk_add]
      have e2 : (s.clk a b).dimX = s.dimX := rfl
      rw [e2]
      cases s.add_aug_state r.1 r.2 c.contactNoise (some (h.alloc s.dimX).1) with
      | none => rfl
      | some q => exact ih _ _ _ _

omit a b s in
theorem addLoop_later (c : ℝ) (v : LegCorr) (l : List (ℕ × V3 × M3)) : ∀ (P : Mat) (ids : ℕ → Option ℕ) (h : Heap) (s : RobotState),
    LegCorr.addLoop (v.later c) l P ids h s = LegCorr.addLoop v l P ids h s := by
  induction l with
  | nil => intro P ids h s; rfl
  | cons x l ih =>
    intro P ids h s
    obtain ⟨id, pose, cov⟩ := x
    simp only [LegCorr.addLoop, ih]
    rfl

/-- the legged update after the time stamp is set -/
noncomputable def legCore (v : LegCorr) (m : LegMeas) (h : Heap) (s : RobotState) : Option (((ℕ → Option ℕ) × Heap) × RobotState) := do
  let acc ← forRange m.legs.length LegCorr.acc0 (v.legStep h s m)
  let s ← (if acc.Z.rows > 0 then
      match s.stateType with
      | .worldCentric => correctRightInvariant acc.Z acc.H acc.N s v.errorType
      | .bodyCentric => correctLeftInvariant acc.Z acc.H acc.N s v.errorType
    else some s)
  let r ← LegCorr.removeLoop acc.rem v.ids h s
  (LegCorr.addLoop v acc.new r.2.2.P r.1 r.2.1 r.2.2).map fun r => ((r.1, r.2.1), r.2.2)

omit a b s in
theorem clk_legCore (v : LegCorr) (m : LegMeas) (h : Heap) (a b : Option ℝ) (s : RobotState) :
    legCore v m h (s.clk a b) = (legCore v m h s).map fun r => (r.1, r.2.clk a b) := by
  unfold legCore
  have e : v.legStep h (s.clk a b) m = v.legStep h s m := rfl
  simp only [e, Option.bind_eq_bind, Option.map_bind, Function.comp_def]
  refine congrArg _ (funext fun acc => ?_)
  have e2 : (if acc.Z.rows > 0 then
        match (s.clk a b).stateType with
        | .worldCentric => correctRightInvariant acc.Z acc.H acc.N (s.clk a b) v.errorType
        | .bodyCentric => correctLeftInvariant acc.Z acc.H acc.N (s.clk a b) v.errorType
      else some (s.clk a b)) = (if acc.Z.rows > 0 then
        match s.stateType with
        | .worldCentric => correctRightInvariant acc.Z acc.H acc.N s v.errorType
        | .bodyCentric => correctLeftInvariant acc.Z acc.H acc.N s v.errorType
      else some s).map (clk a b) := by
    have : (s.clk a b).stateType = s.stateType := rfl
    rw [this]
    split_ifs
    · cases s.stateType
      · exact clk_correctRight a b s _ _ _ _
      · exact clk_correctLeft a b s _ _ _ _
    · rfl
  rw [e2]
  cases (if acc.Z.rows > 0 then
        match s.stateType with
        | .worldCentric => correctRightInvariant acc.Z acc.H acc.N s v.errorType
        | .bodyCentric => correctLeftInvariant acc.Z acc.H acc.N s v.errorType
      else some s) with
  | none => rfl
  | some s1 =>
    simp only [Option.map_some, Option.bind_some, clk_removeLoop]
    cases LegCorr.removeLoop acc.rem v.ids h s1 with
    | none => rfl
    | some r =>
      simp only [Option.map_some, Option.bind_some, clk_addLoop, Option.map_map]
      rfl

omit a b s in
theorem apply_legCore (v : LegCorr) (m : LegMeas) (h : Heap) (s : RobotState) : v.apply m h s =
    Option.map (fun r : ((ℕ → Option ℕ) × Heap) × RobotState => (r.1.1, r.1.2, r.2)) (legCore v m h { s with t := some m.time }) := by
  unfold LegCorr.apply legCore
  simp only [Option.bind_eq_bind, Option.map_bind, Function.comp_def, Option.map_map]
  refine congrArg _ (funext fun acc => congrArg _ (funext fun s1 => congrArg _ (funext fun r => ?_)))
  exact (congrFun Option.map_id.symm _)

omit a b s in
theorem legCore_later (c : ℝ) (v : LegCorr) (m : LegMeas) (h : Heap) (s : RobotState) : legCore (v.later c) (m.later c) h s = legCore v m h s := by
  unfold legCore
  simp only [addLoop_later]
  rfl

omit a b s in
theorem leg_apply_later (c : ℝ) (v : LegCorr) (m : LegMeas) (h : Heap) (s : RobotState) :
    (v.later c).apply (m.later c) h (s.later c) = (v.apply m h s).map fun r => (r.1, r.2.1, r.2.2.later c) := by
  have k := later_of_clk (f := legCore v m h) (fun a b s => clk_legCore v m h a b s) c { s with t := some m.time }
  rw [apply_legCore, apply_legCore, legCore_later]
  have k2 := congrArg (Option.map fun r : ((ℕ → Option ℕ) × Heap) × RobotState => (r.1.1, r.1.2, r.2)) k
  simp only [Option.map_map] at k2 ⊢
  exact k2

omit a b s in
theorem leg_correct_later (c : ℝ) (v : LegCorr) (h : Heap) (s : RobotState) :
    (v.later c).correct h (s.later c) = (v.correct h s).map fun r => (r.1, r.2.1.later c, r.2.2.1, r.2.2.2.later c) := by
  unfold LegCorr.correct
  obtain ⟨bu, hb⟩ : ∃ bu, v.buffer = bu := ⟨_, rfl⟩
  have hb' : (v.later c).buffer = bu.map (LegMeas.later c) := by rw [← hb]; rfl
  rw [hb, hb']
  cases bu with
  | nil => rfl
  | cons front rest =>
    obtain ⟨tp, ht⟩ : ∃ tp, s.tProp = tp := ⟨_, rfl⟩
    have ht' : (s.later c).tProp = tp.map (· + c) := by rw [← ht]; rfl
    simp only [List.map_cons, ht, ht']
    cases tp with
    | none => rfl
    | some tp =>
      simp only [Option.map_some, Option.bind_eq_bind, Option.bind_some]
      have := popFresh_later (time := LegMeas.time) (f := LegMeas.later c) (c := c) (fun _ => rfl) v.tDiffThres tp rest front
      have e2 : (v.later c).tDiffThres = v.tDiffThres := rfl
      rw [e2, this]
      cases popFresh LegMeas.time v.tDiffThres tp front rest with
      | none => rfl
      | some r =>
        simp only [Option.map_some, leg_apply_later]
        cases v.apply r.1 h s <;> rfl

omit a b s in
theorem leg_init_later (c : ℝ) (v : LegCorr) (s : RobotState) :
    (v.later c).setInitial (s.later c) = (v.setInitial s).map fun r => (r.1, r.2.1.later c, r.2.2.later c) := by
  unfold LegCorr.setInitial
  have hb' : (v.later c).buffer.getLast? = v.buffer.getLast?.map (LegMeas.later c) := by
    show (v.buffer.map _).getLast? = _
    rw [List.getLast?_map]
  rw [hb']
  cases v.buffer.getLast? with
  | none => rfl
  | some m =>
    simp only [Option.map_some, Option.bind_eq_bind]
    have hg : (s.later c).get_rotation = s.get_rotation := rfl
    have hw : (s.later c).bodyAngVel = s.bodyAngVel := rfl
    rw [hg, hw]
    cases s.bodyAngVel with
    | none => rfl
    | some w =>
      cases s.get_rotation with
      | none => rfl
      | some R =>
        simp only [Option.bind_some]
        have hm : (m.later c).initVel = m.initVel := rfl
        rw [hm, later_of_clk' (f := fun s => s.set_velocity (R.mulVec (m.initVel w))) (fun a b s => clk_set_velocity a b s _) c s]
        cases s.set_velocity (R.mulVec (m.initVel w)) <;> rfl

end Drift
