import Verif.Props.NotANumber
import Verif.Spec.NotANumber2

/-!
# C170: values that are not numbers in the wheel odometry and in the gyro filter
-/
namespace Drift
namespace Nan
open Dbl

theorem odo_rot_run (l : List (DVec 3 × DVec 3 × Dbl)) : ∀ o : Odo, (∀ i j, o.rot i j = nan) →
    (∀ i j, (o.run l).rot i j = nan) ∧ (l ≠ [] → ∀ i, (o.run l).pos i = nan) := by
  suffices h : ∀ (l : List (DVec 3 × DVec 3 × Dbl)) (o : Odo), (∀ i j, o.rot i j = nan) → (∀ i, o.pos i = nan) →
      (∀ i j, (o.run l).rot i j = nan) ∧ ∀ i, (o.run l).pos i = nan by
    intro o ho
    cases l with
    | nil => exact ⟨ho, by simp⟩
    | cons e l =>
      have k := h l (o.step e) (fun i j => mul_left_nan 0 (ho _ _)) (fun i => by simp [Odo.step, DVec.add, DVec.scale, mulV_left_nan 0 (ho i 0)])
      exact ⟨k.1, fun _ => k.2⟩
  intro l
  induction l with
  | nil => intro o h1 h2; exact ⟨h1, h2⟩
  | cons e l ih => intro o h1 h2; exact ih _ (fun i j => mul_left_nan 0 (h1 _ _)) (fun i => by simp [Odo.step, DVec.add, h2])

theorem odo_pos_run (l : List (DVec 3 × DVec 3 × Dbl)) : ∀ o : Odo, (∀ i, o.pos i = nan) → ∀ i, (o.run l).pos i = nan := by
  induction l with
  | nil => intro o h; exact h
  | cons e l ih => intro o h; exact ih _ (fun i => by simp [Odo.step, DVec.add, h])

/-- **C170**, wheel odometry: an angular velocity with a NaN makes the orientation NaN for good, and the position from the next pair on; a velocity
with a NaN makes the position NaN for good -/
theorem C170_wheel_lost (o : Odo) (e : DVec 3 × DVec 3 × Dbl) (l : List (DVec 3 × DVec 3 × Dbl)) :
    ((∃ i, e.2.1 i = nan) → (∀ i j, ((o.step e).run l).rot i j = nan) ∧ (l ≠ [] → ∀ i, ((o.step e).run l).pos i = nan)) ∧
    ((∃ i, e.1 i = nan) → ∀ i, ((o.step e).run l).pos i = nan) := by
  refine ⟨fun ⟨k, hk⟩ => ?_, fun ⟨k, hk⟩ => ?_⟩
  · have h : (e.2.1.scale e.2.2) k = nan := by simp [DVec.scale, hk]
    exact odo_rot_run l _ fun i j => mul_right_nan 0 (gammas_nan k h _ _).1
  · exact odo_pos_run l _ fun i => by simp [Odo.step, DVec.add, DVec.scale, mulV_right_nan (A := o.rot) (i := i) k hk]

theorem odo_step_num {o : Odo} (ho : o.Numbers) {e : DVec 3 × DVec 3 × Dbl} (he : ¬ FaultyPair e) (ht : e.2.2.IsNum) : (o.step e).Numbers := by
  unfold FaultyPair at he
  push Not at he
  have hR : NumM o.rot := ho.1
  have hp : NumV o.pos := ho.2
  have hv : NumV e.1 := fun i => he.1 i
  have hw : NumV e.2.1 := fun i => he.2 i
  exact ⟨hR.mul (gammas_num (hw.scale ht)).1, hp.add ((hR.mulV hv).scale ht)⟩

theorem odo_run_num (l : List (DVec 3 × DVec 3 × Dbl)) : ∀ o : Odo, o.Numbers → (∀ e ∈ l, ¬ FaultyPair e ∧ e.2.2.IsNum) → (o.run l).Numbers := by
  induction l with
  | nil => intro o h _; exact h
  | cons e l ih =>
    intro o h hl
    have he := hl e (List.mem_cons_self ..)
    exact ih _ (odo_step_num h he.1 he.2) fun e he => hl e (List.mem_cons_of_mem _ he)

/-- **C170** is false for the wheel odometry; and the pose consists of numbers exactly as long as all the messages do -/
theorem C170_wheel_exactly_partial (o : Odo) (ho : o.Numbers) (l : List (DVec 3 × DVec 3 × Dbl)) (ht : ∀ e ∈ l, e.2.2.IsNum) :
    (o.run l).Numbers ↔ ∀ e ∈ l, ¬ FaultyPair e := by
  constructor
  · intro h e he hf
    obtain ⟨l1, l2, rfl⟩ := List.append_of_mem he
    have e1 : o.run (l1 ++ e :: l2) = ((o.run l1).step e).run l2 := by simp [Odo.run]
    rw [e1] at h
    rcases hf with hf | hf
    · exact h.2 0 ((C170_wheel_lost _ e l2).2 hf 0)
    · exact h.1 0 0 (((C170_wheel_lost _ e l2).1 hf).1 0 0)
  · exact fun h => odo_run_num l o ho fun e he => ⟨h e he, ht e he⟩

/-! ### gyro filter -/

theorem pad_nan {v : DVec 3} {k : Fin 3} (h : v k = nan) : pad v ⟨k.1, by omega⟩ = nan := by
  fin_cases k <;> exact h

theorem gyro_keep (e : GMsg) (g : Gyro) (i : Fin 6) (h : g.est i = nan) : (g.step e).est i = nan := by
  cases e with
  | prop w => simp [Gyro.step, DVec.add, h]
  | corr K H A w => simp [Gyro.step, DVec.add, h]

theorem gyro_run (l : List GMsg) : ∀ (g : Gyro) (i : Fin 6), g.est i = nan → (g.run l).est i = nan := by
  induction l with
  | nil => intro g i h; exact h
  | cons e l ih => intro g i h; exact ih _ i (gyro_keep e g i h)

theorem gyro_corr_all (g : Gyro) (K : DMat 6 3) (H : Matrix (Fin 3) (Fin 6) ℝ) (A : M3) (w : DVec 3) (h : (∃ i, g.est i = nan) ∨ ∃ i, w i = nan) (i : Fin 6) :
    (g.step (.corr K H A w)).est i = nan := by
  have z : ((((ofNum A).mulV w).sub ((ofNum H).mulV g.est)) : DVec 3) 0 = nan := by
    rcases h with ⟨k, hk⟩ | ⟨k, hk⟩
    · simp [DVec.sub, mulV_right_nan (A := ofNum H) (i := 0) k hk]
    · simp [DVec.sub, mulV_right_nan (A := ofNum A) (i := 0) k hk]
  simp [Gyro.step, DVec.add, mulV_right_nan (A := K) (i := i) 0 z]

/-- **C170**, gyro filter: a measured rate with a NaN makes the estimates of rate and bias NaN for good; a NaN in the propagation gyro makes that
coordinate of the rate NaN for good, and everything from the next correction on -/
theorem C170_gyro_lost (g : Gyro) (l : List GMsg) :
    (∀ K H A w, (∃ i, w i = nan) → ∀ i, ((g.step (.corr K H A w)).run l).est i = nan) ∧
    ∀ w (k : Fin 3), w k = nan → ((g.step (.prop w)).run l).est ⟨k.1, by omega⟩ = nan ∧
      ((∃ K H A v, GMsg.corr K H A v ∈ l) → ∀ i, ((g.step (.prop w)).run l).est i = nan) := by
  refine ⟨fun K H A w h i => gyro_run l _ i (gyro_corr_all g K H A w (.inr h) i), fun w k hk => ?_⟩
  have h0 : (g.step (.prop w)).est ⟨k.1, by omega⟩ = nan := by
    have : (w.sub g.prev) k = nan := by simp [DVec.sub, hk]
    simp [Gyro.step, DVec.add, pad_nan this]
  refine ⟨gyro_run l _ _ h0, fun ⟨K, H, A, v, hm⟩ i => ?_⟩
  obtain ⟨l1, l2, rfl⟩ := List.append_of_mem hm
  have e1 : (g.step (.prop w)).run (l1 ++ GMsg.corr K H A v :: l2) = (((g.step (.prop w)).run l1).step (.corr K H A v)).run l2 := by simp [Gyro.run]
  rw [e1]
  exact gyro_run l2 _ i (gyro_corr_all _ K H A v (.inl ⟨_, gyro_run l1 _ _ h0⟩) i)

theorem pad_num {v : DVec 3} (h : NumV v) : NumV (pad v) := fun i => by
  have z := isNum_num 0
  fin_cases i
  exacts [h 0, h 1, h 2, z, z, z]

theorem gyro_step_num {g : Gyro} (hg : g.Numbers) {e : GMsg} (he : ¬ e.Faulty) (hr : e.RestNum) : (g.step e).Numbers := by
  have h1 : NumV g.est := hg.1
  have h2 : NumV g.prev := hg.2
  cases e with
  | prop w =>
    change ¬ ∃ i, w i = nan at he
    push Not at he
    have hw : NumV w := fun i => he i
    exact ⟨(pad_num (hw.sub h2)).add h1, hw⟩
  | corr K H A w =>
    change ¬ ∃ i, w i = nan at he
    push Not at he
    have hw : NumV w := fun i => he i
    have hK : NumM K := hr
    exact ⟨h1.add (hK.mulV (((numM_of A).mulV hw).sub ((numM_of H).mulV h1))), h2⟩

theorem gyro_run_num (l : List GMsg) : ∀ g : Gyro, g.Numbers → (∀ e ∈ l, ¬ e.Faulty ∧ e.RestNum) → (g.run l).Numbers := by
  induction l with
  | nil => intro g h _; exact h
  | cons e l ih =>
    intro g h hl
    have he := hl e (List.mem_cons_self ..)
    exact ih _ (gyro_step_num h he.1 he.2) fun e he => hl e (List.mem_cons_of_mem _ he)

/-- **C170** is false for the gyro filter; and the estimate consists of numbers exactly as long as all the messages do -/
theorem C170_gyro_exactly_partial (g : Gyro) (hg : g.Numbers) (l : List GMsg) (hl : ∀ e ∈ l, e.RestNum) :
    (g.run l).Numbers ↔ ∀ e ∈ l, ¬ e.Faulty := by
  constructor
  · intro h e he hf
    obtain ⟨l1, l2, rfl⟩ := List.append_of_mem he
    have e1 : g.run (l1 ++ e :: l2) = ((g.run l1).step e).run l2 := by simp [Gyro.run]
    rw [e1] at h
    cases e with
    | prop w =>
      obtain ⟨k, hk⟩ := hf
      exact h.1 _ ((C170_gyro_lost (g.run l1) l2).2 w k hk).1
    | corr K H A w => exact h.1 0 ((C170_gyro_lost (g.run l1) l2).1 K H A w hf 0)
  · exact fun h => gyro_run_num l g hg fun e he => ⟨h e he, hl e he⟩

/-- **C170** is false: after a faulty message neither the pose of the wheel odometry nor the estimate of the gyro filter ever consists of numbers again -/
theorem C170_false : (∀ (o : Odo) e l, FaultyPair e → ¬ ((o.step e).run l).Numbers) ∧ ∀ (g : Gyro) e l, GMsg.Faulty e → ¬ ((g.step e).run l).Numbers := by
  refine ⟨fun o e l hf h => ?_, fun g e l hf h => ?_⟩
  · rcases hf with hf | hf
    · exact h.2 0 ((C170_wheel_lost o e l).2 hf 0)
    · exact h.1 0 0 (((C170_wheel_lost o e l).1 hf).1 0 0)
  · cases e with
    | prop w =>
      obtain ⟨k, hk⟩ := hf
      exact h.1 _ ((C170_gyro_lost g l).2 w k hk).1
    | corr K H A w => exact h.1 0 ((C170_gyro_lost g l).1 K H A w hf 0)

/-! ### Such states and messages -/

example : (⟨ofNum 1, fun _ => num 0⟩ : Odo).Numbers ∧ FaultyPair (![num 1, num 0, num 0], ![num 0, num 0, nan], num (1 / 64)) ∧
    ¬ FaultyPair (![num 1, num 0, num 0], ![num 0, num 0, num 1], num (1 / 64)) := by
  refine ⟨⟨fun _ _ => isNum_num _, fun _ => isNum_num _⟩, Or.inr ⟨2, rfl⟩, ?_⟩
  rintro (⟨i, h⟩ | ⟨i, h⟩) <;> fin_cases i <;> cases h

example : (⟨fun _ => num 0, fun _ => num 0⟩ : Gyro).Numbers ∧ (GMsg.corr (fun _ _ => num 1) 0 1 ![num 0, nan, num 0]).Faulty ∧
    ¬ (GMsg.prop ![num 0, num 0, num 1]).Faulty := by
  refine ⟨⟨fun _ => isNum_num _, fun _ => isNum_num _⟩, ⟨1, rfl⟩, ?_⟩
  rintro ⟨i, h⟩; fin_cases i <;> cases h

end Nan
end Drift
