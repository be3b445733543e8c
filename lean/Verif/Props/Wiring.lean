import Verif.Spec.Wiring
import Verif.Props.System

/-!
# C106: the wiring of the shipped programs
-/
namespace Drift

/-- **C106**: the shipped programs are wired correctly: every correction is fed by exactly one topic, with data of its type, the
propagation by exactly one topic or by the gyro filter, and every sensor registered with the filter by exactly one topic with
data of its type. -/
theorem C106_wired (P : Program) (hP : P ∈ Program.shipped) : Wired P := by
  have e1 : ∀ (l : List CorrConfig) (c : CorrConfig) (i : ℕ) (d : CorrConfig), l = [c] → l[i]? = some d → i = 0 ∧ d = c := by
    rintro l c i d rfl h
    cases i with
    | zero => simp at h; exact ⟨rfl, h.symm⟩
    | succ i => simp at h
  have hc : ∃ c, P.corrs = [c] := by
    simp only [Program.shipped, List.mem_cons, List.not_mem_nil, or_false] at hP
    rcases hP with rfl | rfl | rfl | rfl | rfl | rfl | rfl | rfl | rfl | rfl <;> exact ⟨_, rfl⟩
  obtain ⟨c, hc⟩ := hc
  have key : (P.links.filter (toCorr 0)).map Prod.snd = [c.expects] ∧ (∀ i x, x ∈ P.links → toCorr i x = true → i = 0) ∧
      ((P.links.filter toImu).map Prod.snd = if P.filter = none then [.imu] else []) ∧
      ((P.links.filter toFGyro).map Prod.snd = if (P.filter.bind GyroFilter.gyro) = none then [] else [.imu]) ∧
      ((P.links.filter toFImu).map Prod.snd = if (P.filter.bind GyroFilter.imu) = none then [] else [.imu]) ∧
      ((P.links.filter toFEnc).map Prod.snd = if (P.filter.bind GyroFilter.enc) = none then [] else [.angularVelocity]) := by
    simp only [Program.shipped, List.mem_cons, List.not_mem_nil, or_false] at hP
    rcases hP with rfl | rfl | rfl | rfl | rfl | rfl | rfl | rfl | rfl | rfl <;>
      simp [Program.miniCheetah, Program.fetch, Program.girona500, Program.husky, Program.huskyOdom, Program.neya,
        Program.plain, Program.fetchGyro, Program.huskyDouble, Program.huskyGyro, Program.neyaGyro] at hc <;>
      subst hc <;>
      simp [Program.links, Program.miniCheetah, Program.fetch, Program.girona500, Program.husky, Program.huskyOdom, Program.neya,
        Program.plain, Program.fetchGyro, Program.huskyDouble, Program.huskyGyro, Program.neyaGyro, SubKind.delivers, SubKind.two,
        toCorr, toImu, toFGyro, toFImu, toFEnc, CorrConfig.expects, GyroFilter.mk1, GyroFilter.mk5, GyroFilter.base,
        GyroFilter.addGyro, GyroFilter.addImu, GyroFilter.addAngVel] <;>
      first | exact ⟨_, rfl⟩ | exact ⟨⟨_, rfl⟩, ⟨_, rfl⟩⟩
  obtain ⟨k1, k2, k3, k4, k5, k6⟩ := key
  refine ⟨fun i d h => ?_, fun i x hx h => ?_, k3, k4, k5, k6⟩
  · obtain ⟨rfl, rfl⟩ := e1 _ _ _ _ hc h
    exact k1
  · rw [hc, k2 i x hx h]; simp

theorem convert_types {k : SubKind} {m : RosMsg} {a c : List RosMeas} (h : Ros.convert k m = some (a, c)) :
    (∀ x ∈ a, x.type = k.delivers) ∧ ∀ x ∈ c, k.two = true ∧ x.type = .angularVelocity := by
  cases k <;> cases m <;> simp only [Ros.convert, Option.map_eq_some_iff, Option.some.injEq, Prod.mk.injEq] at h
  all_goals first
    | (obtain ⟨rfl, rfl⟩ := h; simp [RosMeas.type, SubKind.delivers]; done)
    | (obtain ⟨v, -, rfl, rfl⟩ := h; simp [RosMeas.type, SubKind.delivers, SubKind.two]; done)
    | (obtain ⟨v, -, h⟩ := h; cases v <;> (cases h; simp [RosMeas.type, SubKind.delivers, SubKind.two]))

/-- **C106**: what reaches a consumer has the type of a connection of the program to that consumer -/
theorem C106_links (P : Program) (mlog : M4 → M4) (past : List SysEv) (i : ℕ) (m : RosMsg) :
    ∀ x ∈ reaches mlog P past i m, (x.1, x.2.type) ∈ P.links := by
  intro x hx
  unfold reaches at hx
  obtain ⟨o, ho⟩ : ∃ o, P.topics[i]? = o := ⟨_, rfl⟩
  rw [ho] at hx
  rcases o with _ | ⟨k, p, p2⟩
  · simp at hx
  have hm : ∀ y, y ∈ ((p, k.delivers) :: if k.two then [(p2, DataType.angularVelocity)] else []) → y ∈ P.links := fun y hy =>
    List.mem_flatMap.mpr ⟨_, List.mem_of_getElem? ho, hy⟩
  cases k with
  | odom tr rot =>
    simp only at hx
    split at hx
    · rw [List.mem_map] at hx
      obtain ⟨v, -, rfl⟩ := hx
      exact hm _ (by simp [SubKind.delivers, RosMeas.type])
    · simp at hx
  | _ =>
    simp only at hx
    split at hx
    · simp at hx
    · rename_i a c hc
      obtain ⟨t1, t2⟩ := convert_types hc
      refine hm _ ?_
      rcases List.mem_append.mp hx with hx | hx
      · obtain ⟨y, hy, rfl⟩ := List.mem_map.mp hx
        rw [t1 y hy]; exact List.mem_cons_self
      · obtain ⟨y, hy, rfl⟩ := List.mem_map.mp hx
        obtain ⟨h1, h2⟩ := t2 y hy
        rw [h1, h2]; simp

end Drift
