import Verif.Lemmas.Sys6
import Mathlib.Analysis.Matrix.PosDef

/-! # Lemmas: what the programs publish -/
set_option linter.unusedSimpArgs false
namespace Drift
open Mat Matrix RobotState

theorem valid_cov6 {st : RobotState} (v : ValidEstimate st) : (Matrix.of fun i j : Fin 6 => st.P.e i j).PosSemidef := by
  obtain ⟨K, sh, p⟩ := v
  have h1 := sh.pr
  have h2 := ((psd_iff_posSemidef _).mp p).2
  have := h2.submatrix (fun i : Fin 6 => (⟨i.val, by omega⟩ : Fin st.P.rows))
  exact this

theorem poseMsg_cov {n : ℕ} {st : RobotState} {m : PoseMsg} (h : RosPub.poseMsg n st = some m) : m.cov = Matrix.of fun i j : Fin 6 => st.P.e i j := by
  unfold RosPub.poseMsg at h
  simp only [Option.bind_eq_bind, Option.bind_eq_some_iff] at h
  obtain ⟨t, -, p, -, R, -, h⟩ := h
  split at h
  · obtain rfl := Option.some.inj h; rfl
  · simp at h

theorem valid_reports {st : RobotState} (v : ValidEstimate st) {n : ℕ} {m : PoseMsg} (h : RosPub.poseMsg n st = some m) : Reports m st := by
  obtain ⟨K, sh, -⟩ := v
  have hx := sh.x.rows
  have hy := sh.x.cols
  have hR : st.get_rotation = some (st.X.blk3 0 0) := by
    unfold RobotState.get_rotation
    exact Mat.blk3?_eq (r := 0) (c := 0) (by omega) (by omega)
  exact (C89_reports hR sh.x.rot h).1

/-- all poses sent so far are meaningful -/
structure Sent (T : ℝ → Prop) (p : RosPub) : Prop where
  sent : ∀ m ∈ p.sent, T m.stamp ∧ m.ori.w ^ 2 + m.ori.x ^ 2 + m.ori.y ^ 2 + m.ori.z ^ 2 = 1 ∧ m.cov.PosSemidef
  poses : ∀ x ∈ p.poses, ∃ m ∈ p.sent, x = m.toPath
  paths : ∀ q ∈ p.sentPaths, ∀ x ∈ q.poses, ∃ m ∈ p.sent, x = m.toPath

theorem sent_pose {T : ℝ → Prop} {p p' : RosPub} (h : Sent T p) (hq : ∀ st ∈ p.queue, ValidEstimate st ∧ ∀ t, st.t = some t → T t)
    (hp : p.posePublish = some p') : Sent T p' := by
  rcases posePublish_some hp with ⟨-, rfl⟩ | ⟨st, q, m, k, r, h1, h2, -, -, rfl⟩
  · exact h
  · obtain ⟨v, hT⟩ := hq st (by rw [h1]; simp)
    obtain ⟨r1, -, -, r4⟩ := valid_reports v h2
    refine ⟨fun x hx => ?_, fun x hx => ?_, fun q hq x hx => ?_⟩
    · rcases List.mem_append.mp hx with hx | hx
      · exact h.sent x hx
      · rw [List.mem_singleton.mp hx]
        exact ⟨hT _ r1, r4, by rw [poseMsg_cov h2]; exact valid_cov6 v⟩
    · have old : x ∈ p.poses → ∃ y ∈ p.sent ++ [m], x = y.toPath := by
        intro hx
        obtain ⟨y, hy, e⟩ := h.poses x hx
        exact ⟨y, by simp [hy], e⟩
      simp only at hx
      split_ifs at hx
      · rcases List.mem_append.mp hx with hx | hx
        · exact old hx
        · exact ⟨m, by simp, List.mem_singleton.mp hx⟩
      · exact old hx
    · obtain ⟨y, hy, e⟩ := h.paths q hq x hx
      exact ⟨y, by simp [hy], e⟩

theorem sent_path {T : ℝ → Prop} {p : RosPub} (h : Sent T p) : Sent T p.pathPublish := by
  unfold RosPub.pathPublish
  cases hp : p.poses.getLast? with
  | none => exact h
  | some l =>
    refine ⟨h.sent, h.poses, fun q hq x hx => ?_⟩
    rcases List.mem_append.mp hq with hq | hq
    · exact h.paths q hq x hx
    · rw [List.mem_singleton.mp hq] at hx
      exact h.poses x hx

theorem sys_step_sent {T : ℝ → Prop} {mlog : M4 → M4} {ev : SysEv} {s s' : System} (hinv : EstInv [] s.est) (hst : StampInv T s.est)
    (h : Sent T s.pub) (hs : s.step mlog ev = some s') : Sent T s'.pub := by
  cases ev with
  | msg i m =>
    simp only [System.step, Option.bind_eq_bind, Option.bind_eq_some_iff] at hs
    obtain ⟨sub, -, hs⟩ := hs
    rw [(feedAll_sub _ hs).2.2.1]; exact h
  | filter =>
    simp only [System.step] at hs
    obtain ⟨fo, hf⟩ : ∃ fo, s.filter = fo := ⟨_, rfl⟩
    rw [hf] at hs
    cases fo with
    | none => rw [← Option.some.inj hs]; exact h
    | some f =>
      simp only [Option.bind_eq_bind, Option.bind_eq_some_iff] at hs
      obtain ⟨f1, -, hs⟩ := hs
      rw [(feedAll_sub _ hs).2.2.1]; exact h
  | tick =>
    simp only [System.step, Option.map_eq_some_iff] at hs
    obtain ⟨e, -, rfl⟩ := hs
    exact h
  | log =>
    simp only [System.step, Option.map_eq_some_iff] at hs
    obtain ⟨e, -, rfl⟩ := hs
    exact h
  | pose =>
    simp only [System.step, Option.map_eq_some_iff] at hs
    obtain ⟨p, hp, rfl⟩ := hs
    exact sent_pose (p := { s.pub with queue := s.est.outQ }) ⟨h.sent, h.poses, h.paths⟩
      (fun st hq => ⟨hinv.outs st hq, hst.out st hq⟩) hp
  | path =>
    simp only [System.step] at hs
    rw [← Option.some.inj hs]
    exact sent_path h

theorem comp_stamp {T : ℝ → Prop} {s s' : System} (c : Comp T s s') (h : StampInv T s.est) : StampInv T s'.est := by
  obtain ⟨l, o, h1, -, -, h4⟩ := c
  exact run_stamp l h h4 h1

theorem sys_run_sent {T : ℝ → Prop} {P : Program} (hP : P.Sound) {mlog : M4 → M4} (evs : List SysEv) : ∀ {s s' : System}, SysInv P evs s →
    WellFormed P evs → SysStamp T s → StampInv T s.est → Sent T s.pub → (∀ i m, SysEv.msg i m ∈ evs → T m.sec) → s.run mlog evs = some s' →
    Sent T s'.pub ∧ ∀ st ∈ s'.est.outQ, ValidEstimate st ∧ ∃ t, st.t = some t ∧ T t := by
  induction evs with
  | nil =>
    intro s s' i _ _ st h _ hs
    rw [← Option.some.inj hs]
    obtain ⟨τ, σ, c, -⟩ := i.core
    refine ⟨h, fun x hx => ⟨c.ready.inv.outs x hx, ?_⟩⟩
    obtain ⟨t, ht⟩ := Option.isSome_iff_exists.mp (c.dated x hx)
    exact ⟨t, ht, st.out x hx t ht⟩
  | cons ev evs ih =>
    intro s s' i hw sy st h ht hs
    obtain ⟨s1, h1, i1⟩ := sys_step_ok hP (mlog := mlog) i (fun i m e x hx => hw i m x (by simp [e]) hx)
    simp only [System.run, h1, Option.bind_some] at hs
    obtain ⟨c, sy1⟩ := sys_step_comp sy (fun k m e => ht k m (by simp [e])) h1
    obtain ⟨τ, σ, co, -⟩ := i.core
    exact ih i1 (fun i m x e hx => hw i m x (by simp [e]) hx) sy1 (comp_stamp c st) (sys_step_sent co.ready.inv st h h1)
      (fun k m e => ht k m (by simp [e])) hs

end Drift
