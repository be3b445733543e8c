import Verif.Model.LogFiles
import Verif.Spec.LogNames
import Verif.Props.Logging
import Verif.Props.Settings

/-!
# C150: the three logs of a session are three files
-/
namespace Drift
open LogFiles

theorem splice_end {f s : List Char} {k : ℕ} (h : k = f.length) : splice f k s = f ++ s := by
  subst h
  simp [splice]

theorem rows_separate {names : List Char × List Char × List Char} (h : Three names) (rows : List Texts) : ∀ {d : Disk} {p v b : List Char},
    d names.1 = p → d names.2.1 = v → d names.2.2 = b →
    let d' := (rows.foldl row (d, ⟨(names.1, p.length), (names.2.1, v.length), (names.2.2, b.length)⟩)).1
    d' names.1 = p ++ rows.flatMap (·.pose) ∧ d' names.2.1 = v ++ rows.flatMap (·.vel) ∧ d' names.2.2 = b ++ rows.flatMap (·.body) ∧
      ∀ n, n ≠ names.1 → n ≠ names.2.1 → n ≠ names.2.2 → d' n = d n := by
  obtain ⟨h1, h2, h3⟩ := h
  induction rows with
  | nil => intro d p v b hp hv hb; exact ⟨by simp [hp], by simp [hv], by simp [hb], fun _ _ _ _ => rfl⟩
  | cons r rows ih =>
    intro d p v b hp hv hb
    have key : ∀ n, (row (d, ⟨(names.1, p.length), (names.2.1, v.length), (names.2.2, b.length)⟩) r).1 n =
        if n = names.1 then p ++ r.pose else if n = names.2.1 then v ++ r.vel else if n = names.2.2 then b ++ r.body else d n := by
      intro n
      simp only [row, put]
      by_cases e1 : n = names.1
      · subst e1; rw [if_neg h2, if_neg h1, if_pos rfl, if_pos rfl, splice_end (by rw [hp]), hp]
      · rw [if_neg e1, if_neg e1]
        by_cases e2 : n = names.2.1
        · subst e2; rw [if_neg h3, if_pos rfl, if_pos rfl, splice_end (by rw [hv]), hv]
        · rw [if_neg e2, if_neg e2]
          by_cases e3 : n = names.2.2
          · subst e3; rw [if_pos rfl, if_pos rfl, splice_end (by rw [hb]), hb]
          · rw [if_neg e3, if_neg e3]
    have hst : (row (d, ⟨(names.1, p.length), (names.2.1, v.length), (names.2.2, b.length)⟩) r).2 =
        ⟨(names.1, (p ++ r.pose).length), (names.2.1, (v ++ r.vel).length), (names.2.2, (b ++ r.body).length)⟩ := by
      simp [row, put]
    have := ih (d := (row (d, ⟨(names.1, p.length), (names.2.1, v.length), (names.2.2, b.length)⟩) r).1) (p := p ++ r.pose) (v := v ++ r.vel) (b := b ++ r.body)
      (by rw [key, if_pos rfl]) (by rw [key, if_neg (Ne.symm h1), if_pos rfl]) (by rw [key, if_neg (Ne.symm h2), if_neg (Ne.symm h3), if_pos rfl])
    rw [← hst] at this
    obtain ⟨a1, a2, a3, a4⟩ := this
    simp only [List.foldl_cons]
    refine ⟨by rw [a1]; simp, by rw [a2]; simp, by rw [a3]; simp, fun n q1 q2 q3 => ?_⟩
    rw [a4 n q1 q2 q3, key, if_neg q1, if_neg q2, if_neg q3]

/-- **C150**, what holds (1): if the names of the files differ, each file holds after any number of rows exactly the rows of its log, whatever was on the
disk before, and no other file is touched. -/
theorem C150_contents_partial (d : Disk) {names : List Char × List Char × List Char} (h : Three names) (rows : List Texts) :
    session d names rows names.1 = rows.flatMap (·.pose) ∧ session d names rows names.2.1 = rows.flatMap (·.vel) ∧
    session d names rows names.2.2 = rows.flatMap (·.body) ∧ ∀ n, n ≠ names.1 → n ≠ names.2.1 → n ≠ names.2.2 → session d names rows n = d n := by
  have := rows_separate h rows (d := (opened d names).1) (p := []) (v := []) (b := []) (by simp [opened]) (by simp [opened]) (by simp [opened])
  obtain ⟨a1, a2, a3, a4⟩ := this
  refine ⟨a1, a2, a3, fun n q1 q2 q3 => (a4 n q1 q2 q3).trans ?_⟩
  simp [opened, q1, q2, q3]

theorem dec_chars {k : ℕ} : ∀ c ∈ Logger.dec k, c.isDigit = true := by
  intro c hc
  simp only [Logger.dec, List.mem_reverse, List.mem_map] at hc
  obtain ⟨x, hx, rfl⟩ := hc
  have := Nat.digits_lt_base (by norm_num : 1 < 10) hx
  interval_cases x <;> decide

/-- a number after the last underscore can be read back -/
theorem last_number {a b : List Char} {j k : ℕ} (h : a ++ '_' :: Logger.dec j = b ++ '_' :: Logger.dec k) : j = k := by
  have u : ∀ n, '_' ∉ Logger.dec n := fun n hn => by have := dec_chars _ hn; revert this; decide
  have h' := congrArg List.reverse h
  simp only [List.reverse_append, List.reverse_cons, List.append_assoc] at h'
  have t := congrArg (List.takeWhile (· != '_')) h'
  have hl : ∀ (n : ℕ) (x : List Char), ((Logger.dec n).reverse ++ ('_' :: x)).takeWhile (· != '_') = (Logger.dec n).reverse := by
    intro n x
    rw [List.takeWhile_append_of_pos (by intro c hc; simp only [bne_iff_ne]; rintro rfl; exact u n (List.mem_reverse.mp hc))]
    simp
  simp only [List.cons_append, List.nil_append] at t
  rw [hl, hl] at t
  exact dec_inj (List.reverse_injective t)

/-- **C150**, what holds (2), the exact condition: whatever happens, in every session the three files are different, except perhaps in the first; and there
exactly when the name of the pose file, without its extension, is neither that of the velocity file nor that name with `_body_frame`. -/
theorem C150_exact_partial {et h c ic cs e0} (hc : Estimator.ctor et h c ic cs = some e0) (hl : c.enable_pose_logger = true)
    {evs e} (hr : e0.run evs = some e) :
    (∀ f ∈ e.log.opened.tail, Three f) ∧
    ((∀ f ∈ e.log.opened, Three f) ↔
      Logger.stripDot (c.pose_log_file.getD "inekf_pose".toList) ≠ Logger.stripDot (c.vel_log_file.getD "inekf_vel".toList) ∧
      Logger.stripDot (c.pose_log_file.getD "inekf_pose".toList) ≠ Logger.stripDot (c.vel_log_file.getD "inekf_vel".toList) ++ "_body_frame".toList) := by
  rw [C63_names hc hl hr]
  generalize Logger.stripDot (c.pose_log_file.getD "inekf_pose".toList) = pb
  generalize Logger.stripDot (c.vel_log_file.getD "inekf_vel".toList) = vb
  have late : ∀ n, Three (sessionFiles pb vb codeNumbers (n + 1)) := by
    intro n
    have hb : "_body_frame_".toList = "_body_frame".toList ++ ['_'] := by simp
    refine ⟨fun h => ?_, fun h => ?_, fun h => ?_⟩
    · simp only [sessionFiles, codeNumbers] at h
      have := last_number (List.append_cancel_right h)
      omega
    · simp only [sessionFiles, codeNumbers, hb] at h
      have h := List.append_cancel_right h
      rw [← List.append_assoc vb, List.append_assoc (vb ++ _)] at h
      have := last_number h
      omega
    · simp only [sessionFiles, codeNumbers, hb] at h
      have h := List.append_cancel_right h
      rw [← List.append_assoc vb, List.append_assoc (vb ++ _)] at h
      have := last_number h
      omega
  have first : Three (sessionFiles pb vb codeNumbers 0) ↔ pb ≠ vb ∧ pb ≠ vb ++ "_body_frame".toList := by
    have hb : "_body_frame.txt".toList = "_body_frame".toList ++ ".txt".toList := by simp
    unfold Three sessionFiles
    rw [hb, ← List.append_assoc]
    constructor
    · rintro ⟨h1, h2, -⟩
      exact ⟨fun h => h1 (by rw [h]), fun h => h2 (by rw [h])⟩
    · rintro ⟨h1, h2⟩
      refine ⟨fun h => h1 (List.append_cancel_right h), fun h => h2 (List.append_cancel_right h), fun h => ?_⟩
      have := congrArg List.length (List.append_cancel_right h)
      simp at this
  have hr : List.range (clears e0 evs + 1) = 0 :: (List.range (clears e0 evs)).map Nat.succ := List.range_succ_eq_map
  rw [hr, List.map_cons, List.map_map]
  constructor
  · intro f hf
    simp only [List.tail_cons, List.mem_map, Function.comp] at hf
    obtain ⟨n, -, rfl⟩ := hf
    exact late n
  · rw [← first]
    constructor
    · intro h; exact h _ (by simp)
    · intro h f hf
      simp only [List.mem_cons, List.mem_map, Function.comp] at hf
      rcases hf with rfl | ⟨n, -, rfl⟩
      · exact h
      · exact late n

/-- with one file for the pose and the velocity, after the first row the file begins with the row of the velocity -/
theorem shared_row (d : Disk) {x y : List Char} (h : x ≠ y) (r : Texts) : session d (x, x, y) [r] x = r.vel ++ r.pose.drop r.vel.length := by
  simp [session, row, put, opened, splice, h]

/-- **C150** is false: the file of mini_cheetah gives the same name for both.  The row of the velocity is written over the row of the pose. -/
theorem C150_false : ∃ c, Shipped.miniCheetah.est.estConfig = some c ∧ ∀ {et h ic cs e0}, Estimator.ctor et h c ic cs = some e0 →
    ∃ x y, e0.log.opened = [(x, x, y)] ∧ ∀ d r, session d (x, x, y) [r] x = r.vel ++ r.pose.drop r.vel.length := by
  refine ⟨_, by simp [Shipped.miniCheetah, Shipped.miniCheetahEst, Doc.of, List.lookup, Doc.estConfig, Doc.req, Doc.opt, YVal.asBool, YVal.bool, YVal.asDouble, YVal.num,
    YVal.asString, YVal.str, YVal.int]; rfl, ?_⟩
  intro et h ic cs e0 hc
  have hn := C63_names hc rfl (evs := []) rfl
  refine ⟨_, _, hn, fun d r => shared_row d ?_ r⟩
  intro h
  have := congrArg List.length h
  simp at this

/-- with the default names the three files differ, also after a `clear()` -/
example (et : ErrorType) (h : Heap) (ic : ImuPropConfig) (e0 : Estimator) (hc : Estimator.ctor et h { enable_pose_logger := true } ic [] = some e0) :
    ∃ e, e0.run [.clear, .clear] = some e ∧ ∀ f ∈ e.log.opened, Three f := by
  have hpend : e0.pending = none := by
    unfold Estimator.ctor at hc
    simp only [Option.bind_eq_bind, Option.bind_eq_some_iff] at hc
    obtain ⟨p, hp, corrs, -, hc⟩ := hc
    rw [← Option.some.inj hc]
  obtain ⟨e, he⟩ : ∃ e, e0.run [.clear, .clear] = some e := by
    refine ⟨e0.clear.clear, ?_⟩
    have h2 : e0.clear.pending = none := by simp [Estimator.clear, hpend]
    simp [Estimator.run, Estimator.step, hpend, h2]
  refine ⟨e, he, (C150_exact_partial hc rfl he).2.mpr ?_⟩
  simp [Logger.stripDot]

end Drift
