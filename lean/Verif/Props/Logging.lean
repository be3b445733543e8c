import Verif.Props.Estimator2

/-!
# Properties of the pose logger
-/
set_option linter.unusedSimpArgs false
namespace Drift
open Mat Matrix RobotState

/-! ### C62 -/

/-- **C62**: in every history of an estimator built by the constructor the rows written are, in order, the rows
of a subsequence of the published states, and consecutive rows are at least `1/pose_log_rate` apart (nothing is
written if the rate is zero). -/
theorem C62_rate {et h c ic cs e0} (hc : Estimator.ctor et h c ic cs = some e0) {evs e} (hr : e0.run evs = some e) :
    (∃ l, List.Sublist l (published e0 evs) ∧ List.Forall₂ IsRow l e.log.written) ∧
      Spaced (1 / c.pose_log_rate.getD 10) e.log.written ∧ (c.pose_log_rate = some 0 → e.log.written = []) := by
  have i0 : LogInv (c.pose_log_rate.getD 10) [] e0.log := by
    unfold Estimator.ctor at hc
    simp only [Option.bind_eq_bind, Option.bind_eq_some_iff] at hc
    obtain ⟨p, hp, corrs, -, hc⟩ := hc
    rw [← Option.some.inj hc]
    exact ⟨rfl, ⟨[], by rw [logCtor_queue]; simp, List.Forall₂.nil⟩, trivial, (fun x hx => by cases hx), fun _ => rfl⟩
  have i := logInv_run evs i0 hr
  rw [List.nil_append] at i
  obtain ⟨l, h1, h2⟩ := i.rows
  refine ⟨⟨l, (List.sublist_append_left _ _).trans h1, h2⟩, i.gaps, fun h0 => i.zero (by rw [h0]; rfl)⟩

/-- **C62**: a state that is due is written: the logging thread, finding a state at the front of its queue that
is at least `1/rate` after the last one written, appends its row. -/
theorem C62_due_is_written {g : Logger} {s rest t} (hq : g.queue = s :: rest) (hen : g.enabled = true) (ht : s.t = some t)
    (hd : g.rate ≠ 0 ∧ g.lastPub + 1 / g.rate ≤ t) {g'} (h : g.iter = some g') :
    ∃ r, IsRow s r ∧ g'.written = g.written ++ [r] ∧ g'.queue = rest ∧ g'.lastPub = t := by
  unfold Logger.iter at h
  rw [hq] at h
  simp only [Option.bind_eq_bind, Option.bind_eq_some_iff] at h
  obtain ⟨t', ht', h⟩ := h
  rw [ht] at ht'; cases ht'
  rw [if_pos ⟨hen, hd.1, by show t - g.lastPub ≥ 1 / g.rate; linarith [hd.2]⟩] at h
  simp only [Option.bind_eq_some_iff] at h
  obtain ⟨p, hp, R, hR, v, hv, b, hb, h⟩ := h
  rw [← Option.some.inj h]
  exact ⟨_, ⟨ht, hp, hR, hv, hb⟩, rfl, rfl, rfl⟩

/-- Limits of **C62**: the time of the last row is not reset by `clear()`: if the clock starts again, nothing is
logged until it passes the old time. -/
theorem C62_clear_keeps_time (e : Estimator) : e.clear.log.lastPub = e.log.lastPub := by
  simp only [Estimator.clear, Logger.clear]; split_ifs <;> rfl

/-- a concrete case: logging at 10 Hz, a queued state at time 5 -/
example : ∃ g', Logger.iter { (Logger.ctor true none none none) with queue := [{ RobotState.init with t := some 5 }] } = some g' ∧
    g'.written.length = 1 := by
  have h := logIter_ok (l := { (Logger.ctor true none none none) with queue := [{ RobotState.init with t := some 5 }] }) (by
    intro s hs
    rw [List.mem_singleton.mp hs]
    exact ⟨rfl, rfl, 2, ⟨init_shape.x, le_refl _, rfl, rfl, rfl, rfl⟩, (one_pd 15).psd⟩)
  obtain ⟨g', h1, -⟩ := h
  obtain ⟨r, -, h2, -⟩ := C62_due_is_written (g := { (Logger.ctor true none none none) with queue := [{ RobotState.init with t := some 5 }] })
    (t := 5) rfl rfl rfl ⟨by show (Option.none.getD 10 : ℝ) ≠ 0; norm_num,
      by show (0 : ℝ) + 1 / (Option.none.getD 10 : ℝ) ≤ 5; norm_num⟩ h1
  exact ⟨g', h1, by rw [h2]; rfl⟩

/-! ### C63 -/

/-- the file numbers the code uses: one counter, incremented for each file -/
def codeNumbers (n : ℕ) : ℕ × ℕ × ℕ := (3 * n + 1, 3 * n + 2, 3 * n + 3)

theorem tick_log_files {e e' : Estimator} (h : e.tick = some e') :
    e'.log.opened = e.log.opened ∧ e'.log.initCount = e.log.initCount ∧ e'.log.enabled = e.log.enabled ∧
      e'.log.poseBase = e.log.poseBase ∧ e'.log.velBase = e.log.velBase := by
  cases tick_out h with
  | quiet o l en => rw [l]; exact ⟨rfl, rfl, rfl, rfl, rfl⟩
  | init o l en how => rw [l]; exact ⟨rfl, rfl, rfl, rfl, rfl⟩
  | run o l en =>
    rw [l]; unfold Logger.push
    split_ifs <;> exact ⟨rfl, rfl, rfl, rfl, rfl⟩

theorem iter_files {g g' : Logger} (h : g.iter = some g') :
    g'.opened = g.opened ∧ g'.initCount = g.initCount ∧ g'.enabled = g.enabled ∧ g'.poseBase = g.poseBase ∧ g'.velBase = g.velBase := by
  unfold Logger.iter at h
  cases hq : g.queue with
  | nil => rw [hq] at h; cases h; exact ⟨rfl, rfl, rfl, rfl, rfl⟩
  | cons s rest =>
    rw [hq] at h
    simp only [Option.bind_eq_bind, Option.bind_eq_some_iff] at h
    obtain ⟨t, ht, h⟩ := h
    split_ifs at h
    · simp only [Option.bind_eq_some_iff] at h
      obtain ⟨p, -, R, -, v, -, b, -, h⟩ := h
      rw [← Option.some.inj h]; exact ⟨rfl, rfl, rfl, rfl, rfl⟩
    · rw [← Option.some.inj h]; exact ⟨rfl, rfl, rfl, rfl, rfl⟩

/-- the files opened so far are those of sessions `0..n` -/
structure FilesInv (pb vb : List Char) (n : ℕ) (g : Logger) : Prop where
  en : g.enabled = true
  pbase : g.poseBase = pb
  vbase : g.velBase = vb
  count : g.initCount = 3 * n
  files : g.opened = (List.range (n + 1)).map (sessionFiles pb vb codeNumbers)

theorem filesInv_clear {pb vb n g} (i : FilesInv pb vb n g) : FilesInv pb vb (n + 1) g.clear := by
  unfold Logger.clear
  dsimp only
  rw [if_pos i.en]
  refine ⟨i.en, i.pbase, i.vbase, by show g.initCount + 3 = _; rw [i.count]; ring, ?_⟩
  show g.opened ++ _ = _
  rw [List.range_succ, List.map_append, i.files, i.pbase, i.vbase, i.count]
  rfl

theorem filesInv_run (evs : List EstEv) : ∀ {e e' : Estimator} {pb vb n}, FilesInv pb vb n e.log → e.run evs = some e' →
    FilesInv pb vb (n + clears e evs) e'.log := by
  induction evs with
  | nil => intro e e' pb vb n i h; cases h; exact i
  | cons ev evs ih =>
    intro e e' pb vb n i h
    simp only [Estimator.run, Option.bind_eq_some_iff] at h
    obtain ⟨e1, h1, h2⟩ := h
    have step : ∀ k, clearNow ev e.pending = k → FilesInv pb vb (n + k) e1.log → FilesInv pb vb (n + clears e (ev :: evs)) e'.log := by
      intro k hk hf
      rw [clears, h1, hk, ← Nat.add_assoc]
      exact ih hf h2
    have copy : ∀ {g : Logger}, g.opened = e.log.opened ∧ g.initCount = e.log.initCount ∧ g.enabled = e.log.enabled ∧
        g.poseBase = e.log.poseBase ∧ g.velBase = e.log.velBase → FilesInv pb vb n g := by
      rintro g ⟨h1, h2, h3, h4, h5⟩
      exact ⟨by rw [h3, i.en], by rw [h4, i.pbase], by rw [h5, i.vbase], by rw [h2, i.count], by rw [h1, i.files]⟩
    cases ev with
    | tick => exact step 0 rfl (copy (tick_log_files h1))
    | imu m => cases h1; exact step 0 rfl i
    | vel k m => cases h1; exact step 0 rfl i
    | leg k m => cases h1; exact step 0 rfl i
    | consume => cases h1; exact step 0 rfl i
    | log =>
      have h1' := h1
      simp only [Estimator.step, Option.map_eq_some_iff] at h1'
      obtain ⟨l, h3, rfl⟩ := h1'
      exact step 0 rfl (copy (iter_files h3))
    | clear =>
      unfold Estimator.step at h1
      cases hp : e.pending with
      | none =>
        rw [hp] at h1; cases h1
        exact step 1 (by rw [hp]; rfl) (filesInv_clear i)
      | some k =>
        rw [hp] at h1; cases h1
        exact step 0 (by rw [hp]; rfl) i

theorem ctor_filesInv {et h c ic cs e0} (hc : Estimator.ctor et h c ic cs = some e0) (hl : c.enable_pose_logger = true) :
    FilesInv (Logger.stripDot (c.pose_log_file.getD "inekf_pose".toList)) (Logger.stripDot (c.vel_log_file.getD "inekf_vel".toList)) 0 e0.log := by
  unfold Estimator.ctor at hc
  simp only [Option.bind_eq_bind, Option.bind_eq_some_iff] at hc
  obtain ⟨p, hp, corrs, -, hc⟩ := hc
  rw [← Option.some.inj hc]
  show FilesInv _ _ 0 (Logger.ctor _ _ _ _)
  unfold Logger.ctor
  dsimp only
  rw [hl]
  simp only [if_true]
  exact ⟨rfl, rfl, rfl, rfl, rfl⟩

/-- **C63**, what the file names are: with logging on, a history with `n` `clear()` calls opens exactly the files
of sessions `0..n`, where session `j > 0` has the numbers `3j-2` (pose), `3j-1` (velocity), `3j` (body velocity). -/
theorem C63_names {et h c ic cs e0} (hc : Estimator.ctor et h c ic cs = some e0) (hl : c.enable_pose_logger = true)
    {evs e} (hr : e0.run evs = some e) :
    e.log.opened = (List.range (clears e0 evs + 1)).map
      (sessionFiles (Logger.stripDot (c.pose_log_file.getD "inekf_pose".toList)) (Logger.stripDot (c.vel_log_file.getD "inekf_vel".toList))
        codeNumbers) := by
  have := (filesInv_run evs (ctor_filesInv hc hl) hr).files
  rwa [Nat.zero_add] at this

theorem dec_inj' {U : List Char} {a b : ℕ} (h : Logger.dec a ++ U = Logger.dec b ++ U) : a = b :=
  dec_inj (List.append_cancel_right h)

/-- what follows the base name in the pose and velocity files (`U` is `txt`) -/
def sufA (U : List Char) (k : ℕ) : ℕ → List Char
  | 0 => '.' :: U
  | n + 1 => '_' :: (Logger.dec (3 * n + k) ++ '.' :: U)
/-- what follows the base name in the body velocity files (`O` is `ody_frame`) -/
def sufB (O U : List Char) : ℕ → List Char
  | 0 => '_' :: 'b' :: (O ++ '.' :: U)
  | n + 1 => '_' :: 'b' :: (O ++ '_' :: (Logger.dec (3 * n + 3) ++ '.' :: U))

theorem sufA_inj {U : List Char} {k a b : ℕ} (h : sufA U k a = sufA U k b) : a = b := by
  cases a with
  | zero => cases b with
    | zero => rfl
    | succ b => simp [sufA] at h
  | succ a => cases b with
    | zero => simp [sufA] at h
    | succ b =>
      simp only [sufA, List.cons.injEq, true_and] at h
      have := dec_inj' h
      omega

theorem sufB_inj {O U : List Char} {a b : ℕ} (h : sufB O U a = sufB O U b) : a = b := by
  cases a with
  | zero => cases b with
    | zero => rfl
    | succ b =>
      simp only [sufB, List.cons.injEq, true_and] at h
      have h := List.append_cancel_left h
      simp at h
  | succ a => cases b with
    | zero =>
      simp only [sufB, List.cons.injEq, true_and] at h
      have h := List.append_cancel_left h
      simp at h
    | succ b =>
      simp only [sufB, List.cons.injEq, true_and] at h
      have h := List.append_cancel_left h
      simp only [List.cons.injEq, true_and] at h
      have := dec_inj' h
      omega

theorem sufA_ne_sufB {O U : List Char} {k a b : ℕ} (hk : k ≠ 0) : sufA U k a ≠ sufB O U b := by
  intro h
  have hb : ∃ l, sufB O U b = '_' :: 'b' :: l := by cases b <;> exact ⟨_, rfl⟩
  obtain ⟨l, hb⟩ := hb
  rw [hb] at h
  cases a with
  | zero => simp [sufA] at h
  | succ a =>
    simp only [sufA, List.cons.injEq, true_and] at h
    cases hd : Logger.dec (3 * a + k) with
    | nil => exact dec_ne_nil (by omega) hd
    | cons c cs =>
      rw [hd] at h
      have hc := (dec_mem (n := 3 * a + k) (c := c) (by rw [hd]; simp)).2.2
      simp only [List.cons_append, List.cons.injEq] at h
      exact hc h.1

theorem txt_eq : ".txt".toList = '.' :: "txt".toList := by decide
theorem body_eq : "_body_frame.txt".toList = '_' :: 'b' :: ("ody_frame".toList ++ '.' :: "txt".toList) := by decide
theorem body_eq' : "_body_frame_".toList = '_' :: 'b' :: ("ody_frame".toList ++ ['_']) := by decide

theorem session_eq (pb vb : List Char) (n : ℕ) :
    sessionFiles pb vb codeNumbers n = (pb ++ sufA "txt".toList 1 n, vb ++ sufA "txt".toList 2 n, vb ++ sufB "ody_frame".toList "txt".toList n) := by
  have e1 := txt_eq; have e2 := body_eq; have e3 := body_eq'
  cases n with
  | zero => unfold sessionFiles sufA sufB; rw [e1, e2]
  | succ n =>
    unfold sessionFiles sufA sufB codeNumbers
    rw [e1, e3]
    generalize "txt".toList = U
    generalize "ody_frame".toList = O
    simp

/-- **C63**, distinctness: if neither base name is an initial segment of the other, all files opened over any
number of `clear()` calls (poses, velocities, body velocities) have pairwise different names. -/
theorem C63_distinct_partial {et h c ic cs e0} (hc : Estimator.ctor et h c ic cs = some e0) (hl : c.enable_pose_logger = true)
    {evs e} (hr : e0.run evs = some e)
    (h1 : ¬ Logger.stripDot (c.pose_log_file.getD "inekf_pose".toList) <+: Logger.stripDot (c.vel_log_file.getD "inekf_vel".toList))
    (h2 : ¬ Logger.stripDot (c.vel_log_file.getD "inekf_vel".toList) <+: Logger.stripDot (c.pose_log_file.getD "inekf_pose".toList)) :
    (allFiles e.log.opened).Nodup := by
  rw [C63_names hc hl hr]
  generalize Logger.stripDot (c.pose_log_file.getD "inekf_pose".toList) = pb at h1 h2
  generalize Logger.stripDot (c.vel_log_file.getD "inekf_vel".toList) = vb at h1 h2
  have hpv : ∀ x y, pb ++ x ≠ vb ++ y := by
    intro x y h
    rcases List.prefix_or_prefix_of_prefix (List.prefix_append pb x) (h ▸ List.prefix_append vb y) with h | h
    · exact h1 h
    · exact h2 h
  simp only [funext (session_eq pb vb)]
  generalize "txt".toList = U
  generalize "ody_frame".toList = O
  unfold allFiles
  rw [List.flatMap_map, List.nodup_flatMap]
  constructor
  · intro n _
    simp only [List.nodup_cons, List.mem_cons, List.not_mem_nil, or_false, not_or, not_false_eq_true, List.nodup_nil, and_true]
    exact ⟨⟨hpv _ _, hpv _ _⟩, fun h => sufA_ne_sufB (by norm_num) (List.append_cancel_left h)⟩
  · refine List.Pairwise.imp ?_ List.nodup_range
    intro a b hab
    simp only [Function.onFun]
    intro x hx hy
    simp only [List.mem_cons, List.not_mem_nil, or_false] at hx hy
    rcases hx with rfl | rfl | rfl <;> rcases hy with h | h | h
    · exact hab (sufA_inj (List.append_cancel_left h))
    · exact hpv _ _ h
    · exact hpv _ _ h
    · exact hpv _ _ h.symm
    · exact hab (sufA_inj (List.append_cancel_left h))
    · exact sufA_ne_sufB (by norm_num) (List.append_cancel_left h)
    · exact hpv _ _ h.symm
    · exact sufA_ne_sufB (by norm_num) (List.append_cancel_left h).symm
    · exact hab (sufB_inj (List.append_cancel_left h))

/-- **C63**, in particular each kind of file is never reused, whatever the names. -/
theorem C63_each_kind_distinct_partial {et h c ic cs e0} (hc : Estimator.ctor et h c ic cs = some e0) (hl : c.enable_pose_logger = true)
    {evs e} (hr : e0.run evs = some e) :
    (e.log.opened.map (·.1)).Nodup ∧ (e.log.opened.map (·.2.1)).Nodup ∧ (e.log.opened.map (·.2.2)).Nodup := by
  rw [C63_names hc hl hr]
  simp only [funext (session_eq _ _), List.map_map]
  generalize "txt".toList = U
  generalize "ody_frame".toList = O
  refine ⟨?_, ?_, ?_⟩ <;> refine List.Nodup.map ?_ List.nodup_range <;> intro a b h <;>
    simp only [Function.comp] at h
  · exact sufA_inj (List.append_cancel_left h)
  · exact sufA_inj (List.append_cancel_left h)
  · exact sufB_inj (List.append_cancel_left h)

/-- **C63 is false** in two respects.  The files of one session do not carry the same number: already after the
first `clear()` they are numbered 1, 2 and 3. -/
theorem C63_same_number_false (pb vb : List Char) : sessionFiles pb vb codeNumbers 1 =
    (pb ++ "_1.txt".toList, vb ++ "_2.txt".toList, vb ++ "_body_frame_3.txt".toList) := by
  have h1 : Logger.dec 1 = ['1'] := by simp [Logger.dec]
  have h2 : Logger.dec 2 = ['2'] := by simp [Logger.dec]
  have h3 : Logger.dec 3 = ['3'] := by simp [Logger.dec]
  simp [sessionFiles, codeNumbers, h1, h2, h3]

/-- **C63 is false**: with base names `run` (velocity) and `run_2` (pose) the velocity file of the second session
is the pose file of the first, which is overwritten. -/
theorem C63_overwrite_false {et h ic e0} {c : EstConfig} (hl : c.enable_pose_logger = true) (hp : c.pose_log_file = some "run_2.txt".toList)
    (hv : c.vel_log_file = some "run.txt".toList) (hc : Estimator.ctor et h c ic [] = some e0) :
    ∃ e a b, e0.run [.clear] = some e ∧ e.log.opened = [a, b] ∧ a.1 = b.2.1 := by
  have f := ctor_filesInv hc hl
  have hpend : e0.pending = none := by
    unfold Estimator.ctor at hc
    simp only [Option.bind_eq_bind, Option.bind_eq_some_iff] at hc
    obtain ⟨p, hp, corrs, -, hc⟩ := hc
    rw [← Option.some.inj hc]
  have hrun : e0.run [.clear] = some e0.clear := by
    simp [Estimator.run, Estimator.step, hpend]
  have hn : e0.clear.log.opened = _ := (filesInv_clear f).files
  rw [hp, hv] at hn
  simp only [Option.getD_some] at hn
  refine ⟨_, _, _, hrun, by rw [hn]; rfl, ?_⟩
  have s1 : Logger.stripDot "run_2.txt".toList = "run_2".toList := by decide
  have s2 : Logger.stripDot "run.txt".toList = "run".toList := by decide
  rw [s1, s2, C63_same_number_false]
  decide

/-- a configuration for `C63_distinct_partial`: the default names -/
example : ¬ Logger.stripDot "inekf_pose".toList <+: Logger.stripDot "inekf_vel".toList ∧
    ¬ Logger.stripDot "inekf_vel".toList <+: Logger.stripDot "inekf_pose".toList := by decide

/-! ### C64 -/

theorem dropWhile_ne_dot {l m : List Char} (h : '.' ∉ l) : (l ++ '.' :: m).dropWhile (fun c => decide (c ≠ '.')) = '.' :: m := by
  induction l with
  | nil => simp
  | cons a l ih =>
    have ha : a ≠ '.' := fun q => h (by simp [q])
    simp [List.dropWhile_cons, ha]
    simpa using ih fun q => h (by simp [q])

theorem stripDot_eq {p q : List Char} (h : '.' ∉ q) : Logger.stripDot (p ++ '.' :: q) = p := by
  unfold Logger.stripDot
  rw [if_pos (by simp)]
  rw [List.reverse_append, List.reverse_cons, List.append_assoc, List.singleton_append]
  have := dropWhile_ne_dot (l := q.reverse) (m := p.reverse) (by simpa using h)
  rw [this]
  simp

/-- **C64**, what holds: a path whose file name has an extension (`q`: what follows the last dot, no directory
separator in it) loses exactly the extension; a path without any dot is unchanged.  (Missing: paths with a dot
only in a directory name; see `C64_false`.) -/
theorem C64_extension_partial (p q : List Char) :
    ('.' ∉ q → '/' ∉ q → Logger.stripDot (p ++ '.' :: q) = p) ∧ ('.' ∉ p → Logger.stripDot p = p) := by
  refine ⟨fun h _ => stripDot_eq h, fun h => ?_⟩
  unfold Logger.stripDot
  rw [if_neg h]

/-- **C64 is false**: if the last dot of the path is in a directory name (the file has no extension) the path is
cut there, in the middle of the directory part. -/
theorem C64_false (dir rest file : List Char) (h1 : '.' ∉ rest) (h2 : '.' ∉ file) :
    Logger.stripDot (dir ++ '.' :: rest ++ '/' :: file) = dir ∧ dir ≠ dir ++ '.' :: rest ++ '/' :: file := by
  constructor
  · have : dir ++ '.' :: rest ++ '/' :: file = dir ++ '.' :: (rest ++ '/' :: file) := by simp
    rw [this]
    exact stripDot_eq (by simp [h1, h2])
  · intro h
    have := congrArg List.length h
    simp at this

/-- `./logs/pose` becomes the empty string and the file opened is `.txt` -/
example : Logger.stripDot "./logs/pose".toList = [] := by decide

end Drift
