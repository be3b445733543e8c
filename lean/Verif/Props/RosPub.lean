import Verif.Spec.Pub
import Verif.Lemmas.QuatRot

/-!
# C80, C81, C82, C89, C90: the ROS publisher
-/
namespace Drift
open Mat Matrix RosPub

/-! ### Helpers about histories -/

theorem RosPub.run_snoc (l : List Op) (o : Op) (s : RosPub) :
    run (l ++ [o]) s = (run l s).bind fun s' => s'.step o := by
  induction l generalizing s with
  | nil => simp [run]
  | cons a l ih =>
    simp only [List.cons_append, run]
    cases h : s.step a with
    | none => simp
    | some s' => simp [ih]

theorem pushed_snoc (l : List Op) (o : Op) : pushed (l ++ [o]) = pushed l ++ pushed [o] := by
  induction l with
  | nil => simp [pushed]
  | cons a l ih => cases a <;> simp [pushed, ih]

theorem poseMsg_seq {n : ℕ} {st : RobotState} {m : PoseMsg} (h : poseMsg n st = some m) : m.seq = n := by
  unfold poseMsg at h
  simp only [Option.bind_eq_bind, Option.bind_eq_some_iff] at h
  obtain ⟨t, -, p, -, R, -, h⟩ := h
  split at h
  · obtain rfl := Option.some.inj h; rfl
  · simp at h

theorem posePublish_some {s s' : RosPub} (h : s.posePublish = some s') :
    (s.queue = [] ∧ s' = s) ∨
      ∃ st q m k r, s.queue = st :: q ∧ poseMsg s.poseSeq st = some m ∧ poseSkip s.poseRate s.pathRate = some k ∧
        cmod (toInt32 (inc32 s.poseSeq)) k = some r ∧
        s' = { s with queue := q, poseSeq := inc32 s.poseSeq, sent := s.sent ++ [m],
                      poses := if r = 0 then s.poses ++ [m.toPath] else s.poses } := by
  obtain ⟨Q, hQ⟩ : ∃ Q, s.queue = Q := ⟨_, rfl⟩
  unfold posePublish at h
  rw [hQ] at h
  cases Q with
  | nil => exact Or.inl ⟨hQ, (Option.some.inj h).symm⟩
  | cons st q =>
    right
    simp only [Option.bind_eq_bind, Option.bind_eq_some_iff] at h
    obtain ⟨m, hm, k, hk, r, hr, h⟩ := h
    exact ⟨st, q, m, k, r, hQ, hm, hk, hr, (Option.some.inj h).symm⟩

/-- the invariant of every history -/
structure PubInv (r₁ r₂ : ℝ) (ops : List Op) (s : RosPub) : Prop where
  rate : s.poseRate = r₁ ∧ s.pathRate = r₂
  seq : s.poseSeq = s.sent.length % 2 ^ 32
  q : s.queue = (pushed ops).drop s.sent.length
  le : s.sent.length ≤ (pushed ops).length
  sent : ∀ i m, s.sent[i]? = some m → ∃ st, (pushed ops)[i]? = some st ∧ poseMsg (i % 2 ^ 32) st = some m

theorem pubInv_init (r₁ r₂ : ℝ) : PubInv r₁ r₂ [] (init r₁ r₂) :=
  ⟨⟨rfl, rfl⟩, rfl, rfl, le_refl _, by simp [init]⟩

theorem inc32_mod (n : ℕ) : inc32 (n % 2 ^ 32) = (n + 1) % 2 ^ 32 := by
  unfold inc32; omega

theorem pubInv_step {r₁ r₂ : ℝ} {ops : List Op} {s s' : RosPub} (h : PubInv r₁ r₂ ops s) (o : Op)
    (hs : s.step o = some s') : PubInv r₁ r₂ (ops ++ [o]) s' := by
  cases o with
  | push st =>
    obtain rfl := Option.some.inj hs
    refine ⟨h.rate, h.seq, ?_, ?_, fun i m hm => ?_⟩
    · simp only [pushed_snoc, pushed, h.q]
      rw [List.drop_append_of_le_length h.le]
    · simp only [pushed_snoc, pushed, List.length_append]; have := h.le; omega
    · obtain ⟨st', h1, h2⟩ := h.sent i m hm
      refine ⟨st', ?_, h2⟩
      rw [pushed_snoc, List.getElem?_append_left]
      · exact h1
      · exact (List.getElem?_eq_some_iff.1 h1).1
  | path =>
    obtain rfl := Option.some.inj hs
    have : pushed (ops ++ [Op.path]) = pushed ops := by simp [pushed_snoc, pushed]
    unfold pathPublish
    split
    · exact ⟨h.rate, h.seq, this ▸ h.q, this ▸ h.le, this ▸ h.sent⟩
    · exact ⟨h.rate, h.seq, this ▸ h.q, this ▸ h.le, this ▸ h.sent⟩
  | pose =>
    have e : pushed (ops ++ [Op.pose]) = pushed ops := by simp [pushed_snoc, pushed]
    rcases posePublish_some hs with ⟨-, rfl⟩ | ⟨st, q, m, k, r, hq, hm, hk, hr, rfl⟩
    · exact ⟨h.rate, h.seq, e ▸ h.q, e ▸ h.le, e ▸ h.sent⟩
    · have hq' := h.q
      rw [hq] at hq'
      have hlt : s.sent.length < (pushed ops).length := by
        by_contra hc
        rw [List.drop_eq_nil_of_le (by omega)] at hq'
        simp at hq'
      rw [List.drop_eq_getElem_cons hlt] at hq'
      obtain ⟨h1, h2⟩ := List.cons.inj hq'
      refine ⟨h.rate, ?_, ?_, ?_, fun i m' hm' => ?_⟩
      · simp only [List.length_append, List.length_singleton, h.seq, inc32_mod]
      · simp only [List.length_append, List.length_singleton, e]; exact h2
      · simp only [List.length_append, List.length_singleton, e]; omega
      · rw [e]
        simp only [List.getElem?_append] at hm'
        split at hm'
        · exact h.sent i m' hm'
        · rename_i hi
          have : i = s.sent.length := by
            have := (List.getElem?_eq_some_iff.1 hm').1
            simp at this; omega
          subst this
          simp at hm'
          subst hm'
          exact ⟨st, by rw [List.getElem?_eq_getElem hlt, ← h1], by rw [← h.seq]; exact hm⟩

theorem pubInv_run {r₁ r₂ : ℝ} (ops : List Op) : ∀ {s : RosPub}, run ops (init r₁ r₂) = some s →
    PubInv r₁ r₂ ops s := by
  induction ops using List.reverseRecOn with
  | nil => intro s h; obtain rfl := Option.some.inj h; exact pubInv_init _ _
  | append_singleton l o ih =>
    intro s h
    rw [run_snoc, Option.bind_eq_some_iff] at h
    obtain ⟨s₀, h0, h⟩ := h
    exact pubInv_step (ih h0) o h

/-- `int(pose_seq_)` is divisible by `k` -/
theorem toInt32_dvd {n : ℕ} {k : ℤ} : toInt32 n = n ∨ toInt32 n = n - 2 ^ 32 := by
  unfold toInt32; split <;> simp

/-- a history in which every publication is followed by the right decision -/
theorem everyKth_run {r₁ r₂ : ℝ} {k : ℕ} (hk1 : 1 ≤ k) (hk : poseSkip r₁ r₂ = some (k : ℤ)) (N : ℕ)
    (good : ∀ n, n < N → ((k : ℤ) ∣ toInt32 ((n + 1) % 2 ^ 32) ↔ k ∣ n + 1)) (ops : List Op) :
    ∀ {s : RosPub}, run ops (init r₁ r₂) = some s → s.sent.length ≤ N → EveryKth k s.sent s.poses := by
  induction ops using List.reverseRecOn with
  | nil => intro s h _; obtain rfl := Option.some.inj h; exact ⟨by simp [init], by simp [init]⟩
  | append_singleton l o ih =>
    intro s' h hN
    rw [run_snoc, Option.bind_eq_some_iff] at h
    obtain ⟨s, h0, h⟩ := h
    have inv := pubInv_run l h0
    cases o with
    | push st => obtain rfl := Option.some.inj h; exact ih (s := s) h0 hN
    | path =>
      obtain rfl := Option.some.inj h
      revert hN
      unfold pathPublish
      split
      · exact ih h0
      · exact ih (s := s) h0
    | pose =>
      rcases posePublish_some h with ⟨-, rfl⟩ | ⟨st, q, m, k', r, hq, hm, hk', hr, rfl⟩
      · exact ih h0 hN
      · rw [inv.rate.1, inv.rate.2, hk] at hk'
        obtain rfl := Option.some.inj hk'
        simp only [List.length_append, List.length_singleton] at hN
        obtain ⟨e1, e2⟩ := ih h0 (by omega)
        have hg := good s.sent.length (by omega)
        rw [inv.seq, inc32_mod] at hr
        have hr0 : r = 0 ↔ k ∣ s.sent.length + 1 := by
          rw [← hg]
          unfold cmod at hr
          split at hr
          · simp at hr
          · obtain rfl := Option.some.inj hr
            exact ⟨Int.dvd_of_tmod_eq_zero, Int.tmod_eq_zero_of_dvd⟩
        have old : ∀ j, j < s.poses.length →
            s.poses[j]? = ((s.sent ++ [m])[(j + 1) * k - 1]?).map PoseMsg.toPath := by
          intro j hj
          rw [e2 j hj, List.getElem?_append_left]
          have : (j + 1) * k ≤ s.sent.length := by
            have h1 : j + 1 ≤ s.sent.length / k := by omega
            calc (j + 1) * k ≤ s.sent.length / k * k := Nat.mul_le_mul_right _ h1
              _ ≤ _ := Nat.div_mul_le_self _ _
          have h3 : 1 ≤ (j + 1) * k := Nat.mul_pos (by omega) (by omega)
          omega
        by_cases hd : k ∣ s.sent.length + 1
        · simp only [if_pos (hr0.2 hd)]
          have hdiv : (s.sent.length + 1) / k = s.sent.length / k + 1 := by
            rw [Nat.succ_div, if_pos hd]
          refine ⟨by simp [e1, hdiv], fun j hj => ?_⟩
          simp only [List.length_append, List.length_singleton] at hj
          rcases Nat.lt_or_ge j s.poses.length with hj' | hj'
          · simp only [List.getElem?_append_left hj']
            exact old j hj'
          · have : j = s.poses.length := by omega
            subst this
            have h4 : (s.poses.length + 1) * k - 1 = s.sent.length := by
              rw [e1, ← hdiv, Nat.div_mul_cancel hd]; omega
            rw [h4]
            simp
        · simp only [if_neg (fun hc => hd (hr0.1 hc))]
          refine ⟨?_, fun j hj => old j hj⟩
          rw [e1, List.length_append, List.length_singleton, Nat.succ_div, if_neg hd]
          rfl

/-! ### C81: the path -/

/-- **C81 (below 2^31 publications)** With `k = pose_rate / path_rate ≥ 1`, after any history in which fewer than 2^31
poses were published the path holds exactly the poses number k, 2k, 3k, ... in order. -/
theorem C81_every_kth_partial {r₁ r₂ : ℝ} {k : ℕ} (hk1 : 1 ≤ k) (hk : poseSkip r₁ r₂ = some (k : ℤ)) (ops : List Op)
    {s : RosPub} (h : run ops (init r₁ r₂) = some s) (hn : s.sent.length < 2 ^ 31) : EveryKth k s.sent s.poses := by
  refine everyKth_run hk1 hk (2 ^ 31 - 1) (fun n hn => ?_) ops h (by omega)
  have : toInt32 ((n + 1) % 2 ^ 32) = ((n + 1 : ℕ) : ℤ) := by
    unfold toInt32
    rw [Nat.mod_eq_of_lt (by omega), if_pos (by omega)]
  rw [this, Int.natCast_dvd_natCast]

/-- **C81 (powers of two)** When k divides 2^32 the path is right after any number of publications: the wrap-around of
the sequence number and its conversion to `int` do no harm. -/
theorem C81_power_of_two_partial {r₁ r₂ : ℝ} {k : ℕ} (hk1 : 1 ≤ k) (hk : poseSkip r₁ r₂ = some (k : ℤ))
    (h2 : k ∣ 2 ^ 32) (ops : List Op) {s : RosPub} (h : run ops (init r₁ r₂) = some s) :
    EveryKth k s.sent s.poses := by
  refine everyKth_run hk1 hk s.sent.length (fun n hn => ?_) ops h le_rfl
  have hz : (k : ℤ) ∣ (2 : ℤ) ^ 32 := by exact_mod_cast h2
  have hm : (k : ℤ) ∣ (((n + 1) % 2 ^ 32 : ℕ) : ℤ) ↔ k ∣ n + 1 := by
    rw [Int.natCast_dvd_natCast]
    exact Nat.dvd_mod_iff h2
  rw [← hm]
  rcases toInt32_dvd (n := (n + 1) % 2 ^ 32) (k := (k : ℤ)) with e | e
  · rw [e]
  · rw [e]; exact (Int.dvd_iff_dvd_of_dvd_sub (by simpa using hz)).symm

theorem poseSkip_default : poseSkip 1000 10 = some 100 := by
  unfold poseSkip
  rw [if_neg (by norm_num)]
  have : (1000 : ℝ) / 10 = ((100 : ℤ) : ℝ) := by norm_num
  simp only [this, Int.floor_intCast, Int.ceil_intCast, ite_self]
  norm_num

/-- a state ready to be published -/
def stampedInit : RobotState := { RobotState.init with t := some 0 }

theorem world_rot_isSome {st : RobotState} (h : Publishable st) : ∃ R, st.get_world_rotation = some R := by
  unfold RobotState.get_world_rotation RobotState.get_rotation
  rw [Mat.blk3?_eq (by have := h.2.1; omega) (by have := h.2.2.1; omega)]
  split <;> exact ⟨_, rfl⟩

/-- **C89 (defined)** Every publishable state yields a message. -/
theorem C89_defined {st : RobotState} (h : Publishable st) (n : ℕ) : ∃ m, poseMsg n st = some m := by
  obtain ⟨t, ht⟩ := Option.isSome_iff_exists.1 h.1
  obtain ⟨R, hR⟩ := world_rot_isSome h
  have hp : ∃ p, st.get_world_position = some p := by
    unfold RobotState.get_world_position RobotState.get_rotation RobotState.get_position
    rw [Mat.blk3?_eq (by have := h.2.1; omega) (by have := h.2.2.1; omega),
      Mat.blkV?_eq (by have := h.2.1; omega) (by have := h.2.2.1; omega)]
    split <;> exact ⟨_, rfl⟩
  obtain ⟨p, hp⟩ := hp
  unfold poseMsg
  simp only [ht, hp, hR, Option.bind_eq_bind, Option.bind_some]
  rw [if_pos ⟨h.2.2.2.1, h.2.2.2.2⟩]
  exact ⟨_, rfl⟩

theorem poseMsg_stamped (n : ℕ) : ∃ m, poseMsg n stampedInit = some m :=
  C89_defined (by simp [Publishable, stampedInit, RobotState.init]) n

theorem default_step (s : RosPub) (hq : s.queue = [stampedInit]) (hr : s.poseRate = 1000 ∧ s.pathRate = 10) :
    ∃ s' m, s.posePublish = some s' ∧ s'.queue = [] ∧ s'.sent = s.sent ++ [m] ∧ s'.poseRate = 1000 ∧
      s'.pathRate = 10 ∧ s'.poseSeq = inc32 s.poseSeq ∧
      s'.poses = if (toInt32 (inc32 s.poseSeq)).tmod 100 = 0 then s.poses ++ [m.toPath] else s.poses := by
  obtain ⟨m, hm⟩ := poseMsg_stamped s.poseSeq
  unfold posePublish
  rw [hq]
  simp only [hm, hr.1, hr.2, poseSkip_default, Option.bind_eq_bind, Option.bind_some, cmod]
  rw [if_neg (by norm_num)]
  exact ⟨_, m, rfl, rfl, rfl, rfl, rfl, rfl, rfl⟩

/-- the default configuration can publish any number of poses -/
theorem default_run (n : ℕ) : ∃ ops s, run ops (init 1000 10) = some s ∧ s.sent.length = n ∧ s.queue = [] := by
  induction n with
  | zero => exact ⟨[], _, rfl, rfl, rfl⟩
  | succ n ih =>
    obtain ⟨ops, s, h, hn, hq⟩ := ih
    have inv := pubInv_run ops h
    obtain ⟨s', m, h1, h2, h3, -⟩ :=
      default_step { s with queue := s.queue ++ [stampedInit] } (by simp [hq]) inv.rate
    refine ⟨ops ++ [.push stampedInit] ++ [.pose], s', ?_, ?_, h2⟩
    · rw [run_snoc, run_snoc, h]
      exact h1
    · rw [h3]; simp [hn]

/-- **C81 is false in general**: with the default rates (k = 100) the pose number 2147483696 is put on the path although
100 does not divide it, because the sequence number is converted to a negative `int`: from then on the path is not the
list of every 100th pose. -/
theorem C81_false : ∃ ops s, run ops (init 1000 10) = some s ∧ s.sent.length = 2147483696 ∧
    ¬ EveryKth 100 s.sent s.poses := by
  obtain ⟨ops, s, h, hn, hq⟩ := default_run 2147483695
  have inv := pubInv_run ops h
  obtain ⟨s', m, h1, h2, h3, -, -, -, h4⟩ :=
    default_step { s with queue := s.queue ++ [stampedInit] } (by simp [hq]) inv.rate
  have hrun : run (ops ++ [.push stampedInit] ++ [.pose]) (init 1000 10) = some s' := by
    rw [run_snoc, run_snoc, h]; exact h1
  refine ⟨_, s', hrun, by rw [h3]; simp [hn], fun hE => ?_⟩
  have hpos : s'.poses = s.poses ++ [m.toPath] := by
    rw [h4]
    simp only [inv.seq, hn]
    rw [if_pos]
    unfold toInt32 inc32
    norm_num
    decide
  have old : EveryKth 100 s.sent s.poses := by
    refine everyKth_run (by norm_num) poseSkip_default 2147483695 (fun n hn => ?_) ops h (by omega)
    rw [Nat.mod_eq_of_lt (by omega)]
    unfold toInt32
    split <;> omega
  have e1 := old.1
  have e2 := hE.1
  rw [hpos, h3] at e2
  simp [hn, e1] at e2

/-- **C81 (hazard)** When the path rate exceeds the pose rate `pose_skip` is zero and the first published pose evaluates
`% 0`: undefined behaviour. -/
theorem C81_slow_pose_rate_undefined (r₁ r₂ : ℝ) (h1 : 0 ≤ r₁) (h : r₁ < r₂) (st : RobotState) :
    run [.push st, .pose] (init r₁ r₂) = none := by
  have hk : poseSkip r₁ r₂ = some 0 := by
    unfold poseSkip
    have h2 : 0 < r₂ := by linarith
    rw [if_neg h2.ne']
    have h3 : 0 ≤ r₁ / r₂ := by positivity
    have h4 : ⌊r₁ / r₂⌋ = 0 := Int.floor_eq_zero_iff.2 ⟨h3, (div_lt_one h2).2 h⟩
    simp only [if_pos h3, h4]
    norm_num
  simp only [run, step, init, List.nil_append, Option.bind_some, posePublish]
  cases poseMsg 0 st with
  | none => rfl
  | some m => simp [hk, cmod]

/-- **C81 (path messages)** Every path message published carries the whole list of path poses at that moment, stamped
with the time of its last pose, and nothing is published while there is no pose on the path. -/
theorem C81_path_message (s : RosPub) :
    (s.poses = [] → s.pathPublish = s) ∧
      ∀ p l, s.poses = l ++ [p] → s.pathPublish.sentPaths = s.sentPaths ++ [⟨s.pathSeq, p.stamp, s.poses⟩] ∧
        s.pathPublish.poses = s.poses ∧ s.pathPublish.sent = s.sent ∧ s.pathPublish.queue = s.queue := by
  unfold pathPublish
  constructor
  · intro h; rw [h]; rfl
  · intro p l h
    have e : s.poses.getLast? = some p := by rw [h]; simp
    rw [e]
    exact ⟨rfl, rfl, rfl, rfl⟩

/-- the hypotheses of `C81_every_kth_partial` hold for the default rates after 250 publications -/
example : ∃ ops s, run ops (init 1000 10) = some s ∧ s.sent.length = 250 ∧ s.poses.length = 2 := by
  obtain ⟨ops, s, h, hn, -⟩ := default_run 250
  refine ⟨ops, s, h, hn, ?_⟩
  have := (C81_every_kth_partial (k := 100) (by norm_num) poseSkip_default ops h (by omega)).1
  rw [this, hn]

/-! ### C89, C90: content and order -/

/-- **C89 (orientation)** For every state whose estimated orientation is a rotation, the published message reports it: the
time, the world position, and a unit quaternion that represents the world orientation. -/
theorem C89_reports {st : RobotState} {n : ℕ} {m : PoseMsg} {R : M3} (hR : st.get_rotation = some R) (hrot : IsRot R)
    (h : poseMsg n st = some m) : Reports m st ∧ m.seq = n := by
  refine ⟨?_, poseMsg_seq h⟩
  unfold poseMsg at h
  simp only [Option.bind_eq_bind, Option.bind_eq_some_iff] at h
  obtain ⟨t, ht, p, hp, W, hW, h⟩ := h
  have hWrot : IsRot W := by
    unfold RobotState.get_world_rotation at hW
    rw [hR] at hW
    split at hW
    · obtain rfl := Option.some.inj hW; exact hrot
    · simp only [Option.map_some, Option.some.injEq] at hW
      obtain rfl := hW
      exact ⟨by simpa using hrot.2.1, by simpa using hrot.1, by simpa using hrot.2.2⟩
  split at h
  · obtain rfl := Option.some.inj h
    obtain ⟨h1, h2⟩ := ofRot_toRot hWrot
    exact ⟨ht, by simpa using hp, by simpa [h1] using hW, h2⟩
  · simp at h

/-- **C90** In every history of pushes, pose publications and path publications, the published poses are the states handed
over by the estimator, in the order they were handed over, each once: message number i (from 0) is made of the i-th state
and carries sequence number i modulo 2^32; the states still in the queue are exactly those not yet published. -/
theorem C90_in_order (r₁ r₂ : ℝ) (ops : List Op) {s : RosPub} (h : run ops (init r₁ r₂) = some s) :
    (∀ i m, s.sent[i]? = some m → ∃ st, (pushed ops)[i]? = some st ∧ poseMsg (i % 2 ^ 32) st = some m) ∧
      s.queue = (pushed ops).drop s.sent.length ∧ s.sent.length + s.queue.length = (pushed ops).length := by
  have inv := pubInv_run ops h
  refine ⟨inv.sent, inv.q, ?_⟩
  have := inv.le
  rw [inv.q, List.length_drop]; omega

/-- **C90 (defined)** With publishable states and `pose_skip ≥ 1` no history is undefined. -/
theorem C90_defined {r₁ r₂ : ℝ} {k : ℤ} (hk1 : 1 ≤ k) (hk : poseSkip r₁ r₂ = some k) (ops : List Op)
    (hp : ∀ st ∈ pushed ops, Publishable st) : ∃ s, run ops (init r₁ r₂) = some s := by
  induction ops using List.reverseRecOn with
  | nil => exact ⟨_, rfl⟩
  | append_singleton l o ih =>
    rw [pushed_snoc] at hp
    obtain ⟨s, hs⟩ := ih fun st h => hp st (List.mem_append_left _ h)
    have inv := pubInv_run l hs
    rw [run_snoc, hs, Option.bind_some]
    cases o with
    | push st => exact ⟨_, rfl⟩
    | path => exact ⟨_, rfl⟩
    | pose =>
      show ∃ s', s.posePublish = some s'
      unfold posePublish
      split
      · exact ⟨_, rfl⟩
      · rename_i st q hq
        obtain ⟨m, hm⟩ := C89_defined (hp st (List.mem_append_left _ (by
          have := inv.q; rw [hq] at this
          exact List.mem_of_mem_drop (this ▸ List.mem_cons_self)))) s.poseSeq
        simp only [hm, inv.rate.1, inv.rate.2, hk, Option.bind_eq_bind, Option.bind_some, cmod]
        rw [if_neg (by omega)]
        exact ⟨_, rfl⟩

/-- **C90 (progress)** Each `PosePublish` with a waiting state publishes exactly one pose and removes exactly one state. -/
theorem C90_progress {s s' : RosPub} (h : s.posePublish = some s') (hq : s.queue ≠ []) :
    s'.sent.length = s.sent.length + 1 ∧ s'.queue = s.queue.tail := by
  rcases posePublish_some h with ⟨h1, -⟩ | ⟨st, q, m, k, r, h1, -, -, -, rfl⟩
  · exact absurd h1 hq
  · simp [h1]

/-- a publishable state: the freshly constructed one with its time set -/
example : Publishable stampedInit := by
  simp [Publishable, stampedInit, RobotState.init]

/-! ### C80: the covariance -/

/-- **C80 (actual content)** The published 6x6 matrix is the covariance of (rotation, velocity), including their cross terms
at the same places as in the filter. -/
theorem C80_content_partial {st : RobotState} {n : ℕ} {m : PoseMsg} (h : poseMsg n st = some m) :
    ∃ Pr Pv, st.get_rotation_covariance = some Pr ∧ st.get_velocity_covariance = some Pv ∧
      (∀ i j : Fin 3, m.cov (i.castLE (by omega)) (j.castLE (by omega)) = Pr i j) ∧
      (∀ i j : Fin 3, m.cov (i.natAdd 3) (j.natAdd 3) = Pv i j) ∧
      ∀ i j : Fin 6, m.cov i j = st.P.e i j := by
  unfold poseMsg at h
  simp only [Option.bind_eq_bind, Option.bind_eq_some_iff] at h
  obtain ⟨t, -, p, -, W, -, h⟩ := h
  split at h
  · rename_i hP
    obtain rfl := Option.some.inj h
    refine ⟨_, _, Mat.blk3?_eq (by omega) (by omega), Mat.blk3?_eq (by omega) (by omega), ?_, ?_, fun _ _ => rfl⟩
    · intro i j; simp [Mat.blk3]
    · intro i j; simp [Mat.blk3, add_comm]
  · simp at h

/-- a state whose orientation is known exactly and whose position is not -/
noncomputable def unsurePos : RobotState :=
  { RobotState.init with t := some 0, P := ofFn 15 15 fun i j => if i = j ∧ 6 ≤ i then 1 else 0 }

/-- **C80 is false**: a state whose position variance is 1 is published with position variance 0; no covariance published for
it has the documented content. -/
theorem C80_false : ∃ m, poseMsg 0 unsurePos = some m ∧ ¬ DocumentedCov m unsurePos := by
  have hp : Publishable unsurePos := by simp [Publishable, unsurePos, RobotState.init]
  obtain ⟨m, hm⟩ := C89_defined hp 0
  refine ⟨m, hm, ?_⟩
  rintro ⟨Pp, Pr, h1, h2, h3, h4⟩
  obtain ⟨Pr', Pv', -, -, -, -, hc⟩ := C80_content_partial hm
  have e1 := h3 0 0
  rw [hc] at e1
  unfold RobotState.get_position_covariance at h1
  rw [Mat.blk3?_eq (by simp [unsurePos]) (by simp [unsurePos])] at h1
  obtain rfl := Option.some.inj h1
  simp [unsurePos, Mat.blk3, Mat.ofFn] at e1

/-! ### C82: the shared queue -/

namespace PubSys

theorem run_inv {I : PubSys → Prop} {ok : PubAct → Prop} (h0 : I init)
    (hs : ∀ s a s', I s → ok a → s.act a = some s' → I s') (l : List PubAct) (hl : ∀ a ∈ l, ok a) {s' : PubSys}
    (h : run l init = some s') : I s' := by
  have : ∀ (l : List PubAct) (s : PubSys), I s → (∀ a ∈ l, ok a) → run l s = some s' → I s' := by
    intro l
    induction l with
    | nil => intro s hI _ h; obtain rfl := Option.some.inj h; exact hI
    | cons a l ih =>
      intro s hI hl h
      simp only [run, Option.bind_eq_some_iff] at h
      obtain ⟨s₁, h1, h⟩ := h
      exact ih s₁ (hs s a s₁ hI (hl a (by simp)) h1) (fun b hb => hl b (by simp [hb])) h
  exact this l init h0 hl h

/-- the publisher is in its critical section -/
def pubIn (s : PubSys) : Prop := s.pub = .front ∨ s.pub = .pop ∨ s.pub = .unlock
/-- the estimator is in its critical section -/
def estIn (s : PubSys) : Prop := s.est = .push ∨ s.est = .unlock ∨ s.est = .clearTest ∨ s.est = .clearPop

/-- the mutex is held exactly by the thread in its critical section -/
structure Lk (s : PubSys) : Prop where
  p : s.pubIn ↔ s.owner = some .pub
  e : s.estIn ↔ s.owner = some .est

theorem lk_act {s s' : PubSys} {a : PubAct} (h : Lk s) (ha : s.act a = some s') : Lk s' := by
  obtain ⟨len, owner, pub, est, ub⟩ := s
  obtain ⟨hp, he⟩ := h
  simp only [pubIn, estIn] at hp he
  cases a <;> cases pub <;> cases est <;> rcases owner with _ | ⟨_ | _⟩ <;> cases len <;>
    simp [act, pubStep, estStep] at ha hp he <;>
    (subst ha; constructor <;> simp [pubIn, estIn])

end PubSys

/-- **C82 (mutual exclusion)** In every interleaving the two threads are never both between `lock()` and `unlock()` of the
queue's mutex, and one of them can always make a step when the estimator has an operation under way: no deadlock. -/
theorem C82_mutual_exclusion (l : List PubAct) {s : PubSys} (h : PubSys.run l PubSys.init = some s) :
    ¬ (s.pubIn ∧ s.estIn) ∧ ((s.act .pub).isSome ∨ (s.act .est).isSome) := by
  have hk : PubSys.Lk s := PubSys.run_inv (I := PubSys.Lk) (ok := fun _ => True)
    (by constructor <;> simp [PubSys.pubIn, PubSys.estIn, PubSys.init]) (fun s a s' hI _ ha => PubSys.lk_act hI ha)
    l (by simp) h
  constructor
  · rintro ⟨h1, h2⟩
    have := (hk.p.1 h1).symm.trans (hk.e.1 h2)
    simp at this
  · obtain ⟨len, owner, pub, est, ub⟩ := s
    obtain ⟨hp, he⟩ := hk
    simp only [PubSys.pubIn, PubSys.estIn] at hp he
    cases pub <;> cases est <;> rcases owner with _ | ⟨_ | _⟩ <;> simp [PubSys.act, PubSys.pubStep, PubSys.estStep] at hp he ⊢

/-- without `clear()` -/
structure PubSys.NoClr (s : PubSys) : Prop where
  lk : PubSys.Lk s
  est : s.est = .idle ∨ s.est = .lockPush ∨ s.est = .push ∨ s.est = .unlock
  len : s.pub = .lock ∨ s.pub = .front ∨ s.pub = .pop → 1 ≤ s.len
  ub : s.ub = false

theorem PubSys.noClr_act {s s' : PubSys} {a : PubAct} (h : NoClr s) (hn : a ≠ .startClear) (ha : s.act a = some s') :
    NoClr s' := by
  refine ⟨lk_act h.lk ha, ?_, ?_, ?_⟩
  all_goals
    obtain ⟨hk, he, hl, hu⟩ := h
    clear hk
    obtain ⟨len, owner, pub, est, ub⟩ := s
    simp only at hu
    subst hu
    cases a <;> cases pub <;> cases est <;> cases len <;>
      simp [act, pubStep, estStep] at ha hl he hn <;>
      first
      | (subst ha; simp)
      | (obtain ⟨-, rfl⟩ := ha; simp)

/-- **C82 (without `clear()`)** In every interleaving of the publishing thread with an estimator that only publishes states,
`front()` and `pop()` are never called on an empty queue. -/
theorem C82_never_empty_partial (l : List PubAct) (hl : PubAct.startClear ∉ l) {s : PubSys}
    (h : PubSys.run l PubSys.init = some s) : s.ub = false := by
  have : PubSys.NoClr s := PubSys.run_inv (I := PubSys.NoClr) (ok := fun a => a ≠ .startClear)
    (by refine ⟨?_, ?_, ?_, rfl⟩
        · constructor <;> simp [PubSys.pubIn, PubSys.estIn, PubSys.init]
        · exact Or.inl rfl
        · simp [PubSys.init])
    (fun s a s' hI ho ha => PubSys.noClr_act hI ho ha) l (fun a ha hc => hl (hc ▸ ha)) h
  exact this.ub

/-- **C82 is false with `clear()`**: the publisher sees a non-empty queue before it takes the mutex; `clear()` empties the
queue; `front()` and `pop()` are then called on the empty queue. -/
theorem C82_false_with_clear : ∃ l s, PubSys.run l PubSys.init = some s ∧ s.ub = true := by
  refine ⟨[.startPush, .est, .est, .est, .pub, .startClear, .est, .est, .est, .est, .est, .pub, .pub], _, rfl, rfl⟩

/-- **C82 (data race)** Even without `clear()` there is a reachable state in which the publisher is about to read the queue in
`empty()` without holding the mutex while the estimator is about to write to it. -/
theorem C82_data_race : ∃ l s, PubSys.run l PubSys.init = some s ∧ PubAct.startClear ∉ l ∧ s.pub = .test ∧
    s.owner ≠ some .pub ∧ s.est = .push := by
  exact ⟨[.startPush, .est], _, rfl, by decide, rfl, by decide, rfl⟩

end Drift
