import Verif.Props.State
import Verif.Props.ImuBias
import Verif.Props.Velocity
import Verif.Props.Logging
import Verif.Props.RosSub

/-!
# Exact conditions for properties that do not hold in general (C11, C44, C46, C64, C83, C86)

For each: the property holds in a case exactly when the stated condition on that case holds.
-/
namespace Drift
open Mat Matrix RobotState

/-! ### C11 -/

/-- **C11** (exactly when): velocity and position of the body frame agree with the columns of `get_body_X` exactly for
body-centric states and for states at rest at the origin. -/
theorem C11_exactly_when (s : RobotState) (K : ℕ) (hK : 2 ≤ K) (h : IsSEK K s.X) {v p : V3} (hv : s.get_velocity = some v)
    (hp : s.get_position = some p) :
    (∃ B, s.get_body_X = some B ∧ s.get_body_velocity = some (B.blkV 0 3) ∧ s.get_body_position = some (B.blkV 0 4)) ↔
      s.stateType = .bodyCentric ∨ (v = 0 ∧ p = 0) := by
  obtain ⟨B, v', p', hB, -, h1, h2, hb, hw⟩ := C11_body_getters_partial s K hK h
  have hr := h.rows; have hc := h.cols
  have e0 : s.X.blk3? 0 0 = some (s.X.blk3 0 0) := blk3?_eq (by omega) (by omega)
  cases ht : s.stateType with
  | bodyCentric =>
    simp only [true_or, iff_true]
    exact ⟨B, hB, by rw [h1, (hb ht).1], by rw [h2, (hb ht).2]⟩
  | worldCentric =>
    simp only [reduceCtorEq, false_or]
    have n0 : ∀ {a b : V3}, a = b → a = -b → a = 0 := fun {a b} e1 e2 => by
      have e3 : a = -a := e2.trans (by rw [← e1])
      ext i
      have e4 := congrFun e3 i
      rw [Pi.neg_apply] at e4
      rw [Pi.zero_apply]; linarith
    have cancel : ∀ {x : V3}, ((s.X.blk3 0 0)ᵀ).mulVec x = 0 → x = 0 := fun {x} e => by
      have := congrArg ((s.X.blk3 0 0).mulVec ·) e
      simp only [mulVec_mulVec, mulVec_zero] at this
      rwa [h.rot.2.1, one_mulVec] at this
    have ev : s.get_body_velocity = some (((s.X.blk3 0 0)ᵀ).mulVec v) := by
      unfold get_body_velocity; rw [ht]; simp only [get_rotation, e0, hv]; rfl
    have ep : s.get_body_position = some (((s.X.blk3 0 0)ᵀ).mulVec p) := by
      unfold get_body_position; rw [ht]; simp only [get_rotation, e0, hp]; rfl
    rw [ev] at h1; rw [ep] at h2
    obtain rfl := Option.some.inj h1
    obtain rfl := Option.some.inj h2
    constructor
    · rintro ⟨B', hB', g1, g2⟩
      obtain rfl := Option.some.inj (hB.symm.trans hB')
      exact ⟨cancel (n0 (Option.some.inj (ev.symm.trans g1)) (hw ht).1), cancel (n0 (Option.some.inj (ep.symm.trans g2)) (hw ht).2)⟩
    · rintro ⟨rfl, rfl⟩
      have z := hw ht
      rw [mulVec_zero] at z ev ep
      refine ⟨B, hB, by rw [ev, zero_eq_neg.mp z.1], by rw [ep, zero_eq_neg.mp z.2]⟩

/-! ### C44 -/

/-- **C44** (exactly when): static initialisation is defined for every history of arrivals and calls exactly when it is switched
off or the configured size (an `int`) is not zero. -/
theorem C44_exactly_when {p0 : ImuProp} (h0 : p0.biasInitVec = []) (hi : -2 ^ 31 ≤ p0.initBiasSize ∧ p0.initBiasSize < 2 ^ 31) :
    (∀ evs : List BiasEv, ∃ p, biasRun p0 evs = some p) ↔ p0.staticInit = false ∨ p0.initBiasSize ≠ 0 := by
  have hz : p0.initBiasSize ≠ 0 ↔ ImuProp.toSizeT p0.initBiasSize ≠ 0 := by
    unfold ImuProp.toSizeT
    obtain ⟨h1, h2⟩ := hi
    generalize p0.initBiasSize = n at *
    constructor
    · intro h h3
      rw [Int.toNat_eq_zero] at h3
      omega
    · rintro h rfl; exact h rfl
  rw [hz]
  clear hz hi
  constructor
  · intro h
    by_contra hc
    push Not at hc
    obtain ⟨p, hp⟩ := h [.call]
    have : p0.initImuBias = none := by
      unfold ImuProp.initImuBias
      rw [if_neg (by simpa using hc.1), h0, hc.2]
      simp
    simp [biasRun, biasStep, this] at hp
  · intro h evs
    clear h0
    induction evs generalizing p0 with
    | nil => exact ⟨p0, rfl⟩
    | cons e es ih =>
      cases e with
      | arrive m => exact ih (p0 := { p0 with buffer := p0.buffer ++ [m] }) h
      | call =>
        have key : ∃ q, p0.initImuBias = some q ∧ (q.staticInit = false ∨ ImuProp.toSizeT q.initBiasSize ≠ 0) := by
          unfold ImuProp.initImuBias
          by_cases h1 : p0.staticInit = false
          · exact ⟨{ p0 with biasInitialized := true }, by rw [if_pos h1], h⟩
          · rw [if_neg h1]
            by_cases h2 : p0.biasInitVec.length < ImuProp.toSizeT p0.initBiasSize
            · rw [if_pos h2]
              cases p0.buffer with
              | nil => exact ⟨_, rfl, h⟩
              | cons m r => exact ⟨_, rfl, h⟩
            · rw [if_neg h2]
              have h3 := h.resolve_left h1
              dsimp only
              rw [if_neg (by omega)]
              exact ⟨_, rfl, h⟩
        obtain ⟨q, e, hq⟩ := key
        obtain ⟨p, hp⟩ := ih hq
        exact ⟨p, by simp only [biasRun, biasStep, e, Option.bind_some]; exact hp⟩

/-! ### C46 -/

/-- **C46** (exactly when): after `initialize`, the innovation of a correction with the same measurement,
`scale * R R_vel2body vel - v`, is zero exactly when mounting rotation and scale leave the measured velocity as it is. -/
theorem C46_exactly_when {K : ℕ} (c : VelCorr) (s : RobotState) (hsh : Shape K s) {pre : List VelMeas} {m : VelMeas}
    (hb : c.buffer = pre ++ [m]) :
    ∃ c' s' R v, c.setInitial s = some (true, c', s') ∧ s'.get_rotation = some R ∧ s'.get_velocity = some v ∧
      (c.scale • R.mulVec (c.R_vel2body.mulVec m.vel) - v = 0 ↔ c.scale • c.R_vel2body.mulVec m.vel = m.vel) := by
  have hr := hsh.x.rows; have hc := hsh.x.cols; have hK := hsh.k
  have e0 : s.get_rotation = some (s.X.blk3 0 0) := blk3?_eq (by omega) (by omega)
  have h2 := setInitial_shape hsh ((s.X.blk3 0 0).mulVec m.vel) (some m.time)
  refine ⟨_, _, s.X.blk3 0 0, (s.X.blk3 0 0).mulVec m.vel, setInitial_eq c s hsh hb e0, by rw [h2.2.2, e0], h2.2.1, ?_⟩
  rw [sub_eq_zero, ← mulVec_smul]
  constructor
  · intro h
    have h3 := congrArg ((s.X.blk3 0 0)ᵀ.mulVec ·) h
    simpa only [mulVec_mulVec, ← Matrix.mul_assoc, hsh.x.rot.1, Matrix.one_mul, one_mulVec] using h3
  · intro h; rw [h]

/-- ... so it is zero for all measurements exactly when the mounting rotation times the scale is the identity -/
theorem C46_exactly_when_all (R : M3) (k : ℝ) : (∀ v : V3, k • R.mulVec v = v) ↔ k • R = 1 := by
  constructor
  · intro h
    ext i j
    have := congrFun (h (Pi.single j 1)) i
    rw [Pi.smul_apply, mulVec_single_one] at this
    rw [Matrix.smul_apply, Matrix.one_apply]
    simpa [Pi.single_apply] using this
  · intro h v
    rw [← smul_mulVec, h, one_mulVec]

/-! ### C64 -/

/-- `b` is `s` without its extension: `s` has the form `b.ext` with no dot or slash in `ext`, or its file name (the part after
the last slash) has no dot and `b = s` -/
def WithoutExtension (s b : List Char) : Prop :=
  (∃ ext, s = b ++ '.' :: ext ∧ '.' ∉ ext ∧ '/' ∉ ext) ∨
    (b = s ∧ ('.' ∉ s ∨ ∃ dir file, s = dir ++ '/' :: file ∧ '/' ∉ file ∧ '.' ∉ file))

/-- `s` has a dot in a directory name and none in its file name -/
def DotOnlyInDirectory (s : List Char) : Prop := ∃ dir file, s = dir ++ '/' :: file ∧ '.' ∈ dir ∧ '.' ∉ file

theorem last_dot {s : List Char} (h : '.' ∈ s) : ∃ p q, s = p ++ '.' :: q ∧ '.' ∉ q := by
  induction s with
  | nil => simp at h
  | cons c s ih =>
    by_cases h2 : '.' ∈ s
    · obtain ⟨p, q, rfl, hq⟩ := ih h2
      exact ⟨c :: p, q, rfl, hq⟩
    · have : c = '.' := by rcases List.mem_cons.mp h with e | e; exacts [e.symm, absurd e h2]
      exact ⟨[], s, by rw [this]; rfl, h2⟩

theorem last_dot_unique {p q p' q' : List Char} (h : p ++ '.' :: q = p' ++ '.' :: q') (hq : '.' ∉ q) (hq' : '.' ∉ q') : p = p' ∧ q = q' := by
  have e1 := stripDot_eq (p := p) hq
  have e2 := stripDot_eq (p := p') hq'
  rw [h] at e1
  have e3 := e1.symm.trans e2
  subst e3
  exact ⟨rfl, by simpa using h⟩

/-- **C64** (exactly when): the base name is the path without its extension exactly when the path does not have a dot in a
directory name and none in its file name. -/
theorem C64_exactly_when (s : List Char) : WithoutExtension s (Logger.stripDot s) ↔ ¬ DotOnlyInDirectory s := by
  by_cases hd : '.' ∈ s
  · obtain ⟨p, q, rfl, hq⟩ := last_dot hd
    rw [stripDot_eq hq]
    have key : DotOnlyInDirectory (p ++ '.' :: q) ↔ '/' ∈ q := by
      constructor
      · rintro ⟨dir, file, e, h1, h2⟩
        obtain ⟨p', q', rfl, hq'⟩ := last_dot h1
        have e' : p ++ '.' :: q = p' ++ '.' :: (q' ++ '/' :: file) := by rw [e]; simp
        rw [(last_dot_unique e' hq (by simp [hq', h2])).2]
        simp
      · intro h
        obtain ⟨a, b, rfl⟩ := List.append_of_mem h
        exact ⟨p ++ '.' :: a, b, by simp, by simp, fun h => hq (by simp [h])⟩
    rw [key]
    constructor
    · rintro (⟨ext, e, h1, h2⟩ | ⟨e, -⟩)
      · rw [(last_dot_unique e hq h1).2]; exact h2
      · have := congrArg List.length e; simp at this
    · intro h; exact .inl ⟨q, rfl, hq, h⟩
  · have e : Logger.stripDot s = s := by unfold Logger.stripDot; rw [if_neg hd]
    rw [e]
    refine iff_of_true (.inr ⟨rfl, .inl hd⟩) ?_
    rintro ⟨dir, file, rfl, h1, -⟩
    exact hd (by simp [h1])

example : DotOnlyInDirectory "./logs/pose".toList := ⟨"./logs".toList, "pose".toList, by decide, by decide, by decide⟩
example : WithoutExtension "./logs/pose.txt".toList "./logs/pose".toList := .inl ⟨"txt".toList, by decide, by decide, by decide⟩

/-! ### C83 -/

/-- the odometry sources registered, in order -/
def odomAdds (l : List SubOp) : List (List ℝ × List ℝ) := l.filterMap fun
  | .add (.odom tr rot) => some (tr, rot)
  | _ => none

theorem srcToBody_last (mlog : M4 → M4) {l : List SubOp} {s : RosSub} {D P} (h : RosSub.Exec mlog .init l s D P) :
    s.srcToBody = (odomAdds l).getLast?.bind fun x => Ros.mount x.1 x.2 := by
  induction h with
  | nil => rfl
  | @snoc l s' D P h o s'' he ho ih =>
    have ea : odomAdds (l ++ [o]) = odomAdds l ++ odomAdds [o] := by simp [odomAdds, List.filterMap_append]
    rw [ea]
    cases o with
    | add k =>
      simp only [RosSub.step, Option.map_eq_some_iff] at ho
      obtain ⟨⟨t, hd⟩, e, rfl⟩ := ho
      obtain ⟨b, n, -, -, -, -, -, -, -, -, -, -, -, -, hh⟩ := RosSub.add_spec e
      rcases hh with ⟨hk, -, -, h4⟩ | ⟨tr, rot, T, rfl, hT, -, -, -, h4⟩
      · have : odomAdds [.add k] = [] := by cases k <;> first | rfl | simp [SubKind.isOdom] at hk
        rw [this, List.append_nil, ← ih]; exact h4
      · have : odomAdds [.add (.odom tr rot)] = [(tr, rot)] := rfl
        rw [this, List.getLast?_concat]
        simp only [Option.bind_some, hT]; exact h4
    | deliver i m =>
      have : odomAdds [.deliver i m] = [] := rfl
      rw [this, List.append_nil, ← ih]
      obtain ⟨b, hb, hacc⟩ := he
      simp only [RosSub.step, hb] at ho
      unfold RosSub.callback at ho
      split at ho
      · split at ho
        · obtain rfl := Option.some.inj ho; rfl
        · simp only [Option.bind_eq_bind, Option.bind_eq_some_iff] at ho
          obtain ⟨T, -, v, -, ho⟩ := ho
          obtain rfl := Option.some.inj ho; rfl
      · simp only [Option.bind_eq_bind, Option.bind_eq_some_iff] at ho
        obtain ⟨⟨a, c⟩, -, ho⟩ := ho
        obtain rfl := Option.some.inj ho; rfl
    | pop q =>
      have : odomAdds [.pop q] = [] := rfl
      rw [this, List.append_nil, ← ih]
      obtain rfl := Option.some.inj ho; rfl

/-- **C83** (which transform): every odometry message is turned into a velocity with the mounting transform of the source
registered LAST before it, whichever source it comes from.  So a source gets its own transform exactly when it was
registered last or the transforms are equal. -/
theorem C83_last_mount_partial (mlog : M4 → M4) (l l1 l2 : List SubOp) (tr rot : List ℝ) (hl : l = l1 ++ .add (.odom tr rot) :: l2)
    (h2 : ∀ tr' rot', SubOp.add (.odom tr' rot') ∉ l2) (s : RosSub) (D : List (ℕ × RosMsg)) (P : List (ℕ × RosMeas))
    (h : RosSub.Exec mlog .init l s D P) (i : ℕ) (b : Bound) (hb : s.subs[i]? = some b) (hk : b.kind.isOdom = true)
    (ms : List OdomMsg) (m m' : OdomMsg) (hD : forSub D i = (ms ++ [m]).map RosMsg.odom) (s' : RosSub)
    (hs : s.step mlog (.deliver i (.odom m')) = some s') :
    ∃ T v, Ros.mount tr rot = some T ∧ IsOdomVel mlog T m m' v ∧ s'.queues = s.queues.modify b.q (· ++ [.vel v]) := by
  have hT := srcToBody_last mlog h
  have e2 : odomAdds l2 = [] := by
    unfold odomAdds
    rw [List.filterMap_eq_nil_iff]
    intro o ho
    cases o with
    | add k => cases k <;> first | rfl | exact absurd ho (h2 _ _)
    | _ => rfl
  have e1 : odomAdds l = odomAdds l1 ++ [(tr, rot)] := by
    rw [hl]
    have : odomAdds (.add (.odom tr rot) :: l2) = (tr, rot) :: odomAdds l2 := rfl
    rw [← List.singleton_append] at *
    unfold odomAdds at *
    rw [List.filterMap_append, this, e2]
  rw [e1, List.getLast?_concat] at hT
  simp only [Option.bind_some] at hT
  obtain ⟨ms', vs, g1, -, -, g4⟩ := (RosSub.inv_exec h).odom i b hb hk
  have : ms' = ms ++ [m] := by
    have inj : Function.Injective RosMsg.odom := fun a b e => by cases e; rfl
    exact (List.map_injective_iff.mpr inj) (g1.symm.trans hD)
  rw [this, List.getLast?_concat, Option.map_some] at g4
  simp only [RosSub.step, hb] at hs
  unfold RosSub.callback at hs
  obtain ⟨bk, hbk⟩ : ∃ k, b.kind = k := ⟨_, rfl⟩
  rw [hbk] at hs hk
  cases bk <;> simp only [SubKind.isOdom, Bool.false_eq_true] at hk
  simp only [g4, Option.bind_eq_bind, Option.bind_eq_some_iff] at hs
  obtain ⟨T, k1, v, k2, k3⟩ := hs
  obtain rfl := Option.some.inj k3
  exact ⟨T, v, hT.symm.trans k1, RosSub.odomVel_spec k2, rfl⟩

/-! ### C86 -/

/-- **C86** (exactly when): a message of an IMU topic is queued exactly when its orientation is zero or normalised to within `1e-5`;
otherwise the program ends. -/
theorem C86_exactly_when (mlog : M4 → M4) (s : RosSub) (i : ℕ) (b : Bound) (m : ImuMsg) (hb : s.subs[i]? = some b)
    (hk : b.kind = .imu) :
    (∃ s' q, s.step mlog (.deliver i (.imu m)) = some s' ∧
      s'.queues = s.queues.modify b.q (· ++ [.imu ⟨m.stamp.toSec, m.angVel, m.linAcc, q⟩])) ↔
      (m.ori.w = 0 ∧ m.ori.x = 0 ∧ m.ori.y = 0 ∧ m.ori.z = 0) ∨ |m.ori.w ^ 2 + m.ori.x ^ 2 + m.ori.y ^ 2 + m.ori.z ^ 2 - 1| < 1e-5 := by
  constructor
  · rintro ⟨s', q, e, -⟩
    by_contra hc
    push Not at hc
    rw [C86_false mlog s i b m hb hk (by tauto) (not_lt.mpr hc.2)] at e
    cases e
  · rintro (⟨h1, h2, h3, h4⟩ | h)
    · obtain ⟨s', e, hq⟩ := C86_queued_partial mlog s i b m hb hk ⟨1, 0, 0, 0⟩ (.inl ⟨h1, h2, h3, h4, rfl⟩)
      exact ⟨s', _, e, hq⟩
    · obtain ⟨s', e, hq⟩ := C86_queued_partial mlog s i b m hb hk m.ori (.inr ⟨h, rfl⟩)
      exact ⟨s', _, e, hq⟩

end Drift
