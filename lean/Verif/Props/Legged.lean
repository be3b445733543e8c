import Verif.Lemmas.Legged6
import Verif.Spec.Velocity

/-!
# Properties C14, C51 - C54, C59: `src/filter/inekf/correction/legged_kinematics_correction.cpp`

`Good K h s` (Spec/Legged.lean): well-formed filter state with `K - 2` augmented columns.
`LegStep` (ibid.): what one kinematic measurement does to the references, the cells and the state.
-/
set_option linter.unusedSimpArgs false
namespace Drift
open Mat Matrix RobotState Finset

/-- an initial heap and state are well formed -/
theorem init_good (h : Heap) : Good 2 h RobotState.init where
  shape := init_shape
  world := rfl
  psd := (one_pd 15).psd
  q := ⟨rfl, zero_psd 15, fun i j _ => by simp [RobotState.init]⟩
  len := rfl
  tab := ⟨fun j hj => by show (List.replicate 5 none)[j]? = _; rw [List.getElem?_replicate, if_pos hj], fun j h5 hj => by simp [RobotState.init] at hj; omega⟩

/-- a contact correction with the default parameters -/
noncomputable def exLeg (et : ErrorType) (buf : List LegMeas) : LegCorr := LegCorr.ctor buf et {}

theorem exLeg_kin (et buf) : (exLeg et buf).kinStd ≠ 0 := by
  show (Option.none.getD 0.05 : ℝ) ≠ 0
  norm_num

theorem exLeg_noise (et buf) : PSD (of3 (exLeg et buf).contactNoise) := by
  show PSD (of3 ((Option.none.getD 0.1 * Option.none.getD 0.1 : ℝ) • (1 : M3)))
  exact (smul_one_pd (by norm_num)).psd

/-- every correction built by the constructor has an admissible contact noise -/
theorem legCtor_noise (buf et cfg) : PSD (of3 (LegCorr.ctor buf et cfg).contactNoise) := by
  unfold LegCorr.ctor
  dsimp only
  rcases eq_or_ne (cfg.contact_noise_std.getD 0.1) 0 with h | h
  · rw [h, mul_zero, zero_smul]
    have : of3 (0 : M3) = zero 3 3 := by
      refine ext' rfl rfl fun i j hi hj => ?_
      rw [of3_e _ hi hj]; simp
    rw [this]; exact zero_psd 3
  · exact (smul_one_pd (mul_self_pos.mpr h)).psd

theorem noIds_ok (s : RobotState) : IdsOK s (fun _ => none) := ⟨by simp, by simp⟩

/-! ### C59: one kinematic measurement -/

/-- **C59**: on a well-formed filter a kinematic measurement is always processed (nothing undefined), the
result is well formed again, and it consists of one joint Kalman update with the residuals
`R foot - (d - p)` of exactly the legs that are and were in contact, followed by the removal of the columns of
the legs that left contact and the addition of one column per leg that made contact (`LegStep`). -/
theorem C59_step {K : ℕ} {h : Heap} {s : RobotState} (g : Good K h s) (c : LegCorr) (hids : IdsOK s c.ids)
    (hk : c.kinStd ≠ 0) (hcn : PSD (of3 c.contactNoise)) (m : LegMeas) :
    ∃ K' s1 ids' h' s', c.apply m h s = some (ids', h', s') ∧ Good K' h' s' ∧ LegStep c m h s s1 ids' h' s' :=
  legApply_spec g c hids hk hcn m

/-- **C59**: which legs take part in the update: exactly those in contact that had a column before, with that
column. -/
theorem C59_stance_legs (m : LegMeas) (ids : ℕ → Option ℕ) (h : Heap) (col : ℕ) (o : LegObs) :
    (col, o) ∈ stanceL m ids h m.legs.length ↔
      ∃ (id : ℕ) (a : ℕ), m.legs[id]? = some o ∧ o.contact = true ∧ ids id = some a ∧ col = (h.val a).toNat := by
  unfold stanceL
  rw [List.mem_filterMap]
  constructor
  · rintro ⟨id, -, hh⟩
    cases ho : m.legs[id]? with
    | none => simp [ho] at hh
    | some o' =>
      cases hi : ids id with
      | none => simp [ho, hi] at hh
      | some a =>
        cases hc : o'.contact with
        | false => simp [ho, hi, hc] at hh
        | true =>
          simp [ho, hi, hc] at hh
          obtain ⟨rfl, rfl⟩ := hh
          exact ⟨id, a, ho, hc, hi, rfl⟩
  · rintro ⟨id, a, ho, hc, hi, rfl⟩
    refine ⟨id, List.mem_range.mpr ?_, by simp [ho, hi, hc]⟩
    by_contra hcon; rw [List.getElem?_eq_none (by omega)] at ho; simp at ho

/-- the hypotheses are met: two legs, one of them touching, from the initial state -/
example (h : Heap) (et : ErrorType) : ∃ K' s1 ids' h' s',
    (exLeg et []).apply ⟨0, [⟨true, ![1, 0, 0], 1⟩, ⟨false, 0, 1⟩], fun _ => 0⟩ h RobotState.init = some (ids', h', s') ∧
      Good K' h' s' ∧ LegStep (exLeg et []) ⟨0, [⟨true, ![1, 0, 0], 1⟩, ⟨false, 0, 1⟩], fun _ => 0⟩ h RobotState.init s1 ids' h' s' :=
  C59_step (init_good h) _ (noIds_ok _) (exLeg_kin _ _) (exLeg_noise _ _) _

/-! ### C14 -/

/-- **C14**, one measurement: afterwards the column number stored for every leg is in range, designates the
column the reference was created for, and distinct legs have distinct columns; a leg that stays in contact keeps
its reference, whose column holds the same contact position as after the Kalman update `s1`, whatever other
columns were removed. -/
theorem C14_step {K : ℕ} {h : Heap} {s : RobotState} (g : Good K h s) (c : LegCorr) (hids : IdsOK s c.ids)
    (hk : c.kinStd ≠ 0) (hcn : PSD (of3 c.contactNoise)) (m : LegMeas) {ids' h' s'}
    (e : c.apply m h s = some (ids', h', s')) :
    (∀ (id a : ℕ), ids' id = some a → ∃ j : ℕ, h'.val a = j ∧ 5 ≤ j ∧ j < s'.dimX ∧ s'.colMap[j]? = some (some a)) ∧
    (∀ (id id' a a' : ℕ), ids' id = some a → ids' id' = some a' → h'.val a = h'.val a' → id = id') ∧
    ∃ s1, StanceUpdate c m h s s1 ∧ ∀ (id : ℕ) o a, m.legs[id]? = some o → o.contact = true → c.ids id = some a →
      ids' id = some a ∧ s'.get_vector (h'.val a) = s1.get_vector (h.val a) := by
  obtain ⟨K', s1, ids1, h1, s2, e1, g1, st⟩ := legApply_spec g c hids hk hcn m
  rw [e] at e1
  cases e1
  have hcol : ∀ (id a : ℕ), ids' id = some a →
      ∃ j : ℕ, h'.val a = j ∧ 5 ≤ j ∧ j < s'.dimX ∧ s'.colMap[j]? = some (some a) := by
    intro id a ha
    obtain ⟨j, q1, q2, q3, q4, -⟩ := g1.col (st.ids.mem id a ha)
    exact ⟨j, q4, q1, by unfold dimX; rw [g1.shape.x.cols]; exact q2, q3⟩
  refine ⟨hcol, ?_, s1, st.kalman, ?_⟩
  · intro id id' a a' ha ha' hv
    obtain ⟨j, q1, -, -, q2⟩ := hcol id a ha
    obtain ⟨j', q1', -, -, q2'⟩ := hcol id' a' ha'
    have hj : j = j' := by omega
    subst hj
    rw [q2] at q2'
    cases q2'
    exact st.ids.inj _ _ _ ha ha'
  · intro id o a ho hc hi
    have hs := st.stay id o a ho hc hi
    exact ⟨hs, st.vec a (hids.mem _ _ hi) (st.ids.mem _ _ hs)⟩

/-- the references held are exactly the columns of the state, one per leg -/
def OwnsAll (n : ℕ) (x : LegSys) : Prop :=
  (∀ id, n ≤ id → x.ids id = none) ∧ ∀ b, some b ∈ x.state.colMap → ∃ id, x.ids id = some b

theorem run_inv {c : LegCorr} {n : ℕ} (hk : c.kinStd ≠ 0) (hcn : PSD (of3 c.contactNoise)) {x : LegSys}
    (hx : LegRun c n x) : (∃ K, Good K x.heap x.state) ∧ IdsOK x.state x.ids ∧ OwnsAll n x := by
  induction hx with
  | @start h s g =>
    refine ⟨⟨2, g⟩, noIds_ok _, fun _ _ => rfl, fun b hb => ?_⟩
    obtain ⟨j, h5, hj, -⟩ := g.col hb
    omega
  | @step x y hx hxy ih =>
    obtain ⟨⟨K, g⟩, hids, ho1, ho2⟩ := ih
    cases hxy with
    | @kin m ids' h' s' hn e =>
      obtain ⟨K', s1, ids1, h1, s2, e1, g1, st⟩ := legApply_spec g { c with ids := x.ids } hids hk hcn m
      rw [e] at e1
      cases e1
      refine ⟨⟨K', g1⟩, st.ids, fun id hid => ?_, fun b hb => ?_⟩
      · show ids' id = none
        rw [st.other id (List.getElem?_eq_none (by omega))]
        exact ho1 id hid
      · rcases (st.cols b).mp hb with ⟨q1, q2⟩ | ⟨-, q⟩
        · obtain ⟨id, hid⟩ := ho2 b q1
          refine ⟨id, ?_⟩
          cases ho : m.legs[id]? with
          | none => show ids' id = _; rw [st.other id ho]; exact hid
          | some o =>
            cases hc : o.contact with
            | false => exact absurd hid (q2 id o ho hc)
            | true => exact st.stay id o b ho hc hid
        · exact q
    | @other K' s' g' hc =>
      exact ⟨⟨K', g'⟩, ⟨by rw [hc]; exact hids.mem, hids.inj⟩, ho1, by rw [hc]; exact ho2⟩

/-- **C14**, whole histories: after any history of contact patterns, interleaved with anything that does not
touch the columns, the column numbers stored for the legs in contact are in range, designate the column created
for that leg, and are distinct. -/
theorem C14_history {c : LegCorr} {n : ℕ} (hk : c.kinStd ≠ 0) (hcn : PSD (of3 c.contactNoise)) {x : LegSys}
    (hx : LegRun c n x) :
    (∀ (id a : ℕ), x.ids id = some a →
      ∃ j : ℕ, x.heap.val a = j ∧ 5 ≤ j ∧ j < x.state.dimX ∧ x.state.colMap[j]? = some (some a)) ∧
    (∀ (id id' a a' : ℕ), x.ids id = some a → x.ids id' = some a' → x.heap.val a = x.heap.val a' → id = id') := by
  obtain ⟨⟨K, g⟩, hids, -⟩ := run_inv hk hcn hx
  have hcol : ∀ (id a : ℕ), x.ids id = some a →
      ∃ j : ℕ, x.heap.val a = j ∧ 5 ≤ j ∧ j < x.state.dimX ∧ x.state.colMap[j]? = some (some a) := by
    intro id a ha
    obtain ⟨j, q1, q2, q3, q4, -⟩ := g.col (hids.mem id a ha)
    exact ⟨j, q4, q1, by unfold dimX; rw [g.shape.x.cols]; exact q2, q3⟩
  refine ⟨hcol, fun id id' a a' ha ha' hv => ?_⟩
  obtain ⟨j, q1, -, -, q2⟩ := hcol id a ha
  obtain ⟨j', q1', -, -, q2'⟩ := hcol id' a' ha'
  have hj : j = j' := by omega
  subst hj
  rw [q2] at q2'
  cases q2'
  exact hids.inj _ _ _ ha ha'

/-- a run with contacts exists -/
theorem exRun (h : Heap) (et : ErrorType) (m : LegMeas) :
    ∃ x, LegRun (exLeg et []) m.legs.length x ∧ ∀ id : ℕ, (x.ids id).isSome = true ↔ ∃ o, m.legs[id]? = some o ∧ o.contact = true := by
  obtain ⟨K', s1, ids', h', s', e, g', st⟩ := C59_step (init_good h) (exLeg et []) (noIds_ok _) (exLeg_kin _ _) (exLeg_noise _ _) m
  refine ⟨⟨ids', h', s'⟩, .step (.start (init_good h)) (.kin rfl e), fun id => ?_⟩
  show (ids' id).isSome = true ↔ _
  cases ho : m.legs[id]? with
  | none => rw [st.other id ho]; simp [exLeg, LegCorr.ctor]
  | some o =>
    cases hc : o.contact with
    | false => rw [st.off id o ho hc]; simp [hc]
    | true =>
      obtain ⟨a, q, -⟩ := st.made id o ho hc rfl
      rw [q]; simp [hc]

/-! ### C51 -/

theorem count_cols {K n : ℕ} {h : Heap} {s : RobotState} {ids : ℕ → Option ℕ} (g : Good K h s) (hids : IdsOK s ids)
    (ho : OwnsAll n ⟨ids, h, s⟩) : s.dimX = 5 + ((range n).filter fun id => (ids id).isSome = true).card := by
  have hx : s.dimX = 3 + K := g.shape.x.cols
  have hK := g.shape.k
  have : ((range n).filter fun id => (ids id).isSome = true).card = (Ico 5 (3 + K)).card := by
    refine card_bij (fun id _ => ((ids id).map fun a => (h.val a).toNat).getD 0) ?_ ?_ ?_
    · intro id hid
      obtain ⟨a, ha⟩ := Option.isSome_iff_exists.mp (mem_filter.mp hid).2
      obtain ⟨j, q1, q2, -, q4, -⟩ := g.col (hids.mem _ _ ha)
      rw [ha]
      simp [q4, q1]
      exact q2
    · intro id hid id' hid' he
      obtain ⟨a, ha⟩ := Option.isSome_iff_exists.mp (mem_filter.mp hid).2
      obtain ⟨a', ha'⟩ := Option.isSome_iff_exists.mp (mem_filter.mp hid').2
      obtain ⟨j, q1, q2, q3, q4, -⟩ := g.col (hids.mem _ _ ha)
      obtain ⟨j', q1', q2', q3', q4', -⟩ := g.col (hids.mem _ _ ha')
      rw [ha, ha'] at he
      simp [q4, q4'] at he
      subst he
      rw [q3] at q3'
      cases q3'
      exact hids.inj _ _ _ ha ha'
    · intro j hj
      obtain ⟨h5, hj⟩ := mem_Ico.mp hj
      obtain ⟨a, q1, q2, -⟩ := g.tab.2 j h5 (by rw [g.len]; exact hj)
      obtain ⟨id, hid⟩ := ho.2 a (List.mem_of_getElem? q1)
      refine ⟨id, mem_filter.mpr ⟨mem_range.mpr ?_, ?_⟩, ?_⟩
      · by_contra hcon
        have := ho.1 id (by omega)
        dsimp only at hid this
        rw [this] at hid; simp at hid
      · dsimp only at hid
        rw [hid]; rfl
      · dsimp only at hid
        rw [hid]; simp [q2]
  rw [this, Nat.card_Ico, hx]
  omega

theorem countP_eq_card {α : Type} (p : α → Bool) (l : List α) :
    ((range l.length).filter fun i => l[i]?.any p = true).card = l.countP p := by
  induction l using List.reverseRecOn with
  | nil => simp
  | append_singleton l a ih =>
    rw [List.countP_append, List.length_append, List.length_singleton, range_add_one, filter_insert]
    have hf : ((range l.length).filter fun i => (l ++ [a])[i]?.any p = true) =
        (range l.length).filter fun i => l[i]?.any p = true := by
      refine filter_congr fun i hi => ?_
      rw [List.getElem?_append_left (mem_range.mp hi)]
    rw [hf]
    by_cases ha : p a = true
    · rw [if_pos (by simp [ha]), card_insert_of_notMem (by simp), ih]
      simp [ha]
    · rw [if_neg (by simp [ha]), ih]
      simp [ha]

/-- **C51**, one measurement: exactly the legs reported in contact hold a column. -/
theorem C51_ids {K : ℕ} {h : Heap} {s : RobotState} (g : Good K h s) (c : LegCorr) (hids : IdsOK s c.ids)
    (hk : c.kinStd ≠ 0) (hcn : PSD (of3 c.contactNoise)) (m : LegMeas) {ids' h' s'}
    (e : c.apply m h s = some (ids', h', s')) (id : ℕ) (hid : id < m.legs.length) :
    (ids' id).isSome = true ↔ m.legs[id].contact = true := by
  obtain ⟨K', s1, ids1, h1, s2, e1, g1, st⟩ := legApply_spec g c hids hk hcn m
  rw [e] at e1
  cases e1
  have ho : m.legs[id]? = some m.legs[id] := List.getElem?_eq_getElem hid
  cases hc : m.legs[id].contact with
  | false => rw [st.off id _ ho hc]; simp
  | true =>
    cases hi : c.ids id with
    | none => obtain ⟨a, q, -⟩ := st.made id _ ho hc hi; rw [q]; simp
    | some a => rw [st.stay id _ a ho hc hi]; simp

/-- **C51**, whole histories: whatever happened before, processing a kinematic measurement leaves
`dimX = 5 +` the number of legs it reports in contact, and exactly those legs hold a column. -/
theorem C51_history {c : LegCorr} {n : ℕ} (hk : c.kinStd ≠ 0) (hcn : PSD (of3 c.contactNoise)) {x : LegSys}
    (hx : LegRun c n x) (m : LegMeas) (hn : m.legs.length = n) :
    ∃ ids' h' s', LegCorr.apply { c with ids := x.ids } m x.heap x.state = some (ids', h', s') ∧
      s'.dimX = 5 + m.legs.countP (fun o => o.contact) ∧
      (∀ id (hid : id < m.legs.length), (ids' id).isSome = true ↔ m.legs[id].contact = true) ∧
      ∀ id, m.legs.length ≤ id → ids' id = none := by
  obtain ⟨⟨K, g⟩, hids, ho1, ho2⟩ := run_inv hk hcn hx
  obtain ⟨K', s1, ids', h', s', e, g', st⟩ := legApply_spec g { c with ids := x.ids } hids hk hcn m
  have hrun := run_inv hk hcn (.step hx (.kin hn e))
  obtain ⟨-, hids', hown⟩ := hrun
  have hc := fun id hid => C51_ids g { c with ids := x.ids } hids hk hcn m e id hid
  refine ⟨ids', h', s', e, ?_, hc, fun id hid => hown.1 id (by omega)⟩
  rw [count_cols g' hids' hown, ← countP_eq_card, hn]
  congr 2
  refine filter_congr fun id hid => ?_
  have hlt : id < m.legs.length := by rw [hn]; exact mem_range.mp hid
  show (ids' id).isSome = true ↔ _
  rw [hc id hlt, List.getElem?_eq_getElem hlt]
  rfl

example (h : Heap) (et : ErrorType) : ∃ ids' h' s',
    LegCorr.apply { exLeg et [] with ids := fun _ => none } ⟨0, [⟨true, ![1, 0, 0], 1⟩, ⟨false, 0, 1⟩, ⟨true, 0, 1⟩], fun _ => 0⟩ h
      RobotState.init = some (ids', h', s') ∧ s'.dimX = 7 := by
  obtain ⟨ids', h', s', e, q, -⟩ := C51_history (exLeg_kin et []) (exLeg_noise et [])
    (LegRun.start (n := 3) (init_good h)) ⟨0, [⟨true, ![1, 0, 0], 1⟩, ⟨false, 0, 1⟩, ⟨true, 0, 1⟩], fun _ => 0⟩ rfl
  exact ⟨ids', h', s', e, by rw [q]; rfl⟩

/-! ### C52 -/

/-- The queue policy of the contact correction (what does hold of **C52**): measurements older than the
threshold are discarded, the first one that is not is processed whatever its stamp, later ones stay queued; with
only stale measurements the queue is emptied and nothing else changes.  Missing: measurements newer than the
threshold are not skipped, see `C52_false`. -/
theorem C52_queue_partial {K : ℕ} {h : Heap} {s : RobotState} (g : Good K h s) (c : LegCorr) (hids : IdsOK s c.ids)
    (hk : c.kinStd ≠ 0) (hcn : PSD (of3 c.contactNoise)) {tp : ℝ} (ht : s.tProp = some tp) :
    (c.buffer = [] → c.correct h s = some (false, c, h, s)) ∧
    (c.buffer ≠ [] → (∀ m ∈ c.buffer, Stale c.tDiffThres tp m.time) →
      c.correct h s = some (false, { c with buffer := [] }, h, s)) ∧
    (∀ pre m rest, c.buffer = pre ++ m :: rest → (∀ x ∈ pre, Stale c.tDiffThres tp x.time) →
      ¬ Stale c.tDiffThres tp m.time → ∃ ids' h' s', c.apply m h s = some (ids', h', s') ∧
        c.correct h s = some (true, { c with buffer := rest, ids := ids' }, h', s')) := by
  refine ⟨fun hb => by unfold LegCorr.correct; rw [hb], fun hb hs => ?_, fun pre m rest hb hpre hm => ?_⟩
  · obtain ⟨f, r0, hb'⟩ := List.exists_cons_of_ne_nil hb
    have hn := popFresh_none.mpr (hb' ▸ hs)
    unfold LegCorr.correct
    rw [hb']
    simp only [Option.bind_eq_bind, ht, Option.bind_some]
    rw [hn]
  · obtain ⟨K', s1, ids', h', s', e, -, -⟩ := legApply_spec g c hids hk hcn m
    refine ⟨ids', h', s', e, ?_⟩
    obtain ⟨f, r0, hb'⟩ := List.exists_cons_of_ne_nil (l := c.buffer) (by rw [hb]; simp)
    have hp := popFresh_some.mpr ⟨pre, hb' ▸ hb, hpre, hm⟩
    unfold LegCorr.correct
    rw [hb']
    simp only [Option.bind_eq_bind, ht, Option.bind_some]
    rw [hp]
    simp only [e, Option.bind_some]

/-- **C52** does not hold: a kinematic measurement ten seconds newer than the propagation time (threshold 0.3 s)
is applied all the same; here it adds a column to the state. -/
theorem C52_false (h : Heap) (et : ErrorType) : ∃ c' h' s',
    (exLeg et [⟨10, [⟨true, ![1, 0, 0], 1⟩], fun _ => 0⟩]).tDiffThres < 10 - 0 ∧
    (exLeg et [⟨10, [⟨true, ![1, 0, 0], 1⟩], fun _ => 0⟩]).correct h { RobotState.init with tProp := some 0 } =
      some (true, c', h', s') ∧ s'.dimX = 6 ∧ s'.dimX ≠ RobotState.init.dimX := by
  set m : LegMeas := ⟨10, [⟨true, ![1, 0, 0], 1⟩], fun _ => 0⟩ with hm
  set s : RobotState := { RobotState.init with tProp := some 0 } with hs
  have g0 := init_good h
  have g : Good 2 h s := ⟨⟨g0.shape.x, g0.shape.k, g0.shape.thr, g0.shape.thc, g0.shape.pr, g0.shape.pc⟩, g0.world, g0.psd,
    g0.q, g0.len, g0.tab⟩
  have hth : (exLeg et [m]).tDiffThres = 0.3 := rfl
  obtain ⟨ids', h', s', e, hc⟩ := (C52_queue_partial g (exLeg et [m]) (noIds_ok _) (exLeg_kin _ _) (exLeg_noise _ _)
    (tp := 0) rfl).2.2 [] m [] rfl (by simp) (by unfold Stale; rw [hth, hm]; norm_num)
  obtain ⟨ids2, h2, s2, e2, hd, -⟩ := C51_history (exLeg_kin et [m]) (exLeg_noise et [m]) (LegRun.start (n := 1) g) m rfl
  have e3 : (exLeg et [m]).apply m h s = some (ids2, h2, s2) := e2
  rw [e] at e3
  cases e3
  refine ⟨_, h', s', by rw [hth]; norm_num, hc, by rw [hd]; rfl, ?_⟩
  rw [hd]
  show 5 + _ ≠ 5
  simp [hm]

/-! ### C53 -/

/-- **C53**, mean: the column of a leg that makes contact is `p + R foot`, with `p`, `R` the position and
rotation of the resulting state; the same measurement then has zero residual `R foot - (d - p)`. -/
theorem C53_mean {K : ℕ} {h : Heap} {s : RobotState} (g : Good K h s) (c : LegCorr) (hids : IdsOK s c.ids)
    (hk : c.kinStd ≠ 0) (hcn : PSD (of3 c.contactNoise)) (m : LegMeas) {ids' h' s'}
    (e : c.apply m h s = some (ids', h', s')) {id : ℕ} {o : LegObs} (ho : m.legs[id]? = some o)
    (hc : o.contact = true) (hi : c.ids id = none) :
    ∃ a R p d, ids' id = some a ∧ s'.get_rotation = some R ∧ s'.get_position = some p ∧
      s'.get_vector (h'.val a) = some d ∧ d = p + R.mulVec o.pos ∧ R.mulVec o.pos - (d - p) = 0 := by
  obtain ⟨K', s1, ids1, h1, s2, e1, g1, st⟩ := legApply_spec g c hids hk hcn m
  rw [e] at e1
  cases e1
  obtain ⟨a, q1, -, -, q2⟩ := st.made id o ho hc hi
  have x1 := g1.shape.x.rows; have x2 := g1.shape.x.cols; have hK := g1.shape.k
  have e0 : s'.get_rotation = some (s'.X.blk3 0 0) := blk3?_eq (by omega) (by omega)
  have e4 : s'.get_position = some (s'.X.blkV 0 4) := blkV?_eq (by omega) (by omega)
  have hb : s'.X.blkV 0 4 = s1.X.blkV 0 4 ∧ s'.X.blk3 0 0 = s1.X.blk3 0 0 :=
    ⟨blkV_congr_base st.base (by norm_num), blk3_congr_base st.base⟩
  refine ⟨a, _, _, _, q1, e0, e4, q2, by rw [hb.1, hb.2], by rw [hb.1, hb.2]; simp⟩

theorem Deletes.comp {A B C : Mat} {i k k' : ℕ} (h1 : Deletes A B (i + k) k') (h2 : Deletes B C i k)
    (hr : k + k' ≤ A.rows) (hc : k + k' ≤ A.cols) : Deletes A C i (k + k') := by
  refine ⟨by rw [h2.1, h1.1]; omega, by rw [h2.2.1, h1.2.1]; omega, fun a b ha hb => ?_⟩
  rw [h2.2.2 a b (by rw [h1.1]; omega) (by rw [h1.2.1]; omega), h1.2.2 _ _ ?_ ?_]
  · congr 1 <;> (unfold skip; split_ifs <;> omega)
  · unfold skip; split_ifs <;> omega
  · unfold skip; split_ifs <;> omega

/-- **C53**, covariance of the existing states: adding any number of contacts inserts rows and columns in front
of the biases and leaves all other entries of the covariance as they were; the result is symmetric PSD. -/
theorem C53_existing (c : LegCorr) (hcn : PSD (of3 c.contactNoise)) (news : List (ℕ × V3 × M3)) :
    ∀ {K : ℕ} {h : Heap} {s : RobotState} {ids : ℕ → Option ℕ} (_ : Good K h s)
    (_ : ∀ t ∈ news, PSD (of3 t.2.2)) {ids' h' s'} (_ : c.addLoop news s.P ids h s = some (ids', h', s')),
    PSD s'.P ∧ Deletes s'.P s.P (3 * K + 3) (3 * news.length) := by
  induction news with
  | nil =>
    intro K h s ids g _ ids' h' s' e
    simp only [LegCorr.addLoop, Option.some.injEq, Prod.mk.injEq] at e
    obtain ⟨rfl, rfl, rfl⟩ := e
    refine ⟨g.psd, by simp, by simp, fun a b _ _ => ?_⟩
    congr 1 <;> (unfold skip; split_ifs <;> simp)
  | cons t rest ih =>
    intro K h s ids g hps ids' h' s' e
    obtain ⟨id, pose, cov⟩ := t
    have hcov : PSD (of3 cov) := hps (id, pose, cov) (by simp)
    have ea := augment_eq g c pose cov g.shape.pr g.shape.pc
    set W := (if c.errorType = .leftInvariant then (1 : M3) else s.X.blk3 0 0) with hW
    set P1 := augP K (decide (c.errorType = .leftInvariant)) pose W cov s.P with hP1
    have hP1psd : PSD P1 := augP_psd g.psd g.shape.pr hcov
    obtain ⟨k, s1, e1, g1, d⟩ := add_good g (s.X.blkV 0 4 + (s.X.blk3 0 0).mulVec pose) hP1psd
      (by rw [hP1, augP_rows]; ring) hcn (s.dimX : ℤ)
    unfold LegCorr.addLoop at e
    rw [ea] at e
    simp only [Option.bind_eq_bind, Option.bind_some] at e
    rw [e1] at e
    simp only [Option.bind_some] at e
    rw [← d.p] at e
    obtain ⟨r1, r2⟩ := ih g1 (fun t ht => hps t (by simp [ht])) e
    refine ⟨r1, ?_⟩
    have hd : Deletes s1.P s.P (3 * K + 3) 3 := by rw [d.p]; exact augP_deletes g.shape.pr g.shape.pc
    have hsz : s1.P.rows = s'.P.rows - 3 * rest.length := r2.1
    have hsz' : s1.P.cols = s'.P.cols - 3 * rest.length := r2.2.1
    have := g1.shape.pr; have := g1.shape.pc
    have := Deletes.comp (i := 3 * K + 3) (k := 3) (by rw [show 3 * K + 3 + 3 = 3 * (K + 1) + 3 by ring]; exact r2) hd
      (by omega) (by omega)
    rw [show 3 * ((id, pose, cov) :: rest).length = 3 + 3 * rest.length by simp; ring]
    exact this

/-- **C53**, covariance of the new contact (right-invariant error): the error of the new contact is the error of
the position plus the rotated measurement noise: its covariance is `P_pp + R N Rᵀ`, its cross covariances with
rotation, velocity, position and the other contacts are those of the position. -/
theorem C53_new_covariance {K : ℕ} {h : Heap} {s : RobotState} (g : Good K h s) (c : LegCorr)
    (hc : c.errorType = .rightInvariant) (pose : V3) (cov : M3) {aug : V3} {P' : Mat}
    (e : c.augment s pose cov s.P = some (aug, P')) :
    (∀ R, s.get_rotation = some R → P'.blk3 (3 * K + 3) (3 * K + 3) = s.P.blk3 6 6 + R * cov * Rᵀ) ∧
    ∀ j, j ≤ K → P'.blk3 (3 * K + 3) (3 * j) = s.P.blk3 6 (3 * j) ∧ P'.blk3 (3 * j) (3 * K + 3) = s.P.blk3 (3 * j) 6 := by
  have hK := g.shape.k; have x1 := g.shape.x.rows; have x2 := g.shape.x.cols
  have e0 : s.get_rotation = some (s.X.blk3 0 0) := blk3?_eq (by omega) (by omega)
  rw [augment_eq g c pose cov g.shape.pr g.shape.pc, hc] at e
  simp only [Option.some.injEq, Prod.mk.injEq, reduceCtorEq, decide_false, if_false] at e
  obtain ⟨-, rfl⟩ := e
  have hP := eq_ofBlk (A := s.P) (a := K + 3) (b := K + 3) (by rw [g.shape.pr]; ring) (by rw [g.shape.pc]; ring)
  set pf := fun i j => s.P.blk3 (3 * i) (3 * j) with hpf
  have hrow : ∀ i, i < K + 4 → ∃ a, a < K + 3 ∧ (i ≤ K → a = i) ∧ (i = K + 1 → a = 2) ∧
      ∀ k, (if i = K + 1 then (if k = 2 then (1 : M3) else if false = true ∧ k = 0 then skew (-pose) else 0)
        else if i < K + 1 then (if i = k then 1 else 0) else (if i - 1 = k then 1 else 0)) = if k = a then 1 else 0 := by
    intro i hi
    by_cases h1 : i = K + 1
    · refine ⟨2, by omega, by omega, fun _ => rfl, fun k => ?_⟩
      rw [if_pos h1]; simp
    · by_cases h2 : i < K + 1
      · refine ⟨i, by omega, fun _ => rfl, by omega, fun k => ?_⟩
        rw [if_neg h1, if_pos h2]
        by_cases hk : i = k
        · rw [if_pos hk, if_pos hk.symm]
        · rw [if_neg hk, if_neg (Ne.symm hk)]
      · refine ⟨i - 1, by omega, by omega, by omega, fun k => ?_⟩
        rw [if_neg h1, if_neg h2]
        by_cases hk : i - 1 = k
        · rw [if_pos hk, if_pos hk.symm]
        · rw [if_neg hk, if_neg (Ne.symm hk)]
  have key : ∀ i j, i < K + 4 → j < K + 4 → ∀ a b, a < K + 3 → b < K + 3 →
      (∀ k, (if i = K + 1 then (if k = 2 then (1 : M3) else if false = true ∧ k = 0 then skew (-pose) else 0)
        else if i < K + 1 then (if i = k then 1 else 0) else (if i - 1 = k then 1 else 0)) = if k = a then 1 else 0) →
      (∀ k, (if j = K + 1 then (if k = 2 then (1 : M3) else if false = true ∧ k = 0 then skew (-pose) else 0)
        else if j < K + 1 then (if j = k then 1 else 0) else (if j - 1 = k then 1 else 0)) = if k = b then 1 else 0) →
      (augP K false pose (s.X.blk3 0 0) cov s.P).blk3 (3 * i) (3 * j) = pf a b +
        (if i = K + 1 then s.X.blk3 0 0 else 0) * cov * (if j = K + 1 then (s.X.blk3 0 0) else 0)ᵀ := by
    intro i j hi hj a b ha hb hia hjb
    unfold augP
    rw [blk3_add (by simp) (by simp)]
    congr 1
    · unfold augF
      conv_lhs => rw [hP]
      rw [ofBlk_mul, ofBlk_T, ofBlk_mul, ofBlk_blk3 _ hi hj]
      simp only [hia, hjb]
      rw [sum_delta (a := b) (ha := hb) (f := fun x => ∑ k ∈ range (K + 3), (if k = a then 1 else 0) * pf k x)
        (hd := by simp) (hd0 := fun k hk => by simp [hk])]
      rw [sum_delta' (a := a) (ha := ha) (f := fun x => pf x b) (hd := by simp) (hd0 := fun k hk => by simp [hk])]
    · unfold augG
      have : of3 cov = ofBlk 1 1 fun _ _ => cov := by
        refine ext_blk3 (a := 1) (b := 1) rfl rfl rfl rfl fun i j hi hj => ?_
        obtain rfl : i = 0 := by omega
        obtain rfl : j = 0 := by omega
        rw [ofBlk_blk3 _ hi hj]; exact blk3_of3 cov
      rw [this, ofBlk_mul, ofBlk_T, ofBlk_mul, ofBlk_blk3 _ hi hj]
      simp
  obtain ⟨a, ha, -, ha2, hak⟩ := hrow (K + 1) (by omega)
  obtain rfl : a = 2 := ha2 rfl
  constructor
  · intro R hR
    rw [e0] at hR
    rw [← Option.some.inj hR]
    have := key (K + 1) (K + 1) (by omega) (by omega) 2 2 ha ha hak hak
    simpa [hpf, mul_add] using this
  · intro j hj
    obtain ⟨b, hb, hb1, -, hbk⟩ := hrow j (by omega)
    obtain rfl : b = j := hb1 hj
    have h1 := key (K + 1) b (by omega) (by omega) 2 b ha hb hak hbk
    have h2 := key b (K + 1) (by omega) (by omega) b 2 hb ha hbk hak
    have hne : b ≠ K + 1 := by omega
    constructor
    · simpa [hpf, mul_add, hne] using h1
    · simpa [hpf, mul_add, hne] using h2

example (h : Heap) (et : ErrorType) : ∃ ids' h' s',
    (exLeg et []).addLoop [(0, ![1, 0, 0], 1), (2, 0, 1)] RobotState.init.P (fun _ => none) h RobotState.init = some (ids', h', s') ∧
      PSD s'.P ∧ Deletes s'.P RobotState.init.P 9 6 := by
  have hp : ∀ t ∈ [((0 : ℕ), (![1, 0, 0] : V3), (1 : M3)), (2, 0, 1)], PSD (of3 t.2.2) := by
    intro t ht
    have : t.2.2 = 1 := by
      rcases List.mem_cons.mp ht with rfl | ht
      · rfl
      · rw [List.mem_singleton.mp ht]
    rw [this, of3_one]; exact (one_pd 3).psd
  obtain ⟨ids', h', s', e, -⟩ := addLoop_spec (exLeg et []) (exLeg_noise _ _) [((0 : ℕ), (![1, 0, 0] : V3), (1 : M3)), (2, 0, 1)]
    (ids := fun _ => none) (init_good h) (by simp) hp
  exact ⟨ids', h', s', e, C53_existing (exLeg et []) (exLeg_noise _ _) _ (init_good h) hp e⟩

/-! ### C54 -/

/-- **C54**: two states with the same `X`, one with the left-invariant covariance, the other with the adjoint
related right-invariant one.  Augmenting the first in the left-invariant setting and the second in the
right-invariant setting gives the same contact position, and covariances related by the adjoint of the
augmented `X`. -/
theorem C54_augmentation_equivalent {K : ℕ} {hL hR : Heap} {sL sR : RobotState} (gL : Good K hL sL) (gR : Good K hR sR)
    (hX : sL.X = sR.X) (hP : AdjRelated K sL.X sL.P sR.P) (cL cR : LegCorr) (heL : cL.errorType = .leftInvariant)
    (heR : cR.errorType = .rightInvariant) (pose : V3) (cov : M3) {augL augR : V3} {PL PR : Mat}
    (eL : cL.augment sL pose cov sL.P = some (augL, PL)) (eR : cR.augment sR pose cov sR.P = some (augR, PR))
    {noise : M3} {ptr : Option ℕ} {k : ℤ} {s' : RobotState} (ha : sL.add_aug_state augL PL noise ptr = some (k, s')) :
    augL = augR ∧ AdjRelated (K + 1) s'.X PL PR := by
  rw [augment_eq gL cL pose cov gL.shape.pr gL.shape.pc, heL] at eL
  rw [augment_eq gR cR pose cov gR.shape.pr gR.shape.pc, heR] at eR
  simp only [Option.some.injEq, Prod.mk.injEq, reduceCtorEq, decide_false, decide_true, if_false, if_true] at eL eR
  obtain ⟨rfl, rfl⟩ := eL
  obtain ⟨rfl, rfl⟩ := eR
  rw [adjRelated_iff gL.shape.x] at hP
  refine ⟨by rw [hX], ?_⟩
  obtain ⟨s2, e2, a1, a2, a3, a4, a5, -⟩ :=
    add_aug_state_spec gL.consistent (sL.X.blkV 0 4 + (sL.X.blk3 0 0).mulVec pose) (augP K true pose 1 cov sL.P) noise ptr
  rw [ha] at e2
  simp only [Option.some.injEq, Prod.mk.injEq] at e2
  obtain ⟨-, rfl⟩ := e2
  have x1 := gL.shape.x.rows; have x2 := gL.shape.x.cols; have hK := gL.shape.k
  have hd : sL.dimX = 3 + K := x2
  have hrot : s'.X.blk3 0 0 = sL.X.blk3 0 0 := by
    funext i j
    have hi := i.2; have hj := j.2
    rw [blk3_apply, blk3_apply, a3 _ _ (by omega) (by omega)]
  have hext : Extends K sL.X s'.X (sL.X.blkV 0 4 + (sL.X.blk3 0 0).mulVec pose) := by
    refine ⟨hrot, fun k hk => ?_, by rw [← hd]; exact a4⟩
    funext i
    have hi := i.2
    rw [blkV_apply, blkV_apply, a3 _ _ (by omega) (by omega)]
  have hsek : IsSEK (K + 1) s'.X := by
    refine ⟨by omega, by omega, by rw [hrot]; exact gL.shape.x.rot, fun i c hi hi' hc => ?_⟩
    by_cases hcase : i < 3 + K ∧ c < 3 + K
    · rw [a3 i c (by omega) (by omega)]
      exact gL.shape.x.bot i c hi hcase.1 hcase.2
    · exact a5 i c hi (by omega) (by omega) (by omega)
  rw [adjRelated_iff hsek, hP, ← hX]
  exact augP_related hK gL.shape.x.rot hext gL.shape.pr gL.shape.pc

/-- the two settings start related: `P = I` at the identity -/
example (h : Heap) (noise : M3) (ptr : Option ℕ) : ∃ augL augR PL PR k s',
    (exLeg .leftInvariant []).augment RobotState.init ![1, 0, 0] 1 RobotState.init.P = some (augL, PL) ∧
    (exLeg .rightInvariant []).augment RobotState.init ![1, 0, 0] 1 RobotState.init.P = some (augR, PR) ∧
    RobotState.init.add_aug_state augL PL noise ptr = some (k, s') ∧ augL = augR ∧ AdjRelated 3 s'.X PL PR := by
  have g := init_good h
  have e1 := augment_eq g (exLeg .leftInvariant []) ![1, 0, 0] 1 (P := RobotState.init.P) rfl rfl
  have e2 := augment_eq g (exLeg .rightInvariant []) ![1, 0, 0] 1 (P := RobotState.init.P) rfl rfl
  obtain ⟨s', e3, -⟩ := add_aug_state_spec g.consistent _ (augP 2 true ![1, 0, 0] 1 1 RobotState.init.P) noise ptr
  have hrel : AdjRelated 2 RobotState.init.X RobotState.init.P RobotState.init.P := by
    rw [adjRelated_iff g.shape.x]
    have : EA 2 RobotState.init.X = one 15 := EA_one 2
    have hp : RobotState.init.P = one 15 := rfl
    rw [this, T_one, hp, one_mul_of (A := one 15) (n := 15) rfl, one_mul_of (A := one 15) (n := 15) rfl]
  exact ⟨_, _, _, _, _, s', e1, e2, e3, C54_augmentation_equivalent g g rfl hrel _ _ rfl rfl _ _ e1 e2 e3⟩

/-- **C54** for the removal of a contact: it keeps the two covariances related as well. -/
theorem C54_removal_equivalent {K : ℕ} {h h1 h2 : Heap} {sL sR sL' sR' : RobotState} (gL : Good (K + 1) h sL)
    (gR : Good (K + 1) h sR) (hX : sL.X = sR.X) (hcm : sL.colMap = sR.colMap)
    (hP : AdjRelated (K + 1) sL.X sL.P sR.P) {a : ℕ} (ha : some a ∈ sL.colMap)
    (eL : sL.del_aug_state h (h.val a) = some (h1, sL')) (eR : sR.del_aug_state h (h.val a) = some (h2, sR')) :
    sL'.X = sR'.X ∧ AdjRelated K sL'.X sL'.P sR'.P := by
  obtain ⟨h3, s3, e3, g3, d3⟩ := del_good gL ha
  obtain ⟨h4, s4, e4, g4, d4⟩ := del_good gR (by rw [← hcm]; exact ha)
  rw [eL] at e3; rw [eR] at e4
  cases e3; cases e4
  obtain ⟨j, h5, hj, -, hv, -⟩ := gL.col ha
  have x1 := gL.shape.x.rows; have x2 := gL.shape.x.cols; have hK := g3.shape.k
  have hXX : sL'.X = sR'.X := by
    refine ext' (by rw [d3.delX.1, d4.delX.1, hX]) (by rw [d3.delX.2.1, d4.delX.2.1, hX]) fun i c hi hc => ?_
    rw [d3.delX.1] at hi; rw [d3.delX.2.1] at hc
    rw [d3.delX.2.2 i c hi hc, d4.delX.2.2 i c (by rw [← hX]; exact hi) (by rw [← hX]; exact hc), hX]
  refine ⟨hXX, ?_⟩
  rw [adjRelated_iff gL.shape.x] at hP
  rw [adjRelated_iff g3.shape.x]
  have dX := d3.delX; have dPL := d3.delP; have dPR := d4.delP
  rw [hv, Int.toNat_natCast] at dX dPL dPR
  exact del_related h5 (by omega) hK (by omega) (by omega) dX gL.shape.pr gL.shape.pc dPL dPR hP

end Drift
