import Verif.Spec.Walk
import Verif.Lemmas.Perf1
import Verif.Props.Legged

/-! # Lemmas: a walking robot, with sensors without error -/
set_option linter.unusedSimpArgs false
namespace Drift
open Mat Matrix RobotState

/-- if the kinematics agree with the estimate the Kalman update does not move it -/
theorem stance_zero {K : ℕ} {h : Heap} {s s1 : RobotState} {c : LegCorr} {m : LegMeas} (g : Good K h s) (hu : StanceUpdate c m h s s1)
    (hz : ∀ R p, s.get_rotation = some R → s.get_position = some p → ∀ col o, (col, o) ∈ stanceL m c.ids h m.legs.length →
      R.mulVec o.pos - (s.X.blkV 0 col - p) = 0) : s1.X = s.X ∧ s1.Theta = s.Theta := by
  obtain ⟨R, p, Z, H, N, hR, hp, ho, hc⟩ := hu
  split_ifs at hc with hL
  · rw [hc]; exact ⟨rfl, rfl⟩
  · have hZ : Z = zero (3 * (stanceL m c.ids h m.legs.length).length) 1 := by
      refine ext' ho.zr ho.zc fun i j hi hj => ?_
      rw [ho.zr] at hi
      rw [ho.zc] at hj
      have hk : i / 3 < (stanceL m c.ids h m.legs.length).length := by omega
      have h1 := ho.z (i / 3) hk
      have h0 : R.mulVec (stanceL m c.ids h m.legs.length)[i / 3].2.pos - (s.X.blkV 0 (stanceL m c.ids h m.legs.length)[i / 3].1 - p) = 0 :=
        hz R p hR hp _ _ (List.getElem_mem hk)
      rw [h0] at h1
      have h2 := congrFun h1 ⟨i % 3, by omega⟩
      rw [blkV_apply] at h2
      have : 3 * (i / 3) + i % 3 = i := by omega
      simp only [this] at h2
      obtain rfl : j = 0 := by omega
      rw [h2]; simp
    rw [hZ] at hc
    have := C25_right_zero_innovation (K := K) (s := { s with t := some m.time }) (s' := s1) (g.shape.setT (some m.time)) hc
    exact this

/-- the columns of the legs in contact are the places of their feet -/
def FeetAt (foot : ℕ → ℝ → V3) (n : ℕ) (last : Option LegMeas) (ids : ℕ → Option ℕ) (h : Heap) (s : RobotState) : Prop :=
  ∀ id a, ids id = some a → ∃ l o, last = some l ∧ l.legs.length = n ∧ l.legs[id]? = some o ∧ o.contact = true ∧
    s.get_vector (h.val a) = some (foot id l.time)

theorem walk_apply {T : Truth} {foot : ℕ → ℝ → V3} {n : ℕ} {last : Option LegMeas} {bg ba : V3} {K : ℕ} {h : Heap} {s : RobotState} {c : LegCorr}
    {m : LegMeas} (g : Good K h s) (hids : IdsOK s c.ids) (hk : c.kinStd ≠ 0) (hcn : PSD (of3 c.contactNoise)) (hx : TrueAt T bg ba m.time s)
    (hf : FeetAt foot n last c.ids h s) (hm : T.Kin foot n m) (hp : Planted foot last m) {ids' h' s'} (e : c.apply m h s = some (ids', h', s')) :
    TrueAt T bg ba m.time s' ∧ s'.t = some m.time ∧ FeetAt foot n (some m) ids' h' s' := by
  obtain ⟨K', s1, ids1, h1, s2, e1, g1, st⟩ := legApply_spec g c hids hk hcn m
  rw [e] at e1
  cases e1
  have x1 := g.shape.x.rows; have x2 := g.shape.x.cols; have hK := g.shape.k
  have y1 := g1.shape.x.rows; have y2 := g1.shape.x.cols; have hK' := g1.shape.k
  obtain ⟨hzX, hzT⟩ := stance_zero g st.kalman (by
    intro R p hR hp' col o hmem
    obtain ⟨id, a, q1, q2, q3, rfl⟩ := (C59_stance_legs m c.ids h col o).mp hmem
    obtain ⟨l, o', l1, l2, l3, l4, l5⟩ := hf id a q3
    obtain ⟨j, -, j2, -, j4, -⟩ := g.col (hids.mem id a q3)
    rw [j4, get_vector_eq g j2] at l5
    rw [hx.at_.1] at hR
    rw [hx.at_.2.2] at hp'
    obtain rfl := Option.some.inj hR
    obtain rfl := Option.some.inj hp'
    rw [hm.2 id o q1 q2, j4, Int.toNat_natCast, Option.some.inj l5, ← hp l l1 id o' o l3 q1 l4 q2, sub_self])
  have b0 : s'.X.blk3 0 0 = s.X.blk3 0 0 := by rw [← hzX]; exact blk3_congr_base st.base
  have bv : ∀ j, j < 5 → s'.X.blkV 0 j = s.X.blkV 0 j := fun j hj => by rw [← hzX]; exact blkV_congr_base st.base hj
  have f1 := st.frame1
  have f2 := st.frame2
  unfold SameButCols at f2
  have hTh : s'.Theta = s.Theta := by rw [f2]; exact hzT
  have htp : s'.tProp = s.tProp := by rw [f2]; show s1.tProp = _; rw [f1]
  have ht : s'.t = some m.time := by rw [f2]; show s1.t = _; rw [f1]
  have r0 : s'.get_rotation = s.get_rotation := by
    unfold get_rotation; rw [blk3?_eq (by omega) (by omega), blk3?_eq (by omega) (by omega), b0]
  have r3 : s'.get_velocity = s.get_velocity := by
    unfold get_velocity; rw [blkV?_eq (by omega) (by omega), blkV?_eq (by omega) (by omega), bv 3 (by norm_num)]
  have r4 : s'.get_position = s.get_position := by
    unfold get_position; rw [blkV?_eq (by omega) (by omega), blkV?_eq (by omega) (by omega), bv 4 (by norm_num)]
  refine ⟨⟨⟨K', g1.shape⟩, g1.world, by rw [htp]; exact hx.time, ⟨by rw [r0]; exact hx.at_.1, by rw [r3]; exact hx.at_.2.1, by rw [r4]; exact hx.at_.2.2⟩, ?_, ?_⟩,
    ht, ?_⟩
  · unfold get_gyroscope_bias; rw [hTh]; exact hx.bg
  · unfold get_accelerometer_bias; rw [hTh]; exact hx.ba
  · intro id a ha
    have hlen := hm.1
    cases ho : m.legs[id]? with
    | none =>
      rw [st.other id ho] at ha
      obtain ⟨l, o', l1, l2, l3, l4, l5⟩ := hf id a ha
      have := (List.getElem?_eq_some_iff.mp l3).1
      have := List.getElem?_eq_none_iff.mp ho
      omega
    | some o =>
      cases hc : o.contact with
      | false => rw [st.off id o ho hc] at ha; cases ha
      | true =>
        refine ⟨m, o, rfl, hlen, ho, hc, ?_⟩
        cases hi : c.ids id with
        | some a' =>
          rw [st.stay id o a' ho hc hi] at ha
          obtain rfl := Option.some.inj ha
          obtain ⟨l, o', l1, l2, l3, l4, l5⟩ := hf id a' hi
          rw [hp l l1 id o' o l3 ho l4 hc, st.vec a' (hids.mem _ _ hi) (st.ids.mem _ _ (st.stay id o a' ho hc hi)), ← l5]
          unfold get_vector; rw [hzX]
        | none =>
          obtain ⟨a', q1, -, -, q2⟩ := st.made id o ho hc hi
          rw [q1] at ha
          obtain rfl := Option.some.inj ha
          rw [q2, hzX]
          have h0 : s.get_rotation = some (s.X.blk3 0 0) := blk3?_eq (by omega) (by omega)
          have h4 : s.get_position = some (s.X.blkV 0 4) := blkV?_eq (by omega) (by omega)
          rw [hx.at_.1] at h0
          rw [hx.at_.2.2] at h4
          rw [← Option.some.inj h0, ← Option.some.inj h4, hm.2 id o ho hc]
          congr 1; abel

end Drift
