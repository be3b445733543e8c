import Verif.Spec.MeasObj
import Verif.Lemmas.GammaSeries
import Verif.Props.RosSub
import Verif.Props.Kinematics
import Verif.Props.LieGroup

/-!
# Properties of the measurement objects: C141 (type and content), C144 (quaternion and rotation vector)
-/
namespace Drift
open Matrix

/-! ### C141: what the getters return -/

theorem Latest.nil {α : Type} (f : MOp → Option α) (d : α) : Latest f d [] d := Or.inr ⟨by simp, rfl⟩

theorem Latest.set {α : Type} {f : MOp → Option α} {d : α} {ops : List MOp} {op : MOp} {v : α} (h : f op = some v) :
    Latest f d (ops ++ [op]) v := Or.inl ⟨ops, op, [], rfl, h, by simp⟩

theorem Latest.keep {α : Type} {f : MOp → Option α} {d : α} {ops : List MOp} {op : MOp} {v : α} (h : f op = none)
    (hv : Latest f d ops v) : Latest f d (ops ++ [op]) v := by
  rcases hv with ⟨a, o, b, h1, h2, h3⟩ | ⟨h1, h2⟩
  · refine Or.inl ⟨a, o, b ++ [op], by simp [h1], h2, fun x hx => ?_⟩
    rcases List.mem_append.1 hx with hx | hx
    · exact h3 x hx
    · rw [List.mem_singleton.1 hx]; exact h
  · refine Or.inr ⟨fun x hx => ?_, h2⟩
    rcases List.mem_append.1 hx with hx | hx
    · exact h1 x hx
    · rw [List.mem_singleton.1 hx]; exact h

/-- `Latest` determines the value -/
theorem Latest.unique {α : Type} {f : MOp → Option α} {d : α} {ops : List MOp} {v v' : α}
    (h : Latest f d ops v) (h' : Latest f d ops v') : v = v' := by
  induction ops using List.reverseRecOn with
  | nil =>
    rcases h with ⟨a, o, b, h1, -⟩ | ⟨-, rfl⟩
    · simp at h1
    · rcases h' with ⟨a, o, b, h1, -⟩ | ⟨-, rfl⟩
      · simp at h1
      · rfl
  | append_singleton l op ih =>
    have key : ∀ w, Latest f d (l ++ [op]) w → (f op = some w ∨ (f op = none ∧ Latest f d l w)) := by
      intro w hw
      rcases hw with ⟨a, o, b, h1, h2, h3⟩ | ⟨h1, h2⟩
      · rcases List.eq_nil_or_concat b with rfl | ⟨b', x, rfl⟩
        · have := List.append_inj' h1 rfl
          obtain ⟨-, h⟩ := this
          simp only [List.cons.injEq, and_true] at h
          subst h
          exact Or.inl h2
        · have h4 : l ++ [op] = (a ++ o :: b') ++ [x] := by rw [h1]; simp
          obtain ⟨rfl, h5⟩ := List.append_inj' h4 rfl
          simp only [List.cons.injEq, and_true] at h5
          subst h5
          exact Or.inr ⟨h3 op (by simp), Or.inl ⟨a, o, b', rfl, h2, fun y hy => h3 y (by simp [hy])⟩⟩
      · exact Or.inr ⟨h1 op (by simp), Or.inr ⟨fun y hy => h1 y (by simp [hy]), h2⟩⟩
    rcases key v h with e1 | ⟨e1, l1⟩ <;> rcases key v' h' with e2 | ⟨e2, l2⟩
    · exact Option.some.inj (e1.symm.trans e2)
    · rw [e1] at e2; simp at e2
    · rw [e1] at e2; simp at e2
    · exact ih l1 l2

namespace MObj

theorem run_snoc (o : MObj) (ops : List MOp) (op : MOp) : o.run (ops ++ [op]) = (o.run ops).bind fun o' => o'.step op := by
  induction ops generalizing o with
  | nil => simp [run]
  | cons x l ih =>
    simp only [List.cons_append, run, Option.bind_assoc]
    congr 1
    funext o'
    exact ih o'

theorem step_type {o o' : MObj} {op : MOp} (h : o.step op = some o') : o'.type = o.type := by
  unfold step at h
  split at h
  · obtain rfl := Option.some.inj h; rfl
  · obtain rfl := Option.some.inj h; rfl
  · obtain ⟨d, -, rfl⟩ := Option.map_eq_some_iff.1 h
    rfl

/-- induction over the calls -/
theorem run_ind {o : MObj} {P : List MOp → MObj → Prop} (h0 : P [] o)
    (h1 : ∀ ops op x y, P ops x → x.step op = some y → P (ops ++ [op]) y) (ops : List MOp) (x : MObj)
    (h : o.run ops = some x) : P ops x := by
  induction ops using List.reverseRecOn generalizing x with
  | nil =>
    obtain rfl := Option.some.inj h
    exact h0
  | append_singleton l op ih =>
    rw [run_snoc] at h
    obtain ⟨y, h2, h3⟩ := Option.bind_eq_some_iff.1 h
    exact h1 l op y x (ih y h2) h3

end MObj
open MObj

/-- **C141 is false** for the type: a kinematic measurement constructed from encoder values and contacts reports the type
`EMPTY`, whatever is done with it. -/
theorem C141_type_false (e d : List ℝ) (c : List Bool) (ops : List MOp) (o : MObj)
    (h : (MCtor.cheetahOf e d c).make.run ops = some o) : o.type = .EMPTY ∧ o.type ≠ (MCtor.cheetahOf e d c).cls := by
  have h1 : o.type = .EMPTY := by
    refine run_ind (P := fun _ x => x.type = .EMPTY) rfl (fun _ _ x y hx hs => ?_) ops o h
    rw [step_type hs, hx]
  exact ⟨h1, by rw [h1]; simp [MCtor.cls]⟩

/-- **C141 (partial), exact condition** An object reports the type of its class, after any calls, exactly if it was not
constructed by the constructor of `MiniCheetahKinematics` that takes values. -/
theorem C141_type_partial (c : MCtor) (ops : List MOp) (o : MObj) (h : c.make.run ops = some o) :
    o.type = c.cls ↔ ∀ e d ct, c ≠ .cheetahOf e d ct := by
  have h1 : o.type = c.make.type := run_ind (P := fun _ x => x.type = c.make.type) rfl
    (fun _ _ x y hx hs => by rw [step_type hs, hx]) ops o h
  rw [h1]
  cases c <;> simp [MCtor.make, MCtor.cls]

/-- **C141 is false** for the printed name: angular velocities and odometry print the same. -/
theorem C141_printed_false : MCtor.ang.make.type.name = "UNKNOWN" ∧ MCtor.odom.make.type.name = "UNKNOWN" ∧
    MCtor.ang.cls ≠ MCtor.odom.cls := ⟨rfl, rfl, by decide⟩

/-- **C141 (partial)** The printed name tells the type, if it is not "UNKNOWN". -/
theorem C141_printed_partial (s t : MType) (h : s.name = t.name) (hs : s.name ≠ "UNKNOWN") : s = t := by
  cases s <;> cases t <;> first | rfl | (exfalso; revert h hs; decide)

/-- **C141 (header)** The time, the sequence number and the frame of an object are those set last, by `set_time` or
`set_header`; before that they are those given to the constructor, else zero, indeterminate and empty. -/
theorem C141_time_partial (c : MCtor) (ops : List MOp) (o : MObj) (h : c.make.run ops = some o) :
    Latest Sets.time c.header1.1 ops o.header.stamp ∧ Latest Sets.seq c.header1.2.1 ops o.header.seq ∧
    Latest Sets.frame c.header1.2.2 ops o.header.frame := by
  have h0 : c.make.header = ⟨c.header1.2.1, c.header1.1, c.header1.2.2⟩ := by cases c <;> rfl
  refine run_ind (P := fun ops x => Latest Sets.time c.header1.1 ops x.header.stamp ∧
    Latest Sets.seq c.header1.2.1 ops x.header.seq ∧ Latest Sets.frame c.header1.2.2 ops x.header.frame) ?_
      (fun ops op x y hx hs => ?_) ops o h
  · rw [h0]; exact ⟨Latest.nil _ _, Latest.nil _ _, Latest.nil _ _⟩
  · obtain ⟨hx1, hx2, hx3⟩ := hx
    unfold step at hs
    split at hs
    · obtain rfl := Option.some.inj hs
      exact ⟨Latest.set rfl, Latest.keep rfl hx2, Latest.keep rfl hx3⟩
    · obtain rfl := Option.some.inj hs
      exact ⟨Latest.set rfl, Latest.set rfl, Latest.set rfl⟩
    · rename_i h1 h2
      obtain ⟨d, -, rfl⟩ := Option.map_eq_some_iff.1 hs
      refine ⟨Latest.keep ?_ hx1, Latest.keep ?_ hx2, Latest.keep ?_ hx3⟩ <;>
      · cases op <;> first | rfl | exact absurd rfl (h1 _) | exact absurd rfl (h2 _ _ _)

/-- **C141 (IMU)** Orientation, angular velocity and acceleration of an IMU measurement are those set last; a quaternion that is
not normalised changes nothing. -/
theorem C141_imu_partial (ops : List MOp) (o : MObj) (h : MCtor.imu.make.run ops = some o) :
    ∃ q w a, o.data = .imu q w a ∧ Latest Sets.quat ⟨1, 0, 0, 0⟩ ops q ∧ Latest Sets.angVel 0 ops w ∧
      Latest Sets.linAcc 0 ops a := by
  refine run_ind (P := fun ops x => ∃ q w a, x.data = .imu q w a ∧ Latest Sets.quat ⟨1, 0, 0, 0⟩ ops q ∧
    Latest Sets.angVel 0 ops w ∧ Latest Sets.linAcc 0 ops a) ⟨_, _, _, rfl, Latest.nil _ _, Latest.nil _ _, Latest.nil _ _⟩
      (fun ops op x y hx hs => ?_) ops o h
  obtain ⟨q, w, a, hd, hq, hw, ha⟩ := hx
  unfold step at hs
  split at hs
  · obtain rfl := Option.some.inj hs
    exact ⟨q, w, a, hd, hq.keep rfl, hw.keep rfl, ha.keep rfl⟩
  · obtain rfl := Option.some.inj hs
    exact ⟨q, w, a, hd, hq.keep rfl, hw.keep rfl, ha.keep rfl⟩
  · obtain ⟨d, h1, rfl⟩ := Option.map_eq_some_iff.1 hs
    rw [hd] at h1
    cases op <;> try (simp [setData] at h1; done)
    · rename_i qw qx qy qz h8 h9
      obtain ⟨e1, e2⟩ := C79_stored_iff_normalised ⟨0, w, a, q⟩ qw qx qy qz
      by_cases hn : |qw ^ 2 + qx ^ 2 + qy ^ 2 + qz ^ 2 - 1| < 1e-5
      · simp only [setData, e1 hn, Option.some.injEq] at h1
        exact ⟨_, w, a, h1.symm, Latest.set (by simp [Sets.quat, hn]), hw.keep rfl, ha.keep rfl⟩
      · simp only [setData, e2 hn, Option.some.injEq] at h1
        exact ⟨q, w, a, h1.symm, hq.keep (by simp [Sets.quat, hn]), hw.keep rfl, ha.keep rfl⟩
    · simp only [setData, Option.some.injEq] at h1
      exact ⟨q, _, a, h1.symm, hq.keep rfl, Latest.set rfl, ha.keep rfl⟩
    · simp only [setData, Option.some.injEq] at h1
      exact ⟨q, w, _, h1.symm, hq.keep rfl, hw.keep rfl, Latest.set rfl⟩

/-- **C141 (velocity, angular velocity, contacts)** The value is the one set last. -/
theorem C141_vectors_partial (ops : List MOp) (o : MObj) :
    (MCtor.vel.make.run ops = some o → ∃ v, o.data = .vel v ∧ Latest Sets.vel 0 ops v) ∧
    (MCtor.ang.make.run ops = some o → ∃ v, o.data = .ang v ∧ Latest Sets.rate 0 ops v) ∧
    (MCtor.contact.make.run ops = some o → ∃ v, o.data = .contact v ∧ Latest Sets.contact [] ops v) := by
  refine ⟨fun h => ?_, fun h => ?_, fun h => ?_⟩
  · refine run_ind (P := fun ops x => ∃ v, x.data = .vel v ∧ Latest Sets.vel 0 ops v) ⟨_, rfl, Latest.nil _ _⟩
      (fun ops op x y hx hs => ?_) ops o h
    obtain ⟨v, hd, hv⟩ := hx
    unfold step at hs
    split at hs
    · obtain rfl := Option.some.inj hs; exact ⟨v, hd, hv.keep rfl⟩
    · obtain rfl := Option.some.inj hs; exact ⟨v, hd, hv.keep rfl⟩
    · obtain ⟨d, h1, rfl⟩ := Option.map_eq_some_iff.1 hs
      rw [hd] at h1
      cases op <;> try (simp [setData] at h1; done)
      simp only [setData, Option.some.injEq] at h1
      exact ⟨_, h1.symm, Latest.set rfl⟩
  · refine run_ind (P := fun ops x => ∃ v, x.data = .ang v ∧ Latest Sets.rate 0 ops v) ⟨_, rfl, Latest.nil _ _⟩
      (fun ops op x y hx hs => ?_) ops o h
    obtain ⟨v, hd, hv⟩ := hx
    unfold step at hs
    split at hs
    · obtain rfl := Option.some.inj hs; exact ⟨v, hd, hv.keep rfl⟩
    · obtain rfl := Option.some.inj hs; exact ⟨v, hd, hv.keep rfl⟩
    · obtain ⟨d, h1, rfl⟩ := Option.map_eq_some_iff.1 hs
      rw [hd] at h1
      cases op <;> try (simp [setData] at h1; done)
      simp only [setData, Option.some.injEq] at h1
      exact ⟨_, h1.symm, Latest.set rfl⟩
  · refine run_ind (P := fun ops x => ∃ v, x.data = .contact v ∧ Latest Sets.contact [] ops v) ⟨_, rfl, Latest.nil _ _⟩
      (fun ops op x y hx hs => ?_) ops o h
    obtain ⟨v, hd, hv⟩ := hx
    unfold step at hs
    split at hs
    · obtain rfl := Option.some.inj hs; exact ⟨v, hd, hv.keep rfl⟩
    · obtain rfl := Option.some.inj hs; exact ⟨v, hd, hv.keep rfl⟩
    · obtain ⟨d, h1, rfl⟩ := Option.map_eq_some_iff.1 hs
      rw [hd] at h1
      cases op <;> try (simp [setData] at h1; done)
      simp only [setData, Option.some.injEq] at h1
      exact ⟨_, h1.symm, Latest.set rfl⟩

/-- **C141 (joint states)** Positions are those set last by either setter, velocities and efforts those set last. -/
theorem C141_joints_partial (ops : List MOp) (o : MObj) (h : MCtor.joint.make.run ops = some o) :
    ∃ p v e, o.data = .joint p v e ∧ Latest Sets.jointPos [] ops p ∧ Latest Sets.jointVel [] ops v ∧
      Latest Sets.jointEffort [] ops e := by
  refine run_ind (P := fun ops x => ∃ p v e, x.data = .joint p v e ∧ Latest Sets.jointPos [] ops p ∧
    Latest Sets.jointVel [] ops v ∧ Latest Sets.jointEffort [] ops e)
    ⟨_, _, _, rfl, Latest.nil _ _, Latest.nil _ _, Latest.nil _ _⟩ (fun ops op x y hx hs => ?_) ops o h
  obtain ⟨p, v, e, hd, hp, hv, he⟩ := hx
  unfold step at hs
  split at hs
  · obtain rfl := Option.some.inj hs; exact ⟨p, v, e, hd, hp.keep rfl, hv.keep rfl, he.keep rfl⟩
  · obtain rfl := Option.some.inj hs; exact ⟨p, v, e, hd, hp.keep rfl, hv.keep rfl, he.keep rfl⟩
  · obtain ⟨d, h1, rfl⟩ := Option.map_eq_some_iff.1 hs
    rw [hd] at h1
    cases op <;> try (simp [setData] at h1; done)
    · simp only [setData, Option.some.injEq] at h1
      exact ⟨_, _, _, h1.symm, Latest.set rfl, Latest.set rfl, Latest.set rfl⟩
    · simp only [setData, Option.some.injEq] at h1
      exact ⟨_, v, e, h1.symm, Latest.set rfl, hv.keep rfl, he.keep rfl⟩

/-- **C141 (kinematics)** Contacts, joint positions and joint velocities of a kinematic measurement are those set last;
`ComputeKinematics` does not change them. -/
theorem C141_kinematics_partial (c : MCtor) (m : CheetahMeas) (hc : c.make.data = .kin m) (ops : List MOp) (o : MObj)
    (h : c.make.run ops = some o) :
    ∃ m', o.data = .kin m' ∧ Latest Sets.kinContact m.contacts ops m'.contacts ∧
      Latest Sets.kinJoint m.encoders ops m'.encoders ∧ Latest Sets.kinJointVel m.dEncoders ops m'.dEncoders := by
  refine run_ind (P := fun ops x => ∃ m', x.data = .kin m' ∧ Latest Sets.kinContact m.contacts ops m'.contacts ∧
      Latest Sets.kinJoint m.encoders ops m'.encoders ∧ Latest Sets.kinJointVel m.dEncoders ops m'.dEncoders)
    ⟨m, hc, Latest.nil _ _, Latest.nil _ _, Latest.nil _ _⟩ (fun ops op x y hx hs => ?_) ops o h
  obtain ⟨m', hd, hp, hv, he⟩ := hx
  unfold step at hs
  split at hs
  · obtain rfl := Option.some.inj hs; exact ⟨m', hd, hp.keep rfl, hv.keep rfl, he.keep rfl⟩
  · obtain rfl := Option.some.inj hs; exact ⟨m', hd, hp.keep rfl, hv.keep rfl, he.keep rfl⟩
  · obtain ⟨d, h1, rfl⟩ := Option.map_eq_some_iff.1 hs
    rw [hd] at h1
    cases op <;> try (simp [setData] at h1; done)
    · simp only [setData, Option.some.injEq] at h1
      exact ⟨_, h1.symm, Latest.set rfl, hv.keep rfl, he.keep rfl⟩
    · simp only [setData, Option.some.injEq] at h1
      exact ⟨_, h1.symm, hp.keep rfl, Latest.set rfl, he.keep rfl⟩
    · simp only [setData, Option.some.injEq] at h1
      exact ⟨_, h1.symm, hp.keep rfl, hv.keep rfl, Latest.set rfl⟩
    · obtain ⟨m'', h2, h3⟩ := Option.map_eq_some_iff.1 h1
      unfold CheetahMeas.ComputeKinematics at h2
      simp only [Option.bind_eq_bind] at h2
      obtain ⟨q, -, h4⟩ := Option.bind_eq_some_iff.1 h2
      obtain rfl := Option.some.inj h4
      exact ⟨_, h3.symm, hp.keep rfl, hv.keep rfl, he.keep rfl⟩

/-- **C141 is false** for odometry: the transformation that is read is not the translation and rotation set last. -/
theorem C141_odom_false : ∃ (ops : List MOp) (o : MObj), MCtor.odom.make.run ops = some o ∧
    Latest Sets.translation 0 ops ![1, 2, 3] ∧ o.data = .odom ![1, 2, 3] 1 1 :=
  ⟨[.setTranslation ![1, 2, 3]], _, rfl, Latest.set (ops := []) rfl, rfl⟩

/-- **C141 (odometry, partial)** Translation and rotation are those set last, and the transformation is the homogeneous matrix of
those that were set last when `set_transformation` was called last; the constructor with values calls it. -/
theorem C141_odom_partial (c : MCtor) (t0 : V3) (R0 : M3) (hc : c.make.data = .odom t0 R0 (Ros.pose4 R0 t0))
    (ops : List MOp) (o : MObj) (h : c.make.run ops = some o) :
    ∃ t R T, o.data = .odom t R T ∧ Latest Sets.translation t0 ops t ∧ Latest Sets.rotation R0 ops R ∧
      ∃ a b t' R', ops = a ++ b ∧ (a = [] ∨ ∃ a', a = a' ++ [.setTransformation]) ∧ (∀ x ∈ b, x ≠ .setTransformation) ∧
        Latest Sets.translation t0 a t' ∧ Latest Sets.rotation R0 a R' ∧ T = Ros.pose4 R' t' := by
  refine run_ind (P := fun ops x => ∃ t R T, x.data = .odom t R T ∧ Latest Sets.translation t0 ops t ∧
      Latest Sets.rotation R0 ops R ∧
      ∃ a b t' R', ops = a ++ b ∧ (a = [] ∨ ∃ a', a = a' ++ [.setTransformation]) ∧ (∀ x ∈ b, x ≠ .setTransformation) ∧
        Latest Sets.translation t0 a t' ∧ Latest Sets.rotation R0 a R' ∧ T = Ros.pose4 R' t')
    ⟨t0, R0, _, hc, Latest.nil _ _, Latest.nil _ _, [], [], t0, R0, rfl, Or.inl rfl, by simp, Latest.nil _ _, Latest.nil _ _, rfl⟩
    (fun ops op x y hx hs => ?_) ops o h
  obtain ⟨t, R, T, hd, ht, hR, a, b, t', R', h1, h2, h3, h4, h5, h6⟩ := hx
  have keep : op ≠ .setTransformation → ∃ a b t' R', ops ++ [op] = a ++ b ∧ (a = [] ∨ ∃ a', a = a' ++ [.setTransformation]) ∧
      (∀ x ∈ b, x ≠ .setTransformation) ∧ Latest Sets.translation t0 a t' ∧ Latest Sets.rotation R0 a R' ∧
        T = Ros.pose4 R' t' := by
    intro hne
    refine ⟨a, b ++ [op], t', R', by simp [h1], h2, fun x hx => ?_, h4, h5, h6⟩
    rcases List.mem_append.1 hx with hx | hx
    · exact h3 x hx
    · rw [List.mem_singleton.1 hx]; exact hne
  unfold step at hs
  split at hs
  · obtain rfl := Option.some.inj hs; exact ⟨t, R, T, hd, ht.keep rfl, hR.keep rfl, keep (by simp)⟩
  · obtain rfl := Option.some.inj hs; exact ⟨t, R, T, hd, ht.keep rfl, hR.keep rfl, keep (by simp)⟩
  · obtain ⟨d, e1, rfl⟩ := Option.map_eq_some_iff.1 hs
    rw [hd] at e1
    cases op <;> try (simp [setData] at e1; done)
    · simp only [setData, Option.some.injEq] at e1
      exact ⟨_, R, T, e1.symm, Latest.set rfl, hR.keep rfl, keep (by simp)⟩
    · simp only [setData, Option.some.injEq] at e1
      exact ⟨t, _, T, e1.symm, ht.keep rfl, Latest.set rfl, keep (by simp)⟩
    · simp only [setData, Option.some.injEq] at e1
      exact ⟨t, R, _, e1.symm, ht.keep rfl, hR.keep rfl, ops ++ [.setTransformation], [], t, R, by simp, Or.inr ⟨ops, rfl⟩,
        by simp, ht.keep rfl, hR.keep rfl, rfl⟩

/-- both constructors of odometry measurements meet the hypothesis -/
example : MCtor.odom.make.data = .odom 0 1 (Ros.pose4 1 0) ∧
    ∀ t q n s f, (MCtor.odomOf t q n s f).make.data = .odom t q.toRot (Ros.pose4 q.toRot t) := by
  refine ⟨?_, fun t q n s f => rfl⟩
  have : (1 : M4) = Ros.pose4 1 0 := by
    ext i j
    fin_cases i <;> fin_cases j <;> simp [Ros.pose4]
  simp only [MCtor.make, ← this]

/-- **C141 (magnitude and direction)** A velocity (or angular velocity) is its magnitude times its direction; the direction has
length one unless the velocity is zero, and then it is zero. -/
theorem C141_direction_partial (v : V3) :
    v = mag v • unitVec v ∧ (v ≠ 0 → mag (unitVec v) = 1) ∧ (v = 0 → mag v = 0 ∧ unitVec v = 0) ∧ 0 ≤ mag v ∧
      mag v ^ 2 = v 0 ^ 2 + v 1 ^ 2 + v 2 ^ 2 := by
  have hz0 : 0 ≤ v 0 ^ 2 + v 1 ^ 2 + v 2 ^ 2 := by positivity
  have hzero : v 0 ^ 2 + v 1 ^ 2 + v 2 ^ 2 = 0 → v = 0 := by
    intro h
    have a0 : v 0 = 0 := by nlinarith [sq_nonneg (v 0), sq_nonneg (v 1), sq_nonneg (v 2)]
    have a1 : v 1 = 0 := by nlinarith [sq_nonneg (v 0), sq_nonneg (v 1), sq_nonneg (v 2)]
    have a2 : v 2 = 0 := by nlinarith [sq_nonneg (v 0), sq_nonneg (v 1), sq_nonneg (v 2)]
    funext i
    fin_cases i
    · exact a0
    · exact a1
    · exact a2
  refine ⟨?_, ?_, ?_, Real.sqrt_nonneg _, Real.sq_sqrt hz0⟩
  · unfold unitVec mag norm3
    by_cases h : v 0 ^ 2 + v 1 ^ 2 + v 2 ^ 2 > 0
    · simp only [h, if_true]
      have := Real.sqrt_pos.2 h
      funext i
      simp only [Pi.smul_apply, smul_eq_mul]
      field_simp
    · simp only [h, if_false]
      have := hzero (le_antisymm (not_lt.1 h) hz0)
      subst this
      simp
  · intro hv
    have h : v 0 ^ 2 + v 1 ^ 2 + v 2 ^ 2 > 0 := lt_of_le_of_ne hz0 fun he => hv (hzero he.symm)
    unfold unitVec mag norm3
    simp only [h, if_true]
    rw [div_pow, div_pow, div_pow, Real.sq_sqrt hz0, ← add_div, ← add_div, div_self h.ne', Real.sqrt_one]
  · rintro rfl
    constructor
    · simp [mag, norm3]
    · simp [unitVec]

/-! the repository's tests (tests/*measurement_test) in the model -/

/-- velocitymeasurement_test.cpp `VelMag`, `VelVec` -/
example : mag ![3, 4, 0] = 5 ∧ unitVec ![3, 4, 0] = ![0.6, 0.8, 0] := by
  have h : Real.sqrt (3 ^ 2 + 4 ^ 2 + 0 ^ 2) = 5 := by
    rw [show (3 ^ 2 + 4 ^ 2 + 0 ^ 2 : ℝ) = 5 ^ 2 by norm_num]
    exact Real.sqrt_sq (by norm_num)
  constructor
  · simpa [mag, norm3] using h
  · have h' : Real.sqrt ((![3, 4, 0] : V3) 0 ^ 2 + (![3, 4, 0] : V3) 1 ^ 2 + (![3, 4, 0] : V3) 2 ^ 2) = 5 := by
      simpa using h
    unfold unitVec
    simp only [h']
    rw [if_pos (by simp; norm_num)]
    funext i
    fin_cases i <;> simp <;> norm_num

/-- jointstatemeasurement_test.cpp `SetGetBasic` -/
example (v p e : List ℝ) : ∃ o, MCtor.joint.make.run [.setJoint v p e, .setEncoders e] = some o ∧ o.data = .joint e p e :=
  ⟨_, rfl, rfl⟩

/-- jointstatemeasurement_test.cpp:10 expects the number 4 for the type of joint states, which is now that of angular
velocities -/
example : MType.JOINT_STATE.toCtorIdx = 5 ∧ MType.ANGULAR_VELOCITY.toCtorIdx = 4 := ⟨rfl, rfl⟩

/-- imumeasurement_test.cpp `QuaternionRepresentationInvariant`: a quaternion of this kind is refused -/
example : ∃ o, MCtor.imu.make.run [.setQuat 1 2 3 4, .setQuat 0.2 0.2 0.2 0.2] = some o ∧ o.data = .imu ⟨1, 0, 0, 0⟩ 0 0 := by
  have h1 := (C79_stored_iff_normalised ⟨0, 0, 0, Quat.id⟩ 1 2 3 4).2 (by norm_num)
  have h2 := (C79_stored_iff_normalised ⟨0, 0, 0, Quat.id⟩ 0.2 0.2 0.2 0.2).2 (by norm_num [abs_of_neg])
  simp only [run, step, MCtor.make, setData, h1, h2, Option.map_some, Option.bind_some]
  exact ⟨_, rfl, rfl⟩

/-- cheetahkinematics_test.cpp `OverloadCtor`, `Position`: the front right leg does not depend on the other joints -/
example (q q' : Fin 12 → ℝ) (h : ∀ k, q (Leg.FR.joint k) = q' (Leg.FR.joint k)) : legPos .FR q = legPos .FR q' := by
  unfold legPos
  rw [h 0, h 1, h 2]

/-! ### C144: orientations -/

theorem skew_smul' (a : ℝ) (n : V3) : skew (a • n) = a • skew n := by
  ext i j
  fin_cases i <;> fin_cases j <;> simp [skew]

/-- the rotation by `a` about the unit vector `n` as a matrix exponential -/
theorem exp_axis (n : V3) (hn : n 0 ^ 2 + n 1 ^ 2 + n 2 ^ 2 = 1) (a : ℝ) :
    NormedSpace.exp (skew (a • n)) = 1 + Real.sin a • skew n + (1 - Real.cos a) • (skew n * skew n) := by
  by_cases ha : a = 0
  · subst ha
    have : skew ((0 : ℝ) • n) = 0 := by rw [skew_smul', zero_smul]
    rw [this, NormedSpace.exp_zero]
    simp
  · have hN : norm3 (a • n) = |a| := by
      unfold norm3
      have : (a • n) 0 ^ 2 + (a • n) 1 ^ 2 + (a • n) 2 ^ 2 = a ^ 2 := by
        simp only [Pi.smul_apply, smul_eq_mul]
        linear_combination a ^ 2 * hn
      rw [this, Real.sqrt_sq_eq_abs]
    have hN0 : norm3 (a • n) ≠ 0 := by rw [hN]; exact abs_ne_zero.2 ha
    have hs := gamma_series hN0 0
    have he : NormedSpace.exp (skew (a • n)) = (1 / ((0).factorial : ℝ)) • (1 : M3) + acoef (norm3 (a • n)) 0 • skew (a • n)
        + acoef (norm3 (a • n)) (0 + 1) • (skew (a • n) * skew (a • n)) := by
      rw [NormedSpace.exp_eq_tsum ℝ, ← hs.tsum_eq]
      exact tsum_congr fun k => by rw [one_div, Nat.add_zero]
    rw [he, hN, skew_smul']
    have c0 : acoef |a| 0 * a = Real.sin a := by
      show Real.sin |a| / |a| * a = _
      rcases abs_cases a with ⟨h, -⟩ | ⟨h, -⟩
      · rw [h]; field_simp
      · rw [h, Real.sin_neg]; field_simp
    have c1 : acoef |a| 1 * (a * a) = 1 - Real.cos a := by
      show (1 - Real.cos |a|) / |a| ^ 2 * (a * a) = _
      rw [Real.cos_abs, sq_abs]
      field_simp
    rw [Matrix.smul_mul, Matrix.mul_smul, smul_smul, smul_smul, smul_smul, c0]
    rw [show acoef |a| (0 + 1) * a * a = 1 - Real.cos a by rw [mul_assoc]; exact c1]
    simp

/-- **C144** The quaternion of a rotation by any angle about any unit vector is accepted, and the orientation read back is that
rotation: the matrix exponential of its rotation vector, which is what `Exp_SO3` returns unless the angle is below its
threshold. -/
theorem C144_axis_angle (m : ImuMeas) (n : V3) (hn : n 0 ^ 2 + n 1 ^ 2 + n 2 ^ 2 = 1) (a : ℝ) :
    ∃ m', m.set_quaternion (Real.cos (a / 2)) (n 0 * Real.sin (a / 2)) (n 1 * Real.sin (a / 2)) (n 2 * Real.sin (a / 2)) =
        some m' ∧ m'.get_rotation_matrix = NormedSpace.exp (skew (a • n)) ∧
      (1e-10 ≤ |a| → exp_SO3 (a • n) = some m'.get_rotation_matrix) := by
  have hsq := Real.sin_sq_add_cos_sq (a / 2)
  have hq : |Real.cos (a / 2) ^ 2 + (n 0 * Real.sin (a / 2)) ^ 2 + (n 1 * Real.sin (a / 2)) ^ 2 +
      (n 2 * Real.sin (a / 2)) ^ 2 - 1| < 1e-5 := by
    have : Real.cos (a / 2) ^ 2 + (n 0 * Real.sin (a / 2)) ^ 2 + (n 1 * Real.sin (a / 2)) ^ 2 +
      (n 2 * Real.sin (a / 2)) ^ 2 - 1 = 0 := by linear_combination hsq + Real.sin (a / 2) ^ 2 * hn
    rw [this, abs_zero]
    norm_num
  refine ⟨_, (C79_stored_iff_normalised m _ _ _ _).1 hq, ?_⟩
  have key : (⟨m.time, m.angVel, m.linAcc, ⟨Real.cos (a / 2), n 0 * Real.sin (a / 2), n 1 * Real.sin (a / 2),
      n 2 * Real.sin (a / 2)⟩⟩ : ImuMeas).get_rotation_matrix = NormedSpace.exp (skew (a • n)) := by
    rw [exp_axis n hn a]
    have hs : Real.sin a = 2 * Real.sin (a / 2) * Real.cos (a / 2) := by
      rw [← Real.sin_two_mul, mul_div_cancel₀ a two_ne_zero]
    have hc : 1 - Real.cos a = 2 * Real.sin (a / 2) ^ 2 := by
      have h := Real.cos_two_mul (a / 2)
      rw [mul_div_cancel₀ a two_ne_zero] at h
      rw [h]
      linear_combination -2 * hsq
    rw [hs, hc]
    have hn0 : n 0 ^ 2 = 1 - n 1 ^ 2 - n 2 ^ 2 := by linarith
    ext i j
    fin_cases i <;> fin_cases j <;>
      simp [ImuMeas.get_rotation_matrix, Quat.toRot, skew, Matrix.mul_apply, Fin.sum_univ_three] <;> ring
  refine ⟨key, fun ha => ?_⟩
  have hN : norm3 (a • n) = |a| := by
    unfold norm3
    have : (a • n) 0 ^ 2 + (a • n) 1 ^ 2 + (a • n) 2 ^ 2 = a ^ 2 := by
      simp only [Pi.smul_apply, smul_eq_mul]
      linear_combination a ^ 2 * hn
    rw [this, Real.sqrt_sq_eq_abs]
  rw [key]
  exact C02_exp_SO3_is_exp _ (by rw [hN]; exact ha)

/-- **C144** A quaternion and its negative give the same orientation, and turning by the opposite angle gives the transposed
matrix. -/
theorem C144_sign (m m1 m2 m3 : ImuMeas) (w x y z : ℝ) (h1 : m.set_quaternion w x y z = some m1)
    (h2 : m.set_quaternion (-w) (-x) (-y) (-z) = some m2) (h3 : m.set_quaternion w (-x) (-y) (-z) = some m3) :
    m2.get_rotation_matrix = m1.get_rotation_matrix ∧ m3.get_rotation_matrix = m1.get_rotation_matrixᵀ := by
  have get : ∀ {w x y z : ℝ} {m' : ImuMeas}, m.set_quaternion w x y z = some m' →
      m'.get_rotation_matrix = Quat.toRot ⟨w, x, y, z⟩ := by
    intro w x y z m' h
    unfold ImuMeas.set_quaternion at h
    split_ifs at h
    obtain rfl := Option.some.inj h
    rfl
  rw [get h1, get h2, get h3]
  constructor
  · ext i j
    fin_cases i <;> fin_cases j <;> simp [Quat.toRot]
  · ext i j
    fin_cases i <;> fin_cases j <;> simp [Quat.toRot] <;> ring

/-- imumeasurement_test.cpp `QuaternionToRotMat2`: 60 degrees about the z axis -/
example : ∃ m', ImuMeas.default.set_quaternion (Real.cos (Real.pi / 3 / 2)) (0 * Real.sin (Real.pi / 3 / 2))
    (0 * Real.sin (Real.pi / 3 / 2)) (1 * Real.sin (Real.pi / 3 / 2)) = some m' ∧
      m'.get_rotation_matrix = !![1 / 2, -(Real.sqrt 3 / 2), 0; Real.sqrt 3 / 2, 1 / 2, 0; 0, 0, 1] := by
  have hn : (![0, 0, 1] : V3) 0 ^ 2 + (![0, 0, 1] : V3) 1 ^ 2 + (![0, 0, 1] : V3) 2 ^ 2 = 1 := by simp
  obtain ⟨m', h1, h2, -⟩ := C144_axis_angle ImuMeas.default ![0, 0, 1] hn (Real.pi / 3)
  refine ⟨m', by simpa using h1, ?_⟩
  rw [h2, exp_axis _ hn, Real.sin_pi_div_three, Real.cos_pi_div_three]
  ext i j
  fin_cases i <;> fin_cases j <;> simp [skew, Matrix.mul_apply, Fin.sum_univ_three] <;> norm_num

end Drift
