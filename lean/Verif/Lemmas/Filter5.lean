import Verif.Lemmas.Filter4
import Verif.Spec.ImuFilter

/-! Helper lemmas for the gyro filter: total correctness of single runs. -/
namespace Drift
open Matrix
namespace GyroFilter

theorem correctImu_total {f : GyroFilter} (hP : f.P.PosSemidef) (hn : Noisy f.cfg) (m : ImuMeas) :
    ∃ x P, P.PosSemidef ∧ f.correctImu m = some ({ m with angVel := hd x }, { f with x := x, P := P }) := by
  have hd := innov_det hP (Himu f.cfg.flatGround) hn.1
  obtain ⟨r, hr⟩ : ∃ r, f.correctImu m = some r := by
    unfold correctImu kalman
    dsimp only
    rw [if_neg hd]
    exact ⟨_, rfl⟩
  have hps : r.2.P.PosSemidef := correctImu_inv psd_kalman (I := fun f => f.P.PosSemidef) hP hr
  obtain ⟨x, P, e1, e2⟩ := correctImu_frame hr
  refine ⟨x, P, by rw [e1] at hps; exact hps, ?_⟩
  rw [hr, ← e1, ← e2]

theorem correctEnc_total {f : GyroFilter} (hP : f.P.PosSemidef) (hn : Noisy f.cfg) (m : ImuMeas) (a : AngVelMeas) :
    ∃ x P, P.PosSemidef ∧
      f.correctEnc m a = some ({ m with angVel := hd x, time := a.time }, { f with x := x, P := P }) := by
  have hd := innov_det hP (Henc f.cfg.flatGround) hn.2
  obtain ⟨r, hr⟩ : ∃ r, f.correctEnc m a = some r := by
    unfold correctEnc kalman
    dsimp only
    rw [if_neg hd]
    exact ⟨_, rfl⟩
  have hps : r.2.P.PosSemidef := correctEnc_inv psd_kalman (I := fun f => f.P.PosSemidef) hP hr
  obtain ⟨x, P, e1, e2⟩ := correctEnc_frame hr
  refine ⟨x, P, by rw [e1] at hps; exact hps, ?_⟩
  rw [hr, ← e1, ← e2]

/-- Everything a correction does not touch. -/
structure Frame (f f' : GyroFilter) : Prop where
  cfg : f'.cfg = f.cfg
  gyro : f'.gyro = f.gyro
  imus : f'.imus = f.imus
  lastProp : f'.lastProp = f.lastProp
  method : f'.method = f.method
  numImu : f'.numImu = f.numImu
  numAngVel : f'.numAngVel = f.numAngVel
  prev : f'.prev = f.prev
  initialized : f'.initialized = f.initialized

/-- what one reading may add to the output: nothing, or one copy of `m` with new rate and the stamp `t` -/
def Adds (f f' : GyroFilter) (m : ImuMeas) (t : ℝ) : Prop :=
  ∃ w, f'.out = f.out ++ [{ m with angVel := w, time := t }]

theorem fuseImu_total {f : GyroFilter} (hP : f.P.PosSemidef) (hn : Noisy f.cfg) (m : ImuMeas) (q : List ImuMeas) :
    ∃ f', f.fuseImu m q = some f' ∧ Frame f f' ∧ f'.P.PosSemidef ∧ f'.imu = some q ∧ f'.enc = f.enc ∧
      f'.latest = some m ∧ (f.Fresh m.time → Adds f f' m m.time) ∧ (¬ f.Fresh m.time → f'.out = f.out) := by
  by_cases hf : f.Fresh m.time
  · obtain ⟨x, P, hP', e⟩ := correctImu_total (f := { f with latest := some m }) hP hn m
    refine ⟨{ f with
      latest := some m
      x := x
      P := P
      imu := some q
      out := f.out ++ [{ m with angVel := hd x }] }, ?_, ?_⟩
    · unfold fuseImu
      dsimp only
      rw [if_pos (c := Fresh { f with latest := some m } m.time) hf, e]
      rfl
    · exact ⟨⟨rfl, rfl, rfl, rfl, rfl, rfl, rfl, rfl, rfl⟩, hP', rfl, rfl, rfl, fun _ => ⟨_, rfl⟩,
        fun h => absurd hf h⟩
  · refine ⟨{ f with latest := some m, imu := some q }, ?_, ?_⟩
    · unfold fuseImu
      dsimp only
      rw [if_neg (c := Fresh { f with latest := some m } m.time) hf]
      rfl
    · exact ⟨⟨rfl, rfl, rfl, rfl, rfl, rfl, rfl, rfl, rfl⟩, hP, rfl, rfl, rfl, fun h => absurd h hf, fun _ => rfl⟩

open Classical in
theorem fuseEnc_some {f : GyroFilter} {m : ImuMeas} (h : f.latest = some m) (a : AngVelMeas) (q : List AngVelMeas) :
    f.fuseEnc a q = (if f.Fresh a.time then (f.correctEnc m a).map fun r => r.2.push r.1 else some f).map fun f =>
      { f with enc := some q } := by
  unfold fuseEnc
  split
  · rename_i h'; rw [h] at h'; simp at h'
  · rename_i m' h'
    rw [h] at h'
    rw [Option.some.inj h']

theorem fuseEnc_total {f : GyroFilter} (hP : f.P.PosSemidef) (hn : Noisy f.cfg) (a : AngVelMeas)
    (q : List AngVelMeas) :
    ∃ f', f.fuseEnc a q = some f' ∧ Frame f f' ∧ f'.P.PosSemidef ∧ f'.imu = f.imu ∧ f'.enc = some q ∧
      f'.latest = f.latest ∧ (∀ m, f.latest = some m → f.Fresh a.time → Adds f f' m a.time) ∧
      ((f.latest = none ∨ ¬ f.Fresh a.time) → f'.out = f.out) := by
  obtain ⟨la, hla⟩ : ∃ la, f.latest = la := ⟨_, rfl⟩
  cases la with
  | none =>
    refine ⟨{ f with enc := some q }, ?_, ⟨rfl, rfl, rfl, rfl, rfl, rfl, rfl, rfl, rfl⟩, hP, rfl, rfl, rfl, ?_, ?_⟩
    · unfold fuseEnc
      rw [hla]
    · intro m hm; rw [hla] at hm; simp at hm
    · intro _; rfl
  | some m =>
    by_cases hf : f.Fresh a.time
    · obtain ⟨x, P, hP', e⟩ := correctEnc_total hP hn m a
      refine ⟨{ f with
        x := x
        P := P
        enc := some q
        out := f.out ++ [{ m with angVel := hd x, time := a.time }] }, ?_, ?_⟩
      · rw [fuseEnc_some hla, if_pos (c := Fresh f a.time) hf, e]
        rfl
      · refine ⟨⟨rfl, rfl, rfl, rfl, rfl, rfl, rfl, rfl, rfl⟩, hP', rfl, rfl, rfl, fun m' hm' _ => ?_, ?_⟩
        · rw [hla] at hm'
          obtain rfl := Option.some.inj hm'
          exact ⟨_, rfl⟩
        · rintro (h | h)
          · rw [hla] at h; simp at h
          · exact absurd hf h
    · refine ⟨{ f with enc := some q }, ?_, ?_⟩
      · rw [fuseEnc_some hla, if_neg (c := Fresh f a.time) hf]
        rfl
      · exact ⟨⟨rfl, rfl, rfl, rfl, rfl, rfl, rfl, rfl, rfl⟩, hP, rfl, rfl, rfl, fun _ _ h => absurd h hf,
          fun _ => rfl⟩

theorem propagate_frame (f : GyroFilter) : f.propagate.cfg = f.cfg ∧ f.propagate.imu = f.imu ∧
    f.propagate.imus = f.imus ∧ f.propagate.enc = f.enc ∧ f.propagate.method = f.method ∧
    f.propagate.numImu = f.numImu ∧ f.propagate.numAngVel = f.numAngVel ∧
    f.propagate.initialized = f.initialized ∧ f.propagate.out = f.out ∧
    (f.method ≠ .angVel → f.propagate.latest = f.latest) := by
  unfold propagate
  split
  · exact ⟨rfl, rfl, rfl, rfl, rfl, rfl, rfl, rfl, rfl, fun _ => rfl⟩
  · exact ⟨rfl, rfl, rfl, rfl, rfl, rfl, rfl, rfl, rfl, fun _ => rfl⟩
  · exact ⟨rfl, rfl, rfl, rfl, rfl, rfl, rfl, rfl, rfl, fun h => if_neg h⟩

theorem propagate_gyro (f : GyroFilter) : f.propagate.gyro = f.gyro.map List.tail ∧
    f.propagate.lastProp = ((f.gyro.getD []).head?.map ImuMeas.time).getD f.lastProp := by
  obtain ⟨g, hg⟩ : ∃ g, f.gyro = g := ⟨_, rfl⟩
  unfold propagate
  rcases g with _ | _ | ⟨m, q⟩
  · rw [hg]; exact ⟨rfl, rfl⟩
  · rw [hg]; exact ⟨hg, rfl⟩
  · rw [hg]; exact ⟨rfl, rfl⟩

theorem PlusReady.run {I E f} (h : PlusReady I E f) : f.runOnce = f.propagate.imuPlusAngVel := by
  unfold runOnce correctStep
  rw [if_pos h.init, (propagate_frame f).2.2.2.2.1, h.method]

/-- effect of reading `r` first -/
def Consumed (f f' : GyroFilter) (r : Reading) : Prop :=
  match r with
  | .inl m => f'.latest = some m ∧ (f.propagate.Fresh m.time → Adds f f' m m.time) ∧
      (¬ f.propagate.Fresh m.time → f'.out = f.out)
  | .inr a => f'.latest = f.latest ∧ (∀ m, f.latest = some m → f.propagate.Fresh a.time → Adds f f' m a.time) ∧
      ((f.latest = none ∨ ¬ f.propagate.Fresh a.time) → f'.out = f.out)

theorem plus_imu {I E f m q} (h : PlusReady I E f) (hI : I = m :: q)
    (he : f.propagate.imuPlusAngVel = f.propagate.fuseImu m q) :
    ∃ f', f.runOnce = some f' ∧ PlusReady q E f' ∧ Consumed f f' (.inl m) ∧ f'.gyro = f.propagate.gyro ∧
      f'.lastProp = f.propagate.lastProp ∧ f'.cfg = f.cfg := by
  obtain ⟨p1, p2, p3, p4, p5, p6, p7, p8, p9, p10⟩ := propagate_frame f
  obtain ⟨f', e, fr, hP, k1, k2, k3, k4, k5⟩ := fuseImu_total (f := f.propagate) (propagate_psd h.psd)
    (by rw [p1]; exact h.noisy) m q
  refine ⟨f', by rw [h.run, he, e], ⟨by rw [fr.initialized, p8, h.init], by rw [fr.method, p5, h.method], k1,
    by rw [k2, p4, h.enc], hP, by rw [fr.cfg, p1]; exact h.noisy⟩, ⟨k3, ?_, ?_⟩, fr.gyro, fr.lastProp,
    by rw [fr.cfg, p1]⟩
  · intro hf
    obtain ⟨w, hw⟩ := k4 hf
    exact ⟨w, by rw [hw, p9]⟩
  · intro hf; rw [k5 hf, p9]

theorem plus_enc {I E f a q} (h : PlusReady I E f) (hE : E = a :: q)
    (he : f.propagate.imuPlusAngVel = f.propagate.fuseEnc a q) :
    ∃ f', f.runOnce = some f' ∧ PlusReady I q f' ∧ Consumed f f' (.inr a) ∧ f'.gyro = f.propagate.gyro ∧
      f'.lastProp = f.propagate.lastProp ∧ f'.cfg = f.cfg := by
  obtain ⟨p1, p2, p3, p4, p5, p6, p7, p8, p9, p10⟩ := propagate_frame f
  have hl : f.propagate.latest = f.latest := p10 (by rw [h.method]; simp)
  obtain ⟨f', e, fr, hP, k1, k2, k3, k4, k5⟩ := fuseEnc_total (f := f.propagate) (propagate_psd h.psd)
    (by rw [p1]; exact h.noisy) a q
  refine ⟨f', by rw [h.run, he, e], ⟨by rw [fr.initialized, p8, h.init], by rw [fr.method, p5, h.method],
    by rw [k1, p2, h.imu], k2, hP, by rw [fr.cfg, p1]; exact h.noisy⟩, ⟨by rw [k3, hl], ?_, ?_⟩, fr.gyro,
    fr.lastProp, by rw [fr.cfg, p1]⟩
  · intro m hm hf
    obtain ⟨w, hw⟩ := k4 m (by rw [hl, hm]) hf
    exact ⟨w, by rw [hw, p9]⟩
  · intro hf; rw [k5 (by rw [hl]; exact hf), p9]

theorem mergeByTime_nil_right (I : List ImuMeas) : mergeByTime I [] = I.map Sum.inl := by
  cases I <;> simp [mergeByTime]

theorem imuPart_inl (I : List ImuMeas) : imuPart (I.map Sum.inl) = I := by
  induction I with
  | nil => rfl
  | cons m I ih => simpa [imuPart] using ih

theorem encPart_inl (I : List ImuMeas) : encPart (I.map Sum.inl) = [] := by
  induction I with
  | nil => rfl
  | cons m I ih => simpa [encPart] using ih

theorem imuPart_inr (E : List AngVelMeas) : imuPart (E.map Sum.inr) = [] := by
  induction E with
  | nil => rfl
  | cons m I ih => simpa [imuPart] using ih

theorem encPart_inr (E : List AngVelMeas) : encPart (E.map Sum.inr) = E := by
  induction E with
  | nil => rfl
  | cons m I ih => simpa [encPart] using ih

theorem imuPart_cons_inl (m : ImuMeas) (l) : imuPart (.inl m :: l) = m :: imuPart l := rfl
theorem imuPart_cons_inr (a : AngVelMeas) (l) : imuPart (.inr a :: l) = imuPart l := rfl
theorem encPart_cons_inl (m : ImuMeas) (l) : encPart (.inl m :: l) = encPart l := rfl
theorem encPart_cons_inr (a : AngVelMeas) (l) : encPart (.inr a :: l) = a :: encPart l := rfl

/-- the merge loses and reorders nothing -/
theorem merge_parts : ∀ (I : List ImuMeas) (E : List AngVelMeas),
    imuPart (mergeByTime I E) = I ∧ encPart (mergeByTime I E) = E
  | [], E => by rw [mergeByTime]; exact ⟨imuPart_inr E, encPart_inr E⟩
  | m :: I, [] => by
    rw [mergeByTime_nil_right]; exact ⟨imuPart_inl _, encPart_inl _⟩
  | m :: I, a :: E => by
    rw [mergeByTime]
    split_ifs
    · obtain ⟨h1, h2⟩ := merge_parts I (a :: E)
      exact ⟨by rw [imuPart_cons_inl, h1], by rw [encPart_cons_inl, h2]⟩
    · obtain ⟨h1, h2⟩ := merge_parts (m :: I) E
      exact ⟨by rw [imuPart_cons_inr, h1], by rw [encPart_cons_inr, h2]⟩

/-- One run consumes the first reading of the merge. -/
theorem plus_step {I E f} (h : PlusReady I E f) :
    (mergeByTime I E = [] ∧ f.runOnce = some f.propagate) ∨
    ∃ r rest I' E' f', mergeByTime I E = r :: rest ∧ rest = mergeByTime I' E' ∧ f.runOnce = some f' ∧
      PlusReady I' E' f' ∧ Consumed f f' r ∧ f'.gyro = f.propagate.gyro ∧
      f'.lastProp = f.propagate.lastProp ∧ f'.cfg = f.cfg := by
  obtain ⟨p1, p2, p3, p4, p5, p6, p7, p8, p9, p10⟩ := propagate_frame f
  have hi : f.propagate.imu = some I := p2.trans h.imu
  have he : f.propagate.enc = some E := p4.trans h.enc
  rcases I with _ | ⟨m, I⟩ <;> rcases E with _ | ⟨a, E⟩
  · left
    refine ⟨by simp [mergeByTime], ?_⟩
    rw [h.run]
    unfold imuPlusAngVel
    rw [hi, he]
  · right
    obtain ⟨f', k⟩ := plus_enc h rfl (by unfold imuPlusAngVel; rw [hi, he])
    exact ⟨.inr a, E.map Sum.inr, [], E, f', by simp [mergeByTime], by simp [mergeByTime], k⟩
  · right
    obtain ⟨f', k⟩ := plus_imu h rfl (by unfold imuPlusAngVel; rw [hi, he])
    exact ⟨.inl m, I.map Sum.inl, I, [], f', by simp [mergeByTime], by rw [mergeByTime_nil_right], k⟩
  · right
    by_cases hma : m.time ≤ a.time
    · obtain ⟨f', k⟩ := plus_imu h rfl (by unfold imuPlusAngVel; rw [hi, he]; exact if_pos hma)
      exact ⟨.inl m, mergeByTime I (a :: E), I, a :: E, f', by rw [mergeByTime, if_pos hma], rfl, k⟩
    · obtain ⟨f', k⟩ := plus_enc h rfl (by unfold imuPlusAngVel; rw [hi, he]; exact if_neg hma)
      exact ⟨.inr a, mergeByTime (m :: I) E, m :: I, E, f', by rw [mergeByTime, if_neg hma], rfl, k⟩

end GyroFilter
end Drift
