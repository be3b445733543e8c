import Verif.Props.State2
import Verif.Props.Velocity
import Verif.Props.Legged
import Verif.Props.RosPub
import Verif.Lemmas.Clock3
import Verif.Lemmas.Thr2

/-!
# Exact conditions for more properties that do not hold in general (C15, C16, C20, C49, C52, C80)
-/
namespace Drift
open Mat Matrix RobotState RosPub

/-! ### C15 -/

/-- **C15** (exactly what happens): in every state reachable by adding and deleting contacts and clearing, in any order, the noise
block of every contact other than the one in the last column is zero: from the second contact on only the newest contact has process
noise, and none has once the newest is deleted. -/
theorem C15_only_last {h : Heap} {s : RobotState} (hs : StateReach h s) {c : ℕ} (h5 : 5 ≤ c) (hc : c + 1 < s.dimX) :
    s.Qc.blk3 (3 * c - 6) (3 * c - 6) = 0 := by
  suffices H : ∀ c, 5 ≤ c → c + 1 < s.dimX → ∀ i j, i < 3 → j < 3 → s.Qc.e (3 * c - 6 + i) (3 * c - 6 + j) = 0 by
    ext i j
    rw [blk3_apply]
    exact H c h5 hc i j i.2 j.2
  clear hc h5 c
  induction hs with
  | init h =>
    intro c h5 hc
    change c + 1 < 5 at hc
    omega
  | @add h s aug P noise k s' hs hr hcl e ih =>
    intro c h5 hc i j hi hj
    have hco := (stateReach_inv hs).1
    obtain ⟨s2, e2, -, hX, -, -, -, -, -, hQ, -⟩ := add_aug_state_spec hco aug P noise (some (h.alloc 0).1)
    rw [e] at e2
    obtain ⟨-, rfl⟩ := Prod.mk.inj (Option.some.inj e2)
    have c2 := hco.x_ge; have c4 := hco.th_rows; have c7 := hco.q_rows; have c8 := hco.q_cols
    obtain ⟨Q, hQ', -, -, hent⟩ := augQc_spec (Qc := s.Qc) (dX := s.X.cols) (noise := noise) c2 (by omega) (by omega)
    change augQc s.Qc 6 (s.X.cols + 1) noise = some s'.Qc at hQ
    rw [hQ'] at hQ
    obtain rfl := Option.some.inj hQ
    have hc' : c + 1 < s.X.cols + 1 := by rw [← hX]; exact hc
    rw [hent _ _ (by omega) (by omega), dif_neg (by omega), if_neg (by omega), if_neg (by omega), if_neg (by omega)]
    split_ifs with h1
    · exact ih c h5 (by unfold dimX; omega) i j hi hj
    · rfl
  | @del h s idx h' s' hs h1 h2 e ih =>
    intro c h5 hc i j hi hj
    obtain ⟨hco, hto⟩ := stateReach_inv hs
    obtain ⟨h3, s3, e3, hX, -, hQ, -⟩ := del_aug_state_spec hco hto h1 h2
    rw [e] at e3
    obtain ⟨-, rfl⟩ := Prod.mk.inj (Option.some.inj e3)
    have c2 := hco.x_ge; have c4 := hco.th_rows; have c7 := hco.q_rows; have c8 := hco.q_cols
    have hX2 := hX.2.1
    have hc' : c + 1 < s.X.cols - 1 := by rw [← hX2]; exact hc
    have h2' : idx < s.X.cols := h2
    rw [hQ.2.2 _ _ (by omega) (by omega)]
    unfold skip
    by_cases hlt : c < idx
    · rw [if_pos (by omega), if_pos (by omega)]
      exact ih c h5 (by unfold dimX; omega) i j hi hj
    · rw [if_neg (by omega), if_neg (by omega)]
      have := ih (c + 1) (by omega) (by unfold dimX; omega) i j hi hj
      rw [show 3 * c - 6 + i + 3 = 3 * (c + 1) - 6 + i by omega, show 3 * c - 6 + j + 3 = 3 * (c + 1) - 6 + j by omega]
      exact this
  | @clear h s hs ih =>
    intro c h5 hc
    change c + 1 < 5 at hc
    omega

/-- ... so in a reachable state all contacts have the positive noise `n` exactly when there is at most one contact and it has it -/
theorem C15_exactly_when {h : Heap} {s : RobotState} (hs : StateReach h s) {n : M3} (hn : n ≠ 0) :
    (∀ c, 5 ≤ c → c < s.dimX → s.Qc.blk3 (3 * c - 6) (3 * c - 6) = n) ↔ s.dimX = 5 ∨ (s.dimX = 6 ∧ s.Qc.blk3 9 9 = n) := by
  have hx : 5 ≤ s.dimX := (stateReach_inv hs).1.x_ge
  constructor
  · intro H
    by_cases h7 : 7 ≤ s.dimX
    · have h1 := H 5 (by omega) (by omega)
      rw [C15_only_last hs (by omega) (by omega)] at h1
      exact absurd h1.symm hn
    · by_cases h5 : s.dimX = 5
      · exact .inl h5
      · exact .inr ⟨by omega, H 5 (by omega) (by omega)⟩
  · rintro (h5 | ⟨h6, H⟩) c hc hc'
    · omega
    · obtain rfl : c = 5 := by omega
      exact H

/-- three contacts: two of them without noise -/
example (h : Heap) : ∃ h' s, StateReach h' s ∧ s.dimX = 8 ∧ s.Qc.blk3 9 9 = 0 ∧ s.Qc.blk3 12 12 = 0 ∧ s.Qc.blk3 15 15 = 1 := by
  have step : ∀ {h s} (P : Mat), StateReach h s → P.rows = s.P.rows + 3 → P.cols = s.P.cols + 3 →
      ∃ h' s', StateReach h' s' ∧ s'.P = P ∧ s'.dimX = s.dimX + 1 ∧ s'.Qc.blk3 (3 * s.dimX - 6) (3 * s.dimX - 6) = 1 := by
    intro h s P hs hr hc
    obtain ⟨s', e, hq⟩ := C15_new_contact_noise_partial h s hs 0 P 1 (some (h.alloc 0).1)
    obtain ⟨s2, e2, -, hX, -, -, -, -, hP, -⟩ := add_aug_state_spec (stateReach_inv hs).1 0 P 1 (some (h.alloc 0).1)
    rw [e] at e2
    obtain ⟨-, rfl⟩ := Prod.mk.inj (Option.some.inj e2)
    exact ⟨_, s', .add 0 P 1 _ s' hs hr hc e, hP, hX, hq⟩
  obtain ⟨h1, s1, r1, p1, d1, -⟩ := step (Mat.one 18) (.init h) rfl rfl
  obtain ⟨h2, s2, r2, p2, d2, -⟩ := step (Mat.one 21) r1 (by rw [p1]; rfl) (by rw [p1]; rfl)
  obtain ⟨h3, s3, r3, p3, d3, q3⟩ := step (Mat.one 24) r2 (by rw [p2]; rfl) (by rw [p2]; rfl)
  have d1' : s1.dimX = 6 := d1
  rw [d1'] at d2; rw [d2] at d3 q3
  exact ⟨h3, s3, r3, d3, C15_only_last r3 (c := 5) (by omega) (by omega), C15_only_last r3 (c := 6) (by omega) (by omega), q3⟩

/-! ### C16 -/

/-- **C16** (exactly which block): the accessors of the bias covariances read the blocks of rows 9-11 and 12-14 whatever the state.  With one
contact these are the covariance of the contact and of the gyroscope bias, with two or more those of the first two contacts (contact `c` is
column `c` of the state, the biases are the last six rows). -/
theorem C16_which_block {h : Heap} {s : RobotState} (hs : StateReach h s) :
    s.get_gyroscope_bias_covariance = some (s.P.blk3 (3 * 5 - 6) (3 * 5 - 6)) ∧
    s.get_accelerometer_bias_covariance = some (s.P.blk3 (3 * 6 - 6) (3 * 6 - 6)) ∧
    (s.dimX = 6 → s.get_accelerometer_bias_covariance = some (s.P.blk3 (s.dimP - 6) (s.dimP - 6))) := by
  have hc := (stateReach_inv hs).1
  have c4 := hc.th_rows; have c7 := hc.p_rows; have c8 := hc.p_cols; have c5 := hc.x_ge
  refine ⟨blk3?_eq (by omega) (by omega), blk3?_eq (by omega) (by omega), fun h6 => ?_⟩
  have h6' : s.X.cols = 6 := h6
  rw [show s.dimP = 18 by unfold dimP; omega]
  exact blk3?_eq (by omega) (by omega)

/-- ... so they return the blocks of the biases for every covariance the state can have exactly when there is no contact -/
theorem C16_exactly_when {h : Heap} {s : RobotState} (hs : StateReach h s) :
    (∀ P : Mat, P.rows = s.P.rows → P.cols = s.P.cols →
      RobotState.get_gyroscope_bias_covariance { s with P := P } = some (P.blk3 (s.dimP - 6) (s.dimP - 6)) ∧
      RobotState.get_accelerometer_bias_covariance { s with P := P } = some (P.blk3 (s.dimP - 3) (s.dimP - 3))) ↔ s.dimX = 5 := by
  have hc := (stateReach_inv hs).1
  have c4 := hc.th_rows; have c7 := hc.p_rows; have c8 := hc.p_cols; have c5 := hc.x_ge
  constructor
  · intro H
    by_contra h5
    have h6 : 6 ≤ s.X.cols := by
      have : s.X.cols ≠ 5 := h5
      omega
    have h1 := (H (Mat.ofFn s.P.rows s.P.cols fun i j => if i = 9 ∧ j = 9 then 1 else 0) rfl rfl).1
    have e : RobotState.get_gyroscope_bias_covariance { s with P := Mat.ofFn s.P.rows s.P.cols fun i j => if i = 9 ∧ j = 9 then 1 else 0 } =
        some ((Mat.ofFn s.P.rows s.P.cols fun i j => if i = 9 ∧ j = 9 then 1 else 0).blk3 9 9) :=
      blk3?_eq (A := Mat.ofFn s.P.rows s.P.cols fun i j => if i = 9 ∧ j = 9 then 1 else 0) (by simp; omega) (by simp; omega)
    rw [e] at h1
    have h2 := congrFun (congrFun (Option.some.inj h1) 0) 0
    rw [blk3_apply, blk3_apply] at h2
    have hd : s.dimP = s.P.cols := rfl
    rw [ofFn_e_of_lt (by simp; omega) (by simp; omega), ofFn_e_of_lt (by simp; omega) (by simp; omega), if_pos (by simp), if_neg (by simp; omega)] at h2
    norm_num at h2
  · intro h5 P hr hcl
    have h5' : s.X.cols = 5 := h5
    rw [show s.dimP = 15 by unfold dimP; omega]
    exact ⟨blk3?_eq (A := P) (by omega) (by omega), blk3?_eq (A := P) (by omega) (by omega)⟩

/-! ### C20 -/

/-- **C20** (exactly when): `inverse` is the group inverse exactly for `K = 2`. -/
theorem C20_exactly_when (x : SEK3) (K : ℕ) (h : IsSEK K x.X) :
    (∃ y z, x.inverse = some y ∧ x.mul y = some z ∧ z.X = Mat.one (3 + K)) ↔ K = 2 := by
  constructor
  · rintro ⟨y, z, hy, hz, -⟩
    by_contra hK
    rw [C20_inverse_other_sizes x K hK h y hy] at hz
    exact absurd hz (by simp)
  · rintro rfl
    obtain ⟨y, hy, ⟨z, hz, hX⟩, -⟩ := C20_inverse_5x5_partial x h
    exact ⟨y, z, hy, hz, hX⟩

/-! ### C49 -/

/-- **C49** (exactly when): a measurement that is not older than the last propagation time is used exactly when it is the first of the queue
that is not stale, and something stale is in front of it. -/
theorem C49_exactly_when {K : ℕ} (c : VelCorr) (s : RobotState) (hsh : Shape K s) (hw : s.stateType = .worldCentric)
    (hP : PSD s.P) (hC : PD (of3 c.cov)) {tp : ℝ} (ht : s.tProp = some tp) (hth : 0 ≤ c.tDiffThres) (m : VelMeas) (rest : List VelMeas) :
    (tp ≤ m.time ∧ ∃ s', c.correct s = some (true, { c with buffer := rest }, s') ∧ VelUpdate c m.vel { s with t := some m.time } s' ∧
      ∃ pre, c.buffer = pre ++ m :: rest) ↔
    tp ≤ m.time ∧ ∃ pre, pre ≠ [] ∧ c.buffer = pre ++ m :: rest ∧ ∀ x ∈ pre, x.time < tp - c.tDiffThres := by
  constructor
  · rintro ⟨hm, s', h1, -, pre0, hb0⟩
    obtain ⟨pre, m2, hb, -, h3, h4, h5⟩ := C49_not_in_future_partial c s hsh hw ht h1
    have hb' : c.buffer = pre ++ m2 :: rest := hb
    rw [hb0] at hb'
    have hlen : pre0.length = pre.length := by
      have := congrArg List.length hb'
      simp only [List.length_append, List.length_cons] at this
      omega
    obtain ⟨rfl, h6⟩ := List.append_inj hb' hlen
    obtain ⟨rfl, -⟩ := List.cons.inj h6
    exact ⟨hm, pre0, fun hn => absurd (h5 hn) (by linarith), hb0, h4⟩
  · rintro ⟨hm, pre, hne, hb, hpre⟩
    obtain ⟨f, pre', rfl⟩ := List.exists_cons_of_ne_nil hne
    obtain ⟨s', h1, h2⟩ := C48_first_fresh (K := K) c s hsh hw hP hC (pre := f :: pre') (m := m) (rest := rest) (tp := tp) hb ht
      (by
        intro x hx
        have hx' : x = f := by rw [hb] at hx; simpa using hx.symm
        rw [hx']
        have := hpre f (by simp)
        linarith)
      (by
        intro x hx
        have := hpre x hx
        unfold Stale
        linarith)
      (by unfold Stale; linarith)
    exact ⟨hm, s', h1, h2, _, hb⟩

/-! ### C52 -/

/-- **C52** (never): whatever the state and the measurement, a measurement at the head of the queue that is newer than the propagation time by
more than the threshold is processed, exactly like one that is on time: it is removed, the call returns true and the state carries its stamp;
the rest of the result is that for the same measurement with the stamp `t0`, for every `t0` within the threshold. -/
theorem C52_never {K : ℕ} {h : Heap} {s : RobotState} (g : Good K h s) (c : LegCorr) (hids : IdsOK s c.ids)
    (hk : c.kinStd ≠ 0) (hcn : PSD (of3 c.contactNoise)) {tp : ℝ} (ht : s.tProp = some tp) (hth : 0 ≤ c.tDiffThres) {m : LegMeas}
    {rest : List LegMeas} (hb : c.buffer = m :: rest) (hm : tp + c.tDiffThres < m.time) :
    ∃ ids' h' s', c.correct h s = some (true, { c with buffer := rest, ids := ids' }, h', s') ∧ s'.t = some m.time ∧
      ∀ t0, |t0 - tp| ≤ c.tDiffThres →
        LegCorr.correct { c with buffer := { m with time := t0 } :: rest } h s =
          some (true, { c with buffer := rest, ids := ids' }, h', { s' with t := some t0 }) := by
  obtain ⟨ids', h', s', ha, hcor⟩ := (C52_queue_partial g c hids hk hcn ht).2.2 [] m rest hb (by simp) (by unfold Stale; linarith)
  have ha' := ha
  rw [apply_legCore, Option.map_eq_some_iff] at ha'
  obtain ⟨r1, e1, e2⟩ := ha'
  have htm : r1.2.t = some m.time := t_of_clk (fun a b s => clk_legCore c m _ a b s) e1
  refine ⟨ids', h', s', hcor, ?_, ?_⟩
  · obtain ⟨-, -, rfl⟩ := e2
    exact htm
  · intro t0 h0
    obtain ⟨ids2, h2, s2, ha2, hcor2⟩ := (C52_queue_partial g { c with buffer := { m with time := t0 } :: rest } hids hk hcn ht).2.2 []
      { m with time := t0 } rest rfl (by simp) (by unfold Stale; have := (abs_le.mp h0).1; dsimp only; linarith)
    rw [hcor2]
    have e4 := clk_legCore c m h (some t0) s.tProp { s with t := some m.time }
    rw [e1] at e4
    have e5 : c.apply { m with time := t0 } h s = some (ids2, h2, s2) := by rw [← ha2]; exact (Thr.leg_apply_buffer c _ _ h s).symm
    rw [apply_legCore] at e5
    have e6 : legCore c m h { s with t := some t0 } = some (r1.1, r1.2.clk (some t0) s.tProp) := e4
    have e7 : legCore c { m with time := t0 } h { s with t := some t0 } = legCore c m h { s with t := some t0 } := rfl
    change Option.map _ (legCore c { m with time := t0 } h { s with t := some t0 }) = _ at e5
    rw [e7, e6] at e5
    have htp : r1.2.tProp = s.tProp := by
      have h0 := clk_legCore c m h (some m.time) s.tProp { s with t := some m.time }
      rw [show RobotState.clk (some m.time) s.tProp { s with t := some m.time } = { s with t := some m.time } from rfl, e1] at h0
      have : r1.2 = r1.2.clk (some m.time) s.tProp := congrArg Prod.snd (Option.some.inj h0)
      rw [this]; rfl
    obtain ⟨rfl, rfl, rfl⟩ := e2
    have e8 := Option.some.inj e5
    have q1 : r1.1.1 = ids2 := congrArg (fun x => x.1) e8
    have q2 : r1.1.2 = h2 := congrArg (fun x => x.2.1) e8
    have q3 : r1.2.clk (some t0) s.tProp = s2 := congrArg (fun x => x.2.2) e8
    rw [← q1, ← q2, ← q3]
    have : r1.2.clk (some t0) s.tProp = { r1.2 with t := some t0 } := by rw [← htp]; rfl
    rw [this]

/-! ### C80 -/

/-- **C80** (exactly when): the published covariance is the documented one exactly for states whose orientation covariance equals the
position covariance and the velocity covariance. -/
theorem C80_exactly_when {st : RobotState} {n : ℕ} {m : PoseMsg} (h : poseMsg n st = some m) :
    DocumentedCov m st ↔ ∃ C, st.get_rotation_covariance = some C ∧ st.get_position_covariance = some C ∧ st.get_velocity_covariance = some C := by
  obtain ⟨Pr, Pv, h1, h2, h3, h4, -⟩ := C80_content_partial h
  constructor
  · rintro ⟨Pp, Pr', k1, k2, k3, k4⟩
    rw [h1] at k2
    obtain rfl := Option.some.inj k2
    have e1 : Pr = Pp := by ext i j; rw [← h3, k3]
    have e2 : Pv = Pr := by ext i j; rw [← h4, k4]
    exact ⟨Pr, h1, by rw [k1, e1], by rw [h2, e2]⟩
  · rintro ⟨C, k1, k2, k3⟩
    rw [h1] at k1; rw [h2] at k3
    obtain rfl := Option.some.inj k1
    obtain rfl := Option.some.inj k3
    exact ⟨Pv, Pv, k2, h1, h3, h4⟩

/-- the condition is met by a new state, for which the message is the documented one -/
example : ∃ m, poseMsg 0 { RobotState.init with t := some 0 } = some m ∧ DocumentedCov m { RobotState.init with t := some 0 } := by
  obtain ⟨m, hm⟩ := C89_defined (st := { RobotState.init with t := some 0 }) (by simp [Publishable, RobotState.init]) 0
  refine ⟨m, hm, (C80_exactly_when hm).mpr ⟨1, ?_, ?_, ?_⟩⟩
  · exact (blk3?_eq (A := Mat.one 15) (r := 0) (c := 0) (by decide) (by decide)).trans (congrArg some (by
      ext i j; fin_cases i <;> fin_cases j <;> simp [one_e]))
  · exact (blk3?_eq (A := Mat.one 15) (r := 6) (c := 6) (by decide) (by decide)).trans (congrArg some (by
      ext i j; fin_cases i <;> fin_cases j <;> simp [one_e]))
  · exact (blk3?_eq (A := Mat.one 15) (r := 3) (c := 3) (by decide) (by decide)).trans (congrArg some (by
      ext i j; fin_cases i <;> fin_cases j <;> simp [one_e]))

/-! ### C19 -/

/-- **C19** (exactly when): the state built from `SEK3(R,p,v)` has position `p` and velocity `v` exactly when `p = v`. -/
theorem C19_exactly_when (R : M3) (p v : V3) {x : SEK3} {s : RobotState} (hx : SEK3.ofRpv R p v = some x) (hs : RobotState.ofSEK3 x = some s) :
    (s.get_rotation = some R ∧ s.get_velocity = some v ∧ s.get_position = some p) ↔ p = v := by
  obtain ⟨x', s', h1, h2, h3, h4, h5⟩ := C19_from_SEK3_partial R p v
  rw [hx] at h1
  obtain rfl := Option.some.inj h1
  rw [hs] at h2
  obtain rfl := Option.some.inj h2
  constructor
  · rintro ⟨-, h, -⟩
    rw [h4] at h
    exact Option.some.inj h
  · rintro rfl
    exact ⟨h3, h4, h5⟩

end Drift
