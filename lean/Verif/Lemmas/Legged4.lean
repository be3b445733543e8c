import Verif.Lemmas.Legged3
import Verif.Props.Inekf
import Verif.Lemmas.Correction

/-! # Lemmas: the loop over the legs -/
set_option linter.unusedSimpArgs false
namespace Drift
open Mat Matrix Finset RobotState

/-! ### block diagonal positive definite matrices -/

theorem quad_blocks {A : Mat} {n : ℕ} (hr : A.rows = 3 * n) (hc : A.cols = 3 * n) (x : ℕ → ℝ) :
    quad A x = ∑ a ∈ range n, ∑ b ∈ range n, ∑ k : Fin 3, ∑ l : Fin 3,
      x (3 * a + k) * A.blk3 (3 * a) (3 * b) k l * x (3 * b + l) := by
  unfold quad
  rw [hr, hc, sum_range_three_mul]
  refine sum_congr rfl fun a _ => ?_
  rw [sum_comm (s := range n)]
  refine sum_congr rfl fun k _ => ?_
  rw [sum_range_three_mul]
  rfl

theorem quad_of3 (M : M3) (x : ℕ → ℝ) : quad (of3 M) x = ∑ k : Fin 3, ∑ l : Fin 3, x k * M k l * x l := by
  rw [quad_blocks (n := 1) rfl rfl]
  simp [sum_range_one]

theorem pd_blockdiag {A : Mat} {n : ℕ} (hr : A.rows = 3 * n) (hc : A.cols = 3 * n) {C : ℕ → M3}
    (hb : ∀ a b, a < n → b < n → A.blk3 (3 * a) (3 * b) = if b = a then C a else 0)
    (hC : ∀ a, a < n → PD (of3 (C a))) : PD A := by
  have hq : ∀ x, quad A x = ∑ a ∈ range n, quad (of3 (C a)) fun k => x (3 * a + k) := by
    intro x
    rw [quad_blocks hr hc]
    refine sum_congr rfl fun a ha => ?_
    have ha' := mem_range.mp ha
    rw [sum_eq_single_of_mem a ha]
    · rw [hb a a ha' ha', if_pos rfl, quad_of3]
    · intro b hb' hne
      rw [hb a b ha' (mem_range.mp hb'), if_neg hne]
      simp
  refine ⟨?_, fun x hx => ?_⟩
  · refine ext_blk3 (a := n) (b := n) hc hr hr hc fun i j hi hj => ?_
    rw [blk3_T, hb j i hj hi, hb i j hi hj]
    by_cases hij : i = j
    · subst hij
      rw [if_pos rfl]
      have := (hC i hi).1
      have e : of3 (C i)ᵀ = of3 (C i) := by rw [← of3_T]; exact this
      have := congrArg (fun M => M.blk3 0 0) e
      simpa using this
    · rw [if_neg hij, if_neg (Ne.symm hij), transpose_zero]
  · obtain ⟨i, hi, hxi⟩ := hx
    rw [hq]
    refine sum_pos' (fun a ha => ?_) ⟨i / 3, mem_range.mpr (by omega), ?_⟩
    · exact (hC a (mem_range.mp ha)).psd.2 _
    · refine (hC _ (by omega)).2 _ ⟨i % 3, Nat.mod_lt _ (by norm_num), ?_⟩
      rw [show 3 * (i / 3) + i % 3 = i by omega]
      exact hxi

theorem footCov_pd (c : LegCorr) (hk : c.kinStd ≠ 0) (o : LegObs) : PD (of3 (c.footCov o)) := by
  unfold LegCorr.footCov
  rw [of3_add]
  refine PSD.add_pd rfl ?_ (smul_one_pd (mul_self_pos.mpr hk))
  have : of3 ((c.encStd * c.encStd) • (o.J * o.Jᵀ)) =
      of3 o.J * of3 ((c.encStd * c.encStd) • (1 : M3)) * (of3 o.J).T := by
    rw [of3_T, ← of3_mul, ← of3_mul]
    congr 1
    rw [Matrix.mul_smul, Matrix.mul_one, Matrix.smul_mul]
  rw [this]
  refine PSD.congr rfl ?_
  have : of3 ((c.encStd * c.encStd) • (1 : M3)) = diagM 3 fun _ => c.encStd * c.encStd := by
    refine ext' rfl rfl fun i j hi hj => ?_
    simp only [of3_rows, of3_cols] at hi hj
    rw [of3_e _ hi hj, diagM_e]
    by_cases h : i = j
    · subst h; simp [hi]
    · simp [h]
  rw [this]
  exact diagM_psd fun _ _ => mul_self_nonneg _

/-! ### one leg -/

theorem grow_blk3 {A : Mat} {r k a b : ℕ} (ha : a + 3 ≤ r) (hb : b + 3 ≤ k) (h : a + 3 ≤ A.rows → b + 3 ≤ A.cols → True)
    (hin : (a + 3 ≤ A.rows ∧ b + 3 ≤ A.cols) ∨ A.rows ≤ a ∨ A.cols ≤ b) :
    (LegCorr.grow A r k).blk3 a b = A.blk3 a b := by
  funext i j
  have hi := i.2; have hj := j.2
  rw [blk3_apply, blk3_apply]
  unfold LegCorr.grow
  rw [ofFn_e_of_lt (by omega) (by omega)]
  rcases hin with hin | hin | hin
  · rw [if_pos (by omega)]
  · rw [if_neg (by omega), e_of_ge_rows _ (by omega)]
  · rw [if_neg (by omega), e_of_ge_cols _ (by omega)]

theorem blk3_out {A : Mat} {a b : ℕ} (h : A.rows ≤ a ∨ A.cols ≤ b) : A.blk3 a b = 0 := by
  funext i j
  rw [blk3_apply]
  rcases h with h | h
  · rw [e_of_ge_rows _ (by omega)]; rfl
  · rw [e_of_ge_cols _ (by omega)]; rfl

theorem stackLeg_spec {K h s} (g : Good K h s) (c : LegCorr) (o : LegObs) {col : ℕ} (h5 : 5 ≤ col) (hcol : col < 3 + K)
    {L : List (ℕ × LegObs)} {acc : LegAcc}
    (hI : StanceObs (K + 3) (s.X.blk3 0 0) (s.X.blkV 0 4) (fun j => s.X.blkV 0 j) c.footCov L acc.Z acc.H acc.N) :
    ∃ acc', c.stackLeg s o (col : ℤ) acc = some acc' ∧ acc'.rem = acc.rem ∧ acc'.new = acc.new ∧
      StanceObs (K + 3) (s.X.blk3 0 0) (s.X.blkV 0 4) (fun j => s.X.blkV 0 j) c.footCov (L ++ [(col, o)])
        acc'.Z acc'.H acc'.N := by
  have x1 := g.shape.x.rows; have x2 := g.shape.x.cols; have hK := g.shape.k
  have hp : s.dimP = 3 * K + 9 := g.shape.pc
  have ht : s.dimTheta = 6 := g.shape.thr
  have e0 : s.get_rotation = some (s.X.blk3 0 0) := blk3?_eq (by omega) (by omega)
  have e4 : s.get_position = some (s.X.blkV 0 4) := blkV?_eq (by omega) (by omega)
  have eW : s.get_world_rotation = some (s.X.blk3 0 0) := by unfold get_world_rotation; rw [g.world]; exact e0
  have eV := get_vector_eq g hcol
  obtain ⟨hr, hc, nr, nc, zr, zc, hh, hn, hz⟩ := hI
  unfold LegCorr.stackLeg
  rw [ht, if_neg (by push_cast; omega), hp, g.world, eW, e0, e4, eV]
  have hcn : (3 * (col : ℤ) - ((6 : ℕ) : ℤ)).toNat = 3 * (col - 2) := by push_cast; omega
  rw [hcn]
  simp only [Option.bind_eq_bind, Option.bind_some, neg_smul, one_smul, neg_neg]
  set H0 := LegCorr.grow acc.H (acc.H.rows + 3) (3 * K + 9) with hH0
  have H0r : H0.rows = acc.H.rows + 3 := rfl
  have H0c : H0.cols = 3 * K + 9 := rfl
  set N0 := LegCorr.grow acc.N (acc.N.rows + 3) (acc.N.rows + 3) with hN0
  have N0r : N0.rows = acc.N.rows + 3 := rfl
  have N0c : N0.cols = acc.N.rows + 3 := rfl
  set Z0 := LegCorr.grow acc.Z (acc.Z.rows + 3) 1 with hZ0
  have Z0r : Z0.rows = acc.Z.rows + 3 := rfl
  have Z0c : Z0.cols = 1 := rfl
  rw [setBlock?_eq (by simp [H0r]) (by simp [H0c] <;> omega), Option.bind_some,
    setBlock?_eq (by simp [H0r]) (by simp [H0c]; omega), Option.bind_some,
    setBlock?_eq (by simp [N0r]) (by simp [N0c]), Option.bind_some,
    setBlock?_eq (by simp [Z0r]) (by simp [Z0c]), Option.bind_some]
  refine ⟨_, rfl, rfl, rfl, ?_⟩
  have hl : (L ++ [(col, o)]).length = L.length + 1 := by simp
  have hHb : ∀ k j, k ≤ L.length → j < K + 3 → H0.blk3 (3 * k) (3 * j) = acc.H.blk3 (3 * k) (3 * j) := by
    intro k j hk hj
    refine grow_blk3 (by omega) (by omega) (fun _ _ => trivial) ?_
    rcases Nat.lt_or_ge k L.length with h | h
    · have := hc (by rintro rfl; simp at h)
      left; omega
    · right; left; omega
  have hNb : ∀ k j, k ≤ L.length → j ≤ L.length → N0.blk3 (3 * k) (3 * j) = acc.N.blk3 (3 * k) (3 * j) := by
    intro k j hk hj
    exact grow_blk3 (by omega) (by omega) (fun _ _ => trivial) (by omega)
  refine ⟨by simp [H0r, hr]; omega, fun _ => by simp [H0c]; ring, by simp [N0r, nr]; omega, by simp [N0c, nr]; omega,
    by simp [Z0r, zr]; omega, by simp [Z0c], ?_, ?_, ?_⟩
  · intro k hk j hj
    rw [hl] at hk
    rcases Nat.lt_or_ge k L.length with h | h
    · dsimp only
      rw [blk3_setBlockP_disj (by simp [H0r]) (by simp [H0c]; omega) (by omega),
        blk3_setBlockP_disj (by simp [H0r]) (by simp [H0c] <;> omega) (by omega), hHb k j (by omega) hj, hh k h j hj,
        List.getElem_append_left h]
    · obtain rfl : k = L.length := by omega
      rw [List.getElem_append_right le_rfl]
      simp only [Nat.sub_self, List.getElem_cons_zero]
      by_cases hj1 : j = col - 2
      · rw [if_pos hj1, hj1, ← hr]
        exact blk3_setBlockP_same (by simp [H0r]) (by simp [H0c]; omega)
      · rw [if_neg hj1, blk3_setBlockP_disj (by simp [H0r]) (by simp [H0c]; omega) (by omega)]
        by_cases hj2 : j = 2
        · rw [if_pos hj2, hj2, ← hr]
          exact blk3_setBlockP_same (by simp [H0r]) (by simp [H0c] <;> omega)
        · rw [if_neg hj2, blk3_setBlockP_disj (by simp [H0r]) (by simp [H0c] <;> omega) (by omega), hHb _ j le_rfl hj,
            blk3_out (by omega)]
  · intro k hk j hj
    rw [hl] at hk hj
    rcases Nat.lt_or_ge k L.length with h | h
    · rw [List.getElem_append_left h]
      dsimp only
      rw [blk3_setBlockP_disj (by simp [N0r]) (by simp [N0c]) (by omega), hNb k j (by omega) (by omega)]
      rcases Nat.lt_or_ge j L.length with h' | h'
      · exact hn k h j h'
      · rw [if_neg (by omega), blk3_out (by omega)]
    · obtain rfl : k = L.length := by omega
      rw [List.getElem_append_right le_rfl]
      simp only [Nat.sub_self, List.getElem_cons_zero]
      by_cases hj1 : j = L.length
      · rw [if_pos hj1, hj1, ← nr]
        exact blk3_setBlockP_same (by simp [N0r]) (by simp [N0c])
      · rw [if_neg hj1, blk3_setBlockP_disj (by simp [N0r]) (by simp [N0c]) (by omega), hNb _ j le_rfl (by omega),
          blk3_out (by omega)]
  · intro k hk
    rw [hl] at hk
    funext i
    have hi := i.2
    rw [blkV_apply]
    dsimp only
    rw [setBlockP_ofV_e (by simp [Z0r]) (by simp [Z0c])]
    rcases Nat.lt_or_ge k L.length with h | h
    · rw [dif_neg (by omega), List.getElem_append_left h, ← hz k h, blkV_apply, hZ0]
      unfold LegCorr.grow
      rw [ofFn_e_of_lt (by omega) (by omega), if_pos (by omega)]
    · obtain rfl : k = L.length := by omega
      rw [dif_pos (by omega), List.getElem_append_right le_rfl]
      simp only [Nat.sub_self, List.getElem_cons_zero]
      have : (⟨3 * L.length + ↑i - acc.Z.rows, by omega⟩ : Fin 3) = i := Fin.ext (by dsimp only; omega)
      rw [this]

/-! ### the loop -/

/-- legs that lost contact -/
def endedL (m : LegMeas) (ids : ℕ → Option ℕ) (n : ℕ) : List ℕ :=
  (List.range n).filterMap fun id => match m.legs[id]?, ids id with
    | some o, some _ => if o.contact then none else some id
    | _, _ => none

/-- legs that made contact -/
def startedL (c : LegCorr) (m : LegMeas) (n : ℕ) : List (ℕ × V3 × M3) :=
  (List.range n).filterMap fun id => match m.legs[id]?, c.ids id with
    | some o, none => if o.contact then some (id, o.pos, c.footCov o) else none
    | _, _ => none

theorem legLoop {K h s} (g : Good K h s) (c : LegCorr) (hids : IdsOK s c.ids) (m : LegMeas) :
    ∃ acc, forRange m.legs.length LegCorr.acc0 (c.legStep h s m) = some acc ∧
      acc.rem = endedL m c.ids m.legs.length ∧ acc.new = startedL c m m.legs.length ∧
      StanceObs (K + 3) (s.X.blk3 0 0) (s.X.blkV 0 4) (fun j => s.X.blkV 0 j) c.footCov
        (stanceL m c.ids h m.legs.length) acc.Z acc.H acc.N := by
  obtain ⟨acc, e, h1, h2, h3⟩ := forRange_inv (n := m.legs.length) (s := LegCorr.acc0) (f := c.legStep h s m)
    (Inv := fun n acc => acc.rem = endedL m c.ids n ∧ acc.new = startedL c m n ∧
      StanceObs (K + 3) (s.X.blk3 0 0) (s.X.blkV 0 4) (fun j => s.X.blkV 0 j) c.footCov
        (stanceL m c.ids h n) acc.Z acc.H acc.N)
    ⟨rfl, rfl, ⟨rfl, fun h => absurd rfl h, rfl, rfl, rfl, rfl, fun k hk => absurd hk (by simp [stanceL]),
      fun k hk => absurd hk (by simp [stanceL]), fun k hk => absurd hk (by simp [stanceL])⟩⟩ (by
    rintro n acc hn ⟨h1, h2, h3⟩
    unfold LegCorr.legStep
    have ho : m.legs[n]? = some m.legs[n] := List.getElem?_eq_getElem hn
    rw [ho]
    simp only [Option.bind_eq_bind, Option.bind_some]
    have e1 : endedL m c.ids (n + 1) = endedL m c.ids n ++ (match c.ids n with
        | some _ => if m.legs[n].contact then [] else [n] | none => []) := by
      unfold endedL
      rw [List.range_succ, List.filterMap_append]
      congr 1
      simp only [List.filterMap_cons, List.filterMap_nil, ho]
      cases c.ids n <;> cases hcc : m.legs[n].contact <;> simp [hcc]
    have e2 : startedL c m (n + 1) = startedL c m n ++ (match c.ids n with
        | none => if m.legs[n].contact then [(n, m.legs[n].pos, c.footCov m.legs[n])] else [] | some _ => []) := by
      unfold startedL
      rw [List.range_succ, List.filterMap_append]
      congr 1
      simp only [List.filterMap_cons, List.filterMap_nil, ho]
      cases c.ids n <;> cases hcc : m.legs[n].contact <;> simp [hcc]
    have e3 : stanceL m c.ids h (n + 1) = stanceL m c.ids h n ++ (match c.ids n with
        | some a => if m.legs[n].contact then [((h.val a).toNat, m.legs[n])] else [] | none => []) := by
      unfold stanceL
      rw [List.range_succ, List.filterMap_append]
      congr 1
      simp only [List.filterMap_cons, List.filterMap_nil, ho]
      cases c.ids n <;> cases hcc : m.legs[n].contact <;> simp [hcc]
    rw [e1, e2, e3]
    cases hci : c.ids n with
    | none =>
      cases hct : m.legs[n].contact with
      | false => exact ⟨acc, rfl, by simp [h1], by simp [h2], by simpa using h3⟩
      | true => exact ⟨_, rfl, by simp [h1], by simp [h2], by simpa using h3⟩
    | some a =>
      cases hct : m.legs[n].contact with
      | false => exact ⟨_, rfl, by simp [h1], by simp [h2], by simpa using h3⟩
      | true =>
        obtain ⟨j, h5, hj, -, hv, -⟩ := g.col (hids.mem n a hci)
        obtain ⟨acc', e, r1, r2, r3⟩ := stackLeg_spec g c m.legs[n] h5 hj h3
        refine ⟨acc', by dsimp only; rw [hv]; exact e, by simp [r1, h1], by simp [r2, h2], ?_⟩
        simpa [hv] using r3)
  exact ⟨acc, e, h1, h2, h3⟩

/-! ### contents of the lists -/

theorem mem_endedL {m : LegMeas} {ids : ℕ → Option ℕ} {n : ℕ} (hn : n = m.legs.length) {id : ℕ} :
    id ∈ endedL m ids n ↔ (∃ o, m.legs[id]? = some o ∧ o.contact = false) ∧ (ids id).isSome = true := by
  unfold endedL
  rw [List.mem_filterMap]
  constructor
  · rintro ⟨id', -, h⟩
    cases ho : m.legs[id']? with
    | none => simp [ho] at h
    | some o =>
      cases hi : ids id' with
      | none => simp [ho, hi] at h
      | some a =>
        cases hc : o.contact with
        | true => simp [ho, hi, hc] at h
        | false =>
          simp [ho, hi, hc] at h
          subst h
          exact ⟨⟨o, ho, hc⟩, by rw [hi]; rfl⟩
  · rintro ⟨⟨o, ho, hc⟩, hi⟩
    refine ⟨id, List.mem_range.mpr ?_, ?_⟩
    · by_contra hcon; rw [List.getElem?_eq_none (by omega)] at ho; simp at ho
    · obtain ⟨a, ha⟩ := Option.isSome_iff_exists.mp hi
      simp [ho, ha, hc]

theorem endedL_nodup (m : LegMeas) (ids : ℕ → Option ℕ) (n : ℕ) : (endedL m ids n).Nodup := by
  unfold endedL
  refine List.Nodup.filterMap ?_ List.nodup_range
  intro i j b hi hj
  have key : ∀ i, b ∈ (match m.legs[i]?, ids i with
    | some o, some _ => if o.contact then none else some i
    | _, _ => none) → i = b := by
    intro i h
    cases ho : m.legs[i]? with
    | none => simp [ho] at h
    | some o =>
      cases hi : ids i with
      | none => simp [ho, hi] at h
      | some a =>
        cases hc : o.contact with
        | true => simp [ho, hi, hc] at h
        | false => simpa [ho, hi, hc] using h
  rw [key i hi, key j hj]

theorem mem_startedL {c : LegCorr} {m : LegMeas} {n : ℕ} (hn : n = m.legs.length) {t : ℕ × V3 × M3} :
    t ∈ startedL c m n ↔ ∃ o, m.legs[t.1]? = some o ∧ o.contact = true ∧ c.ids t.1 = none ∧
      t.2.1 = o.pos ∧ t.2.2 = c.footCov o := by
  unfold startedL
  rw [List.mem_filterMap]
  constructor
  · rintro ⟨id', -, h⟩
    cases ho : m.legs[id']? with
    | none => simp [ho] at h
    | some o =>
      cases hi : c.ids id' with
      | some a => simp [ho, hi] at h
      | none =>
        cases hc : o.contact with
        | false => simp [ho, hi, hc] at h
        | true =>
          simp [ho, hi, hc] at h
          subst h
          exact ⟨o, ho, hc, hi, rfl, rfl⟩
  · rintro ⟨o, ho, hc, hi, h1, h2⟩
    refine ⟨t.1, List.mem_range.mpr ?_, ?_⟩
    · by_contra hcon; rw [List.getElem?_eq_none (by omega)] at ho; simp at ho
    · obtain ⟨a, b, d⟩ := t
      simp only at ho hi h1 h2
      simp [ho, hi, hc, h1, h2]

theorem startedL_nodup (c : LegCorr) (m : LegMeas) (n : ℕ) : ((startedL c m n).map Prod.fst).Nodup := by
  unfold startedL
  rw [List.map_filterMap]
  refine List.Nodup.filterMap ?_ List.nodup_range
  intro i j b hi hj
  have key : ∀ i, b ∈ Option.map Prod.fst (match m.legs[i]?, c.ids i with
    | some o, none => if o.contact then some (i, o.pos, c.footCov o) else none
    | _, _ => none) → i = b := by
    intro i h
    cases ho : m.legs[i]? with
    | none => simp [ho] at h
    | some o =>
      cases hi : c.ids i with
      | some a => simp [ho, hi] at h
      | none =>
        cases hc : o.contact with
        | false => simp [ho, hi, hc] at h
        | true => simpa [ho, hi, hc] using h
  rw [key i hi, key j hj]

end Drift
